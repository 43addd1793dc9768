import Verif.Model.CompareFn
import Verif.Spec.CifText

/-!
# What a command line means

The options of the command with their meaning, and the ways to write them, independent of any parser.
-/

namespace Amd

/-- An option that is given, with its value. -/
inductive Setting
  | outpath (s : String)
  | format (s : String)
  | by_ (s : String)
  | k (n : ℤ)
  | nearest (n : ℤ)
  | supressWarnings
  | reader (s : String)
  | removeHydrogens
  | disorder (s : String)
  | heaviestComponent
  | molecularCentres
  | csdRefcodes
  | refcodeFamilies
  | collapseTol (x : ℚ)
  | metric (s : String)
  | nJobs (n : ℤ)
  | backend (s : String)
  | verbose
  | lowMemory

/-- What it changes. A negative `k` counts as 0 here; see `settingsK`. -/
noncomputable def Setting.apply : Setting → CliArgs → CliArgs
  | .outpath s, a => { a with outpath := some s }
  | .format s, a => { a with format := s }
  | .by_ s, a => { a with by_ := s }
  | .k n, a => { a with k := n.toNat }
  | .nearest n, a => { a with nearest := some n }
  | .supressWarnings, a => { a with supressWarnings := true }
  | .reader s, a => { a with reader := s }
  | .removeHydrogens, a => { a with removeHydrogens := true }
  | .disorder s, a => { a with disorder := s }
  | .heaviestComponent, a => { a with heaviestComponent := true }
  | .molecularCentres, a => { a with molecularCentres := true }
  | .csdRefcodes, a => { a with csdRefcodes := true }
  | .refcodeFamilies, a => { a with refcodeFamilies := true }
  | .collapseTol x, a => { a with collapseTol := x }
  | .metric s, a => { a with metric := s }
  | .nJobs n, a => { a with nJobs := n }
  | .backend s, a => { a with backend := s }
  | .verbose, a => { a with verbose := true }
  | .lowMemory, a => { a with lowMemory := true }

/-- Its long name. -/
def Setting.long : Setting → String
  | .outpath _ => "--outpath"
  | .format _ => "--format"
  | .by_ _ => "--by"
  | .k _ => "--k"
  | .nearest _ => "--nearest"
  | .supressWarnings => "--supress_warnings"
  | .reader _ => "--reader"
  | .removeHydrogens => "--remove_hydrogens"
  | .disorder _ => "--disorder"
  | .heaviestComponent => "--heaviest_component"
  | .molecularCentres => "--molecular_centres"
  | .csdRefcodes => "--csd_refcodes"
  | .refcodeFamilies => "--refcode_families"
  | .collapseTol _ => "--collapse_tol"
  | .metric _ => "--metric"
  | .nJobs _ => "--n_jobs"
  | .backend _ => "--backend"
  | .verbose => "--verbose"
  | .lowMemory => "--low_memory"

/-- Its short name, if it has one. -/
def Setting.short : Setting → Option String
  | .outpath _ => some "-o"
  | .format _ => some "-f"
  | .by_ _ => some "-b"
  | .k _ => some "-k"
  | .nearest _ => some "-n"
  | .reader _ => some "-r"
  | _ => none

/-- All long names. -/
def longNames : List String := ["--help", "--outpath", "--format", "--by", "--k", "--nearest", "--supress_warnings", "--reader", "--remove_hydrogens", "--disorder",
  "--heaviest_component", "--molecular_centres", "--csd_refcodes", "--refcode_families", "--collapse_tol", "--metric", "--n_jobs", "--backend", "--verbose", "--low_memory"]

/-- The text is a decimal integer with an optional sign. -/
def WritesInt (s : String) (n : ℤ) : Prop :=
  ∃ (sign : Sign) (ds : List (Fin 10)), ds ≠ [] ∧ s = String.ofList (sign.text ++ ds.map digitText) ∧ n = sign.value * digitsValue ds

/-- The text of its value; flags have none. -/
def Setting.Text : Setting → Option String → Prop
  | .outpath s, v => v = some s
  | .format s, v => v = some s
  | .by_ s, v => v = some s ∧ s ∈ ["AMD", "PDD"]
  | .k n, v => ∃ t, v = some t ∧ WritesInt t n
  | .nearest n, v => ∃ t, v = some t ∧ WritesInt t n
  | .reader s, v => v = some s ∧ s ∈ ["gemmi", "pymatgen", "ase", "pycodcif", "ccdc"]
  | .disorder s, v => v = some s ∧ s ∈ ["skip", "ordered_sites", "all_sites"]
  | .collapseTol x, v => ∃ n : Numeral, n.WF ∧ v = some (String.ofList n.text) ∧ x = n.value
  | .metric s, v => v = some s
  | .nJobs n, v => ∃ t, v = some t ∧ WritesInt t n
  | .backend s, v => v = some s
  | _, v => v = none

/-- The name may be abbreviated to what no other long name begins with. -/
def Abbreviates (p long : String) : Prop :=
  2 < p.toList.length ∧ p.toList <+: long.toList ∧ ∀ l ∈ longNames, p.toList <+: l.toList → l = long

/-- An argument that is not taken for an option: it does not begin with a dash, or it is a negative integer. -/
def Operand (s : String) : Prop :=
  s.toList.head? ≠ some '-' ∨ ∃ ds : List (Fin 10), ds ≠ [] ∧ s = String.ofList ('-' :: ds.map digitText)

/-- The ways to write an option with these names and this text of the value. (The value `--` cannot be written in a way that all versions of Python accept.) -/
inductive Spelling (long : String) (short : Option String) : Option String → List String → Prop
  | flag (p : String) (h : Abbreviates p long) : Spelling long short none [p]
  | separate (p v : String) (h : Abbreviates p long) (hv : Operand v) : Spelling long short (some v) [p, v]
  | joined (p v : String) (h : Abbreviates p long) (hd : v ≠ "--") : Spelling long short (some v) [p ++ "=" ++ v]
  | shortSeparate (s v : String) (h : short = some s) (hv : Operand v) : Spelling long short (some v) [s, v]
  | shortEquals (s v : String) (h : short = some s) (hd : v ≠ "--") : Spelling long short (some v) [s ++ "=" ++ v]
  | shortJoined (s v : String) (h : short = some s) (h0 : v ≠ "") (h1 : v.toList.head? ≠ some '=') (hd : v ≠ "--") : Spelling long short (some v) [s ++ v]

/-- The arguments are these options, in order. -/
inductive Options : List Setting → List String → Prop
  | nil : Options [] []
  | cons {s : Setting} {v : Option String} {l l' : List String} {ss : List Setting} (ht : s.Text v) (hs : Spelling s.long s.short v l) (h : Options ss l') :
      Options (s :: ss) (l ++ l')

/-- The command line consists of options, paths and more options; or of options and paths with `--` somewhere before or after the paths, or between them. What follows `--` are paths, also if it begins
with a dash. -/
def Written (settings : List Setting) (paths argv : List String) : Prop :=
  (∃ (s s' : List Setting) (l l' : List String), settings = s ++ s' ∧ Options s l ∧ Options s' l' ∧ (∀ p ∈ paths, Operand p) ∧ paths ≠ [] ∧ argv = l ++ paths ++ l') ∨
  ∃ l ps qs : List String, Options settings l ∧ (∀ p ∈ ps, Operand p) ∧ paths = ps ++ qs ∧ paths ≠ [] ∧ argv = l ++ ps ++ "--" :: qs

/-- The value of `k`: the last one that is given, or 100. -/
def settingsK (settings : List Setting) : ℤ := settings.foldl (fun z s => match s with | .k n => n | _ => z) 100

/-- A command line with a `k` that is not negative. -/
def CommandLine (settings : List Setting) (paths argv : List String) : Prop := Written settings paths argv ∧ 0 ≤ settingsK settings

/-- The values of all options: those given, later ones before earlier ones, and the defaults. -/
noncomputable def settingsArgs (settings : List Setting) (paths : List String) : CliArgs := settings.foldl (fun a s => s.apply a) { paths := paths }

/-- An argument that looks like a long option but is none. -/
def UnknownOption (s : String) : Prop :=
  ∃ name : List Char, ['-', '-'] <+: name ∧ 2 < name.length ∧ '=' ∉ name ∧ ' ' ∉ s.toList ∧ (s.toList = name ∨ ∃ v, s.toList = name ++ '=' :: v) ∧
    ∀ l ∈ longNames, ¬ name <+: l.toList

/-- The short name of the option with this long name, for the options below. -/
def shortOf (long : String) : Option String :=
  if long = "--by" then some "-b" else if long = "--k" then some "-k" else if long = "--nearest" then some "-n" else if long = "--reader" then some "-r" else none

/-- The text is not a possible value of the option with this long name. -/
def Refused (long v : String) : Prop :=
  (long = "--by" ∧ v ∉ ["AMD", "PDD"]) ∨ (long = "--reader" ∧ v ∉ ["gemmi", "pymatgen", "ase", "pycodcif", "ccdc"]) ∨
  (long = "--disorder" ∧ v ∉ ["skip", "ordered_sites", "all_sites"]) ∨
  (long ∈ ["--k", "--nearest", "--n_jobs"] ∧ ∃ c ∈ v.toList, ¬ (c.isDigit ∨ c ∈ ['+', '-', '_', ' ', '\t', '\n', '\r', '\x0b', '\x0c']))

end Amd
