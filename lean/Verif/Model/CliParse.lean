import Verif.Model.CifText
import Verif.Model.IntegerK

/-!
# Parsing the command line

Model of the parser that is declared in `/repo/src/amd/cli.py:25-124` and of `parser.parse_args()`, `cli.py:127`: the options with their names, types, choices and
defaults are those of the file; how they are found in `sys.argv[1:]` is modelled after `ArgumentParser._parse_known_args` of CPython 3.11.

Not modelled: a value `--` that is joined to the name of its option (`--outpath=--`; versions of Python differ) and a tolerance that is not finite (`CliErr.unmodelled`), the texts that argparse
prints, and the exit status. Digits are those of ASCII.
-/

namespace Amd

/-- Values in the namespace. -/
inductive CliVal
  | none
  | bool (b : Bool)
  | int (n : ℤ)
  | float (x : PyFloat)
  | str (s : String)
  deriving DecidableEq

/-- How the argument of an option is read (`type=str`, `type=int`, `type=float`), or `action='store_true'`, or the help option that argparse adds. -/
inductive ValueKind
  | str
  | int
  | float
  | flag
  | help
  deriving DecidableEq

/-- An option that is declared with `parser.add_argument`. -/
structure OptDecl where
  names : List String
  kind : ValueKind
  default : CliVal
  choices : Option (List String) := none
  deriving DecidableEq

/-- The options, `cli.py:25-124`; the first one is added by `ArgumentParser()`. -/
def cliOptions : List OptDecl := [
  { names := ["-h", "--help"], kind := .help, default := .none },
  { names := ["--outpath", "-o"], kind := .str, default := .none },
  { names := ["--format", "-f"], kind := .str, default := .str "csv" },
  { names := ["--by", "-b"], kind := .str, default := .str "AMD", choices := some ["AMD", "PDD"] },
  { names := ["--k", "-k"], kind := .int, default := .int 100 },
  { names := ["--nearest", "-n"], kind := .int, default := .none },
  { names := ["--supress_warnings"], kind := .flag, default := .bool false },
  { names := ["--reader", "-r"], kind := .str, default := .str "gemmi", choices := some ["gemmi", "pymatgen", "ase", "pycodcif", "ccdc"] },
  { names := ["--remove_hydrogens"], kind := .flag, default := .bool false },
  { names := ["--disorder"], kind := .str, default := .str "skip", choices := some ["skip", "ordered_sites", "all_sites"] },
  { names := ["--heaviest_component"], kind := .flag, default := .bool false },
  { names := ["--molecular_centres"], kind := .flag, default := .bool false },
  { names := ["--csd_refcodes"], kind := .flag, default := .bool false },
  { names := ["--refcode_families"], kind := .flag, default := .bool false },
  { names := ["--collapse_tol"], kind := .float, default := .float (.num (1 / 10000)) },
  { names := ["--metric"], kind := .str, default := .str "chebyshev" },
  { names := ["--n_jobs"], kind := .int, default := .int 1 },
  { names := ["--backend"], kind := .str, default := .str "multiprocessing" },
  { names := ["--verbose"], kind := .flag, default := .bool false },
  { names := ["--low_memory"], kind := .flag, default := .bool false }]

/-- `dest`, as argparse derives it: the first long name without the dashes in front (`_get_optional_kwargs`; none of the names has other dashes). -/
def OptDecl.dest (o : OptDecl) : String :=
  match o.names.find? (fun s => ['-', '-'].isPrefixOf s.toList) with
  | some s => String.ofList (s.toList.drop 2)
  | none => ""

/-- The namespace, as a dictionary: the first entry for a key counts. -/
abbrev CliNamespace := List (String × CliVal)

/-- The namespace with the defaults. -/
def cliDefaults : CliNamespace := cliOptions.map fun o => (o.dest, o.default)

/-- All names of options with their options (`_option_string_actions`). -/
def optionNames : List (String × OptDecl) := cliOptions.flatMap fun o => o.names.map fun s => (s, o)

/-- The option with this name. -/
def findOption (s : List Char) : Option OptDecl := (optionNames.find? fun x => x.1.toList = s).map Prod.snd

/-- `str.partition('=')`. -/
def partitionEq (s : List Char) : List Char × Option (List Char) :=
  match s.dropWhile (· ≠ '=') with
  | [] => (s, none)
  | _ :: v => (s.takeWhile (· ≠ '='), some v)

/-- `_get_option_tuples`: the options that an argument may stand for, with the value that is joined to it. -/
def optionTuples (s : List Char) : List (OptDecl × Option (List Char)) :=
  if s[1]? = some '-' then
    (optionNames.filter fun x => (partitionEq s).1.isPrefixOf x.1.toList).map fun x => (x.2, (partitionEq s).2)
  else optionNames.filterMap fun x =>
    if x.1.toList = s.take 2 then some (x.2, some (s.drop 2)) else if s.isPrefixOf x.1.toList then some (x.2, none) else none

/-- `_negative_number_matcher`: `^-\d+$|^-\d*\.\d+$`. -/
def negativeNumber : List Char → Bool
  | '-' :: l =>
    let rest := l.dropWhile Char.isDigit
    match rest with
    | [] => !l.isEmpty
    | c :: f => c == '.' && !f.isEmpty && f.all Char.isDigit
  | _ => false

/-- What an argument is taken for. -/
inductive CliTok
  | arg (s : String)
  | opt (o : OptDecl) (explicit : Option String)
  | unknown
  | separator
  deriving DecidableEq

/-- `_parse_optional`; `none` if the argument is ambiguous. -/
def classify (s : String) : Option CliTok :=
  let l := s.toList
  if l = ['-', '-'] then some .separator
  else if l.head? ≠ some '-' then some (.arg s)
  else match findOption l with
    | some o => some (.opt o none)
    | none =>
      if l.length = 1 then some (.arg s)
      else match (partitionEq l).2, findOption (partitionEq l).1 with
        | some v, some o => some (.opt o (some (String.ofList v)))
        | _, _ =>
          match optionTuples l with
          | [x] => some (.opt x.1 (x.2.map String.ofList))
          | _ :: _ :: _ => none
          | [] => if negativeNumber l then some (.arg s) else if ' ' ∈ l then some (.arg s) else some .unknown

/-- The loop of `_parse_known_args` that classifies the arguments: those after the first `--` are operands, whatever they look like. -/
def tokens : List String → Option (List CliTok)
  | [] => some []
  | s :: l =>
    match classify s with
    | none => none
    | some .separator => some (.separator :: l.map .arg)
    | some t => (tokens l).map (t :: ·)

/-- How the command ends without output: argparse exits, or an exception is raised, or the case is not modelled. -/
inductive CliErr
  | exit
  | raised (e : CErr)
  | unmodelled

/-- Python's `int(str)`; `none` stands for ValueError. -/
def pyInt (l : List Char) : Option ℤ :=
  (digitPart false [] (takeSign (strip l)).2).map fun d => if (takeSign (strip l)).1 then -(natOf d : ℤ) else natOf d

/-- `_get_value`. -/
def readValue (k : ValueKind) (v : String) : Option CliVal :=
  match k with
  | .str => some (.str v)
  | .int => (pyInt v.toList).map .int
  | .float => (pyFloat v.toList).map .float
  | .flag => none
  | .help => none

/-- `_check_value`. -/
def OptDecl.allows (o : OptDecl) (x : CliVal) : Bool :=
  match o.choices with
  | none => true
  | some l => l.any fun s => x = .str s

/-- The namespace with the value that is given for an option. -/
def storeValue (o : OptDecl) (v : String) (ns : CliNamespace) : Except CliErr CliNamespace :=
  match readValue o.kind v with
  | none => .error .exit
  | some x => if o.allows x then .ok ((o.dest, x) :: ns) else .error .exit

/-- The namespace, the operands of `paths`, whether these are complete (`nargs='+'` takes one run of arguments), and whether there are arguments that nothing takes. -/
structure ParseState where
  ns : CliNamespace
  paths : List String
  closed : Bool
  extras : Bool

/-- After an option, a run of operands that has begun is complete. -/
def ParseState.close (st : ParseState) : ParseState := { st with closed := st.closed || !st.paths.isEmpty }

/-- The loop of `_parse_known_args`. `--` is part of a run of operands, from which it is removed (`_get_values`); it is an error if nothing takes it, or where a value is expected. -/
def consumeToks : List CliTok → ParseState → Except CliErr ParseState
  | [], st => .ok st
  | .separator :: l, st => consumeToks l (if st.closed then { st with extras := true } else st)
  | .arg s :: l, st => consumeToks l (if st.closed then { st with extras := true } else { st with paths := st.paths ++ [s] })
  | .unknown :: l, st => consumeToks l { st.close with extras := true }
  | .opt o (some v) :: l, st =>
    match o.kind with
    | .flag => .error .exit
    | .help => .error .exit
    | _ =>
      if v = "--" then .error .unmodelled
      else
        match storeValue o v st.ns with
        | .error e => .error e
        | .ok ns => consumeToks l { st.close with ns := ns }
  | .opt o none :: l, st =>
    match o.kind with
    | .help => .error .exit
    | .flag => consumeToks l { st.close with ns := (o.dest, .bool true) :: st.ns }
    | _ =>
      match l with
      | .arg v :: l =>
        match storeValue o v st.ns with
        | .error e => .error e
        | .ok ns => consumeToks l { st.close with ns := ns }
      | _ => .error .exit

/-- `parser.parse_args()`: the operands and the namespace. `paths` is required, and arguments that nothing takes are an error. -/
def parseArgs (argv : List String) : Except CliErr (List String × CliNamespace) :=
  match tokens argv with
  | none => .error .exit
  | some toks =>
    match consumeToks toks ⟨cliDefaults, [], false, false⟩ with
    | .error e => .error e
    | .ok st => if st.paths = [] ∨ st.extras = true then .error .exit else .ok (st.paths, st.ns)

/-- A value of type `str`. -/
def CliNamespace.str (ns : CliNamespace) (key : String) : Except CliErr String :=
  match ns.lookup key with
  | some (.str s) => .ok s
  | _ => .error .unmodelled

/-- A flag. -/
def CliNamespace.flag (ns : CliNamespace) (key : String) : Except CliErr Bool :=
  match ns.lookup key with
  | some (.bool b) => .ok b
  | _ => .error .unmodelled

/-- A value of type `int`. -/
def CliNamespace.int (ns : CliNamespace) (key : String) : Except CliErr ℤ :=
  match ns.lookup key with
  | some (.int n) => .ok n
  | _ => .error .unmodelled

/-- A value of type `float`. -/
def CliNamespace.rat (ns : CliNamespace) (key : String) : Except CliErr ℚ :=
  match ns.lookup key with
  | some (.float (.num x)) => .ok x
  | _ => .error .unmodelled

/-- `vars(parser.parse_args())` with its keys, `cli.py:127-135`, as the record that `cliMain` uses. There `k` is a natural number; `cliRun` takes the integer. -/
noncomputable def cliArgs (paths : List String) (ns : CliNamespace) : Except CliErr CliArgs := do
  let outpath ← match ns.lookup "outpath" with
    | some (.str s) => .ok (some s)
    | some .none => .ok none
    | _ => .error CliErr.unmodelled
  let format ← ns.str "format"
  let by_ ← ns.str "by"
  let k ← ns.int "k"
  let nearest ← match ns.lookup "nearest" with
    | some (.int n) => .ok (some n)
    | some .none => .ok none
    | _ => .error CliErr.unmodelled
  let supressWarnings ← ns.flag "supress_warnings"
  let reader ← ns.str "reader"
  let removeHydrogens ← ns.flag "remove_hydrogens"
  let disorder ← ns.str "disorder"
  let heaviestComponent ← ns.flag "heaviest_component"
  let molecularCentres ← ns.flag "molecular_centres"
  let csdRefcodes ← ns.flag "csd_refcodes"
  let refcodeFamilies ← ns.flag "refcode_families"
  let collapseTol ← ns.rat "collapse_tol"
  let metric ← ns.str "metric"
  let nJobs ← ns.int "n_jobs"
  let backend ← ns.str "backend"
  let verbose ← ns.flag "verbose"
  let lowMemory ← ns.flag "low_memory"
  .ok { paths := paths, outpath := outpath, format := format, by_ := by_, k := k.toNat, nearest := nearest, supressWarnings := supressWarnings, reader := reader,
        removeHydrogens := removeHydrogens, disorder := disorder, heaviestComponent := heaviestComponent, molecularCentres := molecularCentres, csdRefcodes := csdRefcodes,
        refcodeFamilies := refcodeFamilies, collapseTol := collapseTol, metric := metric, nJobs := nJobs, backend := backend, verbose := verbose, lowMemory := lowMemory }

/-- `outpath`, `cli.py:129-131, 153-154`, for any integer `k`. -/
def CliArgs.outputInt (a : CliArgs) (k : ℤ) : String :=
  let p := a.outpath.getD (a.by_ ++ "_k=" ++ toString k ++ "_dist_matrix")
  if ("." ++ a.format).toList.isSuffixOf p.toList then p else p ++ "." ++ a.format

/-- `main()` after parsing, `cli.py:126-160`, as `cliMain` but for any integer `k`. -/
noncomputable def cliMainInt (env : Env) (formats : String → Bool) (a : CliArgs) (k : ℤ) (fuel : ℕ) : Except CErr CliOutput := do
  let df ← match a.paths with
    | [p] => compareInt env (.one (.str p)) none a.named k a.kwargs fuel
    | [p, q] => compareInt env (.one (.str p)) (some (.one (.str q))) a.named k a.kwargs fuel
    | _ => .error (.run .value)
  if formats a.format then .ok { frame := df, path := a.outputInt k, format := a.format } else .error (.run .value)

/-- `main()` with `sys.argv[1:] = argv`, `cli.py:10-160`. -/
noncomputable def cliRun (env : Env) (formats : String → Bool) (argv : List String) (fuel : ℕ) : Except CliErr CliOutput := do
  let (paths, ns) ← parseArgs argv
  let a ← cliArgs paths ns
  let k ← ns.int "k"
  match cliMainInt env formats a k fuel with
  | .ok x => .ok x
  | .error e => .error (.raised e)

end Amd
