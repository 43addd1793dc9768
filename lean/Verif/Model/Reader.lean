import Verif.Model.CompareFn

/-!
# The readers

Model of `_Reader`, `CifReader`, `CifReader._dir_generator` and the refcode handling of `CSDReader`, `/repo/src/amd/io.py:107-497`.

Python's `warnings` module is modelled as a process-wide list of filters and the list of the warnings shown so far. Simplifications: the actions
`'default'`, `'always'`, `'module'` and `'once'` all show a warning (Python shows identical warnings from one place only once for some of them);
line numbers and modules of warnings are not modelled. The parsing packages and the file system are parameters. Progress bars are not modelled.
-/

namespace Amd

/-- A warning: the name of its category and its text. -/
structure Warning where
  category : String
  text : String
  deriving DecidableEq, Repr

/-- What a filter does with a warning: `'ignore'`, `'error'`, anything else. -/
inductive Action
  | ignore
  | error
  | display
  deriving DecidableEq, Repr

/-- An entry of `warnings.filters`. -/
structure Filter where
  action : Action
  applies : Warning → Bool

/-- The state of the process that matters: `warnings.filters` and the warnings displayed so far. -/
structure World where
  filters : List Filter
  shown : List Warning

/-- The first filter that applies decides, else the default action, which displays the warning. -/
def World.action (w : World) (x : Warning) : Action :=
  match w.filters.find? fun f => f.applies x with
  | some f => f.action
  | none => .display

/-- `warnings.simplefilter('ignore')` as in `io.py:135`: a filter in front of all others that ignores everything. (Python also removes an older
copy of the same filter, which has no effect as the new one is in front.) -/
def World.ignoreAll (w : World) : World := { w with filters := ⟨.ignore, fun _ => true⟩ :: w.filters }

/-- The exceptions that readers meet: `ParseError`, a warning turned into an exception by a filter, any other exception. -/
inductive Exc
  | parse (text : String)
  | warning (w : Warning)
  | other (text : String)
  deriving DecidableEq, Repr

/-- What a converter does with an item: it issues warnings, then raises or returns. -/
abbrev Conversion (α : Type) := List Warning × Except Exc α

/-- Warnings issued inside `with warnings.catch_warnings(record=True)`, `io.py:147`: ignored, raised or recorded, as the filters say. -/
def record (w : World) : List Warning → Except Exc (List Warning)
  | [] => .ok []
  | x :: xs =>
    match w.action x with
    | .ignore => record w xs
    | .error => .error (.warning x)
    | .display => (record w xs).map (x :: ·)

/-- What becomes of an item. -/
inductive Outcome (α : Type)
  | skip
  | raise (e : Exc)
  | done (warnings : List Warning) (a : α)

/-- The `with` block, `io.py:147-155`. A ParseError becomes a warning inside the block, so it is recorded (or raised, if a filter says so) in the
list that is left at `continue`. -/
def convertItem {α : Type} (w : World) (c : Conversion α) : Outcome α :=
  match record w c.1 with
  | .error e => .raise e
  | .ok ws =>
    match c.2 with
    | .ok a => .done ws a
    | .error (.parse t) => if w.action ⟨"UserWarning", t⟩ = .error then .raise (.warning ⟨"UserWarning", t⟩) else .skip
    | .error e => .raise e

/-- `warnings.warn` for each recorded warning with the name of the crystal in front, `io.py:157-159`. -/
def reissue (name : String) (w : World) : List Warning → World × Option Exc
  | [] => (w, none)
  | x :: xs =>
    let x' : Warning := ⟨x.category, "(name=" ++ name ++ ") " ++ x.text⟩
    match w.action x' with
    | .ignore => reissue name w xs
    | .error => (w, some (.warning x'))
    | .display => reissue name { w with shown := w.shown ++ [x'] } xs

/-- What the underlying iterator does, in order: it gives an item, issues a warning (`_dir_generator`, `io.py:353-357`) or raises. -/
inductive Event (ι : Type)
  | item (i : ι)
  | warn (x : Warning)
  | raise (e : Exc)

/-- What `next(reader)` does: return an item, raise StopIteration, raise another exception. -/
inductive NextResult (α : Type)
  | yield (a : α)
  | stop
  | raise (e : Exc)

variable {ι α : Type}

/-- A reader, `io.py:107-125`: what its iterator has still to do, the converter, the `name` attribute of what it returns, `show_warnings`. -/
structure Reader (ι α : Type) where
  events : List (Event ι)
  converter : ι → Conversion α
  name : α → String
  showWarnings : Bool

/-- The loop of `__next__`, `io.py:137-161`. A warning issued by the generator that a filter turns into an exception ends the generator. -/
def nextLoop (converter : ι → Conversion α) (name : α → String) (w : World) : List (Event ι) → World × List (Event ι) × NextResult α
  | [] => (w, [], .stop)
  | .raise e :: es => (w, es, .raise e)
  | .warn x :: es =>
    match w.action x with
    | .ignore => nextLoop converter name w es
    | .error => (w, [], .raise (.warning x))
    | .display => nextLoop converter name { w with shown := w.shown ++ [x] } es
  | .item i :: es =>
    match convertItem w (converter i) with
    | .skip => nextLoop converter name w es
    | .raise e => (w, es, .raise e)
    | .done ws a =>
      match reissue (name a) w ws with
      | (w, none) => (w, es, .yield a)
      | (w, some e) => (w, es, .raise e)

/-- `_Reader.__next__`, `io.py:126-161`. -/
def Reader.next (r : Reader ι α) (w : World) : World × Reader ι α × NextResult α :=
  match nextLoop r.converter r.name (if r.showWarnings then w else w.ignoreAll) r.events with
  | (w, es, x) => (w, { r with events := es }, x)

/-- `list(self)`, at most `n` items. -/
def Reader.collect : ℕ → Reader ι α → World → World × Except Exc (List α)
  | 0, _, w => (w, .ok [])
  | n + 1, r, w =>
    match r.next w with
    | (w, _, .stop) => (w, .ok [])
    | (w, _, .raise e) => (w, .error e)
    | (w, r, .yield a) =>
      match Reader.collect n r w with
      | (w, l) => (w, l.map (a :: ·))

/-- `list(reader)`. Each call of `next` but the last uses up an event. -/
def Reader.toList (r : Reader ι α) (w : World) : World × Except Exc (List α) := r.collect (r.events.length + 1) w

/-- What `read` returns: one crystal or a list. -/
inductive ReadResult (α : Type)
  | one (a : α)
  | many (l : List α)

/-- `if len(items) == 1: return items[0]`, `io.py:169-171`. -/
def ReadResult.of : List α → ReadResult α
  | [a] => .one a
  | l => .many l

/-- `_Reader.read`, `io.py:163-171`. -/
def Reader.read (r : Reader ι α) (w : World) : World × Except Exc (ReadResult α) :=
  match r.toList w with
  | (w, l) => (w, l.map ReadResult.of)

/-- A program that uses several readers: at each step, `next` of the reader with the given number is called. Exceptions are caught by the program. -/
def runHistory (w : World) (rs : List (Reader ι α)) : List ℕ → World × List (Reader ι α)
  | [] => (w, rs)
  | i :: is =>
    match rs[i]? with
    | none => runHistory w rs is
    | some r =>
      match r.next w with
      | (w, r, _) => runHistory w (rs.set i r) is

/-! ### `CifReader` -/

/-- Lower case (ASCII letters only). -/
def lower (s : String) : String := String.ofList (s.toList.map Char.toLower)

/-- `Path.suffix[1:]`: what follows the last dot, if there is something before and after it. -/
def suffixOf (name : String) : String :=
  let l := name.toList
  let ext := (l.reverse.takeWhile (· ≠ '.')).reverse
  if ext.length + 1 < l.length ∧ 0 < ext.length then String.ofList ext else ""

/-- An entry of a directory; what parsing it gives: items, then possibly an exception (its `repr`). -/
structure DirEntry (ι : Type) where
  path : String
  name : String
  isFile : Bool
  items : List ι
  failure : Option String

/-- `CifReader._dir_generator`, `io.py:336-357`. -/
def dirEvents (extensions : List String) : List (DirEntry ι) → List (Event ι)
  | [] => []
  | f :: fs =>
    if f.isFile = false then dirEvents extensions fs
    else if lower (suffixOf f.name) ∉ extensions then dirEvents extensions fs
    else f.items.map Event.item ++ (match f.failure with
      | none => []
      | some e => [Event.warn ⟨"UserWarning", "Error parsing \"" ++ f.path ++ "\", skipping file. Exception: " ++ e⟩]) ++ dirEvents extensions fs

/-- What is at a path: a file, with what the parser gives for it; a directory; nothing. -/
inductive PathKind (ι : Type)
  | file (parsed : Except Exc (List (Event ι)))
  | dir (entries : List (DirEntry ι))
  | missing

/-- The converters of the backends and the file system as seen by their parsers. -/
structure ReaderEnv (ι α : Type) where
  converter : (reader : String) → (removeHydrogens : Bool) → (disorder : String) → (heaviest centres : Bool) → ι → Conversion α
  path : (reader : String) → String → PathKind ι
  name : α → String
  ccdc : Option (List String)

/-- The extensions accepted by a backend, or the exception, `io.py:270-323`. -/
def backendExtensions (env : ReaderEnv ι α) (reader : String) : Except Exc (List String) :=
  if reader = "gemmi" then .ok ["cif"]
  else if reader = "ase" ∨ reader = "pycodcif" then .ok ["cif"]
  else if reader = "pymatgen" then .ok ["cif"]
  else if reader = "ccdc" then
    match env.ccdc with
    | none => .error (.other "ImportError")
    | some l => .ok l
  else .error (.other "ValueError")

/-- `CifReader.__init__`, `io.py:237-334`. -/
def cifReaderInit (env : ReaderEnv ι α) (path : String) (reader : String := "gemmi") (removeHydrogens : Bool := false) (disorder : String := "skip")
    (heaviest : Bool := false) (centres : Bool := false) (showWarnings : Bool := true) : Except Exc (Reader ι α) :=
  if disorder ∉ ["skip", "ordered_sites", "all_sites"] then .error (.other "ValueError")
  else if reader ≠ "ccdc" ∧ heaviest then .error (.other "NotImplementedError")
  else if reader ≠ "ccdc" ∧ centres then .error (.other "NotImplementedError")
  else do
    let extensions ← backendExtensions env reader
    let events ← match env.path reader path with
      | .file parsed => parsed
      | .dir entries => .ok (dirEvents extensions entries)
      | .missing => .error (.other "FileNotFoundError")
    .ok { events := events, converter := env.converter reader removeHydrogens disorder heaviest centres, name := env.name, showWarnings := showWarnings }

/-! ### `CSDReader` -/

/-- The argument `refcodes`: None, a string, a list (`none`: an item that is not a string), something else. -/
inductive Refcodes
  | none
  | str (s : String)
  | list (l : List (Option String))
  | other

/-- `[refcodes]`, `None` or the list, with the check that all are strings, `io.py:451-467`. -/
def normRefcodes : Refcodes → Except Exc (Option (List String))
  | .none => .ok Option.none
  | .str s => if lower s = "csd" then .ok Option.none else .ok (some [s])
  | .list l => if l.all Option.isSome then .ok (some (l.filterMap id)) else .error (.other "ValueError")
  | .other => .error (.other "ValueError")

/-- The loop with `seen`, `io.py:476-482`. -/
def dedupLoop (refcodes seen : List String) : List String → List String
  | [] => refcodes
  | x :: xs => if x ∉ seen then dedupLoop (refcodes ++ [x]) (x :: seen) xs else dedupLoop refcodes seen xs

/-- The refcodes that `CSDReader` reads, `io.py:451-482`; `none` stands for the whole CSD; `search` gives the identifiers of the hits for a family. -/
def csdRefcodes (search : String → List String) (arg : Refcodes) (families : Bool) : Except Exc (Option (List String)) :=
  (normRefcodes arg).map fun
    | none => none
    | some l => if families then some (dedupLoop [] [] (l.flatMap search)) else some l

end Amd
