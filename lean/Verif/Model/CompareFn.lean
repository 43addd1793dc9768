import Verif.Model.Pairwise

/-!
# `compare` and the command line

Model of `compare` and `_nearest_neighbors_dataframe` in `/repo/src/amd/compare.py` and of `/repo/src/amd/cli.py`.

Not modelled here, but parameters (`Env`): the readers, which turn paths and refcodes into crystals; scipy's distances other than
Chebyshev; the freedom that joblib, `argpartition`, `argsort` and `kneighbors` have. Progress bars have no effect on the result.
-/

namespace Amd

/-- A periodic set with its name (`periodicset.py:17-108`). -/
structure Crystal where
  name : String
  dim : ℕ
  set : PeriodicSet dim

/-- Values of keyword arguments. -/
inductive PyVal
  | none
  | bool (b : Bool)
  | int (n : ℤ)
  | float (x : ℝ)
  | str (s : String)
  | fn (f : List ℝ → List ℝ → ℝ)

/-- A dictionary with string keys, in order of insertion. -/
abbrev Kwargs := List (String × PyVal)

/-- What `compare` can raise: ValueError, IndexError (`.run .value`, `.run .bounds`), TypeError. -/
inductive CErr
  | run (e : Err)
  | type

/-- Lift a result of the numerical functions. -/
def lift {α : Type*} : Except Err α → Except CErr α
  | .ok a => .ok a
  | .error e => .error (.run e)

/-! ### Keyword arguments -/

/-- The parameters of a function with their defaults, as `inspect.signature` lists them. -/
abbrev Signature := List (String × Option PyVal)

/-- `CifReader.__init__`, `io.py:237-247`. -/
def sigCifReader : Signature := [("self", none), ("path", none), ("reader", some (.str "gemmi")), ("remove_hydrogens", some (.bool false)),
  ("disorder", some (.str "skip")), ("heaviest_component", some (.bool false)), ("molecular_centres", some (.bool false)),
  ("show_warnings", some (.bool true)), ("verbose", some (.bool false))]

/-- `CSDReader.__init__`, `io.py:425-435`. -/
def sigCSDReader : Signature := [("self", none), ("refcodes", some .none), ("refcode_families", some (.bool false)),
  ("remove_hydrogens", some (.bool false)), ("disorder", some (.str "skip")), ("heaviest_component", some (.bool false)),
  ("molecular_centres", some (.bool false)), ("show_warnings", some (.bool true)), ("verbose", some (.bool false))]

/-- `PDD`, `calculate.py:97-104`. -/
noncomputable def sigPDD : Signature := [("pset", none), ("k", none), ("lexsort", some (.bool true)), ("collapse", some (.bool true)),
  ("collapse_tol", some (.float (1 / 10000))), ("return_row_groups", some (.bool false))]

/-- `AMD_pdist`, `compare.py:386-391`. -/
def sigAMDpdist : Signature := [("amds", none), ("metric", some (.str "chebyshev")), ("low_memory", some (.bool false)), ("kwargs", none)]

/-- `PDD_pdist`, `compare.py:517-524`. -/
def sigPDDpdist : Signature := [("pdds", none), ("metric", some (.str "chebyshev")), ("backend", some (.str "multiprocessing")),
  ("n_jobs", some .none), ("verbose", some (.bool false)), ("kwargs", none)]

/-- `_nearest_items`, `compare.py:650-659`. -/
def sigNearestItems : Signature := [("n_neighbors", none), ("XA", none), ("XB", some .none), ("algorithm", some (.str "kd_tree")),
  ("leaf_size", some (.int 5)), ("metric", some (.str "chebyshev")), ("n_jobs", some .none), ("kwargs", none)]

/-- `_default_kwargs(func)`, `compare.py:133-141`. -/
def defaultKwargs (sig : Signature) : Kwargs := sig.filterMap fun p => p.2.map fun v => (p.1, v)

/-- `d.pop(key, None)`. -/
def popKw (key : String) (d : Kwargs) : Kwargs := d.filter fun p => p.1 != key

/-- `d[key] = v` for a key that is in the dictionary (`compare.py:195-197`). -/
def setKw (key : String) (v : PyVal) (d : Kwargs) : Kwargs := d.map fun p => if p.1 = key then (key, v) else p

/-- `for kw in default_kwargs: if kw in kwargs: default_kwargs[kw] = kwargs[kw]`, `compare.py:199-205`. -/
def overrideKw (kwargs d : Kwargs) : Kwargs := d.map fun p => (p.1, (kwargs.lookup p.1).getD p.2)

/-- The dictionaries of `compare.py:185-205`. -/
structure Routed where
  cif : Kwargs
  csd : Kwargs
  pdd : Kwargs
  amds : Kwargs
  pdds : Kwargs
  near : Kwargs

/-- `compare.py:185-205`. -/
noncomputable def routeKwargs (verbose : Bool) (kwargs : Kwargs) : Routed where
  cif := overrideKw kwargs (setKw "verbose" (.bool verbose) (defaultKwargs sigCifReader))
  csd := overrideKw kwargs (setKw "verbose" (.bool verbose) (popKw "refcodes" (defaultKwargs sigCSDReader)))
  pdd := overrideKw kwargs (popKw "return_row_groups" (defaultKwargs sigPDD))
  amds := overrideKw kwargs (defaultKwargs sigAMDpdist)
  pdds := overrideKw kwargs (setKw "verbose" (.bool verbose) (defaultKwargs sigPDDpdist))
  near := overrideKw kwargs (popKw "XB" (defaultKwargs sigNearestItems))

/-- The argument a function called with `**d` receives for a parameter that is in `d`. -/
def argOf (d : Kwargs) (key : String) : PyVal := (d.lookup key).getD .none

/-- `bool(v)`. -/
noncomputable def PyVal.truthy : PyVal → Bool
  | .none => false
  | .bool b => b
  | .int n => n != 0
  | .float x => open Classical in decide (x ≠ 0)
  | .str s => s != ""
  | .fn _ => true

/-- A value used as `metric`: scipy raises TypeError unless it is a string or callable. -/
def PyVal.toMetric : PyVal → Except CErr (MetricArg ℝ)
  | .str s => .ok (.named s)
  | .fn f => .ok (.fn f)
  | _ => .error .type

/-- A value used as `n_jobs`: compared with integers. -/
def PyVal.toJobs : PyVal → Except CErr (Option ℤ)
  | .none => .ok Option.none
  | .int n => .ok (some n)
  | .bool b => .ok (some (if b then 1 else 0))
  | _ => .error .type

/-- A value used as `collapse_tol`. -/
def PyVal.toFloat : PyVal → Except CErr ℝ
  | .float x => .ok x
  | .int n => .ok n
  | .bool b => .ok (if b then 1 else 0)
  | _ => .error .type

/-- A value used as `backend`. -/
def PyVal.toStr : PyVal → Except CErr String
  | .str s => .ok s
  | _ => .error .type

/-! ### `compare` -/

/-- An item of the first two arguments of `compare`; `other` is anything that is neither a `PeriodicSet` nor a path. -/
inductive Item
  | pset (c : Crystal)
  | str (s : String)
  | other

/-- The first two arguments: an item or a list. -/
inductive Input
  | one (i : Item)
  | many (l : List Item)

/-- `if not isinstance(crystals, list): crystals = [crystals]`, `compare.py:208-209, 227-228`. -/
def Input.items : Input → List Item
  | .one i => [i]
  | .many l => l

/-- What the model leaves open. -/
structure Env where
  cifReader : Kwargs → String → Except CErr (List Crystal)
  csdReader : Kwargs → List String → Except CErr (List Crystal)
  other : String → List ℝ → List ℝ → ℝ
  sched : Scheduler
  part : ℕ → List ℝ → List ℕ
  sort : List ℝ → List ℕ
  knn : Kwargs → MetricArg ℝ → List (List ℝ) → List ℝ → ℕ → NearRow ℝ

/-- The contracts of numpy, joblib and, for the default metric, sklearn. -/
structure Env.Sound (env : Env) : Prop where
  sched : env.sched.Complete
  part : PartContract env.part
  sort : SortContract env.sort
  knn : ∀ kw, KnnContract chebyshev (env.knn kw (.named "chebyshev"))

/-- `_unwrap_pset_list`, `compare.py:156-176`. -/
def unwrapPsets (env : Env) (kw : Kwargs) : List Item → Except CErr (List Crystal)
  | [] => .ok []
  | .pset c :: l =>
    match unwrapPsets env kw l with
    | .error e => .error e
    | .ok cs => .ok (c :: cs)
  | .str s :: l =>
    match env.cifReader kw s with
    | .error e => .error e
    | .ok cs =>
      match unwrapPsets env kw l with
      | .error e => .error e
      | .ok cs' => .ok (cs ++ cs')
  | .other :: _ => .error (.run .value)

/-- The strings in a list of items; `none` if something else is there. -/
def allStrings : List Item → Option (List String)
  | [] => some []
  | .str s :: l => (allStrings l).map (s :: ·)
  | _ :: _ => none

/-- `_unwrap_refcode_list`, `compare.py:143-154`. -/
def unwrapRefcodes (env : Env) (kw : Kwargs) (l : List Item) : Except CErr (List Crystal) :=
  match allStrings l with
  | none => .error .type
  | some refcodes => env.csdReader kw refcodes

/-- `compare.py:207-218` (and 227-237 for the second argument): ValueError if there are no crystals. -/
def getCrystals (env : Env) (csd : Bool) (r : Routed) (inp : Input) : Except CErr (List Crystal) :=
  match if csd then unwrapRefcodes env r.csd inp.items else unwrapPsets env r.cif inp.items with
  | .error e => .error e
  | .ok [] => .error (.run .value)
  | .ok (c :: cs) => .ok (c :: cs)

/-- What `compare` returns: a distance matrix with labels, or columns `ID 1`, `DIST 1`, `ID 2`, ... -/
inductive Frame
  | matrix (index columns : List String) (values : List (List ℝ))
  | nearest (index : List String) (columns : List (List String × List ℝ))

/-- `pd.DataFrame(dm, index=names, columns=names_)`: ValueError if the shape is wrong. -/
def matrixFrame (names names_ : List String) (dm : List (List ℝ)) : Except CErr Frame :=
  if dm.length = names.length ∧ ∀ r ∈ dm, r.length = names_.length then .ok (.matrix names names_ dm) else .error (.run .value)

/-- `names_[inds[r, c]]`; IndexError if there is no such entry. -/
def nameAt (names_ : List String) (c : ℕ) (r : NearRow ℝ) : Except Err String :=
  match (r.inds[c]?).bind fun j => names_[j]? with
  | none => .error .bounds
  | some s => .ok s

/-- `nn_dm[r, c]`; IndexError if there is no such entry. -/
def distAt (c : ℕ) (r : NearRow ℝ) : Except Err ℝ :=
  match r.dists[c]? with
  | none => .error .bounds
  | some x => .ok x

/-- Columns `ID c+1` and `DIST c+1`, `compare.py:713-714`. -/
def nearestColumn (rows : List (NearRow ℝ)) (names_ : List String) (c : ℕ) : Except Err (List String × List ℝ) :=
  (mapE (nameAt names_ c) rows).bind fun ids => (mapE (distAt c) rows).map fun ds => (ids, ds)

/-- `_nearest_neighbors_dataframe(nn_dm, inds, names, names_)`, `compare.py:701-715`; `n` is the number of columns of `nn_dm` and `inds`. -/
def nearestFrame (n : ℕ) (rows : List (NearRow ℝ)) (names names_ : List String) : Except CErr Frame :=
  match mapE (nearestColumn rows names_) (List.range n) with
  | .error e => .error (.run e)
  | .ok cols => if rows.length = names.length then .ok (.nearest names cols) else .error (.run .value)

/-- `[AMD(s, k) for s in crystals]`, `compare.py:244-246, 258-260`. -/
noncomputable def allAmds (cs : List Crystal) (k fuel : ℕ) : Except Err (List (List ℝ)) := mapE (fun c => AMD c.set k fuel) cs

/-- `by == 'AMD'`, `compare.py:242-269`. -/
noncomputable def compareAmd (env : Env) (r : Routed) (cs : List Crystal) (cs_ : Option (List Crystal)) (k : ℕ) (n : Option ℕ) (fuel : ℕ) :
    Except CErr Frame := do
  let names := cs.map Crystal.name
  let amds ← lift (allAmds cs k fuel)
  match cs_, n with
  | none, none =>
    let metric ← (argOf r.amds "metric").toMetric
    let cdm ← lift (amdPdist env.other (.array k amds) metric (argOf r.amds "low_memory").truthy)
    let dm ← lift (squareform cdm)
    matrixFrame names names dm
  | none, some n =>
    let metric ← (argOf r.near "metric").toMetric
    let nn ← lift (nearestItems (env.knn r.near metric) n amds none)
    nearestFrame n nn names names
  | some cs', none =>
    let amds_ ← lift (allAmds cs' k fuel)
    let metric ← (argOf r.amds "metric").toMetric
    let dm ← lift (amdCdist env.other (.array k amds) (.array k amds_) metric (argOf r.amds "low_memory").truthy)
    matrixFrame names (cs'.map Crystal.name) dm
  | some cs', some n =>
    let amds_ ← lift (allAmds cs' k fuel)
    let metric ← (argOf r.near "metric").toMetric
    let nn ← lift (nearestItems (env.knn r.near metric) n amds (some amds_))
    nearestFrame n nn names (cs'.map Crystal.name)

/-- `PDD(s, k, **pdd_kwargs)` for all crystals, `compare.py:273, 280`. -/
noncomputable def allPdds (r : Routed) (cs : List Crystal) (k fuel : ℕ) : Except CErr (List (List (PRow ℝ))) := do
  let tol ← (argOf r.pdd "collapse_tol").toFloat
  lift (mapE (fun c => PDD c.set k (argOf r.pdd "lexsort").truthy (argOf r.pdd "collapse").truthy tol fuel) cs)

/-- `by == 'PDD'`, `compare.py:271-287`. -/
noncomputable def comparePdd (env : Env) (r : Routed) (cs : List Crystal) (cs_ : Option (List Crystal)) (k : ℕ) (n : Option ℕ) (fuel : ℕ) :
    Except CErr Frame := do
  let names := cs.map Crystal.name
  let pdds ← allPdds r cs k fuel
  match cs_ with
  | none =>
    let metric ← (argOf r.pdds "metric").toMetric
    let jobs ← (argOf r.pdds "n_jobs").toJobs
    let backend ← (argOf r.pdds "backend").toStr
    let cdm ← lift (pddPdist (metric.dist env.other) env.sched ⟨backend, jobs, (argOf r.pdds "verbose").truthy⟩ pdds fuel)
    match n with
    | none =>
      let dm ← lift (squareform cdm)
      matrixFrame names names dm
    | some n =>
      let nn ← lift (neighbors1D env.part env.sort n cdm)
      nearestFrame n nn names names
  | some cs' =>
    let pdds_ ← allPdds r cs' k fuel
    let metric ← (argOf r.pdds "metric").toMetric
    let jobs ← (argOf r.pdds "n_jobs").toJobs
    let backend ← (argOf r.pdds "backend").toStr
    let dm ← lift (pddCdist (metric.dist env.other) env.sched ⟨backend, jobs, (argOf r.pdds "verbose").truthy⟩ pdds pdds_ fuel)
    match n with
    | none => matrixFrame names (cs'.map Crystal.name) dm
    | some n =>
      let nn ← lift (neighbors2D env.part env.sort n dm)
      nearestFrame n nn names (cs'.map Crystal.name)

/-- `s.upper()`; exact for strings of ASCII letters, and no other string becomes `'AMD'` or `'PDD'`. -/
def upper (s : String) : String := String.ofList (s.toList.map Char.toUpper)

/-- The named arguments of `compare` after the first two, `compare.py:43-47`. `n_neighbors` is not negative. -/
structure CompareArgs where
  by_ : String := "AMD"
  k : ℕ := 100
  nNeighbors : Option ℕ := none
  csdRefcodes : Bool := false
  verbose : Bool := true

/-- `compare(crystals, crystals_, by, k, n_neighbors, csd_refcodes, verbose, **kwargs)`, `compare.py:40-287`. -/
noncomputable def compare (env : Env) (crystals : Input) (crystals_ : Option Input) (args : CompareArgs) (kwargs : Kwargs) (fuel : ℕ) :
    Except CErr Frame :=
  let by_ := upper args.by_
  if by_ ≠ "AMD" ∧ by_ ≠ "PDD" then .error (.run .value)
  else do
    let r := routeKwargs args.verbose kwargs
    let cs ← getCrystals env args.csdRefcodes r crystals
    let cs_ ← match crystals_ with
      | none => .ok none
      | some inp => (getCrystals env args.csdRefcodes r inp).map some
    if by_ = "AMD" then compareAmd env r cs cs_ args.k args.nNeighbors fuel
    else comparePdd env r cs cs_ args.k args.nNeighbors fuel

/-! ### The command line -/

/-- The options of the command line after parsing, with the defaults of `cli.py:25-124`. -/
structure CliArgs where
  paths : List String
  outpath : Option String := none
  format : String := "csv"
  by_ : String := "AMD"
  k : ℕ := 100
  nearest : Option ℤ := none
  supressWarnings : Bool := false
  reader : String := "gemmi"
  removeHydrogens : Bool := false
  disorder : String := "skip"
  heaviestComponent : Bool := false
  molecularCentres : Bool := false
  csdRefcodes : Bool := false
  refcodeFamilies : Bool := false
  collapseTol : ℝ := 1 / 10000
  metric : String := "chebyshev"
  nJobs : ℤ := 1
  backend : String := "multiprocessing"
  verbose : Bool := false
  lowMemory : Bool := false

/-- The keyword arguments of `compare(crystals, crystals_, **kwargs)`, `cli.py:126-148`, that are not named parameters of `compare`. -/
def CliArgs.kwargs (a : CliArgs) : Kwargs :=
  [("nearest", match a.nearest with
      | none => .none
      | some n => .int n),
    ("reader", .str a.reader), ("remove_hydrogens", .bool a.removeHydrogens), ("disorder", .str a.disorder),
    ("heaviest_component", .bool a.heaviestComponent), ("molecular_centres", .bool a.molecularCentres),
    ("refcode_families", .bool a.refcodeFamilies), ("collapse_tol", .float a.collapseTol), ("metric", .str a.metric), ("n_jobs", .int a.nJobs),
    ("backend", .str a.backend), ("low_memory", .bool a.lowMemory), ("show_warnings", .bool (!a.supressWarnings))]

/-- The named parameters of `compare` that are options of the command line: `by`, `k`, `csd_refcodes`, `verbose`. -/
def CliArgs.named (a : CliArgs) : CompareArgs := { by_ := a.by_, k := a.k, csdRefcodes := a.csdRefcodes, verbose := a.verbose }

/-- The file written and what is in it. -/
structure CliOutput where
  frame : Frame
  path : String
  format : String

/-- `outpath`, `cli.py:129-131, 153-154`. -/
def CliArgs.output (a : CliArgs) : String :=
  let p := a.outpath.getD (a.by_ ++ "_k=" ++ toString a.k ++ "_dist_matrix")
  if ("." ++ a.format).toList.isSuffixOf p.toList then p else p ++ "." ++ a.format

/-- `main()`, `cli.py:126-160`. `--verbose` also prints the frame, which is not modelled; the choices that argparse checks are not checked here; `formats` are the formats pandas can write (`to_csv` etc.). -/
noncomputable def cliMain (env : Env) (formats : String → Bool) (a : CliArgs) (fuel : ℕ) : Except CErr CliOutput := do
  let df ← match a.paths with
    | [p] => compare env (.one (.str p)) none a.named a.kwargs fuel
    | [p, q] => compare env (.one (.str p)) (some (.one (.str q))) a.named a.kwargs fuel
    | _ => .error (.run .value)
  if formats a.format then .ok { frame := df, path := a.output, format := a.format } else .error (.run .value)

end Amd
