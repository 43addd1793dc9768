import Verif.Props.Compare

/-!
# Keyword arguments of `compare` and the command line: C39, C40

`kwOr kwargs key default` is the value given for `key`, or the default.
-/

namespace Amd

variable {env : Env} {args : CompareArgs} {kwargs : Kwargs}

/-! ### C39 -/

/-- The options `CifReader` is called with by `compare(..., verbose=verbose, **kwargs)`. -/
def expectedCifOptions (verbose : Bool) (kwargs : Kwargs) : Kwargs :=
  [("reader", kwOr kwargs "reader" (.str "gemmi")), ("remove_hydrogens", kwOr kwargs "remove_hydrogens" (.bool false)),
    ("disorder", kwOr kwargs "disorder" (.str "skip")), ("heaviest_component", kwOr kwargs "heaviest_component" (.bool false)),
    ("molecular_centres", kwOr kwargs "molecular_centres" (.bool false)), ("show_warnings", kwOr kwargs "show_warnings" (.bool true)),
    ("verbose", kwOr kwargs "verbose" (.bool verbose))]

/-- The options `CSDReader` is called with. -/
def expectedCsdOptions (verbose : Bool) (kwargs : Kwargs) : Kwargs :=
  [("refcode_families", kwOr kwargs "refcode_families" (.bool false)), ("remove_hydrogens", kwOr kwargs "remove_hydrogens" (.bool false)),
    ("disorder", kwOr kwargs "disorder" (.str "skip")), ("heaviest_component", kwOr kwargs "heaviest_component" (.bool false)),
    ("molecular_centres", kwOr kwargs "molecular_centres" (.bool false)), ("show_warnings", kwOr kwargs "show_warnings" (.bool true)),
    ("verbose", kwOr kwargs "verbose" (.bool verbose))]

/-- The options `_nearest_items`, and through it sklearn's `NearestNeighbors`, is called with. -/
def expectedNearOptions (kwargs : Kwargs) : Kwargs :=
  [("algorithm", kwOr kwargs "algorithm" (.str "kd_tree")), ("leaf_size", kwOr kwargs "leaf_size" (.int 5)),
    ("metric", kwOr kwargs "metric" (.str "chebyshev")), ("n_jobs", kwOr kwargs "n_jobs" .none)]

/-- The keyword arguments that are used. -/
def usedKeywords : List String :=
  ["reader", "remove_hydrogens", "disorder", "heaviest_component", "molecular_centres", "show_warnings", "verbose", "refcode_families", "lexsort",
    "collapse", "collapse_tol", "metric", "low_memory", "backend", "n_jobs", "algorithm", "leaf_size"]

/-- **C39** The values that reach the readers and the nearest neighbour search: the result depends on `CifReader`, `CSDReader` and `NearestNeighbors`
only through calls with the expected options. (For `PDD`, `AMD_pdist` and `PDD_pdist`, the theorems of C37 and C38 say which options are
used: `pddOf`, `PddOptions`, `metric`, `low_memory`.) -/
theorem C39_reader_options {env' : Env} (hcif : env.cifReader (expectedCifOptions args.verbose kwargs) = env'.cifReader (expectedCifOptions args.verbose kwargs))
    (hcsd : env.csdReader (expectedCsdOptions args.verbose kwargs) = env'.csdReader (expectedCsdOptions args.verbose kwargs))
    (hknn : env.knn (expectedNearOptions kwargs) = env'.knn (expectedNearOptions kwargs)) (ho : env.other = env'.other) (hs : env.sched = env'.sched)
    (hp : env.part = env'.part) (hso : env.sort = env'.sort) (crystals : Input) (crystals_ : Option Input) (fuel : ℕ) :
    compare env crystals crystals_ args kwargs fuel = compare env' crystals crystals_ args kwargs fuel := by
  have hu : ∀ l, unwrapPsets env (routeKwargs args.verbose kwargs).cif l = unwrapPsets env' (routeKwargs args.verbose kwargs).cif l := by
    intro l
    induction l with
    | nil => rfl
    | cons i l ih =>
      cases i with
      | pset c => simp [unwrapPsets, ih]
      | str s =>
        have : env.cifReader (routeKwargs args.verbose kwargs).cif s = env'.cifReader (routeKwargs args.verbose kwargs).cif s := congrFun hcif s
        simp [unwrapPsets, ih, this]
      | other => rfl
  have hc : ∀ l, env.csdReader (routeKwargs args.verbose kwargs).csd l = env'.csdReader (routeKwargs args.verbose kwargs).csd l := congrFun hcsd
  have hg : ∀ csd inp, getCrystals env csd (routeKwargs args.verbose kwargs) inp = getCrystals env' csd (routeKwargs args.verbose kwargs) inp := by
    intro csd inp
    simp only [getCrystals, hu, unwrapRefcodes, hc]
  have hk : env.knn (routeKwargs args.verbose kwargs).near = env'.knn (routeKwargs args.verbose kwargs).near := hknn
  simp only [compare, hg, compareAmd, comparePdd, hk, ho, hs, hp, hso]

/-- **C39** `verbose=v` reaches the readers and the comparison of PDDs. (`verbose` is never in `kwargs`, as it is a parameter of `compare`.) -/
theorem C39_verbose (h : kwargs.lookup "verbose" = none) (v : Bool) : argOf (routeKwargs v kwargs).cif "verbose" = .bool v ∧
    argOf (routeKwargs v kwargs).csd "verbose" = .bool v ∧ argOf (routeKwargs v kwargs).pdds "verbose" = .bool v := by
  refine ⟨?_, ?_, ?_⟩ <;>
  · change kwOr kwargs "verbose" (.bool v) = .bool v
    rw [kwOr, h]
    rfl

/-- **C39** All options that reach a function: for readers, `PDD`, and the comparison functions, each parameter gets the value given, else the
default of that function. -/
theorem C39_routes (v : Bool) : (routeKwargs v kwargs).cif = expectedCifOptions v kwargs ∧ (routeKwargs v kwargs).csd = expectedCsdOptions v kwargs ∧
    (routeKwargs v kwargs).pdd = [("lexsort", kwOr kwargs "lexsort" (.bool true)), ("collapse", kwOr kwargs "collapse" (.bool true)),
      ("collapse_tol", kwOr kwargs "collapse_tol" (.float (1 / 10000)))] ∧
    (routeKwargs v kwargs).amds = [("metric", kwOr kwargs "metric" (.str "chebyshev")), ("low_memory", kwOr kwargs "low_memory" (.bool false))] ∧
    (routeKwargs v kwargs).pdds = [("metric", kwOr kwargs "metric" (.str "chebyshev")), ("backend", kwOr kwargs "backend" (.str "multiprocessing")),
      ("n_jobs", kwOr kwargs "n_jobs" .none), ("verbose", kwOr kwargs "verbose" (.bool v))] ∧
    (routeKwargs v kwargs).near = expectedNearOptions kwargs := ⟨rfl, rfl, rfl, rfl, rfl, rfl⟩

/-- **C39** Any other keyword argument is ignored without an exception, for every call. -/
theorem C39_ignored {key : String} (hkey : key ∉ usedKeywords) (v : PyVal) (crystals : Input) (crystals_ : Option Input) (fuel : ℕ) :
    compare env crystals crystals_ args ((key, v) :: kwargs) fuel = compare env crystals crystals_ args kwargs fuel := by
  have hk : ∀ {k : String} (d : PyVal), k ∈ usedKeywords → kwOr ((key, v) :: kwargs) k d = kwOr kwargs k d := by
    intro k d hk
    rw [kwOr, kwOr, List.lookup_cons, beq_false_of_ne (by rintro rfl; exact hkey hk)]
  have e : routeKwargs args.verbose ((key, v) :: kwargs) = routeKwargs args.verbose kwargs := by
    obtain ⟨a1, a2, a3, a4, a5, a6⟩ := C39_routes (kwargs := (key, v) :: kwargs) args.verbose
    obtain ⟨b1, b2, b3, b4, b5, b6⟩ := C39_routes (kwargs := kwargs) args.verbose
    have ext : ∀ {r s : Routed}, r.cif = s.cif → r.csd = s.csd → r.pdd = s.pdd → r.amds = s.amds → r.pdds = s.pdds → r.near = s.near → r = s := by
      rintro ⟨⟩ ⟨⟩ rfl rfl rfl rfl rfl rfl
      rfl
    refine ext ?_ ?_ ?_ ?_ ?_ ?_
    · rw [a1, b1]
      simp only [expectedCifOptions]
      rw [hk _ (by decide), hk _ (by decide), hk _ (by decide), hk _ (by decide), hk _ (by decide), hk _ (by decide), hk _ (by decide)]
    · rw [a2, b2]
      simp only [expectedCsdOptions]
      rw [hk _ (by decide), hk _ (by decide), hk _ (by decide), hk _ (by decide), hk _ (by decide), hk _ (by decide), hk _ (by decide)]
    · rw [a3, b3, hk _ (by decide), hk _ (by decide), hk _ (by decide)]
    · rw [a4, b4, hk _ (by decide), hk _ (by decide)]
    · rw [a5, b5, hk _ (by decide), hk _ (by decide), hk _ (by decide), hk _ (by decide)]
    · rw [a6, b6]
      simp only [expectedNearOptions]
      rw [hk _ (by decide), hk _ (by decide), hk _ (by decide), hk _ (by decide)]
  rw [compare, compare, e]

/-- **C39 does not hold** for all documented keyword arguments: `p` and `metric_params` (documented as passed on to the nearest neighbour search) and
`families` (used in the examples of the documentation) have no effect at all. -/
theorem C39_false (v : PyVal) (crystals : Input) (crystals_ : Option Input) (fuel : ℕ) :
    compare env crystals crystals_ args (("p", v) :: kwargs) fuel = compare env crystals crystals_ args kwargs fuel ∧
    compare env crystals crystals_ args (("metric_params", v) :: kwargs) fuel = compare env crystals crystals_ args kwargs fuel ∧
    compare env crystals crystals_ args (("families", v) :: kwargs) fuel = compare env crystals crystals_ args kwargs fuel :=
  ⟨C39_ignored (by decide) v _ _ _, C39_ignored (by decide) v _ _ _, C39_ignored (by decide) v _ _ _⟩

/-- Options in use: hydrogens are removed and rows are not collapsed. -/
example : (routeKwargs true [("remove_hydrogens", .bool true), ("collapse", .bool false)]).cif =
    [("reader", .str "gemmi"), ("remove_hydrogens", .bool true), ("disorder", .str "skip"), ("heaviest_component", .bool false),
      ("molecular_centres", .bool false), ("show_warnings", .bool true), ("verbose", .bool true)] := by
  rw [(C39_routes true).1]
  rfl

/-! ### C40 -/

variable {a : CliArgs} {formats : String → Bool}

/-- **C40** With one or two paths, the command writes what `compare` returns for these paths with the options given; `--supress_warnings`
becomes `show_warnings=False`. Missing: `--nearest`, see `C40_false`. -/
theorem C40_options_partial (p q : String) (fuel : ℕ) (hf : formats a.format = true) :
    (∀ f, compare env (.one (.str p)) none { by_ := a.by_, k := a.k, csdRefcodes := a.csdRefcodes, verbose := a.verbose } a.kwargs fuel = .ok f →
      a.paths = [p] → ∃ path, cliMain env formats a fuel = .ok { frame := f, path := path, format := a.format }) ∧
    (∀ f, compare env (.one (.str p)) (some (.one (.str q))) { by_ := a.by_, k := a.k, csdRefcodes := a.csdRefcodes, verbose := a.verbose } a.kwargs fuel =
        .ok f → a.paths = [p, q] → ∃ path, cliMain env formats a fuel = .ok { frame := f, path := path, format := a.format }) := by
  have e : a.named = { by_ := a.by_, k := a.k, csdRefcodes := a.csdRefcodes, verbose := a.verbose } := rfl
  constructor
  · intro f h hp
    refine ⟨a.output, ?_⟩
    rw [cliMain, hp]
    simp only [e, h, bind, Except.bind, hf, if_true]
  · intro f h hp
    refine ⟨a.output, ?_⟩
    rw [cliMain, hp]
    simp only [e, h, bind, Except.bind, hf, if_true]

/-- **C40** The other options arrive as the keyword arguments of the same name. -/
theorem C40_keywords_partial (d : PyVal) : kwOr a.kwargs "reader" d = .str a.reader ∧ kwOr a.kwargs "remove_hydrogens" d = .bool a.removeHydrogens ∧
    kwOr a.kwargs "disorder" d = .str a.disorder ∧ kwOr a.kwargs "heaviest_component" d = .bool a.heaviestComponent ∧
    kwOr a.kwargs "molecular_centres" d = .bool a.molecularCentres ∧ kwOr a.kwargs "refcode_families" d = .bool a.refcodeFamilies ∧
    kwOr a.kwargs "collapse_tol" d = .float a.collapseTol ∧ kwOr a.kwargs "metric" d = .str a.metric ∧ kwOr a.kwargs "n_jobs" d = .int a.nJobs ∧
    kwOr a.kwargs "backend" d = .str a.backend ∧ kwOr a.kwargs "low_memory" d = .bool a.lowMemory ∧
    kwOr a.kwargs "show_warnings" d = .bool (!a.supressWarnings) := ⟨rfl, rfl, rfl, rfl, rfl, rfl, rfl, rfl, rfl, rfl, rfl, rfl⟩

/-- **C40 does not hold** for `--nearest`: it has no effect. Whatever number is given, the output is the same as without the option. -/
theorem C40_false (n : ℤ) (fuel : ℕ) : cliMain env formats { a with nearest := some n } fuel = cliMain env formats { a with nearest := none } fuel := by
  have e : ∀ crystals crystals_, compare env crystals crystals_ a.named (CliArgs.kwargs { a with nearest := some n }) fuel =
      compare env crystals crystals_ a.named (CliArgs.kwargs { a with nearest := none }) fuel := by
    intro crystals crystals_
    rw [CliArgs.kwargs, CliArgs.kwargs]
    exact (C39_ignored (key := "nearest") (by decide) _ _ _ _).trans (C39_ignored (key := "nearest") (by decide) _ _ _ _).symm
  rw [cliMain, cliMain]
  rcases h : a.paths with _ | ⟨p, _ | ⟨q, _ | ⟨r, l⟩⟩⟩
  · rfl
  · exact congrArg (fun x => x >>= _) (e _ _)
  · exact congrArg (fun x => x >>= _) (e _ _)
  · rfl

/-- **C40** So a full distance matrix is written where the nearest neighbours are asked for. -/
theorem C40_false_matrix : ∃ (env : Env) (a : CliArgs) (F : ℕ), a.nearest = some 1 ∧ ∀ fuel ≥ F, ∃ M path,
    cliMain env (fun s => s == "csv") a fuel = .ok { frame := .matrix ["a", "b", "c"] ["a", "b", "c"] M, path := path, format := "csv" } := by
  obtain ⟨_, M, F, -, h⟩ := C37_amd (env := exampleEnv) (args := { verbose := false }) (inp := .one (.str "data.cif"))
    (kwargs := CliArgs.kwargs { paths := ["data.cif"], nearest := some 1 }) exampleCrystals_valid (by simp) (by rfl) rfl rfl (example_inputs _) (by simp [exampleCrystals])
  refine ⟨exampleEnv, { paths := ["data.cif"], nearest := some 1 }, F, rfl, fun fuel hf => ⟨M, ?_⟩⟩
  exact (C40_options_partial (a := { paths := ["data.cif"], nearest := some 1 }) "data.cif" "" fuel (by rfl)).1 _ (h fuel hf).2 rfl

/-- **C40** More than two paths, or an unknown format, raise ValueError. -/
theorem C40_raises (fuel : ℕ) : (2 < a.paths.length → cliMain env formats a fuel = .error (.run .value)) ∧
    (formats a.format = false → ∃ e, cliMain env formats a fuel = .error e) := by
  constructor
  · intro h
    rw [cliMain]
    rcases h' : a.paths with _ | ⟨p, _ | ⟨q, _ | ⟨r, l⟩⟩⟩
    · rfl
    · rw [h'] at h; simp at h
    · rw [h'] at h; simp at h
    · rfl
  · intro h
    rw [cliMain]
    have key : ∀ x : Except CErr Frame, ∃ e, (x >>= fun df => if formats a.format = true then
        Except.ok { frame := df, path := a.output, format := a.format } else .error (.run .value)) = (.error e : Except CErr CliOutput) := by
      intro x
      cases x with
      | error e => exact ⟨e, rfl⟩
      | ok df => exact ⟨.run .value, by simp [bind, Except.bind, h]⟩
    rcases a.paths with _ | ⟨p, _ | ⟨q, _ | ⟨r, l⟩⟩⟩ <;> exact key _

/-- **C40** The file written has the format's extension, which is added only if it is not there; its name is `--outpath` or is made of `--by` and
`--k`. -/
theorem C40_outpath : ("." ++ a.format).toList <:+ a.output.toList ∧
    ((∀ p, a.outpath = some p → a.output = p ∨ a.output = p ++ "." ++ a.format) ∧
      (a.outpath = none → a.output = a.by_ ++ "_k=" ++ toString a.k ++ "_dist_matrix" ∨
        a.output = a.by_ ++ "_k=" ++ toString a.k ++ "_dist_matrix" ++ "." ++ a.format)) ∧
    ∀ p, a.outpath = some p → ("." ++ a.format).toList <:+ p.toList → a.output = p := by
  rw [CliArgs.output]
  refine ⟨?_, ⟨fun p hp => ?_, fun hp => ?_⟩, fun p hp h => ?_⟩
  · split_ifs with h
    · exact List.isSuffixOf_iff_suffix.1 h
    · simp only [String.toList_append, List.append_assoc]
      exact ⟨_, rfl⟩
  · rw [hp]; simp only [Option.getD_some]
    split_ifs <;> simp
  · rw [hp]; simp only [Option.getD_none]
    split_ifs <;> simp
  · rw [hp]; simp only [Option.getD_some]
    rw [if_pos (List.isSuffixOf_iff_suffix.2 h)]

end Amd
