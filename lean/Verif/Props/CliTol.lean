import Verif.Proof.CliTol
import Verif.Props.CommandLine
import Verif.Props.CompareTol

/-!
# C112: the command with any float as `--collapse_tol`
-/

namespace Amd

variable {env : Env} {formats : String → Bool} {ss : List (Setting ⊕ Tolerance)} {paths argv : List String} {fuel : ℕ}

theorem Except.bind_ok {ε α β : Type} {x : Except ε α} {f : α → Except ε β} {b : β} : (x >>= f) = .ok b ↔ ∃ a, x = .ok a ∧ f a = .ok b := by
  cases x <;> simp [bind, Except.bind]

theorem str_ok {ns : CliNamespace} {key s : String} (h : ns.str key = .ok s) : ns.lookup key = some (.str s) := by
  rw [CliNamespace.str] at h
  split at h <;> simp_all

theorem flag_ok {ns : CliNamespace} {key : String} {b : Bool} (h : ns.flag key = .ok b) : ns.lookup key = some (.bool b) := by
  rw [CliNamespace.flag] at h
  split at h <;> simp_all

theorem int_ok {ns : CliNamespace} {key : String} {n : ℤ} (h : ns.int key = .ok n) : ns.lookup key = some (.int n) := by
  rw [CliNamespace.int] at h
  split at h <;> simp_all

theorem rat_ok {ns : CliNamespace} {key : String} {q : ℚ} (h : ns.rat key = .ok q) : ns.lookup key = some (.float (.num q)) := by
  rw [CliNamespace.rat] at h
  split at h <;> simp_all

/-- How `outpath` is read. -/
def CliNamespace.outpathOf (ns : CliNamespace) : Except CliErr (Option String) :=
  match ns.lookup "outpath" with
  | some (.str s) => .ok (some s)
  | some .none => .ok none
  | _ => .error .unmodelled

/-- How `nearest` is read. -/
def CliNamespace.nearestOf (ns : CliNamespace) : Except CliErr (Option ℤ) :=
  match ns.lookup "nearest" with
  | some (.int n) => .ok (some n)
  | some .none => .ok none
  | _ => .error .unmodelled

theorem cliArgs_eq (ns : CliNamespace) : cliArgs paths ns = (do
    let outpath ← ns.outpathOf
    let format ← ns.str "format"
    let by_ ← ns.str "by"
    let k ← ns.int "k"
    let nearest ← ns.nearestOf
    let supressWarnings ← ns.flag "supress_warnings"
    let reader ← ns.str "reader"
    let removeHydrogens ← ns.flag "remove_hydrogens"
    let disorder ← ns.str "disorder"
    let heaviestComponent ← ns.flag "heaviest_component"
    let molecularCentres ← ns.flag "molecular_centres"
    let csdRefcodes ← ns.flag "csd_refcodes"
    let refcodeFamilies ← ns.flag "refcode_families"
    let collapseTol ← ns.rat "collapse_tol"
    let metric ← ns.str "metric"
    let nJobs ← ns.int "n_jobs"
    let backend ← ns.str "backend"
    let verbose ← ns.flag "verbose"
    let lowMemory ← ns.flag "low_memory"
    .ok { paths := paths, outpath := outpath, format := format, by_ := by_, k := k.toNat, nearest := nearest, supressWarnings := supressWarnings, reader := reader,
          removeHydrogens := removeHydrogens, disorder := disorder, heaviestComponent := heaviestComponent, molecularCentres := molecularCentres, csdRefcodes := csdRefcodes,
          refcodeFamilies := refcodeFamilies, collapseTol := collapseTol, metric := metric, nJobs := nJobs, backend := backend, verbose := verbose, lowMemory := lowMemory }) := by
  unfold cliArgs CliNamespace.outpathOf CliNamespace.nearestOf
  rcases ns.lookup "outpath" with _ | _ | _ | _ | _ | _ <;> rcases ns.lookup "nearest" with _ | _ | _ | _ | _ | _ <;> rfl

/-- A namespace that is read has the values that are read. -/
theorem cliArgs_holds {ns : CliNamespace} {a : CliArgs} (h : cliArgs paths ns = .ok a) : Holds ns a ∧ a.paths = paths := by
  simp only [cliArgs_eq, Except.bind_ok] at h
  obtain ⟨outpath, h1, format, h2, by_, h3, k, h4, nearest, h5, sw, h6, reader, h7, rh, h8, disorder, h9, hc, h10, mc, h11, cr, h12, rf, h13, tol, h14, metric, h15, nj, h16, backend, h17,
    verbose, h18, lm, h19, h20⟩ := h
  obtain rfl := Except.ok.inj h20
  refine ⟨⟨?_, str_ok h2, str_ok h3, ⟨k, int_ok h4, rfl⟩, ?_, flag_ok h6, str_ok h7, flag_ok h8, str_ok h9, flag_ok h10, flag_ok h11, flag_ok h12, flag_ok h13, ⟨tol, rat_ok h14, rfl⟩, str_ok h15, int_ok h16,
    str_ok h17, flag_ok h18, flag_ok h19⟩, rfl⟩
  · rw [CliNamespace.outpathOf] at h1
    split at h1 <;> simp_all <;> (subst h1; rfl)
  · rw [CliNamespace.nearestOf] at h5
    split at h5 <;> simp_all <;> (subst h5; rfl)

theorem Except.bind_unmodelled {α β : Type} {x : Except CliErr α} {f : α → Except CliErr β} (h : ∀ e, x = .error e → e = .unmodelled) (h' : ∀ a e, f a = .error e → e = .unmodelled) :
    ∀ e, (x >>= f) = .error e → e = .unmodelled := by
  cases x with
  | error e => intro e' he; exact h e' (by simpa [bind, Except.bind] using he)
  | ok a => exact h' a

/-- Reading a namespace never exits. -/
theorem cliArgs_error {ns : CliNamespace} : ∀ e, cliArgs paths ns = .error e → e = .unmodelled := by
  have s : ∀ key e, ns.str key = .error e → e = .unmodelled := by
    intro key e h; rw [CliNamespace.str] at h; split at h <;> simp_all
  have f : ∀ key e, ns.flag key = .error e → e = .unmodelled := by
    intro key e h; rw [CliNamespace.flag] at h; split at h <;> simp_all
  have i : ∀ key e, ns.int key = .error e → e = .unmodelled := by
    intro key e h; rw [CliNamespace.int] at h; split at h <;> simp_all
  have r : ∀ key e, ns.rat key = .error e → e = .unmodelled := by
    intro key e h; rw [CliNamespace.rat] at h; split at h <;> simp_all
  rw [cliArgs_eq]
  refine Except.bind_unmodelled (by intro e h; rw [CliNamespace.outpathOf] at h; split at h <;> simp_all) fun _ => ?_
  refine Except.bind_unmodelled (s _) fun _ => ?_
  refine Except.bind_unmodelled (s _) fun _ => ?_
  refine Except.bind_unmodelled (i _) fun _ => ?_
  refine Except.bind_unmodelled (by intro e h; rw [CliNamespace.nearestOf] at h; split at h <;> simp_all) fun _ => ?_
  refine Except.bind_unmodelled (f _) fun _ => ?_
  refine Except.bind_unmodelled (s _) fun _ => ?_
  refine Except.bind_unmodelled (f _) fun _ => ?_
  refine Except.bind_unmodelled (s _) fun _ => ?_
  refine Except.bind_unmodelled (f _) fun _ => ?_
  refine Except.bind_unmodelled (f _) fun _ => ?_
  refine Except.bind_unmodelled (f _) fun _ => ?_
  refine Except.bind_unmodelled (f _) fun _ => ?_
  refine Except.bind_unmodelled (r _) fun _ => ?_
  refine Except.bind_unmodelled (s _) fun _ => ?_
  refine Except.bind_unmodelled (i _) fun _ => ?_
  refine Except.bind_unmodelled (s _) fun _ => ?_
  refine Except.bind_unmodelled (f _) fun _ => ?_
  exact Except.bind_unmodelled (f _) fun _ => by simp

/-- The tolerance among the keyword arguments is not used. -/
theorem compareTol_kwargs (a : CliArgs) (x : ℝ) (inp : Input) (inp' : Option Input) (args : CompareArgs) (tol : Tolerance) :
    compareTol env inp inp' args tol { a with collapseTol := x }.kwargs fuel = compareTol env inp inp' args tol a.kwargs fuel := rfl

theorem compare_kwargs (a : CliArgs) (inp : Input) (inp' : Option Input) (args : CompareArgs) :
    compare env inp inp' args (("collapse_tol", .float a.collapseTol) :: { a with collapseTol := 0 }.kwargs) fuel = compare env inp inp' args a.kwargs fuel := rfl

theorem mapE_outcome {α β γ : Type} {f : α → Except Err β} {g : α → Except Err γ} (h : ∀ a, (f a).map (fun _ => ()) = (g a).map fun _ => ()) (l : List α) :
    (mapE f l).map (fun _ => ()) = (mapE g l).map fun _ => () := by
  induction l with
  | nil => rfl
  | cons a l ih =>
    have ha := h a
    cases hf : f a <;> cases hg : g a <;> rw [hf, hg] at ha <;> simp only [Except.map, Except.error.injEq, reduceCtorEq] at ha
    · simp [mapE, hf, hg, ha, Except.map]
    · cases hf' : mapE f l <;> cases hg' : mapE g l <;> rw [hf', hg'] at ih <;> simp only [Except.map, Except.error.injEq, reduceCtorEq] at ih <;>
        simp [mapE, hf, hg, hf', hg', ih, Except.map]

theorem PDDInt_outcome {D : ℕ} (S : PeriodicSet D) (k : ℤ) (lexsort collapse : Bool) (t u : ℝ) (fuel : ℕ) :
    (PDDInt S k lexsort collapse t fuel).map (fun _ => ()) = (PDDInt S k lexsort collapse u fuel).map fun _ => () := by
  unfold PDDInt
  cases asymPoints S with
  | error e => rfl
  | ok xm =>
    simp only [bind, Except.bind]
    cases nearestNeighborsInt S.motif S.cell xm.1 (k + 1) fuel with
    | error e => rfl
    | ok d =>
      dsimp only
      split
      · rfl
      · split <;> rfl

/-- For a negative `k` the tolerance is not used. -/
theorem compareInt_kwargs (a : CliArgs) (inp : Input) (inp' : Option Input) (args : CompareArgs) {k : ℤ} (hk : k < 0) :
    compareInt env inp inp' args k { a with collapseTol := 0 }.kwargs fuel = compareInt env inp inp' args k a.kwargs fuel := by
  unfold compareInt
  simp only [if_neg (not_le.2 hk)]
  split
  · rfl
  have e1 : ∀ i, getCrystals env args.csdRefcodes (routeKwargs args.verbose { a with collapseTol := 0 }.kwargs) i = getCrystals env args.csdRefcodes (routeKwargs args.verbose a.kwargs) i :=
    fun _ => rfl
  have e2 : (argOf (routeKwargs args.verbose { a with collapseTol := 0 }.kwargs).pdd "collapse_tol").toFloat = .ok 0 := rfl
  have e3 : (argOf (routeKwargs args.verbose a.kwargs).pdd "collapse_tol").toFloat = .ok a.collapseTol := rfl
  have e4 : argOf (routeKwargs args.verbose { a with collapseTol := 0 }.kwargs).pdd "lexsort" = argOf (routeKwargs args.verbose a.kwargs).pdd "lexsort" := rfl
  have e5 : argOf (routeKwargs args.verbose { a with collapseTol := 0 }.kwargs).pdd "collapse" = argOf (routeKwargs args.verbose a.kwargs).pdd "collapse" := rfl
  have e6 : ∀ cs : List Crystal, (lift (mapE (fun c => PDDInt c.set k (argOf (routeKwargs args.verbose a.kwargs).pdd "lexsort").truthy (argOf (routeKwargs args.verbose a.kwargs).pdd "collapse").truthy
        0 fuel) cs) >>= fun _ => (.ok (.matrix [] [] []) : Except CErr Frame)) =
      (lift (mapE (fun c => PDDInt c.set k (argOf (routeKwargs args.verbose a.kwargs).pdd "lexsort").truthy (argOf (routeKwargs args.verbose a.kwargs).pdd "collapse").truthy
        a.collapseTol fuel) cs) >>= fun _ => .ok (.matrix [] [] [])) := by
    intro cs
    have h := mapE_outcome (fun c : Crystal => PDDInt_outcome c.set k (argOf (routeKwargs args.verbose a.kwargs).pdd "lexsort").truthy
      (argOf (routeKwargs args.verbose a.kwargs).pdd "collapse").truthy 0 a.collapseTol fuel) cs
    revert h
    generalize mapE _ cs = x
    generalize mapE _ cs = y
    intro h
    cases x <;> cases y <;> simp only [Except.map, Except.error.injEq, reduceCtorEq] at h <;> simp [lift, h, bind, Except.bind]
  simp only [e1, e2, e3, e4, e5]
  cases getCrystals env args.csdRefcodes (routeKwargs args.verbose a.kwargs) inp with
  | error e => rfl
  | ok cs =>
    cases inp' with
    | none =>
      by_cases hby : upper args.by_ = "AMD"
      · simp only [hby, if_true, bind, Except.bind]
      · simp only [hby, if_false]
        exact e6 cs
    | some i =>
      cases hg : getCrystals env args.csdRefcodes (routeKwargs args.verbose a.kwargs) i with
      | error e => simp only [hg, Except.map, bind, Except.bind]
      | ok cs' =>
        by_cases hby : upper args.by_ = "AMD"
        · simp only [hg, hby, if_true, Except.map, bind, Except.bind]
        · simp only [hg, hby, if_false]
          exact e6 cs

/-- The comparison with a number as the tolerance. -/
theorem compareIntTol_number (a : CliArgs) (inp : Input) (inp' : Option Input) (k : ℤ) :
    compareIntTol env inp inp' a.named k (.num a.collapseTol) { a with collapseTol := 0 }.kwargs fuel = compareInt env inp inp' a.named k a.kwargs fuel := by
  unfold compareIntTol
  split
  · next hk => rw [C111_number, compare_kwargs, compareInt, if_pos hk]
  · next hk => exact compareInt_kwargs a inp inp' a.named (not_le.1 hk)

/-- **C112** Whenever the tolerance is a number, and whatever else is on the command line, the command does what `cliRun` says; so C95, C96 and C100 are about it. -/
theorem C112_number (h : cliRun env formats argv fuel ≠ .error .unmodelled) : cliRunTol env formats argv fuel = cliRun env formats argv fuel := by
  unfold cliRunTol
  unfold cliRun at h ⊢
  cases hp : parseArgs argv with
  | error e => rfl
  | ok x =>
    obtain ⟨paths, ns⟩ := x
    rw [hp] at h
    simp only [bind, Except.bind] at h ⊢
    cases ha : cliArgs paths ns with
    | error e =>
      rw [ha] at h
      exact absurd (congrArg Except.error (cliArgs_error e ha)) h
    | ok a =>
      obtain ⟨hh, rfl⟩ := cliArgs_holds ha
      have h1 : cliArgs a.paths (("collapse_tol", .float (.num 0)) :: ns) = .ok { a with collapseTol := 0 } := Holds.args (a := { a with collapseTol := 0 }) hh.but
      obtain ⟨q, hq, hq'⟩ := hh.collapseTol
      have h2 : ns.tolerance = .ok (.num a.collapseTol) := by
        rw [CliNamespace.tolerance, hq, ← hq']
        rfl
      obtain ⟨z, hz, -⟩ := hh.k
      have h3 : ns.int "k" = .ok z := by rw [CliNamespace.int, hz]
      have h4 : cliMainTol env formats { a with collapseTol := 0 } z (.num a.collapseTol) fuel = cliMainInt env formats a z fuel := by
        have e : ∀ inp inp', compareIntTol env inp inp' { a with collapseTol := 0 }.named z (.num a.collapseTol) { a with collapseTol := 0 }.kwargs fuel =
          compareInt env inp inp' a.named z a.kwargs fuel := fun inp inp' => compareIntTol_number a inp inp' z
        have eo : { a with collapseTol := 0 }.outputInt z = a.outputInt z := rfl
        rw [cliMainTol, cliMainInt, eo]
        simp only [e]
        rfl
      simp only [h1, h2, h3, h4]
      cases cliMainInt env formats a z fuel <;> rfl

/-- The command after a command line has been read. -/
theorem cliRunTol_written (h : WrittenTol ss paths argv) : cliRunTol env formats argv fuel =
    match cliMainTol env formats { settingsArgs (plainSettings ss) paths with collapseTol := 0 } (settingsK (plainSettings ss)) (lastTolerance ss) fuel with
    | .ok x => .ok x
    | .error e => .error (.raised e) := by
  have h1 : cliArgs paths (("collapse_tol", .float (.num 0)) :: pushAny ss cliDefaults) = .ok { settingsArgs (plainSettings ss) paths with collapseTol := 0 } := by
    have hb : (settingsArgs (plainSettings ss) paths).paths = paths := settings_paths _ _
    have hh : HoldsBut (pushAny ss cliDefaults) (settingsArgs (plainSettings ss) paths) := holdsBut_all ss (holds_defaults paths).but
    revert hb hh
    generalize settingsArgs (plainSettings ss) paths = b
    rintro rfl hh
    exact Holds.args hh
  have h2 : (pushAny ss cliDefaults).tolerance = .ok (lastTolerance ss) := by
    have h0 : cliDefaults.tolerance = .ok (.num (1 / 10000)) := by
      rw [CliNamespace.tolerance, defaults_lookup ("collapse_tol", .float (.num (1 / 10000))) (by simp)]
      simp [PyFloat.tolerance]
    rcases h with ⟨s, s', l, l', rfl, h1, h2, -⟩ | ⟨l, ps, qs, h1, -⟩
    · rw [pushAny_append, any_tolerance h2 (any_tolerance h1 h0), lastTolerance, List.foldl_append]
    · exact any_tolerance h1 h0
  have h3 : (pushAny ss cliDefaults).int "k" = .ok (settingsK (plainSettings ss)) := by
    rw [CliNamespace.int, any_k ss (defaults_lookup ("k", .int 100) (by simp))]
    rfl
  simp only [cliRunTol, writtenTol_parses h, h1, h2, h3, bind, Except.bind]
  cases cliMainTol env formats { settingsArgs (plainSettings ss) paths with collapseTol := 0 } (settingsK (plainSettings ss)) (lastTolerance ss) fuel <;> rfl

/-- **C112** On command lines with special tolerances (`nan`, `-inf`, `Infinity`, …) among the options the last tolerance that is given counts, and the file that is written has what `compare`
returns with it; if `compare` raises, so does the command. Missing: `--nearest` (see `C40_false`). -/
theorem C112_writes_partial (hf : formats (settingsArgs (plainSettings ss) paths).format = true) (h : WrittenTol ss paths argv) (hk : 0 ≤ settingsK (plainSettings ss)) {a : CliArgs}
    (ha : a = settingsArgs (plainSettings ss) paths) {p : String} {q : Option String} (hp : paths = p :: q.toList) :
    (∀ f, compareTol env (.one (.str p)) (q.map fun q => .one (.str q)) { by_ := a.by_, k := a.k, csdRefcodes := a.csdRefcodes, verbose := a.verbose } (lastTolerance ss) a.kwargs fuel = .ok f →
      cliRunTol env formats argv fuel = .ok { frame := f, path := a.output, format := a.format }) ∧
    ∀ e, compareTol env (.one (.str p)) (q.map fun q => .one (.str q)) { by_ := a.by_, k := a.k, csdRefcodes := a.csdRefcodes, verbose := a.verbose } (lastTolerance ss) a.kwargs fuel = .error e →
      cliRunTol env formats argv fuel = .error (.raised e) := by
  subst ha
  rw [cliRunTol_written h]
  have hpa : (settingsArgs (plainSettings ss) paths).paths = paths := settings_paths _ _
  have hk' : ((settingsArgs (plainSettings ss) paths).k : ℤ) = settingsK (plainSettings ss) := by
    rw [settingsArgs, settings_toNat _ (z := 100) rfl]
    exact Int.toNat_of_nonneg hk
  revert hf hpa hk'
  generalize settingsArgs (plainSettings ss) paths = a
  intro hf hpa hk'
  rw [← hk']
  have e : ∀ inp inp', compareIntTol env inp inp' { a with collapseTol := 0 }.named a.k (lastTolerance ss) { a with collapseTol := 0 }.kwargs fuel =
      compareTol env inp inp' { by_ := a.by_, k := a.k, csdRefcodes := a.csdRefcodes, verbose := a.verbose } (lastTolerance ss) a.kwargs fuel := by
    intro inp inp'
    rw [compareIntTol, if_pos (by omega), compareTol_kwargs]
    rfl
  have eo : { a with collapseTol := 0 }.outputInt a.k = a.output := rfl
  rw [cliMainTol, eo]
  simp only [e]
  simp only [hpa, hp, hf, if_true]
  cases q with
  | none => constructor <;> intro x hx <;> simp only [Option.toList_none, Option.map_none] at hx ⊢ <;> simp only [hx, bind, Except.bind]
  | some q => constructor <;> intro x hx <;> simp only [Option.toList_some, Option.map_some] at hx ⊢ <;> simp only [hx, bind, Except.bind]

/-- **C112** In particular `--collapse_tol nan` and `--collapse_tol=-inf` compare without collapsing. Missing: `--nearest` (see `C40_false`). -/
theorem C112_nothing_partial (hf : formats (settingsArgs (plainSettings ss) paths).format = true) (h : WrittenTol ss paths argv) (hk : 0 ≤ settingsK (plainSettings ss)) {a : CliArgs}
    (ha : a = settingsArgs (plainSettings ss) paths) {p : String} {q : Option String} (hp : paths = p :: q.toList) (ht : lastTolerance ss = .nan ∨ lastTolerance ss = .negInf) {f : Frame}
    (hc : compare env (.one (.str p)) (q.map fun q => .one (.str q)) { by_ := a.by_, k := a.k, csdRefcodes := a.csdRefcodes, verbose := a.verbose } (("collapse", .bool false) :: a.kwargs) fuel = .ok f) :
    cliRunTol env formats argv fuel = .ok { frame := f, path := a.output, format := a.format } := by
  refine (C112_writes_partial hf h hk ha hp).1 f ?_
  rw [C111_nothing (ht.imp id Or.inl) a.collapseTol]
  exact hc

/-- **C112** A negative `k` raises, whatever the tolerance. -/
theorem C112_negative (h : WrittenTol ss paths argv) (hk : settingsK (plainSettings ss) < 0) {a : CliArgs} (ha : a = settingsArgs (plainSettings ss) paths)
    (hv : ∀ p ∈ paths, ∀ cs, getCrystals env a.csdRefcodes (routeKwargs a.verbose a.kwargs) (.one (.str p)) = .ok cs → ∀ c ∈ cs, c.Valid) :
    ∃ (e : CErr) (F : ℕ), ∀ fuel ≥ F, cliRunTol env formats argv fuel = .error (.raised e) := by
  subst ha
  have key : ∃ (e : CErr) (F : ℕ), ∀ fuel ≥ F, cliMainTol env formats { settingsArgs (plainSettings ss) paths with collapseTol := 0 } (settingsK (plainSettings ss)) (lastTolerance ss) fuel = .error e := by
    have hp : (settingsArgs (plainSettings ss) paths).paths = paths := settings_paths _ _
    have e : ∀ inp inp' fuel, compareIntTol env inp inp' { settingsArgs (plainSettings ss) paths with collapseTol := 0 }.named (settingsK (plainSettings ss)) (lastTolerance ss)
        { settingsArgs (plainSettings ss) paths with collapseTol := 0 }.kwargs fuel =
        compareInt env inp inp' (settingsArgs (plainSettings ss) paths).named (settingsK (plainSettings ss)) (settingsArgs (plainSettings ss) paths).kwargs fuel := by
      intro inp inp' fuel
      rw [compareIntTol, if_neg (not_le.2 hk), compareInt_kwargs _ _ _ _ hk]
      rfl
    unfold cliMainTol
    simp only [e]
    simp only [hp]
    rcases paths with _ | ⟨p, _ | ⟨q, _ | ⟨r, l⟩⟩⟩
    · exact ⟨_, 0, fun _ _ => rfl⟩
    · obtain ⟨e, F, hF⟩ := compareInt_raises (env := env) (args := (settingsArgs (plainSettings ss) [p]).named) (kwargs := (settingsArgs (plainSettings ss) [p]).kwargs) (inp := .one (.str p))
        (inp' := none) hk rfl (hv p (by simp))
      exact ⟨e, F, fun fuel hf => by simp only [hF fuel hf, bind, Except.bind]⟩
    · obtain ⟨e, F, hF⟩ := compareInt_raises (env := env) (args := (settingsArgs (plainSettings ss) [p, q]).named) (kwargs := (settingsArgs (plainSettings ss) [p, q]).kwargs) (inp := .one (.str p))
        (inp' := some (.one (.str q))) hk rfl (hv p (by simp))
      exact ⟨e, F, fun fuel hf => by simp only [hF fuel hf, bind, Except.bind]⟩
    · exact ⟨_, 0, fun _ _ => rfl⟩
  obtain ⟨e, F, hF⟩ := key
  exact ⟨e, F, fun fuel hf => by rw [cliRunTol_written h, hF fuel hf]⟩

/-! ### From files to the file that is written -/

variable {B : CifBackends} {asString : String → String} {w : World} {ds ds' : List Described} {p q : String} {a : CliArgs}

/-- The options when nothing is collapsed. -/
theorem plain_options (hr : RunsWith env B w a) (hm : a.metric = "chebyshev") :
    ReadsInputs env B w (("collapse", .bool false) :: ("collapse_tol", .float 0) :: a.kwargs) a.readOptions ∧
      PddOptions (("collapse", .bool false) :: ("collapse_tol", .float 0) :: a.kwargs) 0 (.named "chebyshev") := by
  refine ⟨⟨hr.cifReader, hr.csdReader, hr.quiet, ⟨rfl, rfl, rfl, rfl, rfl, rfl⟩, hr.distinct⟩, rfl, ?_, ⟨_, rfl⟩, ⟨_, rfl⟩⟩
  rw [← hm]; rfl

/-- **C112** (partial) `amd p q --by PDD --collapse_tol nan` (or `=-inf`): distances are those of the PDDs of the infinite crystals up to the rounding of weights; no tolerance enters.
Missing: cells that are too oblique for `k`, `--nearest`. -/
theorem C112_pdd_two_partial (h : WrittenTol ss [p, q] argv) (hk : 0 ≤ settingsK (plainSettings ss)) (ha : a = settingsArgs (plainSettings ss) [p, q])
    (ht : lastTolerance ss = .nan ∨ lastTolerance ss = .negInf) (hr : RunsWith env B w a) (hs : env.sched.Complete) (hby : a.by_ = "PDD")
    (hm : a.metric = "chebyshev") (hf : formats a.format = true) (hi : InputHolds B asString a.readOptions (.one (.str p)) ds a.csdRefcodes)
    (hi' : InputHolds B asString a.readOptions (.one (.str q)) ds' a.csdRefcodes) (he : ∀ e ∈ ds, e.Proper) (he' : ∀ e ∈ ds', e.Proper) (hne : ds ≠ []) (hne' : ds' ≠ []) :
    ∃ (M : List (List ℝ)) (f : ℕ → ℕ → ℝ) (F : ℕ), IsMatrix ds.length ds'.length f M ∧
      (∀ fuel ≥ F, cliRunTol env formats argv fuel = .ok { frame := .matrix (ds.map Described.name) (ds'.map Described.name) M, path := a.output, format := a.format }) ∧
      ∀ i j (hi : i < ds.length) (hj : j < ds'.length), ds[i].WellShaped a.k → ds'[j].WellShaped a.k →
        ∀ slack, slack = emdTol (max ds[i].size ds'[j].size) (a.k * max (ds[i].cell.a : ℝ) ds'[j].cell.a) →
          (∀ x y, ds[i].IsPDD a.k x → ds'[j].IsPDD a.k y → |f i j - exactEmd chebyshev x y| ≤ slack) ∧ (DescribeSame ds[i] ds'[j] → 0 ≤ f i j ∧ f i j ≤ slack) := by
  obtain ⟨o1, o2⟩ := plain_options hr hm
  obtain ⟨M, f, F, h1, h2, h3⟩ := C83_pdd_two_partial (args := a.named) o1 hs (by rw [show a.named.by_ = a.by_ from rfl, hby, upper_PDD]) rfl le_rfl o2 hi hi' he he' hne hne'
    (collapse := false) rfl
  refine ⟨M, f, F, h1, fun fuel hF => (C112_writes_partial (ha ▸ hf) h hk ha (q := some q) rfl).1 _ ?_, fun i j hi hj w1 w2 slack hsl => h3 i j hi hj w1 w2 slack (by rw [if_neg (by simp), zero_add]; exact hsl)⟩
  rw [C111_nothing (ht.imp id Or.inl) 0]
  exact h2 fuel hF

/-- **C112** (partial) The same for one path. -/
theorem C112_pdd_partial (h : WrittenTol ss [p] argv) (hk : 0 ≤ settingsK (plainSettings ss)) (ha : a = settingsArgs (plainSettings ss) [p])
    (ht : lastTolerance ss = .nan ∨ lastTolerance ss = .negInf) (hr : RunsWith env B w a) (hs : env.sched.Complete) (hby : a.by_ = "PDD")
    (hm : a.metric = "chebyshev") (hf : formats a.format = true) (hi : InputHolds B asString a.readOptions (.one (.str p)) ds a.csdRefcodes)
    (he : ∀ e ∈ ds, e.Proper) (hne : ds ≠ []) :
    ∃ (M : List (List ℝ)) (f : ℕ → ℕ → ℝ) (F : ℕ), IsMatrix ds.length ds.length f M ∧
      (∀ fuel ≥ F, cliRunTol env formats argv fuel = .ok { frame := .matrix (ds.map Described.name) (ds.map Described.name) M, path := a.output, format := a.format }) ∧
      ∀ i j (hi : i < ds.length) (hj : j < ds.length), ds[i].WellShaped a.k → ds[j].WellShaped a.k →
        ∀ slack, slack = emdTol (max ds[i].size ds[j].size) (a.k * max (ds[i].cell.a : ℝ) ds[j].cell.a) →
          (∀ x y, ds[i].IsPDD a.k x → ds[j].IsPDD a.k y → |f i j - exactEmd chebyshev x y| ≤ slack) ∧ (DescribeSame ds[i] ds[j] → 0 ≤ f i j ∧ f i j ≤ slack) := by
  obtain ⟨o1, o2⟩ := plain_options hr hm
  obtain ⟨M, f, F, h1, h2, h3⟩ := C83_pdd_partial (args := a.named) o1 hs (by rw [show a.named.by_ = a.by_ from rfl, hby, upper_PDD]) rfl le_rfl o2 hi he hne
    (collapse := false) rfl
  refine ⟨M, f, F, h1, fun fuel hF => (C112_writes_partial (ha ▸ hf) h hk ha (q := none) rfl).1 _ ?_, fun i j hi hj w1 w2 slack hsl => h3 i j hi hj w1 w2 slack (by rw [if_neg (by simp), zero_add]; exact hsl)⟩
  rw [C111_nothing (ht.imp id Or.inl) 0]
  exact h2 fuel hF

end Amd
