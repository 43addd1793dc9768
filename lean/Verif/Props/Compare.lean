import Verif.Proof.CompareFn

/-!
# `compare` and the command line: C37 - C40

`compare env crystals crystals_ args kwargs fuel` models `amd.compare`. `env` holds what is not modelled: the readers, scipy's distances
other than Chebyshev, and what numpy, joblib and sklearn may do by their contracts (`Env.Sound`).
`getCrystals env csd kw inp = .ok cs` says that the argument `inp` stands for the crystals `cs`, see `C37_inputs`.
-/

namespace Amd

variable {env : Env} {inp inp' : Input} {args : CompareArgs} {kwargs : Kwargs} {cs cs' : List Crystal}

/-! ### C37 -/

/-- **C37** What the arguments stand for: a list of periodic sets and paths stands for the sets and the crystals read from the paths, in order,
where `read` says what `CifReader` reads with the given options; an item that is not in a list stands for itself. -/
theorem C37_inputs {r : Routed} {read : String → List Crystal} {items : List Item} (h : ∀ s, .str s ∈ items → env.cifReader r.cif s = .ok (read s))
    (hi : ∀ i ∈ items, i ≠ .other) (hne : (items.flatMap fun i => match i with | .pset c => [c] | .str s => read s | .other => []) ≠ []) :
    getCrystals env false r (.many items) =
      .ok (items.flatMap fun i => match i with | .pset c => [c] | .str s => read s | .other => []) := by
  have key : ∀ l : List Item, (∀ s, .str s ∈ l → env.cifReader r.cif s = .ok (read s)) → (∀ i ∈ l, i ≠ .other) →
      unwrapPsets env r.cif l = .ok (l.flatMap fun i => match i with | .pset c => [c] | .str s => read s | .other => []) := by
    intro l
    induction l with
    | nil => intro _ _; rfl
    | cons i l ih =>
      intro h1 h2
      have ih := ih (fun s hs => h1 s (by simp [hs])) fun i hi => h2 i (by simp [hi])
      cases i with
      | pset c => rw [unwrapPsets, ih]; rfl
      | str s => rw [unwrapPsets, h1 s (by simp), ih]; rfl
      | other => exact absurd rfl (h2 .other (by simp))
  rw [getCrystals, if_neg (by simp), Input.items, key items h hi]
  generalize (items.flatMap fun i => match i with | .pset c => [c] | .str s => read s | .other => []) = l at hne
  cases l with
  | nil => exact absurd rfl hne
  | cons c l => rfl

/-- **C37** With `csd_refcodes`, a list of strings stands for what `CSDReader` reads. -/
theorem C37_refcodes {r : Routed} {refcodes : List String} (h : env.csdReader r.csd refcodes = .ok cs) (hne : cs ≠ []) :
    getCrystals env true r (.many (refcodes.map .str)) = .ok cs := by
  have key : ∀ l : List String, allStrings (l.map .str) = some l := by
    intro l
    induction l with
    | nil => rfl
    | cons s l ih => rw [List.map_cons, allStrings, ih]; rfl
  rw [getCrystals, if_pos rfl, Input.items, unwrapRefcodes, key]
  simp only [h]
  cases cs with
  | nil => exact absurd rfl hne
  | cons c l => rfl

/-- **C37** An argument that is not a list stands for the same as the list with that item. -/
theorem C37_single (csd : Bool) (r : Routed) (i : Item) : getCrystals env csd r (.one i) = getCrystals env csd r (.many [i]) := rfl

/-- **C37** By AMD, one collection, default metric, either value of `low_memory`: the frame has the names as labels of rows and columns, and entry
`(i, j)` is the Chebyshev distance of the AMDs of crystals `i` and `j`. -/
theorem C37_amd (hv : ∀ c ∈ cs, c.Valid) (hk : 0 < args.k) (hby : upper args.by_ = "AMD") (hn : args.nNeighbors = none)
    (hm : kwOr kwargs "metric" (.str "chebyshev") = .str "chebyshev")
    (hg : getCrystals env args.csdRefcodes (routeKwargs args.verbose kwargs) inp = .ok cs) (hne : cs ≠ []) :
    ∃ (a : ℕ → List ℝ) (M : List (List ℝ)) (F : ℕ), IsMatrix cs.length cs.length (fun i j => chebyshev (a i) (a j)) M ∧ ∀ fuel ≥ F,
      (∀ i (hi : i < cs.length), AMD cs[i].set args.k fuel = .ok (a i)) ∧
      compare env inp none args kwargs fuel = .ok (.matrix (cs.map Crystal.name) (cs.map Crystal.name) M) := by
  obtain ⟨a, F, h1, h2, h3⟩ := amds_all hv args.k
  obtain ⟨v, hv1, hv2⟩ := C35_pdist_partial (other := env.other) hk h2 (argOf (routeKwargs args.verbose kwargs).amds "low_memory").truthy
  obtain ⟨M, hM1, hM2⟩ := squareform_condensed (by rw [h1]; exact List.length_pos_iff.2 hne) hv2
  have hlen : ∀ i < a.length, (a.getD i []).length = args.k := fun i hi => by
    rw [List.getD_eq_getElem _ _ hi]; exact h2 _ (List.getElem_mem hi)
  have hM3 : IsMatrix cs.length cs.length (fun i j => chebyshev (a.getD i []) (a.getD j [])) M := by
    rw [← h1]
    refine ⟨hM2.1, hM2.2.1, fun i j hi hj => ?_⟩
    rw [hM2.2.2 i j hi hj]
    beta_reduce
    have hmet := EMD_default_metric args.k
    rcases lt_trichotomy i j with h | h | h
    · rw [if_neg h.ne, min_eq_left h.le, max_eq_right h.le]
    · rw [if_pos h, h, hmet.self _ (hlen j hj)]
    · rw [if_neg h.ne', min_eq_right h.le, max_eq_left h.le, hmet.symm _ _ (hlen j hj) (hlen i hi)]
  refine ⟨fun i => a.getD i [], M, F, hM3, fun fuel hf => ⟨(h3 fuel hf).2, ?_⟩⟩
  rw [(compare_amd hby hg).1, compareAmd, (h3 fuel hf).1, hn]
  have hmet : argOf (routeKwargs args.verbose kwargs).amds "metric" = .str "chebyshev" := hm
  simp only [lift, bind, Except.bind, hmet, PyVal.toMetric, hv1, hM1]
  exact matrixFrame_ok hM3 (by simp) (by simp)

/-- **C37** By AMD, two collections: row `i` belongs to a crystal of the first, column `j` to one of the second collection. -/
theorem C37_amd_two (hv : ∀ c ∈ cs, c.Valid) (hv' : ∀ c ∈ cs', c.Valid) (hk : 0 < args.k) (hby : upper args.by_ = "AMD")
    (hn : args.nNeighbors = none) (hm : kwOr kwargs "metric" (.str "chebyshev") = .str "chebyshev")
    (hg : getCrystals env args.csdRefcodes (routeKwargs args.verbose kwargs) inp = .ok cs)
    (hg' : getCrystals env args.csdRefcodes (routeKwargs args.verbose kwargs) inp' = .ok cs') :
    ∃ (a b : ℕ → List ℝ) (M : List (List ℝ)) (F : ℕ), IsMatrix cs.length cs'.length (fun i j => chebyshev (a i) (b j)) M ∧ ∀ fuel ≥ F,
      (∀ i (hi : i < cs.length), AMD cs[i].set args.k fuel = .ok (a i)) ∧ (∀ j (hj : j < cs'.length), AMD cs'[j].set args.k fuel = .ok (b j)) ∧
      compare env inp (some inp') args kwargs fuel = .ok (.matrix (cs.map Crystal.name) (cs'.map Crystal.name) M) := by
  obtain ⟨a, F, h1, h2, h3⟩ := amds_all hv args.k
  obtain ⟨b, G, g1, g2, g3⟩ := amds_all hv' args.k
  obtain ⟨M, hM1, hM2⟩ := C35_cdist (other := env.other) (a := .array args.k a) (b := .array args.k b) hk ⟨rfl, h2⟩ ⟨rfl, g2⟩ (Or.inl ⟨_, _, rfl⟩)
    (Or.inl ⟨_, _, rfl⟩) (argOf (routeKwargs args.verbose kwargs).amds "low_memory").truthy
  have hM3 : IsMatrix cs.length cs'.length (fun i j => chebyshev (a.getD i []) (b.getD j [])) M := by rw [← h1, ← g1]; exact hM2
  refine ⟨fun i => a.getD i [], fun i => b.getD i [], M, max F G, hM3, fun fuel hf => ⟨(h3 fuel (by omega)).2, (g3 fuel (by omega)).2, ?_⟩⟩
  rw [(compare_amd hby hg).2 _ _ hg', compareAmd, (h3 fuel (by omega)).1, hn]
  have hmet : argOf (routeKwargs args.verbose kwargs).amds "metric" = .str "chebyshev" := hm
  simp only [lift, bind, Except.bind, hmet, PyVal.toMetric, hM1, (g3 fuel (by omega)).1]
  exact matrixFrame_ok hM3 (by simp) (by simp)

/-- **C37** By AMD, one collection, any metric given by name or function, without `low_memory`: symmetric with zero diagonal, and entry `(i, j)` for
`i < j` is the distance of the AMDs of crystals `i` and `j`. -/
theorem C37_amd_metric (hv : ∀ c ∈ cs, c.Valid) (hby : upper args.by_ = "AMD") (hn : args.nNeighbors = none) {metric : MetricArg ℝ}
    (hm : (kwOr kwargs "metric" (.str "chebyshev")).toMetric = .ok metric) (hl : (kwOr kwargs "low_memory" (.bool false)).truthy = false)
    (hg : getCrystals env args.csdRefcodes (routeKwargs args.verbose kwargs) inp = .ok cs) (hne : cs ≠ []) :
    ∃ (a : ℕ → List ℝ) (M : List (List ℝ)) (F : ℕ), IsMatrix cs.length cs.length
        (fun i j => if i = j then 0 else metric.dist env.other (a (min i j)) (a (max i j))) M ∧ ∀ fuel ≥ F,
      (∀ i (hi : i < cs.length), AMD cs[i].set args.k fuel = .ok (a i)) ∧
      compare env inp none args kwargs fuel = .ok (.matrix (cs.map Crystal.name) (cs.map Crystal.name) M) := by
  obtain ⟨a, F, h1, h2, h3⟩ := amds_all hv args.k
  obtain ⟨v, hv1, hv2⟩ := (C35_metric (other := env.other) (k := args.k) (rows := a) (rows' := a) metric).2
  obtain ⟨M, hM1, hM2⟩ := squareform_condensed (by rw [h1]; exact List.length_pos_iff.2 hne) hv2
  rw [h1] at hM2
  refine ⟨fun i => a.getD i [], M, F, hM2, fun fuel hf => ⟨(h3 fuel hf).2, ?_⟩⟩
  rw [(compare_amd hby hg).1, compareAmd, (h3 fuel hf).1, hn]
  have hmet : (argOf (routeKwargs args.verbose kwargs).amds "metric").toMetric = .ok metric := hm
  have hlow : (argOf (routeKwargs args.verbose kwargs).amds "low_memory").truthy = false := hl
  simp only [lift, bind, Except.bind, hmet, hlow, hv1, hM1]
  exact matrixFrame_ok hM2 (by simp) (by simp)

/-- The options for comparing PDDs that are in `kwargs`, or the defaults. -/
structure PddOptions (kwargs : Kwargs) (tol : ℝ) (metric : MetricArg ℝ) : Prop where
  tol : (kwOr kwargs "collapse_tol" (.float (1 / 10000))).toFloat = .ok tol
  metric : (kwOr kwargs "metric" (.str "chebyshev")).toMetric = .ok metric
  jobs : ∃ n, (kwOr kwargs "n_jobs" .none).toJobs = .ok n
  backend : ∃ s, (kwOr kwargs "backend" (.str "multiprocessing")).toStr = .ok s

theorem PddOptions.default : PddOptions [] (1 / 10000) (.named "chebyshev") := ⟨rfl, rfl, ⟨none, rfl⟩, ⟨_, rfl⟩⟩

/-- The PDD of a crystal by the options in `kwargs`. -/
noncomputable def pddOf (kwargs : Kwargs) (tol : ℝ) (c : Crystal) (k fuel : ℕ) : Except Err (List (PRow ℝ)) :=
  PDD c.set k (kwOr kwargs "lexsort" (.bool true)).truthy (kwOr kwargs "collapse" (.bool true)).truthy tol fuel

/-- **C37** By PDD, one collection, any non-negative metric, any `n_jobs`, `backend`, `verbose` and schedule: the frame has the names as labels, is
symmetric with zero diagonal, and entry `(i, j)` for `i < j` is the Earth mover's distance of the PDDs of crystals `i` and `j`. -/
theorem C37_pdd (hs : env.sched.Complete) (hv : ∀ c ∈ cs, c.Valid) (hby : upper args.by_ = "PDD") (hn : args.nNeighbors = none) {tol : ℝ}
    {metric : MetricArg ℝ} (ho : PddOptions kwargs tol metric) (hδ : ∀ r s, r.length = args.k → s.length = args.k → 0 ≤ metric.dist env.other r s)
    (hg : getCrystals env args.csdRefcodes (routeKwargs args.verbose kwargs) inp = .ok cs) (hne : cs ≠ []) :
    ∃ (p : ℕ → List (PRow ℝ)) (d : ℕ → ℕ → ℝ) (M : List (List ℝ)) (F : ℕ), IsMatrix cs.length cs.length
        (fun i j => if i = j then 0 else d (min i j) (max i j)) M ∧ ∀ fuel ≥ F,
      (∀ i (hi : i < cs.length), pddOf kwargs tol cs[i] args.k fuel = .ok (p i)) ∧
      (∀ i j, i < j → j < cs.length → ∃ plan, emd (metric.dist env.other) (p i) (p j) fuel = .ok (d i j, plan)) ∧
      compare env inp none args kwargs fuel = .ok (.matrix (cs.map Crystal.name) (cs.map Crystal.name) M) := by
  obtain ⟨p, F, h1, h2, h3⟩ := pdds_all hv args.k (kwOr kwargs "lexsort" (.bool true)).truthy (kwOr kwargs "collapse" (.bool true)).truthy tol
  obtain ⟨v, G, d, hv1, hv2⟩ := C36_pdist (List.ne_nil_of_length_pos (by rw [h1]; exact List.length_pos_iff.2 hne)) h2 hδ
  obtain ⟨M, hM1, hM2⟩ := squareform_condensed (by rw [h1]; exact List.length_pos_iff.2 hne) hv1
  rw [h1] at hM2
  refine ⟨fun i => p.getD i [], d, M, max F G, hM2, fun fuel hf => ⟨(h3 fuel (by omega)).2, fun i j hij hj => ?_, ?_⟩⟩
  · rw [← h1] at hj
    beta_reduce
    rw [List.getD_eq_getElem _ _ (by omega), List.getD_eq_getElem _ _ hj]
    exact (hv2 fuel (by omega)).1 i j hij hj
  rw [(compare_pdd hby hg).1, comparePdd, hn]
  have e1 : (argOf (routeKwargs args.verbose kwargs).pdd "collapse_tol").toFloat = .ok tol := ho.tol
  have e2 : (argOf (routeKwargs args.verbose kwargs).pdds "metric").toMetric = .ok metric := ho.metric
  obtain ⟨nj, e3⟩ : ∃ n, (argOf (routeKwargs args.verbose kwargs).pdds "n_jobs").toJobs = .ok n := ho.jobs
  obtain ⟨be, e4⟩ : ∃ s, (argOf (routeKwargs args.verbose kwargs).pdds "backend").toStr = .ok s := ho.backend
  have e5 : argOf (routeKwargs args.verbose kwargs).pdd "lexsort" = kwOr kwargs "lexsort" (.bool true) := rfl
  have e6 : argOf (routeKwargs args.verbose kwargs).pdd "collapse" = kwOr kwargs "collapse" (.bool true) := rfl
  simp only [allPdds, lift, bind, Except.bind, e1, e2, e3, e4, e5, e6, (h3 fuel (by omega)).1, (hv2 fuel (by omega)).2 env.sched _ hs, hM1]
  exact matrixFrame_ok hM2 (by simp) (by simp)

/-- **C37** By PDD, two collections. -/
theorem C37_pdd_two (hs : env.sched.Complete) (hv : ∀ c ∈ cs, c.Valid) (hv' : ∀ c ∈ cs', c.Valid) (hby : upper args.by_ = "PDD")
    (hn : args.nNeighbors = none) {tol : ℝ} {metric : MetricArg ℝ} (ho : PddOptions kwargs tol metric)
    (hδ : ∀ r s, r.length = args.k → s.length = args.k → 0 ≤ metric.dist env.other r s)
    (hg : getCrystals env args.csdRefcodes (routeKwargs args.verbose kwargs) inp = .ok cs) (hne : cs ≠ [])
    (hg' : getCrystals env args.csdRefcodes (routeKwargs args.verbose kwargs) inp' = .ok cs') :
    ∃ (p q : ℕ → List (PRow ℝ)) (d : ℕ → ℕ → ℝ) (M : List (List ℝ)) (F : ℕ), IsMatrix cs.length cs'.length d M ∧ ∀ fuel ≥ F,
      (∀ i (hi : i < cs.length), pddOf kwargs tol cs[i] args.k fuel = .ok (p i)) ∧
      (∀ j (hj : j < cs'.length), pddOf kwargs tol cs'[j] args.k fuel = .ok (q j)) ∧
      (∀ i j, i < cs.length → j < cs'.length → ∃ plan, emd (metric.dist env.other) (p i) (q j) fuel = .ok (d i j, plan)) ∧
      compare env inp (some inp') args kwargs fuel = .ok (.matrix (cs.map Crystal.name) (cs'.map Crystal.name) M) := by
  obtain ⟨p, F, h1, h2, h3⟩ := pdds_all hv args.k (kwOr kwargs "lexsort" (.bool true)).truthy (kwOr kwargs "collapse" (.bool true)).truthy tol
  obtain ⟨q, F', g1, g2, g3⟩ := pdds_all hv' args.k (kwOr kwargs "lexsort" (.bool true)).truthy (kwOr kwargs "collapse" (.bool true)).truthy tol
  obtain ⟨M, G, d, hM, hv2⟩ := C36_cdist (List.ne_nil_of_length_pos (by rw [h1]; exact List.length_pos_iff.2 hne)) h2 g2 hδ
  rw [h1, g1] at hM
  refine ⟨fun i => p.getD i [], fun i => q.getD i [], d, M, max (max F F') G, hM, fun fuel hf => ⟨(h3 fuel (by omega)).2, (g3 fuel (by omega)).2,
    fun i j hi hj => ?_, ?_⟩⟩
  · rw [← h1] at hi
    rw [← g1] at hj
    beta_reduce
    rw [List.getD_eq_getElem _ _ hi, List.getD_eq_getElem _ _ hj]
    exact (hv2 fuel (by omega)).1 i j hi hj
  rw [(compare_pdd hby hg).2 _ _ hg', comparePdd, hn]
  have e1 : (argOf (routeKwargs args.verbose kwargs).pdd "collapse_tol").toFloat = .ok tol := ho.tol
  have e2 : (argOf (routeKwargs args.verbose kwargs).pdds "metric").toMetric = .ok metric := ho.metric
  obtain ⟨nj, e3⟩ : ∃ n, (argOf (routeKwargs args.verbose kwargs).pdds "n_jobs").toJobs = .ok n := ho.jobs
  obtain ⟨be, e4⟩ : ∃ s, (argOf (routeKwargs args.verbose kwargs).pdds "backend").toStr = .ok s := ho.backend
  have e5 : argOf (routeKwargs args.verbose kwargs).pdd "lexsort" = kwOr kwargs "lexsort" (.bool true) := rfl
  have e6 : argOf (routeKwargs args.verbose kwargs).pdd "collapse" = kwOr kwargs "collapse" (.bool true) := rfl
  simp only [allPdds, lift, bind, Except.bind, e1, e2, e3, e4, e5, e6, (h3 fuel (by omega)).1, (g3 fuel (by omega)).1,
    (hv2 fuel (by omega)).2 env.sched _ hs]
  exact matrixFrame_ok hM (by simp) (by simp)

theorem bind_ok_congr {α β ε : Type} {x y : Except ε α} {g h : α → Except ε β} (hxy : ∀ v, x = .ok v ↔ y = .ok v)
    (hgh : ∀ v f, g v = .ok f ↔ h v = .ok f) (f : β) : (x >>= g) = .ok f ↔ (y >>= h) = .ok f := by
  cases x with
  | error e =>
    cases y with
    | error e' => simp [bind, Except.bind]
    | ok v => simpa using hxy v
  | ok v =>
    have := (hxy v).1 rfl
    subst this
    exact hgh v f

theorem lift_ok_congr {α : Type*} {x y : Except Err α} (h : ∀ v, x = .ok v ↔ y = .ok v) (v : α) : lift x = .ok v ↔ lift y = .ok v := by
  cases x with
  | error e =>
    cases y with
    | error e' => simp [lift]
    | ok w => simpa using h w
  | ok w =>
    have := (h w).1 rfl
    subst this
    rfl

/-- **C37** The result does not depend on the order in which parallel tasks finish. -/
theorem C37_schedule {sched : Scheduler} (hs : env.sched.Complete) (hs' : sched.Complete) (crystals : Input) (crystals_ : Option Input) (fuel : ℕ)
    (f : Frame) : compare env crystals crystals_ args kwargs fuel = .ok f ↔
      compare { env with sched := sched } crystals crystals_ args kwargs fuel = .ok f := by
  have hu : ∀ kw l, unwrapPsets env kw l = unwrapPsets { env with sched := sched } kw l := by
    intro kw l
    induction l with
    | nil => rfl
    | cons i l ih => cases i <;> simp [unwrapPsets, ih]
  have hg : ∀ csd r inp, getCrystals env csd r inp = getCrystals { env with sched := sched } csd r inp := by
    intro csd r inp
    rw [getCrystals, getCrystals, hu]
    rfl
  have hp : ∀ r cs cs_ k n f, comparePdd env r cs cs_ k n fuel = .ok f ↔ comparePdd { env with sched := sched } r cs cs_ k n fuel = .ok f := by
    intro r cs cs_ k n f
    rw [comparePdd, comparePdd]
    refine bind_ok_congr (fun v => Iff.rfl) (fun pdds f => ?_) f
    cases cs_ with
    | none =>
      refine bind_ok_congr (fun v => Iff.rfl) (fun _ f => ?_) f
      refine bind_ok_congr (fun v => Iff.rfl) (fun _ f => ?_) f
      refine bind_ok_congr (fun v => Iff.rfl) (fun _ f => ?_) f
      exact bind_ok_congr (lift_ok_congr fun v => C36_pdist_schedule hs hs' _ _ _ _) (fun _ _ => Iff.rfl) f
    | some cs' =>
      refine bind_ok_congr (fun v => Iff.rfl) (fun _ f => ?_) f
      refine bind_ok_congr (fun v => Iff.rfl) (fun _ f => ?_) f
      refine bind_ok_congr (fun v => Iff.rfl) (fun _ f => ?_) f
      refine bind_ok_congr (fun v => Iff.rfl) (fun _ f => ?_) f
      exact bind_ok_congr (lift_ok_congr fun v => C36_cdist_schedule hs hs' _ _ _ _) (fun _ _ => Iff.rfl) f
  have hb : ∀ r cs cs_ f, (if upper args.by_ = "AMD" then compareAmd env r cs cs_ args.k args.nNeighbors fuel
        else comparePdd env r cs cs_ args.k args.nNeighbors fuel) = .ok f ↔
      (if upper args.by_ = "AMD" then compareAmd { env with sched := sched } r cs cs_ args.k args.nNeighbors fuel
        else comparePdd { env with sched := sched } r cs cs_ args.k args.nNeighbors fuel) = .ok f := by
    intro r cs cs_ f
    by_cases h : upper args.by_ = "AMD"
    · rw [if_pos h, if_pos h]; rfl
    · rw [if_neg h, if_neg h]; exact hp r cs cs_ _ _ f
  rw [compare, compare]
  by_cases h : upper args.by_ ≠ "AMD" ∧ upper args.by_ ≠ "PDD"
  · rw [if_pos h, if_pos h]
  · rw [if_neg h, if_neg h]
    refine bind_ok_congr (fun v => by rw [hg]) (fun cs f => ?_) f
    cases crystals_ with
    | none => exact hb _ _ _ _
    | some i => exact bind_ok_congr (fun v => by rw [hg]) (fun cs_ f => hb _ _ _ _) f

/-- **C37** `by` must be `'AMD'` or `'PDD'`, in upper or lower case, else ValueError. -/
theorem C37_raises_by (h : upper args.by_ ≠ "AMD") (h' : upper args.by_ ≠ "PDD") (crystals : Input) (crystals_ : Option Input) (fuel : ℕ) :
    compare env crystals crystals_ args kwargs fuel = .error (.run .value) := by
  rw [compare, if_pos ⟨h, h'⟩]

/-- **C37** If the first or the second argument does not stand for crystals, its exception is raised. -/
theorem C37_raises_input (hby : upper args.by_ = "AMD" ∨ upper args.by_ = "PDD") {e : CErr} (fuel : ℕ) :
    (getCrystals env args.csdRefcodes (routeKwargs args.verbose kwargs) inp = .error e →
      ∀ crystals_, compare env inp crystals_ args kwargs fuel = .error e) ∧
    (getCrystals env args.csdRefcodes (routeKwargs args.verbose kwargs) inp = .ok cs →
      getCrystals env args.csdRefcodes (routeKwargs args.verbose kwargs) inp' = .error e →
      compare env inp (some inp') args kwargs fuel = .error e) := by
  have h : ¬(upper args.by_ ≠ "AMD" ∧ upper args.by_ ≠ "PDD") := by tauto
  constructor
  · intro hg crystals_
    rw [compare, if_neg h]
    simp [hg, bind, Except.bind]
  · intro hg hg'
    rw [compare, if_neg h]
    simp [hg, hg', bind, Except.bind, Except.map]

/-- **C37** No crystals: ValueError. -/
theorem C37_raises_empty (r : Routed) : getCrystals env false r (.many []) = .error (.run .value) ∧
    (∀ s, env.cifReader r.cif s = .ok [] → getCrystals env false r (.one (.str s)) = .error (.run .value)) ∧
    ∀ s, env.csdReader r.csd [s] = .ok [] → getCrystals env true r (.one (.str s)) = .error (.run .value) := by
  refine ⟨rfl, fun s h => ?_, fun s h => ?_⟩
  · simp [getCrystals, Input.items, unwrapPsets, h]
  · simp [getCrystals, Input.items, unwrapRefcodes, allStrings, h]

/-- **C37** If all paths can be read, an item that is neither a periodic set nor a path, for example a tuple, raises ValueError. -/
theorem C37_raises_item {r : Routed} {items : List Item} (h : ∀ s, .str s ∈ items → ∃ l, env.cifReader r.cif s = .ok l) (ho : .other ∈ items) :
    getCrystals env false r (.many items) = .error (.run .value) := by
  have key : ∀ l : List Item, (∀ s, .str s ∈ l → ∃ l, env.cifReader r.cif s = .ok l) → .other ∈ l → unwrapPsets env r.cif l = .error (.run .value) := by
    intro l
    induction l with
    | nil => intro _ h; simp at h
    | cons i l ih =>
      intro h1 h2
      have ih := ih (fun s hs => h1 s (by simp [hs]))
      cases i with
      | pset c => rw [unwrapPsets, ih (by simpa using h2)]
      | str s =>
        obtain ⟨l', hl⟩ := h1 s (by simp)
        rw [unwrapPsets, hl, ih (by simpa using h2)]
      | other => rfl
  rw [getCrystals, if_neg (by simp), Input.items, key items h ho]

/-- **C37** With `csd_refcodes`, anything but strings raises TypeError. -/
theorem C37_raises_refcodes {r : Routed} {items : List Item} {i : Item} (hi : i ∈ items) (h : ∀ s, i ≠ .str s) :
    getCrystals env true r (.many items) = .error .type := by
  have key : ∀ l : List Item, i ∈ l → allStrings l = none := by
    intro l
    induction l with
    | nil => intro h; simp at h
    | cons j l ih =>
      intro hj
      cases j with
      | str s => rw [allStrings, ih (by simpa [h s] using hj)]; rfl
      | pset c => rfl
      | other => rfl
  rw [getCrystals, if_pos rfl, Input.items, unwrapRefcodes, key items hi]

/-! An example that meets the assumptions: three crystals, a reader that finds them in one file, and everything else done in order. -/

/-- Positions in order of the values. -/
noncomputable def exampleSort (row : List ℝ) : List ℕ := (List.range row.length).mergeSort fun i j => row.getD i 0 ≤ row.getD j 0

theorem exampleSort_perm (row : List ℝ) : (exampleSort row).Perm (List.range row.length) := List.mergeSort_perm _ _

theorem exampleSort_sorted (row : List ℝ) : (exampleSort row).Pairwise fun i j => row.getD i 0 ≤ row.getD j 0 := by
  have := List.pairwise_mergeSort (le := fun i j => decide (row.getD i 0 ≤ row.getD j 0)) (fun a b c h1 h2 => by
    simp only [decide_eq_true_eq] at *; exact h1.trans h2) (fun a b => by simp only [Bool.or_eq_true, decide_eq_true_eq]; exact le_total _ _)
    (List.range row.length)
  exact this.imp fun h => by simpa using h

/-- Three crystals: a set, the same with its asymmetric unit, and a set with another cell. -/
noncomputable def exampleCrystals : List Crystal := [⟨"a", 2, exampleSet⟩, ⟨"b", 2, exampleAsym⟩, ⟨"c", 2, { exampleSet with motif := [![0, 0]] }⟩]

theorem exampleCrystals_valid : ∀ c ∈ exampleCrystals, c.Valid := by
  intro c hc
  simp only [exampleCrystals, List.mem_cons, List.not_mem_nil, or_false] at hc
  rcases hc with rfl | rfl | rfl
  · exact ⟨by simp, exampleSet_nonSingular, by simp [exampleSet], _, _, exampleSet_units, exampleSet_units_ne, by simp, by simp [exampleSet]⟩
  · exact ⟨by simp, exampleSet_nonSingular, by simp [exampleAsym, exampleSet], _, _, exampleAsym_units, by simp, by simp, by simp [exampleAsym, exampleSet]⟩
  · refine ⟨by simp, exampleSet_nonSingular, by simp, List.finRange 1, [1], Or.inr ⟨Or.inl rfl, rfl, rfl⟩, by simp, by simp, by simp⟩

/-- The environment of the example. -/
noncomputable def exampleEnv : Env where
  cifReader _ _ := .ok exampleCrystals
  csdReader _ _ := .ok exampleCrystals
  other _ _ _ := 1
  sched _ n := List.range n
  part _ := exampleSort
  sort := exampleSort
  knn _ _ xb x n :=
    let ds := xb.map fun y => chebyshev x y
    { dists := ((exampleSort ds).take n).map fun j => chebyshev x (xb.getD j []), inds := (exampleSort ds).take n }

theorem exampleEnv_sound : exampleEnv.Sound where
  sched _ _ := List.Perm.refl _
  part := by
    intro kth row hk
    have hl : (exampleSort row).length = row.length := by simpa using (exampleSort_perm row).length_eq
    have hs := exampleSort_sorted row
    rw [List.pairwise_iff_getElem] at hs
    refine ⟨exampleSort_perm row, fun a ha => ?_, fun b hb hkb => ?_⟩
    · change row.getD ((exampleSort row).getD a 0) 0 ≤ row.getD ((exampleSort row).getD kth 0) 0
      rw [List.getD_eq_getElem (exampleSort row) _ (by omega : a < _), List.getD_eq_getElem (exampleSort row) _ (by omega : kth < _)]
      exact hs a kth _ _ ha
    · change row.getD ((exampleSort row).getD kth 0) 0 ≤ row.getD ((exampleSort row).getD b 0) 0
      rw [List.getD_eq_getElem (exampleSort row) _ (by omega : b < _), List.getD_eq_getElem (exampleSort row) _ (by omega : kth < _)]
      exact hs kth b _ _ hkb
  sort := by
    intro row
    refine ⟨exampleSort_perm row, ?_⟩
    rw [List.pairwise_map]
    exact exampleSort_sorted row
  knn := by
    intro kw xb x n hn
    have hp := exampleSort_perm (xb.map fun y => chebyshev x y)
    have hs := exampleSort_sorted (xb.map fun y => chebyshev x y)
    have hl := hp.length_eq
    rw [List.length_map, List.length_range] at hl
    rw [List.length_map] at hp
    have hnd : (exampleSort (xb.map fun y => chebyshev x y)).Nodup := hp.nodup_iff.2 List.nodup_range
    have hval : ∀ j ∈ exampleSort (xb.map fun y => chebyshev x y), (xb.map fun y => chebyshev x y).getD j 0 = chebyshev x (xb.getD j []) := by
      intro j hj
      have hj : j < xb.length := List.mem_range.1 (hp.subset hj)
      simp [List.getD_eq_getElem?_getD, hj]
    refine ⟨?_, hnd.sublist (List.take_sublist _ _), fun j hj => List.mem_range.1 (hp.subset (List.take_subset _ _ hj)), rfl, ?_, ?_⟩
    · change ((exampleSort (xb.map fun y => chebyshev x y)).take n).length = n
      rw [List.length_take, hl]
      exact min_eq_left hn
    · change (((exampleSort (xb.map fun y => chebyshev x y)).take n).map fun j => chebyshev x (xb.getD j [])).Pairwise (· ≤ ·)
      rw [List.pairwise_map]
      refine (hs.sublist (List.take_sublist _ _)).imp_of_mem fun {a b} ha hb h => ?_
      rwa [hval a (List.take_subset _ _ ha), hval b (List.take_subset _ _ hb)] at h
    · intro j hj hjn i hi
      have hmem : j ∈ exampleSort (xb.map fun y => chebyshev x y) := hp.mem_iff.2 (List.mem_range.2 hj)
      have hs' := hs
      rw [← List.take_append_drop n (exampleSort (xb.map fun y => chebyshev x y)), List.pairwise_append] at hs'
      rw [← List.take_append_drop n (exampleSort (xb.map fun y => chebyshev x y)), List.mem_append] at hmem
      have hd := hmem.resolve_left hjn
      have := hs'.2.2 i hi j hd
      rwa [hval i (List.take_subset _ _ hi), hval j (List.drop_subset _ _ hd)] at this

theorem example_inputs (r : Routed) : getCrystals exampleEnv false r (.one (.str "data.cif")) = .ok exampleCrystals := rfl

example : ∃ (a : ℕ → List ℝ) (M : List (List ℝ)) (F : ℕ), IsMatrix 3 3 (fun i j => chebyshev (a i) (a j)) M ∧ ∀ fuel ≥ F,
    (∀ i (hi : i < exampleCrystals.length), AMD exampleCrystals[i].set 100 fuel = .ok (a i)) ∧
    compare exampleEnv (.one (.str "data.cif")) none {} [] fuel = .ok (.matrix ["a", "b", "c"] ["a", "b", "c"] M) :=
  C37_amd (args := {}) exampleCrystals_valid (by simp) (by rfl) rfl rfl (example_inputs _) (by simp [exampleCrystals])

example : ∃ (p q : ℕ → List (PRow ℝ)) (d : ℕ → ℕ → ℝ) (M : List (List ℝ)) (F : ℕ), IsMatrix 3 3 d M ∧ ∀ fuel ≥ F,
    (∀ i (hi : i < exampleCrystals.length), pddOf [("n_jobs", .int 4), ("collapse", .bool false)] (1 / 10000) exampleCrystals[i] 50 fuel = .ok (p i)) ∧
    (∀ i (hi : i < exampleCrystals.length), pddOf [("n_jobs", .int 4), ("collapse", .bool false)] (1 / 10000) exampleCrystals[i] 50 fuel = .ok (q i)) ∧
    (∀ i j, i < 3 → j < 3 → ∃ plan, emd chebyshev (p i) (q j) fuel = .ok (d i j, plan)) ∧
    compare exampleEnv (.one (.str "data.cif")) (some (.one (.str "data.cif"))) { by_ := "pdd", k := 50 }
      [("n_jobs", .int 4), ("collapse", .bool false)] fuel = .ok (.matrix ["a", "b", "c"] ["a", "b", "c"] M) :=
  C37_pdd_two (args := { by_ := "pdd", k := 50 }) exampleEnv_sound.sched exampleCrystals_valid exampleCrystals_valid (by rfl) rfl
    (metric := .named "chebyshev") ⟨rfl, rfl, ⟨_, rfl⟩, ⟨_, rfl⟩⟩ (EMD_default_metric 50).nonneg (example_inputs _) (by simp [exampleCrystals]) (example_inputs _)

/-! ### C38 -/

/-- **C38** By AMD, one collection: for every `n` from 1 to the number of other crystals, row `i` lists the names and distances of `n` distinct
crystals other than `i`, nearest first, and no other crystal is nearer. -/
theorem C38_amd (he : env.Sound) (hv : ∀ c ∈ cs, c.Valid) (hby : upper args.by_ = "AMD") {n : ℕ}
    (hn : args.nNeighbors = some n) (hn0 : 0 < n) (hnl : n < cs.length) (hm : kwOr kwargs "metric" (.str "chebyshev") = .str "chebyshev")
    (hg : getCrystals env args.csdRefcodes (routeKwargs args.verbose kwargs) inp = .ok cs) :
    ∃ (a : ℕ → List ℝ) (f : Frame) (F : ℕ), IsNearestTable n (cs.map Crystal.name) (cs.map Crystal.name) (fun i j => j < cs.length ∧ j ≠ i)
        (fun i j => chebyshev (a i) (a j)) f ∧ ∀ fuel ≥ F,
      (∀ i (hi : i < cs.length), AMD cs[i].set args.k fuel = .ok (a i)) ∧ compare env inp none args kwargs fuel = .ok f := by
  obtain ⟨a, F, h1, h2, h3⟩ := amds_all hv args.k
  have hmet := EMD_default_metric args.k
  obtain ⟨nn, e1, e2, e3⟩ := nearestItems_one (he.knn (routeKwargs args.verbose kwargs).near) (xa := a) (fun x hx => hmet.self x (h2 x hx))
    (fun x hx y hy => hmet.nonneg x y (h2 x hx) (h2 y hy)) hn0 (by omega)
  rw [h1] at e3
  obtain ⟨f, f1, f2⟩ := nearestFrame_ok (names := cs.map Crystal.name) (names_ := cs.map Crystal.name) (by simp [e2, h1])
    (fun i j hj => by simpa using hj.1) e3
  refine ⟨fun i => a.getD i [], f, F, f2, fun fuel hf => ⟨(h3 fuel hf).2, ?_⟩⟩
  rw [(compare_amd hby hg).1, compareAmd, (h3 fuel hf).1, hn]
  have hmet : argOf (routeKwargs args.verbose kwargs).near "metric" = .str "chebyshev" := hm
  simp only [lift, bind, Except.bind, hmet, PyVal.toMetric, e1]
  exact f1

/-- **C38** By AMD, two collections: for every `n` from 1 to the size of the second collection. -/
theorem C38_amd_two (he : env.Sound) (hv : ∀ c ∈ cs, c.Valid) (hv' : ∀ c ∈ cs', c.Valid) (hby : upper args.by_ = "AMD") {n : ℕ}
    (hn : args.nNeighbors = some n) (hn0 : 0 < n) (hnl : n ≤ cs'.length) (hm : kwOr kwargs "metric" (.str "chebyshev") = .str "chebyshev")
    (hg : getCrystals env args.csdRefcodes (routeKwargs args.verbose kwargs) inp = .ok cs)
    (hg' : getCrystals env args.csdRefcodes (routeKwargs args.verbose kwargs) inp' = .ok cs') :
    ∃ (a b : ℕ → List ℝ) (f : Frame) (F : ℕ), IsNearestTable n (cs.map Crystal.name) (cs'.map Crystal.name) (fun _ j => j < cs'.length)
        (fun i j => chebyshev (a i) (b j)) f ∧ ∀ fuel ≥ F,
      (∀ i (hi : i < cs.length), AMD cs[i].set args.k fuel = .ok (a i)) ∧ (∀ j (hj : j < cs'.length), AMD cs'[j].set args.k fuel = .ok (b j)) ∧
      compare env inp (some inp') args kwargs fuel = .ok f := by
  obtain ⟨a, F, h1, h2, h3⟩ := amds_all hv args.k
  obtain ⟨b, G, g1, g2, g3⟩ := amds_all hv' args.k
  obtain ⟨nn, e1, e2, e3⟩ := nearestItems_two (he.knn (routeKwargs args.verbose kwargs).near) (xa := a) (xb := b) hn0 (by omega)
  rw [g1] at e3
  obtain ⟨f, f1, f2⟩ := nearestFrame_ok (names := cs.map Crystal.name) (names_ := cs'.map Crystal.name) (cand := fun _ j => j < cs'.length)
    (by simp [e2, h1]) (fun i j hj => by simpa using hj) e3
  refine ⟨fun i => a.getD i [], fun i => b.getD i [], f, max F G, f2, fun fuel hf => ⟨(h3 fuel (by omega)).2, (g3 fuel (by omega)).2, ?_⟩⟩
  rw [(compare_amd hby hg).2 _ _ hg', compareAmd, (h3 fuel (by omega)).1, hn]
  have hmet : argOf (routeKwargs args.verbose kwargs).near "metric" = .str "chebyshev" := hm
  simp only [lift, bind, Except.bind, hmet, PyVal.toMetric, e1, (g3 fuel (by omega)).1]
  exact f1

/-- **C38** By PDD, one collection. Missing: `n` equal to the number of other crystals, for which ValueError is raised, see `C38_false`. -/
theorem C38_pdd_partial (he : env.Sound) (hv : ∀ c ∈ cs, c.Valid) (hby : upper args.by_ = "PDD") {n : ℕ} (hn : args.nNeighbors = some n)
    (hnl : n + 1 < cs.length) {tol : ℝ} {metric : MetricArg ℝ} (ho : PddOptions kwargs tol metric)
    (hδ : ∀ r s, r.length = args.k → s.length = args.k → 0 ≤ metric.dist env.other r s)
    (hg : getCrystals env args.csdRefcodes (routeKwargs args.verbose kwargs) inp = .ok cs) :
    ∃ (p : ℕ → List (PRow ℝ)) (d : ℕ → ℕ → ℝ) (f : Frame) (F : ℕ), IsNearestTable n (cs.map Crystal.name) (cs.map Crystal.name)
        (fun i j => j < cs.length ∧ j ≠ i) (fun i j => if i = j then 0 else d (min i j) (max i j)) f ∧ ∀ fuel ≥ F,
      (∀ i (hi : i < cs.length), pddOf kwargs tol cs[i] args.k fuel = .ok (p i)) ∧
      (∀ i j, i < j → j < cs.length → ∃ plan, emd (metric.dist env.other) (p i) (p j) fuel = .ok (d i j, plan)) ∧
      compare env inp none args kwargs fuel = .ok f := by
  obtain ⟨p, F, h1, h2, h3⟩ := pdds_all hv args.k (kwOr kwargs "lexsort" (.bool true)).truthy (kwOr kwargs "collapse" (.bool true)).truthy tol
  obtain ⟨v, G, d, hv1, hv2⟩ := C36_pdist (List.ne_nil_of_length_pos (by omega)) h2 hδ
  have hd : ∀ i j, i < j → j < p.length → 0 ≤ d i j := fun i j hij hj => by
    obtain ⟨plan, e⟩ := (hv2 G le_rfl).1 i j hij hj
    exact C29_nonneg (h2 _ (List.getElem_mem _)) (h2 _ (List.getElem_mem _)) hδ e
  obtain ⟨nn, e1, e2, e3⟩ := neighbors1D_spec he.part he.sort hv1 hd (n := n) (by omega)
  rw [h1] at e3
  obtain ⟨f, f1, f2⟩ := nearestFrame_ok (names := cs.map Crystal.name) (names_ := cs.map Crystal.name)
    (d := fun i j => if i = j then 0 else d (min i j) (max i j)) (by simp [e2, h1]) (fun i j hj => by simpa using hj.1) e3
  refine ⟨fun i => p.getD i [], d, f, max F G, f2, fun fuel hf => ⟨(h3 fuel (by omega)).2, fun i j hij hj => ?_, ?_⟩⟩
  · rw [← h1] at hj
    beta_reduce
    rw [List.getD_eq_getElem _ _ (by omega), List.getD_eq_getElem _ _ hj]
    exact (hv2 fuel (by omega)).1 i j hij hj
  rw [(compare_pdd hby hg).1, comparePdd, hn]
  have o1 : (argOf (routeKwargs args.verbose kwargs).pdd "collapse_tol").toFloat = .ok tol := ho.tol
  have o2 : (argOf (routeKwargs args.verbose kwargs).pdds "metric").toMetric = .ok metric := ho.metric
  obtain ⟨nj, o3⟩ : ∃ n, (argOf (routeKwargs args.verbose kwargs).pdds "n_jobs").toJobs = .ok n := ho.jobs
  obtain ⟨be, o4⟩ : ∃ s, (argOf (routeKwargs args.verbose kwargs).pdds "backend").toStr = .ok s := ho.backend
  have o5 : argOf (routeKwargs args.verbose kwargs).pdd "lexsort" = kwOr kwargs "lexsort" (.bool true) := rfl
  have o6 : argOf (routeKwargs args.verbose kwargs).pdd "collapse" = kwOr kwargs "collapse" (.bool true) := rfl
  simp only [allPdds, lift, bind, Except.bind, o1, o2, o3, o4, o5, o6, (h3 fuel (by omega)).1, (hv2 fuel (by omega)).2 env.sched _ he.sched, e1]
  exact f1

/-- **C38** By PDD, two collections. Missing: `n` equal to the size of the second collection, for which ValueError is raised, see `C38_false_two`. -/
theorem C38_pdd_two_partial (he : env.Sound) (hv : ∀ c ∈ cs, c.Valid) (hv' : ∀ c ∈ cs', c.Valid) (hby : upper args.by_ = "PDD") {n : ℕ}
    (hn : args.nNeighbors = some n) (hnl : n < cs'.length) {tol : ℝ} {metric : MetricArg ℝ} (ho : PddOptions kwargs tol metric)
    (hδ : ∀ r s, r.length = args.k → s.length = args.k → 0 ≤ metric.dist env.other r s)
    (hg : getCrystals env args.csdRefcodes (routeKwargs args.verbose kwargs) inp = .ok cs) (hne : cs ≠ [])
    (hg' : getCrystals env args.csdRefcodes (routeKwargs args.verbose kwargs) inp' = .ok cs') :
    ∃ (p q : ℕ → List (PRow ℝ)) (d : ℕ → ℕ → ℝ) (f : Frame) (F : ℕ), IsNearestTable n (cs.map Crystal.name) (cs'.map Crystal.name)
        (fun _ j => j < cs'.length) d f ∧ ∀ fuel ≥ F,
      (∀ i (hi : i < cs.length), pddOf kwargs tol cs[i] args.k fuel = .ok (p i)) ∧
      (∀ j (hj : j < cs'.length), pddOf kwargs tol cs'[j] args.k fuel = .ok (q j)) ∧
      (∀ i j, i < cs.length → j < cs'.length → ∃ plan, emd (metric.dist env.other) (p i) (q j) fuel = .ok (d i j, plan)) ∧
      compare env inp (some inp') args kwargs fuel = .ok f := by
  obtain ⟨p, F, h1, h2, h3⟩ := pdds_all hv args.k (kwOr kwargs "lexsort" (.bool true)).truthy (kwOr kwargs "collapse" (.bool true)).truthy tol
  obtain ⟨q, F', g1, g2, g3⟩ := pdds_all hv' args.k (kwOr kwargs "lexsort" (.bool true)).truthy (kwOr kwargs "collapse" (.bool true)).truthy tol
  obtain ⟨M, G, d, hM, hv2⟩ := C36_cdist (List.ne_nil_of_length_pos (by rw [h1]; exact List.length_pos_iff.2 hne)) h2 g2 hδ
  obtain ⟨nn, e1, e2, e3⟩ := neighbors2D_spec he.part he.sort hM (n := n) (by omega)
  rw [g1] at e3
  obtain ⟨f, f1, f2⟩ := nearestFrame_ok (names := cs.map Crystal.name) (names_ := cs'.map Crystal.name) (cand := fun _ j => j < cs'.length)
    (by simp [e2, h1]) (fun i j hj => by simpa using hj) e3
  refine ⟨fun i => p.getD i [], fun i => q.getD i [], d, f, max (max F F') G, f2, fun fuel hf => ⟨(h3 fuel (by omega)).2, (g3 fuel (by omega)).2,
    fun i j hi hj => ?_, ?_⟩⟩
  · rw [← h1] at hi
    rw [← g1] at hj
    beta_reduce
    rw [List.getD_eq_getElem _ _ hi, List.getD_eq_getElem _ _ hj]
    exact (hv2 fuel (by omega)).1 i j hi hj
  rw [(compare_pdd hby hg).2 _ _ hg', comparePdd, hn]
  have o1 : (argOf (routeKwargs args.verbose kwargs).pdd "collapse_tol").toFloat = .ok tol := ho.tol
  have o2 : (argOf (routeKwargs args.verbose kwargs).pdds "metric").toMetric = .ok metric := ho.metric
  obtain ⟨nj, o3⟩ : ∃ n, (argOf (routeKwargs args.verbose kwargs).pdds "n_jobs").toJobs = .ok n := ho.jobs
  obtain ⟨be, o4⟩ : ∃ s, (argOf (routeKwargs args.verbose kwargs).pdds "backend").toStr = .ok s := ho.backend
  have o5 : argOf (routeKwargs args.verbose kwargs).pdd "lexsort" = kwOr kwargs "lexsort" (.bool true) := rfl
  have o6 : argOf (routeKwargs args.verbose kwargs).pdd "collapse" = kwOr kwargs "collapse" (.bool true) := rfl
  simp only [allPdds, lift, bind, Except.bind, o1, o2, o3, o4, o5, o6, (h3 fuel (by omega)).1, (g3 fuel (by omega)).1,
    (hv2 fuel (by omega)).2 env.sched _ he.sched, e1]
  exact f1

/-- **C38 does not hold** by PDD for the largest `n`: if there are `n + 1` crystals, asking for the `n` nearest other crystals raises ValueError, although
`n` other crystals exist (and asking by AMD works). -/
theorem C38_false (he : env.Sound) (hv : ∀ c ∈ cs, c.Valid) (hby : upper args.by_ = "PDD") {n : ℕ} (hn : args.nNeighbors = some n)
    (hnl : n + 1 = cs.length) {tol : ℝ} {metric : MetricArg ℝ} (ho : PddOptions kwargs tol metric)
    (hδ : ∀ r s, r.length = args.k → s.length = args.k → 0 ≤ metric.dist env.other r s)
    (hg : getCrystals env args.csdRefcodes (routeKwargs args.verbose kwargs) inp = .ok cs) :
    ∃ F, ∀ fuel ≥ F, compare env inp none args kwargs fuel = .error (.run .value) := by
  obtain ⟨p, F, h1, h2, h3⟩ := pdds_all hv args.k (kwOr kwargs "lexsort" (.bool true)).truthy (kwOr kwargs "collapse" (.bool true)).truthy tol
  obtain ⟨v, G, d, hv1, hv2⟩ := C36_pdist (List.ne_nil_of_length_pos (by omega)) h2 hδ
  obtain ⟨M, hM1, hM2⟩ := squareform_condensed (by omega) hv1
  have e1 : neighbors1D env.part env.sort n v = .error .value := by
    rw [neighbors1D, hM1]
    obtain ⟨m1, m2, -⟩ := hM2
    cases M with
    | nil => simp at m1; omega
    | cons r M =>
      simp only
      rw [List.zipIdx_cons, mapE]
      rw [if_neg (by rw [m2 r (by simp)]; omega)]
  refine ⟨max F G, fun fuel hf => ?_⟩
  rw [(compare_pdd hby hg).1, comparePdd, hn]
  have o1 : (argOf (routeKwargs args.verbose kwargs).pdd "collapse_tol").toFloat = .ok tol := ho.tol
  have o2 : (argOf (routeKwargs args.verbose kwargs).pdds "metric").toMetric = .ok metric := ho.metric
  obtain ⟨nj, o3⟩ : ∃ n, (argOf (routeKwargs args.verbose kwargs).pdds "n_jobs").toJobs = .ok n := ho.jobs
  obtain ⟨be, o4⟩ : ∃ s, (argOf (routeKwargs args.verbose kwargs).pdds "backend").toStr = .ok s := ho.backend
  have o5 : argOf (routeKwargs args.verbose kwargs).pdd "lexsort" = kwOr kwargs "lexsort" (.bool true) := rfl
  have o6 : argOf (routeKwargs args.verbose kwargs).pdd "collapse" = kwOr kwargs "collapse" (.bool true) := rfl
  simp only [allPdds, lift, bind, Except.bind, o1, o2, o3, o4, o5, o6, (h3 fuel (by omega)).1, (hv2 fuel (by omega)).2 env.sched _ he.sched, e1]

/-- **C38 does not hold** by PDD for two collections, if `n` is the size of the second. -/
theorem C38_false_two (he : env.Sound) (hv : ∀ c ∈ cs, c.Valid) (hv' : ∀ c ∈ cs', c.Valid) (hby : upper args.by_ = "PDD") {n : ℕ}
    (hn : args.nNeighbors = some n) (hnl : n = cs'.length) {tol : ℝ} {metric : MetricArg ℝ} (ho : PddOptions kwargs tol metric)
    (hδ : ∀ r s, r.length = args.k → s.length = args.k → 0 ≤ metric.dist env.other r s)
    (hg : getCrystals env args.csdRefcodes (routeKwargs args.verbose kwargs) inp = .ok cs) (hne : cs ≠ [])
    (hg' : getCrystals env args.csdRefcodes (routeKwargs args.verbose kwargs) inp' = .ok cs') :
    ∃ F, ∀ fuel ≥ F, compare env inp (some inp') args kwargs fuel = .error (.run .value) := by
  obtain ⟨p, F, h1, h2, h3⟩ := pdds_all hv args.k (kwOr kwargs "lexsort" (.bool true)).truthy (kwOr kwargs "collapse" (.bool true)).truthy tol
  obtain ⟨q, F', g1, g2, g3⟩ := pdds_all hv' args.k (kwOr kwargs "lexsort" (.bool true)).truthy (kwOr kwargs "collapse" (.bool true)).truthy tol
  have hpne : p ≠ [] := List.ne_nil_of_length_pos (by rw [h1]; exact List.length_pos_iff.2 hne)
  obtain ⟨M, G, d, hM, hv2⟩ := C36_cdist hpne h2 g2 hδ
  have e1 : neighbors2D env.part env.sort n M = .error .value := by
    rw [neighbors2D]
    obtain ⟨m1, m2, -⟩ := hM
    cases M with
    | nil => exact absurd (List.length_eq_zero_iff.1 m1.symm) hpne
    | cons r M => rw [mapE, if_neg (by rw [m2 r (by simp)]; omega)]
  refine ⟨max (max F F') G, fun fuel hf => ?_⟩
  rw [(compare_pdd hby hg).2 _ _ hg', comparePdd, hn]
  have o1 : (argOf (routeKwargs args.verbose kwargs).pdd "collapse_tol").toFloat = .ok tol := ho.tol
  have o2 : (argOf (routeKwargs args.verbose kwargs).pdds "metric").toMetric = .ok metric := ho.metric
  obtain ⟨nj, o3⟩ : ∃ n, (argOf (routeKwargs args.verbose kwargs).pdds "n_jobs").toJobs = .ok n := ho.jobs
  obtain ⟨be, o4⟩ : ∃ s, (argOf (routeKwargs args.verbose kwargs).pdds "backend").toStr = .ok s := ho.backend
  have o5 : argOf (routeKwargs args.verbose kwargs).pdd "lexsort" = kwOr kwargs "lexsort" (.bool true) := rfl
  have o6 : argOf (routeKwargs args.verbose kwargs).pdd "collapse" = kwOr kwargs "collapse" (.bool true) := rfl
  simp only [allPdds, lift, bind, Except.bind, o1, o2, o3, o4, o5, o6, (h3 fuel (by omega)).1, (g3 fuel (by omega)).1,
    (hv2 fuel (by omega)).2 env.sched _ he.sched, e1]

/-- Three crystals: the two nearest others by AMD are found, the two nearest others by PDD raise ValueError. -/
example : (∃ (a : ℕ → List ℝ) (f : Frame) (F : ℕ), IsNearestTable 2 ["a", "b", "c"] ["a", "b", "c"] (fun i j => j < 3 ∧ j ≠ i)
      (fun i j => chebyshev (a i) (a j)) f ∧ ∀ fuel ≥ F, (∀ i (hi : i < exampleCrystals.length), AMD exampleCrystals[i].set 100 fuel = .ok (a i)) ∧
      compare exampleEnv (.one (.str "data.cif")) none { nNeighbors := some 2 } [] fuel = .ok f) ∧
    ∃ F, ∀ fuel ≥ F, compare exampleEnv (.one (.str "data.cif")) none { by_ := "PDD", nNeighbors := some 2 } [] fuel = .error (.run .value) :=
  ⟨C38_amd (args := { nNeighbors := some 2 }) exampleEnv_sound exampleCrystals_valid (by rfl) rfl (by norm_num) (by simp [exampleCrystals]) rfl (example_inputs _),
    C38_false (args := { by_ := "PDD", nNeighbors := some 2 }) exampleEnv_sound exampleCrystals_valid (by rfl) rfl (by simp [exampleCrystals])
      PddOptions.default (EMD_default_metric _).nonneg (example_inputs _)⟩

/-- The nearest other crystal by PDD. -/
example : ∃ (p : ℕ → List (PRow ℝ)) (d : ℕ → ℕ → ℝ) (f : Frame) (F : ℕ), IsNearestTable 1 (exampleCrystals.map Crystal.name)
      (exampleCrystals.map Crystal.name)
      (fun i j => j < exampleCrystals.length ∧ j ≠ i) (fun i j => if i = j then 0 else d (min i j) (max i j)) f ∧ ∀ fuel ≥ F,
    (∀ i (hi : i < exampleCrystals.length), pddOf [] (1 / 10000) exampleCrystals[i] 100 fuel = .ok (p i)) ∧
    (∀ i j, i < j → j < exampleCrystals.length → ∃ plan, emd ((MetricArg.named "chebyshev").dist exampleEnv.other) (p i) (p j) fuel = .ok (d i j, plan)) ∧
    compare exampleEnv (.one (.str "data.cif")) none { by_ := "PDD", nNeighbors := some 1 } [] fuel = .ok f :=
  C38_pdd_partial (args := { by_ := "PDD", nNeighbors := some 1 }) exampleEnv_sound exampleCrystals_valid (by rfl) rfl (by simp [exampleCrystals])
    PddOptions.default (EMD_default_metric _).nonneg (example_inputs _)

end Amd
