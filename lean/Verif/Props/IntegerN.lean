import Verif.Proof.IntegerN
import Verif.Props.Compare
import Verif.Proof.ReadFirst

/-!
# C105: a number of nearest neighbours that is not positive

`n_neighbors` is any integer. `CErr.run .value` is ValueError, `CErr.run .bounds` is IndexError.
-/

namespace Amd

variable {env : Env} {args : CompareArgs} {kwargs : Kwargs} {inp inp' : Input} {cs cs' : List Crystal} {n : ℤ}

/-- **C105** For the natural numbers `compareNearest` is `compare` of the other models. -/
theorem C105_natural (he : env.Sound) (inp : Input) (inp' : Option Input) (args : CompareArgs) (n : ℕ) (kwargs : Kwargs) (fuel : ℕ) :
    compareNearest env inp inp' args (n : ℤ) kwargs fuel = compare env inp inp' { args with nNeighbors := some n } kwargs fuel := by
  have hA : ∀ r cs cs_ k, compareAmdInt env r cs cs_ k (n : ℤ) fuel = compareAmd env r cs cs_ k (some n) fuel := by
    intro r cs cs_ k
    cases cs_ with
    | none => simp only [compareAmdInt, compareAmd, nearestItemsInt_natural, Int.toNat_natCast]
    | some cs' => simp only [compareAmdInt, compareAmd, nearestItemsInt_natural, Int.toNat_natCast]
  have hP : ∀ r cs cs_ k, comparePddInt env r cs cs_ k (n : ℤ) fuel = comparePdd env r cs cs_ k (some n) fuel := by
    intro r cs cs_ k
    have h1 : ∀ v names, (lift (neighbors1D env.part env.sort n v)).bind (fun nn => nearestFrame (columnCount (n : ℤ) nn) nn names names) =
        (lift (neighbors1D env.part env.sort n v)).bind (fun nn => nearestFrame n nn names names) := by
      intro v names
      cases h : neighbors1D env.part env.sort n v with
      | error e => rfl
      | ok nn =>
        simp only [lift, Except.bind]
        rw [columnCount_same (neighbors1D_lengths he.part he.sort h) fun _ => rfl]
    have h2 : ∀ M names names_, (lift (neighbors2D env.part env.sort n M)).bind (fun nn => nearestFrame (columnCount (n : ℤ) nn) nn names names_) =
        (lift (neighbors2D env.part env.sort n M)).bind (fun nn => nearestFrame n nn names names_) := by
      intro M names names_
      cases h : neighbors2D env.part env.sort n M with
      | error e => rfl
      | ok nn =>
        simp only [lift, Except.bind]
        rw [columnCount_same (neighbors2D_lengths he.part he.sort h) fun _ => rfl]
    cases cs_ with
    | none => simp only [comparePddInt, comparePdd, neighbors1DInt_natural he.part, bind, h1]
    | some cs' => simp only [comparePddInt, comparePdd, neighbors2DInt_natural, bind, h2]
  simp only [compareNearest, compare, hA, hP]
  cases inp' <;> rfl

/-- **C105** By AMD, every negative `n_neighbors` raises ValueError, and so does 0 if there are two collections. Missing: 0 for one collection (`C105_false_amd`) and PDD (`C105_false_pdd`,
`C105_false_pdd_two`), for which the claim is false. -/
theorem C105_amd_partial (hv : ∀ c ∈ cs, c.Valid) (hby : upper args.by_ = "AMD") {metric : MetricArg ℝ}
    (hm : (kwOr kwargs "metric" (.str "chebyshev")).toMetric = .ok metric)
    (hg : getCrystals env args.csdRefcodes (routeKwargs args.verbose kwargs) inp = .ok cs) :
    (n < 0 → ∃ F, ∀ fuel ≥ F, compareNearest env inp none args n kwargs fuel = .error (.run .value)) ∧
    (n ≤ 0 → (∀ c ∈ cs', c.Valid) → getCrystals env args.csdRefcodes (routeKwargs args.verbose kwargs) inp' = .ok cs' →
      ∃ F, ∀ fuel ≥ F, compareNearest env inp (some inp') args n kwargs fuel = .error (.run .value)) := by
  obtain ⟨a, F, h1, h2, h3⟩ := amds_all hv args.k
  have o1 : (argOf (routeKwargs args.verbose kwargs).near "metric").toMetric = .ok metric := hm
  constructor
  · intro hn
    refine ⟨F, fun fuel hf => ?_⟩
    rw [((compareNearest_read hg).1 hby).1, compareAmdInt]
    simp only [lift, bind, Except.bind, o1, (h3 fuel hf).1, nearestItemsInt, kneighborsInt, if_pos (Or.inl (by omega : n + 1 < 1))]
  · intro hn hv' hg'
    obtain ⟨b, G, g1, g2, g3⟩ := amds_all hv' args.k
    refine ⟨max F G, fun fuel hf => ?_⟩
    rw [((compareNearest_read hg).1 hby).2 _ _ hg', compareAmdInt]
    simp only [lift, bind, Except.bind, o1, (h3 fuel (by omega)).1, (g3 fuel (by omega)).1, nearestItemsInt, kneighborsInt, if_pos (Or.inl (by omega : n < 1))]

/-- **C105 does not hold** by AMD for one collection and 0: a table without columns is returned, or IndexError is raised; if no two crystals are at
distance 0 it is the table. -/
theorem C105_false_amd (he : env.Sound) (hv : ∀ c ∈ cs, c.Valid) (hby : upper args.by_ = "AMD") (hm : kwOr kwargs "metric" (.str "chebyshev") = .str "chebyshev")
    (hg : getCrystals env args.csdRefcodes (routeKwargs args.verbose kwargs) inp = .ok cs) :
    ∃ (a : ℕ → List ℝ) (F : ℕ), ∀ fuel ≥ F, (∀ i (hi : i < cs.length), AMD cs[i].set args.k fuel = .ok (a i)) ∧
      (compareNearest env inp none args 0 kwargs fuel = .ok (.nearest (cs.map Crystal.name) []) ∨ compareNearest env inp none args 0 kwargs fuel = .error (.run .bounds)) ∧
      ((∀ i j, i < cs.length → j < cs.length → i ≠ j → 0 < chebyshev (a i) (a j)) → compareNearest env inp none args 0 kwargs fuel = .ok (.nearest (cs.map Crystal.name) [])) := by
  obtain ⟨a, F, h1, h2, h3⟩ := amds_all hv args.k
  have hmet := EMD_default_metric args.k
  have hmm : argOf (routeKwargs args.verbose kwargs).near "metric" = .str "chebyshev" := hm
  have hk := he.knn (routeKwargs args.verbose kwargs).near
  have hpos : 0 < a.length := by
    rw [h1]
    exact List.length_pos_iff.2 (getCrystals_ne_nil hg)
  have hcmp : ∀ fuel ≥ F, compareNearest env inp none args 0 kwargs fuel =
      (lift (mapE (withoutSelf 0) (a.map fun x => env.knn (routeKwargs args.verbose kwargs).near (.named "chebyshev") a x 1).zipIdx)).bind
        fun nn => nearestFrame 0 nn (cs.map Crystal.name) (cs.map Crystal.name) := by
    intro fuel hf
    rw [((compareNearest_read hg).1 hby).1, compareAmdInt]
    simp only [lift, bind, Except.bind, hmm, PyVal.toMetric, (h3 fuel hf).1, nearestItemsInt, kneighborsInt]
    rw [if_neg (by omega)]
    rfl
  have hrow : ∀ r ∈ (a.map fun x => env.knn (routeKwargs args.verbose kwargs).near (.named "chebyshev") a x 1).zipIdx,
      (∃ hr : r.2 < a.length, r.1 = env.knn (routeKwargs args.verbose kwargs).near (.named "chebyshev") a a[r.2] 1) := by
    rintro ⟨r, i⟩ hr
    rw [List.mem_zipIdx_iff_getElem?] at hr
    simp only [List.getElem?_map, Option.map_eq_some_iff] at hr
    obtain ⟨x, hx, rfl⟩ := hr
    obtain ⟨hi, rfl⟩ := List.getElem?_eq_some_iff.1 hx
    exact ⟨hi, rfl⟩
  have hstep : ∀ i (hi : i < a.length), ∃ j < a.length, (env.knn (routeKwargs args.verbose kwargs).near (.named "chebyshev") a a[i] 1).inds = [j] ∧
      (j ≠ i → chebyshev a[i] (a.getD j []) ≤ chebyshev a[i] a[i]) ∧
      withoutSelf 0 (env.knn (routeKwargs args.verbose kwargs).near (.named "chebyshev") a a[i] 1, i) = if i = j then .ok ⟨[], []⟩ else .error .bounds := by
    intro i hi
    obtain ⟨k1, k2, k3, k4, k5, k6⟩ := hk a a[i] 1 (by omega)
    obtain ⟨j, hj⟩ := List.length_eq_one_iff.1 k1
    refine ⟨j, k3 j (by simp [hj]), hj, fun hji => ?_, ?_⟩
    · have := k6 i hi (by simp [hj, Ne.symm hji]) j (by simp [hj])
      rwa [List.getD_eq_getElem (n := i) _ _ hi] at this
    · rw [withoutSelf, k4, hj]
      by_cases hij : i = j
      · simp [dropSelf, hij]
      · simp [dropSelf, hij]
  have hok : (∀ i (hi : i < a.length), withoutSelf 0 (env.knn (routeKwargs args.verbose kwargs).near (.named "chebyshev") a a[i] 1, i) = .ok ⟨[], []⟩) →
      ∀ fuel ≥ F, compareNearest env inp none args 0 kwargs fuel = .ok (.nearest (cs.map Crystal.name) []) := by
    intro h fuel hf
    rw [hcmp fuel hf, mapE_ok (g := fun _ => ⟨[], []⟩) fun r hr => ?_]
    · simp [lift, Except.bind, nearestFrame, mapE, h1]
    · obtain ⟨hi, hr1⟩ := hrow r hr
      rw [← h r.2 hi, ← hr1]
  refine ⟨fun i => a.getD i [], F, fun fuel hf => ⟨(h3 fuel hf).2, ?_, fun hd => ?_⟩⟩
  · by_cases hall : ∀ i (hi : i < a.length), withoutSelf 0 (env.knn (routeKwargs args.verbose kwargs).near (.named "chebyshev") a a[i] 1, i) = .ok ⟨[], []⟩
    · exact .inl (hok hall fuel hf)
    · right
      push Not at hall
      obtain ⟨i, hi, hne⟩ := hall
      obtain ⟨j, -, -, -, hj⟩ := hstep i hi
      rw [hj] at hne
      have hij : i ≠ j := fun h => hne (if_pos h)
      rw [if_neg hij] at hj
      rw [hcmp fuel hf, mapE_fails (a := (env.knn (routeKwargs args.verbose kwargs).near (.named "chebyshev") a a[i] 1, i)) (e := Err.bounds) ?_ hj ?_]
      · rfl
      · rw [List.mem_zipIdx_iff_getElem?]
        simp [hi]
      · intro r hr e' he'
        obtain ⟨hi', hr1⟩ := hrow r hr
        obtain ⟨j', -, -, -, hj'⟩ := hstep r.2 hi'
        rw [← hr1, he'] at hj'
        split_ifs at hj'
        cases hj'; rfl
  · refine hok (fun i hi => ?_) fuel hf
    obtain ⟨j, hjl, -, hle, hj⟩ := hstep i hi
    rw [hj, if_pos]
    by_contra hij
    have := hle (Ne.symm hij)
    rw [hmet.self _ (h2 _ (List.getElem_mem hi))] at this
    have hd' := hd i j (by omega) (by omega) hij
    beta_reduce at hd'
    rw [List.getD_eq_getElem (n := i) _ _ hi] at hd'
    exact absurd hd' (not_lt.2 this)

/-- **C105 does not hold** by PDD for two collections: a negative `n_neighbors` is counted from the end. If there are `m` crystals in the second collection, a table of the `m + n_neighbors` nearest
ones is returned; ValueError is raised below `-m`. -/
theorem C105_false_pdd_two (he : env.Sound) (hv : ∀ c ∈ cs, c.Valid) (hv' : ∀ c ∈ cs', c.Valid) (hby : upper args.by_ = "PDD") (hn : n < 0)
    {tol : ℝ} {metric : MetricArg ℝ} (ho : PddOptions kwargs tol metric)
    (hδ : ∀ r s, r.length = args.k → s.length = args.k → 0 ≤ metric.dist env.other r s)
    (hg : getCrystals env args.csdRefcodes (routeKwargs args.verbose kwargs) inp = .ok cs)
    (hg' : getCrystals env args.csdRefcodes (routeKwargs args.verbose kwargs) inp' = .ok cs') :
    (-(cs'.length : ℤ) ≤ n → ∃ (p q : ℕ → List (PRow ℝ)) (d : ℕ → ℕ → ℝ) (f : Frame) (F : ℕ),
      IsNearestTable (cs'.length + n).toNat (cs.map Crystal.name) (cs'.map Crystal.name) (fun _ j => j < cs'.length) d f ∧ ∀ fuel ≥ F,
      (∀ i (hi : i < cs.length), pddOf kwargs tol cs[i] args.k fuel = .ok (p i)) ∧
      (∀ j (hj : j < cs'.length), pddOf kwargs tol cs'[j] args.k fuel = .ok (q j)) ∧
      (∀ i j, i < cs.length → j < cs'.length → ∃ plan, emd (metric.dist env.other) (p i) (q j) fuel = .ok (d i j, plan)) ∧
      compareNearest env inp (some inp') args n kwargs fuel = .ok f) ∧
    (n < -(cs'.length : ℤ) → ∃ F, ∀ fuel ≥ F, compareNearest env inp (some inp') args n kwargs fuel = .error (.run .value)) := by
  obtain ⟨p, F, h1, h2, h3⟩ := pdds_all hv args.k (kwOr kwargs "lexsort" (.bool true)).truthy (kwOr kwargs "collapse" (.bool true)).truthy tol
  obtain ⟨q, F', g1, g2, g3⟩ := pdds_all hv' args.k (kwOr kwargs "lexsort" (.bool true)).truthy (kwOr kwargs "collapse" (.bool true)).truthy tol
  have hpne : p ≠ [] := List.ne_nil_of_length_pos (by rw [h1]; exact List.length_pos_iff.2 (getCrystals_ne_nil hg))
  obtain ⟨M, G, d, hM, hv2⟩ := C36_cdist hpne h2 g2 hδ
  have o1 : (argOf (routeKwargs args.verbose kwargs).pdd "collapse_tol").toFloat = .ok tol := ho.tol
  have o2 : (argOf (routeKwargs args.verbose kwargs).pdds "metric").toMetric = .ok metric := ho.metric
  obtain ⟨nj, o3⟩ : ∃ n, (argOf (routeKwargs args.verbose kwargs).pdds "n_jobs").toJobs = .ok n := ho.jobs
  obtain ⟨be, o4⟩ : ∃ s, (argOf (routeKwargs args.verbose kwargs).pdds "backend").toStr = .ok s := ho.backend
  have o5 : argOf (routeKwargs args.verbose kwargs).pdd "lexsort" = kwOr kwargs "lexsort" (.bool true) := rfl
  have o6 : argOf (routeKwargs args.verbose kwargs).pdd "collapse" = kwOr kwargs "collapse" (.bool true) := rfl
  constructor
  · intro hc
    obtain ⟨nn, e1, e2, e3⟩ := neighbors2D_spec he.part he.sort hM (n := (cs'.length + n).toNat) (by omega)
    have e0 : neighbors2DInt env.part env.sort n M = .ok nn := by
      rw [neighbors2DInt_negative he.part _ hn (c := cs'.length) hc (by rw [← g1]; exact hM.2.1), e1]
    have ec : columnCount n nn = (cs'.length + n).toNat := columnCount_same (neighbors2D_lengths he.part he.sort e1) fun h => by
      rw [h] at e2
      exact absurd (List.length_eq_zero_iff.1 e2.symm) hpne
    rw [g1] at e3
    obtain ⟨f, f1, f2⟩ := nearestFrame_ok (names := cs.map Crystal.name) (names_ := cs'.map Crystal.name) (cand := fun _ j => j < cs'.length)
      (by simp [e2, h1]) (fun i j hj => by simpa using hj) e3
    refine ⟨fun i => p.getD i [], fun i => q.getD i [], d, f, max (max F F') G, f2, fun fuel hf => ⟨(h3 fuel (by omega)).2, (g3 fuel (by omega)).2,
      fun i j hi hj => ?_, ?_⟩⟩
    · rw [← h1] at hi
      rw [← g1] at hj
      beta_reduce
      rw [List.getD_eq_getElem _ _ hi, List.getD_eq_getElem _ _ hj]
      exact (hv2 fuel (by omega)).1 i j hi hj
    rw [((compareNearest_read hg).2 hby).2 _ _ hg', comparePddInt]
    simp only [allPdds, lift, bind, Except.bind, o1, o2, o3, o4, o5, o6, (h3 fuel (by omega)).1, (g3 fuel (by omega)).1,
      (hv2 fuel (by omega)).2 env.sched _ he.sched, e0, ec]
    exact f1
  · intro hc
    have e0 : neighbors2DInt env.part env.sort n M = .error .value :=
      neighbors2DInt_error (c := cs'.length) hc (fun h => hpne (List.length_eq_zero_iff.1 (by rw [← hM.1, h]; rfl))) (by rw [← g1]; exact hM.2.1)
    refine ⟨max (max F F') G, fun fuel hf => ?_⟩
    rw [((compareNearest_read hg).2 hby).2 _ _ hg', comparePddInt]
    simp only [allPdds, lift, bind, Except.bind, o1, o2, o3, o4, o5, o6, (h3 fuel (by omega)).1, (g3 fuel (by omega)).1,
      (hv2 fuel (by omega)).2 env.sched _ he.sched, e0]

/-- **C105 does not hold** by PDD for one collection of `m` crystals: for -1, and for `n_neighbors` from `-m - 1` to `-(m + 1) / 2`, a table without columns is returned. If all distances are
positive a table is returned also between these, with `m + 2 * n_neighbors` columns. ValueError is raised below `-m - 1`. -/
theorem C105_false_pdd (he : env.Sound) (hv : ∀ c ∈ cs, c.Valid) (hby : upper args.by_ = "PDD") (hn : n < 0)
    {tol : ℝ} {metric : MetricArg ℝ} (ho : PddOptions kwargs tol metric)
    (hδ : ∀ r s, r.length = args.k → s.length = args.k → 0 ≤ metric.dist env.other r s)
    (hg : getCrystals env args.csdRefcodes (routeKwargs args.verbose kwargs) inp = .ok cs) :
    ∃ (p : ℕ → List (PRow ℝ)) (d : ℕ → ℕ → ℝ) (F : ℕ), (∀ fuel ≥ F,
      (∀ i (hi : i < cs.length), pddOf kwargs tol cs[i] args.k fuel = .ok (p i)) ∧
      (∀ i j, i < j → j < cs.length → ∃ plan, emd (metric.dist env.other) (p i) (p j) fuel = .ok (d i j, plan))) ∧
      (-(cs.length : ℤ) - 1 ≤ n → (n = -1 ∨ cs.length + 2 * n + 1 ≤ 0 ∨ ∀ i j, i < j → j < cs.length → 0 < d i j) → ∃ cols : List (List String × List ℝ),
        cols.length = (if n = -1 then 0 else (cs.length + 2 * n).toNat) ∧
        ∀ fuel ≥ F, compareNearest env inp none args n kwargs fuel = .ok (.nearest (cs.map Crystal.name) cols)) ∧
      (n < -(cs.length : ℤ) - 1 → ∀ fuel ≥ F, compareNearest env inp none args n kwargs fuel = .error (.run .value)) := by
  obtain ⟨p, F, h1, h2, h3⟩ := pdds_all hv args.k (kwOr kwargs "lexsort" (.bool true)).truthy (kwOr kwargs "collapse" (.bool true)).truthy tol
  have hpos : 0 < cs.length := List.length_pos_iff.2 (getCrystals_ne_nil hg)
  obtain ⟨v, G, d, hv1, hv2⟩ := C36_pdist (List.ne_nil_of_length_pos (by omega)) h2 hδ
  have o1 : (argOf (routeKwargs args.verbose kwargs).pdd "collapse_tol").toFloat = .ok tol := ho.tol
  have o2 : (argOf (routeKwargs args.verbose kwargs).pdds "metric").toMetric = .ok metric := ho.metric
  obtain ⟨nj, o3⟩ : ∃ n, (argOf (routeKwargs args.verbose kwargs).pdds "n_jobs").toJobs = .ok n := ho.jobs
  obtain ⟨be, o4⟩ : ∃ s, (argOf (routeKwargs args.verbose kwargs).pdds "backend").toStr = .ok s := ho.backend
  have o5 : argOf (routeKwargs args.verbose kwargs).pdd "lexsort" = kwOr kwargs "lexsort" (.bool true) := rfl
  have o6 : argOf (routeKwargs args.verbose kwargs).pdd "collapse" = kwOr kwargs "collapse" (.bool true) := rfl
  rw [h1] at hv1
  refine ⟨fun i => p.getD i [], d, max F G, fun fuel hf => ⟨(h3 fuel (by omega)).2, fun i j hij hj => ?_⟩, fun hc hd0 => ?_, fun hc fuel hf => ?_⟩
  · rw [← h1] at hj
    beta_reduce
    rw [List.getD_eq_getElem _ _ (hij.trans hj), List.getD_eq_getElem _ _ hj]
    exact (hv2 fuel (by omega)).1 i j hij hj
  · obtain ⟨nn, e1, e2, e3⟩ := neighbors1DInt_negative he.part he.sort hn hpos hc hv1 hd0
    have ec := columnCount_same (m := n) (fun r hr => (e3 r hr).1) fun h => by
      rw [h] at e2
      exact absurd e2 (by simp only [List.length_nil]; omega)
    obtain ⟨cols, c1, c2⟩ := nearestFrame_shape (names := cs.map Crystal.name) (names_ := cs.map Crystal.name) (by simp [e2])
      (fun r hr => ⟨(e3 r hr).1, (e3 r hr).2.1, by simpa using (e3 r hr).2.2⟩)
    refine ⟨cols, c2, fun fuel hf => ?_⟩
    rw [((compareNearest_read hg).2 hby).1, comparePddInt]
    simp only [allPdds, lift, bind, Except.bind, o1, o2, o3, o4, o5, o6, (h3 fuel (by omega)).1, (hv2 fuel (by omega)).2 env.sched _ he.sched, e1, ec]
    exact c1
  · have e1 : neighbors1DInt env.part env.sort n v = .error .value := neighbors1DInt_error hpos hc hv1
    rw [((compareNearest_read hg).2 hby).1, comparePddInt]
    simp only [allPdds, lift, bind, Except.bind, o1, o2, o3, o4, o5, o6, (h3 fuel (by omega)).1, (hv2 fuel (by omega)).2 env.sched _ he.sched, e1]

/-- Five items at positive distances and `n = -2`: rows of one neighbour. -/
example {part : ℕ → List ℝ → List ℕ} {sort : List ℝ → List ℕ} (hp : PartContract part) (hs : SortContract sort) {v : List ℝ} (hv : IsCondensed 5 (fun i j => (j : ℝ) - i) v) :
    ∃ nn, neighbors1DInt part sort (-2) v = .ok nn ∧ nn.length = 5 ∧ ∀ r ∈ nn, r.inds.length = 1 := by
  obtain ⟨nn, h1, h2, h3⟩ := neighbors1DInt_negative hp hs (n := -2) (by norm_num) (m := 5) (by norm_num) (by norm_num) hv
    (.inr (.inr fun i j hij _ => by simpa using hij))
  exact ⟨nn, h1, h2, fun r hr => by simpa using (h3 r hr).1⟩

/-- Three crystals. By AMD -1 and -7 raise ValueError, and so does 0 for two collections. By PDD -1 and -2 give tables without columns, -5 raises ValueError. -/
example : (∀ n : ℤ, n < 0 → ∃ F, ∀ fuel ≥ F, compareNearest exampleEnv (.one (.str "data.cif")) none {} n [] fuel = .error (.run .value)) ∧
    (∃ F, ∀ fuel ≥ F, compareNearest exampleEnv (.one (.str "data.cif")) (some (.one (.str "data.cif"))) {} 0 [] fuel = .error (.run .value)) ∧
    (∃ F, ∀ fuel ≥ F, compareNearest exampleEnv (.one (.str "data.cif")) none { by_ := "PDD" } (-1) [] fuel = .ok (.nearest ["a", "b", "c"] [])) ∧
    (∃ F, ∀ fuel ≥ F, compareNearest exampleEnv (.one (.str "data.cif")) none { by_ := "PDD" } (-2) [] fuel = .ok (.nearest ["a", "b", "c"] [])) ∧
    ∃ F, ∀ fuel ≥ F, compareNearest exampleEnv (.one (.str "data.cif")) none { by_ := "PDD" } (-5) [] fuel = .error (.run .value) := by
  have hp : ∀ n : ℤ, n < 0 → _ := fun n hn => C105_false_pdd (n := n) (args := { by_ := "PDD" }) (kwargs := []) exampleEnv_sound exampleCrystals_valid (by rfl) hn PddOptions.default
    (EMD_default_metric _).nonneg (example_inputs _)
  refine ⟨fun n hn => (C105_amd_partial (cs' := exampleCrystals) (inp' := .one (.str "data.cif")) (args := {}) (kwargs := []) exampleCrystals_valid (by rfl) rfl (example_inputs _)).1 hn,
    (C105_amd_partial (cs' := exampleCrystals) (inp' := .one (.str "data.cif")) (args := {}) (kwargs := []) exampleCrystals_valid (by rfl) rfl (example_inputs _)).2 le_rfl exampleCrystals_valid
      (example_inputs _), ?_, ?_, ?_⟩
  · obtain ⟨p, d, F, -, h, -⟩ := hp (-1) (by norm_num)
    obtain ⟨cols, h1, h2⟩ := h (by simp [exampleCrystals]) (.inl rfl)
    obtain rfl : cols = [] := List.length_eq_zero_iff.1 (by simpa using h1)
    exact ⟨F, h2⟩
  · obtain ⟨p, d, F, -, h, -⟩ := hp (-2) (by norm_num)
    obtain ⟨cols, h1, h2⟩ := h (by simp [exampleCrystals]) (.inr (.inl (by simp [exampleCrystals])))
    obtain rfl : cols = [] := List.length_eq_zero_iff.1 (by simpa [exampleCrystals] using h1)
    exact ⟨F, h2⟩
  · obtain ⟨p, d, F, -, -, h⟩ := hp (-5) (by norm_num)
    exact ⟨F, h (by simp [exampleCrystals])⟩

/-- Three crystals against three by PDD: `n_neighbors = -1` lists the two nearest, `n_neighbors = -4` raises ValueError. -/
example : (∃ (d : ℕ → ℕ → ℝ) (f : Frame) (F : ℕ), IsNearestTable 2 ["a", "b", "c"] ["a", "b", "c"] (fun _ j => j < 3) d f ∧
      ∀ fuel ≥ F, compareNearest exampleEnv (.one (.str "data.cif")) (some (.one (.str "data.cif"))) { by_ := "PDD" } (-1) [] fuel = .ok f) ∧
    ∃ F, ∀ fuel ≥ F, compareNearest exampleEnv (.one (.str "data.cif")) (some (.one (.str "data.cif"))) { by_ := "PDD" } (-4) [] fuel = .error (.run .value) := by
  have hp : ∀ n : ℤ, n < 0 → _ := fun n hn => C105_false_pdd_two (n := n) (args := { by_ := "PDD" }) (kwargs := []) exampleEnv_sound exampleCrystals_valid exampleCrystals_valid (by rfl) hn
    PddOptions.default (EMD_default_metric _).nonneg (example_inputs _) (example_inputs _)
  constructor
  · obtain ⟨p, q, d, f, F, h1, h2⟩ := (hp (-1) (by norm_num)).1 (by simp [exampleCrystals])
    exact ⟨d, f, F, h1, fun fuel hf => (h2 fuel hf).2.2.2⟩
  · exact (hp (-4) (by norm_num)).2 (by simp [exampleCrystals])

/-- By AMD and 0: no exception other than IndexError, no column. -/
example : ∃ F, ∀ fuel ≥ F, compareNearest exampleEnv (.one (.str "data.cif")) none {} 0 [] fuel = .ok (.nearest ["a", "b", "c"] []) ∨
    compareNearest exampleEnv (.one (.str "data.cif")) none {} 0 [] fuel = .error (.run .bounds) := by
  obtain ⟨a, F, h⟩ := C105_false_amd (args := {}) (kwargs := []) exampleEnv_sound exampleCrystals_valid (by rfl) rfl (example_inputs _)
  exact ⟨F, fun fuel hf => (h fuel hf).2.1⟩

/-- By AMD and 0 for a single crystal: a table without columns. -/
example : ∃ F, ∀ fuel ≥ F, compareNearest exampleEnv (.one (.pset ⟨"a", 2, exampleSet⟩)) none {} 0 [] fuel = .ok (.nearest ["a"] []) := by
  obtain ⟨a, F, h⟩ := C105_false_amd (env := exampleEnv) (inp := .one (.pset ⟨"a", 2, exampleSet⟩)) (cs := [⟨"a", 2, exampleSet⟩]) (args := {}) (kwargs := []) exampleEnv_sound
    (fun c hc => exampleCrystals_valid c (by rw [List.mem_singleton.1 hc]; simp [exampleCrystals])) (by rfl) rfl (by rfl)
  exact ⟨F, fun fuel hf => (h fuel hf).2.2 fun i j hi hj hij => by simp at hi hj; omega⟩

end Amd
