import Verif.Proof.Tables

/-!
# C103: the tables of nearest neighbours and the matrices of `compare` agree

The same call of `compare` is made without and with `n_neighbors`.
-/

namespace Amd

open Classical

variable {env : Env} {args : CompareArgs} {kwargs : Kwargs} {inp : Input} {inp' : Option Input} {cs cs' : List Crystal}

/-- **C103** By AMD: row `i` of the table lists the `n` smallest entries of row `i` of the matrix, without the diagonal if there is one collection, with the names of their columns. The
metric is any for which the library finds nearest items (`KnnContract`, the default by `Env.Sound`). This holds for all cells. -/
theorem C103_amd (hc : Collections env args kwargs inp inp' cs cs') (hne : cs ≠ []) (hv : ∀ c ∈ cs ++ cs', c.Valid) (hby : upper args.by_ = "AMD") {n : ℕ} (hn0 : 0 < n) (hnl : n ≤ cs'.length)
    (hnl' : inp' = none → n < cs'.length) {metric : MetricArg ℝ} (hm : (kwOr kwargs "metric" (.str "chebyshev")).toMetric = .ok metric)
    (hl : (kwOr kwargs "low_memory" (.bool false)).truthy = false ∨ 0 < args.k ∧ kwOr kwargs "metric" (.str "chebyshev") = .str "chebyshev")
    (hd : RowMetric args.k (metric.dist env.other)) (hknn : KnnContract (metric.dist env.other) (env.knn (routeKwargs args.verbose kwargs).near metric)) :
    ∃ (M : List (List ℝ)) (f : ℕ → ℕ → ℝ) (T : Frame) (F : ℕ), IsMatrix cs.length cs'.length f M ∧
      IsNearestTable n (cs.map Crystal.name) (cs'.map Crystal.name) (Candidate inp' cs'.length) f T ∧
      ∀ fuel ≥ F, compare env inp inp' { args with nNeighbors := none } kwargs fuel = .ok (.matrix (cs.map Crystal.name) (cs'.map Crystal.name) M) ∧
        compare env inp inp' { args with nNeighbors := some n } kwargs fuel = .ok T := by
  obtain ⟨M, f, F, hM, h1, h2⟩ := amd_entries (args := { args with nNeighbors := none }) hc hne hv hby rfl hm hl hd
  obtain ⟨a, b, T, G, hT, g1⟩ := amd_nearest (args := { args with nNeighbors := some n }) hc hv hby rfl hn0 hnl hnl' hm hd hknn
  refine ⟨M, f, T, max F G, hM, hT.congr (fun _ _ _ => Iff.rfl) fun i hi j hj => ?_, fun fuel hf => ⟨h1 fuel (by omega), (g1 fuel (by omega)).2.2⟩⟩
  have hi : i < cs.length := by simpa using hi
  have hj : j < cs'.length := hj.1
  obtain ⟨a', b', u, ha, hb, e⟩ := h2 i j _ _ (List.getElem?_eq_getElem hi) (List.getElem?_eq_getElem hj)
  rw [e, amd_any_fuel ha ((g1 G le_rfl).1 i hi), amd_any_fuel hb ((g1 G le_rfl).2.1 j hj)]

/-- **C103** By PDD, any metric that is not negative. Missing: the largest possible `n`, for which the table raises ValueError (`C38_false`). This holds for all cells. -/
theorem C103_pdd_partial (he : env.Sound) (hc : Collections env args kwargs inp inp' cs cs') (hne : cs ≠ []) (hv : ∀ c ∈ cs ++ cs', c.Valid) (hby : upper args.by_ = "PDD") {n : ℕ}
    (hnl : n < cs'.length) (hnl' : inp' = none → n + 1 < cs'.length) {tol : ℝ} {metric : MetricArg ℝ} (ho : PddOptions kwargs tol metric)
    (hδ : ∀ r s, r.length = args.k → s.length = args.k → 0 ≤ metric.dist env.other r s) :
    ∃ (M : List (List ℝ)) (f : ℕ → ℕ → ℝ) (T : Frame) (F : ℕ), IsMatrix cs.length cs'.length f M ∧
      IsNearestTable n (cs.map Crystal.name) (cs'.map Crystal.name) (Candidate inp' cs'.length) f T ∧
      ∀ fuel ≥ F, compare env inp inp' { args with nNeighbors := none } kwargs fuel = .ok (.matrix (cs.map Crystal.name) (cs'.map Crystal.name) M) ∧
        compare env inp inp' { args with nNeighbors := some n } kwargs fuel = .ok T := by
  obtain ⟨hg, hg'⟩ := hc
  have hv1 : ∀ c ∈ cs, c.Valid := fun c hc => hv c (List.mem_append_left _ hc)
  have hv2 : ∀ c ∈ cs', c.Valid := fun c hc => hv c (List.mem_append_right _ hc)
  cases inp' with
  | none =>
    subst hg'
    obtain ⟨p, d, M, F, hM, h1⟩ := C37_pdd (args := { args with nNeighbors := none }) he.sched hv1 hby rfl ho hδ hg hne
    obtain ⟨p', d', T, G, hT, g1⟩ := C38_pdd_partial (args := { args with nNeighbors := some n }) he hv1 hby rfl (hnl' rfl) ho hδ hg
    have e : ∀ i j, i < j → j < cs'.length → d' i j = d i j := fun i j hij hj => by
      obtain ⟨x, hx⟩ := (h1 F le_rfl).2.1 i j hij hj
      obtain ⟨y, hy⟩ := (g1 G le_rfl).2.1 i j hij hj
      rw [← pddOf_fuel ((h1 F le_rfl).1 i (by omega)) ((g1 G le_rfl).1 i (by omega)), ← pddOf_fuel ((h1 F le_rfl).1 j hj) ((g1 G le_rfl).1 j hj)] at hy
      exact (Prod.mk.inj (C33_unique hy hx)).1
    refine ⟨M, _, T, max F G, hM, hT.congr (fun i _ j => by simp [Candidate]) fun i hi j hj => ?_, fun fuel hf => ⟨(h1 fuel (by omega)).2.2, (g1 fuel (by omega)).2.2⟩⟩
    have hi : i < cs'.length := by simpa using hi
    have hj1 := hj.1
    rw [if_neg (Ne.symm hj.2), if_neg (Ne.symm hj.2)]
    exact e _ _ (by have := hj.2; omega) (by omega)
  | some inp' =>
    obtain ⟨p, q, d, M, F, hM, h1⟩ := C37_pdd_two (args := { args with nNeighbors := none }) he.sched hv1 hv2 hby rfl ho hδ hg hne hg'
    obtain ⟨p', q', d', T, G, hT, g1⟩ := C38_pdd_two_partial (args := { args with nNeighbors := some n }) he hv1 hv2 hby rfl hnl ho hδ hg hne hg'
    refine ⟨M, _, T, max F G, hM, hT.congr (fun i _ j => by simp [Candidate]) fun i hi j hj => ?_, fun fuel hf => ⟨(h1 fuel (by omega)).2.2.2, (g1 fuel (by omega)).2.2.2⟩⟩
    have hi : i < cs.length := by simpa using hi
    obtain ⟨x, hx⟩ := (h1 F le_rfl).2.2.1 i j hi hj
    obtain ⟨y, hy⟩ := (g1 G le_rfl).2.2.1 i j hi hj
    rw [← pddOf_fuel ((h1 F le_rfl).1 i hi) ((g1 G le_rfl).1 i hi), ← pddOf_fuel ((h1 F le_rfl).2.1 j hj) ((g1 G le_rfl).2.1 j hj)] at hy
    exact (Prod.mk.inj (C33_unique hy hx)).1

/-- **C103** By AMD, asking for more neighbours only adds columns of distances: the first `n` columns of distances stay the same. -/
theorem C103_amd_more (hc : Collections env args kwargs inp inp' cs cs') (hv : ∀ c ∈ cs ++ cs', c.Valid) (hby : upper args.by_ = "AMD") {n m : ℕ} (hn0 : 0 < n) (hnm : n ≤ m)
    (hnl : m ≤ cs'.length) (hnl' : inp' = none → m < cs'.length) {metric : MetricArg ℝ} (hm : (kwOr kwargs "metric" (.str "chebyshev")).toMetric = .ok metric)
    (hd : RowMetric args.k (metric.dist env.other)) (hknn : KnnContract (metric.dist env.other) (env.knn (routeKwargs args.verbose kwargs).near metric)) :
    ∃ (T U : Frame) (F : ℕ), (∀ fuel ≥ F, compare env inp inp' { args with nNeighbors := some n } kwargs fuel = .ok T ∧
      compare env inp inp' { args with nNeighbors := some m } kwargs fuel = .ok U) ∧ ∀ c < n, ∃ v, T.distColumn c = some v ∧ U.distColumn c = some v := by
  obtain ⟨a, b, T, G, hT, g1⟩ := amd_nearest (args := { args with nNeighbors := some n }) hc hv hby rfl hn0 (hnm.trans hnl) (fun h => hnm.trans_lt (hnl' h)) hm hd hknn
  obtain ⟨a', b', U, H, hU, u1⟩ := amd_nearest (args := { args with nNeighbors := some m }) hc hv hby rfl (by omega) hnl hnl' hm hd hknn
  refine ⟨T, U, max G H, fun fuel hf => ⟨(g1 fuel (by omega)).2.2, (u1 fuel (by omega)).2.2⟩, fun c hcn => ?_⟩
  have hU' := hU.congr (d' := fun i j => metric.dist env.other (a i) (b j)) (fun _ _ _ => Iff.rfl) fun i hi j hj => by
    have hi : i < cs.length := by simpa using hi
    rw [amd_any_fuel ((u1 H le_rfl).1 i hi) ((g1 G le_rfl).1 i hi), amd_any_fuel ((u1 H le_rfl).2.1 j hj.1) ((g1 G le_rfl).2.1 j hj.1)]
  have e := hT.distColumn hU' hcn (by omega)
  obtain ⟨v, hv⟩ := hT.exists_column hcn
  exact ⟨v, hv, e ▸ hv⟩

/-- **C103** The same by PDD. -/
theorem C103_pdd_more_partial (he : env.Sound) (hc : Collections env args kwargs inp inp' cs cs') (hne : cs ≠ []) (hv : ∀ c ∈ cs ++ cs', c.Valid) (hby : upper args.by_ = "PDD") {n m : ℕ}
    (hnm : n ≤ m) (hnl : m < cs'.length) (hnl' : inp' = none → m + 1 < cs'.length) {tol : ℝ} {metric : MetricArg ℝ} (ho : PddOptions kwargs tol metric)
    (hδ : ∀ r s, r.length = args.k → s.length = args.k → 0 ≤ metric.dist env.other r s) :
    ∃ (T U : Frame) (F : ℕ), (∀ fuel ≥ F, compare env inp inp' { args with nNeighbors := some n } kwargs fuel = .ok T ∧
      compare env inp inp' { args with nNeighbors := some m } kwargs fuel = .ok U) ∧ ∀ c < n, ∃ v, T.distColumn c = some v ∧ U.distColumn c = some v := by
  obtain ⟨M, f, T, F, hM, hT, h1⟩ := C103_pdd_partial he hc hne hv hby (n := n) (by omega) (fun h => by have := hnl' h; omega) ho hδ
  obtain ⟨N, g, U, G, hN, hU, g1⟩ := C103_pdd_partial he hc hne hv hby (n := m) hnl hnl' ho hδ
  have eMN : M = N := by
    have := (h1 (max F G) (by omega)).1.symm.trans (g1 (max F G) (by omega)).1
    simpa using this
  subst eMN
  refine ⟨T, U, max F G, fun fuel hf => ⟨(h1 fuel (by omega)).2, (g1 fuel (by omega)).2⟩, fun c hcn => ?_⟩
  have hU' := hU.congr (d' := f) (fun _ _ _ => Iff.rfl) fun i hi j hj => by
    have hi : i < cs.length := by simpa using hi
    rw [← hM.2.2 i j hi hj.1, ← hN.2.2 i j hi hj.1]
  obtain ⟨v, hv⟩ := hT.exists_column hcn
  exact ⟨v, hv, (hT.distColumn hU' hcn (by omega)) ▸ hv⟩

end Amd
