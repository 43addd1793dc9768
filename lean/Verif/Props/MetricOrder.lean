import Verif.Proof.MetricOrder

/-!
# C100: matrices of `compare` by different metrics
-/

namespace Amd

open Classical

variable {env : Env} {args args' : CompareArgs} {kwargs kwargs' : Kwargs} {inp inp' : Input} {cs cs' : List Crystal} {metric metric' : MetricArg ℝ} {L : ℝ}

/-- **C100** The default metric is at most the Euclidean metric, that is at most the city block metric, and that is at most `√k` times the Euclidean and `k` times the default metric. -/
theorem C100_metrics (hn : ScipyNames env.other) (k : ℕ) : BoundedBy k 1 ((MetricArg.named "chebyshev").dist env.other) ((MetricArg.named "euclidean").dist env.other) ∧
    BoundedBy k 1 ((MetricArg.named "euclidean").dist env.other) ((MetricArg.named "cityblock").dist env.other) ∧
    BoundedBy k √k ((MetricArg.named "cityblock").dist env.other) ((MetricArg.named "euclidean").dist env.other) ∧
    BoundedBy k √k ((MetricArg.named "euclidean").dist env.other) ((MetricArg.named "chebyshev").dist env.other) ∧
    BoundedBy k k ((MetricArg.named "cityblock").dist env.other) ((MetricArg.named "chebyshev").dist env.other) := by
  have e1 : (MetricArg.named "euclidean").dist env.other = euclidean := by rw [MetricArg.dist, if_neg (by decide), hn.euclidean]
  have e2 : (MetricArg.named "cityblock").dist env.other = cityblock := by rw [MetricArg.dist, if_neg (by decide), hn.cityblock]
  rw [e1, e2]
  exact ⟨chebyshev_le_euclidean k, euclidean_le_cityblock k, cityblock_le_euclidean k, ⟨(euclidean_tame k).const, (euclidean_tame k).bound⟩, ⟨(cityblock_tame k).const, (cityblock_tame k).bound⟩⟩

/-- **C100** If one metric is at most `L` times another, the same is true of all entries of the matrices by AMD. This holds for all cells. -/
theorem C100_amd_two (hv : ∀ c ∈ cs, c.Valid) (hv' : ∀ c ∈ cs', c.Valid) (hkk : args'.k = args.k) (hby : upper args.by_ = "AMD") (hby' : upper args'.by_ = "AMD")
    (hn : args.nNeighbors = none) (hn' : args'.nNeighbors = none) (hm : (kwOr kwargs "metric" (.str "chebyshev")).toMetric = .ok metric)
    (hm' : (kwOr kwargs' "metric" (.str "chebyshev")).toMetric = .ok metric') (hl : (kwOr kwargs "low_memory" (.bool false)).truthy = false)
    (hl' : (kwOr kwargs' "low_memory" (.bool false)).truthy = false) (hb : BoundedBy args.k L (metric.dist env.other) (metric'.dist env.other))
    (hg : getCrystals env args.csdRefcodes (routeKwargs args.verbose kwargs) inp = .ok cs) (hg' : getCrystals env args.csdRefcodes (routeKwargs args.verbose kwargs) inp' = .ok cs')
    (hp : getCrystals env args'.csdRefcodes (routeKwargs args'.verbose kwargs') inp = .ok cs)
    (hp' : getCrystals env args'.csdRefcodes (routeKwargs args'.verbose kwargs') inp' = .ok cs') :
    ∃ (A B : List (List ℝ)) (f g : ℕ → ℕ → ℝ) (F : ℕ), IsMatrix cs.length cs'.length f A ∧ IsMatrix cs.length cs'.length g B ∧
      (∀ fuel ≥ F, compare env inp (some inp') args kwargs fuel = .ok (.matrix (cs.map Crystal.name) (cs'.map Crystal.name) A) ∧
        compare env inp (some inp') args' kwargs' fuel = .ok (.matrix (cs.map Crystal.name) (cs'.map Crystal.name) B)) ∧
      ∀ i < cs.length, ∀ j < cs'.length, f i j ≤ L * g i j := by
  obtain ⟨a, b, A, F, hA, h1⟩ := compare_amd_metric_two hv hv' hby hn hm hl hg hg'
  obtain ⟨a', b', B, G, hB, h2⟩ := compare_amd_metric_two hv hv' hby' hn' hm' hl' hp hp'
  refine ⟨A, B, _, _, max F G, hA, hB, fun fuel hf => ⟨(h1 fuel (by omega)).2.2, (h2 fuel (by omega)).2.2⟩, fun i hi j hj => ?_⟩
  obtain ⟨ha, hb1, -⟩ := h1 (max F G) (by omega)
  obtain ⟨ha', hb', -⟩ := h2 (max F G) (by omega)
  rw [hkk] at ha' hb'
  have e1 : a i = a' i := by simpa using (ha i hi).symm.trans (ha' i hi)
  have e2 : b j = b' j := by simpa using (hb1 j hj).symm.trans (hb' j hj)
  have l1 : (a i).length = args.k := by
    obtain ⟨hD, _, _, inds, mult, hu, hne, _, _⟩ := hv _ (List.getElem_mem hi)
    exact (C08_amd_sorted hD hu hne (ha i hi)).1
  have l2 : (b j).length = args.k := by
    obtain ⟨hD, _, _, inds, mult, hu, hne, _, _⟩ := hv' _ (List.getElem_mem hj)
    exact (C08_amd_sorted hD hu hne (hb1 j hj)).1
  have := hb.bound _ _ l1 l2
  rwa [e1, e2] at this ⊢

/-- **C100** The same for one collection. -/
theorem C100_amd (hv : ∀ c ∈ cs, c.Valid) (hkk : args'.k = args.k) (hby : upper args.by_ = "AMD") (hby' : upper args'.by_ = "AMD")
    (hn : args.nNeighbors = none) (hn' : args'.nNeighbors = none) (hm : (kwOr kwargs "metric" (.str "chebyshev")).toMetric = .ok metric)
    (hm' : (kwOr kwargs' "metric" (.str "chebyshev")).toMetric = .ok metric') (hl : (kwOr kwargs "low_memory" (.bool false)).truthy = false)
    (hl' : (kwOr kwargs' "low_memory" (.bool false)).truthy = false) (hb : BoundedBy args.k L (metric.dist env.other) (metric'.dist env.other))
    (hg : getCrystals env args.csdRefcodes (routeKwargs args.verbose kwargs) inp = .ok cs)
    (hp : getCrystals env args'.csdRefcodes (routeKwargs args'.verbose kwargs') inp = .ok cs) (hne : cs ≠ []) :
    ∃ (A B : List (List ℝ)) (f g : ℕ → ℕ → ℝ) (F : ℕ), IsMatrix cs.length cs.length f A ∧ IsMatrix cs.length cs.length g B ∧
      (∀ fuel ≥ F, compare env inp none args kwargs fuel = .ok (.matrix (cs.map Crystal.name) (cs.map Crystal.name) A) ∧
        compare env inp none args' kwargs' fuel = .ok (.matrix (cs.map Crystal.name) (cs.map Crystal.name) B)) ∧
      ∀ i < cs.length, ∀ j < cs.length, f i j ≤ L * g i j := by
  obtain ⟨a, A, F, hA, h1⟩ := C37_amd_metric hv hby hn hm hl hg hne
  obtain ⟨a', B, G, hB, h2⟩ := C37_amd_metric hv hby' hn' hm' hl' hp hne
  refine ⟨A, B, _, _, max F G, hA, hB, fun fuel hf => ⟨(h1 fuel (by omega)).2, (h2 fuel (by omega)).2⟩, fun i hi j hj => ?_⟩
  obtain ⟨ha, -⟩ := h1 (max F G) (by omega)
  obtain ⟨ha', -⟩ := h2 (max F G) (by omega)
  rw [hkk] at ha'
  have e : ∀ i < cs.length, a i = a' i := fun i hi => by simpa using (ha i hi).symm.trans (ha' i hi)
  have l : ∀ i < cs.length, (a i).length = args.k := fun i hi => by
    obtain ⟨hD, _, _, inds, mult, hu, hne, _, _⟩ := hv _ (List.getElem_mem hi)
    exact (C08_amd_sorted hD hu hne (ha i hi)).1
  split_ifs with hij
  · simp
  · have h1 : min i j < cs.length := by omega
    have h2 : max i j < cs.length := by omega
    rw [← e _ h1, ← e _ h2]
    exact hb.bound _ _ (l _ h1) (l _ h2)

section

variable {tol C L₁ L₂ : ℝ} {n : ℕ}

/-- **C100** The bound on the size of the PDDs that the theorems about PDDs ask for can always be met. -/
theorem C100_within (kwargs : Kwargs) (tol : ℝ) (k : ℕ) : ∀ cs : List Crystal, ∃ (n : ℕ) (C : ℝ), 0 ≤ C ∧ ∀ c ∈ cs, PddWithin kwargs tol k n C c
  | [] => ⟨0, 0, le_rfl, by simp⟩
  | c :: cs => by
    obtain ⟨n, C, h0, h⟩ := C100_within kwargs tol k cs
    by_cases hc : ∃ fuel p, pddOf kwargs tol c k fuel = .ok p
    · obtain ⟨fuel, p, hp⟩ := hc
      obtain ⟨C', hC'⟩ : ∃ C' : ℝ, ∀ x ∈ p.flatMap PRow.dists, x ≤ C' := ⟨((p.flatMap PRow.dists).map abs).sum, fun x hx => (le_abs_self x).trans
        (List.single_le_sum (by simp only [List.mem_map]; rintro _ ⟨y, -, rfl⟩; exact abs_nonneg y) _ (List.mem_map_of_mem hx))⟩
      refine ⟨max n p.length, max C C', le_max_of_le_left h0, fun e he => ?_⟩
      rcases List.mem_cons.1 he with rfl | he
      · intro fuel' q hq
        rw [← pddOf_fuel hp hq]
        exact ⟨le_max_right _ _, fun r hr x hx => (hC' x (List.mem_flatMap.2 ⟨r, hr, hx⟩)).trans (le_max_right _ _)⟩
      · intro fuel' q hq
        obtain ⟨h1, h2⟩ := h e he fuel' q hq
        exact ⟨h1.trans (le_max_left _ _), fun r hr x hx => (h2 r hr x hx).trans (le_max_left _ _)⟩
    · refine ⟨n, C, h0, fun e he => ?_⟩
      rcases List.mem_cons.1 he with rfl | he
      · exact fun fuel p hp => absurd ⟨fuel, p, hp⟩ hc
      · exact h e he

/-- **C100** The same by PDD, up to the rounding of weights. -/
theorem C100_pdd_two (hs : env.sched.Complete) (hv : ∀ c ∈ cs, c.Valid) (hv' : ∀ c ∈ cs', c.Valid) (hkk : args'.k = args.k) (hby : upper args.by_ = "PDD") (hby' : upper args'.by_ = "PDD")
    (hn : args.nNeighbors = none) (hn' : args'.nNeighbors = none) (ho : PddOptions kwargs tol metric) (ho' : PddOptions kwargs' tol metric')
    (hlex : (kwOr kwargs' "lexsort" (.bool true)).truthy = (kwOr kwargs "lexsort" (.bool true)).truthy)
    (hcol : (kwOr kwargs' "collapse" (.bool true)).truthy = (kwOr kwargs "collapse" (.bool true)).truthy)
    (hd : TameMetric args.k L₁ (metric.dist env.other)) (hd' : TameMetric args.k L₂ (metric'.dist env.other)) (hb : BoundedBy args.k L (metric.dist env.other) (metric'.dist env.other))
    (hg : getCrystals env args.csdRefcodes (routeKwargs args.verbose kwargs) inp = .ok cs) (hg' : getCrystals env args.csdRefcodes (routeKwargs args.verbose kwargs) inp' = .ok cs')
    (hp : getCrystals env args'.csdRefcodes (routeKwargs args'.verbose kwargs') inp = .ok cs)
    (hp' : getCrystals env args'.csdRefcodes (routeKwargs args'.verbose kwargs') inp' = .ok cs') (hne : cs ≠ []) (hC0 : 0 ≤ C)
    (hC : ∀ c ∈ cs ++ cs', PddWithin kwargs tol args.k n C c) :
    ∃ (A B : List (List ℝ)) (f g : ℕ → ℕ → ℝ) (F : ℕ), IsMatrix cs.length cs'.length f A ∧ IsMatrix cs.length cs'.length g B ∧
      (∀ fuel ≥ F, compare env inp (some inp') args kwargs fuel = .ok (.matrix (cs.map Crystal.name) (cs'.map Crystal.name) A) ∧
        compare env inp (some inp') args' kwargs' fuel = .ok (.matrix (cs.map Crystal.name) (cs'.map Crystal.name) B)) ∧
      ∀ i < cs.length, ∀ j < cs'.length, f i j ≤ L * g i j + (emdTol n (L₁ * C) + L * emdTol n (L₂ * C)) := by
  obtain ⟨p, q, f, A, F, hA, h1⟩ := C37_pdd_two hs hv hv' hby hn ho hd.nonneg hg hne hg'
  obtain ⟨p', q', g, B, G, hB, h2⟩ := C37_pdd_two hs hv hv' hby' hn' ho' (by rw [hkk]; exact hd'.nonneg) hp hne hp'
  refine ⟨A, B, _, _, max F G, hA, hB, fun fuel hf => ⟨(h1 fuel (by omega)).2.2.2, (h2 fuel (by omega)).2.2.2⟩, fun i hi j hj => ?_⟩
  obtain ⟨hp, hq, hx, -⟩ := h1 (max F G) (by omega)
  obtain ⟨hp', hq', hx', -⟩ := h2 (max F G) (by omega)
  have eq : ∀ c, pddOf kwargs' tol c args'.k (max F G) = pddOf kwargs tol c args.k (max F G) := fun c => by rw [pddOf, pddOf, hlex, hcol, hkk]
  have e1 : p i = p' i := by simpa using (hp i hi).symm.trans ((eq _).symm.trans (hp' i hi))
  have e2 : q j = q' j := by simpa using (hq j hj).symm.trans ((eq _).symm.trans (hq' j hj))
  obtain ⟨plan, hx⟩ := hx i j hi hj
  obtain ⟨plan', hx'⟩ := hx' i j hi hj
  rw [← e1, ← e2] at hx'
  have v1 := hv _ (List.getElem_mem hi)
  have v2 := hv' _ (List.getElem_mem hj)
  have c1 := hC _ (List.mem_append_left _ (List.getElem_mem hi))
  have c2 := hC _ (List.mem_append_right _ (List.getElem_mem hj))
  exact bounded_of_near hb hd.nonneg (pddOf_rows v1 (hp i hi)).1 (pddOf_rows v2 (hq j hj)).1 (pdds_near v1 v2 hd hC0 c1 c2 (hp i hi) (hq j hj) hx).2
    (pdds_near v1 v2 hd' hC0 c1 c2 (hp i hi) (hq j hj) hx').2

/-- **C100** The same by PDD for one collection. -/
theorem C100_pdd (hs : env.sched.Complete) (hv : ∀ c ∈ cs, c.Valid) (hkk : args'.k = args.k) (hby : upper args.by_ = "PDD") (hby' : upper args'.by_ = "PDD")
    (hn : args.nNeighbors = none) (hn' : args'.nNeighbors = none) (ho : PddOptions kwargs tol metric) (ho' : PddOptions kwargs' tol metric')
    (hlex : (kwOr kwargs' "lexsort" (.bool true)).truthy = (kwOr kwargs "lexsort" (.bool true)).truthy)
    (hcol : (kwOr kwargs' "collapse" (.bool true)).truthy = (kwOr kwargs "collapse" (.bool true)).truthy)
    (hd : TameMetric args.k L₁ (metric.dist env.other)) (hd' : TameMetric args.k L₂ (metric'.dist env.other)) (hb : BoundedBy args.k L (metric.dist env.other) (metric'.dist env.other))
    (hg : getCrystals env args.csdRefcodes (routeKwargs args.verbose kwargs) inp = .ok cs)
    (hp : getCrystals env args'.csdRefcodes (routeKwargs args'.verbose kwargs') inp = .ok cs) (hne : cs ≠ []) (hC0 : 0 ≤ C)
    (hC : ∀ c ∈ cs, PddWithin kwargs tol args.k n C c) :
    ∃ (A B : List (List ℝ)) (f g : ℕ → ℕ → ℝ) (F : ℕ), IsMatrix cs.length cs.length f A ∧ IsMatrix cs.length cs.length g B ∧
      (∀ fuel ≥ F, compare env inp none args kwargs fuel = .ok (.matrix (cs.map Crystal.name) (cs.map Crystal.name) A) ∧
        compare env inp none args' kwargs' fuel = .ok (.matrix (cs.map Crystal.name) (cs.map Crystal.name) B)) ∧
      ∀ i < cs.length, ∀ j < cs.length, f i j ≤ L * g i j + (emdTol n (L₁ * C) + L * emdTol n (L₂ * C)) := by
  obtain ⟨p, f, A, F, hA, h1⟩ := C37_pdd hs hv hby hn ho hd.nonneg hg hne
  obtain ⟨p', g, B, G, hB, h2⟩ := C37_pdd hs hv hby' hn' ho' (by rw [hkk]; exact hd'.nonneg) hp hne
  refine ⟨A, B, _, _, max F G, hA, hB, fun fuel hf => ⟨(h1 fuel (by omega)).2.2, (h2 fuel (by omega)).2.2⟩, fun i hi j hj => ?_⟩
  obtain ⟨hp, hx, -⟩ := h1 (max F G) (by omega)
  obtain ⟨hp', hx', -⟩ := h2 (max F G) (by omega)
  have eq : ∀ c, pddOf kwargs' tol c args'.k (max F G) = pddOf kwargs tol c args.k (max F G) := fun c => by rw [pddOf, pddOf, hlex, hcol, hkk]
  have e : ∀ i < cs.length, p i = p' i := fun i hi => by simpa using (hp i hi).symm.trans ((eq _).symm.trans (hp' i hi))
  have t1 : 0 ≤ emdTol n (L₁ * C) := by have := mul_nonneg hd.const hC0; unfold emdTol; positivity
  have t2 : 0 ≤ emdTol n (L₂ * C) := by have := mul_nonneg hd'.const hC0; unfold emdTol; positivity
  split_ifs with hij
  · have := mul_nonneg hb.const t2
    linarith
  · have i1 : min i j < cs.length := by omega
    have i2 : max i j < cs.length := by omega
    obtain ⟨plan, hx⟩ := hx (min i j) (max i j) (by omega) i2
    obtain ⟨plan', hx'⟩ := hx' (min i j) (max i j) (by omega) i2
    rw [← e _ i1, ← e _ i2] at hx'
    have v1 := hv _ (List.getElem_mem i1)
    have v2 := hv _ (List.getElem_mem i2)
    have c1 := hC _ (List.getElem_mem i1)
    have c2 := hC _ (List.getElem_mem i2)
    exact bounded_of_near hb hd.nonneg (pddOf_rows v1 (hp _ i1)).1 (pddOf_rows v2 (hp _ i2)).1 (pdds_near v1 v2 hd hC0 c1 c2 (hp _ i1) (hp _ i2) hx).2
      (pdds_near v1 v2 hd' hC0 c1 c2 (hp _ i1) (hp _ i2) hx').2

end

end Amd
