import Verif.Props.Metrics
import Verif.Proof.Matrices

/-!
# C97: what matrices of different calls of `compare` have to do with each other
-/

namespace Amd

open Classical

variable {env : Env} {args args' : CompareArgs} {kwargs kwargs' : Kwargs} {inp inp' : Input} {cs cs' : List Crystal}

/-! ### AMD and PDD -/

theorem pddOf_rows {c : Crystal} (hv : c.Valid) {tol : ℝ} {k fuel : ℕ} {p : List (PRow ℝ)} (h : pddOf kwargs tol c k fuel = .ok p) :
    WeightedRows k p ∧ ∀ r ∈ p, ∀ x ∈ r.dists, 0 ≤ x := by
  obtain ⟨hD, _, hl, inds, mult, hu, hne, hp, hs⟩ := hv
  exact ⟨EMD_input_of_PDD hD hu hne hp hs hl h, fun r hr => (C08_pdd_sorted hD hu hne h r hr).2.1⟩

theorem pddOf_amd {c : Crystal} (hv : c.Valid) {tol : ℝ} (htol : 0 ≤ tol) {k fuel fuel' : ℕ} {p : List (PRow ℝ)} {a : List ℝ} (h : pddOf kwargs tol c k fuel = .ok p)
    (ha : AMD c.set k fuel' = .ok a) : a.length = k ∧ ∃ u, pddToAmd k p = .ok u ∧ u.length = k ∧ chebyshev a u ≤ if (kwOr kwargs "collapse" (.bool true)).truthy then 2 * tol else 0 := by
  have hw := (pddOf_rows hv h).1
  obtain ⟨hD, _, hl, inds, mult, hu, hne, hp, hs⟩ := hv
  have hal := (C08_amd_sorted hD hu hne ha).1
  refine ⟨hal, ?_⟩
  unfold pddOf at h
  cases hc : (kwOr kwargs "collapse" (.bool true)).truthy with
  | false =>
    rw [hc] at h
    have hu' := C17_uncollapsed_partial hD hu hne hp ha h
    refine ⟨a, hu', hal, ?_⟩
    rw [(EMD_default_metric k).self a hal]
    simp
  | true =>
    rw [hc] at h
    obtain ⟨u, h1, h2, h3⟩ := C17_collapsed_bound_partial hD hu hne hp htol ha h
    refine ⟨u, h1, h2, ?_⟩
    rw [if_pos rfl]
    refine (chebyshev_le_iff (hal.trans h2.symm)).2 ⟨by linarith, fun j hj => ?_⟩
    rw [abs_sub_comm]
    exact h3 j (by omega)

theorem amd_le_pdd {c c' : Crystal} (hv : c.Valid) (hv' : c'.Valid) {tol : ℝ} (htol : 0 ≤ tol) {k n : ℕ} {C : ℝ} (hC0 : 0 ≤ C) (hC : PddWithin kwargs tol k n C c)
    (hC' : PddWithin kwargs tol k n C c') {f1 f2 f3 f4 f5 : ℕ} {p q : List (PRow ℝ)} {a b : List ℝ} (hp : pddOf kwargs tol c k f1 = .ok p) (hq : pddOf kwargs tol c' k f2 = .ok q)
    (ha : AMD c.set k f3 = .ok a) (hb : AMD c'.set k f4 = .ok b) {x : ℝ} {plan : List (List ℝ)} (hx : emd chebyshev p q f5 = .ok (x, plan)) :
    chebyshev a b ≤ x + (if (kwOr kwargs "collapse" (.bool true)).truthy then 4 * tol else 0) + emdTol n C := by
  obtain ⟨w, r0⟩ := pddOf_rows hv hp
  obtain ⟨w', r0'⟩ := pddOf_rows hv' hq
  obtain ⟨la, u, hu, lu, du⟩ := pddOf_amd hv htol hp ha
  obtain ⟨lb, v, hv, lv, dv⟩ := pddOf_amd hv' htol hq hb
  obtain ⟨l1, c1⟩ := hC _ _ hp
  obtain ⟨l2, c2⟩ := hC' _ _ hq
  have hlow := C32_amd_lower_bound w w' (C := C) (fun r hr s hs => chebyshev_range hC0 (w.width r hr) (w'.width s hs) (fun y hy => ⟨r0 r hr y hy, c1 r hr y hy⟩)
    fun y hy => ⟨r0' s hs y hy, c2 s hs y hy⟩) hu hv hx
  have mono := emdTol_mono (max_le l1 l2) hC0
  have met := EMD_default_metric k
  have t1 := met.triangle a u b la lu lb
  have t2 := met.triangle u v b lu lv lb
  rw [met.symm v b lv lb] at t2
  split_ifs at du dv ⊢ <;> linarith

section

variable {tol : ℝ} {n : ℕ} {C : ℝ}

/-- **C97** An entry of the matrix by AMD is at most the entry of the matrix by PDD, up to the rounding of weights and four times the collapse tolerance: comparing by AMD first
does not lose pairs that are near by PDD. This holds for all cells. -/
theorem C97_filter_two (hs : env.sched.Complete) (hv : ∀ c ∈ cs, c.Valid) (hv' : ∀ c ∈ cs', c.Valid) (hk : 0 < args.k) (hkk : args'.k = args.k) (hby : upper args.by_ = "AMD")
    (hby' : upper args'.by_ = "PDD") (hn : args.nNeighbors = none) (hn' : args'.nNeighbors = none) (hm : kwOr kwargs "metric" (.str "chebyshev") = .str "chebyshev")
    (htol : 0 ≤ tol) (ho : PddOptions kwargs' tol (.named "chebyshev"))
    (hg : getCrystals env args.csdRefcodes (routeKwargs args.verbose kwargs) inp = .ok cs) (hg' : getCrystals env args.csdRefcodes (routeKwargs args.verbose kwargs) inp' = .ok cs')
    (hp : getCrystals env args'.csdRefcodes (routeKwargs args'.verbose kwargs') inp = .ok cs)
    (hp' : getCrystals env args'.csdRefcodes (routeKwargs args'.verbose kwargs') inp' = .ok cs') (hne : cs ≠ []) (hC0 : 0 ≤ C)
    (hC : ∀ c ∈ cs ++ cs', PddWithin kwargs' tol args.k n C c) :
    ∃ (A P : List (List ℝ)) (f g : ℕ → ℕ → ℝ) (F : ℕ), IsMatrix cs.length cs'.length f A ∧ IsMatrix cs.length cs'.length g P ∧
      (∀ fuel ≥ F, compare env inp (some inp') args kwargs fuel = .ok (.matrix (cs.map Crystal.name) (cs'.map Crystal.name) A) ∧
        compare env inp (some inp') args' kwargs' fuel = .ok (.matrix (cs.map Crystal.name) (cs'.map Crystal.name) P)) ∧
      ∀ i < cs.length, ∀ j < cs'.length, f i j ≤ g i j + (if (kwOr kwargs' "collapse" (.bool true)).truthy then 4 * tol else 0) + emdTol n C := by
  obtain ⟨a, b, A, F, hA, h1⟩ := C37_amd_two hv hv' hk hby hn hm hg hg'
  obtain ⟨p, q, d, P, G, hP, h2⟩ := C37_pdd_two hs hv hv' hby' hn' ho (EMD_default_metric args'.k).nonneg hp hne hp'
  refine ⟨A, P, _, d, max F G, hA, hP, fun fuel hf => ⟨(h1 fuel (by omega)).2.2, (h2 fuel (by omega)).2.2.2⟩, fun i hi j hj => ?_⟩
  obtain ⟨ha, hb, -⟩ := h1 F le_rfl
  obtain ⟨hp, hq, hx, -⟩ := h2 G le_rfl
  obtain ⟨plan, hx⟩ := hx i j hi hj
  rw [hkk] at hp hq
  exact amd_le_pdd (hv _ (List.getElem_mem hi)) (hv' _ (List.getElem_mem hj)) htol hC0 (hC _ (List.mem_append_left _ (List.getElem_mem hi)))
    (hC _ (List.mem_append_right _ (List.getElem_mem hj))) (hp i hi) (hq j hj) (ha i hi) (hb j hj) hx

/-- **C97** The same for one collection. -/
theorem C97_filter (hs : env.sched.Complete) (hv : ∀ c ∈ cs, c.Valid) (hk : 0 < args.k) (hkk : args'.k = args.k) (hby : upper args.by_ = "AMD")
    (hby' : upper args'.by_ = "PDD") (hn : args.nNeighbors = none) (hn' : args'.nNeighbors = none) (hm : kwOr kwargs "metric" (.str "chebyshev") = .str "chebyshev")
    (htol : 0 ≤ tol) (ho : PddOptions kwargs' tol (.named "chebyshev"))
    (hg : getCrystals env args.csdRefcodes (routeKwargs args.verbose kwargs) inp = .ok cs)
    (hp : getCrystals env args'.csdRefcodes (routeKwargs args'.verbose kwargs') inp = .ok cs) (hne : cs ≠ []) (hC0 : 0 ≤ C)
    (hC : ∀ c ∈ cs, PddWithin kwargs' tol args.k n C c) :
    ∃ (A P : List (List ℝ)) (f g : ℕ → ℕ → ℝ) (F : ℕ), IsMatrix cs.length cs.length f A ∧ IsMatrix cs.length cs.length g P ∧
      (∀ fuel ≥ F, compare env inp none args kwargs fuel = .ok (.matrix (cs.map Crystal.name) (cs.map Crystal.name) A) ∧
        compare env inp none args' kwargs' fuel = .ok (.matrix (cs.map Crystal.name) (cs.map Crystal.name) P)) ∧
      ∀ i < cs.length, ∀ j < cs.length, f i j ≤ g i j + (if (kwOr kwargs' "collapse" (.bool true)).truthy then 4 * tol else 0) + emdTol n C := by
  obtain ⟨a, A, F, hA, h1⟩ := C37_amd hv hk hby hn hm hg hne
  obtain ⟨p, d, P, G, hP, h2⟩ := C37_pdd hs hv hby' hn' ho (EMD_default_metric args'.k).nonneg hp hne
  refine ⟨A, P, _, _, max F G, hA, hP, fun fuel hf => ⟨(h1 fuel (by omega)).2, (h2 fuel (by omega)).2.2⟩, fun i hi j hj => ?_⟩
  obtain ⟨ha, -⟩ := h1 F le_rfl
  obtain ⟨hp, hx, -⟩ := h2 G le_rfl
  rw [hkk] at hp
  have hlen : ∀ i (hi : i < cs.length), (a i).length = args.k := fun i hi => by
    obtain ⟨hD, _, _, inds, mult, hu, hne, _, _⟩ := hv _ (List.getElem_mem hi)
    exact (C08_amd_sorted hD hu hne (ha i hi)).1
  have met := EMD_default_metric args.k
  have le : ∀ i j, i < j → (hj : j < cs.length) → chebyshev (a i) (a j) ≤ d i j + (if (kwOr kwargs' "collapse" (.bool true)).truthy then 4 * tol else 0) + emdTol n C := by
    intro i j hij hj
    obtain ⟨plan, hx⟩ := hx i j hij hj
    exact amd_le_pdd (hv _ (List.getElem_mem (by omega : i < cs.length))) (hv _ (List.getElem_mem hj)) htol hC0 (hC _ (List.getElem_mem _)) (hC _ (List.getElem_mem hj))
      (hp i (by omega)) (hp j hj) (ha i (by omega)) (ha j hj) hx
  rcases lt_trichotomy i j with hij | rfl | hij
  · simp only [if_neg hij.ne, min_eq_left hij.le, max_eq_right hij.le]
    exact le i j hij hj
  · simp only [if_true]
    rw [met.self _ (hlen i hi)]
    have : 0 ≤ emdTol n C := by unfold emdTol; positivity
    split_ifs <;> linarith
  · simp only [if_neg hij.ne', min_eq_right hij.le, max_eq_left hij.le]
    rw [met.symm _ _ (hlen i hi) (hlen j hj)]
    exact le j i hij hi

/-! ### Distances -/

/-- **C97** The matrix by AMD is a table of distances. This holds for all cells. -/
theorem C97_amd_distances (hv : ∀ c ∈ cs, c.Valid) (hby : upper args.by_ = "AMD") (hn : args.nNeighbors = none) {metric : MetricArg ℝ}
    (hm : (kwOr kwargs "metric" (.str "chebyshev")).toMetric = .ok metric) (hl : (kwOr kwargs "low_memory" (.bool false)).truthy = false)
    (hd : RowMetric args.k (metric.dist env.other)) (hg : getCrystals env args.csdRefcodes (routeKwargs args.verbose kwargs) inp = .ok cs) (hne : cs ≠ []) :
    ∃ (M : List (List ℝ)) (f : ℕ → ℕ → ℝ) (F : ℕ), IsMatrix cs.length cs.length f M ∧ IsDistanceTable cs.length 0 f ∧
      ∀ fuel ≥ F, compare env inp none args kwargs fuel = .ok (.matrix (cs.map Crystal.name) (cs.map Crystal.name) M) := by
  obtain ⟨a, M, F, hM, h1⟩ := C37_amd_metric hv hby hn hm hl hg hne
  obtain ⟨ha, -⟩ := h1 F le_rfl
  have hlen : ∀ i (hi : i < cs.length), (a i).length = args.k := fun i hi => by
    obtain ⟨hD, _, _, inds, mult, hu, hne, _, _⟩ := hv _ (List.getElem_mem hi)
    exact (C08_amd_sorted hD hu hne (ha i hi)).1
  have e : ∀ i < cs.length, ∀ j < cs.length, (if i = j then 0 else metric.dist env.other (a (min i j)) (a (max i j))) = metric.dist env.other (a i) (a j) := by
    intro i hi j hj
    rcases lt_trichotomy i j with hij | rfl | hij
    · rw [if_neg hij.ne, min_eq_left hij.le, max_eq_right hij.le]
    · rw [if_pos rfl, hd.self _ (hlen i hi)]
    · rw [if_neg hij.ne', min_eq_right hij.le, max_eq_left hij.le, hd.symm _ _ (hlen i hi) (hlen j hj)]
  refine ⟨M, _, F, hM, ⟨fun i hi => if_pos rfl, fun i hi j hj => ?_, fun i hi j hj => ?_, fun i hi j hj l hl => ?_⟩, fun fuel hf => (h1 fuel hf).2⟩
  · rw [e i hi j hj]
    exact hd.nonneg _ _ (hlen i hi) (hlen j hj)
  · rw [e i hi j hj, e j hj i hi]
    exact hd.symm _ _ (hlen i hi) (hlen j hj)
  · rw [e i hi j hj, e j hj l hl, e i hi l hl, add_zero]
    exact hd.triangle _ _ _ (hlen i hi) (hlen j hj) (hlen l hl)

/-- **C97** The matrix by PDD is a table of distances, up to three times the rounding of weights. This holds for all cells. -/
theorem C97_pdd_distances (hs : env.sched.Complete) (hv : ∀ c ∈ cs, c.Valid) (hby : upper args.by_ = "PDD") (hn : args.nNeighbors = none) {metric : MetricArg ℝ}
    (ho : PddOptions kwargs tol metric) {L : ℝ} (hd : TameMetric args.k L (metric.dist env.other))
    (hg : getCrystals env args.csdRefcodes (routeKwargs args.verbose kwargs) inp = .ok cs) (hne : cs ≠ []) (hC0 : 0 ≤ C)
    (hC : ∀ c ∈ cs, PddWithin kwargs tol args.k n C c) :
    ∃ (M : List (List ℝ)) (f : ℕ → ℕ → ℝ) (F : ℕ), IsMatrix cs.length cs.length f M ∧ IsDistanceTable cs.length (3 * emdTol n (L * C)) f ∧
      ∀ fuel ≥ F, compare env inp none args kwargs fuel = .ok (.matrix (cs.map Crystal.name) (cs.map Crystal.name) M) := by
  have met := hd.toRowMetric
  obtain ⟨p, d, M, F, hM, h1⟩ := C37_pdd hs hv hby hn ho met.nonneg hg hne
  obtain ⟨hp, hx, -⟩ := h1 F le_rfl
  have hw : ∀ i (hi : i < cs.length), WeightedRows args.k (p i) := fun i hi => (pddOf_rows (hv _ (List.getElem_mem hi)) (hp i hi)).1
  have hLC : 0 ≤ L * C := mul_nonneg hd.const hC0
  have ht : 0 ≤ emdTol n (L * C) := by unfold emdTol; positivity
  have lt : ∀ i j, i < j → j < cs.length → 0 ≤ d i j ∧ |d i j - exactEmd (metric.dist env.other) (p i) (p j)| ≤ emdTol n (L * C) := by
    intro i j hij hj
    have hi : i < cs.length := by omega
    obtain ⟨plan, hx⟩ := hx i j hij hj
    obtain ⟨l1, c1⟩ := hC _ (List.getElem_mem hi) _ _ (hp i hi)
    obtain ⟨l2, c2⟩ := hC _ (List.getElem_mem hj) _ _ (hp j hj)
    have r0 := (pddOf_rows (hv _ (List.getElem_mem hi)) (hp i hi)).2
    have r0' := (pddOf_rows (hv _ (List.getElem_mem hj)) (hp j hj)).2
    refine ⟨C29_nonneg (hw i hi) (hw j hj) met.nonneg hx, (emd_near (hw i hi) (hw j hj) met.nonneg (C := L * C) (fun r hr s hs => ?_) hx).trans (emdTol_mono (max_le l1 l2) hLC)⟩
    have w1 := (hw i hi).width r hr
    have w2 := (hw j hj).width s hs
    exact (hd.bound _ _ w1 w2).trans (mul_le_mul_of_nonneg_left (chebyshev_range hC0 w1 w2 (fun y hy => ⟨r0 r hr y hy, c1 r hr y hy⟩) fun y hy => ⟨r0' s hs y hy, c2 s hs y hy⟩) hd.const)
  have near : ∀ i < cs.length, ∀ j < cs.length, 0 ≤ (if i = j then 0 else d (min i j) (max i j)) ∧
      |(if i = j then 0 else d (min i j) (max i j)) - exactEmd (metric.dist env.other) (p i) (p j)| ≤ emdTol n (L * C) := by
    intro i hi j hj
    rcases lt_trichotomy i j with hij | rfl | hij
    · rw [if_neg hij.ne, min_eq_left hij.le, max_eq_right hij.le]
      exact lt i j hij hj
    · rw [if_pos rfl, exactEmd_zero met (hw i hi) (hw i hi) fun _ => rfl]
      simpa using ht
    · rw [if_neg hij.ne', min_eq_right hij.le, max_eq_left hij.le, exactEmd_symm met (hw j hj) (hw i hi)]
      exact lt j i hij hi
  refine ⟨M, _, F, hM, ⟨fun i hi => if_pos rfl, fun i hi j hj => (near i hi j hj).1, fun i hi j hj => ?_, fun i hi j hj l hl => ?_⟩, fun fuel hf => (h1 fuel hf).2.2⟩
  · rw [min_comm, max_comm]
    simp only [eq_comm]
  · have n1 := abs_le.1 (near i hi j hj).2
    have n2 := abs_le.1 (near j hj l hl).2
    have n3 := abs_le.1 (near i hi l hl).2
    have t := exactEmd_triangle met (hw i hi) (hw j hj) (hw l hl)
    linarith [n1.1, n2.1, n3.2]

end

/-! ### More neighbours -/

/-- **C97** The default metric and two others do not grow if the ends of the lists are dropped. -/
theorem C97_shrinks (hn : ScipyNames env.other) : Shrinks ((MetricArg.named "euclidean").dist env.other) ∧ Shrinks ((MetricArg.named "cityblock").dist env.other) ∧
    Shrinks ((MetricArg.named "chebyshev").dist env.other) := by
  have e1 : (MetricArg.named "euclidean").dist env.other = euclidean := by rw [MetricArg.dist, if_neg (by decide), hn.euclidean]
  have e2 : (MetricArg.named "cityblock").dist env.other = cityblock := by rw [MetricArg.dist, if_neg (by decide), hn.cityblock]
  rw [e1, e2]
  exact ⟨euclidean_shrinks, cityblock_shrinks, chebyshev_shrinks⟩

variable {B : CifBackends} {w : World} {o o' : ReadOptions}

theorem Described.WellShaped.mono {e : Described} {k k' : ℕ} (h : e.WellShaped k') (hk : k' ≤ k) : e.WellShaped k := by
  obtain ⟨cell, hc, h⟩ := h
  exact ⟨cell, hc, h.imp id fun h => ⟨h.1, by omega⟩⟩

theorem SitesDescribed.WellShaped.mono {e : SitesDescribed} {k k' : ℕ} (h : e.WellShaped k') (hk : k' ≤ k) : e.WellShaped k := by
  obtain ⟨cell, hc, h⟩ := h
  exact ⟨cell, hc, h.imp id fun h => ⟨h.1, by omega⟩⟩

section

variable {asString : String → String} {ds ds' : List Described}

/-- **C97** (partial) with more neighbours no distance by AMD becomes smaller. Missing: entries for cells that are too oblique for the smaller number of neighbours. -/
theorem C97_more_amd_two_partial (h : ReadsInputs env B w kwargs o) (h' : ReadsInputs env B w kwargs' o') (hk : args'.k ≤ args.k) (hby : upper args.by_ = "AMD") (hby' : upper args'.by_ = "AMD")
    (hnn : args.nNeighbors = none) (hnn' : args'.nNeighbors = none) {metric : MetricArg ℝ} (hm : (kwOr kwargs "metric" (.str "chebyshev")).toMetric = .ok metric)
    (hm' : (kwOr kwargs' "metric" (.str "chebyshev")).toMetric = .ok metric) (hl : (kwOr kwargs "low_memory" (.bool false)).truthy = false)
    (hl' : (kwOr kwargs' "low_memory" (.bool false)).truthy = false) (hd : RowMetric args.k (metric.dist env.other)) (hd' : RowMetric args'.k (metric.dist env.other))
    (hs : Shrinks (metric.dist env.other)) (hi : InputHolds B asString o inp ds args.csdRefcodes) (hp : InputHolds B asString o' inp ds args'.csdRefcodes) (he : ∀ e ∈ ds, e.Proper) (hne : ds ≠ [])
    (hi' : InputHolds B asString o inp' ds' args.csdRefcodes) (hp' : InputHolds B asString o' inp' ds' args'.csdRefcodes) (he' : ∀ e ∈ ds', e.Proper) (hne' : ds' ≠ []) :
    ∃ (M M' : List (List ℝ)) (f f' : ℕ → ℕ → ℝ) (F : ℕ), IsMatrix ds.length ds'.length f M ∧ IsMatrix ds.length ds'.length f' M' ∧
      (∀ fuel ≥ F, compare env inp (some inp') args kwargs fuel = .ok (.matrix (ds.map Described.name) (ds'.map Described.name) M) ∧
        compare env inp (some inp') args' kwargs' fuel = .ok (.matrix (ds.map Described.name) (ds'.map Described.name) M')) ∧
      ∀ i j (hi : i < ds.length) (hj : j < ds'.length), ds[i].WellShaped args'.k → ds'[j].WellShaped args'.k → f' i j ≤ f i j := by
  obtain ⟨M, f, F, hM, h1, h2⟩ := C96_amd_two_partial h hby hnn hm hl hd.self hi hi' he he' hne hne'
  obtain ⟨M', f', F', hM', h1', h2'⟩ := C96_amd_two_partial h' hby' hnn' hm' hl' hd'.self hp hp' he he' hne hne'
  refine ⟨M, M', f, f', max F F', hM, hM', fun fuel hf => ⟨h1 fuel (by omega), h1' fuel (by omega)⟩, fun i j hi hj hw hw' => ?_⟩
  obtain ⟨a, ha⟩ := (described_lawful.amd_unique (he _ (List.getElem_mem hi)) args.k).exists
  obtain ⟨b, hb⟩ := (described_lawful.amd_unique (he' _ (List.getElem_mem hj)) args.k).exists
  rw [(h2 i j hi hj (hw.mono hk) (hw'.mono hk)).1 a b ha hb, (h2' i j hi hj hw hw').1 _ _ (Described.IsAMD.take ha hk) (Described.IsAMD.take hb hk)]
  exact hs _ _ _ ((described_lawful.amd_length ha).trans (described_lawful.amd_length hb).symm)

/-- **C97** (partial) with more neighbours no distance by PDD becomes smaller, up to what C96 allows between entries and exact distances. Missing: entries for cells that are too oblique for the smaller number of neighbours. -/
theorem C97_more_pdd_two_partial (h : ReadsInputs env B w kwargs o) (h' : ReadsInputs env B w kwargs' o') (hs : env.sched.Complete) (hk : args'.k ≤ args.k) (hby : upper args.by_ = "PDD") (hby' : upper args'.by_ = "PDD")
    (hnn : args.nNeighbors = none) (hnn' : args'.nNeighbors = none) {metric : MetricArg ℝ} {L L' : ℝ} (hd : TameMetric args.k L (metric.dist env.other))
    (hd' : TameMetric args'.k L' (metric.dist env.other)) (hsh : Shrinks (metric.dist env.other)) {tol tol' : ℝ} (htol : 0 ≤ tol) (htol' : 0 ≤ tol') (ho : PddOptions kwargs tol metric)
    (ho' : PddOptions kwargs' tol' metric) (hi : InputHolds B asString o inp ds args.csdRefcodes) (hp : InputHolds B asString o' inp ds args'.csdRefcodes) (he : ∀ e ∈ ds, e.Proper) (hne : ds ≠ [])
    (hi' : InputHolds B asString o inp' ds' args.csdRefcodes) (hp' : InputHolds B asString o' inp' ds' args'.csdRefcodes) (he' : ∀ e ∈ ds', e.Proper) (hne' : ds' ≠ []) {collapse collapse' : Bool}
    (hcol : (kwOr kwargs "collapse" (.bool true)).truthy = collapse) (hcol' : (kwOr kwargs' "collapse" (.bool true)).truthy = collapse') :
    ∃ (M M' : List (List ℝ)) (f f' : ℕ → ℕ → ℝ) (F : ℕ), IsMatrix ds.length ds'.length f M ∧ IsMatrix ds.length ds'.length f' M' ∧
      (∀ fuel ≥ F, compare env inp (some inp') args kwargs fuel = .ok (.matrix (ds.map Described.name) (ds'.map Described.name) M) ∧
        compare env inp (some inp') args' kwargs' fuel = .ok (.matrix (ds.map Described.name) (ds'.map Described.name) M')) ∧
      ∀ i j (hi : i < ds.length) (hj : j < ds'.length), ds[i].WellShaped args'.k → ds'[j].WellShaped args'.k → 
        ∀ slack slack', slack = (if collapse then 4 * L * tol else 0) + emdTol (max ds[i].size ds'[j].size) (L * (args.k * max (ds[i].cell.a : ℝ) ds'[j].cell.a)) →
          slack' = (if collapse' then 4 * L' * tol' else 0) + emdTol (max ds[i].size ds'[j].size) (L' * (args'.k * max (ds[i].cell.a : ℝ) ds'[j].cell.a)) →
          f' i j ≤ f i j + slack + slack' := by
  obtain ⟨M, f, F, hM, h1, h2⟩ := C96_pdd_two_partial h hs hby hnn hd htol ho hi hi' he he' hne hne' hcol
  obtain ⟨M', f', F', hM', h1', h2'⟩ := C96_pdd_two_partial h' hs hby' hnn' hd' htol' ho' hp hp' he he' hne hne' hcol'
  refine ⟨M, M', f, f', max F F', hM, hM', fun fuel hf => ⟨h1 fuel (by omega), h1' fuel (by omega)⟩, fun i j hi hj hw hw' slack slack' e e' => ?_⟩
  obtain ⟨p, hp⟩ := (described_lawful.pdd_unique (he _ (List.getElem_mem hi)) args.k).1
  obtain ⟨q, hq⟩ := (described_lawful.pdd_unique (he' _ (List.getElem_mem hj)) args.k).1
  have n1 := abs_le.1 ((h2 i j hi hj (hw.mono hk) (hw'.mono hk) _ e).1 p q hp hq)
  have n2 := abs_le.1 ((h2' i j hi hj hw hw' _ e').1 _ _ (Described.IsPDD.take hp hk) (Described.IsPDD.take hq hk))
  have := exactEmd_firstColumns hd'.nonneg hsh hk (described_lawful.weighted hp) (described_lawful.weighted hq)
  linarith [n1.1, n2.2]

/-- **C97** (partial) the same for one collection. Missing: entries for cells that are too oblique for the smaller number of neighbours. -/
theorem C97_more_amd_partial (h : ReadsInputs env B w kwargs o) (h' : ReadsInputs env B w kwargs' o') (hk : args'.k ≤ args.k) (hby : upper args.by_ = "AMD") (hby' : upper args'.by_ = "AMD")
    (hnn : args.nNeighbors = none) (hnn' : args'.nNeighbors = none) {metric : MetricArg ℝ} (hm : (kwOr kwargs "metric" (.str "chebyshev")).toMetric = .ok metric)
    (hm' : (kwOr kwargs' "metric" (.str "chebyshev")).toMetric = .ok metric) (hl : (kwOr kwargs "low_memory" (.bool false)).truthy = false)
    (hl' : (kwOr kwargs' "low_memory" (.bool false)).truthy = false) (hd : RowMetric args.k (metric.dist env.other)) (hd' : RowMetric args'.k (metric.dist env.other))
    (hs : Shrinks (metric.dist env.other)) (hi : InputHolds B asString o inp ds args.csdRefcodes) (hp : InputHolds B asString o' inp ds args'.csdRefcodes) (he : ∀ e ∈ ds, e.Proper) (hne : ds ≠ []) :
    ∃ (M M' : List (List ℝ)) (f f' : ℕ → ℕ → ℝ) (F : ℕ), IsMatrix ds.length ds.length f M ∧ IsMatrix ds.length ds.length f' M' ∧
      (∀ fuel ≥ F, compare env inp none args kwargs fuel = .ok (.matrix (ds.map Described.name) (ds.map Described.name) M) ∧
        compare env inp none args' kwargs' fuel = .ok (.matrix (ds.map Described.name) (ds.map Described.name) M')) ∧
      ∀ i j (hi : i < ds.length) (hj : j < ds.length), ds[i].WellShaped args'.k → ds[j].WellShaped args'.k → f' i j ≤ f i j := by
  obtain ⟨M, f, F, hM, h1, h2⟩ := C96_amd_partial h hby hnn hm hl hd.self hd.symm hi he hne
  obtain ⟨M', f', F', hM', h1', h2'⟩ := C96_amd_partial h' hby' hnn' hm' hl' hd'.self hd'.symm hp he hne
  refine ⟨M, M', f, f', max F F', hM, hM', fun fuel hf => ⟨h1 fuel (by omega), h1' fuel (by omega)⟩, fun i j hi hj hw hw' => ?_⟩
  obtain ⟨a, ha⟩ := (described_lawful.amd_unique (he _ (List.getElem_mem hi)) args.k).exists
  obtain ⟨b, hb⟩ := (described_lawful.amd_unique (he _ (List.getElem_mem hj)) args.k).exists
  rw [(h2 i j hi hj (hw.mono hk) (hw'.mono hk)).1 a b ha hb, (h2' i j hi hj hw hw').1 _ _ (Described.IsAMD.take ha hk) (Described.IsAMD.take hb hk)]
  exact hs _ _ _ ((described_lawful.amd_length ha).trans (described_lawful.amd_length hb).symm)

/-- **C97** (partial) the same for one collection. Missing: entries for cells that are too oblique for the smaller number of neighbours. -/
theorem C97_more_pdd_partial (h : ReadsInputs env B w kwargs o) (h' : ReadsInputs env B w kwargs' o') (hs : env.sched.Complete) (hk : args'.k ≤ args.k) (hby : upper args.by_ = "PDD") (hby' : upper args'.by_ = "PDD")
    (hnn : args.nNeighbors = none) (hnn' : args'.nNeighbors = none) {metric : MetricArg ℝ} {L L' : ℝ} (hd : TameMetric args.k L (metric.dist env.other))
    (hd' : TameMetric args'.k L' (metric.dist env.other)) (hsh : Shrinks (metric.dist env.other)) {tol tol' : ℝ} (htol : 0 ≤ tol) (htol' : 0 ≤ tol') (ho : PddOptions kwargs tol metric)
    (ho' : PddOptions kwargs' tol' metric) (hi : InputHolds B asString o inp ds args.csdRefcodes) (hp : InputHolds B asString o' inp ds args'.csdRefcodes) (he : ∀ e ∈ ds, e.Proper) (hne : ds ≠ []) {collapse collapse' : Bool}
    (hcol : (kwOr kwargs "collapse" (.bool true)).truthy = collapse) (hcol' : (kwOr kwargs' "collapse" (.bool true)).truthy = collapse') :
    ∃ (M M' : List (List ℝ)) (f f' : ℕ → ℕ → ℝ) (F : ℕ), IsMatrix ds.length ds.length f M ∧ IsMatrix ds.length ds.length f' M' ∧
      (∀ fuel ≥ F, compare env inp none args kwargs fuel = .ok (.matrix (ds.map Described.name) (ds.map Described.name) M) ∧
        compare env inp none args' kwargs' fuel = .ok (.matrix (ds.map Described.name) (ds.map Described.name) M')) ∧
      ∀ i j (hi : i < ds.length) (hj : j < ds.length), ds[i].WellShaped args'.k → ds[j].WellShaped args'.k → 
        ∀ slack slack', slack = (if collapse then 4 * L * tol else 0) + emdTol (max ds[i].size ds[j].size) (L * (args.k * max (ds[i].cell.a : ℝ) ds[j].cell.a)) →
          slack' = (if collapse' then 4 * L' * tol' else 0) + emdTol (max ds[i].size ds[j].size) (L' * (args'.k * max (ds[i].cell.a : ℝ) ds[j].cell.a)) →
          f' i j ≤ f i j + slack + slack' := by
  obtain ⟨M, f, F, hM, h1, h2⟩ := C96_pdd_partial h hs hby hnn hd htol ho hi he hne hcol
  obtain ⟨M', f', F', hM', h1', h2'⟩ := C96_pdd_partial h' hs hby' hnn' hd' htol' ho' hp he hne hcol'
  refine ⟨M, M', f, f', max F F', hM, hM', fun fuel hf => ⟨h1 fuel (by omega), h1' fuel (by omega)⟩, fun i j hi hj hw hw' slack slack' e e' => ?_⟩
  obtain ⟨p, hp⟩ := (described_lawful.pdd_unique (he _ (List.getElem_mem hi)) args.k).1
  obtain ⟨q, hq⟩ := (described_lawful.pdd_unique (he _ (List.getElem_mem hj)) args.k).1
  have n1 := abs_le.1 ((h2 i j hi hj (hw.mono hk) (hw'.mono hk) _ e).1 p q hp hq)
  have n2 := abs_le.1 ((h2' i j hi hj hw hw' _ e').1 _ _ (Described.IsPDD.take hp hk) (Described.IsPDD.take hq hk))
  have := exactEmd_firstColumns hd'.nonneg hsh hk (described_lawful.weighted hp) (described_lawful.weighted hq)
  linarith [n1.1, n2.2]

end

section

variable {asString : String → String} {ds ds' : List SitesDescribed}

/-- **C97** (partial) With `disorder='all_sites'`: with more neighbours no distance by AMD becomes smaller. Missing: entries for cells that are too oblique for the smaller number of neighbours. -/
theorem C97_sites_more_amd_two_partial (h : ReadsAllSites env B w kwargs o) (h' : ReadsAllSites env B w kwargs' o') (hk : args'.k ≤ args.k) (hby : upper args.by_ = "AMD") (hby' : upper args'.by_ = "AMD")
    (hnn : args.nNeighbors = none) (hnn' : args'.nNeighbors = none) {metric : MetricArg ℝ} (hm : (kwOr kwargs "metric" (.str "chebyshev")).toMetric = .ok metric)
    (hm' : (kwOr kwargs' "metric" (.str "chebyshev")).toMetric = .ok metric) (hl : (kwOr kwargs "low_memory" (.bool false)).truthy = false)
    (hl' : (kwOr kwargs' "low_memory" (.bool false)).truthy = false) (hd : RowMetric args.k (metric.dist env.other)) (hd' : RowMetric args'.k (metric.dist env.other))
    (hs : Shrinks (metric.dist env.other)) (hi : InputHoldsAll B asString o inp ds args.csdRefcodes) (hp : InputHoldsAll B asString o' inp ds args'.csdRefcodes) (he : ∀ e ∈ ds, e.Comparable) (hne : ds ≠ [])
    (hi' : InputHoldsAll B asString o inp' ds' args.csdRefcodes) (hp' : InputHoldsAll B asString o' inp' ds' args'.csdRefcodes) (he' : ∀ e ∈ ds', e.Comparable) (hne' : ds' ≠ []) :
    ∃ (M M' : List (List ℝ)) (f f' : ℕ → ℕ → ℝ) (F : ℕ), IsMatrix ds.length ds'.length f M ∧ IsMatrix ds.length ds'.length f' M' ∧
      (∀ fuel ≥ F, compare env inp (some inp') args kwargs fuel = .ok (.matrix (ds.map SitesDescribed.name) (ds'.map SitesDescribed.name) M) ∧
        compare env inp (some inp') args' kwargs' fuel = .ok (.matrix (ds.map SitesDescribed.name) (ds'.map SitesDescribed.name) M')) ∧
      ∀ i j (hi : i < ds.length) (hj : j < ds'.length), ds[i].WellShaped args'.k → ds'[j].WellShaped args'.k → f' i j ≤ f i j := by
  obtain ⟨M, f, F, hM, h1, h2⟩ := C96_sites_amd_two_partial h hby hnn hm hl hd.self hi hi' he he' hne hne'
  obtain ⟨M', f', F', hM', h1', h2'⟩ := C96_sites_amd_two_partial h' hby' hnn' hm' hl' hd'.self hp hp' he he' hne hne'
  refine ⟨M, M', f, f', max F F', hM, hM', fun fuel hf => ⟨h1 fuel (by omega), h1' fuel (by omega)⟩, fun i j hi hj hw hw' => ?_⟩
  obtain ⟨a, ha⟩ := (sites_lawful.amd_unique (he _ (List.getElem_mem hi)) args.k).exists
  obtain ⟨b, hb⟩ := (sites_lawful.amd_unique (he' _ (List.getElem_mem hj)) args.k).exists
  rw [(h2 i j hi hj (hw.mono hk) (hw'.mono hk)).1 a b ha hb, (h2' i j hi hj hw hw').1 _ _ (SitesDescribed.IsAMD.take ha hk) (SitesDescribed.IsAMD.take hb hk)]
  exact hs _ _ _ ((sites_lawful.amd_length ha).trans (sites_lawful.amd_length hb).symm)

/-- **C97** (partial) With `disorder='all_sites'`: with more neighbours no distance by PDD becomes smaller, up to what C96 allows between entries and exact distances. Missing: entries for cells that are too oblique for the smaller number of neighbours. -/
theorem C97_sites_more_pdd_two_partial (h : ReadsAllSites env B w kwargs o) (h' : ReadsAllSites env B w kwargs' o') (hs : env.sched.Complete) (hk : args'.k ≤ args.k) (hby : upper args.by_ = "PDD") (hby' : upper args'.by_ = "PDD")
    (hnn : args.nNeighbors = none) (hnn' : args'.nNeighbors = none) {metric : MetricArg ℝ} {L L' : ℝ} (hd : TameMetric args.k L (metric.dist env.other))
    (hd' : TameMetric args'.k L' (metric.dist env.other)) (hsh : Shrinks (metric.dist env.other)) {tol tol' : ℝ} (htol : 0 ≤ tol) (htol' : 0 ≤ tol') (ho : PddOptions kwargs tol metric)
    (ho' : PddOptions kwargs' tol' metric) (hi : InputHoldsAll B asString o inp ds args.csdRefcodes) (hp : InputHoldsAll B asString o' inp ds args'.csdRefcodes) (he : ∀ e ∈ ds, e.Comparable) (hne : ds ≠ [])
    (hi' : InputHoldsAll B asString o inp' ds' args.csdRefcodes) (hp' : InputHoldsAll B asString o' inp' ds' args'.csdRefcodes) (he' : ∀ e ∈ ds', e.Comparable) (hne' : ds' ≠ []) {collapse collapse' : Bool}
    (hcol : (kwOr kwargs "collapse" (.bool true)).truthy = collapse) (hcol' : (kwOr kwargs' "collapse" (.bool true)).truthy = collapse') :
    ∃ (M M' : List (List ℝ)) (f f' : ℕ → ℕ → ℝ) (F : ℕ), IsMatrix ds.length ds'.length f M ∧ IsMatrix ds.length ds'.length f' M' ∧
      (∀ fuel ≥ F, compare env inp (some inp') args kwargs fuel = .ok (.matrix (ds.map SitesDescribed.name) (ds'.map SitesDescribed.name) M) ∧
        compare env inp (some inp') args' kwargs' fuel = .ok (.matrix (ds.map SitesDescribed.name) (ds'.map SitesDescribed.name) M')) ∧
      ∀ i j (hi : i < ds.length) (hj : j < ds'.length), ds[i].WellShaped args'.k → ds'[j].WellShaped args'.k → 
        ∀ slack slack', slack = (if collapse then 4 * L * tol else 0) + emdTol (max ds[i].size ds'[j].size) (L * (args.k * max (ds[i].cell.a : ℝ) ds'[j].cell.a)) →
          slack' = (if collapse' then 4 * L' * tol' else 0) + emdTol (max ds[i].size ds'[j].size) (L' * (args'.k * max (ds[i].cell.a : ℝ) ds'[j].cell.a)) →
          f' i j ≤ f i j + slack + slack' := by
  obtain ⟨M, f, F, hM, h1, h2⟩ := C96_sites_pdd_two_partial h hs hby hnn hd htol ho hi hi' he he' hne hne' hcol
  obtain ⟨M', f', F', hM', h1', h2'⟩ := C96_sites_pdd_two_partial h' hs hby' hnn' hd' htol' ho' hp hp' he he' hne hne' hcol'
  refine ⟨M, M', f, f', max F F', hM, hM', fun fuel hf => ⟨h1 fuel (by omega), h1' fuel (by omega)⟩, fun i j hi hj hw hw' slack slack' e e' => ?_⟩
  obtain ⟨p, hp⟩ := (sites_lawful.pdd_unique (he _ (List.getElem_mem hi)) args.k).1
  obtain ⟨q, hq⟩ := (sites_lawful.pdd_unique (he' _ (List.getElem_mem hj)) args.k).1
  have n1 := abs_le.1 ((h2 i j hi hj (hw.mono hk) (hw'.mono hk) _ e).1 p q hp hq)
  have n2 := abs_le.1 ((h2' i j hi hj hw hw' _ e').1 _ _ (SitesDescribed.IsPDD.take hp hk) (SitesDescribed.IsPDD.take hq hk))
  have := exactEmd_firstColumns hd'.nonneg hsh hk (sites_lawful.weighted hp) (sites_lawful.weighted hq)
  linarith [n1.1, n2.2]

/-- **C97** (partial) With `disorder='all_sites'`: the same for one collection. Missing: entries for cells that are too oblique for the smaller number of neighbours. -/
theorem C97_sites_more_amd_partial (h : ReadsAllSites env B w kwargs o) (h' : ReadsAllSites env B w kwargs' o') (hk : args'.k ≤ args.k) (hby : upper args.by_ = "AMD") (hby' : upper args'.by_ = "AMD")
    (hnn : args.nNeighbors = none) (hnn' : args'.nNeighbors = none) {metric : MetricArg ℝ} (hm : (kwOr kwargs "metric" (.str "chebyshev")).toMetric = .ok metric)
    (hm' : (kwOr kwargs' "metric" (.str "chebyshev")).toMetric = .ok metric) (hl : (kwOr kwargs "low_memory" (.bool false)).truthy = false)
    (hl' : (kwOr kwargs' "low_memory" (.bool false)).truthy = false) (hd : RowMetric args.k (metric.dist env.other)) (hd' : RowMetric args'.k (metric.dist env.other))
    (hs : Shrinks (metric.dist env.other)) (hi : InputHoldsAll B asString o inp ds args.csdRefcodes) (hp : InputHoldsAll B asString o' inp ds args'.csdRefcodes) (he : ∀ e ∈ ds, e.Comparable) (hne : ds ≠ []) :
    ∃ (M M' : List (List ℝ)) (f f' : ℕ → ℕ → ℝ) (F : ℕ), IsMatrix ds.length ds.length f M ∧ IsMatrix ds.length ds.length f' M' ∧
      (∀ fuel ≥ F, compare env inp none args kwargs fuel = .ok (.matrix (ds.map SitesDescribed.name) (ds.map SitesDescribed.name) M) ∧
        compare env inp none args' kwargs' fuel = .ok (.matrix (ds.map SitesDescribed.name) (ds.map SitesDescribed.name) M')) ∧
      ∀ i j (hi : i < ds.length) (hj : j < ds.length), ds[i].WellShaped args'.k → ds[j].WellShaped args'.k → f' i j ≤ f i j := by
  obtain ⟨M, f, F, hM, h1, h2⟩ := C96_sites_amd_partial h hby hnn hm hl hd.self hd.symm hi he hne
  obtain ⟨M', f', F', hM', h1', h2'⟩ := C96_sites_amd_partial h' hby' hnn' hm' hl' hd'.self hd'.symm hp he hne
  refine ⟨M, M', f, f', max F F', hM, hM', fun fuel hf => ⟨h1 fuel (by omega), h1' fuel (by omega)⟩, fun i j hi hj hw hw' => ?_⟩
  obtain ⟨a, ha⟩ := (sites_lawful.amd_unique (he _ (List.getElem_mem hi)) args.k).exists
  obtain ⟨b, hb⟩ := (sites_lawful.amd_unique (he _ (List.getElem_mem hj)) args.k).exists
  rw [(h2 i j hi hj (hw.mono hk) (hw'.mono hk)).1 a b ha hb, (h2' i j hi hj hw hw').1 _ _ (SitesDescribed.IsAMD.take ha hk) (SitesDescribed.IsAMD.take hb hk)]
  exact hs _ _ _ ((sites_lawful.amd_length ha).trans (sites_lawful.amd_length hb).symm)

/-- **C97** (partial) With `disorder='all_sites'`: the same for one collection. Missing: entries for cells that are too oblique for the smaller number of neighbours. -/
theorem C97_sites_more_pdd_partial (h : ReadsAllSites env B w kwargs o) (h' : ReadsAllSites env B w kwargs' o') (hs : env.sched.Complete) (hk : args'.k ≤ args.k) (hby : upper args.by_ = "PDD") (hby' : upper args'.by_ = "PDD")
    (hnn : args.nNeighbors = none) (hnn' : args'.nNeighbors = none) {metric : MetricArg ℝ} {L L' : ℝ} (hd : TameMetric args.k L (metric.dist env.other))
    (hd' : TameMetric args'.k L' (metric.dist env.other)) (hsh : Shrinks (metric.dist env.other)) {tol tol' : ℝ} (htol : 0 ≤ tol) (htol' : 0 ≤ tol') (ho : PddOptions kwargs tol metric)
    (ho' : PddOptions kwargs' tol' metric) (hi : InputHoldsAll B asString o inp ds args.csdRefcodes) (hp : InputHoldsAll B asString o' inp ds args'.csdRefcodes) (he : ∀ e ∈ ds, e.Comparable) (hne : ds ≠ []) {collapse collapse' : Bool}
    (hcol : (kwOr kwargs "collapse" (.bool true)).truthy = collapse) (hcol' : (kwOr kwargs' "collapse" (.bool true)).truthy = collapse') :
    ∃ (M M' : List (List ℝ)) (f f' : ℕ → ℕ → ℝ) (F : ℕ), IsMatrix ds.length ds.length f M ∧ IsMatrix ds.length ds.length f' M' ∧
      (∀ fuel ≥ F, compare env inp none args kwargs fuel = .ok (.matrix (ds.map SitesDescribed.name) (ds.map SitesDescribed.name) M) ∧
        compare env inp none args' kwargs' fuel = .ok (.matrix (ds.map SitesDescribed.name) (ds.map SitesDescribed.name) M')) ∧
      ∀ i j (hi : i < ds.length) (hj : j < ds.length), ds[i].WellShaped args'.k → ds[j].WellShaped args'.k → 
        ∀ slack slack', slack = (if collapse then 4 * L * tol else 0) + emdTol (max ds[i].size ds[j].size) (L * (args.k * max (ds[i].cell.a : ℝ) ds[j].cell.a)) →
          slack' = (if collapse' then 4 * L' * tol' else 0) + emdTol (max ds[i].size ds[j].size) (L' * (args'.k * max (ds[i].cell.a : ℝ) ds[j].cell.a)) →
          f' i j ≤ f i j + slack + slack' := by
  obtain ⟨M, f, F, hM, h1, h2⟩ := C96_sites_pdd_partial h hs hby hnn hd htol ho hi he hne hcol
  obtain ⟨M', f', F', hM', h1', h2'⟩ := C96_sites_pdd_partial h' hs hby' hnn' hd' htol' ho' hp he hne hcol'
  refine ⟨M, M', f, f', max F F', hM, hM', fun fuel hf => ⟨h1 fuel (by omega), h1' fuel (by omega)⟩, fun i j hi hj hw hw' slack slack' e e' => ?_⟩
  obtain ⟨p, hp⟩ := (sites_lawful.pdd_unique (he _ (List.getElem_mem hi)) args.k).1
  obtain ⟨q, hq⟩ := (sites_lawful.pdd_unique (he _ (List.getElem_mem hj)) args.k).1
  have n1 := abs_le.1 ((h2 i j hi hj (hw.mono hk) (hw'.mono hk) _ e).1 p q hp hq)
  have n2 := abs_le.1 ((h2' i j hi hj hw hw' _ e').1 _ _ (SitesDescribed.IsPDD.take hp hk) (SitesDescribed.IsPDD.take hq hk))
  have := exactEmd_firstColumns hd'.nonneg hsh hk (sites_lawful.weighted hp) (sites_lawful.weighted hq)
  linarith [n1.1, n2.2]

end

/-- What `PddWithin` says is met by crystals of files whose cells are not too oblique. -/
theorem described_within {ds : List Described} (he : ∀ e ∈ ds, e.Proper) (hw : ∀ e ∈ ds, e.WellShaped args.k) (hg : describedNotion.Gives env args kwargs inp ds cs) {n : ℕ} {C : ℝ}
    (hn : ∀ e ∈ ds, e.size ≤ n) (hC : ∀ e ∈ ds, args.k * (e.cell.a : ℝ) ≤ C) (tol : ℝ) : ∀ c ∈ cs, PddWithin kwargs' tol args.k n C c := by
  intro c hc fuel p hp
  obtain ⟨i, hi, rfl⟩ := List.mem_iff_getElem.1 hc
  obtain ⟨hl, hr⟩ := List.forall₂_iff_get.1 hg.reads
  have hi' : i < ds.length := by omega
  obtain ⟨S, e, hS⟩ := hr i hi' hi
  simp only [List.get_eq_getElem] at e hS
  rw [e] at hp
  have hm := List.getElem_mem hi'
  obtain ⟨h1, h2⟩ := described_lawful.range (he _ hm) hS (good_wellShaped (hw _ hm) _ hS) hp
  refine ⟨h1.trans (hn _ hm), fun r hr y hy => ((h2 r hr y hy).2.trans (le_of_eq ?_)).trans (hC _ hm)⟩
  rw [(described_lawful.edge hS).1]
  rfl

end Amd
