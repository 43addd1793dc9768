import Verif.Props.CompareTolerance
import Verif.Props.MovedExample

/-!
# C110: the order of motif points hardly matters for PDDs
-/

namespace Amd

section

variable {kwargs : Kwargs} {tol : ℝ} {k n : ℕ} {C L : ℝ} {c c' m m' : Crystal}

theorem Crystal.Reordered.valid (h : c.Reordered m) (hv : c.Valid) : m.Valid := by
  obtain ⟨name, motif, hD, hne, hp, e, rfl⟩ := h
  obtain ⟨-, hn, hl, -⟩ := hv
  have hl' : motif.length = c.set.motif.length := hp.length_eq.symm
  have pos : 0 < motif.length := by rw [hl']; exact List.length_pos_iff.2 hne
  exact ⟨hD, hn, hl'.trans_le hl, List.finRange motif.length, List.replicate motif.length 1, Or.inr ⟨Or.inl rfl, rfl, rfl⟩, fun h => by simpa [pos.ne'] using congrArg List.length h, by simp, by simp⟩

theorem weightAt_congr {p q : List (PRow ℝ)} (h : (p.map fun r => (r.weight, r.dists)).Perm (q.map fun r => (r.weight, r.dists))) (x : List ℝ) : weightAt p x = weightAt q x := by
  classical
  have key : ∀ p : List (PRow ℝ), weightAt p x = (((p.map fun r => (r.weight, r.dists)).filter fun r => decide (r.2 = x)).map fun r => r.1).sum := by
    intro p
    unfold weightAt
    rw [List.filter_map, List.map_map]
    congr 2
  rw [key, key]
  exact ((h.filter _).map _).sum_eq

theorem Crystal.Reordered.base (h : c.Reordered m) {fuel : ℕ} {b : List (PRow ℝ)} (hb : PDD c.set k false false 0 fuel = .ok b) :
    ∃ b', PDD m.set k false false 0 fuel = .ok b' ∧ ∀ x, weightAt b x = weightAt b' x := by
  obtain ⟨name, motif, hD, hne, hp, e, rfl⟩ := h
  rw [e] at hb
  obtain ⟨b', hb', hperm, -⟩ := C06_pdd_perm hD hp hne c.set.cell k false 0 fuel hb
  exact ⟨b', hb', weightAt_congr hperm⟩

/-- The PDD without collapsing of a crystal for which `compare` finds a PDD. -/
theorem pddOf_base (hv : c.Valid) {fuel : ℕ} {p : List (PRow ℝ)} (hp : pddOf kwargs tol c k fuel = .ok p) : ∃ b, PDD c.set k false false 0 fuel = .ok b := by
  obtain ⟨hD, _, hl, inds, mult, hu, hne, hpos, hs⟩ := hv
  obtain ⟨rows, hr, -⟩ := PDD_rows hD hu hne hp
  exact PDD_ok_of hD hu hne k false false 0 hr

/-- The exact distance of the PDDs of a crystal listed in two ways. -/
theorem exactEmd_reordered (h : c.Reordered m) (hv : c.Valid) {d : List ℝ → List ℝ → ℝ} (hd : TameMetric k L d) {fuel : ℕ} {p q : List (PRow ℝ)} (hp : pddOf kwargs tol c k fuel = .ok p)
    (hq : pddOf kwargs tol m k fuel = .ok q) : exactEmd d p q ≤ 4 * L * mergeWidth kwargs tol := by
  have met := hd.toRowMetric
  have hvm := h.valid hv
  obtain ⟨b, hb⟩ := pddOf_base hv hp
  obtain ⟨b', hb', hw⟩ := h.base hb
  obtain ⟨wb, n1⟩ := pddOf_near_base hv hd hp hb
  obtain ⟨wb', n2⟩ := pddOf_near_base hvm hd hq hb'
  have wp := (pddOf_rows hv hp).1
  have wq := (pddOf_rows hvm hq).1
  have t1 := exactEmd_triangle met wp wb wq
  have e1 := exactEmd_congr met wb wb' wq hw
  have s1 := exactEmd_symm met wq wb'
  nlinarith

/-- **C110** `EMD` of the PDDs of one crystal whose motif is listed in two orders: both are found, and so is their distance, which is at most four times the tolerance, up to the rounding of weights. -/
theorem C110_pdd (h : c.Reordered m) (hv : c.Valid) {d : List ℝ → List ℝ → ℝ} (hd : TameMetric k L d) (hC0 : 0 ≤ C) (hC : PddWithin kwargs tol k n C c) (hC' : PddWithin kwargs tol k n C m) :
    ∃ (p q : List (PRow ℝ)) (F : ℕ), ∀ fuel ≥ F, pddOf kwargs tol c k fuel = .ok p ∧ pddOf kwargs tol m k fuel = .ok q ∧
      ∃ x plan, emd d p q fuel = .ok (x, plan) ∧ 0 ≤ x ∧ x ≤ 4 * L * mergeWidth kwargs tol + emdTol n (L * C) := by
  have hvm := h.valid hv
  obtain ⟨ps, F, -, hw, h1⟩ := pdds_all (cs := [c, m]) (by simp [hv, hvm]) k (kwOr kwargs "lexsort" (.bool true)).truthy (kwOr kwargs "collapse" (.bool true)).truthy tol
  have o1 : ∀ fuel ≥ F, pddOf kwargs tol c k fuel = .ok (ps.getD 0 []) := fun fuel hf => (h1 fuel hf).2 0 (by simp)
  have o2 : ∀ fuel ≥ F, pddOf kwargs tol m k fuel = .ok (ps.getD 1 []) := fun fuel hf => (h1 fuel hf).2 1 (by simp)
  obtain ⟨G, hG⟩ := C33_terminates (pddOf_rows hv (o1 F le_rfl)).1 (pddOf_rows hvm (o2 F le_rfl)).1 hd.nonneg
  refine ⟨_, _, max F G, fun fuel hf => ⟨o1 fuel (by omega), o2 fuel (by omega), ?_⟩⟩
  obtain ⟨⟨x, plan⟩, hx⟩ := hG fuel (by omega)
  obtain ⟨h0, h2⟩ := pdds_near hv hvm hd hC0 hC hC' (o1 F le_rfl) (o2 F le_rfl) hx
  have h3 := exactEmd_reordered h hv hd (o1 F le_rfl) (o2 F le_rfl)
  exact ⟨x, plan, hx, h0, by linarith [(abs_le.1 h2).2]⟩

private theorem pdds_reordered (h : c.Reordered m) (h' : c'.Reordered m') (hv : c.Valid) (hv' : c'.Valid) {d : List ℝ → List ℝ → ℝ} (hd : TameMetric k L d) (hC0 : 0 ≤ C)
    (hC : PddWithin kwargs tol k n C c) (hC' : PddWithin kwargs tol k n C c') (hG : PddWithin kwargs tol k n C m) (hG' : PddWithin kwargs tol k n C m') {fuel f f' : ℕ} {p q p' q' : List (PRow ℝ)}
    (hp : pddOf kwargs tol c k fuel = .ok p) (hq : pddOf kwargs tol c' k fuel = .ok q) (hp' : pddOf kwargs tol m k fuel = .ok p') (hq' : pddOf kwargs tol m' k fuel = .ok q')
    {x x' : ℝ} {plan plan' : List (List ℝ)} (hx : emd d p q f = .ok (x, plan)) (hx' : emd d p' q' f' = .ok (x', plan')) :
    |x' - x| ≤ 8 * L * mergeWidth kwargs tol + 2 * emdTol n (L * C) := by
  have met := hd.toRowMetric
  have wp := (pddOf_rows hv hp).1
  have wq := (pddOf_rows hv' hq).1
  have wp' := (pddOf_rows (h.valid hv) hp').1
  have wq' := (pddOf_rows (h'.valid hv') hq').1
  have a1 := exactEmd_reordered h hv hd hp hp'
  have a2 := exactEmd_reordered h' hv' hd hq hq'
  have e1 := abs_le.1 (pdds_near hv hv' hd hC0 hC hC' hp hq hx).2
  have e2 := abs_le.1 (pdds_near (h.valid hv) (h'.valid hv') hd hC0 hG hG' hp' hq' hx').2
  have t1 := exactEmd_triangle met wp wp' wq
  have t2 := exactEmd_triangle met wp' wq' wq
  have t3 := exactEmd_triangle met wp' wp wq'
  have t4 := exactEmd_triangle met wp wq wq'
  have s1 := exactEmd_symm met wp wp'
  have s2 := exactEmd_symm met wq wq'
  rw [abs_le]
  constructor <;> linarith [e1.1, e1.2, e2.1, e2.2]

end

section

variable {env : Env} {inp inp' jnp jnp' : Input} {args : CompareArgs} {kwargs : Kwargs} {cs cs' ms ms' : List Crystal} {tol : ℝ} {n : ℕ} {C : ℝ}

private theorem valid_reordered {cs ms : List Crystal} (h : List.Forall₂ Crystal.Reordered cs ms) (hv : ∀ c ∈ cs, c.Valid) : ∀ m ∈ ms, m.Valid := by
  intro m hm
  obtain ⟨i, hi, rfl⟩ := List.mem_iff_getElem.1 hm
  have hi' : i < cs.length := by rw [h.length_eq]; exact hi
  exact ((List.forall₂_iff_get.1 h).2 i hi' hi).valid (hv _ (List.getElem_mem hi'))

/-- **C110** By PDD with two collections: listing motif points in another order changes no entry by more than eight times the tolerance for collapsing, up to the rounding of weights; without collapsing by no more than that rounding. -/
theorem C110_two (hs : env.sched.Complete) (hv : ∀ c ∈ cs, c.Valid) (hv' : ∀ c ∈ cs', c.Valid) (hm : List.Forall₂ Crystal.Reordered cs ms) (hm' : List.Forall₂ Crystal.Reordered cs' ms')
    (hby : upper args.by_ = "PDD") (hn : args.nNeighbors = none) {metric : MetricArg ℝ} (ho : PddOptions kwargs tol metric) {L : ℝ} (hd : TameMetric args.k L (metric.dist env.other))
    (hg : getCrystals env args.csdRefcodes (routeKwargs args.verbose kwargs) inp = .ok cs) (hg' : getCrystals env args.csdRefcodes (routeKwargs args.verbose kwargs) inp' = .ok cs')
    (hj : getCrystals env args.csdRefcodes (routeKwargs args.verbose kwargs) jnp = .ok ms) (hj' : getCrystals env args.csdRefcodes (routeKwargs args.verbose kwargs) jnp' = .ok ms') (hne : cs ≠ [])
    (hC0 : 0 ≤ C) (hC : ∀ c ∈ (cs ++ cs') ++ (ms ++ ms'), PddWithin kwargs tol args.k n C c) :
    ∃ (M N : List (List ℝ)) (f g : ℕ → ℕ → ℝ) (F : ℕ), IsMatrix cs.length cs'.length f M ∧ IsMatrix cs.length cs'.length g N ∧ (∀ fuel ≥ F,
      compare env inp (some inp') args kwargs fuel = .ok (.matrix (cs.map Crystal.name) (cs'.map Crystal.name) M) ∧
      compare env jnp (some jnp') args kwargs fuel = .ok (.matrix (ms.map Crystal.name) (ms'.map Crystal.name) N)) ∧
      ∀ i < cs.length, ∀ j < cs'.length, |g i j - f i j| ≤ 8 * L * mergeWidth kwargs tol + 2 * emdTol n (L * C) := by
  have l1 := hm.length_eq
  have l2 := hm'.length_eq
  have hne' : ms ≠ [] := List.ne_nil_of_length_pos (by rw [← l1]; exact List.length_pos_iff.2 hne)
  obtain ⟨p, q, d, M, F, hM, h1⟩ := C37_pdd_two hs hv hv' hby hn ho hd.toRowMetric.nonneg hg hne hg'
  obtain ⟨p', q', d', N, G, hN, h2⟩ := C37_pdd_two hs (valid_reordered hm hv) (valid_reordered hm' hv') hby hn ho hd.toRowMetric.nonneg hj hne' hj'
  rw [← l1, ← l2] at hN
  refine ⟨M, N, d, d', max F G, hM, hN, fun fuel hf => ⟨(h1 fuel (by omega)).2.2.2, (h2 fuel (by omega)).2.2.2⟩, fun i hi j hj => ?_⟩
  obtain ⟨a1, a2, a3, -⟩ := h1 (max F G) (le_max_left _ _)
  obtain ⟨b1, b2, b3, -⟩ := h2 (max F G) (le_max_right _ _)
  obtain ⟨plan, hx⟩ := a3 i j hi hj
  obtain ⟨plan', hx'⟩ := b3 i j (by omega) (by omega)
  have hi' : i < ms.length := by omega
  have hj' : j < ms'.length := by omega
  exact pdds_reordered ((List.forall₂_iff_get.1 hm).2 i hi hi') ((List.forall₂_iff_get.1 hm').2 j hj hj') (hv _ (List.getElem_mem hi)) (hv' _ (List.getElem_mem hj)) hd hC0
    (hC _ (by simp)) (hC _ (by simp)) (hC _ (by simp)) (hC _ (by simp)) (a1 i hi) (a2 j hj) (b1 i hi') (b2 j hj') hx hx'

/-- **C110** The same for one collection. -/
theorem C110_one (hs : env.sched.Complete) (hv : ∀ c ∈ cs, c.Valid) (hm : List.Forall₂ Crystal.Reordered cs ms)
    (hby : upper args.by_ = "PDD") (hn : args.nNeighbors = none) {metric : MetricArg ℝ} (ho : PddOptions kwargs tol metric) {L : ℝ} (hd : TameMetric args.k L (metric.dist env.other))
    (hg : getCrystals env args.csdRefcodes (routeKwargs args.verbose kwargs) inp = .ok cs) (hj : getCrystals env args.csdRefcodes (routeKwargs args.verbose kwargs) jnp = .ok ms) (hne : cs ≠ [])
    (hC0 : 0 ≤ C) (hC : ∀ c ∈ cs ++ ms, PddWithin kwargs tol args.k n C c) :
    ∃ (M N : List (List ℝ)) (f g : ℕ → ℕ → ℝ) (F : ℕ), IsMatrix cs.length cs.length f M ∧ IsMatrix cs.length cs.length g N ∧ (∀ fuel ≥ F,
      compare env inp none args kwargs fuel = .ok (.matrix (cs.map Crystal.name) (cs.map Crystal.name) M) ∧
      compare env jnp none args kwargs fuel = .ok (.matrix (ms.map Crystal.name) (ms.map Crystal.name) N)) ∧
      ∀ i < cs.length, ∀ j < cs.length, |g i j - f i j| ≤ 8 * L * mergeWidth kwargs tol + 2 * emdTol n (L * C) := by
  have l1 := hm.length_eq
  have hne' : ms ≠ [] := List.ne_nil_of_length_pos (by rw [← l1]; exact List.length_pos_iff.2 hne)
  obtain ⟨p, d, M, F, hM, h1⟩ := C37_pdd hs hv hby hn ho hd.toRowMetric.nonneg hg hne
  obtain ⟨p', d', N, G, hN, h2⟩ := C37_pdd hs (valid_reordered hm hv) hby hn ho hd.toRowMetric.nonneg hj hne'
  rw [← l1] at hN
  refine ⟨M, N, _, _, max F G, hM, hN, fun fuel hf => ⟨(h1 fuel (by omega)).2.2, (h2 fuel (by omega)).2.2⟩, fun i hi j hj => ?_⟩
  obtain ⟨a1, a3, -⟩ := h1 (max F G) (le_max_left _ _)
  obtain ⟨b1, b3, -⟩ := h2 (max F G) (le_max_right _ _)
  have lt : ∀ i j, i < j → j < cs.length → |d' i j - d i j| ≤ 8 * L * mergeWidth kwargs tol + 2 * emdTol n (L * C) := by
    intro i j hij hj
    have hi : i < cs.length := by omega
    have hi' : i < ms.length := by omega
    have hj' : j < ms.length := by omega
    obtain ⟨plan, hx⟩ := a3 i j hij hj
    obtain ⟨plan', hx'⟩ := b3 i j hij (by omega)
    exact pdds_reordered ((List.forall₂_iff_get.1 hm).2 i hi hi') ((List.forall₂_iff_get.1 hm).2 j hj hj') (hv _ (List.getElem_mem hi)) (hv _ (List.getElem_mem hj)) hd hC0
      (hC _ (by simp)) (hC _ (by simp)) (hC _ (by simp)) (hC _ (by simp)) (a1 i hi) (a1 j hj) (b1 i hi') (b1 j hj') hx hx'
  rcases lt_trichotomy i j with hij | rfl | hij
  · simp only [if_neg hij.ne, min_eq_left hij.le, max_eq_right hij.le]
    exact lt i j hij hj
  · simp only [if_true, sub_zero, abs_zero]
    have h1 := mergeWidth_nonneg kwargs tol
    have h3 := hd.const
    have h4 : 0 ≤ emdTol n (L * C) := by unfold emdTol; positivity
    positivity
  · simp only [if_neg hij.ne', min_eq_right hij.le, max_eq_left hij.le]
    exact lt j i hij hi

end

/-! ### The hypotheses can be met -/

/-- Two crystals without asymmetric units. -/
noncomputable def plainCrystals : List Crystal := [⟨"a", 2, exampleSet⟩, ⟨"c", 2, { exampleSet with motif := [![0, 0]] }⟩]

/-- The same with the points of the first listed backwards. -/
noncomputable def backwardCrystals : List Crystal := [⟨"a", 2, { exampleSet with motif := [![3 / 2, 1], ![0, 0]] }⟩, ⟨"c", 2, { exampleSet with motif := [![0, 0]] }⟩]

theorem backward_reordered : List.Forall₂ Crystal.Reordered plainCrystals backwardCrystals :=
  .cons ⟨"a", [![3 / 2, 1], ![0, 0]], by norm_num, by simp [exampleSet], List.Perm.swap _ _ _, rfl, rfl⟩
    (.cons ⟨"c", [![0, 0]], by norm_num, by simp, List.Perm.refl _, rfl, rfl⟩ .nil)

theorem plainCrystals_valid : ∀ c ∈ plainCrystals, c.Valid := fun c hc => exampleCrystals_valid c (by simp only [plainCrystals, exampleCrystals, List.mem_cons, List.not_mem_nil, or_false] at hc ⊢; tauto)

/-- C110_pdd with the default options. -/
example : ∃ (n : ℕ) (C : ℝ) (p q : List (PRow ℝ)) (F : ℕ), ∀ fuel ≥ F, pddOf [] (1 / 10000) ⟨"a", 2, exampleSet⟩ 100 fuel = .ok p ∧
    pddOf [] (1 / 10000) ⟨"a", 2, { exampleSet with motif := [![3 / 2, 1], ![0, 0]] }⟩ 100 fuel = .ok q ∧
    ∃ x plan, emd chebyshev p q fuel = .ok (x, plan) ∧ 0 ≤ x ∧ x ≤ 4 * 1 * mergeWidth [] (1 / 10000) + emdTol n (1 * C) := by
  obtain ⟨n, C, hC0, hC⟩ := C100_within [] (1 / 10000) 100 (plainCrystals ++ backwardCrystals)
  have hr := backward_reordered
  exact ⟨n, C, C110_pdd (List.forall₂_cons.1 hr).1 (plainCrystals_valid _ (by simp [plainCrystals])) (C96_metrics (env := orderEnv) scipy_names _).2.2 hC0 (hC _ (by simp [plainCrystals]))
    (hC _ (by simp [backwardCrystals]))⟩

/-- By PDD with the default options. -/
example : ∃ (n : ℕ) (C : ℝ) (M N : List (List ℝ)) (f g : ℕ → ℕ → ℝ) (F : ℕ), IsMatrix 2 2 f M ∧ IsMatrix 2 2 g N ∧ (∀ fuel ≥ F,
      compare orderEnv (.many (plainCrystals.map .pset)) none { by_ := "PDD" } [] fuel = .ok (.matrix ["a", "c"] ["a", "c"] M) ∧
      compare orderEnv (.many (backwardCrystals.map .pset)) none { by_ := "PDD" } [] fuel = .ok (.matrix ["a", "c"] ["a", "c"] N)) ∧
    ∀ i < 2, ∀ j < 2, |g i j - f i j| ≤ 8 * 1 * mergeWidth [] (1 / 10000) + 2 * emdTol n (1 * C) := by
  obtain ⟨n, C, hC0, hC⟩ := C100_within [] (1 / 10000) 100 (plainCrystals ++ backwardCrystals)
  exact ⟨n, C, C110_one (args := { by_ := "PDD" }) (env := orderEnv) (kwargs := []) exampleEnv_sound.sched plainCrystals_valid backward_reordered (by rfl) rfl (metric := .named "chebyshev")
    ⟨rfl, rfl, ⟨none, rfl⟩, ⟨_, rfl⟩⟩ (C96_metrics (env := orderEnv) scipy_names _).2.2 (inp := .many (plainCrystals.map .pset)) (jnp := .many (backwardCrystals.map .pset)) rfl rfl
    (by simp [plainCrystals]) hC0 hC⟩

/-- Without collapsing, two collections, the Euclidean metric. -/
example : ∃ (n : ℕ) (C : ℝ) (M N : List (List ℝ)) (f g : ℕ → ℕ → ℝ) (F : ℕ), IsMatrix 2 2 f M ∧ IsMatrix 2 2 g N ∧ (∀ fuel ≥ F,
      compare orderEnv (.many (plainCrystals.map .pset)) (some (.many (plainCrystals.map .pset))) { by_ := "PDD" } [("collapse", .bool false), ("metric", .str "euclidean")] fuel =
        .ok (.matrix ["a", "c"] ["a", "c"] M) ∧
      compare orderEnv (.many (backwardCrystals.map .pset)) (some (.many (backwardCrystals.map .pset))) { by_ := "PDD" } [("collapse", .bool false), ("metric", .str "euclidean")] fuel =
        .ok (.matrix ["a", "c"] ["a", "c"] N)) ∧
    ∀ i < 2, ∀ j < 2, |g i j - f i j| ≤ 2 * emdTol n (√(100 : ℕ) * C) := by
  obtain ⟨n, C, hC0, hC⟩ := C100_within [("collapse", .bool false), ("metric", .str "euclidean")] (1 / 10000) 100 ((plainCrystals ++ plainCrystals) ++ (backwardCrystals ++ backwardCrystals))
  obtain ⟨M, N, f, g, F, h1, h2, h3, h4⟩ := C110_two (args := { by_ := "PDD" }) (env := orderEnv) (kwargs := [("collapse", .bool false), ("metric", .str "euclidean")]) exampleEnv_sound.sched
    plainCrystals_valid plainCrystals_valid backward_reordered backward_reordered (by rfl) rfl (metric := .named "euclidean")
    ⟨rfl, rfl, ⟨none, rfl⟩, ⟨_, rfl⟩⟩ (C96_metrics (env := orderEnv) scipy_names _).1 (inp := .many (plainCrystals.map .pset)) (jnp := .many (backwardCrystals.map .pset))
    (inp' := .many (plainCrystals.map .pset)) (jnp' := .many (backwardCrystals.map .pset)) rfl rfl rfl rfl (by simp [plainCrystals]) hC0 hC
  refine ⟨n, C, M, N, f, g, F, h1, h2, h3, fun i hi j hj => (h4 i hi j hj).trans (le_of_eq ?_)⟩
  rw [mergeWidth, if_neg (by decide), mul_zero, zero_add]

end Amd
