import Verif.Proof.MetricOrder
import Verif.Props.MetricOrderExample
import Verif.Props.Matrices
import Verif.Props.Tolerance

/-!
# C107: collapsing rows hardly changes what `compare` returns
-/

namespace Amd

/-- How far two merged rows may be apart by the options in `kwargs`: the tolerance, if it is not negative and rows are collapsed. -/
noncomputable def mergeWidth (kwargs : Kwargs) (tol : ℝ) : ℝ := if (kwOr kwargs "collapse" (.bool true)).truthy then max tol 0 else 0

section

variable {kwargs kwargs' : Kwargs} {tol tol' : ℝ} {k n : ℕ} {C L : ℝ}

theorem mergeWidth_nonneg (kwargs : Kwargs) (tol : ℝ) : 0 ≤ mergeWidth kwargs tol := by
  unfold mergeWidth
  split_ifs
  · exact le_max_right _ _
  · exact le_rfl

/-- The PDD that `compare` finds is near the one without collapsing. -/
theorem pddOf_near_base {c : Crystal} (hv : c.Valid) {d : List ℝ → List ℝ → ℝ} (hd : TameMetric k L d) {fuel : ℕ} {p b : List (PRow ℝ)} (hp : pddOf kwargs tol c k fuel = .ok p)
    (hb : PDD c.set k false false 0 fuel = .ok b) : WeightedRows k b ∧ exactEmd d p b ≤ L * (2 * mergeWidth kwargs tol) := by
  have met := hd.toRowMetric
  have hw := (pddOf_rows hv hp).1
  obtain ⟨hD, _, hl, inds, mult, hu, hne, hpos, hs⟩ := hv
  have hwb := EMD_input_of_PDD hD hu hne hpos hs hl hb
  refine ⟨hwb, ?_⟩
  have plain : ∀ lexsort t, PDD c.set k lexsort false t fuel = .ok p → exactEmd d p b ≤ 0 := by
    intro lexsort t h
    obtain ⟨rows, hr, e⟩ := PDD_rows hD hu hne h
    obtain ⟨rows', hr', e'⟩ := PDD_rows hD hu hne hb
    rw [hr] at hr'
    obtain rfl := Except.ok.inj hr'
    have hperm : p.Perm b := by
      rw [e, e', collapseRows_false, collapseRows_false]
      exact (lexsortRows_perm _ _).trans (lexsortRows_perm _ _).symm
    rw [exactEmd_perm met hw hwb hwb hperm, exactEmd_zero met hwb hwb fun _ => rfl]
  unfold pddOf at hp
  unfold mergeWidth
  cases hc : (kwOr kwargs "collapse" (.bool true)).truthy with
  | false =>
    rw [hc] at hp
    simpa using plain _ _ hp
  | true =>
    rw [hc] at hp
    rw [if_pos rfl]
    rcases lt_or_ge tol 0 with ht | ht
    · rw [max_eq_right ht.le, mul_zero, mul_zero]
      rw [(C106_nothing c.set k _ fuel).1 tol ht] at hp
      exact plain _ _ hp
    · rw [max_eq_left ht]
      have h1 := exactEmd_collapse hD hu hne ht hp hb hw hwb
      have h2 := exactEmd_tame hd hwb hw
      rw [exactEmd_symm met hwb hw]
      exact h2.trans (mul_le_mul_of_nonneg_left h1 hd.const)

/-- Two distances of the same crystals by different options. -/
theorem pdds_options {c c' : Crystal} (hv : c.Valid) (hv' : c'.Valid) {d : List ℝ → List ℝ → ℝ} (hd : TameMetric k L d) (hC0 : 0 ≤ C) (hC : PddWithin kwargs tol k n C c)
    (hC' : PddWithin kwargs tol k n C c') (hG : PddWithin kwargs' tol' k n C c) (hG' : PddWithin kwargs' tol' k n C c') {fuel f f' : ℕ} {p q p' q' : List (PRow ℝ)}
    (hp : pddOf kwargs tol c k fuel = .ok p) (hq : pddOf kwargs tol c' k fuel = .ok q) (hp' : pddOf kwargs' tol' c k fuel = .ok p') (hq' : pddOf kwargs' tol' c' k fuel = .ok q')
    {x x' : ℝ} {plan plan' : List (List ℝ)} (hx : emd d p q f = .ok (x, plan)) (hx' : emd d p' q' f' = .ok (x', plan')) :
    |x - x'| ≤ 4 * L * (mergeWidth kwargs tol + mergeWidth kwargs' tol') + 2 * emdTol n (L * C) := by
  have met := hd.toRowMetric
  have base : ∀ {c : Crystal} {p : List (PRow ℝ)}, c.Valid → pddOf kwargs tol c k fuel = .ok p → ∃ b, PDD c.set k false false 0 fuel = .ok b := by
    intro c p hv hp
    obtain ⟨hD, _, hl, inds, mult, hu, hne, hpos, hs⟩ := hv
    obtain ⟨rows, hr, -⟩ := PDD_rows hD hu hne hp
    exact PDD_ok_of hD hu hne k false false 0 hr
  obtain ⟨b, hb⟩ := base hv hp
  obtain ⟨b', hb'⟩ := base hv' hq
  obtain ⟨wb, n1⟩ := pddOf_near_base hv hd hp hb
  obtain ⟨wb', n2⟩ := pddOf_near_base hv' hd hq hb'
  obtain ⟨-, n3⟩ := pddOf_near_base hv hd hp' hb
  obtain ⟨-, n4⟩ := pddOf_near_base hv' hd hq' hb'
  have wp := (pddOf_rows hv hp).1
  have wq := (pddOf_rows hv' hq).1
  have wp' := (pddOf_rows hv hp').1
  have wq' := (pddOf_rows hv' hq').1
  have e1 := abs_le.1 (pdds_near hv hv' hd hC0 hC hC' hp hq hx).2
  have e2 := abs_le.1 (pdds_near hv hv' hd hC0 hG hG' hp' hq' hx').2
  -- p to q through b and b'
  have t1 := exactEmd_triangle met wp wb wq
  have t2 := exactEmd_triangle met wb wb' wq
  have t3 := exactEmd_triangle met wb wp wb'
  have t4 := exactEmd_triangle met wp wq wb'
  have t1' := exactEmd_triangle met wp' wb wq'
  have t2' := exactEmd_triangle met wb wb' wq'
  have t3' := exactEmd_triangle met wb wp' wb'
  have t4' := exactEmd_triangle met wp' wq' wb'
  have s1 := exactEmd_symm met wp wb
  have s2 := exactEmd_symm met wq wb'
  have s3 := exactEmd_symm met wp' wb
  have s4 := exactEmd_symm met wq' wb'
  rw [abs_le]
  constructor <;> nlinarith

end

section

variable {env : Env} {inp inp' : Input} {args args' : CompareArgs} {kwargs kwargs' : Kwargs} {cs cs' : List Crystal} {tol tol' : ℝ} {n : ℕ} {C : ℝ}

/-- **C107** By PDD with two collections: entries of matrices for different ways of collapsing differ by at most four times the tolerances, up to the rounding of weights. -/
theorem C107_two (hs : env.sched.Complete) (hv : ∀ c ∈ cs, c.Valid) (hv' : ∀ c ∈ cs', c.Valid) (hkk : args'.k = args.k) (hby : upper args.by_ = "PDD") (hby' : upper args'.by_ = "PDD")
    (hn : args.nNeighbors = none) (hn' : args'.nNeighbors = none) {metric : MetricArg ℝ} (ho : PddOptions kwargs tol metric) (ho' : PddOptions kwargs' tol' metric) {L : ℝ}
    (hd : TameMetric args.k L (metric.dist env.other)) (hg : getCrystals env args.csdRefcodes (routeKwargs args.verbose kwargs) inp = .ok cs)
    (hg' : getCrystals env args.csdRefcodes (routeKwargs args.verbose kwargs) inp' = .ok cs') (hp : getCrystals env args'.csdRefcodes (routeKwargs args'.verbose kwargs') inp = .ok cs)
    (hp' : getCrystals env args'.csdRefcodes (routeKwargs args'.verbose kwargs') inp' = .ok cs') (hne : cs ≠ []) (hC0 : 0 ≤ C)
    (hC : ∀ c ∈ cs ++ cs', PddWithin kwargs tol args.k n C c) (hC' : ∀ c ∈ cs ++ cs', PddWithin kwargs' tol' args.k n C c) :
    ∃ (M M' : List (List ℝ)) (f f' : ℕ → ℕ → ℝ) (F : ℕ), IsMatrix cs.length cs'.length f M ∧ IsMatrix cs.length cs'.length f' M' ∧
      (∀ fuel ≥ F, compare env inp (some inp') args kwargs fuel = .ok (.matrix (cs.map Crystal.name) (cs'.map Crystal.name) M) ∧
        compare env inp (some inp') args' kwargs' fuel = .ok (.matrix (cs.map Crystal.name) (cs'.map Crystal.name) M')) ∧
      ∀ i < cs.length, ∀ j < cs'.length, |f i j - f' i j| ≤ 4 * L * (mergeWidth kwargs tol + mergeWidth kwargs' tol') + 2 * emdTol n (L * C) := by
  have met := hd.toRowMetric
  obtain ⟨p, q, d, M, F, hM, h1⟩ := C37_pdd_two hs hv hv' hby hn ho met.nonneg hg hne hg'
  obtain ⟨p', q', d', M', G, hM', h2⟩ := C37_pdd_two hs hv hv' hby' hn' ho' (by rw [hkk]; exact met.nonneg) hp hne hp'
  refine ⟨M, M', d, d', max F G, hM, hM', fun fuel hf => ⟨(h1 fuel (by omega)).2.2.2, (h2 fuel (by omega)).2.2.2⟩, fun i hi j hj => ?_⟩
  obtain ⟨a1, a2, a3, -⟩ := h1 (max F G) (le_max_left _ _)
  obtain ⟨b1, b2, b3, -⟩ := h2 (max F G) (le_max_right _ _)
  rw [hkk] at b1 b2
  obtain ⟨plan, hx⟩ := a3 i j hi hj
  obtain ⟨plan', hx'⟩ := b3 i j hi hj
  exact pdds_options (hv _ (List.getElem_mem hi)) (hv' _ (List.getElem_mem hj)) hd hC0 (hC _ (List.mem_append_left _ (List.getElem_mem hi)))
    (hC _ (List.mem_append_right _ (List.getElem_mem hj))) (hC' _ (List.mem_append_left _ (List.getElem_mem hi))) (hC' _ (List.mem_append_right _ (List.getElem_mem hj)))
    (a1 i hi) (a2 j hj) (b1 i hi) (b2 j hj) hx hx'

/-- **C107** The same for one collection. -/
theorem C107_one (hs : env.sched.Complete) (hv : ∀ c ∈ cs, c.Valid) (hkk : args'.k = args.k) (hby : upper args.by_ = "PDD") (hby' : upper args'.by_ = "PDD")
    (hn : args.nNeighbors = none) (hn' : args'.nNeighbors = none) {metric : MetricArg ℝ} (ho : PddOptions kwargs tol metric) (ho' : PddOptions kwargs' tol' metric) {L : ℝ}
    (hd : TameMetric args.k L (metric.dist env.other)) (hg : getCrystals env args.csdRefcodes (routeKwargs args.verbose kwargs) inp = .ok cs)
    (hp : getCrystals env args'.csdRefcodes (routeKwargs args'.verbose kwargs') inp = .ok cs) (hne : cs ≠ []) (hC0 : 0 ≤ C)
    (hC : ∀ c ∈ cs, PddWithin kwargs tol args.k n C c) (hC' : ∀ c ∈ cs, PddWithin kwargs' tol' args.k n C c) :
    ∃ (M M' : List (List ℝ)) (f f' : ℕ → ℕ → ℝ) (F : ℕ), IsMatrix cs.length cs.length f M ∧ IsMatrix cs.length cs.length f' M' ∧
      (∀ fuel ≥ F, compare env inp none args kwargs fuel = .ok (.matrix (cs.map Crystal.name) (cs.map Crystal.name) M) ∧
        compare env inp none args' kwargs' fuel = .ok (.matrix (cs.map Crystal.name) (cs.map Crystal.name) M')) ∧
      ∀ i < cs.length, ∀ j < cs.length, |f i j - f' i j| ≤ 4 * L * (mergeWidth kwargs tol + mergeWidth kwargs' tol') + 2 * emdTol n (L * C) := by
  have met := hd.toRowMetric
  obtain ⟨p, d, M, F, hM, h1⟩ := C37_pdd hs hv hby hn ho met.nonneg hg hne
  obtain ⟨p', d', M', G, hM', h2⟩ := C37_pdd hs hv hby' hn' ho' (by rw [hkk]; exact met.nonneg) hp hne
  refine ⟨M, M', _, _, max F G, hM, hM', fun fuel hf => ⟨(h1 fuel (by omega)).2.2, (h2 fuel (by omega)).2.2⟩, fun i hi j hj => ?_⟩
  obtain ⟨a1, a3, -⟩ := h1 (max F G) (le_max_left _ _)
  obtain ⟨b1, b3, -⟩ := h2 (max F G) (le_max_right _ _)
  rw [hkk] at b1
  have lt : ∀ i j, i < j → j < cs.length → |d i j - d' i j| ≤ 4 * L * (mergeWidth kwargs tol + mergeWidth kwargs' tol') + 2 * emdTol n (L * C) := by
    intro i j hij hj
    have hi : i < cs.length := by omega
    obtain ⟨plan, hx⟩ := a3 i j hij hj
    obtain ⟨plan', hx'⟩ := b3 i j hij hj
    exact pdds_options (hv _ (List.getElem_mem hi)) (hv _ (List.getElem_mem hj)) hd hC0 (hC _ (List.getElem_mem hi)) (hC _ (List.getElem_mem hj)) (hC' _ (List.getElem_mem hi))
      (hC' _ (List.getElem_mem hj)) (a1 i hi) (a1 j hj) (b1 i hi) (b1 j hj) hx hx'
  rcases lt_trichotomy i j with hij | rfl | hij
  · simp only [if_neg hij.ne, min_eq_left hij.le, max_eq_right hij.le]
    exact lt i j hij hj
  · simp only [if_true, sub_zero, abs_zero]
    have h1 := mergeWidth_nonneg kwargs tol
    have h2 := mergeWidth_nonneg kwargs' tol'
    have h3 := hd.const
    have h4 : 0 ≤ emdTol n (L * C) := by unfold emdTol; positivity
    positivity
  · simp only [if_neg hij.ne', min_eq_right hij.le, max_eq_left hij.le]
    exact lt j i hij hi

end

/-! ### The hypotheses can be met -/

theorem PddWithin.mono {kwargs : Kwargs} {tol : ℝ} {k n n' : ℕ} {C C' : ℝ} {c : Crystal} (h : PddWithin kwargs tol k n C c) (hn : n ≤ n') (hC : C ≤ C') : PddWithin kwargs tol k n' C' c :=
  fun fuel p hp => ⟨(h fuel p hp).1.trans hn, fun r hr x hx => ((h fuel p hp).2 r hr x hx).trans hC⟩

/-- Three crystals with the default tolerance and without collapsing, by the default metric. -/
example : ∃ (n : ℕ) (C : ℝ) (M M' : List (List ℝ)) (f f' : ℕ → ℕ → ℝ) (F : ℕ), IsMatrix 3 3 f M ∧ IsMatrix 3 3 f' M' ∧
    (∀ fuel ≥ F, compare orderEnv (.one (.str "data.cif")) none { by_ := "PDD" } [] fuel = .ok (.matrix ["a", "b", "c"] ["a", "b", "c"] M) ∧
      compare orderEnv (.one (.str "data.cif")) none { by_ := "PDD" } [("collapse", .bool false)] fuel = .ok (.matrix ["a", "b", "c"] ["a", "b", "c"] M')) ∧
    ∀ i < 3, ∀ j < 3, |f i j - f' i j| ≤ 4 / 10000 + 2 * emdTol n (1 * C) := by
  obtain ⟨n, C, hC0, hC⟩ := C100_within [] (1 / 10000) 100 exampleCrystals
  obtain ⟨n', C', hC0', hC'⟩ := C100_within [("collapse", .bool false)] (1 / 10000) 100 exampleCrystals
  obtain ⟨M, M', f, f', F, h1, h2, h3, h4⟩ := C107_one (args := { by_ := "PDD" }) (args' := { by_ := "PDD" }) (env := orderEnv) (kwargs := []) (kwargs' := [("collapse", .bool false)]) exampleEnv_sound.sched
    exampleCrystals_valid rfl (by rfl) (by rfl) rfl rfl (metric := .named "chebyshev") ⟨rfl, rfl, ⟨none, rfl⟩, ⟨_, rfl⟩⟩ ⟨rfl, rfl, ⟨none, rfl⟩, ⟨_, rfl⟩⟩
    (C96_metrics (env := orderEnv) scipy_names _).2.2 (order_inputs _) (order_inputs _) (by simp [exampleCrystals]) (C := max C C') (n := max n n') (hC0.trans (le_max_left _ _))
    (fun c hc => (hC c hc).mono (le_max_left _ _) (le_max_left _ _)) fun c hc => (hC' c hc).mono (le_max_right _ _) (le_max_right _ _)
  refine ⟨max n n', max C C', M, M', f, f', F, h1, h2, h3, fun i hi j hj => (h4 i hi j hj).trans (le_of_eq ?_)⟩
  have e1 : mergeWidth [] (1 / 10000) = 1 / 10000 := by
    rw [mergeWidth, if_pos (by rfl)]
    norm_num
  have e2 : mergeWidth [("collapse", .bool false)] (1 / 10000) = 0 := by rw [mergeWidth, if_neg (by decide)]
  rw [e1, e2]
  norm_num

/-- Two collections with the tolerances 1/100 and -1, which collapses nothing, by the Euclidean metric. -/
example : ∃ (n : ℕ) (C : ℝ) (M M' : List (List ℝ)) (f f' : ℕ → ℕ → ℝ) (F : ℕ), IsMatrix 3 3 f M ∧ IsMatrix 3 3 f' M' ∧
    (∀ fuel ≥ F, compare orderEnv (.one (.str "data.cif")) (some (.one (.str "data.cif"))) { by_ := "PDD" } [("collapse_tol", .float (1 / 100)), ("metric", .str "euclidean")] fuel =
        .ok (.matrix ["a", "b", "c"] ["a", "b", "c"] M) ∧
      compare orderEnv (.one (.str "data.cif")) (some (.one (.str "data.cif"))) { by_ := "PDD" } [("collapse_tol", .float (-1)), ("metric", .str "euclidean")] fuel =
        .ok (.matrix ["a", "b", "c"] ["a", "b", "c"] M')) ∧
    ∀ i < 3, ∀ j < 3, |f i j - f' i j| ≤ 4 * √(100 : ℕ) * (1 / 100) + 2 * emdTol n (√(100 : ℕ) * C) := by
  obtain ⟨n, C, hC0, hC⟩ := C100_within [("collapse_tol", .float (1 / 100)), ("metric", .str "euclidean")] (1 / 100) 100 (exampleCrystals ++ exampleCrystals)
  obtain ⟨n', C', hC0', hC'⟩ := C100_within [("collapse_tol", .float (-1)), ("metric", .str "euclidean")] (-1) 100 (exampleCrystals ++ exampleCrystals)
  obtain ⟨M, M', f, f', F, h1, h2, h3, h4⟩ := C107_two (args := { by_ := "PDD" }) (args' := { by_ := "PDD" }) (env := orderEnv)
    (kwargs := [("collapse_tol", .float (1 / 100)), ("metric", .str "euclidean")]) (kwargs' := [("collapse_tol", .float (-1)), ("metric", .str "euclidean")]) exampleEnv_sound.sched
    exampleCrystals_valid exampleCrystals_valid rfl (by rfl) (by rfl) rfl rfl (metric := .named "euclidean") (tol := 1 / 100) (tol' := -1) ⟨rfl, rfl, ⟨none, rfl⟩, ⟨_, rfl⟩⟩
    ⟨rfl, rfl, ⟨none, rfl⟩, ⟨_, rfl⟩⟩ (C96_metrics (env := orderEnv) scipy_names _).1 (order_inputs _) (order_inputs _) (order_inputs _) (order_inputs _) (by simp [exampleCrystals])
    (C := max C C') (n := max n n') (hC0.trans (le_max_left _ _)) (fun c hc => (hC c hc).mono (le_max_left _ _) (le_max_left _ _)) fun c hc => (hC' c hc).mono (le_max_right _ _) (le_max_right _ _)
  refine ⟨max n n', max C C', M, M', f, f', F, h1, h2, h3, fun i hi j hj => (h4 i hi j hj).trans (le_of_eq ?_)⟩
  have e1 : mergeWidth [("collapse_tol", .float (1 / 100)), ("metric", .str "euclidean")] (1 / 100) = 1 / 100 := by
    rw [mergeWidth, if_pos (by rfl)]
    norm_num
  have e2 : mergeWidth [("collapse_tol", .float (-1)), ("metric", .str "euclidean")] (-1) = 0 := by
    rw [mergeWidth, if_pos (by rfl)]
    norm_num
  rw [e1, e2, add_zero]

end Amd
