import Verif.Proof.Compared

/-! The nearest crystals, for any notion of a description of a crystal. -/

namespace Amd

open Classical

/-- If something that may be listed in row `i` is at distance at most `x`, so is the first item of the row. -/
theorem IsNearestTable.first {n : ℕ} {names names_ : List String} {cand : ℕ → ℕ → Prop} {d : ℕ → ℕ → ℝ} {f : Frame} (h : IsNearestTable n names names_ cand d f) (hn : 0 < n)
    {i j : ℕ} (hi : i < names.length) (hj : cand i j) : ∃ j', cand i j' ∧ d i j' ≤ d i j ∧ FirstDist f i (d i j') := by
  obtain ⟨cols, idx, rfl, hl, hnear, hcols⟩ := h
  obtain ⟨h1, -, h3, h4, h5⟩ := hnear i hi
  have hx : 0 < (idx i).length := by omega
  refine ⟨(idx i).getD 0 0, ?_, ?_, names, cols, _, rfl, hcols 0 hn, by simp [hi]⟩
  · rw [List.getD_eq_getElem _ _ hx]
    exact h3 _ (List.getElem_mem hx)
  · rw [List.getD_eq_getElem _ _ hx]
    by_cases hm : j ∈ idx i
    · obtain ⟨t, ht, rfl⟩ := List.getElem_of_mem hm
      rcases Nat.eq_zero_or_pos t with rfl | h0
      · exact le_rfl
      · have := List.pairwise_iff_getElem.1 h4 0 t (by simpa using hx) (by simpa using ht) h0
        simpa using this
    · exact h5 j hj hm _ (List.getElem_mem hx)

variable {δ : Type} {N : Notion δ} {env : Env} {kwargs : Kwargs} {args : CompareArgs} {inp inp' : Input} {ds ds' : List δ} {cs cs' : List Crystal}

theorem Notion.Lawful.near_amd_one (hN : N.Lawful) (hs : env.Sound) (hby : upper args.by_ = "AMD") {n : ℕ} (hnn : args.nNeighbors = some n) (hn0 : 0 < n) (hnl : n < ds.length)
    (hm : kwOr kwargs "metric" (.str "chebyshev") = .str "chebyshev") (hi : N.Gives env args kwargs inp ds cs) (he : ∀ e ∈ ds, N.Proper e) :
    ∃ (d : ℕ → ℕ → ℝ) (f : Frame) (F : ℕ), IsNearestTable n (ds.map N.name) (ds.map N.name) (fun i j => j < ds.length ∧ j ≠ i) d f ∧
      (∀ fuel ≥ F, compare env inp none args kwargs fuel = .ok f) ∧ (∀ i < ds.length, ∀ j < ds.length, 0 ≤ d i j) ∧
      ∀ i j (hi : i < ds.length) (hj : j < ds.length), N.Good args.k ds[i] → N.Good args.k ds[j] → N.RightAmd args.k ds[i] ds[j] (d i j) := by
  obtain ⟨e1, e2, e3⟩ := hN.facts he hi.reads
  have hc0 : cs ≠ [] := List.ne_nil_of_length_pos (by omega)
  obtain ⟨a, f, F, hM, hF⟩ := C38_amd hs e3 hby hnn hn0 (by omega) hm (hi.some hc0)
  rw [e1, e2] at hM
  have hr := List.forall₂_iff_get.1 hi.reads
  refine ⟨_, f, F, hM, fun fuel hf => (hF fuel hf).2, fun i _ j _ => ?_, fun i j hi hj hg hg' => ?_⟩
  · exact (foldr_max_le _).1 le_rfl |>.1
  · obtain ⟨ha, -⟩ := hF F le_rfl
    exact hN.rightAmd (hr.2 i hi (by omega)) (hr.2 j hj (by omega)) hg hg' (ha i (by omega)) (ha j (by omega))

theorem Notion.Lawful.near_amd_two (hN : N.Lawful) (hs : env.Sound) (hby : upper args.by_ = "AMD") {n : ℕ} (hnn : args.nNeighbors = some n) (hn0 : 0 < n) (hnl : n ≤ ds'.length)
    (hm : kwOr kwargs "metric" (.str "chebyshev") = .str "chebyshev") (hi : N.Gives env args kwargs inp ds cs) (hi' : N.Gives env args kwargs inp' ds' cs')
    (he : ∀ e ∈ ds, N.Proper e) (he' : ∀ e ∈ ds', N.Proper e) (hne : ds ≠ []) :
    ∃ (d : ℕ → ℕ → ℝ) (f : Frame) (F : ℕ), IsNearestTable n (ds.map N.name) (ds'.map N.name) (fun _ j => j < ds'.length) d f ∧
      (∀ fuel ≥ F, compare env inp (some inp') args kwargs fuel = .ok f) ∧ (∀ i < ds.length, ∀ j < ds'.length, 0 ≤ d i j) ∧
      ∀ i j (hi : i < ds.length) (hj : j < ds'.length), N.Good args.k ds[i] → N.Good args.k ds'[j] → N.RightAmd args.k ds[i] ds'[j] (d i j) := by
  obtain ⟨e1, e2, e3⟩ := hN.facts he hi.reads
  obtain ⟨e1', e2', e3'⟩ := hN.facts he' hi'.reads
  have hc0 : cs ≠ [] := fun h0 => hne (List.length_eq_zero_iff.1 (by rw [← e1, h0]; rfl))
  have hc0' : cs' ≠ [] := List.ne_nil_of_length_pos (by omega)
  obtain ⟨a, b, f, F, hM, hF⟩ := C38_amd_two hs e3 e3' hby hnn hn0 (by omega) hm (hi.some hc0) (hi'.some hc0')
  rw [e1', e2, e2'] at hM
  have hr := List.forall₂_iff_get.1 hi.reads
  have hr' := List.forall₂_iff_get.1 hi'.reads
  refine ⟨_, f, F, hM, fun fuel hf => (hF fuel hf).2.2, fun i _ j _ => ?_, fun i j hi hj hg hg' => ?_⟩
  · exact (foldr_max_le _).1 le_rfl |>.1
  · obtain ⟨ha, hb, -⟩ := hF F le_rfl
    exact hN.rightAmd (hr.2 i hi (by omega)) (hr'.2 j hj (by omega)) hg hg' (ha i (by omega)) (hb j (by omega))

/-- The PDDs of valid crystals are weighted rows. -/
theorem pddOf_weighted (hv : ∀ c ∈ cs, c.Valid) {tol : ℝ} {k F : ℕ} {p : ℕ → List (PRow ℝ)}
    (h : ∀ fuel ≥ F, ∀ i (hi : i < cs.length), pddOf kwargs tol cs[i] k fuel = .ok (p i)) : ∀ i < cs.length, WeightedRows k (p i) := by
  intro i hi
  obtain ⟨q, G, h1, h2, h3⟩ := pdds_all hv k (kwOr kwargs "lexsort" (.bool true)).truthy (kwOr kwargs "collapse" (.bool true)).truthy tol
  have e := (h3 (max F G) (le_max_right _ _)).2 i hi
  have e' := h (max F G) (le_max_left _ _) i hi
  rw [pddOf, e, Except.ok.injEq, List.getD_eq_getElem _ _ (by omega)] at e'
  rw [← e']
  exact h2 _ (List.getElem_mem _)

theorem Notion.Lawful.near_pdd_two (hN : N.Lawful) (hs : env.Sound) (hby : upper args.by_ = "PDD") {n : ℕ} (hnn : args.nNeighbors = some n) (hnl : n < ds'.length) {tol : ℝ} (htol : 0 ≤ tol)
    (ho : PddOptions kwargs tol (.named "chebyshev")) (hi : N.Gives env args kwargs inp ds cs) (hi' : N.Gives env args kwargs inp' ds' cs') (he : ∀ e ∈ ds, N.Proper e)
    (he' : ∀ e ∈ ds', N.Proper e) (hne : ds ≠ []) {collapse : Bool} (hcol : (kwOr kwargs "collapse" (.bool true)).truthy = collapse) :
    ∃ (d : ℕ → ℕ → ℝ) (f : Frame) (F : ℕ), IsNearestTable n (ds.map N.name) (ds'.map N.name) (fun _ j => j < ds'.length) d f ∧
      (∀ fuel ≥ F, compare env inp (some inp') args kwargs fuel = .ok f) ∧ (∀ i < ds.length, ∀ j < ds'.length, 0 ≤ d i j) ∧
      ∀ i j (hi : i < ds.length) (hj : j < ds'.length), N.Good args.k ds[i] → N.Good args.k ds'[j] →
        N.RightPdd args.k (N.slack collapse tol args.k ds[i] ds'[j]) ds[i] ds'[j] (d i j) := by
  subst hcol
  obtain ⟨e1, e2, e3⟩ := hN.facts he hi.reads
  obtain ⟨e1', e2', e3'⟩ := hN.facts he' hi'.reads
  have hc0 : cs ≠ [] := fun h0 => hne (List.length_eq_zero_iff.1 (by rw [← e1, h0]; rfl))
  have hc0' : cs' ≠ [] := List.ne_nil_of_length_pos (by omega)
  obtain ⟨p, q, d, f, F, hM, hF⟩ := C38_pdd_two_partial hs e3 e3' hby hnn (by omega) ho (EMD_default_metric args.k).nonneg (hi.some hc0) hc0 (hi'.some hc0')
  rw [e1', e2, e2'] at hM
  have hr := List.forall₂_iff_get.1 hi.reads
  have hr' := List.forall₂_iff_get.1 hi'.reads
  have wp := pddOf_weighted e3 fun fuel hf => (hF fuel hf).1
  have wq := pddOf_weighted e3' fun fuel hf => (hF fuel hf).2.1
  obtain ⟨hp, hq, hx, -⟩ := hF F le_rfl
  refine ⟨d, f, F, hM, fun fuel hf => (hF fuel hf).2.2.2, fun i hi j hj => ?_, fun i j hi hj hg hg' => ?_⟩
  · obtain ⟨plan, hx⟩ := hx i j (by omega) (by omega)
    exact C29_nonneg (wp i (by omega)) (wq j (by omega)) (EMD_default_metric args.k).nonneg hx
  · obtain ⟨plan, hx⟩ := hx i j (by omega) (by omega)
    exact (hN.rightPdd htol (he _ (List.getElem_mem hi)) (he' _ (List.getElem_mem hj)) (hr.2 i hi (by omega)) (hr'.2 j hj (by omega)) hg hg' (hp i (by omega))
      (hq j (by omega)) hx).2

theorem Notion.Lawful.near_pdd_one (hN : N.Lawful) (hs : env.Sound) (hby : upper args.by_ = "PDD") {n : ℕ} (hnn : args.nNeighbors = some n) (hnl : n + 1 < ds.length) {tol : ℝ} (htol : 0 ≤ tol)
    (ho : PddOptions kwargs tol (.named "chebyshev")) (hi : N.Gives env args kwargs inp ds cs) (he : ∀ e ∈ ds, N.Proper e) {collapse : Bool}
    (hcol : (kwOr kwargs "collapse" (.bool true)).truthy = collapse) :
    ∃ (d : ℕ → ℕ → ℝ) (f : Frame) (F : ℕ), IsNearestTable n (ds.map N.name) (ds.map N.name) (fun i j => j < ds.length ∧ j ≠ i) d f ∧
      (∀ fuel ≥ F, compare env inp none args kwargs fuel = .ok f) ∧ (∀ i < ds.length, ∀ j < ds.length, 0 ≤ d i j) ∧
      ∀ i j (hi : i < ds.length) (hj : j < ds.length), i ≠ j → N.Good args.k ds[i] → N.Good args.k ds[j] →
        N.RightPdd args.k (N.slack collapse tol args.k ds[i] ds[j]) ds[i] ds[j] (d i j) := by
  subst hcol
  obtain ⟨e1, e2, e3⟩ := hN.facts he hi.reads
  have hc0 : cs ≠ [] := List.ne_nil_of_length_pos (by omega)
  obtain ⟨p, x, f, F, hM, hF⟩ := C38_pdd_partial hs e3 hby hnn (by omega) ho (EMD_default_metric args.k).nonneg (hi.some hc0)
  rw [e1, e2] at hM
  have hr := List.forall₂_iff_get.1 hi.reads
  have wp := pddOf_weighted e3 fun fuel hf => (hF fuel hf).1
  obtain ⟨hp, hx, -⟩ := hF F le_rfl
  have hx0 : ∀ i j, i < j → j < ds.length → 0 ≤ x i j := fun i j hij hj => by
    obtain ⟨plan, hx⟩ := hx i j hij (by omega)
    exact C29_nonneg (wp i (by omega)) (wp j (by omega)) (EMD_default_metric args.k).nonneg hx
  have lt : ∀ i j (hi : i < ds.length) (hj : j < ds.length), i < j → N.Good args.k ds[i] → N.Good args.k ds[j] →
      N.RightPdd args.k (N.slack (kwOr kwargs "collapse" (.bool true)).truthy tol args.k ds[i] ds[j]) ds[i] ds[j] (x i j) := by
    intro i j hi hj hij hg hg'
    obtain ⟨plan, hx⟩ := hx i j hij (by omega)
    exact (hN.rightPdd htol (he _ (List.getElem_mem hi)) (he _ (List.getElem_mem hj)) (hr.2 i hi (by omega)) (hr.2 j hj (by omega)) hg hg' (hp i (by omega)) (hp j (by omega)) hx).2
  refine ⟨_, f, F, hM, fun fuel hf => (hF fuel hf).2.2, fun i hi j hj => ?_, fun i j hi hj hij hg hg' => ?_⟩
  · split_ifs with hij
    · exact le_rfl
    · exact hx0 _ _ (by omega) (by omega)
  rw [if_neg hij]
  rcases Nat.lt_or_gt_of_ne hij with hij | hij
  · rw [min_eq_left hij.le, max_eq_right hij.le]
    exact lt i j hi hj hij hg hg'
  · rw [min_eq_right hij.le, max_eq_left hij.le, Notion.slack_symm]
    refine hN.rightPdd_of_first (he _ (List.getElem_mem hi)) (he _ (List.getElem_mem hj)) (hx0 j i hij hi) fun p q hp hq => ?_
    rw [exactEmd_symm (EMD_default_metric args.k) (hN.weighted hq) (hN.weighted hp)]
    exact (lt j i hj hi hij hg' hg).1 q p hq hp

end Amd
