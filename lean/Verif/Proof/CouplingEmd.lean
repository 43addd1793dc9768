import Verif.Proof.Coupling
import Verif.Proof.EmdProps

/-! Helper lemmas: a plan between motifs bounds the distance of PDDs and the difference of AMDs. -/

namespace Amd

/-- The PDD with one row for each motif point. -/
noncomputable def fullRows {m : ℕ} (R : Fin m → List ℝ) : List (PRow ℝ) := List.ofFn fun i => ⟨1 / (m : ℝ), R i, []⟩

theorem fullRows_length {m : ℕ} (R : Fin m → List ℝ) : m = (fullRows R).length := by simp [fullRows]

theorem fullRows_get {m : ℕ} (R : Fin m → List ℝ) (i : Fin m) : (fullRows R)[finCongr (fullRows_length R) i] = ⟨1 / (m : ℝ), R i, []⟩ := by
  simp [fullRows]
  rfl

theorem fullRows_weighted {m : ℕ} {R : Fin m → List ℝ} {k : ℕ} (hm : 0 < m) (hl : m ≤ 100000000) (hR : ∀ i, (R i).length = k) : WeightedRows k (fullRows R) := by
  have hmR : (0 : ℝ) < m := by exact_mod_cast hm
  have hmem : ∀ r ∈ fullRows R, ∃ i, r = ⟨1 / (m : ℝ), R i, []⟩ := by
    intro r hr
    rw [fullRows, List.mem_ofFn] at hr
    obtain ⟨i, rfl⟩ := hr
    exact ⟨i, rfl⟩
  refine ⟨fun h => ?_, fun r hr => ?_, fun r hr => ?_, ?_⟩
  · have := fullRows_length R
    rw [h, List.length_nil] at this
    omega
  · obtain ⟨i, rfl⟩ := hmem r hr
    exact hR i
  · obtain ⟨i, rfl⟩ := hmem r hr
    exact one_div_le_one_div_of_le hmR (by exact_mod_cast hl)
  · rw [fullRows, List.map_ofFn, List.sum_ofFn]
    simp only [Function.comp_apply, Finset.sum_const, Finset.card_univ, Fintype.card_fin, nsmul_eq_mul]
    field_simp

theorem fullRows_weightAt {m : ℕ} (R : Fin m → List ℝ) (x : List ℝ) :
    weightAt (fullRows R) x = (∑ i, (open Classical in if R i = x then (1 : ℝ) else 0)) / m := by
  classical
  rw [weightAt_eq, ← Equiv.sum_comp (finCongr (fullRows_length R)), Finset.sum_div]
  refine Finset.sum_congr rfl fun i _ => ?_
  rw [fullRows_get]
  show (if R i = x then 1 / (m : ℝ) else 0) = _
  split_ifs <;> simp

/-- PDDs whose rows have the weights of the rows `R` and `R'` of motif points are as close as the rows that a plan pairs. -/
theorem exactEmd_of_plan {m m' k : ℕ} {R : Fin m → List ℝ} {R' : Fin m' → List ℝ} (hm : 0 < m) (hm' : 0 < m') (hl : m ≤ 100000000) (hl' : m' ≤ 100000000)
    (hR : ∀ i, (R i).length = k) (hR' : ∀ j, (R' j).length = k) {g : Fin m → Fin m' → ℝ} (hg : IsPlan (fun _ => 1 / (m : ℝ)) (fun _ => 1 / (m' : ℝ)) g) {δ : ℝ} (hδ : 0 ≤ δ)
    (hc : ∀ i j, g i j ≠ 0 → ∀ t < k, |(R i).getD t 0 - (R' j).getD t 0| ≤ δ) {p p' : List (PRow ℝ)} (hp : WeightedRows k p) (hp' : WeightedRows k p')
    (hw : ∀ x, weightAt p x = (∑ i, (open Classical in if R i = x then (1 : ℝ) else 0)) / m)
    (hw' : ∀ x, weightAt p' x = (∑ i, (open Classical in if R' i = x then (1 : ℝ) else 0)) / m') : exactEmd chebyshev p p' ≤ δ := by
  have hq := fullRows_weighted hm hl hR
  have hq' := fullRows_weighted hm' hl' hR'
  have M := chebyshev_metric k
  rw [exactEmd_congr M hp hq hp' fun x => by rw [hw, fullRows_weightAt], ← exactEmd_symm M hq hp',
    exactEmd_congr M hp' hq' hq fun x => by rw [hw', fullRows_weightAt], exactEmd_symm M hq hq']
  let e := finCongr (fullRows_length R)
  let e' := finCongr (fullRows_length R')
  have hplan : IsPlan (fun i : Fin (fullRows R).length => (fullRows R)[i].weight) (fun j : Fin (fullRows R').length => (fullRows R')[j].weight)
      (fun i j => g (e.symm i) (e'.symm j)) := by
    refine ⟨fun i j => hg.nonneg _ _, fun i => ?_, fun j => ?_⟩
    · obtain ⟨i, rfl⟩ := e.surjective i
      rw [Equiv.symm_apply_apply, Equiv.sum_comp e'.symm, hg.rows, fullRows_get]
    · obtain ⟨j, rfl⟩ := e'.surjective j
      rw [Equiv.symm_apply_apply, Equiv.sum_comp e.symm fun i => g i j, hg.cols, fullRows_get]
  refine (wasserstein_le (fun i j => M.nonneg _ _ (hq.len i) (hq'.len j)) hplan).trans ?_
  unfold planCost
  rw [← Equiv.sum_comp e]
  have : ∀ i, ∑ j : Fin (fullRows R').length, g (e.symm (e i)) (e'.symm j) * chebyshev (fullRows R)[e i].dists (fullRows R')[j].dists ≤ ∑ j, g i j * δ := by
    intro i
    rw [← Equiv.sum_comp e']
    refine Finset.sum_le_sum fun j _ => ?_
    rw [Equiv.symm_apply_apply, Equiv.symm_apply_apply, fullRows_get, fullRows_get]
    by_cases h0 : g i j = 0
    · rw [h0, zero_mul, zero_mul]
    · refine mul_le_mul_of_nonneg_left ?_ (hg.nonneg i j)
      refine (chebyshev_le_iff ((hR i).trans (hR' j).symm)).2 ⟨hδ, fun t ht => hc i j h0 t ?_⟩
      rw [hR i] at ht
      exact ht
  refine (Finset.sum_le_sum fun i _ => this i).trans ?_
  simp only [← Finset.sum_mul, hg.rows, Finset.sum_const, Finset.card_univ, Fintype.card_fin, nsmul_eq_mul]
  have hmR : (m : ℝ) ≠ 0 := by exact_mod_cast hm.ne'
  rw [mul_one_div, div_self hmR, one_mul]

/-- Means over the motifs are as close as the values that a plan pairs. -/
theorem mean_of_plan {m m' : ℕ} {x : Fin m → ℝ} {y : Fin m' → ℝ} {g : Fin m → Fin m' → ℝ} (hm : 0 < m)
    (hg : IsPlan (fun _ => 1 / (m : ℝ)) (fun _ => 1 / (m' : ℝ)) g) {δ : ℝ} (hc : ∀ i j, g i j ≠ 0 → |x i - y j| ≤ δ) : |(∑ i, x i) / m - (∑ j, y j) / m'| ≤ δ := by
  have hmR : (m : ℝ) ≠ 0 := by exact_mod_cast hm.ne'
  have e1 : (∑ i, x i) / m = ∑ i, ∑ j, g i j * x i := by
    rw [Finset.sum_div]
    refine Finset.sum_congr rfl fun i _ => ?_
    rw [← Finset.sum_mul, hg.rows]
    ring
  have e2 : (∑ j, y j) / m' = ∑ i, ∑ j, g i j * y j := by
    rw [Finset.sum_comm, Finset.sum_div]
    refine Finset.sum_congr rfl fun j _ => ?_
    rw [← Finset.sum_mul, hg.cols]
    ring
  rw [e1, e2, ← Finset.sum_sub_distrib]
  refine (Finset.abs_sum_le_sum_abs _ _).trans ?_
  have : ∀ i, |∑ j, g i j * x i - ∑ j, g i j * y j| ≤ ∑ j, g i j * δ := by
    intro i
    rw [← Finset.sum_sub_distrib]
    refine (Finset.abs_sum_le_sum_abs _ _).trans (Finset.sum_le_sum fun j _ => ?_)
    rw [← mul_sub, abs_mul, abs_of_nonneg (hg.nonneg i j)]
    by_cases h0 : g i j = 0
    · rw [h0, zero_mul, zero_mul]
    · exact mul_le_mul_of_nonneg_left (hc i j h0) (hg.nonneg i j)
  refine (Finset.sum_le_sum fun i _ => this i).trans ?_
  simp only [← Finset.sum_mul, hg.rows, Finset.sum_const, Finset.card_univ, Fintype.card_fin, nsmul_eq_mul]
  rw [mul_one_div, div_self hmR, one_mul]

end Amd
