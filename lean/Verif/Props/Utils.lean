import Verif.Model.Utils
import Verif.Spec.Geometry
import Mathlib.Tactic.Linarith
import Mathlib.Tactic.FinCases
import Mathlib.Tactic.FieldSimp

/-! # Cell utilities: C24, C25, C26, C55 -/

namespace Amd

variable {D : ℕ}

theorem sqNorm_comb_le (u v : Pt D ℝ) {t : ℝ} (h1 : -1 ≤ t) (h2 : t ≤ 1) {M : ℝ} (hp : sqNorm (u + v) ≤ M)
    (hm : sqNorm (u - v) ≤ M) : sqNorm (u + t • v) ≤ M := by
  have key : sqNorm (u + t • v) ≤ (1 + t) / 2 * sqNorm (u + v) + (1 - t) / 2 * sqNorm (u - v) := by
    unfold sqNorm
    rw [Finset.mul_sum, Finset.mul_sum, ← Finset.sum_add_distrib]
    apply Finset.sum_le_sum
    intro j _
    simp only [Pi.add_apply, Pi.sub_apply, Pi.smul_apply, smul_eq_mul]
    nlinarith [mul_nonneg (mul_nonneg (by linarith : (0 : ℝ) ≤ 1 + t) (by linarith : (0 : ℝ) ≤ 1 - t)) (sq_nonneg (v j))]
  have : (1 + t) / 2 * sqNorm (u + v) + (1 - t) / 2 * sqNorm (u - v) ≤ (1 + t) / 2 * M + (1 - t) / 2 * M := by
    have a : 0 ≤ (1 + t) / 2 := by linarith
    have b : 0 ≤ (1 - t) / 2 := by linarith
    nlinarith [mul_le_mul_of_nonneg_left hp a, mul_le_mul_of_nonneg_left hm b]
  linarith

theorem sqNorm_neg (u : Pt D ℝ) : sqNorm (-u) = sqNorm u := by
  unfold sqNorm; simp

theorem sqDist_eq_sqNorm (p q : Pt D ℝ) : sqDist p q = sqNorm (p - q) := rfl

/-- Two points whose difference is the combination with the given signs. -/
theorem exists_vertices (cell : Fin D → Pt D ℝ) (ε : Fin D → ℝ) (hε : ∀ i, ε i = 1 ∨ ε i = -1) :
    ∃ p ∈ closedCell cell, ∃ q ∈ closedCell cell, p - q = ∑ i, ε i • cell i := by
  refine ⟨_, ⟨fun i => max (ε i) 0, ?_, rfl⟩, _, ⟨fun i => max (-ε i) 0, ?_, rfl⟩, ?_⟩
  · intro i; rcases hε i with h | h <;> simp [h]
  · intro i; rcases hε i with h | h <;> simp [h]
  · funext j
    simp only [Pi.sub_apply, Finset.sum_apply, Pi.smul_apply, smul_eq_mul, ← Finset.sum_sub_distrib]
    apply Finset.sum_congr rfl
    intro i _
    rcases hε i with h | h <;> rw [h] <;> norm_num

theorem diff_closedCell {cell : Fin D → Pt D ℝ} {p q : Pt D ℝ} (hp : p ∈ closedCell cell) (hq : q ∈ closedCell cell) :
    ∃ t : Fin D → ℝ, (∀ i, -1 ≤ t i ∧ t i ≤ 1) ∧ p - q = ∑ i, t i • cell i := by
  obtain ⟨s, hs, rfl⟩ := hp
  obtain ⟨t, ht, rfl⟩ := hq
  refine ⟨fun i => s i - t i, fun i => ⟨by linarith [(hs i).1, (ht i).2], by linarith [(hs i).2, (ht i).1]⟩, ?_⟩
  funext j
  simp only [Pi.sub_apply, Finset.sum_apply, Pi.smul_apply, smul_eq_mul, ← Finset.sum_sub_distrib]
  apply Finset.sum_congr rfl
  intro i _
  ring

/-- **C24** In two and three dimensions `diameter(cell)` is the largest distance between two points of the closed unit cell. -/
theorem C24_diameter (hD : D = 2 ∨ D = 3) (cell : Fin D → Pt D ℝ) :
    ∃ d, diameter D cell = .ok d ∧
      IsGreatest {r | ∃ p ∈ closedCell cell, ∃ q ∈ closedCell cell, r = eucl p q} d := by
  rcases hD with rfl | rfl
  · refine ⟨_, rfl, ?_, ?_⟩
    · rcases max_choice (sqNorm (cell 0 + cell 1)) (sqNorm (cell 0 - cell 1)) with h | h
      · obtain ⟨p, hp, q, hq, e⟩ := exists_vertices cell ![1, 1] (by intro i; fin_cases i <;> simp)
        refine ⟨p, hp, q, hq, ?_⟩
        rw [h, eucl, sqDist_eq_sqNorm, e]; simp [Fin.sum_univ_two]
      · obtain ⟨p, hp, q, hq, e⟩ := exists_vertices cell ![1, -1] (by intro i; fin_cases i <;> simp)
        refine ⟨p, hp, q, hq, ?_⟩
        rw [h, eucl, sqDist_eq_sqNorm, e]; simp [Fin.sum_univ_two, sub_eq_add_neg]
    · rintro r ⟨p, hp, q, hq, rfl⟩
      obtain ⟨t, ht, e⟩ := diff_closedCell hp hq
      apply Real.sqrt_le_sqrt
      rw [sqDist_eq_sqNorm, e, Fin.sum_univ_two]
      set M := max (sqNorm (cell 0 + cell 1)) (sqNorm (cell 0 - cell 1)) with hM
      have v1 : sqNorm (cell 0 + cell 1) ≤ M := le_max_left _ _
      have v2 : sqNorm (cell 0 - cell 1) ≤ M := le_max_right _ _
      apply sqNorm_comb_le _ _ (ht 1).1 (ht 1).2
      · rw [add_comm]
        apply sqNorm_comb_le _ _ (ht 0).1 (ht 0).2
        · rwa [add_comm]
        · rw [← sqNorm_neg, neg_sub]; exact v2
      · rw [sub_eq_add_neg, add_comm]
        apply sqNorm_comb_le _ _ (ht 0).1 (ht 0).2
        · rwa [add_comm, ← sub_eq_add_neg]
        · rw [← sqNorm_neg, show -(-cell 1 - cell 0) = cell 0 + cell 1 by abel]; exact v1
  · refine ⟨_, rfl, ?_, ?_⟩
    · rcases max_choice (max (max (sqNorm (cell 0 + cell 1 + cell 2)) (sqNorm (cell 0 + cell 1 - cell 2)))
        (sqNorm (cell 0 - cell 1 + cell 2))) (sqNorm (-cell 0 + cell 1 + cell 2)) with h | h
      · rw [h]
        rcases max_choice (max (sqNorm (cell 0 + cell 1 + cell 2)) (sqNorm (cell 0 + cell 1 - cell 2)))
          (sqNorm (cell 0 - cell 1 + cell 2)) with h | h
        · rw [h]
          rcases max_choice (sqNorm (cell 0 + cell 1 + cell 2)) (sqNorm (cell 0 + cell 1 - cell 2)) with h | h
          · obtain ⟨p, hp, q, hq, e⟩ := exists_vertices cell ![1, 1, 1] (by intro i; fin_cases i <;> simp)
            refine ⟨p, hp, q, hq, ?_⟩
            rw [h, eucl, sqDist_eq_sqNorm, e]; simp [Fin.sum_univ_three]
          · obtain ⟨p, hp, q, hq, e⟩ := exists_vertices cell ![1, 1, -1] (by intro i; fin_cases i <;> simp)
            refine ⟨p, hp, q, hq, ?_⟩
            rw [h, eucl, sqDist_eq_sqNorm, e]; simp [Fin.sum_univ_three, sub_eq_add_neg]
        · obtain ⟨p, hp, q, hq, e⟩ := exists_vertices cell ![1, -1, 1] (by intro i; fin_cases i <;> simp)
          refine ⟨p, hp, q, hq, ?_⟩
          rw [h, eucl, sqDist_eq_sqNorm, e]; simp [Fin.sum_univ_three, sub_eq_add_neg]
      · obtain ⟨p, hp, q, hq, e⟩ := exists_vertices cell ![-1, 1, 1] (by intro i; fin_cases i <;> simp)
        refine ⟨p, hp, q, hq, ?_⟩
        rw [h, eucl, sqDist_eq_sqNorm, e]; simp [Fin.sum_univ_three]
    · rintro r ⟨p, hp, q, hq, rfl⟩
      obtain ⟨t, ht, e⟩ := diff_closedCell hp hq
      apply Real.sqrt_le_sqrt
      rw [sqDist_eq_sqNorm, e, Fin.sum_univ_three]
      set M := max (max (max (sqNorm (cell 0 + cell 1 + cell 2)) (sqNorm (cell 0 + cell 1 - cell 2)))
        (sqNorm (cell 0 - cell 1 + cell 2))) (sqNorm (-cell 0 + cell 1 + cell 2)) with hM
      have v1 : sqNorm (cell 0 + cell 1 + cell 2) ≤ M := by simp [hM]
      have v2 : sqNorm (cell 0 + cell 1 - cell 2) ≤ M := by simp [hM]
      have v3 : sqNorm (cell 0 - cell 1 + cell 2) ≤ M := by simp [hM]
      have v4 : sqNorm (-cell 0 + cell 1 + cell 2) ≤ M := by simp [hM]
      have v1' : sqNorm (-cell 0 - cell 1 - cell 2) ≤ M := by rw [← sqNorm_neg]; convert v1 using 2; abel
      have v2' : sqNorm (-cell 0 - cell 1 + cell 2) ≤ M := by rw [← sqNorm_neg]; convert v2 using 2; abel
      have v3' : sqNorm (-cell 0 + cell 1 - cell 2) ≤ M := by rw [← sqNorm_neg]; convert v3 using 2; abel
      have v4' : sqNorm (cell 0 - cell 1 - cell 2) ≤ M := by rw [← sqNorm_neg]; convert v4 using 2; abel
      have step0 : ∀ w : Pt 3 ℝ, sqNorm (cell 0 + w) ≤ M → sqNorm (-cell 0 + w) ≤ M → sqNorm (t 0 • cell 0 + w) ≤ M := by
        intro w h h'
        rw [add_comm]
        apply sqNorm_comb_le _ _ (ht 0).1 (ht 0).2
        · rwa [add_comm]
        · rwa [sub_eq_add_neg, add_comm]
      have step1 : ∀ w : Pt 3 ℝ, sqNorm (t 0 • cell 0 + (cell 1 + w)) ≤ M → sqNorm (t 0 • cell 0 + (-cell 1 + w)) ≤ M →
          sqNorm (t 0 • cell 0 + t 1 • cell 1 + w) ≤ M := by
        intro w h h'
        rw [add_right_comm]
        apply sqNorm_comb_le _ _ (ht 1).1 (ht 1).2
        · convert h using 2; abel
        · convert h' using 2; abel
      apply sqNorm_comb_le _ _ (ht 2).1 (ht 2).2
      · apply step1 <;> apply step0
        · convert v1 using 2; abel
        · convert v4 using 2; abel
        · convert v3 using 2; abel
        · convert v2' using 2; abel
      · rw [sub_eq_add_neg]
        apply step1 <;> apply step0
        · convert v2 using 2; abel
        · convert v3' using 2; abel
        · convert v4' using 2; abel
        · convert v1' using 2; abel

/-- A skewed cell in the plane: its diameter is its long diagonal. -/
example : diameter 2 ![![1, 0], ![1, 1]] = .ok √5 := by
  simp only [diameter, sqNorm]
  norm_num [Fin.sum_univ_two]

/-- **C24** In one dimension a cell with negative entry has a negative "diameter". -/
theorem C24_false_1D : diameter 1 ![![-1]] = .ok (-1) := by
  simp [diameter]

/-- **C24** In one dimension it is right for cells with positive entry. -/
theorem C24_diameter_1D_partial (cell : Fin 1 → Pt 1 ℝ) (hc : 0 ≤ cell 0 0) :
    ∃ d, diameter 1 cell = .ok d ∧
      IsGreatest {r | ∃ p ∈ closedCell cell, ∃ q ∈ closedCell cell, r = eucl p q} d := by
  refine ⟨_, rfl, ?_, ?_⟩
  · obtain ⟨p, hp, q, hq, e⟩ := exists_vertices cell ![1] (by intro i; fin_cases i; simp)
    refine ⟨p, hp, q, hq, ?_⟩
    rw [eucl, sqDist_eq_sqNorm, e]
    simp [sqNorm, Real.sqrt_sq hc]
  · rintro r ⟨p, hp, q, hq, rfl⟩
    obtain ⟨t, ht, e⟩ := diff_closedCell hp hq
    rw [eucl, sqDist_eq_sqNorm, e]
    apply Real.sqrt_le_iff.mpr
    refine ⟨hc, ?_⟩
    simp only [sqNorm, Fin.sum_univ_one, Pi.smul_apply, smul_eq_mul]
    have := ht 0
    have h2 : (t 0) ^ 2 ≤ 1 := by nlinarith
    have : (t 0 * cell 0 0) ^ 2 = (t 0) ^ 2 * (cell 0 0) ^ 2 := by ring
    rw [this]
    nlinarith [sq_nonneg (cell 0 0)]

example : ∃ cell : Fin 1 → Pt 1 ℝ, 0 ≤ cell 0 0 ∧ cell 0 0 = 3 := ⟨![![3]], by norm_num, by simp⟩

/-! ### Cell parameters -/

/-- Angles closer to 90 degrees than two units in the last place count as 90. -/
noncomputable def snapAngle (x : ℝ) : ℝ := if |x - 90| < angleEps then 90 else x

theorem angleEps_pos : 0 < angleEps := by unfold angleEps; positivity

theorem angleEps_lt : angleEps < 1 := by
  unfold angleEps
  rw [zpow_neg, ← div_eq_mul_inv, div_lt_one (by positivity)]
  norm_num

theorem snapAngle_mem {x : ℝ} (h : 0 ≤ x ∧ x ≤ 180) : 0 ≤ snapAngle x ∧ snapAngle x ≤ 180 := by
  unfold snapAngle; split_ifs <;> [norm_num; exact h]

theorem cos_deg90 : Real.cos (deg2rad 90) = 0 := by
  unfold deg2rad; rw [show (90 : ℝ) * (Real.pi / 180) = Real.pi / 2 by ring]; exact Real.cos_pi_div_two

theorem sin_deg90 : Real.sin (deg2rad 90) = 1 := by
  unfold deg2rad; rw [show (90 : ℝ) * (Real.pi / 180) = Real.pi / 2 by ring]; exact Real.sin_pi_div_two

theorem snapCos_eq {x : ℝ} (h : 0 ≤ x) : snapCos x = Real.cos (deg2rad (snapAngle x)) := by
  unfold snapCos snapAngle
  rw [abs_of_nonneg h]
  split_ifs <;> simp [cos_deg90]

theorem snapSin_eq {x : ℝ} (h : 0 ≤ x) : snapSin x = Real.sin (deg2rad (snapAngle x)) := by
  unfold snapSin snapAngle
  have : ¬ |x + 90| < angleEps := by
    rw [abs_of_nonneg (by linarith)]
    have := angleEps_lt
    linarith
  split_ifs <;> simp [sin_deg90]

theorem deg2rad_mem {x : ℝ} (h : 0 ≤ x ∧ x ≤ 180) : 0 ≤ deg2rad x ∧ deg2rad x ≤ Real.pi := by
  unfold deg2rad
  have := Real.pi_pos
  constructor
  · exact mul_nonneg h.1 (by positivity)
  · calc x * (Real.pi / 180) ≤ 180 * (Real.pi / 180) := mul_le_mul_of_nonneg_right h.2 (by positivity)
      _ = Real.pi := by ring

theorem rad2deg_deg2rad (x : ℝ) : rad2deg (deg2rad x) = x := by
  unfold rad2deg deg2rad
  have := Real.pi_ne_zero
  field_simp

/-- Non-negative lengths, angles between 0 and 180 degrees. -/
def Cellpar.InRange (p : Cellpar) : Prop :=
  0 < p.a ∧ 0 < p.b ∧ 0 < p.c ∧ (0 ≤ p.al ∧ p.al ≤ 180) ∧ (0 ≤ p.be ∧ p.be ≤ 180) ∧ (0 ≤ p.ga ∧ p.ga ≤ 180)

/-- **C25** The vectors returned by `cellpar_to_cell` have the lengths and angles asked for. -/
theorem C25_cell {p : Cellpar} (hp : p.InRange) {cell : Fin 3 → Pt 3 ℝ} (h : cellparToCell p = .ok cell) :
    HasCellpar cell p.a p.b p.c (snapAngle p.al) (snapAngle p.be) (snapAngle p.ga) := by
  obtain ⟨ha, hb, hc, hal, hbe, hga⟩ := hp
  unfold cellparToCell at h
  simp only at h
  rw [snapCos_eq hal.1, snapCos_eq hbe.1, snapCos_eq hga.1, snapSin_eq hga.1] at h
  split_ifs at h with h1 h2
  injection h with h
  subst h
  have hcs := Real.sin_sq_add_cos_sq (deg2rad (snapAngle p.ga))
  rw [not_lt] at h2
  have hz := Real.sq_sqrt h2
  have hcy : Real.sin (deg2rad (snapAngle p.ga)) * ((Real.cos (deg2rad (snapAngle p.al)) -
      Real.cos (deg2rad (snapAngle p.be)) * Real.cos (deg2rad (snapAngle p.ga))) / Real.sin (deg2rad (snapAngle p.ga))) =
      Real.cos (deg2rad (snapAngle p.al)) -
      Real.cos (deg2rad (snapAngle p.be)) * Real.cos (deg2rad (snapAngle p.ga)) := mul_div_cancel₀ _ h1
  have m1 := snapAngle_mem hal
  have m2 := snapAngle_mem hbe
  have m3 := snapAngle_mem hga
  unfold HasCellpar HasLength HasAngle
  set ca := Real.cos (deg2rad (snapAngle p.al)) with hca
  set cb := Real.cos (deg2rad (snapAngle p.be)) with hcb
  set cg := Real.cos (deg2rad (snapAngle p.ga)) with hcg
  set sg := Real.sin (deg2rad (snapAngle p.ga)) with hsg
  set cy := (ca - cb * cg) / sg with hcyd
  set cz := √(1 - cb ^ 2 - cy ^ 2) with hczd
  have e1 : Real.cos (snapAngle p.al * (Real.pi / 180)) = ca := rfl
  have e2 : Real.cos (snapAngle p.be * (Real.pi / 180)) = cb := rfl
  have e3 : Real.cos (snapAngle p.ga * (Real.pi / 180)) = cg := rfl
  rw [e1, e2, e3]
  refine ⟨⟨ha.le, ?_⟩, ⟨hb.le, ?_⟩, ⟨hc.le, ?_⟩, ⟨m1.1, m1.2, ?_⟩, ⟨m2.1, m2.2, ?_⟩, ⟨m3.1, m3.2, ?_⟩⟩
  · simp [Fin.sum_univ_three]
  · simp [Fin.sum_univ_three]; linear_combination p.b ^ 2 * hcs
  · simp [Fin.sum_univ_three]; linear_combination p.c ^ 2 * hz
  · simp [Fin.sum_univ_three]; linear_combination p.b * p.c * hcy
  · simp [Fin.sum_univ_three]; ring
  · simp [Fin.sum_univ_three]; ring

/-- **C25** An angle is only ever replaced by 90 degrees, and only if it is within `2⁻⁴⁵` of it. -/
theorem C25_snap (x : ℝ) : snapAngle x = x ∨ (snapAngle x = 90 ∧ |x - 90| < 2 * 2 ^ (-46 : ℤ)) := by
  unfold snapAngle
  split_ifs with h
  · exact Or.inr ⟨rfl, h⟩
  · exact Or.inl rfl

theorem vnorm_of_hasLength {v : Pt D ℝ} {l : ℝ} (h : HasLength v l) : vnorm v = l := by
  unfold vnorm sqNorm
  rw [h.2, Real.sqrt_sq h.1]

theorem angleOf_of {v w : Pt D ℝ} {l l' θ : ℝ} (hv : HasLength v l) (hw : HasLength w l') (hl : 0 < l) (hl' : 0 < l')
    (h : HasAngle v w l l' θ) : angleOf v w = .ok θ := by
  unfold angleOf
  rw [vnorm_of_hasLength hv, vnorm_of_hasLength hw, if_neg (mul_pos hl hl').ne']
  congr 1
  have e : vdot v w / (l * l') = Real.cos (deg2rad θ) := by
    unfold vdot
    rw [h.2.2, mul_div_cancel_left₀ _ (mul_pos hl hl').ne']
    rfl
  have hm := deg2rad_mem ⟨h.1, h.2.1⟩
  rw [e, Real.arccos_cos hm.1 hm.2, rad2deg_deg2rad]

/-- **C25** `cell_to_cellpar` inverts `cellpar_to_cell`. -/
theorem C25_roundtrip {p : Cellpar} (hp : p.InRange) {cell : Fin 3 → Pt 3 ℝ} (h : cellparToCell p = .ok cell) :
    cellToCellpar cell = .ok ⟨p.a, p.b, p.c, snapAngle p.al, snapAngle p.be, snapAngle p.ga⟩ := by
  obtain ⟨l1, l2, l3, a1, a2, a3⟩ := C25_cell hp h
  obtain ⟨ha, hb, hc, _⟩ := hp
  unfold cellToCellpar
  rw [angleOf_of l2 l3 hb hc a1, angleOf_of l1 l3 ha hc a2, angleOf_of l1 l2 ha hb a3, vnorm_of_hasLength l1,
    vnorm_of_hasLength l2, vnorm_of_hasLength l3]
  rfl

theorem gram_det_nonneg (cell : Fin 3 → Pt 3 ℝ) (a b c x y z : ℝ) (ha : 0 < a) (hb : 0 < b) (hc : 0 < c)
    (h0 : ∑ j, cell 0 j ^ 2 = a ^ 2) (h1 : ∑ j, cell 1 j ^ 2 = b ^ 2) (h2 : ∑ j, cell 2 j ^ 2 = c ^ 2)
    (h12 : ∑ j, cell 1 j * cell 2 j = b * c * x) (h02 : ∑ j, cell 0 j * cell 2 j = a * c * y)
    (h01 : ∑ j, cell 0 j * cell 1 j = a * b * z) : 0 ≤ 1 + 2 * x * y * z - x ^ 2 - y ^ 2 - z ^ 2 := by
  rw [Fin.sum_univ_three] at h0 h1 h2 h12 h02 h01
  have key : a ^ 2 * b ^ 2 * c ^ 2 * (1 + 2 * x * y * z - x ^ 2 - y ^ 2 - z ^ 2) =
      (cell 0 0 * (cell 1 1 * cell 2 2 - cell 1 2 * cell 2 1) - cell 0 1 * (cell 1 0 * cell 2 2 - cell 1 2 * cell 2 0)
        + cell 0 2 * (cell 1 0 * cell 2 1 - cell 1 1 * cell 2 0)) ^ 2 := by
    have : a ^ 2 * b ^ 2 * c ^ 2 * (1 + 2 * x * y * z - x ^ 2 - y ^ 2 - z ^ 2) =
        a ^ 2 * b ^ 2 * c ^ 2 + 2 * (b * c * x) * (a * c * y) * (a * b * z) - a ^ 2 * (b * c * x) ^ 2
          - b ^ 2 * (a * c * y) ^ 2 - c ^ 2 * (a * b * z) ^ 2 := by ring
    rw [this, ← h0, ← h1, ← h2, ← h12, ← h02, ← h01]
    ring
  have hpos : 0 < a ^ 2 * b ^ 2 * c ^ 2 := by positivity
  by_contra hneg
  rw [not_le] at hneg
  have := mul_neg_of_pos_of_neg hpos hneg
  rw [key] at this
  exact absurd this (not_lt.mpr (sq_nonneg _))

theorem sin_pos_of_ne {x : ℝ} (h : 0 ≤ x ∧ x ≤ 180) (h0 : x ≠ 0) (h1 : x ≠ 180) : 0 < Real.sin (deg2rad x) := by
  have hp := Real.pi_pos
  apply Real.sin_pos_of_pos_of_lt_pi
  · exact mul_pos (lt_of_le_of_ne h.1 (Ne.symm h0)) (by positivity)
  · calc x * (Real.pi / 180) < 180 * (Real.pi / 180) := mul_lt_mul_of_pos_right (lt_of_le_of_ne h.2 h1) (by positivity)
      _ = Real.pi := by ring

/-- **C25** `cellpar_to_cell` succeeds exactly if there are vectors with these lengths and angles; otherwise it raises
`ValueError`. -/
theorem C25_exists {p : Cellpar} (hp : p.InRange) (h0 : p.ga ≠ 0) (h1 : p.ga ≠ 180) :
    ((∃ cell, cellparToCell p = .ok cell) ↔
      ∃ cell, HasCellpar cell p.a p.b p.c (snapAngle p.al) (snapAngle p.be) (snapAngle p.ga)) ∧
    ((∀ cell, cellparToCell p ≠ .ok cell) → cellparToCell p = .error .value) := by
  have hs : 0 < Real.sin (deg2rad (snapAngle p.ga)) := by
    apply sin_pos_of_ne (snapAngle_mem hp.2.2.2.2.2) <;> unfold snapAngle <;> split_ifs <;>
      first | assumption | norm_num
  have hga := hp.2.2.2.2.2.1
  constructor
  · constructor
    · rintro ⟨cell, h⟩; exact ⟨cell, C25_cell hp h⟩
    · rintro ⟨cell, l0, l1, l2, a12, a02, a01⟩
      have hg := gram_det_nonneg cell p.a p.b p.c _ _ _ hp.1 hp.2.1 hp.2.2.1 l0.2 l1.2 l2.2 a12.2.2 a02.2.2 a01.2.2
      unfold cellparToCell
      simp only
      rw [snapCos_eq hp.2.2.2.1.1, snapCos_eq hp.2.2.2.2.1.1, snapCos_eq hga, snapSin_eq hga, if_neg hs.ne', if_neg]
      · exact ⟨_, rfl⟩
      · change 0 ≤ 1 + 2 * Real.cos (deg2rad (snapAngle p.al)) * Real.cos (deg2rad (snapAngle p.be)) *
          Real.cos (deg2rad (snapAngle p.ga)) - Real.cos (deg2rad (snapAngle p.al)) ^ 2 -
          Real.cos (deg2rad (snapAngle p.be)) ^ 2 - Real.cos (deg2rad (snapAngle p.ga)) ^ 2 at hg
        have hcs := Real.sin_sq_add_cos_sq (deg2rad (snapAngle p.ga))
        set ca := Real.cos (deg2rad (snapAngle p.al))
        set cb := Real.cos (deg2rad (snapAngle p.be))
        set cg := Real.cos (deg2rad (snapAngle p.ga))
        set sg := Real.sin (deg2rad (snapAngle p.ga))
        rw [not_lt]
        have e : 1 - cb ^ 2 - ((ca - cb * cg) / sg) ^ 2 = (1 + 2 * ca * cb * cg - ca ^ 2 - cb ^ 2 - cg ^ 2) / sg ^ 2 := by
          rw [div_pow, eq_div_iff (by positivity), sub_mul, div_mul_cancel₀ _ (by positivity)]
          linear_combination (1 - cb ^ 2) * hcs
        rw [e]
        positivity
  · intro h
    unfold cellparToCell at h ⊢
    simp only at h ⊢
    rw [snapSin_eq hga] at h ⊢
    rw [if_neg hs.ne'] at h ⊢
    split_ifs at h ⊢ with h2
    · rfl
    · exact absurd rfl (h _)

theorem cos_deg60 : Real.cos (deg2rad 60) = 1 / 2 := by
  unfold deg2rad; rw [show (60 : ℝ) * (Real.pi / 180) = Real.pi / 3 by ring]; exact Real.cos_pi_div_three

theorem sin_deg60 : Real.sin (deg2rad 60) = √3 / 2 := by
  unfold deg2rad; rw [show (60 : ℝ) * (Real.pi / 180) = Real.pi / 3 by ring]; exact Real.sin_pi_div_three

theorem cos_deg120 : Real.cos (deg2rad 120) = -(1 / 2) := by
  unfold deg2rad
  rw [show (120 : ℝ) * (Real.pi / 180) = Real.pi - Real.pi / 3 by ring, Real.cos_pi_sub, Real.cos_pi_div_three]

theorem not_snap {x : ℝ} (h : 1 ≤ |x - 90|) : snapAngle x = x := by
  unfold snapAngle
  rw [if_neg]
  exact not_lt.mpr (angleEps_lt.le.trans h)

/-- **C25** Angles for which the three vectors are coplanar are not rejected: the returned cell has volume zero. -/
theorem C25_false_flat : ∃ cell, cellparToCell ⟨1, 1, 1, 120, 60, 60⟩ = .ok cell ∧ cell 2 2 = 0 := by
  unfold cellparToCell
  simp only
  rw [snapCos_eq (by norm_num), snapCos_eq (by norm_num), snapSin_eq (by norm_num), not_snap (x := 120) (by norm_num),
    not_snap (x := 60) (by rw [abs_of_nonpos] <;> norm_num), cos_deg120, cos_deg60, sin_deg60]
  have h3 : (√3 / 2 : ℝ) ≠ 0 := by positivity
  have e : (1 : ℝ) - (1 / 2) ^ 2 - ((-(1 / 2) - 1 / 2 * (1 / 2)) / (√3 / 2)) ^ 2 = 0 := by
    simp only [div_pow]; rw [Real.sq_sqrt (by norm_num)]; norm_num
  rw [if_neg h3, e, if_neg (lt_irrefl 0)]
  exact ⟨_, rfl, by simp⟩

/-- A triclinic-like case: 60, 60, 60 degrees (the face-centred cubic primitive cell) meets the hypotheses. -/
example : (Cellpar.mk 1 1 1 60 60 60).InRange ∧ ∃ cell, cellparToCell ⟨1, 1, 1, 60, 60, 60⟩ = .ok cell := by
  refine ⟨by unfold Cellpar.InRange; norm_num, ?_⟩
  unfold cellparToCell
  simp only
  rw [snapCos_eq (by norm_num), snapSin_eq (by norm_num), 
    not_snap (x := 60) (by rw [abs_of_nonpos] <;> norm_num), cos_deg60, sin_deg60]
  have h3 : (√3 / 2 : ℝ) ≠ 0 := by positivity
  rw [if_neg h3, if_neg]
  · exact ⟨_, rfl⟩
  · simp only [div_pow]; rw [Real.sq_sqrt (by norm_num)]; norm_num

/-- And impossible angles (180, 60, 60) are rejected. -/
example : cellparToCell ⟨1, 1, 1, 180, 60, 60⟩ = .error .value := by
  have c180 : Real.cos (deg2rad 180) = -1 := by
    unfold deg2rad; rw [show (180 : ℝ) * (Real.pi / 180) = Real.pi by ring]; exact Real.cos_pi
  unfold cellparToCell
  simp only
  rw [snapCos_eq (by norm_num), snapCos_eq (by norm_num), snapSin_eq (by norm_num), not_snap (x := 180) (by norm_num),
    not_snap (x := 60) (by rw [abs_of_nonpos] <;> norm_num), c180, cos_deg60, sin_deg60]
  have h3 : (√3 / 2 : ℝ) ≠ 0 := by positivity
  rw [if_neg h3, if_pos]
  simp only [div_pow]; rw [Real.sq_sqrt (by norm_num)]; norm_num

/-- **C26** In two dimensions: lengths and angle are as asked for and `cell_to_cellpar_2D` inverts `cellpar_to_cell_2D`. -/
theorem C26_roundtrip {a b al : ℝ} (ha : 0 < a) (hb : 0 < b) (hal : 0 ≤ al ∧ al ≤ 180) :
    HasLength (cellparToCell2D a b al 0) a ∧ HasLength (cellparToCell2D a b al 1) b ∧
    HasAngle (cellparToCell2D a b al 0) (cellparToCell2D a b al 1) a b al ∧
    cellToCellpar2D (cellparToCell2D a b al) = .ok (a, b, al) := by
  have l0 : HasLength (cellparToCell2D a b al 0) a := ⟨ha.le, by simp [cellparToCell2D, Fin.sum_univ_two]⟩
  have l1 : HasLength (cellparToCell2D a b al 1) b := by
    refine ⟨hb.le, ?_⟩
    simp [cellparToCell2D, Fin.sum_univ_two]
    linear_combination b ^ 2 * Real.sin_sq_add_cos_sq (deg2rad al)
  have an : HasAngle (cellparToCell2D a b al 0) (cellparToCell2D a b al 1) a b al := by
    refine ⟨hal.1, hal.2, ?_⟩
    simp [cellparToCell2D, Fin.sum_univ_two, deg2rad]
    ring
  refine ⟨l0, l1, an, ?_⟩
  unfold cellToCellpar2D
  rw [angleOf_of l0 l1 ha hb an, vnorm_of_hasLength l0, vnorm_of_hasLength l1]
  rfl

example : (0 : ℝ) < 2 ∧ (0 : ℝ) < 3 ∧ (0 : ℝ) ≤ 75 ∧ (75 : ℝ) ≤ 180 := by norm_num

theorem hasLength_vnorm (v : Pt D ℝ) : HasLength v (vnorm v) := by
  refine ⟨Real.sqrt_nonneg _, ?_⟩
  unfold vnorm sqNorm
  rw [Real.sq_sqrt (Finset.sum_nonneg fun _ _ => sq_nonneg _)]

theorem hasAngle_of_angleOf {v w : Pt D ℝ} {θ : ℝ} (h : angleOf v w = .ok θ) : HasAngle v w (vnorm v) (vnorm w) θ := by
  unfold angleOf at h
  split_ifs at h with h0
  injection h with h
  have hp := Real.pi_pos
  have hpos : 0 < vnorm v * vnorm w :=
    lt_of_le_of_ne (mul_nonneg (Real.sqrt_nonneg _) (Real.sqrt_nonneg _)) (Ne.symm h0)
  have e : θ * (Real.pi / 180) = Real.arccos (vdot v w / (vnorm v * vnorm w)) := by
    rw [← h]; unfold rad2deg; field_simp
  have hcs : |vdot v w| ≤ vnorm v * vnorm w := by
    apply abs_le_of_sq_le_sq _ hpos.le
    rw [mul_pow, ← (hasLength_vnorm v).2, ← (hasLength_vnorm w).2]
    exact Finset.sum_mul_sq_le_sq_mul_sq _ _ _
  have hr : |vdot v w / (vnorm v * vnorm w)| ≤ 1 := by
    rw [abs_div, abs_of_pos hpos, div_le_one hpos]; exact hcs
  refine ⟨?_, ?_, ?_⟩
  · rw [← h]; exact mul_nonneg (Real.arccos_nonneg _) (by positivity)
  · rw [← h]
    calc rad2deg _ ≤ Real.pi * (180 / Real.pi) := mul_le_mul_of_nonneg_right (Real.arccos_le_pi _) (by positivity)
      _ = 180 := by field_simp
  · rw [e, Real.cos_arccos (abs_le.mp hr).1 (abs_le.mp hr).2, mul_div_cancel₀ _ hpos.ne']
    rfl

/-- **C26** The parameters of any two-dimensional cell are its lengths and its angle. -/
theorem C26_inverse {cell : Fin 2 → Pt 2 ℝ} {a b al : ℝ} (h : cellToCellpar2D cell = .ok (a, b, al)) :
    HasLength (cell 0) a ∧ HasLength (cell 1) b ∧ HasAngle (cell 0) (cell 1) a b al := by
  unfold cellToCellpar2D at h
  cases ha : angleOf (cell 0) (cell 1) with
  | error e => rw [ha] at h; cases h
  | ok θ =>
    rw [ha] at h
    simp only [bind, Except.bind] at h
    injection h with h
    injection h with h1 h
    injection h with h2 h3
    subst h1 h2 h3
    exact ⟨hasLength_vnorm _, hasLength_vnorm _, hasAngle_of_angleOf ha⟩

/-- **C25** The parameters of any cell are its lengths and angles. -/
theorem C25_inverse {cell : Fin 3 → Pt 3 ℝ} {p : Cellpar} (h : cellToCellpar cell = .ok p) :
    HasCellpar cell p.a p.b p.c p.al p.be p.ga := by
  unfold cellToCellpar at h
  cases h1 : angleOf (cell 1) (cell 2) with
  | error e => rw [h1] at h; cases h
  | ok θ1 =>
    cases h2 : angleOf (cell 0) (cell 2) with
    | error e => rw [h1, h2] at h; cases h
    | ok θ2 =>
      cases h3 : angleOf (cell 0) (cell 1) with
      | error e => rw [h1, h2, h3] at h; cases h
      | ok θ3 =>
        rw [h1, h2, h3] at h
        simp only [bind, Except.bind] at h
        injection h with h
        subst h
        exact ⟨hasLength_vnorm _, hasLength_vnorm _, hasLength_vnorm _, hasAngle_of_angleOf h1, hasAngle_of_angleOf h2,
          hasAngle_of_angleOf h3⟩

example : ∃ p, cellToCellpar ![![1, 0, 0], ![0, 2, 0], ![0, 0, 3]] = .ok p := by
  have hv : ∀ v : Pt 3 ℝ, ∀ l, 0 < l → ∑ j, v j ^ 2 = l ^ 2 → HasLength v l := fun v l h e => ⟨h.le, e⟩
  have l0 := hv ![1, 0, 0] 1 (by norm_num) (by simp [Fin.sum_univ_three])
  have l1 := hv ![0, 2, 0] 2 (by norm_num) (by simp [Fin.sum_univ_three])
  have l2 := hv ![0, 0, 3] 3 (by norm_num) (by simp [Fin.sum_univ_three])
  have c90 : Real.cos (90 * (Real.pi / 180)) = 0 := cos_deg90
  have an : ∀ v w : Pt 3 ℝ, ∀ l l' : ℝ, ∑ j, v j * w j = 0 → HasAngle v w l l' 90 :=
    fun v w l l' h => ⟨by norm_num, by norm_num, by rw [h, c90, mul_zero]⟩
  unfold cellToCellpar
  simp only [Matrix.cons_val]
  rw [angleOf_of l1 l2 (by norm_num) (by norm_num) (an _ _ _ _ (by simp [Fin.sum_univ_three])),
    angleOf_of l0 l2 (by norm_num) (by norm_num) (an _ _ _ _ (by simp [Fin.sum_univ_three])),
    angleOf_of l0 l1 (by norm_num) (by norm_num) (an _ _ _ _ (by simp [Fin.sum_univ_three]))]
  exact ⟨_, rfl⟩

/-! ### Random cells -/

theorem det_nonneg_of_half {x y z : ℝ} (hx : |x| ≤ 1 / 2) (hy : |y| ≤ 1 / 2) (hz : |z| ≤ 1 / 2) :
    0 ≤ 1 + 2 * x * y * z - x ^ 2 - y ^ 2 - z ^ 2 := by
  rw [abs_le] at hx hy hz
  have h1 : x ^ 2 ≤ 1 / 4 := by nlinarith
  have h2 : y ^ 2 ≤ 1 / 4 := by nlinarith
  have h3 : z ^ 2 ≤ 1 / 4 := by nlinarith
  have h4 : |x * y * z| ≤ 1 / 2 * (1 / 2) * (1 / 2) := by
    rw [abs_mul, abs_mul]
    gcongr <;> exact abs_le.mpr ‹_›
  have := (abs_le.mp h4).1
  nlinarith

theorem abs_cos_le_half {x : ℝ} (h : 60 ≤ x ∧ x ≤ 120) : |Real.cos (deg2rad x)| ≤ 1 / 2 := by
  have hp := Real.pi_pos
  have d : ∀ {x y : ℝ}, x ≤ y → deg2rad x ≤ deg2rad y := fun h => mul_le_mul_of_nonneg_right h (by positivity)
  rw [abs_le]
  constructor
  · rw [← cos_deg120]
    exact Real.cos_le_cos_of_nonneg_of_le_pi (deg2rad_mem ⟨by linarith, by linarith⟩).1 (deg2rad_mem (by norm_num)).2 (d h.2)
  · rw [← cos_deg60]
    exact Real.cos_le_cos_of_nonneg_of_le_pi (deg2rad_mem (by norm_num)).1 (deg2rad_mem ⟨by linarith, by linarith⟩).2 (d h.1)

theorem cellparToCell_ok {p : Cellpar} (h1 : 60 ≤ p.al ∧ p.al ≤ 120) (h2 : 60 ≤ p.be ∧ p.be ≤ 120)
    (h3 : 60 ≤ p.ga ∧ p.ga ≤ 120) : ∃ cell, cellparToCell p = .ok cell := by
  have sn : ∀ {x : ℝ}, 60 ≤ x ∧ x ≤ 120 → 60 ≤ snapAngle x ∧ snapAngle x ≤ 120 := by
    intro x h; unfold snapAngle; split_ifs <;> [norm_num; exact h]
  have hg := det_nonneg_of_half (abs_cos_le_half (sn h1)) (abs_cos_le_half (sn h2)) (abs_cos_le_half (sn h3))
  have hs : 0 < Real.sin (deg2rad (snapAngle p.ga)) := by
    have := sn h3
    apply sin_pos_of_ne ⟨by linarith, by linarith⟩ <;> intro h <;> rw [h] at this <;> norm_num at this
  unfold cellparToCell
  simp only
  rw [snapCos_eq (by linarith [h1.1]), snapCos_eq (by linarith [h2.1]), snapCos_eq (by linarith [h3.1]),
    snapSin_eq (by linarith [h3.1]), if_neg hs.ne', if_neg]
  · exact ⟨_, rfl⟩
  · have hcs := Real.sin_sq_add_cos_sq (deg2rad (snapAngle p.ga))
    set ca := Real.cos (deg2rad (snapAngle p.al))
    set cb := Real.cos (deg2rad (snapAngle p.be))
    set cg := Real.cos (deg2rad (snapAngle p.ga))
    set sg := Real.sin (deg2rad (snapAngle p.ga))
    rw [not_lt]
    have e : 1 - cb ^ 2 - ((ca - cb * cg) / sg) ^ 2 = (1 + 2 * ca * cb * cg - ca ^ 2 - cb ^ 2 - cg ^ 2) / sg ^ 2 := by
      rw [div_pow, eq_div_iff (by positivity), sub_mul, div_mul_cancel₀ _ (by positivity)]
      linear_combination (1 - cb ^ 2) * hcs
    rw [e]
    positivity

theorem uniform_mem {l u t : ℝ} (h : l ≤ u) (ht : 0 ≤ t ∧ t ≤ 1) : l ≤ uniform l u t ∧ uniform l u t ≤ u := by
  unfold uniform
  constructor <;> nlinarith [mul_nonneg (sub_nonneg.mpr h) ht.1, mul_nonneg (sub_nonneg.mpr h) (sub_nonneg.mpr ht.2)]

/-- **C55** With angle bounds between 60 and 120 degrees (the defaults) `random_cell` returns a cell whose lengths and angles
are within the bounds (up to the rounding of nearly right angles), whatever the draws. Missing: other angle bounds,
see `C55_false`. -/
theorem C55_random_cell_partial {ll lu al au : ℝ} (hll : 0 < ll) (hl : ll ≤ lu) (hal : 60 ≤ al) (ha : al ≤ au) (hau : au ≤ 120)
    {draws : List ℝ} (hd : ∀ u ∈ draws, 0 ≤ u ∧ u ≤ 1) (hlen : 6 ≤ draws.length) :
    ∃ cell a b c α β γ, randomCell3 ll lu al au draws = .ok cell ∧ HasCellpar cell a b c α β γ ∧
      (∀ l ∈ [a, b, c], ll ≤ l ∧ l ≤ lu) ∧
      ∀ θ ∈ [α, β, γ], (al ≤ θ ∧ θ ≤ au) ∨ (θ = 90 ∧ ∃ θ', al ≤ θ' ∧ θ' ≤ au ∧ |θ' - 90| < 2 * 2 ^ (-46 : ℤ)) := by
  match draws, hlen with
  | u1 :: u2 :: u3 :: v1 :: v2 :: v3 :: rest, _ =>
    have hu : ∀ {t}, t ∈ [u1, u2, u3] → ll ≤ uniform ll lu t ∧ uniform ll lu t ≤ lu := by
      intro t ht
      exact uniform_mem hl (hd t (by simp at ht ⊢; tauto))
    have hv : ∀ {t}, t ∈ [v1, v2, v3] → al ≤ uniform al au t ∧ uniform al au t ≤ au := by
      intro t ht
      exact uniform_mem ha (hd t (by simp at ht ⊢; tauto))
    have hv' : ∀ {t}, t ∈ [v1, v2, v3] → 60 ≤ uniform al au t ∧ uniform al au t ≤ 120 :=
      fun ht => ⟨hal.trans (hv ht).1, (hv ht).2.trans hau⟩
    obtain ⟨cell, hc⟩ := cellparToCell_ok (p := ⟨uniform ll lu u1, uniform ll lu u2, uniform ll lu u3,
      uniform al au v1, uniform al au v2, uniform al au v3⟩) (hv' (by simp)) (hv' (by simp)) (hv' (by simp))
    have hr : ∀ {t}, t ∈ [v1, v2, v3] → 0 ≤ uniform al au t ∧ uniform al au t ≤ 180 :=
      fun ht => ⟨by linarith [(hv' ht).1], by linarith [(hv' ht).2]⟩
    have hp := C25_cell ⟨hll.trans_le (hu (by simp)).1, hll.trans_le (hu (by simp)).1, hll.trans_le (hu (by simp)).1,
      hr (by simp), hr (by simp), hr (by simp)⟩ hc
    refine ⟨cell, _, _, _, _, _, _, by rw [randomCell3, hc], hp, ?_, ?_⟩
    · intro l hl'
      simp only [List.mem_cons, List.not_mem_nil, or_false] at hl'
      rcases hl' with rfl | rfl | rfl <;> exact hu (by simp)
    · intro θ hθ
      have key : ∀ t ∈ [v1, v2, v3], (al ≤ snapAngle (uniform al au t) ∧ snapAngle (uniform al au t) ≤ au) ∨
          (snapAngle (uniform al au t) = 90 ∧ ∃ θ', al ≤ θ' ∧ θ' ≤ au ∧ |θ' - 90| < 2 * 2 ^ (-46 : ℤ)) := by
        intro t ht
        rcases C25_snap (uniform al au t) with h | ⟨h, h'⟩
        · left; rw [h]; exact hv ht
        · right; exact ⟨h, _, (hv ht).1, (hv ht).2, h'⟩
      simp only [List.mem_cons, List.not_mem_nil, or_false] at hθ
      rcases hθ with rfl | rfl | rfl <;> exact key _ (by simp)

example : (0 : ℝ) < 1 ∧ (1 : ℝ) ≤ 2 ∧ (60 : ℝ) ≤ 60 ∧ (60 : ℝ) ≤ 120 ∧ 6 ≤ [(0 : ℝ), 1, 1 / 2, 1 / 3, 1, 0].length := by norm_num

/-- **C55** In two dimensions it always returns a cell within the bounds. -/
theorem C55_random_cell_2D {ll lu al au : ℝ} (hll : 0 < ll) (hl : ll ≤ lu) (hal : 0 ≤ al) (ha : al ≤ au) (hau : au ≤ 180)
    {draws : List ℝ} (hd : ∀ u ∈ draws, 0 ≤ u ∧ u ≤ 1) (hlen : 3 ≤ draws.length) :
    ∃ cell a b α, randomCell2 ll lu al au draws = .ok cell ∧ HasLength (cell 0) a ∧ HasLength (cell 1) b ∧
      HasAngle (cell 0) (cell 1) a b α ∧ (ll ≤ a ∧ a ≤ lu) ∧ (ll ≤ b ∧ b ≤ lu) ∧ (al ≤ α ∧ α ≤ au) := by
  match draws, hlen with
  | u1 :: u2 :: v :: rest, _ =>
    have h1 := uniform_mem hl (hd u1 (by simp))
    have h2 := uniform_mem hl (hd u2 (by simp))
    have h3 := uniform_mem ha (hd v (by simp))
    obtain ⟨a1, a2, a3, _⟩ := C26_roundtrip (hll.trans_le h1.1) (hll.trans_le h2.1)
      ⟨hal.trans h3.1, h3.2.trans hau⟩
    exact ⟨_, _, _, _, rfl, a1, a2, a3, h1, h2, h3⟩

theorem cos_deg45 : Real.cos (deg2rad 45) = √2 / 2 := by
  unfold deg2rad; rw [show (45 : ℝ) * (Real.pi / 180) = Real.pi / 4 by ring]; exact Real.cos_pi_div_four

theorem sin_deg45 : Real.sin (deg2rad 45) = √2 / 2 := by
  unfold deg2rad; rw [show (45 : ℝ) * (Real.pi / 180) = Real.pi / 4 by ring]; exact Real.sin_pi_div_four

/-- **C55** With wider bounds (45 to 135 degrees) impossible draws raise `ValueError` instead of being redrawn, although the
next draws would have given a cell. -/
theorem C55_false : ∃ draws : List ℝ, (∀ u ∈ draws, 0 ≤ u ∧ u < 1) ∧
    randomCell3 1 2 45 135 draws = .error .value ∧ ∃ cell, randomCell3 1 2 45 135 (draws.drop 6) = .ok cell := by
  refine ⟨[0, 0, 0, 5 / 6, 0, 0, 0, 0, 0, 1 / 2, 1 / 2, 1 / 2], ?_, ?_, ?_⟩
  · intro u hu
    simp only [List.mem_cons, List.not_mem_nil, or_false] at hu
    rcases hu with rfl | rfl | rfl | rfl | rfl | rfl | rfl | rfl | rfl | rfl | rfl | rfl <;> norm_num
  · have e : cellparToCell ⟨uniform 1 2 0, uniform 1 2 0, uniform 1 2 0, uniform 45 135 (5 / 6), uniform 45 135 0,
        uniform 45 135 0⟩ = .error .value := by
      unfold cellparToCell
      simp only
      rw [show uniform 45 135 (5 / 6) = 120 by unfold uniform; norm_num, show uniform 45 135 0 = 45 by unfold uniform; norm_num]
      rw [snapCos_eq (by norm_num), snapCos_eq (by norm_num), snapSin_eq (by norm_num), not_snap (x := 120) (by norm_num),
        not_snap (x := 45) (by rw [abs_of_nonpos] <;> norm_num), cos_deg120, cos_deg45, sin_deg45]
      have h2 : (√2 / 2 : ℝ) ≠ 0 := by positivity
      have h3 : (√2 / 2 : ℝ) * (√2 / 2) = 1 / 2 := by
        have := Real.mul_self_sqrt (show (0 : ℝ) ≤ 2 by norm_num)
        linear_combination this / 4
      rw [if_neg h2, if_pos]
      rw [h3]; simp only [div_pow]; rw [Real.sq_sqrt (by norm_num)]; norm_num
    rw [randomCell3, e]
    simp
  · obtain ⟨cell, hc⟩ := cellparToCell_ok (p := ⟨uniform 1 2 0, uniform 1 2 0, uniform 1 2 0,
      uniform 45 135 (1 / 2), uniform 45 135 (1 / 2), uniform 45 135 (1 / 2)⟩) (by unfold uniform; norm_num)
      (by unfold uniform; norm_num) (by unfold uniform; norm_num)
    exact ⟨cell, by simp only [List.drop]; rw [randomCell3, hc]⟩

end Amd
