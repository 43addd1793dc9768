import Verif.Model.PPC
import Verif.Spec.Geometry
import Mathlib.MeasureTheory.Measure.Lebesgue.VolumeOfBalls
import Mathlib.MeasureTheory.Measure.Lebesgue.EqHaar
import Mathlib.Data.Nat.Factorial.DoubleFactorial

/-! Helper lemmas: volumes of cells and balls. -/

namespace Amd

open MeasureTheory

/-- The linear map sending fractional to Cartesian coordinates. -/
noncomputable def fracToCart {D : ℕ} (cell : Fin D → Pt D ℝ) : Pt D ℝ →ₗ[ℝ] Pt D ℝ :=
  Matrix.toLin' (Matrix.of cell).transpose

theorem fracToCart_apply {D : ℕ} (cell : Fin D → Pt D ℝ) (t : Pt D ℝ) (j : Fin D) :
    fracToCart cell t j = ∑ i, t i * cell i j := by
  simp [fracToCart, Matrix.mulVec, dotProduct, mul_comm]

theorem det_fracToCart {D : ℕ} (cell : Fin D → Pt D ℝ) : LinearMap.det (fracToCart cell) = cellDet cell := by
  unfold fracToCart cellDet
  rw [LinearMap.det_toLin', Matrix.det_transpose]

theorem volume_closedCell {D : ℕ} (cell : Fin D → Pt D ℝ) :
    volume (closedCell cell) = ENNReal.ofReal |cellDet cell| := by
  have e : closedCell cell = fracToCart cell '' Set.Icc 0 1 := by
    ext p
    constructor
    · rintro ⟨t, ht, rfl⟩
      exact ⟨t, ⟨fun i => (ht i).1, fun i => (ht i).2⟩, by funext j; exact fracToCart_apply cell t j⟩
    · rintro ⟨t, ht, rfl⟩
      exact ⟨t, fun i => ⟨ht.1 i, ht.2 i⟩, by funext j; exact fracToCart_apply cell t j⟩
  rw [e, Measure.addHaar_image_linearMap, det_fracToCart, Real.volume_Icc_pi]
  simp

/-- The closed ball of radius `r` about the origin. -/
def euclBall (D : ℕ) (r : ℝ) : Set (Pt D ℝ) := {x | ∑ j, x j ^ 2 ≤ r ^ 2}

theorem preimage_euclBall {D : ℕ} {r : ℝ} (hr : 0 ≤ r) :
    (WithLp.toLp 2) ⁻¹' (Metric.closedBall (0 : EuclideanSpace ℝ (Fin D)) r) = euclBall D r := by
  ext x
  simp only [Set.mem_preimage, Metric.mem_closedBall, dist_zero_right, euclBall, Set.mem_ofPred_eq,
    EuclideanSpace.norm_eq]
  rw [Real.sqrt_le_iff]
  simp [hr]

theorem volume_euclBall_eq {D : ℕ} {r : ℝ} (hr : 0 ≤ r) :
    volume (euclBall D r) = volume (Metric.closedBall (0 : EuclideanSpace ℝ (Fin D)) r) := by
  rw [← preimage_euclBall hr]
  exact (PiLp.volume_preserving_toLp (Fin D)).measure_preimage Metric.isClosed_closedBall.measurableSet.nullMeasurableSet

theorem sphereVol_pos (n : ℕ) : 0 < sphereVol n := by
  unfold sphereVol
  have := Real.pi_pos
  have h1 : (0 : ℝ) < ((n / 2).factorial : ℝ) := by exact_mod_cast Nat.factorial_pos _
  have h2 : (0 : ℝ) < (n.factorial : ℝ) := by exact_mod_cast Nat.factorial_pos _
  simp only
  split_ifs <;> positivity

theorem volume_euclBall {D : ℕ} (hD : 0 < D) {r : ℝ} (hr : 0 ≤ r) :
    volume (euclBall D r) = ENNReal.ofReal (r ^ D * sphereVol D) := by
  have : Nonempty (Fin D) := ⟨⟨0, hD⟩⟩
  rw [volume_euclBall_eq hr, ENNReal.ofReal_mul (by positivity), ENNReal.ofReal_pow hr]
  have hfr : Module.finrank ℝ (EuclideanSpace ℝ (Fin D)) = D := by simp
  rcases Nat.even_or_odd' D with ⟨t, h | h⟩
  · rw [InnerProductSpace.volume_closedBall_of_dim_even (k := t) (by rw [hfr, h]), hfr]
    congr 2
    unfold sphereVol
    have e1 : D / 2 = t := by omega
    have e2 : D % 2 = 0 := by omega
    simp only [e1, e2, if_true]
  · rw [InnerProductSpace.volume_closedBall_of_dim_odd (k := t) (by rw [hfr, h]), hfr]
    congr 2
    unfold sphereVol
    have e1 : D / 2 = t := by omega
    have e2 : ¬ D % 2 = 0 := by omega
    simp only [e1, e2, if_false]
    rw [h, Nat.factorial_eq_mul_doubleFactorial, Nat.doubleFactorial_two_mul]
    have p1 : (0 : ℝ) < ((2 * t + 1).doubleFactorial : ℝ) := by exact_mod_cast Nat.doubleFactorial_pos _
    have p2 : (0 : ℝ) < (t.factorial : ℝ) := by exact_mod_cast Nat.factorial_pos _
    push_cast
    have e4 : (4 : ℝ) ^ t = 2 ^ t * 2 ^ t := by rw [← mul_pow]; norm_num
    rw [mul_pow, e4, pow_succ]
    field_simp

end Amd
