import Verif.Spec.Periodic

/-! # Finite sets with nearly the same distances -/

namespace Amd

/-- Two lists of as many points, not necessarily in the same space, whose distances differ by at most `δ`. -/
def DistancesWithin {D E : ℕ} (δ : ℝ) (pts : List (Pt D ℝ)) (pts' : List (Pt E ℝ)) : Prop :=
  pts'.length = pts.length ∧ ∀ (i j : ℕ) (hi : i < pts.length) (hj : j < pts.length) (hi' : i < pts'.length) (hj' : j < pts'.length),
    |eucl pts[i] pts[j] - eucl pts'[i] pts'[j]| ≤ δ

end Amd
