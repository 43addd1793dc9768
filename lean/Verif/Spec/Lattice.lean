import Mathlib.Algebra.BigOperators.Fin
import Mathlib.Data.Int.Order.Basic

/-! Specification vocabulary for integer vectors. -/

namespace Amd

/-- Squared Euclidean norm of an integer vector. -/
def normSq {D : ℕ} (v : Fin D → ℤ) : ℤ := ∑ i, v i ^ 2

/-- The integer vectors of norm in the interval `(d - 1, d]` (just the origin for `d = 0`). -/
def InShell {D : ℕ} (d : ℕ) (v : Fin D → ℤ) : Prop :=
  normSq v ≤ (d : ℤ) ^ 2 ∧ (d = 0 ∨ ((d : ℤ) - 1) ^ 2 < normSq v)

end Amd
