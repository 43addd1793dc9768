import Verif.Spec.Cells
import Mathlib.Analysis.SpecialFunctions.Trigonometric.Basic

/-! Specification: closed cells, lengths and angles. -/

namespace Amd

variable {D : ℕ}

/-- The closed parallelepiped spanned by the cell vectors. -/
def closedCell (cell : Fin D → Pt D ℝ) : Set (Pt D ℝ) :=
  {p | ∃ t : Fin D → ℝ, (∀ i, 0 ≤ t i ∧ t i ≤ 1) ∧ p = fun j => ∑ i, t i * cell i j}

/-- The vector `v` has length `l`. -/
def HasLength (v : Pt D ℝ) (l : ℝ) : Prop := 0 ≤ l ∧ ∑ j, v j ^ 2 = l ^ 2

/-- The angle between `v` and `w`, of lengths `l` and `l'`, is `θ` degrees (law of cosines). -/
def HasAngle (v w : Pt D ℝ) (l l' θ : ℝ) : Prop :=
  0 ≤ θ ∧ θ ≤ 180 ∧ ∑ j, v j * w j = l * l' * Real.cos (θ * (Real.pi / 180))

/-- The three vectors have the given lengths and pairwise angles: α between the second and third, β between the first and third,
γ between the first and second. -/
def HasCellpar (cell : Fin 3 → Pt 3 ℝ) (a b c α β γ : ℝ) : Prop :=
  HasLength (cell 0) a ∧ HasLength (cell 1) b ∧ HasLength (cell 2) c ∧
  HasAngle (cell 1) (cell 2) b c α ∧ HasAngle (cell 0) (cell 2) a c β ∧ HasAngle (cell 0) (cell 1) a b γ

end Amd
