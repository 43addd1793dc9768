import Verif.Spec.Periodic
import Verif.Spec.Lattice
import Mathlib.LinearAlgebra.LinearIndependent.Defs

/-! Specification: classes of unit cells and motifs. -/

namespace Amd

variable {D : ℕ}

/-- The Gram matrix of the cell vectors (rows of the cell). -/
def gram (cell : Fin D → Pt D ℝ) (i j : Fin D) : ℝ := ∑ c, cell i c * cell j c

/-- The cell vectors span space. -/
def NonSingular (cell : Fin D → Pt D ℝ) : Prop := LinearIndependent ℝ cell

/-- All motif points lie in one (half-open) parallelepiped spanned by the cell vectors, wherever its corner
`o` is. Readers produce such motifs: fractional coordinates are taken modulo 1. -/
def FitsInCell (motif : List (Pt D ℝ)) (cell : Fin D → Pt D ℝ) : Prop :=
  ∃ o : Pt D ℝ, ∀ q ∈ motif, ∃ u : Fin D → ℝ, (∀ i, 0 ≤ u i ∧ u i < 1) ∧
    q = fun j => o j + ∑ i, u i * cell i j

/-- The off-diagonal Gram entries of each row sum, in absolute value, to at most half the diagonal one.
Holds for all rectangular cells, for all reduced cells in two dimensions, for hexagonal ones and for all cells not too far from
rectangular. -/
def HalfDominant (cell : Fin D → Pt D ℝ) : Prop :=
  ∀ i, 2 * ∑ j ∈ Finset.univ.erase i, |gram cell i j| ≤ gram cell i i

/-- The off-diagonal Gram entries of each row sum, in absolute value, to at most `1 - 1 / (2 t)` times the diagonal one. For `t = 1` this is
`HalfDominant`. -/
def DominantBy (t : ℕ) (cell : Fin D → Pt D ℝ) : Prop :=
  ∀ i, 2 * t * ∑ j ∈ Finset.univ.erase i, |gram cell i j| ≤ (2 * t - 1) * gram cell i i

/-- The fractional coordinates of differences of motif points satisfy `P`. -/
def FracDiff (motif : List (Pt D ℝ)) (cell : Fin D → Pt D ℝ) (P : (Fin D → ℝ) → Prop) : Prop :=
  ∀ p ∈ motif, ∀ q ∈ motif, ∃ f : Fin D → ℝ, P f ∧ ∀ j, p j - q j = ∑ i, f i * cell i j

/-- Every layer from `r` on has a vector that is at least as near to each point with fractional coordinates in `P` as any given vector beyond the layer
(in the metric of the cell). -/
def Descends (cell : Fin D → Pt D ℝ) (P : (Fin D → ℝ) → Prop) (r : ℕ) : Prop :=
  ∀ (d : ℕ) (n : Fin D → ℤ) (f : Fin D → ℝ), r ≤ d → (d : ℤ) ^ 2 < normSq n → P f →
    ∃ n', InShell d n' ∧ ∑ c, (∑ a, ((n' a : ℝ) - f a) * cell a c) ^ 2 ≤ ∑ c, (∑ a, ((n a : ℝ) - f a) * cell a c) ^ 2

/-- No cell vector can be shortened by adding or subtracting one other, or all others. In three dimensions these are the cells that are reduced in the
sense of Minkowski; they include the reduced cells of Niggli. -/
def Reduced (cell : Fin D → Pt D ℝ) : Prop :=
  (∀ i j, i ≠ j → 2 * |gram cell i j| ≤ gram cell i i) ∧
    ∀ s : Fin D → ℝ, (∀ i, s i = 1 ∨ s i = -1) → ∀ i, gram cell i i ≤ ∑ a, ∑ b, s a * s b * gram cell a b

end Amd
