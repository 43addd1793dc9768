import Verif.Spec.Cells
import Mathlib.Data.Finset.Card

/-! Specification: neighbour rows, and when the layered search is complete. -/

namespace Amd

variable {D : ℕ}

/-- `row` is the list of distances from motif point `i` to its `k` nearest other sites of the periodic set (counted
with multiplicity; "other" excludes the point itself but not its translates). -/
def IsNeighbourRow (motif : List (Pt D ℝ)) (cell : Fin D → Pt D ℝ) (i : Fin motif.length) (k : ℕ)
    (row : List ℝ) : Prop :=
  row.length = k ∧
    IsKNearest (fun s : {s : Site motif.length D // s ≠ (i, 0)} => eucl motif[i] (sitePos motif cell s)) row

/-- The same for a set of points `P`: distances from `p` to its `k` nearest other points of `P`. -/
def IsPointRow (P : Set (Pt D ℝ)) (p : Pt D ℝ) (k : ℕ) (row : List ℝ) : Prop :=
  row.length = k ∧ IsKNearest (fun q : {q : Pt D ℝ // q ∈ P ∧ q ≠ p} => eucl p q) row

/-- Searching `k` points from a motif of `m` points starts with layers up to `r`: trivially for `r ≤ 2`; otherwise
because the integer vectors of norm at most `r - 3` give at most `k` points. -/
def StartsAt (D m k r : ℕ) : Prop :=
  r ≤ 2 ∨ ∀ F : Finset (Fin D → ℤ), (∀ n ∈ F, normSq n ≤ ((r : ℤ) - 3) ^ 2) → F.card * m ≤ k

/-- The condition on motif, cell and number of neighbours under which the layer by layer search is proved to be
complete. -/
def Searchable (motif : List (Pt D ℝ)) (cell : Fin D → Pt D ℝ) (k : ℕ) : Prop :=
  ∃ (P : (Fin D → ℝ) → Prop) (r : ℕ), Descends cell P r ∧ FracDiff motif cell P ∧ StartsAt D motif.length k r

/-- An explicit condition under which `k` neighbours are many enough: `σ` is a lower bound for the singular values of the cell (stretching by at least `σ`),
`L` an upper bound for the lengths of the cell vectors, `d` for the distances of motif points, `r` is at least `d / σ + √D L² / (2 σ²)`, and `k` at least
the number of motif points times `(2 (r - 3) + 1)^D`. -/
def ManyNeighbours (motif : List (Pt D ℝ)) (cell : Fin D → Pt D ℝ) (k : ℕ) : Prop :=
  ∃ (σ L d : ℝ) (r : ℕ), 0 < σ ∧ (∀ v : Fin D → ℝ, σ ^ 2 * ∑ i, v i ^ 2 ≤ ∑ c, (∑ i, v i * cell i c) ^ 2) ∧
    (∀ i, gram cell i i ≤ L ^ 2) ∧ (∀ p ∈ motif, ∀ q ∈ motif, eucl p q ≤ d) ∧
    d / σ + √D * L ^ 2 / (2 * σ ^ 2) ≤ r ∧ motif.length * (2 * (r - 3) + 1) ^ D ≤ k

/-- Explicit conditions under which `k` nearest neighbours (counting the point itself) are searched completely: either the motif fits in the cell and the cell is
not too oblique for the number of neighbours (all `k` for `t = 1`, up to four dimensions), or the motif fits in a reduced cell of three dimensions and there are
as many neighbours as motif points, or there are many neighbours. -/
def Covered (motif : List (Pt D ℝ)) (cell : Fin D → Pt D ℝ) (k : ℕ) : Prop :=
  (FitsInCell motif cell ∧ ∃ t r : ℕ, 1 ≤ t ∧ DominantBy t cell ∧ D * t ^ 2 ≤ r ^ 2 ∧ (r ≤ 2 ∨ motif.length * (2 * (r - 3) + 1) ^ D ≤ k)) ∨
    (D = 3 ∧ Reduced cell ∧ FitsInCell motif cell ∧ motif.length ≤ k) ∨ ManyNeighbours motif cell k

end Amd
