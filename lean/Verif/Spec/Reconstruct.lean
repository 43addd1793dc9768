import Verif.Spec.Periodic
import Mathlib.LinearAlgebra.LinearIndependent.Defs

/-!
# Specification: reconstruction

Nothing here refers to the model of the code.
-/

namespace Amd

variable {D : ℕ}

/-- The integer combination of the cell vectors with coefficients `n`. -/
def latticePoint (cell : Fin D → Pt D ℝ) (n : Fin D → ℤ) : Pt D ℝ := fun j => ∑ i, (n i : ℝ) * cell i j

/-- `x` is a distance of the first row and, within `prec`, of the other row. -/
def SharedDistance (prec : ℝ) (row1 row : List ℝ) (x : ℝ) : Prop := x ∈ row1 ∧ ∃ y ∈ row, |x - y| < prec

/-- The layers of lattice points numbered 1 to `m` all have a point within `r` of the origin. The points of layer `k` are those whose vector of coefficients
has a length in (k - 1, k]. -/
def LayersReach (cell : Fin D → Pt D ℝ) (r : ℝ) (m : ℕ) : Prop :=
  ∀ k : ℕ, 1 ≤ k → k ≤ m → ∃ n : Fin D → ℤ, ((k : ℤ) - 1) ^ 2 < ∑ i, n i ^ 2 ∧ ∑ i, n i ^ 2 ≤ (k : ℤ) ^ 2 ∧ eucl 0 (latticePoint cell n) ≤ r

/-- The point `q` fits the first row, which belongs to the origin, and the row `row` of its own: its distance from the origin and its distances from `D`
independent lattice points are shared distances of the rows, and (within the tolerance) no lattice point nearby is closer to it than the origin. -/
structure Fits (prec diam : ℝ) (cell : Fin D → Pt D ℝ) (row1 row : List ℝ) (q : Pt D ℝ) : Prop where
  origin : ∃ x, SharedDistance prec row1 row x ∧ |eucl 0 q - x| < prec
  centres : ∃ n : Fin D → Fin D → ℤ, LinearIndependent ℝ (fun i => latticePoint cell (n i)) ∧
    ∀ i, SharedDistance prec row1 row (eucl (latticePoint cell (n i)) q)
  domain : ∀ (m : ℕ) (n : Fin D → ℤ), LayersReach cell diam m → n ≠ 0 → ∑ i, n i ^ 2 ≤ (m : ℤ) ^ 2 → eucl 0 q - 2 * prec < eucl (latticePoint cell n) q

/-- `x` is the length of a lattice vector that is at most `diam`, in a layer up to which all layers reach within `diam` of the origin. -/
def LatticeLength (diam : ℝ) (cell : Fin D → Pt D ℝ) (x : ℝ) : Prop :=
  ∃ (m : ℕ) (n : Fin D → ℤ), LayersReach cell diam m ∧ n ≠ 0 ∧ ∑ i, n i ^ 2 ≤ (m : ℤ) ^ 2 ∧ x = eucl 0 (latticePoint cell n) ∧ x ≤ diam

/-- Lengths of lattice vectors that are not equal differ by at least `prec`. -/
def SeparateLengths (prec diam : ℝ) (cell : Fin D → Pt D ℝ) : Prop := ∀ x y, LatticeLength diam cell x → LatticeLength diam cell y → x = y ∨ prec ≤ |x - y|

/-- The distances of a row that are not, within `prec`, lengths of lattice vectors. -/
noncomputable def offLattice (prec diam : ℝ) (cell : Fin D → Pt D ℝ) (row : List ℝ) : List ℝ :=
  open Classical in row.filter fun x => ∀ y, LatticeLength diam cell y → prec ≤ |x - y|

/-- `x` is the first distance of the first row that is, within `prec`, a distance of the other row. -/
def FirstShared (prec : ℝ) (row1 row : List ℝ) (x : ℝ) : Prop :=
  ∃ l r, row1 = l ++ x :: r ∧ (∃ y ∈ row, |x - y| < prec) ∧ ∀ z ∈ l, ∀ y ∈ row, prec ≤ |z - y|

/-- Two points differ by a lattice vector. -/
def LatticeTranslate (cell : Fin D → Pt D ℝ) (p q : Pt D ℝ) : Prop := ∃ n : Fin D → ℤ, p = q + latticePoint cell n

/-- The point has coordinates in [0, 1) with respect to the cell. -/
def InUnitCell (cell : Fin D → Pt D ℝ) (p : Pt D ℝ) : Prop := ∃ c : Fin D → ℝ, (∀ i, 0 ≤ c i ∧ c i < 1) ∧ p = fun j => ∑ i, c i * cell i j

end Amd
