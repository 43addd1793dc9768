import Verif.Spec.Invariants
import Verif.Spec.Transport
import Verif.Spec.Written
import Verif.Spec.Symmetry
import Verif.Spec.Isometric
import Verif.Spec.Cells
import Mathlib.Data.Set.Card

/-!
# Specification: infinite crystals given by lengths and angles of a cell, symmetry operations and sites, and their invariants

No readers, files or packages are involved.
-/

namespace Amd

/-- A crystal as it is described in a file or database: its name, lengths and angles of the cell, symmetry operations and sites (in fractional coordinates). -/
structure Described where
  name : String
  cell : CellNumbers
  ops : Set (FracOp 3)
  sites : Set (Pt 3 ℝ)

/-- Vectors with the lengths and angles of the cell. -/
def Described.HasCell (c : Described) (cell : Fin 3 → Pt 3 ℝ) : Prop := HasCellpar cell c.cell.a c.cell.b c.cell.c c.cell.α c.cell.β c.cell.γ

/-- The points of the crystal, with these vectors of the cell: all images of sites under the operations, and their lattice translates. -/
def Described.points (c : Described) (cell : Fin 3 → Pt 3 ℝ) : Set (Pt 3 ℝ) := crystalPoints cell c.ops c.sites

/-- The number of points in a cell is at most the number of sites times the number of operations. -/
noncomputable def Described.size (c : Described) : ℕ := c.sites.ncard * c.ops.ncard

/-- What is described is a crystal: the cell is not flat, the operations form a space group of the cell, there are sites, no two different points of the crystal are
within the tolerance of the readers, and there are at most `10⁸` points in a cell. -/
structure Described.Proper (c : Described) : Prop where
  group : ∃ cell, c.HasCell cell ∧ NonSingular cell ∧ IsSpaceGroup cell c.ops
  finiteOps : c.ops.Finite
  finiteSites : c.sites.Finite
  nonempty : c.sites.Nonempty
  exact : ExactSites (1 / 1000) c.ops c.sites
  size : c.size ≤ 100000000

/-- The two descriptions are of the same crystal: with cells of the given lengths and angles, an isometry of space carries all points of one to all points of the other. -/
def DescribeSame (c c' : Described) : Prop :=
  ∃ cell cell' : Fin 3 → Pt 3 ℝ, c.HasCell cell ∧ c'.HasCell cell' ∧ ∃ T : Pt 3 ℝ → Pt 3 ℝ, (∀ p q, eucl (T p) (T q) = eucl p q) ∧
    c'.points cell' = T '' c.points cell

/-- The cell is not too oblique for the search of `k` neighbours: its Gram matrix is dominated by half of the diagonal, or the cell is reduced and has at most `k + 1`
points. -/
def Described.WellShaped (k : ℕ) (c : Described) : Prop := ∃ cell, c.HasCell cell ∧ (HalfDominant cell ∨ Reduced cell ∧ c.size ≤ k + 1)

/-! ### Invariants of an infinite crystal -/

section
variable {D : ℕ}

/-- The motif, repeated by the cell, gives each point of `P` exactly once, and `R` lists for each point of the motif the distances to its `k` nearest other points of `P`. -/
structure MotifRows (P : Set (Pt D ℝ)) (k : ℕ) (motif : List (Pt D ℝ)) (cell : Fin D → Pt D ℝ) (R : Fin motif.length → List ℝ) : Prop where
  independent : NonSingular cell
  nonempty : motif ≠ []
  once : Function.Injective (sitePos motif cell)
  points : periodicPoints motif cell = P
  rows : ∀ i, IsPointRow P motif[i] k (R i)

/-- The AMD of a periodic set of points: the `j`-th entry is the mean, over a motif, of the distance to the `j`-th nearest other point. -/
def IsCrystalAMD (P : Set (Pt D ℝ)) (k : ℕ) (a : List ℝ) : Prop :=
  ∃ motif cell R, MotifRows P k motif cell R ∧ a = (List.range k).map fun j => (∑ i, (R i).getD j 0) / motif.length

/-- The PDD of a periodic set of points: weighted rows, where the weight of a row is the fraction of the points of a motif that have this row of distances. -/
def IsCrystalPDD (P : Set (Pt D ℝ)) (k : ℕ) (p : List (PRow ℝ)) : Prop :=
  WeightedRows k p ∧ ∃ motif cell R, MotifRows P k motif cell R ∧ ∀ x, weightAt p x = (∑ i, (open Classical in if R i = x then (1 : ℝ) else 0)) / motif.length

end

/-- The AMD of the crystal that is described. -/
def Described.IsAMD (c : Described) (k : ℕ) (a : List ℝ) : Prop := ∃ cell, c.HasCell cell ∧ IsCrystalAMD (c.points cell) k a

/-- The PDD of the crystal that is described. -/
def Described.IsPDD (c : Described) (k : ℕ) (p : List (PRow ℝ)) : Prop := ∃ cell, c.HasCell cell ∧ IsCrystalPDD (c.points cell) k p

end Amd
