import Verif.Spec.Periodic

/-!
# Specification: crystals given by an asymmetric unit and a space group

Fractional coordinates are coordinates with respect to the cell vectors. A symmetry operation is given by a matrix and a vector in fractional coordinates, as
in a CIF; two operations that differ by a lattice translation count as the same.
-/

namespace Amd

variable {D : ℕ}

/-- The Cartesian coordinates of the point with the given fractional coordinates. -/
def cartesian (cell : Fin D → Pt D ℝ) (x : Pt D ℝ) : Pt D ℝ := fun j => ∑ i, x i * cell i j

/-- A matrix and a vector. -/
abbrev FracOp (D : ℕ) := (Fin D → Fin D → ℝ) × (Fin D → ℝ)

/-- The operation on fractional coordinates. -/
def opPoint (g : FracOp D) (x : Pt D ℝ) : Pt D ℝ := fun i => (∑ j, g.1 i j * x j) + g.2 i

/-- The operations are isometries of space that map the lattice of the cell to itself, and form a group modulo lattice translations. -/
structure IsSpaceGroup (cell : Fin D → Pt D ℝ) (G : Set (FracOp D)) : Prop where
  isometry : ∀ g ∈ G, ∀ x y, eucl (cartesian cell (opPoint g x)) (cartesian cell (opPoint g y)) = eucl (cartesian cell x) (cartesian cell y)
  lattice : ∀ g ∈ G, ∀ i j, ∃ n : ℤ, g.1 i j = n
  one : ∃ g ∈ G, ∃ n : Fin D → ℤ, ∀ x i, opPoint g x i = x i + n i
  mul : ∀ g ∈ G, ∀ h ∈ G, ∃ k ∈ G, ∃ n : Fin D → ℤ, ∀ x i, opPoint g (opPoint h x) i = opPoint k x i + n i
  inv : ∀ g ∈ G, ∃ h ∈ G, (∃ n : Fin D → ℤ, ∀ x i, opPoint g (opPoint h x) i = x i + n i) ∧ ∃ n : Fin D → ℤ, ∀ x i, opPoint h (opPoint g x) i = x i + n i

/-- The infinite crystal: all images of the sites `P` (in fractional coordinates) under the operations and all their lattice translates. -/
def crystalPoints (cell : Fin D → Pt D ℝ) (G : Set (FracOp D)) (P : Set (Pt D ℝ)) : Set (Pt D ℝ) :=
  {q | ∃ p ∈ P, ∃ g ∈ G, ∃ n : Fin D → ℤ, q = cartesian cell fun i => opPoint g p i + n i}

/-- Images of the sites that are equal within `tol` modulo the lattice are equal modulo the lattice: the tolerance identifies nothing but equal points. -/
def ExactSites (tol : ℝ) (G : Set (FracOp D)) (P : Set (Pt D ℝ)) : Prop :=
  ∀ p ∈ P, ∀ q ∈ P, ∀ g ∈ G, ∀ h ∈ G, (∀ i, ∃ n : ℤ, |opPoint g p i - opPoint h q i - n| ≤ tol) → ∀ i, ∃ n : ℤ, opPoint g p i - opPoint h q i = n

end Amd
