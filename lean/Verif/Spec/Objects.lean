import Verif.Spec.SpaceGroup

/-!
# Specification: crystals given by a cell and a list of atoms, and their symmetry

Positions are fractional coordinates.
-/

namespace Amd

/-- The points of the crystal: the positions and all their lattice translates. -/
def atomPoints (cell : Fin 3 → Pt 3 ℝ) (P : List (Pt 3 ℝ)) : Set (Pt 3 ℝ) := {q | ∃ p ∈ P, ∃ n : Fin 3 → ℤ, q = cartesian cell fun i => p i + n i}

/-- `q` is the image of `p` under an operation in `G`, up to a lattice translation. -/
def InOrbit (G : Set (FracOp 3)) (p q : Pt 3 ℝ) : Prop := ∃ g ∈ G, ∃ n : Fin 3 → ℤ, ∀ i, opPoint g p i = q i + n i

/-- The operations map positions of atoms to positions of atoms of the same kind. -/
def InvariantUnder (G : Set (FracOp 3)) (atoms : List (ℕ × Pt 3 ℝ)) : Prop := ∀ a ∈ atoms, ∀ g ∈ G, ∃ b ∈ atoms, b.1 = a.1 ∧ ∃ n : Fin 3 → ℤ, ∀ i, opPoint g a.2 i = b.2 i + n i

/-- `basis` consists of positions of atoms, one from every orbit. -/
structure IsBasis (G : Set (FracOp 3)) (pos basis : List (Pt 3 ℝ)) : Prop where
  atom : ∀ p ∈ basis, p ∈ pos
  covers : ∀ q ∈ pos, ∃ p ∈ basis, InOrbit G p q
  once : basis.Pairwise fun p q => ¬InOrbit G p q

/-- The `i`-th entry of `types` is the atomic number of an atom at the `i`-th point of the motif (in Cartesian coordinates). -/
def TypesMatch (cell : Fin 3 → Pt 3 ℝ) (atoms : List (ℕ × Pt 3 ℝ)) (motif : List (Pt 3 ℝ)) (types : List ℕ) : Prop :=
  types.length = motif.length ∧ ∀ i (h : i < types.length) (h' : i < motif.length), ∃ a ∈ atoms, a.1 = types[i] ∧ motif[i] ∈ atomPoints cell [a.2]

/-- The atoms that remain when hydrogens are removed, if that is asked for. -/
def keptAtoms (removeHydrogens : Bool) (atoms : List (ℕ × Pt 3 ℝ)) : List (ℕ × Pt 3 ℝ) := atoms.filter fun a => decide (removeHydrogens = true → a.1 ≠ 1)

/-- No two positions are equal modulo the lattice. -/
def Distinct (P : List (Pt 3 ℝ)) : Prop := P.Pairwise fun p q : Pt 3 ℝ => ¬∃ n : Fin 3 → ℤ, ∀ i, p i = q i + (n i : ℝ)

/-- The crystals given by two cells with lists of positions are isometric. -/
def SameCrystal (cell : Fin 3 → Pt 3 ℝ) (P : List (Pt 3 ℝ)) (cell' : Fin 3 → Pt 3 ℝ) (P' : List (Pt 3 ℝ)) : Prop :=
  ∃ T : Pt 3 ℝ → Pt 3 ℝ, (∀ p q, eucl (T p) (T q) = eucl p q) ∧ atomPoints cell' P' = T '' atomPoints cell P

end Amd
