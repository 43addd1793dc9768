import Mathlib.Algebra.BigOperators.Fin
import Mathlib.Analysis.Real.Sqrt
import Mathlib.Algebra.Module.LinearMap.Defs

/-!
# Specification: periodic point sets and nearest neighbours

Nothing here refers to the model of the code, except that `PeriodicSet` is the data type of its inputs.
-/

namespace Amd

/-- A point with `D` coordinates. -/
abbrev Pt (D : ℕ) (K : Type*) := Fin D → K

/-- A site of the infinite periodic set with `m` motif points: which motif point, and which integer
combination of the cell vectors it is translated by. -/
abbrev Site (m D : ℕ) := Fin m × (Fin D → ℤ)

/-- Where a site is: motif point plus integer combination of cell vectors (rows of `cell`). -/
def sitePos {K : Type*} [Ring K] {D : ℕ} (motif : List (Pt D K)) (cell : Fin D → Pt D K)
    (s : Site motif.length D) : Pt D K :=
  fun j => motif[s.1] j + ∑ i, (s.2 i : K) * cell i j

/-- The infinite periodic point set. -/
def periodicPoints {K : Type*} [Ring K] {D : ℕ} (motif : List (Pt D K)) (cell : Fin D → Pt D K) :
    Set (Pt D K) := Set.range (sitePos motif cell)

/-- Squared Euclidean distance. -/
def sqDist {K : Type*} [Ring K] {D : ℕ} (p q : Pt D K) : K := ∑ j, (p j - q j) ^ 2

/-- Euclidean distance. -/
noncomputable def eucl {D : ℕ} (p q : Pt D ℝ) : ℝ := √(sqDist p q)

/-- `row` lists, in increasing order, the smallest values of `δ` over the index type `ι`, counted with
multiplicity: it is the list of values at some distinct indices, sorted, and every other index has a value at
least as large as every listed one. -/
def IsKNearest {ι α : Type*} [LE α] (δ : ι → α) (row : List α) : Prop :=
  ∃ idx : List ι, idx.Nodup ∧ row = idx.map δ ∧ row.Pairwise (· ≤ ·) ∧
    ∀ j, j ∉ idx → ∀ r ∈ row, r ≤ δ j

/-- The part of a `PeriodicSet` (`/repo/src/amd/periodicset.py:17-108`) that the invariants use. Indices
in `asym_unit` are non-negative. -/
structure PeriodicSet (D : ℕ) where
  motif : List (Pt D ℝ)
  cell : Fin D → Pt D ℝ
  asymUnit : Option (List ℕ) := none
  multiplicities : Option (List ℕ) := none

/-- The rows of an invariant belong to the motif points `inds`, which stand for `mult` points each: the
asymmetric unit if it and the multiplicities are given, else all motif points. -/
def PeriodicSet.Units {D : ℕ} (S : PeriodicSet D) (inds : List (Fin S.motif.length)) (mult : List ℕ) : Prop :=
  (S.asymUnit = some (inds.map Fin.val) ∧ S.multiplicities = some mult ∧ inds.length = mult.length) ∨
  ((S.asymUnit = none ∨ S.multiplicities = none) ∧ inds = List.finRange S.motif.length ∧
    mult = List.replicate S.motif.length 1)

/-- The periodic set mapped by a linear map followed by a translation. -/
def PeriodicSet.image {D : ℕ} (S : PeriodicSet D) (R : Pt D ℝ →ₗ[ℝ] Pt D ℝ) (v : Pt D ℝ) : PeriodicSet D :=
  { S with motif := S.motif.map fun p => R p + v, cell := fun i => R (S.cell i) }

end Amd
