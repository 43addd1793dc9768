import Verif.Spec.Symmetry
import Verif.Spec.Periodic

/-! Specification: descriptions of a periodic set by motif, cell and asymmetric unit; isometric sets. -/

namespace Amd

variable {D : ℕ}

/-- `S` describes a periodic set: the vectors of the cell are independent, there are points, no point is listed twice, and the rows computed for the
motif points `inds` with multiplicities `mult` (the asymmetric unit if there is one, otherwise all points) stand for orbits of symmetries of the set. -/
structure IsDescription (S : PeriodicSet D) (inds : List (Fin S.motif.length)) (mult : List ℕ) : Prop where
  cell : NonSingular S.cell
  nonempty : S.motif ≠ []
  once : Function.Injective (sitePos S.motif S.cell)
  units : S.Units inds mult
  asym : IsAsymUnit S.motif S.cell inds mult
  pos : ∀ n ∈ mult, 0 < n

/-- A map preserving all distances carries the points of `S` onto those of `S'`. -/
def Isometric (S S' : PeriodicSet D) : Prop :=
  ∃ T : Pt D ℝ → Pt D ℝ, (∀ p q, eucl (T p) (T q) = eucl p q) ∧ periodicPoints S'.motif S'.cell = T '' periodicPoints S.motif S.cell

end Amd
