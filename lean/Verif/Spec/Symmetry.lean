import Verif.Spec.Invariants

/-! Specification: symmetries of a point set, asymmetric units, close rows. -/

namespace Amd

variable {D : ℕ}

/-- `T` is an isometry that maps the point set `P` onto itself. -/
structure IsSymmetry (P : Set (Pt D ℝ)) (T : Pt D ℝ → Pt D ℝ) : Prop where
  isometry : ∀ p q, eucl (T p) (T q) = eucl p q
  maps : ∀ q ∈ P, T q ∈ P
  onto : ∀ q ∈ P, ∃ p ∈ P, T p = q

/-- `inds` and `mult` describe orbits of motif points: every motif point `i` is carried by some symmetry to the
representative `inds[orb i]`, and `mult[a]` counts the points with representative `a`. -/
def IsAsymUnit (motif : List (Pt D ℝ)) (cell : Fin D → Pt D ℝ) (inds : List (Fin motif.length))
    (mult : List ℕ) : Prop :=
  ∃ orb : Fin motif.length → Fin inds.length,
    mult = (List.finRange inds.length).map (fun a => (Finset.univ.filter fun i => orb i = a).card) ∧
    ∀ i, ∃ T, IsSymmetry (periodicPoints motif cell) T ∧ T motif[i] = motif[inds[orb i]]

/-- Rows that differ by at most `tol` in every entry. -/
def RowsClose (tol : ℝ) (r s : List ℝ) : Prop := ∀ j, |r.getD j 0 - s.getD j 0| ≤ tol

end Amd
