import Verif.Spec.Isometric

/-!
# Specification: periodic sets that list points more than once

With `disorder='all_sites'` a point of a crystal may be listed once for each of several sites. A periodic set is then not determined by its points, but by how often each of
them is listed.
-/

namespace Amd

variable {D : ℕ}

/-- How often the point `p` is listed: the number of sites at `p`. -/
noncomputable def timesListed (S : PeriodicSet D) (p : Pt D ℝ) : ℕ := Nat.card {s : Site S.motif.length D // sitePos S.motif S.cell s = p}

/-- `T` preserves distances and carries `S` to `S'`: each point is carried to a point that is listed as often in `S'`. -/
structure Carries (T : Pt D ℝ → Pt D ℝ) (S S' : PeriodicSet D) : Prop where
  isometry : ∀ p q, eucl (T p) (T q) = eucl p q
  times : ∀ p, timesListed S' (T p) = timesListed S p

/-- Two periodic sets, with points that may be listed more than once, are isometric. -/
def IsometricListed (S S' : PeriodicSet D) : Prop := ∃ T, Carries T S S'

/-- The sites of `S` and of `S'` can be paired off so that no distance between two sites of `S` differs by more than `δ` from the distance of their partners. -/
def AlmostIsometricListed (δ : ℝ) (S S' : PeriodicSet D) : Prop :=
  ∃ φ : Site S.motif.length D ≃ Site S'.motif.length D,
    ∀ s t, |eucl (sitePos S'.motif S'.cell (φ s)) (sitePos S'.motif S'.cell (φ t)) - eucl (sitePos S.motif S.cell s) (sitePos S.motif S.cell t)| ≤ δ

/-- `S` lists a periodic set: as `IsDescription`, but points may be listed more than once. The rows computed for the motif points `inds` with multiplicities `mult` stand for motif
points that symmetries carry to them, where a symmetry carries each point to one that is listed as often. -/
structure IsListing (S : PeriodicSet D) (inds : List (Fin S.motif.length)) (mult : List ℕ) : Prop where
  cell : NonSingular S.cell
  nonempty : S.motif ≠ []
  units : S.Units inds mult
  asym : ∃ orb : Fin S.motif.length → Fin inds.length,
    mult = (List.finRange inds.length).map (fun a => (Finset.univ.filter fun i => orb i = a).card) ∧ ∀ i, ∃ T, Carries T S S ∧ T S.motif[i] = S.motif[inds[orb i]]
  pos : ∀ n ∈ mult, 0 < n

end Amd
