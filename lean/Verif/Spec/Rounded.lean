import Verif.Spec.Sites
import Verif.Spec.Isometric
import Verif.Spec.SpaceGroup

/-!
# Specification: crystals whose coordinates are written with few digits

A coordinate such as 1/3 cannot be written as a decimal number. What is written, for example 0.3333, describes an ideal crystal with rounded numbers. No readers, files or packages are
involved.
-/

namespace Amd

variable {D : ℕ}

/-- The sites `P` are the sites `P₀` with rounded coordinates: each coordinate is right up to `δ`, and up to whole cells. -/
def RoundedSites (δ : ℝ) (P P₀ : Set (Pt D ℝ)) : Prop := ∃ τ : Pt D ℝ → Pt D ℝ, P₀ = τ '' P ∧ ∀ x ∈ P, SameSite δ x (τ x)

/-- The operations `G` are the operations `G₀` with rounded translations. -/
def RoundedOps (δ : ℝ) (G G₀ : Set (FracOp D)) : Prop := ∃ σ : FracOp D → FracOp D, G₀ = σ '' G ∧ ∀ g ∈ G, (σ g).1 = g.1 ∧ SameSite δ g.2 (σ g).2

/-- The matrices of the operations have entries 0, 1 and -1 (or between these). -/
def UnitEntries (G : Set (FracOp D)) : Prop := ∀ g ∈ G, ∀ i j, |g.1 i j| ≤ 1

/-- The set is a description of the crystal with operations `G₀` and sites `P₀`, with the same asymmetric unit and the same multiplicities, except that each point of the motif is
displaced by at most `η` in each fractional coordinate (and perhaps by whole cells). -/
def RoundedSet (η : ℝ) (G₀ : Set (FracOp D)) (P₀ : Set (Pt D ℝ)) (S : PeriodicSet D) : Prop :=
  ∃ (S₀ : PeriodicSet D) (inds : List (Fin S₀.motif.length)) (mult : List ℕ), IsDescription S₀ inds mult ∧
    periodicPoints S₀.motif S₀.cell = crystalPoints S₀.cell G₀ P₀ ∧ S.cell = S₀.cell ∧ S.asymUnit = S₀.asymUnit ∧ S.multiplicities = S₀.multiplicities ∧
    List.Forall₂ (fun p p₀ => ∃ (n : Fin D → ℤ) (x : Pt D ℝ), (∀ j, |x j| ≤ η) ∧ ∀ c, p c = p₀ c + cartesian S₀.cell (fun i => n i + x i) c) S.motif S₀.motif

end Amd
