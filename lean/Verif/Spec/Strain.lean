import Verif.Spec.DescribedNear

/-!
# Specification: crystals under strain

The cell of one crystal is slightly deformed in the other, for example because it was measured at another temperature, and points may also be slightly displaced. No readers, files
or packages are involved.
-/

namespace Amd

section
variable {D : ℕ}

/-- The linear map changes no distance by more than the fraction `η`. -/
def Strain (η : ℝ) (A : Pt D ℝ →ₗ[ℝ] Pt D ℝ) : Prop := ∀ p q, |eucl (A p) (A q) - eucl p q| ≤ η * eucl p q

/-- After a strain of at most `η`, the sites of `S` can be paired off with those of `S'` so that no distance between two sites differs by more than `δ` from the distance of their
partners. -/
def StrainedListed (η δ : ℝ) (S S' : PeriodicSet D) : Prop :=
  ∃ A : Pt D ℝ →ₗ[ℝ] Pt D ℝ, Strain η A ∧ ∃ φ : Site S.motif.length D ≃ Site S'.motif.length D,
    ∀ s t, |eucl (sitePos S'.motif S'.cell (φ s)) (sitePos S'.motif S'.cell (φ t)) - eucl (A (sitePos S.motif S.cell s)) (A (sitePos S.motif S.cell t))| ≤ δ

/-- Gram matrices of the cells are equal up to the fraction `θ` of the products of lengths. -/
def EdgesClose (θ : ℝ) (cell cell' : Fin D → Pt D ℝ) : Prop := ∀ i j, |gram cell' i j - gram cell i j| ≤ θ * (√(gram cell i i) * √(gram cell j j))

end

/-- The same for the points of two crystals. -/
def DescribeStrained (η δ : ℝ) (c c' : Described) : Prop :=
  ∃ cell cell' : Fin 3 → Pt 3 ℝ, c.HasCell cell ∧ c'.HasCell cell' ∧ ∃ A : Pt 3 ℝ →ₗ[ℝ] Pt 3 ℝ, Strain η A ∧
    ∃ f : Pt 3 ℝ → Pt 3 ℝ, Set.BijOn f (c.points cell) (c'.points cell') ∧ ∀ p ∈ c.points cell, ∀ q ∈ c.points cell, |eucl (f p) (f q) - eucl (A p) (A q)| ≤ δ

/-- The same with points counted as often as they are listed. -/
def SitesStrained (η δ : ℝ) (c c' : SitesDescribed) : Prop :=
  ∃ cell cell' : Fin 3 → Pt 3 ℝ, c.HasCell cell ∧ c'.HasCell cell' ∧ ∃ A : Pt 3 ℝ →ₗ[ℝ] Pt 3 ℝ, Strain η A ∧
    ∃ φ : c.Listed cell ≃ c'.Listed cell', ∀ s t, |eucl ((φ s).2 : Pt 3 ℝ) (φ t).2 - eucl (A s.2) (A t.2)| ≤ δ

/-- With the second cell in place of the first one, no length of a vector with given fractional coordinates changes by more than the fraction `η`. -/
def CellNumbers.StrainedBy (η : ℝ) (c c' : CellNumbers) : Prop :=
  ∃ cell cell' : Fin 3 → Pt 3 ℝ, HasCellpar cell c.a c.b c.c c.α c.β c.γ ∧ HasCellpar cell' c'.a c'.b c'.c c'.α c'.β c'.γ ∧
    ∀ x, |eucl (cartesian cell' x) 0 - eucl (cartesian cell x) 0| ≤ η * eucl (cartesian cell x) 0

/-- The crystal was measured again: the operations are the same, the cell is strained by at most `η`, and the sites, in fractional coordinates, are displaced by at most `ε` (measured
in the second cell), see `SitesMoved`. -/
def Remeasured (η ε : ℝ) (c c' : Described) : Prop := c.cell.StrainedBy η c'.cell ∧ SitesMoved ε { c with cell := c'.cell } c'

/-- The same for listed sites. -/
def SitesRemeasured (η ε : ℝ) (c c' : SitesDescribed) : Prop := c.cell.StrainedBy η c'.cell ∧ ListedSitesMoved ε { c with cell := c'.cell } c'

end Amd
