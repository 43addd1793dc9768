import Verif.Spec.AllSitesCompare

/-!
# Specification: descriptions of crystals that are almost the same

No readers, files or packages are involved.
-/

namespace Amd

/-- The points of the two crystals can be paired off so that no distance between two points differs by more than `δ` from the distance of their partners. -/
def DescribeNear (δ : ℝ) (c c' : Described) : Prop :=
  ∃ cell cell' : Fin 3 → Pt 3 ℝ, c.HasCell cell ∧ c'.HasCell cell' ∧ ∃ f : Pt 3 ℝ → Pt 3 ℝ, Set.BijOn f (c.points cell) (c'.points cell') ∧
    ∀ p ∈ c.points cell, ∀ q ∈ c.points cell, |eucl (f p) (f q) - eucl p q| ≤ δ

/-- The points as they are listed: a point together with a site of which it is an image. -/
abbrev SitesDescribed.Listed (c : SitesDescribed) (cell : Fin 3 → Pt 3 ℝ) : Type := Σ i : Fin c.sites.length, crystalPoints cell c.ops {c.sites[i]}

/-- As `DescribeNear`, with points counted as often as they are listed. -/
def SitesNear (δ : ℝ) (c c' : SitesDescribed) : Prop :=
  ∃ cell cell' : Fin 3 → Pt 3 ℝ, c.HasCell cell ∧ c'.HasCell cell' ∧ ∃ φ : c.Listed cell ≃ c'.Listed cell',
    ∀ s t, |eucl ((φ s).2 : Pt 3 ℝ) (φ t).2 - eucl (s.2 : Pt 3 ℝ) t.2| ≤ δ

/-- Two images of `p` and `q` under operations coincide, up to a lattice vector, exactly if those of `p'` and `q'` do. -/
def SameImages (G : Set (FracOp 3)) (p q p' q' : Pt 3 ℝ) : Prop :=
  ∀ g ∈ G, ∀ h ∈ G, ∀ n : Fin 3 → ℤ, (∀ i, opPoint g p i = opPoint h q i + n i) ↔ ∀ i, opPoint g p' i = opPoint h q' i + n i

/-- The second description has the same cell and operations, and its sites are those of the first moved by at most `ε`; images of sites that coincide still do, and no others. -/
def SitesMoved (ε : ℝ) (c c' : Described) : Prop :=
  c'.cell = c.cell ∧ c'.ops = c.ops ∧ ∃ τ : Pt 3 ℝ → Pt 3 ℝ, c'.sites = τ '' c.sites ∧ (∀ p ∈ c.sites, ∀ q ∈ c.sites, SameImages c.ops p q (τ p) (τ q)) ∧
    ∀ cell, c.HasCell cell → ∀ p ∈ c.sites, eucl (cartesian cell p) (cartesian cell (τ p)) ≤ ε

/-- The second description has the same cell and operations, and its sites are those of the first, in their order, moved by at most `ε`; images of a site that coincide still do,
and no others. -/
def ListedSitesMoved (ε : ℝ) (c c' : SitesDescribed) : Prop :=
  c'.cell = c.cell ∧ c'.ops = c.ops ∧
    List.Forall₂ (fun p p' => SameImages c.ops p p p' p' ∧ ∀ cell, c.HasCell cell → eucl (cartesian cell p) (cartesian cell p') ≤ ε) c.sites c'.sites

end Amd
