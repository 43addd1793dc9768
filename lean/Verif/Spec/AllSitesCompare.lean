import Verif.Spec.AllSitesRead
import Verif.Spec.Repeated

/-!
# Specification: crystals with overlapping sites, their invariants, and files and refcodes of them

A crystal in which sites may overlap is given by how often each point is listed. No readers are involved.
-/

namespace Amd

/-! ### Invariants -/

section
variable {D : ℕ}

/-- The motif, repeated by the cell, lists each point `p` `times p` times, and `R` has for each point of the motif the distances to its `k` nearest other listed points. -/
structure ListedRows (times : Pt D ℝ → ℕ) (k : ℕ) (motif : List (Pt D ℝ)) (cell : Fin D → Pt D ℝ) (R : Fin motif.length → List ℝ) : Prop where
  independent : NonSingular cell
  nonempty : motif ≠ []
  times : ∀ p, timesListed { motif := motif, cell := cell } p = times p
  rows : ∀ i, IsNeighbourRow motif cell i k (R i)

/-- The AMD: the `j`-th entry is the mean, over a motif, of the distance to the `j`-th nearest other listed point. -/
def IsListedAMD (times : Pt D ℝ → ℕ) (k : ℕ) (a : List ℝ) : Prop :=
  ∃ motif cell R, ListedRows times k motif cell R ∧ a = (List.range k).map fun j => (∑ i, (R i).getD j 0) / motif.length

/-- The PDD: weighted rows, where the weight of a row is the fraction of the points of a motif that have this row of distances. -/
def IsListedPDD (times : Pt D ℝ → ℕ) (k : ℕ) (p : List (PRow ℝ)) : Prop :=
  WeightedRows k p ∧ ∃ motif cell R, ListedRows times k motif cell R ∧ ∀ x, weightAt p x = (∑ i, (open Classical in if R i = x then (1 : ℝ) else 0)) / motif.length

end

/-- Vectors with the lengths and angles of the cell. -/
def SitesDescribed.HasCell (c : SitesDescribed) (cell : Fin 3 → Pt 3 ℝ) : Prop := HasCellpar cell c.cell.a c.cell.b c.cell.c c.cell.α c.cell.β c.cell.γ

/-- How often a point is listed in the crystal, with these vectors of the cell: the number of sites of which it is an image. -/
noncomputable def SitesDescribed.times (c : SitesDescribed) (cell : Fin 3 → Pt 3 ℝ) (p : Pt 3 ℝ) : ℕ :=
  open Classical in c.sites.countP fun x => p ∈ crystalPoints cell c.ops {x}

/-- The number of points in a cell is at most the number of sites times the number of operations. -/
noncomputable def SitesDescribed.size (c : SitesDescribed) : ℕ := c.sites.length * c.ops.ncard

/-- There are sites, and finitely many operations, with at most `10⁸` points in a cell. -/
structure SitesDescribed.Comparable (c : SitesDescribed) : Prop where
  proper : c.Proper
  finiteOps : c.ops.Finite
  nonempty : c.sites ≠ []
  size : c.size ≤ 100000000

/-- The two descriptions are of the same crystal: an isometry carries each point to a point that is listed as often. -/
def SameSites (c c' : SitesDescribed) : Prop :=
  ∃ cell cell' : Fin 3 → Pt 3 ℝ, c.HasCell cell ∧ c'.HasCell cell' ∧ ∃ T : Pt 3 ℝ → Pt 3 ℝ, (∀ p q, eucl (T p) (T q) = eucl p q) ∧
    ∀ p, c'.times cell' (T p) = c.times cell p

/-- The cell is not too oblique for the search of `k` neighbours. -/
def SitesDescribed.WellShaped (k : ℕ) (c : SitesDescribed) : Prop := ∃ cell, c.HasCell cell ∧ (HalfDominant cell ∨ Reduced cell ∧ c.size ≤ k + 1)

/-- The AMD of the crystal that is described. -/
def SitesDescribed.IsAMD (c : SitesDescribed) (k : ℕ) (a : List ℝ) : Prop := ∃ cell, c.HasCell cell ∧ IsListedAMD (c.times cell) k a

/-- The PDD of the crystal that is described. -/
def SitesDescribed.IsPDD (c : SitesDescribed) (k : ℕ) (p : List (PRow ℝ)) : Prop := ∃ cell, c.HasCell cell ∧ IsListedPDD (c.times cell) k p

/-! ### Arguments of `compare` -/

/-- What the entries of the CSD with the refcodes describe. -/
def RefcodesHoldAll (B : CifBackends) (o : ReadOptions) (given : List String) (rs : List (Option SitesDescribed)) : Prop :=
  ∃ P, B.ccdc = some P ∧ ∃ codes, IsRefcodes P.search o.families given codes ∧
    List.Forall₂ (fun c r => ∃ x, P.entry c = .item x ∧ CcdcDescribesAll P.env o.rh o.heaviest x r) codes rs

/-- The argument of `compare` stands for these crystals, in order: those at paths, or, with `csd_refcodes=True`, those of refcodes. -/
inductive InputHoldsAll (B : CifBackends) (asString : String → String) (o : ReadOptions) (inp : Input) (cs : List SitesDescribed) : (csd : Bool) → Prop
  | paths (paths : List String) (f : String → List (Option SitesDescribed)) (hp : IsStrings inp paths) (h : ∀ p ∈ paths, PathHoldsAll B asString o p (f p))
      (hc : cs = (paths.flatMap f).reduceOption) : InputHoldsAll B asString o inp cs false
  | refcodes (given : List String) (rs : List (Option SitesDescribed)) (hp : IsStrings inp given) (h : RefcodesHoldAll B o given rs) (hc : cs = rs.reduceOption) :
      InputHoldsAll B asString o inp cs true

end Amd
