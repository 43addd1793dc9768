import Verif.Spec.CifCompare

/-!
# Specification: files and refcodes of crystals with `disorder='all_sites'`

The sites of an entry form a list: two sites may be at the same place.
-/

namespace Amd

/-- A crystal as it is described in a file or database, with its sites in order. -/
structure SitesDescribed where
  name : String
  cell : CellNumbers
  ops : Set (FracOp 3)
  sites : List (Pt 3 ℝ)

/-- The cell is not flat, the operations form a space group of the cell, and no two different images of a site are within the tolerance of the readers. Images of different sites
may be anywhere. -/
structure SitesDescribed.Proper (c : SitesDescribed) : Prop where
  group : ∃ cell, HasCellpar cell c.cell.a c.cell.b c.cell.c c.cell.α c.cell.β c.cell.γ ∧ NonSingular cell ∧ IsSpaceGroup cell c.ops
  exact : ∀ x ∈ c.sites, ExactSites (1 / 1000) c.ops {x}

/-- The periodic set has the name and the lengths and angles of the cell, and lists the orbits of all sites, in their order. -/
def ListsCrystal (c : SitesDescribed) (x : Crystal) : Prop :=
  ∃ S : PeriodicSet 3, x = ⟨c.name, 3, S⟩ ∧ HasCellpar S.cell c.cell.a c.cell.b c.cell.c c.cell.α c.cell.β c.cell.γ ∧
    ∃ orbits, ListsOrbits c.ops orbits S ∧ orbits.map SiteOrbit.site = c.sites

/-- What an entry of a CIF file describes: all sites, but no hydrogens if these are removed. An entry without sites is passed over. -/
inductive EntryDescribesAll (asString : String → String) (rh : Bool) (e : CifEntry) : Option SitesDescribed → Prop
  | empty (hw : e.Written) (h : e.sites asString rh "all_sites" = ∅) : EntryDescribesAll asString rh e none
  | crystal (hw : e.Written) (hne : (e.sites asString rh "all_sites").Nonempty) (sites : List (Pt 3 ℝ))
      (h : List.Forall₂ (WrittenPoint e.tags) (open Classical in e.rows.filter fun r => WrittenUsed asString e.tags rh "all_sites" r) sites) :
      EntryDescribesAll asString rh e (some ⟨e.name, e.cell, e.ops, sites⟩)

/-- What an entry of the CSD describes (see `CcdcDescribes`): all atoms of the asymmetric unit. -/
inductive CcdcDescribesAll (env : CcdcEnv) (rh heaviest : Bool) (x : CcdcEntry) : Option SitesDescribed → Prop
  | flat (h : x.has3d = false) : CcdcDescribesAll env rh heaviest x none
  | noCell (c : CcdcCrystal) (hs : CcdcSelected env rh "all_sites" heaviest x c) (h : none ∈ c.cellpar) : CcdcDescribesAll env rh heaviest x none
  | empty (c : CcdcCrystal) (p : CellNumbers) (hs : CcdcSelected env rh "all_sites" heaviest x c) (hp : CellDenotes c.cellpar p) (h : env.asymAtoms c = []) :
      CcdcDescribesAll env rh heaviest x none
  | atoms (c : CcdcCrystal) (p : CellNumbers) (G : Set (FracOp 3)) (hs : CcdcSelected env rh "all_sites" heaviest x c) (hp : CellDenotes c.cellpar p)
      (hG : OperatorsDenote c.symmetryOperators G) (hne : env.asymAtoms c ≠ []) (sites : List (Pt 3 ℝ))
      (h : List.Forall₂ (fun a y => a.coords = some y) (env.asymAtoms c) sites) :
      CcdcDescribesAll env rh heaviest x (some ⟨c.identifier, p, G, sites⟩)

/-- What the entries at a path describe, for each of the backends. -/
inductive PathHoldsAll (B : CifBackends) (asString : String → String) (o : ReadOptions) (path : String) (rs : List (Option SitesDescribed)) : Prop
  | gemmi (hr : o.reader = "gemmi") (ho : o.heaviest = false)
      (h : HoldsEntries ["cif"] (fun b r => ∃ e, GemmiHolds B.gemmi asString b e ∧ EntryDescribesAll asString o.rh e r) (B.gemmiFiles path) rs)
  | ase (hr : o.reader = "ase" ∨ o.reader = "pycodcif") (ho : o.heaviest = false)
      (h : HoldsEntries ["cif"] (fun b r => ∃ e, AseHolds B.ase asString b e ∧ EntryDescribesAll asString o.rh e r) (B.aseFiles o.reader path) rs)
  | pymatgen (hr : o.reader = "pymatgen") (ho : o.heaviest = false)
      (h : HoldsEntries ["cif"] (fun b r => ∃ e, PmgHolds B.pymatgen asString b e ∧ EntryDescribesAll asString o.rh e r) (B.pymatgenFiles path) rs)
  | ccdc (P : CcdcPackage) (hP : B.ccdc = some P) (hs : "" ∉ P.suffixes) (hr : o.reader = "ccdc")
      (h : HoldsEntries P.suffixes (CcdcDescribesAll P.env o.rh o.heaviest) (P.files path) rs)

end Amd
