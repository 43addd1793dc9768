import Verif.Model.CifBlocks

/-!
# Converting objects of ase, pymatgen and ccdc

Model of `periodicset_from_ase_atoms`, `periodicset_from_pymatgen_structure`, `periodicset_from_ccdc_entry`, `periodicset_from_ccdc_crystal`,
`_frac_molecular_centres_ccdc` and `_heaviest_component_ccdc`, `/repo/src/amd/io.py:1078-1453, 1757-1791`.

The converters change the objects they get: each function here returns the object as it is after the call together with the outcome. What the functions of the
packages do is a parameter; what is assumed of it is said where it is used. Coordinates are real numbers.
-/

namespace Amd

/-- The attributes of a `PeriodicSet`, `periodicset.py:17-108`; `None` is allowed for the name and the types. -/
structure FullSet where
  name : Option String := none
  set : PeriodicSet 3
  types : Option (List ℕ) := none

/-! ### ase -/

/-- The parts of an `ase.Atoms` that the converter uses: the cell, for each atom the atomic number and the coordinates with respect to the cell, and the
operations of `info['spacegroup']`. -/
structure AseAtoms where
  cell : Fin 3 → Pt 3 ℝ
  atoms : List (ℕ × Pt 3 ℝ)
  spacegroup : Option (List (AffineOp 3))

/-- `for i in inds: atoms.pop(i)`, `io.py:1114-1115`. -/
def popAll {α : Type} (l : List α) (inds : List ℕ) : List α := inds.foldl (fun l i => l.eraseIdx i) l

/-- `remove_inds` in the order in which the atoms are removed, `io.py:1110-1114`. (`sorted(..., reverse=True)` of the increasing indices of `np.where`.) -/
def AseAtoms.hydrogens (a : AseAtoms) : List ℕ := (indicesOf (a.atoms.map fun x => decide (x.1 = 1))).reverse

/-- The object after the removal of hydrogens, `io.py:1110-1115`. -/
def AseAtoms.strip (a : AseAtoms) (removeHydrogens : Bool) : AseAtoms := if removeHydrogens then { a with atoms := popAll a.atoms a.hydrogens } else a

/-- The operation that does nothing, `rot = np.identity(3)`, `trans = np.zeros(3)`, `io.py:1127-1128`. -/
noncomputable def identityOp : AffineOp 3 := ⟨fun i j => if i = j then 1 else 0, fun _ => 0⟩

/-- `periodicset_from_ase_atoms(atoms, remove_hydrogens)`, `io.py:1078-1147`. `basis` is `ase.spacegroup.get_basis(atoms, spacegroup=spg, tol=0.001)`; the
space group is part of `atoms`. `astype(np.uint8)` is the identity on atomic numbers. -/
noncomputable def aseAtomsConvert (basis : AseAtoms → Except Exc (List (Pt 3 ℝ))) (atoms : AseAtoms) (removeHydrogens : Bool) : AseAtoms × Conversion FullSet :=
  let a := atoms.strip removeHydrogens
  if a.atoms.length = 0 then (a, [], .error (.parse "ase Atoms object has no valid sites"))
  else
    let sym : List Warning × List (AffineOp 3) :=
      match a.spacegroup with
      | some ops => ([], ops)
      | none => ([⟨"UserWarning", "no symmetry data found, defaulting to P1"⟩], [identityOp])
    match basis a with
    | .error e => (a, sym.1, .error e)
    | .ok asym =>
      let r := expandAsymUnit asym sym.2 eqSiteTol true
      let muls := uniqueCounts r.2.1
      (a, sym.1 ++ r.2.2, .ok
        { set := { motif := r.1.map (toCartesian a.cell), cell := a.cell, asymUnit := some (asymInds muls), multiplicities := some muls }
          types := some (a.atoms.map Prod.fst) })

/-! ### pymatgen -/

/-- An `Element` (no oxidation state) or a `Species`. Two of them are equal if symbol and oxidation state are. -/
structure PmgSpecies where
  symbol : String
  oxidation : Option ℚ := none
  deriving DecidableEq

/-- A site of a structure: the species with their occupancies, and the coordinates with respect to the cell. -/
structure PmgSite where
  species : List (PmgSpecies × ℚ)
  pos : Pt 3 ℝ

/-- A `pymatgen.core.structure.Structure`. -/
structure PmgStructure where
  cell : Fin 3 → Pt 3 ℝ
  sites : List PmgSite

/-- `site.is_ordered` of pymatgen: one species with occupancy 1. -/
def PmgSite.isOrdered (s : PmgSite) : Bool :=
  match s.species with
  | [x] => decide (x.2 = 1)
  | _ => false

/-- `structure.is_ordered` of pymatgen. -/
def PmgStructure.isOrdered (s : PmgStructure) : Bool := s.sites.all PmgSite.isOrdered

/-- `composition.num_atoms` of pymatgen. -/
def PmgSite.numAtoms (s : PmgSite) : ℚ := (s.species.map Prod.snd).sum

/-- `structure.remove_species(species)` of pymatgen: the species are taken out of every site, and sites that become empty are removed. -/
def PmgStructure.removeSpecies (s : PmgStructure) (l : List PmgSpecies) : PmgStructure :=
  { s with sites := s.sites.filterMap fun x =>
      let rest := x.species.filter fun y => decide (y.1 ∉ l)
      if rest = [] then none else some { x with species := rest } }

/-- `structure.atomic_numbers` of pymatgen: an AttributeError unless all sites are ordered. -/
def PmgStructure.atomicNumbers (s : PmgStructure) : Except Exc (List ℕ) :=
  if s.isOrdered then .ok (s.sites.flatMap fun x => x.species.map fun y => atomicNumber y.1.symbol) else .error (.other "AttributeError")

/-- The sites that `disorder='ordered_sites'` removes, `io.py:1200-1205`. -/
def PmgStructure.removeDisordered (s : PmgStructure) : PmgStructure := { s with sites := deleteAt s.sites (indicesOf (s.sites.map fun x => decide (x.numAtoms < 1))) }

/-- The text of the ParseError, `io.py:1195-1199`. -/
def pmgDisorderText : String := "pymatgen Structure has disorder, pass disorder='ordered_sites' or 'all_sites' to remove/ignore disorder"

/-- `periodicset_from_pymatgen_structure(structure, remove_hydrogens, disorder)`, `io.py:1150-1239`. `conventional` is
`SpacegroupAnalyzer(structure).get_conventional_standard_structure()`. -/
noncomputable def pmgStructureConvert (conventional : PmgStructure → Except Exc PmgStructure) (structure_ : PmgStructure) (removeHydrogens : Bool) (disorder : String) :
    PmgStructure × Conversion FullSet :=
  let s := if removeHydrogens then structure_.removeSpecies [⟨"H", none⟩, ⟨"D", none⟩] else structure_
  if disorder = "skip" ∧ s.isOrdered = false then (s, [], .error (.parse pmgDisorderText))
  else
    let s := if disorder = "ordered_sites" then s.removeDisordered else s
    match conventional s with
    | .error e => (s, [], .error e)
    | .ok c =>
      match c.atomicNumbers with
      | .error e => (s, [], .error e)
      | .ok types =>
        (s, [], .ok
          { set := { motif := c.sites.map fun x => toCartesian c.cell x.pos, cell := c.cell, asymUnit := some (List.range c.sites.length),
                     multiplicities := some (List.replicate c.sites.length 1) }
            types := some types })

/-! ### ccdc -/

/-- An atom of a ccdc molecule. `none` stands for `None`; for the occupancy also for anything else that `float` does not accept. (Numbers are finite.) -/
structure CcdcAtom where
  label : String
  symbol : String
  number : ℕ
  weight : Option ℚ
  occupancy : Option ℚ
  coords : Option (Pt 3 ℝ)

/-- A ccdc crystal. A molecule is its list of atoms. -/
structure CcdcCrystal where
  identifier : String
  hasDisorder : Bool
  molecule : List CcdcAtom
  disorderedMolecule : List CcdcAtom
  cellpar : List (Option ℚ)
  symmetryOperators : List String

/-- What the ccdc package does: assigning `crystal.molecule`, and reading `molecule.components`, `crystal.asymmetric_unit_molecule.atoms` and
`[c.atoms for c in crystal.packing(inclusion='CentroidIncluded').components]`. -/
structure CcdcEnv where
  setMolecule : CcdcCrystal → List CcdcAtom → CcdcCrystal
  components : List CcdcAtom → List (List CcdcAtom)
  asymAtoms : CcdcCrystal → List CcdcAtom
  packing : CcdcCrystal → List (List CcdcAtom)

/-- `_has_disorder(a.label, a.occupancy)`, `io.py:1663-1669`. -/
def CcdcAtom.disordered (a : CcdcAtom) : Bool := hasDisorder a.label (.num (a.occupancy.getD 1))

/-- `a.atomic_symbol in 'HD'`, `io.py:1381`: the symbol is a substring of `HD`. -/
def CcdcAtom.isHydrogen (a : CcdcAtom) : Bool := decide (a.symbol.toList <:+: ['H', 'D'])

/-- The summands of the weight of a component, `io.py:1780-1787`; a missing weight is a TypeError, which is not caught. -/
def CcdcAtom.mass (a : CcdcAtom) : Except Exc ℚ :=
  match a.weight with
  | some w => .ok (w * a.occupancy.getD 1)
  | none => .error (.other "TypeError")

/-- The weight of a component, `io.py:1778-1788`. -/
def componentWeight (l : List CcdcAtom) : Except Exc ℚ := (l.mapM CcdcAtom.mass).map List.sum

/-- `np.argmax`: the first position of the largest entry; `best` is the largest so far, at position `at_`. -/
def argmaxFrom (best : ℚ) (at_ i : ℕ) : List ℚ → ℕ
  | [] => at_
  | x :: l => if best < x then argmaxFrom x i (i + 1) l else argmaxFrom best at_ (i + 1) l

/-- `_heaviest_component_ccdc(molecule)`, `io.py:1770-1791`. -/
def heaviestComponent (env : CcdcEnv) (molecule : List CcdcAtom) : Except Exc (List CcdcAtom) :=
  match (env.components molecule).mapM componentWeight with
  | .error e => .error e
  | .ok [] => .error (.other "ValueError")
  | .ok (w :: ws) => .ok ((env.components molecule).getD (argmaxFrom w 0 1 ws) [])

/-- The centre of a list of points, `io.py:1764-1765`. -/
noncomputable def centreOf (l : List (Pt 3 ℝ)) : Pt 3 ℝ := fun i => (l.map fun p => p i).sum / l.length

/-- `_frac_molecular_centres_ccdc(crystal, tol)`, `io.py:1757-1767`. An atom without coordinates is a TypeError. If a component is empty, or there are no
components, the array has not the right shape. -/
noncomputable def molecularCentres (comps : List (List CcdcAtom)) (tol : ℝ) : Except Exc (List (Pt 3 ℝ)) :=
  match comps.mapM fun c => c.mapM CcdcAtom.coords with
  | none => .error (.other "TypeError")
  | some pts =>
    if pts = [] ∨ [] ∈ pts then .error (.other "shape")
    else
      let centres := pts.map fun l => fun i => Int.fract (centreOf l i)
      .ok (selectMask centres (uniqueSites tol centres))

/-- The warning about overlapping sites, `io.py:1424`. -/
def ccdcOverlapText : String := "may have overlapping sites; duplicates will be removed"

/-- The selection of atoms, `io.py:1363-1392`: the molecule that is assigned to the crystal. -/
def ccdcSelect (env : CcdcEnv) (crystal : CcdcCrystal) (removeHydrogens : Bool) (disorder : String) (heaviest : Bool) : Conversion (List CcdcAtom) :=
  let m := crystal.disorderedMolecule
  if disorder = "skip" ∧ (crystal.hasDisorder || m.any CcdcAtom.disordered) = true then
    ([], .error (.parse (crystal.identifier ++ " has disorder, pass disorder='ordered_sites' or 'all_sites' to remove/ignore disorder")))
  else
    let m := if disorder = "ordered_sites" then m.filter fun a => !a.disordered else m
    let m := if removeHydrogens then m.filter fun a => !a.isHydrogen else m
    let missing := m.any fun a => a.coords.isNone
    let ws : List Warning := if missing then [⟨"UserWarning", "atoms without sites or missing data will be removed"⟩] else []
    let m := if missing then m.filter fun a => !a.coords.isNone else m
    if heaviest = true ∧ 1 < (env.components m).length then (ws, heaviestComponent env m) else (ws, .ok m)

/-- The unit cell, `io.py:1395-1398`. -/
noncomputable def ccdcCell (crystal : CcdcCrystal) : Except Exc (Fin 3 → Pt 3 ℝ) :=
  match crystal.cellpar.mapM id with
  | none => .error (.parse (crystal.identifier ++ " has missing cell data"))
  | some qs => cellOfNumbers qs

/-- The symmetry operations, `io.py:1430-1437`. -/
noncomputable def ccdcSymmetry (crystal : CcdcCrystal) : Conversion (List (AffineOp 3)) :=
  if crystal.symmetryOperators = [] then ([⟨"UserWarning", "no symmetry data found, defaulting to P1"⟩], parseOps ["x,y,z"])
  else ([], parseOps crystal.symmetryOperators)

/-- `np.mod(asym_unit, 1)`, `io.py:1412`. -/
noncomputable def fractPt (p : Pt 3 ℝ) : Pt 3 ℝ := fun i => Int.fract (p i)

/-- `periodicset_from_ccdc_crystal(crystal, remove_hydrogens, disorder, heaviest_component, molecular_centres)`, `io.py:1313-1453`. -/
noncomputable def ccdcConvert (env : CcdcEnv) (crystal : CcdcCrystal) (removeHydrogens : Bool) (disorder : String) (heaviest centres : Bool) :
    CcdcCrystal × Conversion FullSet :=
  let sel := ccdcSelect env crystal removeHydrogens disorder heaviest
  match sel.2 with
  | .error e => (crystal, sel.1, .error e)
  | .ok molecule =>
    let c := env.setMolecule crystal molecule
    match ccdcCell c with
    | .error e => (c, sel.1, .error e)
    | .ok cell =>
      if centres then
        match molecularCentres (env.packing c) eqSiteTol with
        | .error e => (c, sel.1, .error e)
        | .ok pts => (c, sel.1, .ok { name := some c.identifier, set := { motif := pts.map (toCartesian cell), cell := cell } })
      else
        match (env.asymAtoms c).mapM CcdcAtom.coords with
        | none => (c, sel.1, .error (.other "TypeError"))
        | some asym =>
          if asym.length = 0 then (c, sel.1, .error (.parse (c.identifier ++ " has no valid sites")))
          else
            let r := finishSites c.identifier cell disorder ccdcOverlapText (asym.map fractPt) ((env.asymAtoms c).map CcdcAtom.number) (ccdcSymmetry c)
            (c, sel.1 ++ r.1, r.2.map fun s => { name := some s.name, set := s.set, types := some s.types })

/-- A ccdc entry. -/
structure CcdcEntry where
  identifier : String
  has3d : Bool
  hasDisorder : Bool
  crystal : CcdcCrystal

/-- `periodicset_from_ccdc_entry(entry, ...)`, `io.py:1242-1310`. -/
noncomputable def ccdcEntryConvert (env : CcdcEnv) (entry : CcdcEntry) (removeHydrogens : Bool) (disorder : String) (heaviest centres : Bool) :
    CcdcEntry × Conversion FullSet :=
  if entry.has3d = false then (entry, [], .error (.parse (entry.identifier ++ " has no 3D structure")))
  else if disorder = "skip" ∧ entry.hasDisorder = true then
    (entry, [], .error (.parse (entry.identifier ++ " has disorder, pass disorder='ordered_sites' or 'all_sites' to remove/ignore disorder")))
  else
    let r := ccdcConvert env entry.crystal removeHydrogens disorder heaviest centres
    ({ entry with crystal := r.1 }, r.2)

end Amd
