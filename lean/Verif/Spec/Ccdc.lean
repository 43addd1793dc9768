import Verif.Model.Objects
import Verif.Spec.Described

/-!
# Specification: entries of the CSD and what they describe

What the ccdc package does with molecules (components, the asymmetric unit and packing of a crystal whose molecule is set) is a parameter.
-/

namespace Amd

/-! ### Atoms -/

/-- The atom shows disorder: its occupancy is known and less than one, or its label ends with a question mark. -/
def CcdcAtom.Disordered (a : CcdcAtom) : Prop := (∃ o, a.occupancy = some o ∧ o < 1) ∨ ∃ l, a.label.toList = l ++ ['?']

/-- The atom is hydrogen or deuterium. -/
def CcdcAtom.Hydrogen (a : CcdcAtom) : Prop := a.symbol = "H" ∨ a.symbol = "D"

/-- The atom is one of those that the options ask for. -/
structure CcdcAtom.Used (rh : Bool) (d : String) (a : CcdcAtom) : Prop where
  ordered : d = "ordered_sites" → ¬a.Disordered
  heavy : rh = true → ¬a.Hydrogen
  coords : ∃ p, a.coords = some p

/-- The weight of a component: the sum of the atomic weights times occupancies, an unknown occupancy being 1. (All weights are known.) -/
def totalWeight (l : List CcdcAtom) : ℚ := (l.map fun a => a.weight.getD 0 * a.occupancy.getD 1).sum

/-- `p` is the mean of the positions of the atoms, all of which have coordinates. -/
def IsCentre (l : List CcdcAtom) (p : Pt 3 ℝ) : Prop := ∃ P : List (Pt 3 ℝ), l.map CcdcAtom.coords = P.map some ∧ P ≠ [] ∧ ∀ i, p i * P.length = (P.map fun q => q i).sum

/-- The points of the crystal made of the centres of the given molecules. -/
def centrePoints (cell : Fin 3 → Pt 3 ℝ) (comps : List (List CcdcAtom)) : Set (Pt 3 ℝ) :=
  {q | ∃ l ∈ comps, ∃ p, IsCentre l p ∧ ∃ n : Fin 3 → ℤ, q = cartesian cell fun i => p i + n i}

/-- `p` is the centre of mass of the atoms, all of which have coordinates and a weight. -/
def IsCentreOfMass (l : List CcdcAtom) (p : Pt 3 ℝ) : Prop :=
  ∃ P : List (ℚ × Pt 3 ℝ), l.map (fun a => (a.weight, a.coords)) = P.map (fun x => (some x.1, some x.2)) ∧ (P.map Prod.fst).sum ≠ 0 ∧
    ∀ i, p i * ((P.map Prod.fst).sum : ℚ) = (P.map fun x => (x.1 : ℝ) * x.2 i).sum

/-- The positions of the atoms of the asymmetric unit, as ccdc gives them. -/
def CcdcEnv.sites (env : CcdcEnv) (c : CcdcCrystal) : Set (Pt 3 ℝ) := {x | ∃ a ∈ env.asymAtoms c, a.coords = some x}

/-! ### Entries -/

/-- The atoms of a crystal that the options ask for. -/
noncomputable def CcdcCrystal.usedAtoms (rh : Bool) (d : String) (c : CcdcCrystal) : List CcdcAtom :=
  open Classical in c.disorderedMolecule.filter fun a => decide (a.Used rh d)

/-- The molecule that is left: the atoms that the options ask for; with `heaviest_component`, if there are several components, the heaviest of them (the first of those). -/
inductive CcdcLeft (env : CcdcEnv) (rh : Bool) (d : String) (heaviest : Bool) (c : CcdcCrystal) : List CcdcAtom → Prop
  | all (h : heaviest = true → (env.components (c.usedAtoms rh d)).length ≤ 1) : CcdcLeft env rh d heaviest c (c.usedAtoms rh d)
  | heaviest (hh : heaviest = true) (comps : List (List CcdcAtom)) (hc : env.components (c.usedAtoms rh d) = comps) (h2 : 2 ≤ comps.length)
      (hw : ∀ l ∈ comps, ∀ a ∈ l, a.weight ≠ none) (i : ℕ) (hi : i < comps.length)
      (hmax : ∀ j (hj : j < comps.length), totalWeight comps[j] ≤ totalWeight comps[i] ∧ (j < i → totalWeight comps[j] < totalWeight comps[i])) :
      CcdcLeft env rh d heaviest c comps[i]

/-- The entry has disorder. -/
def CcdcEntry.HasDisorder (x : CcdcEntry) : Prop := x.hasDisorder = true ∨ x.crystal.hasDisorder = true ∨ ∃ a ∈ x.crystal.disorderedMolecule, a.Disordered

/-- The crystal of the entry after the selection of atoms: the entry has a 3D structure, there is no disorder with `disorder='skip'`, and no atom has the symbol `''`
(`C72_ccdc_false`) or the impossible `'HD'`. -/
structure CcdcSelected (env : CcdcEnv) (rh : Bool) (d : String) (heaviest : Bool) (x : CcdcEntry) (c : CcdcCrystal) : Prop where
  has3d : x.has3d = true
  ordered : d = "skip" → ¬ x.HasDisorder
  symbols : ∀ a ∈ x.crystal.disorderedMolecule, a.symbol ≠ "" ∧ a.symbol ≠ "HD"
  left : ∃ m, CcdcLeft env rh d heaviest x.crystal m ∧ c = env.setMolecule x.crystal m

/-- What an entry describes, given the options; `none` if it is passed over. With `molecular_centres` the sites are the centres of the molecules in the cell, and there is
no symmetry. -/
inductive CcdcDescribes (env : CcdcEnv) (rh : Bool) (d : String) (heaviest centres : Bool) (x : CcdcEntry) : Option Described → Prop
  | flat (h : x.has3d = false) : CcdcDescribes env rh d heaviest centres x none
  | disordered (hd : d = "skip") (h : x.HasDisorder) : CcdcDescribes env rh d heaviest centres x none
  | noCell (c : CcdcCrystal) (hs : CcdcSelected env rh d heaviest x c) (h : none ∈ c.cellpar) : CcdcDescribes env rh d heaviest centres x none
  | empty (c : CcdcCrystal) (p : CellNumbers) (hs : CcdcSelected env rh d heaviest x c) (hp : CellDenotes c.cellpar p) (hc : centres = false) (h : env.asymAtoms c = []) :
      CcdcDescribes env rh d heaviest centres x none
  | atoms (c : CcdcCrystal) (p : CellNumbers) (G : Set (FracOp 3)) (hs : CcdcSelected env rh d heaviest x c) (hp : CellDenotes c.cellpar p)
      (hG : OperatorsDenote c.symmetryOperators G) (hc : centres = false) (hne : env.asymAtoms c ≠ []) (h : ∀ a ∈ env.asymAtoms c, a.coords ≠ none) :
      CcdcDescribes env rh d heaviest centres x (some ⟨c.identifier, p, G, env.sites c⟩)
  | centres (c : CcdcCrystal) (p : CellNumbers) (hs : CcdcSelected env rh d heaviest x c) (hp : CellDenotes c.cellpar p) (hc : centres = true) (hne : env.packing c ≠ [])
      (h : ∀ l ∈ env.packing c, ∃ q, IsCentre l q) :
      CcdcDescribes env rh d heaviest centres x (some ⟨c.identifier, p, {(fun i j => if i = j then 1 else 0, fun _ => 0)}, {q | ∃ l ∈ env.packing c, IsCentre l q}⟩)

end Amd
