import Verif.Spec.Written
import Verif.Spec.CifBlocks
import Verif.Spec.Symmetry
import Verif.Spec.Isometric
import Verif.Spec.Cells
import Verif.Spec.AllSites
import Verif.Spec.Rounded
import Mathlib.Data.Set.Card

/-!
# Specification: an entry of a CIF file, and how it looks to gemmi, ase and pymatgen

An entry is what is written in a block of a CIF file, without regard to the package that parses it. `GemmiHolds`, `AseHolds` and `PmgHolds` say when the block
that a package returns holds the entry.
-/

namespace Amd

/-- A block with a table of sites: its name, tags and rows of the table, lengths and angles of the cell and the symmetry operations. -/
structure CifEntry where
  name : String
  tags : List String
  rows : List (List String)
  cell : CellNumbers
  ops : Set (FracOp 3)

/-- The lengths and angles with their tags. -/
def CellNumbers.tagged (p : CellNumbers) : List (String × ℚ) :=
  [("_cell_length_a", p.a), ("_cell_length_b", p.b), ("_cell_length_c", p.c), ("_cell_angle_alpha", p.α), ("_cell_angle_beta", p.β), ("_cell_angle_gamma", p.γ)]

/-- Vectors with the lengths and angles of the cell. -/
def CifEntry.HasCell (e : CifEntry) (cell : Fin 3 → Pt 3 ℝ) : Prop := HasCellpar cell e.cell.a e.cell.b e.cell.c e.cell.α e.cell.β e.cell.γ

/-- The sites (fractional coordinates) that count, given the options of the reader. -/
def CifEntry.sites (asString : String → String) (rh : Bool) (d : String) (e : CifEntry) : Set (Pt 3 ℝ) := WrittenSites asString e.tags e.rows rh d

/-- The block is passed over: it has disorder, and `disorder='skip'`, or it has no sites that count. -/
def CifEntry.Skipped (asString : String → String) (rh : Bool) (d : String) (e : CifEntry) : Prop :=
  (d = "skip" ∧ ∃ r ∈ e.rows, WrittenDisordered asString e.tags r) ∨ e.sites asString rh d = ∅

/-- The entry is written as it should be: the table has coordinates, coordinates and occupancies are numbers, there is a cell with the lengths and angles, and
there are finitely many operations. -/
structure CifEntry.Written (e : CifEntry) : Prop where
  table : AtomTable e.tags e.rows
  numbers : ∀ r ∈ e.rows, ∀ tag ∈ ["_atom_site_fract_x", "_atom_site_fract_y", "_atom_site_fract_z", "_atom_site_occupancy"], ∀ s, field e.tags r tag = some s →
    ∃ q, WritesNumber s q
  decimal : ∀ x ∈ e.cell.tagged, ∃ s, WritesNumber s x.2
  valid : e.cell.Valid
  finite : e.ops.Finite

/-- Hydrogens that are removed are not disordered (only needed for `disorder='skip'`). -/
def CifEntry.OrderedHydrogens (asString : String → String) (rh : Bool) (d : String) (e : CifEntry) : Prop :=
  rh = true → d = "skip" → ∀ r ∈ e.rows, HydrogenRow asString e.tags r → ¬ WrittenDisordered asString e.tags r

/-- The entry without the rows of hydrogens. -/
noncomputable def CifEntry.withoutHydrogens (asString : String → String) (e : CifEntry) : CifEntry :=
  { e with rows := open Classical in e.rows.filter fun r => ¬ HydrogenRow asString e.tags r }

/-! ### gemmi -/

/-- The block of gemmi holds the entry. -/
structure GemmiHolds (env : GemmiEnv) (asString : String → String) (b : GemmiBlock) (e : CifEntry) : Prop where
  unquote : env.asString = asString
  name : b.name = e.name
  table : b.fractLoop = some ⟨e.tags, e.rows.flatten⟩
  cell : ∀ x ∈ e.cell.tagged, GivesNumber b x.1 x.2
  ops : DescribesOps env b e.ops

/-! ### ase -/

/-- What ase makes of a text: a number if it is one, else it takes off quotes. -/
def AseValue (asString : String → String) (s : String) (i : AseItem) : Prop :=
  (∃ q, WritesNumber s q ∧ i = .num q) ∨ ((∀ q, ¬ WritesNumber s q) ∧ i = .str (asString s))

/-- The symmetry operations of a block of ase: those under the first tag for operations that the block has, in a loop or not; if it has no such tag, those of the
space group whose name or else number it has; without any, those of space group 1. The tags of space groups are in lower case. -/
inductive AseDescribesOps (env : AseEnv) (a : AseBlock) : Set (FracOp 3) → Prop
  | listed (pre post : List String) (tag : String) (texts : List String) (G : Set (FracOp 3))
      (h : ["_space_group_symop_operation_xyz", "_space_group_symop.operation_xyz", "_symmetry_equiv_pos_as_xyz"] = pre ++ tag :: post)
      (h0 : ∀ t ∈ pre, a.get t = none) (ht : a.get tag = some (.list (texts.map .str))) (h1 : ∀ s ∈ texts, ∃ g ∈ G, WritesOp s g)
      (h2 : ∀ g ∈ G, ∃ s ∈ texts, WritesOp s g) : AseDescribesOps env a G
  | single (pre post : List String) (tag s : String) (g : FracOp 3)
      (h : ["_space_group_symop_operation_xyz", "_space_group_symop.operation_xyz", "_symmetry_equiv_pos_as_xyz"] = pre ++ tag :: post)
      (h0 : ∀ t ∈ pre, a.get t = none) (ht : a.get tag = some (.item (.str s))) (h1 : WritesOp s g) : AseDescribesOps env a {g}
  | group (pre post : List String) (tag : String) (v : AseVal) (ops : List (AffineOp 3))
      (h0 : ∀ t ∈ ["_space_group_symop_operation_xyz", "_space_group_symop.operation_xyz", "_symmetry_equiv_pos_as_xyz"], a.get t = none)
      (h : ["_space_group_name_h-m_alt", "_symmetry_space_group_name_h-m", "_space_group_it_number", "_symmetry_int_tables_number"] = pre ++ tag :: post)
      (h1 : ∀ t ∈ pre, a.get t = none) (ht : a.get tag = some v) (h2 : env.spacegroup v = .ok ops) : AseDescribesOps env a (asOps ops)
  | primitive (ops : List (AffineOp 3))
      (h0 : ∀ t ∈ ["_space_group_symop_operation_xyz", "_space_group_symop.operation_xyz", "_symmetry_equiv_pos_as_xyz"], a.get t = none)
      (h1 : ∀ t ∈ ["_space_group_name_h-m_alt", "_symmetry_space_group_name_h-m", "_space_group_it_number", "_symmetry_int_tables_number"], a.get t = none)
      (h2 : env.spacegroup (.item (.num 1)) = .ok ops) : AseDescribesOps env a (asOps ops)

/-- The block of ase holds the entry: each column of the table is a list, with numbers for texts of numbers; labels and type symbols are no numbers, and there are
type symbols. -/
structure AseHolds (env : AseEnv) (asString : String → String) (a : AseBlock) (e : CifEntry) : Prop where
  name : a.name = e.name
  symbols : "_atom_site_type_symbol" ∈ e.tags
  words : ∀ r ∈ e.rows, ∀ t ∈ ["_atom_site_label", "_atom_site_type_symbol"], ∀ s, field e.tags r t = some s → ∀ q, ¬ WritesNumber s q
  columns : ∀ t ∈ siteTags, t ∈ e.tags → ∃ l, a.get t = some (.list l) ∧ List.Forall₂ (fun r i => ∃ s, field e.tags r t = some s ∧ AseValue asString s i) e.rows l
  absent : ∀ t ∈ siteTags, t ∉ e.tags → a.get t = none
  cell : ∀ x ∈ e.cell.tagged, a.get x.1 = some (.item (.num x.2))
  ops : AseDescribesOps env a e.ops

/-! ### pymatgen -/

/-- The block of pymatgen has nothing under the tag. -/
def PmgNothing (b : PmgBlock) (t : String) : Prop := b.get t = none ∨ b.get t = some (.str "") ∨ b.get t = some (.list [])

/-- The block of pymatgen has no name of a space group that pymatgen knows under the tag (white space and underscores in names do not count). -/
def PmgUnnamed (env : PmgEnv) (b : PmgBlock) (t : String) : Prop := PmgNothing b t ∨ ∃ s, b.get t = some (.str s) ∧ env.spaceGroups (squeeze s) = none

/-- The symmetry operations of a block of pymatgen: those under the first tag for operations with something; else those of the first name of a space group that
pymatgen knows, from its own table or else from that of the COD; else those of the number; without any, there is only the identity. -/
inductive PmgDescribesOps (env : PmgEnv) (b : PmgBlock) : Set (FracOp 3) → Prop
  | listed (pre post : List String) (tag : String) (texts : List String) (G : Set (FracOp 3))
      (h : ["_space_group_symop_operation_xyz", "_space_group_symop.operation_xyz", "_symmetry_equiv_pos_as_xyz"] = pre ++ tag :: post)
      (h0 : ∀ t ∈ pre, PmgNothing b t) (ht : b.get tag = some (.list texts)) (hne : texts ≠ []) (h1 : ∀ s ∈ texts, ∃ g ∈ G, WritesOp s g)
      (h2 : ∀ g ∈ G, ∃ s ∈ texts, WritesOp s g) : PmgDescribesOps env b G
  | single (pre post : List String) (tag s : String) (g : FracOp 3)
      (h : ["_space_group_symop_operation_xyz", "_space_group_symop.operation_xyz", "_symmetry_equiv_pos_as_xyz"] = pre ++ tag :: post)
      (h0 : ∀ t ∈ pre, PmgNothing b t) (ht : b.get tag = some (.str s)) (h1 : WritesOp s g) : PmgDescribesOps env b {g}
  | named (pre post : List String) (tag s spg : String) (ops : List (AffineOp 3))
      (h0 : ∀ t ∈ ["_space_group_symop_operation_xyz", "_space_group_symop.operation_xyz", "_symmetry_equiv_pos_as_xyz"], PmgNothing b t)
      (h : ["_space_group_name_H-M_alt", "_symmetry_space_group_name_H-M"] = pre ++ tag :: post) (h1 : ∀ t ∈ pre, PmgUnnamed env b t)
      (ht : b.get tag = some (.str s)) (hs : s ≠ "") (h2 : env.spaceGroups (squeeze s) = some spg) (h3 : env.symbolOps spg = some ops) (hne : ops ≠ []) :
      PmgDescribesOps env b (asOps ops)
  | cod (pre post : List String) (tag s spg : String) (texts : List String) (G : Set (FracOp 3))
      (h0 : ∀ t ∈ ["_space_group_symop_operation_xyz", "_space_group_symop.operation_xyz", "_symmetry_equiv_pos_as_xyz"], PmgNothing b t)
      (h : ["_space_group_name_H-M_alt", "_symmetry_space_group_name_H-M"] = pre ++ tag :: post) (h1 : ∀ t ∈ pre, PmgUnnamed env b t)
      (ht : b.get tag = some (.str s)) (hs : s ≠ "") (h2 : env.spaceGroups (squeeze s) = some spg) (h3 : env.symbolOps spg = none)
      (h4 : env.cod (squeeze s) = some texts) (h5 : ∀ s ∈ texts, ∃ g ∈ G, WritesOp s g) (h6 : ∀ g ∈ G, ∃ s ∈ texts, WritesOp s g) : PmgDescribesOps env b G
  | numbered (pre post : List String) (tag s : String) (n : ℤ) (ops : List (AffineOp 3))
      (h0 : ∀ t ∈ ["_space_group_symop_operation_xyz", "_space_group_symop.operation_xyz", "_symmetry_equiv_pos_as_xyz"], PmgNothing b t)
      (h1 : ∀ t ∈ ["_space_group_name_H-M_alt", "_symmetry_space_group_name_H-M"], PmgUnnamed env b t)
      (h : ["_space_group_IT_number", "_symmetry_Int_Tables_number"] = pre ++ tag :: post) (h2 : ∀ t ∈ pre, PmgNothing b t)
      (ht : b.get tag = some (.str s)) (hn : WritesNumber s n) (h3 : env.numberOps n = some ops) (hne : ops ≠ []) : PmgDescribesOps env b (asOps ops)
  | primitive (h0 : ∀ t ∈ ["_space_group_symop_operation_xyz", "_space_group_symop.operation_xyz", "_symmetry_equiv_pos_as_xyz"], PmgNothing b t)
      (h1 : ∀ t ∈ ["_space_group_name_H-M_alt", "_symmetry_space_group_name_H-M"], PmgUnnamed env b t)
      (h2 : ∀ t ∈ ["_space_group_IT_number", "_symmetry_Int_Tables_number"], PmgNothing b t) :
      PmgDescribesOps env b {(fun i j => if i = j then 1 else 0, fun _ => 0)}

/-- The block of pymatgen holds the entry: each column of the table is a list of texts without quotes, numbers have no quotes, and there are type symbols. -/
structure PmgHolds (env : PmgEnv) (asString : String → String) (b : PmgBlock) (e : CifEntry) : Prop where
  name : b.header = e.name
  symbols : "_atom_site_type_symbol" ∈ e.tags
  plain : ∀ r ∈ e.rows, ∀ t ∈ ["_atom_site_fract_x", "_atom_site_fract_y", "_atom_site_fract_z", "_atom_site_occupancy"], ∀ s, field e.tags r t = some s → asString s = s
  columns : ∀ t ∈ siteTags, t ∈ e.tags → ∃ l, b.get t = some (.list l) ∧ List.Forall₂ (fun r v => ∃ s, field e.tags r t = some s ∧ v = asString s) e.rows l
  absent : ∀ t ∈ siteTags, t ∉ e.tags → b.get t = none
  cell : ∀ x ∈ e.cell.tagged, ∃ s, b.get x.1 = some (.str s) ∧ WritesNumber s x.2
  ops : PmgDescribesOps env b e.ops

/-! ### The crystal that is read -/

/-- The result of a reader is the crystal that is written in the entry: disordered entries (with `'skip'`) and entries without sites are rejected, others give a
set with the cell, points, asymmetric unit and types that are written, each point once and within one cell. If `disorder` is `'all_sites'`, each point is listed once for
each site of which it is an image. If coordinates (or translations) are rounded, what is read is the crystal of the exact coordinates with displaced points. -/
structure ReadAsWritten (asString : String → String) (rh : Bool) (d : String) (e : CifEntry) (result : Except Exc ReadSet) : Prop where
  accepted : ¬ e.Skipped asString rh d → ∃ s, result = .ok s
  disordered : d = "skip" → (∃ r ∈ e.rows, WrittenDisordered asString e.tags r) →
    result = .error (.parse (e.name ++ " has disorder, pass disorder='ordered_sites' or 'all_sites' to remove/ignore disorder"))
  empty : (d = "skip" → ∀ r ∈ e.rows, ¬ WrittenDisordered asString e.tags r) → e.sites asString rh d = ∅ → result = .error (.parse (e.name ++ " has no valid sites"))
  name : ∀ s, result = .ok s → s.name = e.name
  cell : ∀ s, result = .ok s → e.HasCell s.set.cell
  points : ∀ s, result = .ok s → IsSpaceGroup s.set.cell e.ops → ExactSites (1 / 1000) e.ops (e.sites asString rh d) →
    periodicPoints s.set.motif s.set.cell = crystalPoints s.set.cell e.ops (e.sites asString rh d)
  inside : ∀ s, result = .ok s → IsSpaceGroup s.set.cell e.ops → ExactSites (1 / 1000) e.ops (e.sites asString rh d) → FitsInCell s.set.motif s.set.cell
  once : ∀ s, result = .ok s → d ≠ "all_sites" → NonSingular s.set.cell → IsSpaceGroup s.set.cell e.ops → ExactSites (1 / 1000) e.ops (e.sites asString rh d) →
    ∃ inds mult, s.set.asymUnit = some (inds.map Fin.val) ∧ s.set.multiplicities = some mult ∧ IsDescription s.set inds mult
  types : ∀ s, result = .ok s → IsSpaceGroup s.set.cell e.ops → s.types.length = s.set.motif.length ∧
    ∀ i (h1 : i < s.types.length) (h2 : i < s.set.motif.length), ∃ r ∈ e.rows, WrittenUsed asString e.tags rh d r ∧
      (∃ x, WrittenPoint e.tags r x ∧ s.set.motif[i] ∈ crystalPoints s.set.cell e.ops {x}) ∧
      ∃ sym, ElementText (rowText asString e.tags r) sym ∧ IsAtomicNumber sym s.types[i]
  every : ∀ s, result = .ok s → d = "all_sites" → NonSingular s.set.cell → IsSpaceGroup s.set.cell e.ops →
    (∀ x ∈ e.sites asString rh d, ExactSites (1 / 1000) e.ops {x}) → ∃ orbits, ListsOrbits e.ops orbits s.set ∧ s.types = orbitTypes orbits ∧
      List.Forall₂ (fun r x => WrittenPoint e.tags r x.site ∧ ∃ sym, ElementText (rowText asString e.tags r) sym ∧ IsAtomicNumber sym x.number)
        (open Classical in e.rows.filter fun r => WrittenUsed asString e.tags rh d r) orbits
  rounded : ∀ s, result = .ok s → d ≠ "all_sites" → NonSingular s.set.cell → ∀ δ G₀ P₀, 0 ≤ δ → δ ≤ 1 / 8000 → RoundedOps δ e.ops G₀ →
    RoundedSites δ (e.sites asString rh d) P₀ → IsSpaceGroup s.set.cell G₀ → UnitEntries G₀ → ExactSites (1 / 1000 + 8 * δ) G₀ P₀ →
    RoundedSet (4 * δ) G₀ P₀ s.set ∧ FitsInCell s.set.motif s.set.cell

end Amd
