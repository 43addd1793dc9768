import Verif.Spec.Cif
import Verif.Model.CifBlocks

/-!
# Specification: tables of atom sites as ase and pymatgen give them

The fields of a table are the texts in the file. ase makes a number of a text that is one, and takes off quotes of others (`conv`); pymatgen only takes off
quotes (`unquote`).
-/

namespace Amd

/-- The tags of a table of sites that are looked at. -/
def siteTags : List String :=
  ["_atom_site_fract_x", "_atom_site_fract_y", "_atom_site_fract_z", "_atom_site_label", "_atom_site_type_symbol", "_atom_site_occupancy"]

/-- The ase block with another table of sites. -/
def AseBlock.withRows (b : AseBlock) (conv : String → AseItem) (tags : List String) (rows : List (List String)) : AseBlock :=
  { b with get := fun t =>
      if t ∈ siteTags then (if t ∈ tags then some (.list (rows.map fun r => conv ((field tags r t).getD ""))) else none) else b.get t }

/-- The pymatgen block with another table of sites. -/
def PmgBlock.withRows (b : PmgBlock) (unquote : String → String) (tags : List String) (rows : List (List String)) : PmgBlock :=
  { b with get := fun t =>
      if t ∈ siteTags then (if t ∈ tags then some (.list (rows.map fun r => unquote ((field tags r t).getD ""))) else none) else b.get t }

/-! ### What the fields say to ase -/

/-- A table that ase can read: coordinates are numbers (or unknown), occupancies too, labels and type symbols are not numbers. -/
structure AseTable (conv : String → AseItem) (tags : List String) (rows : List (List String)) : Prop extends AtomTable tags rows where
  coordinates : ∀ r ∈ rows, ∀ t ∈ fractTags, ∀ s, field tags r t = some s → ∃ q, (conv s).toFloat = .ok (.num q)
  occupancies : ∀ r ∈ rows, ∀ s, field tags r "_atom_site_occupancy" = some s → (∃ q, conv s = .num q) ∨ conv s = .str "?" ∨ conv s = .str "."
  labels : ∀ r ∈ rows, ∀ s, field tags r "_atom_site_label" = some s → ∃ t, conv s = .str t
  symbols : ∀ r ∈ rows, ∀ s, field tags r "_atom_site_type_symbol" = some s → ∃ t, conv s = .str t

/-- The row has an occupancy below 1, or a label that ends with a question mark. -/
def AseDisordered (conv : String → AseItem) (tags row : List String) : Prop :=
  (∃ s q, field tags row "_atom_site_occupancy" = some s ∧ conv s = .num q ∧ q < 1) ∨
  ∃ s t l, field tags row "_atom_site_label" = some s ∧ conv s = .str t ∧ t.toList = l ++ ['?']

/-- The row has the type symbol of hydrogen. -/
def AseHydrogen (conv : String → AseItem) (tags row : List String) : Prop :=
  ∃ s t, field tags row "_atom_site_type_symbol" = some s ∧ conv s = .str t ∧ HydrogenText t

/-- The point of the unit cell with the coordinates of the row, modulo 1. -/
def AsePoint (conv : String → AseItem) (tags row : List String) (p : Pt 3 ℝ) : Prop :=
  ∀ i : Fin 3, 0 ≤ p i ∧ p i < 1 ∧ ∃ s q, ∃ n : ℤ, field tags row (["_atom_site_fract_x", "_atom_site_fract_y", "_atom_site_fract_z"][i]) = some s ∧
    (conv s).toFloat = .ok (.num q) ∧ (q : ℝ) = p i + n

/-- The atomic number of the type symbol; 0 in a table without type symbols. -/
def AseTypeOf (conv : String → AseItem) (tags row : List String) (n : ℕ) : Prop :=
  (∃ s t sym, field tags row "_atom_site_type_symbol" = some s ∧ conv s = .str t ∧ ElementText t sym ∧ n = atomicNumber sym) ∨
  ("_atom_site_type_symbol" ∉ tags ∧ n = 0)

/-! ### What the fields say to pymatgen -/

/-- A table that pymatgen can read: coordinates are numbers (or unknown), occupancies too. -/
structure PmgTable (unquote : String → String) (tags : List String) (rows : List (List String)) : Prop extends AtomTable tags rows where
  coordinates : ∀ r ∈ rows, ∀ t ∈ fractTags, ∀ s, field tags r t = some s → ∃ q, str2float (unquote s) = .ok (.num q)
  occupancies : ∀ r ∈ rows, ∀ s, field tags r "_atom_site_occupancy" = some s → ∃ q, str2float (unquote s) = .ok (.num q)

/-- The row has an occupancy below 1, or a label that ends with a question mark. -/
def PmgDisordered (unquote : String → String) (tags row : List String) : Prop :=
  (∃ s q, field tags row "_atom_site_occupancy" = some s ∧ str2float (unquote s) = .ok (.num q) ∧ q < 1) ∨
  ∃ s l, field tags row "_atom_site_label" = some s ∧ (unquote s).toList = l ++ ['?']

/-- The row has the type symbol of hydrogen. -/
def PmgHydrogen (unquote : String → String) (tags row : List String) : Prop :=
  ∃ s, field tags row "_atom_site_type_symbol" = some s ∧ HydrogenText (unquote s)

/-- The point of the unit cell with the coordinates of the row, modulo 1. -/
def PmgPoint (unquote : String → String) (tags row : List String) (p : Pt 3 ℝ) : Prop :=
  ∀ i : Fin 3, 0 ≤ p i ∧ p i < 1 ∧ ∃ s q, ∃ n : ℤ, field tags row (["_atom_site_fract_x", "_atom_site_fract_y", "_atom_site_fract_z"][i]) = some s ∧
    str2float (unquote s) = .ok (.num q) ∧ (q : ℝ) = p i + n

/-- The atomic number of the type symbol; 0 in a table without type symbols. -/
def PmgTypeOf (unquote : String → String) (tags row : List String) (n : ℕ) : Prop :=
  (∃ s sym, field tags row "_atom_site_type_symbol" = some s ∧ ElementText (unquote s) sym ∧ n = atomicNumber sym) ∨
  ("_atom_site_type_symbol" ∉ tags ∧ n = 0)

/-! ### The same file read with gemmi and with another package -/

/-- The ase block and the gemmi block have the same name, cell parameters and symmetry operations. -/
structure AseSame (g : GemmiBlock) (a : AseBlock) : Prop where
  name : a.name = g.name
  cell : ∀ t ∈ cellparTags, ∃ s i q, g.findValue t = some s ∧ a.get t = some (.item i) ∧ str2float s = .ok (.num q) ∧ i.toFloat = .ok (.num q)
  symops : ∀ t ∈ symopTags, (g.find t = [] ∧ a.get t = none) ∨ ∃ l, l ≠ [] ∧ g.find t = l ∧ a.get t = some (.list (l.map .str))
  symmetry : ∃ t ∈ symopTags, g.find t ≠ []

/-- The pymatgen block and the gemmi block have the same name, cell parameters and symmetry operations. -/
structure PmgSame (g : GemmiBlock) (p : PmgBlock) : Prop where
  name : p.header = g.name
  cell : ∀ t ∈ cellparTags, ∃ s q, s ≠ "?" ∧ s ≠ "." ∧ g.findValue t = some s ∧ p.get t = some (.str s) ∧ str2float s = .ok (.num q)
  symops : ∀ t ∈ symopTags, (g.find t = [] ∧ p.get t = none) ∨ ∃ l, l ≠ [] ∧ g.find t = l ∧ p.get t = some (.list l)
  symmetry : ∃ t ∈ symopTags, g.find t ≠ []

end Amd
