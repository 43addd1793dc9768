import Verif.Model.GemmiBlock

/-!
# Specification of tables of atom sites

A table has tags and rows; each row has a field for each tag. Uses of the model: only `str2float` (C49) to say what number a field is.
-/

namespace Amd

/-- The field of a row under a tag. -/
def field (tags row : List String) (tag : String) : Option String := (tags.zip row).lookup tag

/-- Distinct tags, among them the three coordinates; a field for each tag in each row. -/
structure AtomTable (tags : List String) (rows : List (List String)) : Prop where
  nodup : tags.Nodup
  width : ∀ r ∈ rows, r.length = tags.length
  x : "_atom_site_fract_x" ∈ tags
  y : "_atom_site_fract_y" ∈ tags
  z : "_atom_site_fract_z" ∈ tags

/-- All coordinates and occupancies are numbers. -/
def Readable (tags : List String) (rows : List (List String)) : Prop :=
  ∀ r ∈ rows, ∀ tag ∈ ["_atom_site_fract_x", "_atom_site_fract_y", "_atom_site_fract_z", "_atom_site_occupancy"], ∀ s, field tags r tag = some s →
    ∃ x, str2float s = .ok x

/-- The row has an occupancy below 1, or a label that ends with a question mark. -/
def DisorderedRow (asString : String → String) (tags row : List String) : Prop :=
  (∃ s, field tags row "_atom_site_occupancy" = some s ∧ (str2float s = .ok (.inf true) ∨ ∃ q, str2float s = .ok (.num q) ∧ q < 1)) ∨
  ∃ s, field tags row "_atom_site_label" = some s ∧ ∃ l, (asString s).toList = l ++ ['?']

/-- The letter H or D stands alone as the first letters of the text, in upper or lower case. -/
def HydrogenText (s : String) : Prop :=
  ∃ pre c post, s.toList = pre ++ c :: post ∧ (∀ d ∈ pre, ¬ (d.isUpper ∨ d.isLower)) ∧ c ∈ ['H', 'h', 'D', 'd'] ∧ ∀ d, post.head? = some d → ¬ (d.isUpper ∨ d.isLower)

/-- The row has the type symbol of hydrogen; in a table without type symbols, its label starts in this way. -/
def HydrogenRow (asString : String → String) (tags row : List String) : Prop :=
  (∃ s, field tags row "_atom_site_type_symbol" = some s ∧ HydrogenText (asString s)) ∨
  ("_atom_site_type_symbol" ∉ tags ∧ ∃ s, field tags row "_atom_site_label" = some s ∧ HydrogenText (asString s))

/-- The three coordinates of the row are numbers (not `nan` or `inf`). -/
def HasCoordinates (tags row : List String) : Prop :=
  ∀ tag ∈ ["_atom_site_fract_x", "_atom_site_fract_y", "_atom_site_fract_z"], ∃ s q, field tags row tag = some s ∧ str2float s = .ok (.num q)

/-- The point of the unit cell with the coordinates of the row, modulo 1. -/
def RowPoint (tags row : List String) (p : Pt 3 ℝ) : Prop :=
  ∀ i : Fin 3, 0 ≤ p i ∧ p i < 1 ∧ ∃ s q, ∃ n : ℤ, field tags row (["_atom_site_fract_x", "_atom_site_fract_y", "_atom_site_fract_z"][i]) = some s ∧
    str2float s = .ok (.num q) ∧ (q : ℝ) = p i + n

/-- The text that gives the element of a row: the type symbol, or the label in a table without type symbols. -/
def rowText (asString : String → String) (tags row : List String) : String :=
  match field tags row "_atom_site_type_symbol" with
  | some s => asString s
  | none =>
    match field tags row "_atom_site_label" with
    | some s => asString s
    | none => ""

/-- The element symbol in a text: its first letter, and the next character if it is a letter too, in the usual case. -/
def ElementText (s sym : String) : Prop :=
  ((∀ c ∈ s.toList, ¬ (c.isUpper ∨ c.isLower)) ∧ sym = "") ∨
  ∃ pre c post, s.toList = pre ++ c :: post ∧ (∀ d ∈ pre, ¬ (d.isUpper ∨ d.isLower)) ∧ (c.isUpper ∨ c.isLower) ∧
    (((∀ d, post.head? = some d → ¬ (d.isUpper ∨ d.isLower)) ∧ sym = String.ofList [c.toUpper]) ∨
      ∃ d, post.head? = some d ∧ (d.isUpper ∨ d.isLower) ∧ sym = String.ofList [c.toUpper, d.toLower])

/-- The block with another table of sites. -/
def GemmiBlock.withRows (b : GemmiBlock) (tags : List String) (rows : List (List String)) : GemmiBlock :=
  { b with fractLoop := some ⟨tags, rows.flatten⟩ }

end Amd
