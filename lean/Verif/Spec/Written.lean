import Verif.Spec.Cif
import Verif.Spec.CifText
import Verif.Spec.SpaceGroup
import Verif.Spec.Geometry

/-!
# What a CIF block says

What the texts of a block mean: numbers, symmetry operations, cell, sites and elements. No parser is used, only the grammar of `Spec/CifText.lean`.
-/

namespace Amd

/-- The text is a numeral with this value, which can be followed by an uncertainty in brackets. -/
def WritesNumber (s : String) (q : ℚ) : Prop :=
  ∃ n : Numeral, n.WF ∧ n.value = q ∧ (s = String.ofList n.text ∨ ∃ e : String, '\n' ∉ e.toList ∧ s = String.ofList n.text ++ "(" ++ e ++ ")")

/-- The text is a coordinate triplet for this operation: three elements separated by commas. -/
def WritesOp (s : String) (g : FracOp 3) : Prop :=
  ∃ (t : Fin 3 → List Term) (w : Fin 3 → String), (∀ i, ElementWF (t i)) ∧ (∀ i, Writes (t i) (w i).toList) ∧ s = w 0 ++ "," ++ w 1 ++ "," ++ w 2 ∧
    g = (fun i j => (elementCoefficient (t i) j : ℝ), fun i => (elementTranslation (t i) : ℝ))

/-- The block gives a number under a tag. -/
def GivesNumber (b : GemmiBlock) (tag : String) (q : ℚ) : Prop := ∃ s, b.findValue tag = some s ∧ WritesNumber s q

/-- The texts are in the first of the three columns for symmetry operations that is not empty. -/
def ListsTexts (b : GemmiBlock) (texts : List String) : Prop :=
  texts ≠ [] ∧ ∃ pre tag post, ["_space_group_symop_operation_xyz", "_space_group_symop.operation_xyz", "_symmetry_equiv_pos_as_xyz"] = pre ++ tag :: post ∧
    (∀ t ∈ pre, b.find t = []) ∧ b.find tag = texts

/-- The block lists no symmetry operations. -/
def ListsNone (b : GemmiBlock) : Prop :=
  b.find "_space_group_symop_operation_xyz" = [] ∧ b.find "_space_group_symop.operation_xyz" = [] ∧ b.find "_symmetry_equiv_pos_as_xyz" = []

/-- The names of the space group. -/
def groupNames (b : GemmiBlock) : List String := b.find "_space_group_name_H-M_alt" ++ b.find "_symmetry_space_group_name_H-M"

/-- The number of the space group: under the first tag, or else under the second. -/
def groupNumber (b : GemmiBlock) : Option String :=
  match b.findValue "_space_group_IT_number" with
  | some v => some v
  | none => b.findValue "_symmetry_Int_Tables_number"

/-- The operations of gemmi as pairs of a matrix and a vector. -/
def asOps (ops : List (AffineOp 3)) : Set (FracOp 3) := {g | ∃ o ∈ ops, g = (o.rot, o.trans)}

/-- The symmetry operations of the block: those listed; if there are none, those of the first name of a space group that gemmi knows; else those of the
number of the space group; without number, those of P1 (number 1). -/
inductive DescribesOps (env : GemmiEnv) (b : GemmiBlock) : Set (FracOp 3) → Prop
  | listed (texts : List String) (G : Set (FracOp 3)) (h : ListsTexts b texts) (h1 : ∀ s ∈ texts, ∃ g ∈ G, WritesOp s g)
      (h2 : ∀ g ∈ G, ∃ s ∈ texts, WritesOp s g) : DescribesOps env b G
  | named (h : ListsNone b) (pre post : List String) (name : String) (ops : List (AffineOp 3)) (hn : groupNames b = pre ++ name :: post)
      (h1 : ∀ m ∈ pre, env.byName m = none) (h2 : env.byName name = some ops) : DescribesOps env b (asOps ops)
  | numbered (h : ListsNone b) (hn : ∀ m ∈ groupNames b, env.byName m = none) (v : String) (n : ℤ) (ops : List (AffineOp 3))
      (h1 : groupNumber b = some v) (h2 : env.asInt v = .ok n) (h3 : env.byNumber n = .ok ops) : DescribesOps env b (asOps ops)
  | primitive (h : ListsNone b) (hn : ∀ m ∈ groupNames b, env.byName m = none) (ops : List (AffineOp 3)) (h1 : groupNumber b = none)
      (h2 : env.byNumber 1 = .ok ops) : DescribesOps env b (asOps ops)

/-- Three lengths and three angles (in degrees). -/
structure CellNumbers where
  a : ℚ
  b : ℚ
  c : ℚ
  α : ℚ
  β : ℚ
  γ : ℚ

/-- There is a cell with these lengths and angles, and angles that are within `2⁻⁴⁵` degrees of a right angle are right angles. -/
structure CellNumbers.Valid (p : CellNumbers) : Prop where
  lengths : 0 < p.a ∧ 0 < p.b ∧ 0 < p.c
  angles : (0 < p.α ∧ p.α < 180) ∧ (0 < p.β ∧ p.β < 180) ∧ 0 < p.γ ∧ p.γ < 180
  right : ∀ θ ∈ [p.α, p.β, p.γ], θ = 90 ∨ 1 / 2 ^ 45 ≤ |θ - 90|
  cell : ∃ cell : Fin 3 → Pt 3 ℝ, HasCellpar cell p.a p.b p.c p.α p.β p.γ

/-- The texts denote these symmetry operations; without texts there is only the identity. -/
def OperatorsDenote (texts : List String) (G : Set (FracOp 3)) : Prop :=
  (texts = [] ∧ G = {(fun i j => if i = j then 1 else 0, fun _ => 0)}) ∨
  (texts ≠ [] ∧ (∀ s ∈ texts, ∃ g ∈ G, WritesOp s g) ∧ ∀ g ∈ G, ∃ s ∈ texts, WritesOp s g)

/-- All six cell parameters are known, and are those of a cell. -/
def CellDenotes (cellpar : List (Option ℚ)) (p : CellNumbers) : Prop :=
  cellpar = [some p.a, some p.b, some p.c, some p.α, some p.β, some p.γ] ∧ p.Valid

/-- A block with a table of sites, in which cell, coordinates, occupancies and symmetry operations are written as they should be. -/
structure WrittenBlock (env : GemmiEnv) (b : GemmiBlock) (tags : List String) (rows : List (List String)) (p : CellNumbers) (G : Set (FracOp 3)) : Prop where
  table : AtomTable tags rows
  numbers : ∀ r ∈ rows, ∀ tag ∈ ["_atom_site_fract_x", "_atom_site_fract_y", "_atom_site_fract_z", "_atom_site_occupancy"], ∀ s, field tags r tag = some s →
    ∃ q, WritesNumber s q
  len_a : GivesNumber b "_cell_length_a" p.a
  len_b : GivesNumber b "_cell_length_b" p.b
  len_c : GivesNumber b "_cell_length_c" p.c
  alpha : GivesNumber b "_cell_angle_alpha" p.α
  beta : GivesNumber b "_cell_angle_beta" p.β
  gamma : GivesNumber b "_cell_angle_gamma" p.γ
  valid : p.Valid
  ops : DescribesOps env b G

/-- The occupancy of the row is written as less than 1, or its label ends with a question mark. -/
def WrittenDisordered (asString : String → String) (tags row : List String) : Prop :=
  (∃ s q, field tags row "_atom_site_occupancy" = some s ∧ WritesNumber s q ∧ q < 1) ∨
  ∃ s, field tags row "_atom_site_label" = some s ∧ ∃ l, (asString s).toList = l ++ ['?']

/-- The row counts: it is not disordered if only ordered sites are wanted, and not hydrogen if these are removed. -/
def WrittenUsed (asString : String → String) (tags : List String) (removeHydrogens : Bool) (disorder : String) (row : List String) : Prop :=
  (disorder = "ordered_sites" → ¬ WrittenDisordered asString tags row) ∧ (removeHydrogens = true → ¬ HydrogenRow asString tags row)

/-- The fractional coordinates that are written in the row. -/
def WrittenPoint (tags row : List String) (x : Pt 3 ℝ) : Prop :=
  ∀ i : Fin 3, ∃ s, ∃ q : ℚ, field tags row (["_atom_site_fract_x", "_atom_site_fract_y", "_atom_site_fract_z"][i]) = some s ∧ WritesNumber s q ∧ x i = q

/-- The sites of the table. -/
def WrittenSites (asString : String → String) (tags : List String) (rows : List (List String)) (removeHydrogens : Bool) (disorder : String) : Set (Pt 3 ℝ) :=
  {x | ∃ r ∈ rows, WrittenUsed asString tags removeHydrogens disorder r ∧ WrittenPoint tags r x}

/-! ### Elements -/

/-- The symbols of the elements, in the order of their atomic numbers. -/
def elementSymbols : List String :=
  ["H", "He", "Li", "Be", "B", "C", "N", "O", "F", "Ne", "Na", "Mg", "Al", "Si", "P", "S", "Cl", "Ar", "K", "Ca", "Sc", "Ti", "V", "Cr", "Mn", "Fe", "Co",
    "Ni", "Cu", "Zn", "Ga", "Ge", "As", "Se", "Br", "Kr", "Rb", "Sr", "Y", "Zr", "Nb", "Mo", "Tc", "Ru", "Rh", "Pd", "Ag", "Cd", "In", "Sn", "Sb", "Te",
    "I", "Xe", "Cs", "Ba", "La", "Ce", "Pr", "Nd", "Pm", "Sm", "Eu", "Gd", "Tb", "Dy", "Ho", "Er", "Tm", "Yb", "Lu", "Hf", "Ta", "W", "Re", "Os", "Ir",
    "Pt", "Au", "Hg", "Tl", "Pb", "Bi", "Po", "At", "Rn", "Fr", "Ra", "Ac", "Th", "Pa", "U", "Np", "Pu", "Am", "Cm", "Bk", "Cf", "Es", "Fm", "Md", "No",
    "Lr", "Rf", "Db", "Sg", "Bh", "Hs", "Mt", "Ds", "Rg", "Cn", "Nh", "Fl", "Mc", "Lv", "Ts", "Og"]

/-- The atomic number of a symbol; deuterium counts as hydrogen, what is no element has number 0. -/
def IsAtomicNumber (sym : String) (z : ℕ) : Prop :=
  (sym = "D" ∧ z = 1) ∨ (∃ i, z = i + 1 ∧ elementSymbols[i]? = some sym) ∨ (sym ≠ "D" ∧ sym ∉ elementSymbols ∧ z = 0)

end Amd
