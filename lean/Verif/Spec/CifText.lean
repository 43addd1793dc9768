import Mathlib.Data.Rat.Defs
import Mathlib.Algebra.Order.Ring.Rat
import Mathlib.Data.Nat.Digits.Defs
import Mathlib.Data.Fin.Basic

/-!
# What numerals and symmetry operations mean

A grammar of numerals and of coordinate triplets like `-x+1/2, y, 0.25-z`, with their meaning, independent of any parser.
-/

namespace Amd

/-- An optional sign. -/
inductive Sign
  | none
  | plus
  | minus
  deriving DecidableEq

/-- How it is written. -/
def Sign.text : Sign → List Char
  | .none => []
  | .plus => ['+']
  | .minus => ['-']

/-- Its value. -/
def Sign.value : Sign → ℤ
  | .minus => -1
  | _ => 1

/-- How a digit is written. -/
def digitText (d : Fin 10) : Char := Char.ofNat (48 + d.val)

/-- A decimal numeral without sign: digits before the point and, if there is a point, digits after it. -/
structure Decimal where
  int : List (Fin 10)
  frac : Option (List (Fin 10))

/-- There is a digit somewhere. -/
def Decimal.WF (d : Decimal) : Prop := d.int ≠ [] ∨ ∃ f, d.frac = some f ∧ f ≠ []

/-- How the part from the point on is written. -/
def fracText : Option (List (Fin 10)) → List Char
  | none => []
  | some f => '.' :: f.map digitText

/-- How it is written, e.g. `12.50`, `.5`, `3.`, `7`. -/
def Decimal.text (d : Decimal) : List Char := d.int.map digitText ++ fracText d.frac

/-- The natural number with these digits, most significant first. -/
def digitsValue (l : List (Fin 10)) : ℕ := Nat.ofDigits 10 (l.reverse.map Fin.val)

/-- The value of the part from the point on. -/
def fracValue : Option (List (Fin 10)) → ℚ
  | none => 0
  | some f => (digitsValue f : ℚ) / 10 ^ f.length

/-- Its value. -/
def Decimal.value (d : Decimal) : ℚ := digitsValue d.int + fracValue d.frac

/-- An exponent: `e` or `E`, a sign, digits. -/
structure Exponent where
  capital : Bool
  sign : Sign
  digits : List (Fin 10)

/-- How it is written. -/
def Exponent.text (e : Exponent) : List Char := (if e.capital then 'E' else 'e') :: (e.sign.text ++ e.digits.map digitText)

/-- Its value. -/
def Exponent.value (e : Exponent) : ℤ := e.sign.value * digitsValue e.digits

/-- A number as in CIFs: sign, decimal, exponent. -/
structure Numeral where
  sign : Sign
  decimal : Decimal
  exponent : Option Exponent

/-- There are digits before the exponent and in it. -/
def Numeral.WF (n : Numeral) : Prop := n.decimal.WF ∧ ∀ e, n.exponent = some e → e.digits ≠ []

/-- How an optional exponent is written. -/
def exponentText : Option Exponent → List Char
  | none => []
  | some e => e.text

/-- The power of ten that an optional exponent stands for. -/
def exponentFactor : Option Exponent → ℚ
  | none => 1
  | some e => (10 : ℚ) ^ e.value

/-- How it is written, e.g. `-1.5e-3`. -/
def Numeral.text (n : Numeral) : List Char := n.sign.text ++ n.decimal.text ++ exponentText n.exponent

/-- Its value. -/
def Numeral.value (n : Numeral) : ℚ := n.sign.value * n.decimal.value * exponentFactor n.exponent

/-! ### Coordinate triplets -/

/-- What a term of an element of a triplet is: an axis, a number, or a fraction. -/
inductive TermBody
  | axis (a : Fin 3)
  | number (d : Decimal)
  | fraction (n d : Decimal)

/-- A term with its sign. -/
structure Term where
  sign : Sign
  body : TermBody

/-- How a term is written, in lower case without spaces. -/
def TermBody.text : TermBody → List Char
  | .axis 0 => ['x']
  | .axis 1 => ['y']
  | .axis 2 => ['z']
  | .number d => d.text
  | .fraction n d => n.text ++ '/' :: d.text

/-- How a term is written. -/
def Term.text (t : Term) : List Char := t.sign.text ++ t.body.text

/-- The term contributes to a translation. -/
def Term.isTranslation (t : Term) : Bool :=
  match t.body with
  | .axis _ => false
  | _ => true

/-- What it adds to the coefficient of axis `a`. -/
def Term.coefficient (t : Term) (a : Fin 3) : ℤ :=
  match t.body with
  | .axis b => if b = a then t.sign.value else 0
  | _ => 0

/-- What it adds to the translation. -/
def Term.translation (t : Term) : ℚ :=
  match t.body with
  | .axis _ => 0
  | .number d => t.sign.value * d.value
  | .fraction n d => t.sign.value * (n.value / d.value)

/-- The numbers in a term are well formed, denominators are not zero. -/
def Term.WF (t : Term) : Prop :=
  match t.body with
  | .axis _ => True
  | .number d => d.WF
  | .fraction n d => n.WF ∧ d.WF ∧ d.value ≠ 0

/-- A well formed element such as `-x+y+1/2`: only the first sign can be left out, no axis occurs twice, at most one number. -/
structure ElementWF (ts : List Term) : Prop where
  terms : ∀ t ∈ ts, t.WF
  signs : ∀ t ∈ ts.tail, t.sign ≠ .none
  axes : ∀ a, (ts.map fun t => t.coefficient a).countP (· ≠ 0) ≤ 1
  numbers : ts.countP Term.isTranslation ≤ 1

/-- `s` is a way to write the terms: apart from spaces and upper case letters it is the terms one after the other. -/
def Writes (ts : List Term) (s : List Char) : Prop :=
  (s.filter fun c => c ≠ ' ' ∧ c ≠ '\t').map Char.toLower = ts.flatMap Term.text

/-- The coefficient of axis `a`. -/
def elementCoefficient (ts : List Term) (a : Fin 3) : ℤ := (ts.map fun t => t.coefficient a).sum

/-- The translation. -/
def elementTranslation (ts : List Term) : ℚ := (ts.map Term.translation).sum

end Amd
