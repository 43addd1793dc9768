import Verif.Model.Reader
import Mathlib.Data.Rat.Defs
import Mathlib.Algebra.Order.Ring.Rat

/-!
# Numbers and symmetry operations in CIFs

Model of `str2float`, `memoize`, `_parse_sitesym` and `_parse_sitesyms`, `/repo/src/amd/io.py:1456-1524, 1794-1805`.

Numbers are exact rationals instead of doubles. Digits, letters and white space are those of ASCII: Python also accepts other Unicode digits.
-/

namespace Amd

/-! ### Python's `float(str)` -/

/-- A Python float: a number, `nan`, or `inf` with its sign. -/
inductive PyFloat
  | num (q : ℚ)
  | nan
  | inf (neg : Bool)
  deriving DecidableEq

/-- White space at the ends of the argument of `float`. -/
def isWs (c : Char) : Bool := c = ' ' ∨ c = '\t' ∨ c = '\n' ∨ c = '\r' ∨ c = '\x0b' ∨ c = '\x0c'

/-- `str.strip()`. -/
def strip (l : List Char) : List Char := ((l.dropWhile isWs).reverse.dropWhile isWs).reverse

/-- The digits of a `digitpart` of Python's grammar: digits with single underscores between them. -/
def digitPart (prevDigit : Bool) (acc : List ℕ) : List Char → Option (List ℕ)
  | [] => if prevDigit then some acc else none
  | c :: cs =>
    if c.isDigit then digitPart true (acc ++ [c.toNat - 48]) cs
    else if c = '_' ∧ prevDigit = true then digitPart false acc cs
    else none

/-- The natural number with the given decimal digits, most significant first. -/
def natOf (l : List ℕ) : ℕ := l.foldl (fun a d => 10 * a + d) 0

/-- A sign and what follows; no sign is positive. -/
def takeSign : List Char → Bool × List Char
  | '+' :: cs => (false, cs)
  | '-' :: cs => (true, cs)
  | cs => (false, cs)

/-- The digits before and after the point. At least one of the two parts has digits. -/
def mantissa (l : List Char) : Option (List ℕ × List ℕ) :=
  match l.dropWhile (· ≠ '.') with
  | [] => (digitPart false [] l).map fun a => (a, [])
  | _ :: fp =>
    let ip := l.takeWhile (· ≠ '.')
    if ip = [] then (digitPart false [] fp).map fun b => ([], b)
    else if fp = [] then (digitPart false [] ip).map fun a => (a, [])
    else
      match digitPart false [] ip, digitPart false [] fp with
      | some a, some b => some (a, b)
      | _, _ => none

/-- The exponent, with its sign; `none` if it is not well formed. -/
def exponent (l : List Char) : Option ℤ :=
  (digitPart false [] (takeSign l).2).map fun d => if (takeSign l).1 then -(natOf d : ℤ) else natOf d

/-- A number without sign. -/
def unsignedFloat (l : List Char) : Option ℚ :=
  let m := l.takeWhile fun c => c ≠ 'e' ∧ c ≠ 'E'
  match mantissa m with
  | none => none
  | some (a, b) =>
    let x : ℚ := natOf (a ++ b) / 10 ^ b.length
    match l.dropWhile fun c => c ≠ 'e' ∧ c ≠ 'E' with
    | [] => some x
    | _ :: e => (exponent e).map fun n => x * 10 ^ n

/-- `float(string)`; `none` stands for ValueError. -/
def pyFloat (l : List Char) : Option PyFloat :=
  let s := takeSign (strip l)
  let low := s.2.map Char.toLower
  if low = ['i', 'n', 'f'] ∨ low = ['i', 'n', 'f', 'i', 'n', 'i', 't', 'y'] then some (.inf s.1)
  else if low = ['n', 'a', 'n'] then some .nan
  else (unsignedFloat s.2).map fun x => .num (if s.1 then -x else x)

/-! ### `str2float` -/

/-- `re.sub(r'\(.+\)*', '', string)`: a bracket with something after it on the same line is removed with the rest of the line. -/
def removeBrackets : List Char → List Char
  | [] => []
  | '(' :: cs => if cs = [] ∨ cs.head? = some '\n' then '(' :: removeBrackets cs else removeBrackets (cs.dropWhile (· ≠ '\n'))
  | c :: cs => c :: removeBrackets cs
  termination_by l => l.length
  decreasing_by
    · simp
    · have := (List.dropWhile_suffix (fun c => decide (c ≠ '\n')) (l := cs)).length_le
      simp only [List.length_cons]
      omega
    · simp

/-- `str2float(string)` for a string, `io.py:1794-1805`. -/
def str2float (s : String) : Except Exc PyFloat :=
  match pyFloat (removeBrackets s.toList) with
  | some x => .ok x
  | none => if strip s.toList = ['.'] ∨ strip s.toList = ['?'] then .ok (.num 0) else .error (.other "ValueError")

/-! ### `_parse_sitesym` -/

/-- The variables of the loop over characters, `io.py:1474-1479`, and one row of the rotation. -/
structure SymState where
  positive : Bool
  fraction : Bool
  sign : Option Bool
  fst : List Char
  snd : List Char
  row : Fin 3 → ℤ

/-- Their values before the loop. -/
def SymState.init : SymState := { positive := true, fraction := false, sign := none, fst := [], snd := [], row := fun _ => 0 }

/-- The number of an axis. -/
def axisOf (c : Char) : Option (Fin 3) := if c = 'x' then some 0 else if c = 'y' then some 1 else if c = 'z' then some 2 else none

/-- One character, `io.py:1481-1498`. `sign` is true for `sng_trans = 1.0`. -/
def SymState.step (s : SymState) (c : Char) : SymState :=
  if c = '+' then { s with positive := true }
  else if c = '-' then { s with positive := false }
  else if c = '/' then { s with fraction := true }
  else match axisOf c with
    | some a => { s with row := fun b => if b = a then (if s.positive then 1 else -1) else s.row b }
    | none =>
      if c.isDigit = true ∨ c = '.' then
        let sign := match s.sign with
          | none => some s.positive
          | some b => some b
        if s.fraction then { s with sign := sign, snd := s.snd ++ [c] } else { s with sign := sign, fst := s.fst ++ [c] }
      else s

/-- `float(''.join(chars))` for digits and points; ValueError if it is not a number. -/
def joinFloat (l : List Char) : Except Exc ℚ :=
  match pyFloat l with
  | some (.num q) => .ok q
  | _ => .error (.other "ValueError")

/-- The translation, `io.py:1500-1507`. -/
def SymState.translation (s : SymState) : Except Exc ℚ := do
  let t ← if s.fst = [] then .ok 0 else (joinFloat s.fst).map fun q => if s.sign = some false then -q else q
  if s.fraction then
    let d ← joinFloat s.snd
    if d = 0 then .error (.other "ZeroDivisionError") else .ok (t / d)
  else .ok t

/-- The result for one element of the operation. -/
def parseElement (l : List Char) : (Fin 3 → ℤ) × Except Exc ℚ :=
  let s := (l.map Char.toLower).foldl SymState.step SymState.init
  (s.row, s.translation)

/-- A rotation matrix and a translation vector. -/
structure SymOp where
  rot : Fin 3 → Fin 3 → ℤ
  trans : Fin 3 → ℚ

/-- Set row `i`. -/
def SymOp.set (o : SymOp) (i : Fin 3) (row : Fin 3 → ℤ) (t : ℚ) : SymOp :=
  { rot := fun j => if j = i then row else o.rot j, trans := fun j => if j = i then t else o.trans j }

/-- The loop over the elements from number `ind`. A fourth element is an IndexError (or an error in its number). -/
def parseElements (o : SymOp) (ind : ℕ) : List (List Char) → Except Exc SymOp
  | [] => .ok o
  | l :: ls =>
    if h : ind < 3 then
      match (parseElement l).2 with
      | .error e => .error e
      | .ok t => parseElements (o.set ⟨ind, h⟩ (parseElement l).1 t) (ind + 1) ls
    else if l.any fun c => (axisOf c.toLower).isSome then .error (.other "IndexError")
    else
      match (parseElement l).2 with
      | .error e => .error e
      | .ok _ => .error (.other "IndexError")

/-- `_parse_sitesym(sym)`, `io.py:1466-1511`. -/
def parseSitesym (s : String) : Except Exc SymOp := parseElements { rot := fun _ _ => 0, trans := fun _ => 0 } 0 (s.toList.splitOn ',')

/-- `memoize(f)`, `io.py:1456-1463`: the cache and the result after a call. Exceptions are not cached. -/
def memoCall {β : Type} (f : String → Except Exc β) (cache : List (String × β)) (s : String) : List (String × β) × Except Exc β :=
  match cache.lookup s with
  | some b => (cache, .ok b)
  | none =>
    match f s with
    | .ok b => ((s, b) :: cache, .ok b)
    | .error e => (cache, .error e)

/-- `_parse_sitesyms(symmetries)`, `io.py:1514-1524`: the operations in order, through the cache. -/
def parseSitesyms (cache : List (String × SymOp)) : List String → List (String × SymOp) × Except Exc (List SymOp)
  | [] => (cache, .ok [])
  | s :: ss =>
    match memoCall parseSitesym cache s with
    | (cache, .error e) => (cache, .error e)
    | (cache, .ok o) =>
      match parseSitesyms cache ss with
      | (cache, l) => (cache, l.map (o :: ·))

end Amd
