import Verif.Model.Sites
import Verif.Model.Utils

/-!
# Converting a gemmi block

Model of `periodicset_from_gemmi_block`, `/repo/src/amd/io.py:505-706`, with `_has_disorder` (`io.py:1663-1669`) and `_atomic_symbols_from_labels`
(`io.py:1672-1687`).

What gemmi does is a parameter: the values it finds for tags, the table with the coordinates, `gemmi.cif.as_string`, `gemmi.cif.as_int` and the operations
of its space groups. The memo table of `_parse_sitesyms` is left out, as `C43_cache` shows that it does not change results. Simplifications: a cell
parameter that is infinite gives the exception `Exc.other "inf"` here, while the code goes on to compute with it; the RuntimeWarning of numpy for a
coordinate that is infinite is left out.
-/

namespace Amd

/-! ### What gemmi gives -/

/-- A `gemmi.cif.Loop`: the tags and the values, row by row. -/
structure CifLoop where
  tags : List String
  values : List String

/-- A `gemmi.cif.Block`: its name, `find_value`, the texts in `find([tag])`, the loop of `find(['_atom_site_fract_x', …])` and whether there is one with
the `_atom_site_Cartn_` tags. -/
structure GemmiBlock where
  name : String
  findValue : String → Option String
  find : String → List String
  fractLoop : Option CifLoop
  cartnLoop : Bool

/-- Functions of gemmi: `cif.as_string`, `cif.as_int`, the operations of `SpaceGroup(name)` (none if it raises ValueError) and of `SpaceGroup(number)`. -/
structure GemmiEnv where
  asString : String → String
  asInt : String → Except Exc ℤ
  byName : String → Option (List (AffineOp 3))
  byNumber : ℤ → Except Exc (List (AffineOp 3))

/-! ### The unit cell -/

/-- `_CIF_TAGS['cellpar']`, `io.py:61-68`. -/
def cellparTags : List String :=
  ["_cell_length_a", "_cell_length_b", "_cell_length_c", "_cell_angle_alpha", "_cell_angle_beta", "_cell_angle_gamma"]

/-- The number that a float is, if it is finite. -/
def PyFloat.finite : PyFloat → Option ℚ
  | .num q => some q
  | _ => none

/-- `np.isnan(np.sum(values))`: a NaN, or infinities of both signs. -/
def nanSum (l : List PyFloat) : Bool := decide (.nan ∈ l) || (decide (.inf true ∈ l) && decide (.inf false ∈ l))

/-- The exceptions of `cellpar_to_cell`. -/
def UErr.exc : UErr → Exc
  | .zeroDiv => .other "ZeroDivisionError"
  | .value => .other "ValueError"
  | .runtime => .other "RuntimeError"
  | .exhausted => .other "unreachable"

/-- `cellpar_to_cell` of the six numbers, `io.py:554`. -/
noncomputable def cellOfNumbers : List ℚ → Except Exc (Fin 3 → Pt 3 ℝ)
  | [a, b, c, al, be, ga] =>
    match cellparToCell ⟨a, b, c, al, be, ga⟩ with
    | .ok cell => .ok cell
    | .error e => .error e.exc
  | _ => .error (.other "unreachable")

/-- The unit cell, `io.py:547-554`. -/
noncomputable def blockCell (b : GemmiBlock) : Except Exc (Fin 3 → Pt 3 ℝ) :=
  match cellparTags.mapM b.findValue with
  | none => .error (.parse (b.name ++ " has missing cell data"))
  | some pars =>
    match pars.mapM str2float with
    | .error e => .error e
    | .ok xs =>
      if nanSum xs then .error (.parse (b.name ++ " has missing cell data"))
      else
        match xs.mapM PyFloat.finite with
        | none => .error (.other "inf")
        | some qs => cellOfNumbers qs

/-! ### The table of sites -/

/-- `tablified_loop[k]`, `io.py:568-570`: value number `i` is appended to the list number `i % width`. -/
def CifLoop.column (l : CifLoop) (k : ℕ) : List String := (l.values.zipIdx.filter fun x => x.2 % l.tags.length = k).map Prod.fst

/-- `loop_dict.get(tag)`, `io.py:571`: if a tag occurs twice the last one counts. -/
def CifLoop.get (l : CifLoop) (tag : String) : Option (List String) :=
  (l.tags.zipIdx.filter fun x => x.1 = tag).getLast?.map fun x => l.column x.2

/-- `loop.length()`. -/
def CifLoop.length (l : CifLoop) : ℕ := l.values.length / l.tags.length

/-- A coordinate modulo 1, `np.mod(x, 1)`, `io.py:576`; `none` is NaN, which is also the result for infinities. -/
noncomputable def PyFloat.coord : PyFloat → Option ℝ
  | .num q => some (Int.fract (q : ℝ))
  | _ => none

/-- The coordinates, `io.py:572-576`. Columns of different lengths cannot be made an array. -/
noncomputable def loopCoords (l : CifLoop) : Except Exc (List (Fin 3 → Option ℝ)) :=
  match l.get "_atom_site_fract_x", l.get "_atom_site_fract_y", l.get "_atom_site_fract_z" with
  | some xs, some ys, some zs =>
    match xs.mapM str2float, ys.mapM str2float, zs.mapM str2float with
    | .ok xs, .ok ys, .ok zs =>
      if xs.length = ys.length ∧ ys.length = zs.length then
        .ok (List.zipWith (fun x yz => ![x.coord, yz.1.coord, yz.2.coord]) xs (ys.zip zs))
      else .error (.other "ValueError")
    | .error e, _, _ => .error e
    | _, .error e, _ => .error e
    | _, _, .error e => .error e
  | _, _, _ => .error (.other "KeyError")

/-- The labels, `io.py:582-587`. -/
def loopLabels (env : GemmiEnv) (l : CifLoop) : List String :=
  match l.get "_atom_site_label" with
  | some labs => labs.map env.asString
  | none => List.replicate l.length ""

/-- A letter of `[A-Za-z]`. -/
def isLetter (c : Char) : Bool := c.isUpper || c.isLower

/-- `re.search(r'([A-Za-z][A-Za-z]?)', s)`, the first letter in upper case, the second in lower case; empty without match. `io.py:594-604, 1677-1685`. -/
def elementSymbol (s : String) : String :=
  match s.toList.dropWhile fun c => !isLetter c with
  | [] => ""
  | c :: cs =>
    match cs with
    | [] => String.ofList [c.toUpper]
    | d :: _ => if isLetter d then String.ofList [c.toUpper, d.toLower] else String.ofList [c.toUpper]

/-- `_atomic_symbols_from_labels` for one label, `io.py:1672-1687`. -/
def symbolFromLabel (label : String) : String := if label = "" ∨ label = "." ∨ label = "?" then "" else elementSymbol label

/-- `atomic_numbers.json`. -/
def atomicNumbers : List (String × ℕ) :=
  [("", 0), ("Ac", 89), ("Ag", 47), ("Al", 13), ("Am", 95), ("Ar", 18), ("As", 33), ("At", 85), ("Au", 79), ("B", 5), ("Ba", 56), ("Be", 4),
    ("Bh", 107), ("Bi", 83), ("Bk", 97), ("Br", 35), ("C", 6), ("Ca", 20), ("Cd", 48), ("Ce", 58), ("Cf", 98), ("Cl", 17), ("Cm", 96), ("Cn", 112),
    ("Co", 27), ("Cr", 24), ("Cs", 55), ("Cu", 29), ("D", 1), ("Db", 105), ("Ds", 110), ("Dy", 66), ("Er", 68), ("Es", 99), ("Eu", 63), ("F", 9),
    ("Fe", 26), ("Fl", 114), ("Fm", 100), ("Fr", 87), ("Ga", 31), ("Gd", 64), ("Ge", 32), ("H", 1), ("He", 2), ("Hf", 72), ("Hg", 80), ("Ho", 67),
    ("Hs", 108), ("I", 53), ("In", 49), ("Ir", 77), ("K", 19), ("Kr", 36), ("La", 57), ("Li", 3), ("Lr", 103), ("Lu", 71), ("Lv", 116), ("Mc", 115),
    ("Md", 101), ("Mg", 12), ("Mn", 25), ("Mo", 42), ("Mt", 109), ("N", 7), ("Na", 11), ("Nb", 41), ("Nd", 60), ("Ne", 10), ("Nh", 113), ("Ni", 28),
    ("No", 102), ("Np", 93), ("O", 8), ("Og", 118), ("Os", 76), ("P", 15), ("Pa", 91), ("Pb", 82), ("Pd", 46), ("Pm", 61), ("Po", 84), ("Pr", 59),
    ("Pt", 78), ("Pu", 94), ("Ra", 88), ("Rb", 37), ("Re", 75), ("Rf", 104), ("Rg", 111), ("Rh", 45), ("Rn", 86), ("Ru", 44), ("S", 16), ("Sb", 51),
    ("Sc", 21), ("Se", 34), ("Sg", 106), ("Si", 14), ("Sm", 62), ("Sn", 50), ("Sr", 38), ("Ta", 73), ("Tb", 65), ("Tc", 43), ("Te", 52), ("Th", 90),
    ("Ti", 22), ("Tl", 81), ("Tm", 69), ("Ts", 117), ("U", 92), ("V", 23), ("W", 74), ("Xe", 54), ("Y", 39), ("Yb", 70), ("Zn", 30), ("Zr", 40)]

/-- The atomic number of a symbol, 0 if there is none, `io.py:608-613`. -/
def atomicNumber (s : String) : ℕ := (atomicNumbers.lookup s).getD 0

/-- The atomic types, `io.py:590-613`. -/
def loopTypes (env : GemmiEnv) (l : CifLoop) : List ℕ :=
  match l.get "_atom_site_type_symbol" with
  | some syms => syms.map fun s => atomicNumber (elementSymbol (env.asString s))
  | none => (loopLabels env l).map fun s => atomicNumber (symbolFromLabel s)

/-- An occupancy: NaN counts as 1, `io.py:620`. -/
def PyFloat.occupancy : PyFloat → PyFloat
  | .nan => .num 1
  | x => x

/-- The occupancies, `io.py:616-622`. -/
def loopOccupancies (l : CifLoop) : Except Exc (List PyFloat) :=
  match l.get "_atom_site_occupancy" with
  | some occs => (occs.mapM str2float).map fun xs => xs.map PyFloat.occupancy
  | none => .ok (List.replicate l.length (.num 1))

/-- `x < 1`. -/
def PyFloat.ltOne : PyFloat → Bool
  | .num q => decide (q < 1)
  | .nan => false
  | .inf neg => neg

/-- `_has_disorder(label, occupancy)`, `io.py:1663-1669`. -/
def hasDisorder (label : String) (occ : PyFloat) : Bool := occ.ltOne || decide (label.toList.getLast? = some '?')

/-! ### Selecting sites -/

/-- `np.delete(array, indices)` and `[x for i, x in enumerate(list) if i not in indices]`, `io.py:642-643`. -/
def deleteAt {α : Type} (l : List α) (inds : List ℕ) : List α := (l.zipIdx.filter fun x => decide (x.2 ∉ inds)).map Prod.fst

/-- The indices of the true entries. -/
def indicesOf (l : List Bool) : List ℕ := (l.zipIdx.filter fun x => x.1).map Prod.snd

/-- A row of coordinates with a NaN, `np.isnan(asym_unit.min(axis=-1))`, `io.py:626`. -/
def hasNan (p : Fin 3 → Option ℝ) : Bool := (p 0).isNone || (p 1).isNone || (p 2).isNone

/-- A row of coordinates without NaN. -/
noncomputable def toPt (p : Fin 3 → Option ℝ) : Pt 3 ℝ := fun i => (p i).getD 0

/-- The sites that are left and their types, `io.py:625-645`. -/
noncomputable def selectSites (name : String) (coords : List (Fin 3 → Option ℝ)) (labels : List String) (types : List ℕ) (occs : List PyFloat)
    (removeHydrogens : Bool) (disorder : String) : Except Exc (List (Pt 3 ℝ) × List ℕ) :=
  let dis := List.zipWith hasDisorder labels occs
  if disorder = "skip" ∧ dis.any id = true then
    .error (.parse (name ++ " has disorder, pass disorder='ordered_sites' or 'all_sites' to remove/ignore disorder"))
  else
    let rem := indicesOf (coords.map hasNan) ++ (if disorder = "ordered_sites" then indicesOf dis else []) ++
      (if removeHydrogens then indicesOf (types.map fun n => decide (n = 1)) else [])
    let asym := (deleteAt coords rem).map toPt
    if asym = [] then .error (.parse (name ++ " has no valid sites")) else .ok (asym, deleteAt types rem)

/-! ### Symmetry -/

/-- `_CIF_TAGS['symop']`, `io.py:79-83`. -/
def symopTags : List String := ["_space_group_symop_operation_xyz", "_space_group_symop.operation_xyz", "_symmetry_equiv_pos_as_xyz"]

/-- `_CIF_TAGS['spacegroup_name']`, `io.py:84-87`. -/
def spacegroupNameTags : List String := ["_space_group_name_H-M_alt", "_symmetry_space_group_name_H-M"]

/-- `_CIF_TAGS['spacegroup_number']`, `io.py:88-91`. -/
def spacegroupNumberTags : List String := ["_space_group_IT_number", "_symmetry_Int_Tables_number"]

/-- The operation as arrays of numbers. -/
def SymOp.affine (o : SymOp) : AffineOp 3 := ⟨fun i j => o.rot i j, fun i => o.trans i⟩

/-- The symmetry operations, `io.py:656-689`. -/
noncomputable def blockSymmetry (env : GemmiEnv) (b : GemmiBlock) : Conversion (List (AffineOp 3)) :=
  match (symopTags.map b.find).find? fun l => !l.isEmpty with
  | some syms => ([], (syms.mapM parseSitesym).map fun ops => ops.map SymOp.affine)
  | none =>
    match (spacegroupNameTags.flatMap b.find).findSome? env.byName with
    | some ops => ([], .ok ops)
    | none =>
      match spacegroupNumberTags.findSome? b.findValue with
      | some v =>
        match env.asInt v with
        | .ok n => ([], env.byNumber n)
        | .error e => ([], .error e)
      | none => ([⟨"UserWarning", "no symmetry data found, defaulting to P1"⟩], env.byNumber 1)

/-! ### The conversion -/

/-- `_EQ_SITE_TOL`, `io.py:59`. -/
noncomputable def eqSiteTol : ℝ := 1 / 1000

/-- Removing overlapping sites, `io.py:647-654`. -/
noncomputable def removeOverlaps (disorder : String) (asym : List (Pt 3 ℝ)) (types : List ℕ) : List Warning × List (Pt 3 ℝ) × List ℕ :=
  if disorder ≠ "all_sites" then
    let keep := uniqueSites eqSiteTol asym
    (if keep.all id then [] else [⟨"UserWarning", "may have overlapping sites; duplicates will be removed"⟩], selectMask asym keep, selectMask types keep)
  else ([], asym, types)

/-- From the selected sites on, `io.py:647-706`. -/
noncomputable def finishBlock (env : GemmiEnv) (b : GemmiBlock) (cell : Fin 3 → Pt 3 ℝ) (disorder : String) (asym : List (Pt 3 ℝ)) (types : List ℕ) :
    Conversion ReadSet :=
  let s := removeOverlaps disorder asym types
  let o := blockSymmetry env b
  match o.2 with
  | .error e => (s.1 ++ o.1, .error e)
  | .ok ops =>
    let r := expandAsymUnit s.2.1 ops eqSiteTol (decide (disorder ≠ "all_sites"))
    (s.1 ++ o.1 ++ r.2.2, .ok (assemble b.name cell r.1 r.2.1 s.2.2))

/-- `periodicset_from_gemmi_block(block, remove_hydrogens, disorder)`, `io.py:505-706`. -/
noncomputable def gemmiConvert (env : GemmiEnv) (b : GemmiBlock) (removeHydrogens : Bool) (disorder : String) : Conversion ReadSet :=
  match blockCell b with
  | .error e => ([], .error e)
  | .ok cell =>
    match b.fractLoop with
    | none =>
      if b.cartnLoop then
        ([], .error (.parse (b.name ++ " uses _atom_site_Cartn_ tags for coordinates, only _atom_site_fract_ is supported")))
      else ([], .error (.parse (b.name ++ " has missing coordinate data")))
    | some l =>
      match loopCoords l with
      | .error e => ([], .error e)
      | .ok coords =>
        match loopOccupancies l with
        | .error e => ([], .error e)
        | .ok occs =>
          match selectSites b.name coords (loopLabels env l) (loopTypes env l) occs removeHydrogens disorder with
          | .error e => ([], .error e)
          | .ok (asym, types) => finishBlock env b cell disorder asym types

end Amd
