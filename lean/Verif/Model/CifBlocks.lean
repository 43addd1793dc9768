import Verif.Model.GemmiBlock

/-!
# Converting blocks of ase and pymatgen

Model of `periodicset_from_ase_cifblock` (`/repo/src/amd/io.py:709-894`), `periodicset_from_pymatgen_cifblock` (`io.py:897-1075`) and
`_get_syms_pymatgen` (`io.py:1690-1754`).

What ase and pymatgen do is a parameter: the values they give for tags and the operations of their space groups. The memo table of `_parse_sitesyms` is
left out, as `C43_cache` shows that it does not change results. Simplifications: a cell parameter or a coordinate that is infinite or NaN gives the exception
`Exc.other "inf"` here, while the code goes on to compute with it; a tag for symmetry operations with an empty list gives an empty motif here, while the code
may raise an exception. The lists `invalid` (`io.py:806-817, 1004-1016`) are left out: they stay empty, because `str2float` returns a float or raises.
-/

namespace Amd

/-! ### Shared by the two converters -/

/-- Lists `xs`, `ys`, `zs` zipped, `list(zip(*asym_unit))`, `io.py:775, 964`. -/
def zip3 {α : Type} (xs ys zs : List α) : List (α × α × α) := List.zipWith (fun x yz => (x, yz.1, yz.2)) xs (ys.zip zs)

/-- A site with three numbers as coordinates. -/
def siteOf (p : PyFloat × PyFloat × PyFloat) : Option (ℚ × ℚ × ℚ) :=
  match p.1.finite, p.2.1.finite, p.2.2.finite with
  | some x, some y, some z => some (x, y, z)
  | _, _, _ => none

/-- `np.mod(np.array(asym_unit), 1)` for a site, `io.py:844, 1043`. -/
noncomputable def modOne (p : ℚ × ℚ × ℚ) : Pt 3 ℝ := ![Int.fract (p.1 : ℝ), Int.fract (p.2.1 : ℝ), Int.fract (p.2.2 : ℝ)]

/-- The indices in `remove_sites`, `io.py:819-837, 1018-1036`; `none` stands for the ParseError about disorder. The loop over `has_disorder` is written as
a filter: it looks only at the indices of hydrogens and adds only the index it is at. -/
def removeSites (types : List ℕ) (dis : List Bool) (removeHydrogens : Bool) (disorder : String) : Option (List ℕ) :=
  let hyd := if removeHydrogens then indicesOf (types.map fun n => decide (n = 1)) else []
  let rest := (indicesOf dis).filter fun i => decide (i ∉ hyd)
  if disorder ≠ "all_sites" then
    if disorder = "skip" then (if rest = [] then some hyd else none)
    else if disorder = "ordered_sites" then some (hyd ++ rest)
    else some hyd
  else some hyd

/-- From the selected sites on, `io.py:844-894, 1043-1075`. `warning` is the text about overlapping sites. -/
noncomputable def finishSites (name : String) (cell : Fin 3 → Pt 3 ℝ) (disorder warning : String) (asym : List (Pt 3 ℝ)) (types : List ℕ)
    (sym : Conversion (List (AffineOp 3))) : Conversion ReadSet :=
  let s :=
    if disorder ≠ "all_sites" then
      let keep := uniqueSites eqSiteTol asym
      (if keep.all id then [] else [(⟨"UserWarning", warning⟩ : Warning)], selectMask asym keep, selectMask types keep)
    else ([], asym, types)
  match sym.2 with
  | .error e => (s.1 ++ sym.1, .error e)
  | .ok ops =>
    let r := expandAsymUnit s.2.1 ops eqSiteTol (decide (disorder ≠ "all_sites"))
    if r.2.1.any fun i => decide (s.2.2.length ≤ i) then (s.1 ++ sym.1 ++ r.2.2, .error (.other "IndexError"))
    else (s.1 ++ sym.1 ++ r.2.2, .ok (assemble name cell r.1 r.2.1 s.2.2))

/-- From the lists of coordinates, types and disorder on, `io.py:819-894, 1018-1075`. -/
noncomputable def convertSites (name : String) (cell : Fin 3 → Pt 3 ℝ) (disorder warning : String) (removeHydrogens : Bool) (sites : List (ℚ × ℚ × ℚ))
    (types : List ℕ) (dis : List Bool) (sym : Conversion (List (AffineOp 3))) : Conversion ReadSet :=
  match removeSites types dis removeHydrogens disorder with
  | none => ([], .error (.parse (name ++ " has disorder, pass disorder='ordered_sites' or 'all_sites' to remove/ignore disorder")))
  | some rem =>
    if deleteAt sites rem = [] then ([], .error (.parse (name ++ " has no valid sites")))
    else finishSites name cell disorder warning ((deleteAt sites rem).map modOne) (deleteAt types rem) sym

/-! ### ase -/

/-- A value that ase read: it turns texts of numbers into numbers. -/
inductive AseItem
  | num (q : ℚ)
  | str (s : String)
  deriving DecidableEq

/-- What `block.get(tag)` can be: a single value, or the list of a column of a loop. -/
inductive AseVal
  | item (a : AseItem)
  | list (l : List AseItem)

/-- An `ase.io.cif.CIFBlock`. -/
structure AseBlock where
  name : String
  get : String → Option AseVal

/-- The operations of `ase.spacegroup.Spacegroup(value)`. -/
structure AseEnv where
  spacegroup : AseVal → Except Exc (List (AffineOp 3))

/-- `str2float(str(value))`. -/
def AseItem.toFloat : AseItem → Except Exc PyFloat
  | .num q => .ok (.num q)
  | .str s => str2float s

/-- `for x in value`: numbers cannot be iterated over, a string gives its characters. -/
def AseVal.iter : AseVal → Except Exc (List AseItem)
  | .list l => .ok l
  | .item (.str s) => .ok (s.toList.map fun c => .str (String.singleton c))
  | .item (.num _) => .error (.other "TypeError")

/-- `str2float(str(block.get(tag)))`, `io.py:754`. `str(None)` and the text of a list are not numbers. -/
def AseBlock.cellValue (b : AseBlock) (tag : String) : Except Exc PyFloat :=
  match b.get tag with
  | some (.item a) => a.toFloat
  | _ => .error (.other "ValueError")

/-- The unit cell, `io.py:754-757`. `None in cellpar` is never true. -/
noncomputable def AseBlock.cell (b : AseBlock) : Except Exc (Fin 3 → Pt 3 ℝ) :=
  match cellparTags.mapM b.cellValue with
  | .error e => .error e
  | .ok xs =>
    match xs.mapM PyFloat.finite with
    | none => .error (.other "inf")
    | some qs => cellOfNumbers qs

/-- `[str2float(str(n)) for n in block.get(tag)]`, `io.py:761`. -/
def AseBlock.column (b : AseBlock) (tag : String) : Except Exc (List PyFloat) :=
  match b.get tag with
  | none => .error (.other "TypeError")
  | some v =>
    match v.iter with
    | .error e => .error e
    | .ok l => l.mapM AseItem.toFloat

/-- The coordinates, `io.py:760-775`. `None in asym_unit` is never true, so the branch about `_atom_site_Cartn_` is not reached. -/
def AseBlock.coords (b : AseBlock) : Except Exc (List (PyFloat × PyFloat × PyFloat)) :=
  match b.column "_atom_site_fract_x" with
  | .error e => .error e
  | .ok xs =>
    match b.column "_atom_site_fract_y" with
    | .error e => .error e
    | .ok ys =>
      match b.column "_atom_site_fract_z" with
      | .error e => .error e
      | .ok zs => .ok (zip3 xs ys zs)

/-- `_atomic_symbols_from_labels` for a value, `io.py:1672-1687`: only strings can be searched, but zero counts as empty. -/
def AseItem.symbol : AseItem → Except Exc String
  | .str s => .ok (symbolFromLabel s)
  | .num q => if q = 0 then .ok "" else .error (.other "TypeError")

/-- The atomic types of `n` sites, `io.py:783-794`. -/
def AseBlock.types (b : AseBlock) (n : ℕ) : Except Exc (List ℕ) :=
  match b.get "_atom_site_type_symbol" with
  | none => .ok (List.replicate n 0)
  | some v =>
    match v.iter with
    | .error e => .error e
    | .ok l => (l.mapM AseItem.symbol).map fun s => s.map atomicNumber

/-- `float(occupancy)`, 1 if it fails, `io.py:1665-1668`. -/
def AseItem.occupancy : AseItem → PyFloat
  | .num q => .num q
  | .str s => (pyFloat s.toList).getD (.num 1)

/-- `_has_disorder(label, occupancy)`, `io.py:1663-1669`: a number has no method `endswith`. -/
def AseItem.hasDisorder (label occ : AseItem) : Except Exc Bool :=
  if occ.occupancy.ltOne then .ok true
  else
    match label with
    | .str s => .ok (decide (s.toList.getLast? = some '?'))
    | .num _ => .error (.other "AttributeError")

/-- `block.get(tag)`, or `default` for each of `n` sites. -/
def AseBlock.getD (b : AseBlock) (tag : String) (n : ℕ) (default : AseItem) : Except Exc (List AseItem) :=
  match b.get tag with
  | none => .ok (List.replicate n default)
  | some v => v.iter

/-- `has_disorder`, `io.py:778-780, 797-803`. -/
def AseBlock.disorder (b : AseBlock) (n : ℕ) (disorder : String) : Except Exc (List Bool) :=
  if disorder ≠ "all_sites" then
    match b.getD "_atom_site_label" n (.str "") with
    | .error e => .error e
    | .ok labels =>
      match b.getD "_atom_site_occupancy" n (.num 1) with
      | .error e => .error e
      | .ok occs => (labels.zip occs).mapM fun x => x.1.hasDisorder x.2
  else .ok []

/-- `_parse_sitesyms` for a value, `io.py:1514-1524`. -/
def AseItem.symop : AseItem → Except Exc SymOp
  | .str s => parseSitesym s
  | .num _ => .error (.other "AttributeError")

/-- The symmetry operations, `io.py:860-877`. The tags of space groups are in lower case, as ase has them. -/
noncomputable def AseBlock.symmetry (env : AseEnv) (b : AseBlock) : Conversion (List (AffineOp 3)) :=
  match symopTags.findSome? b.get with
  | some (.item (.str s)) => ([], ([AseItem.str s].mapM AseItem.symop).map fun ops => ops.map SymOp.affine)
  | some (.item (.num _)) => ([], .error (.other "TypeError"))
  | some (.list l) => ([], (l.mapM AseItem.symop).map fun ops => ops.map SymOp.affine)
  | none =>
    match (spacegroupNameTags.map String.toLower).findSome? b.get with
    | some v => ([], env.spacegroup v)
    | none =>
      match (spacegroupNumberTags.map String.toLower).findSome? b.get with
      | some v => ([], env.spacegroup v)
      | none => ([⟨"UserWarning", "no symmetry data found, defaulting to P1"⟩], env.spacegroup (.item (.num 1)))

/-- `periodicset_from_ase_cifblock(block, remove_hydrogens, disorder)`, `io.py:709-894`. -/
noncomputable def aseConvert (env : AseEnv) (b : AseBlock) (removeHydrogens : Bool) (disorder : String) : Conversion ReadSet :=
  match b.cell with
  | .error e => ([], .error e)
  | .ok cell =>
    match b.coords with
    | .error e => ([], .error e)
    | .ok coords =>
      match b.types coords.length with
      | .error e => ([], .error e)
      | .ok types =>
        match b.disorder coords.length disorder with
        | .error e => ([], .error e)
        | .ok dis =>
          match coords.mapM siteOf with
          | none => ([], .error (.other "inf"))
          | some sites =>
            convertSites b.name cell disorder "may have overlapping sites, duplicates will be removed" removeHydrogens sites types dis (b.symmetry env)

/-! ### pymatgen -/

/-- What `block.data.get(tag)` can be: a string, or the list of a column of a loop. -/
inductive PmgVal
  | str (s : String)
  | list (l : List String)

/-- A `pymatgen.io.cif.CifBlock`. -/
structure PmgBlock where
  header : String
  get : String → Option PmgVal

/-- What pymatgen knows of space groups: `pymatgen.io.cif.space_groups.get(symbol)` (`none` if that is empty), the operations of `SpaceGroup(symbol)` (`none`
stands for ValueError; they are a set, in whatever order it is gone through), the operations that the COD lists for a symbol (`none` if there are none, or if
the list cannot be read), and those of `SpaceGroup.from_int_number(number)` (`none` stands for ValueError). -/
structure PmgEnv where
  spaceGroups : String → Option String
  symbolOps : String → Option (List (AffineOp 3))
  cod : String → Option (List String)
  numberOps : ℤ → Option (List (AffineOp 3))

/-- `str2float(value)`, `io.py:1794-1805`: of lists only those with one string that is a number are converted. All the exceptions are ValueErrors. -/
def PmgVal.toFloat : PmgVal → Except Exc PyFloat
  | .str s => str2float s
  | .list [s] =>
    match pyFloat (removeBrackets s.toList) with
    | some x => .ok x
    | none => .error (.other "ValueError")
  | .list _ => .error (.parse "cannot be converted to float")

/-- `for x in value`: a string gives its characters. -/
def PmgVal.iter : PmgVal → List String
  | .str s => s.toList.map String.singleton
  | .list l => l

/-- `not value`. -/
def PmgVal.isEmpty : PmgVal → Bool
  | .str s => decide (s = "")
  | .list l => l.isEmpty

/-- `par in ('?', '.')`. -/
def PmgVal.unknown : PmgVal → Bool
  | .str s => decide (s = "?" ∨ s = ".")
  | .list _ => false

/-- The unit cell, `io.py:940-950`. -/
noncomputable def PmgBlock.cell (b : PmgBlock) : Except Exc (Fin 3 → Pt 3 ℝ) :=
  match cellparTags.mapM b.get with
  | none => .error (.parse (b.header ++ " has missing cell data"))
  | some pars =>
    if pars.any PmgVal.unknown then .error (.parse (b.header ++ " has missing cell data"))
    else
      match pars.mapM PmgVal.toFloat with
      | .error _ => .error (.parse (b.header ++ " could not be parsed"))
      | .ok xs =>
        match xs.mapM PyFloat.finite with
        | none => .error (.other "inf")
        | some qs => cellOfNumbers qs

/-- `_CIF_TAGS['atom_site_fract']`, `io.py:69-73`. -/
def fractTags : List String := ["_atom_site_fract_x", "_atom_site_fract_y", "_atom_site_fract_z"]

/-- `_CIF_TAGS['atom_site_cartn']`, `io.py:74-78`. -/
def cartnTags : List String := ["_atom_site_Cartn_x", "_atom_site_Cartn_y", "_atom_site_Cartn_z"]

/-- The three numbers of a site. -/
def floats3 (p : String × String × String) : Except Exc (PyFloat × PyFloat × PyFloat) := do
  let x ← str2float p.1
  let y ← str2float p.2.1
  let z ← str2float p.2.2
  return (x, y, z)

/-- The coordinates, `io.py:953-968`. -/
def PmgBlock.coords (b : PmgBlock) : Except Exc (List (PyFloat × PyFloat × PyFloat)) :=
  match b.get "_atom_site_fract_x", b.get "_atom_site_fract_y", b.get "_atom_site_fract_z" with
  | some x, some y, some z =>
    match (zip3 x.iter y.iter z.iter).mapM floats3 with
    | .error _ => .error (.parse (b.header ++ " could not be parsed"))
    | .ok l => .ok l
  | _, _, _ =>
    if cartnTags.all fun t => (b.get t).isSome then
      .error (.parse (b.header ++ " uses _atom_site_Cartn_ tags for coordinates, only _atom_site_fract_ is supported"))
    else .error (.parse (b.header ++ " has missing coordinates"))

/-- The atomic types of `n` sites, `io.py:976-987`. -/
def PmgBlock.types (b : PmgBlock) (n : ℕ) : List ℕ :=
  match b.get "_atom_site_type_symbol" with
  | none => List.replicate n 0
  | some v => v.iter.map fun s => atomicNumber (symbolFromLabel s)

/-- The labels of `n` sites, `io.py:971-973, 997-999`. -/
def PmgBlock.labels (b : PmgBlock) (n : ℕ) : List String :=
  match b.get "_atom_site_label" with
  | none => List.replicate n ""
  | some v => v.iter

/-- The occupancies of `n` sites, `io.py:992-996`. -/
def PmgBlock.occupancies (b : PmgBlock) (n : ℕ) : Except Exc (List PyFloat) :=
  match b.get "_atom_site_occupancy" with
  | none => .ok (List.replicate n (.num 1))
  | some v => v.iter.mapM str2float

/-- `has_disorder`, `io.py:990-1001`. -/
def PmgBlock.disorder (b : PmgBlock) (n : ℕ) (disorder : String) : Except Exc (List Bool) :=
  if disorder ≠ "all_sites" then
    match b.occupancies n with
    | .error e => .error e
    | .ok occs => .ok (List.zipWith hasDisorder (b.labels n) occs)
  else .ok []

/-- `re.sub(r'[\s_]', '', symbol)`, `io.py:1715`. -/
def squeeze (s : String) : String := String.ofList (s.toList.filter fun c => !(isWs c || decide (c = '_')))

/-- The operations for the texts, `_parse_sitesyms`. -/
noncomputable def parseOps (l : List String) : Except Exc (List (AffineOp 3)) := (l.mapM parseSitesym).map fun ops => ops.map SymOp.affine

/-- What the loop over the space group symbols does: raise, return operations, or go on with those found so far. -/
inductive SymbolSearch
  | raise (e : Exc)
  | ret (ops : List (AffineOp 3))
  | found (ops : List (AffineOp 3))

/-- The loop over the space group symbols, `io.py:1710-1731`. -/
noncomputable def symbolSearch (env : PmgEnv) (b : PmgBlock) : List String → SymbolSearch
  | [] => .found []
  | tag :: tags =>
    match b.get tag with
    | none => symbolSearch env b tags
    | some (.list l) => if l.isEmpty then symbolSearch env b tags else .raise (.other "TypeError")
    | some (.str s) =>
      if s = "" then symbolSearch env b tags
      else
        match env.spaceGroups (squeeze s) with
        | none => symbolSearch env b tags
        | some spg =>
          match env.symbolOps spg with
          | some ops => .found ops
          | none =>
            match env.cod (squeeze s) with
            | none => symbolSearch env b tags
            | some syms =>
              match parseOps syms with
              | .ok ops => .ret ops
              | .error _ => symbolSearch env b tags

/-- `int(x)` of a float, towards zero: NaN gives ValueError (`none`), infinities OverflowError. -/
def PyFloat.toInt : PyFloat → Except Exc (Option ℤ)
  | .num q => .ok (some (Int.tdiv q.num q.den))
  | .nan => .ok none
  | .inf _ => .error (.other "OverflowError")

/-- The loop over the space group numbers, `io.py:1733-1744`. -/
noncomputable def numberSearch (env : PmgEnv) (b : PmgBlock) : List String → Except Exc (List (AffineOp 3))
  | [] => .ok []
  | tag :: tags =>
    match b.get tag with
    | none => numberSearch env b tags
    | some v =>
      if v.isEmpty then numberSearch env b tags
      else
        match v.toFloat with
        | .error _ => numberSearch env b tags
        | .ok x =>
          match x.toInt with
          | .error e => .error e
          | .ok none => numberSearch env b tags
          | .ok (some n) =>
            match env.numberOps n with
            | none => numberSearch env b tags
            | some ops => .ok ops

/-- The first nonempty value of the tags for symmetry operations, `io.py:1700-1708`. -/
def PmgBlock.symops (b : PmgBlock) : Option PmgVal := symopTags.findSome? fun t => (b.get t).filter fun v => !v.isEmpty

/-- The operations that were found; P1 if there are none, `io.py:1746-1754`. -/
noncomputable def opsOrP1 (ops : List (AffineOp 3)) : Conversion (List (AffineOp 3)) :=
  if ops = [] then ([⟨"UserWarning", "no symmetry data found, defaulting to P1"⟩], parseOps ["x,y,z"]) else ([], .ok ops)

/-- `_get_syms_pymatgen(data)`, `io.py:1690-1754`. -/
noncomputable def PmgBlock.symmetry (env : PmgEnv) (b : PmgBlock) : Conversion (List (AffineOp 3)) :=
  match b.symops with
  | some (.str s) => ([], parseOps [s])
  | some (.list l) => ([], parseOps l)
  | none =>
    match symbolSearch env b spacegroupNameTags with
    | .raise e => ([], .error e)
    | .ret ops => ([], .ok ops)
    | .found ops =>
      if ops = [] then
        match numberSearch env b spacegroupNumberTags with
        | .error e => ([], .error e)
        | .ok ops => opsOrP1 ops
      else opsOrP1 ops

/-- `periodicset_from_pymatgen_cifblock(block, remove_hydrogens, disorder)`, `io.py:897-1075`. -/
noncomputable def pymatgenConvert (env : PmgEnv) (b : PmgBlock) (removeHydrogens : Bool) (disorder : String) : Conversion ReadSet :=
  match b.cell with
  | .error e => ([], .error e)
  | .ok cell =>
    match b.coords with
    | .error e => ([], .error e)
    | .ok coords =>
      match b.disorder coords.length disorder with
      | .error e => ([], .error e)
      | .ok dis =>
        match coords.mapM siteOf with
        | none => ([], .error (.other "inf"))
        | some sites =>
          convertSites b.header cell disorder "may have overlapping sites; duplicates will be removed" removeHydrogens sites (b.types coords.length) dis
            (b.symmetry env)

end Amd
