import Verif.Spec.Reader
import Verif.Spec.Described
import Verif.Spec.CifEntry
import Verif.Spec.Ccdc
import Verif.Model.CifCompare

/-!
# Specification: files and refcodes of crystals

What the blocks of CIF files, and entries of the CSD, at paths and refcodes describe, without readers. `none` stands for a block that is passed over.
-/

namespace Amd

/-- The options of the readers. -/
structure ReadOptions where
  reader : String
  rh : Bool
  d : String
  heaviest : Bool := false
  centres : Bool := false
  families : Bool := false

/-- The options are such that no point is listed twice: `disorder` is `'skip'` or `'ordered_sites'`, or molecules are replaced by their centres. -/
def ReadOptions.Distinct (o : ReadOptions) : Prop := o.d = "skip" ∨ o.d = "ordered_sites" ∨ o.d = "all_sites" ∧ o.centres = true

/-- The crystal that an entry of a CIF file describes, given the options. -/
def CifEntry.described (asString : String → String) (rh : Bool) (d : String) (e : CifEntry) : Described := ⟨e.name, e.cell, e.ops, e.sites asString rh d⟩

/-- What an entry that is written as it should be describes. -/
inductive EntryDescribes (asString : String → String) (rh : Bool) (d : String) (e : CifEntry) : Option Described → Prop
  | skipped (hw : e.Written) (h : e.Skipped asString rh d) : EntryDescribes asString rh d e none
  | crystal (hw : e.Written) (h : ¬ e.Skipped asString rh d) : EntryDescribes asString rh d e (some (e.described asString rh d))

/-- What a block of gemmi describes. -/
def GemmiDescribes (env : GemmiEnv) (asString : String → String) (o : ReadOptions) (b : GemmiBlock) (r : Option Described) : Prop :=
  ∃ e, GemmiHolds env asString b e ∧ EntryDescribes asString o.rh o.d e r

/-- What an entry describes if hydrogens that are removed are not looked at: it is not passed over because of disorder of these. (ase and pymatgen; otherwise with gemmi,
`C87_false_ase`, `C87_false_pymatgen`.) -/
def EntryLeft (asString : String → String) (rh : Bool) (d : String) (e : CifEntry) (r : Option Described) : Prop :=
  e.OrderedHydrogens asString rh d ∧ EntryDescribes asString rh d e r ∨ rh = true ∧ e.Written ∧ EntryDescribes asString false d (e.withoutHydrogens asString) r

/-- What a block of ase describes. -/
def AseDescribes (env : AseEnv) (asString : String → String) (o : ReadOptions) (b : AseBlock) (r : Option Described) : Prop :=
  ∃ e, AseHolds env asString b e ∧ EntryLeft asString o.rh o.d e r

/-- What a block of pymatgen describes. -/
def PmgDescribes (env : PmgEnv) (asString : String → String) (o : ReadOptions) (b : PmgBlock) (r : Option Described) : Prop :=
  ∃ e, PmgHolds env asString b e ∧ EntryLeft asString o.rh o.d e r

/-- What the blocks at a path describe, where `describes` says what one block describes: those of a file, or of the files of a directory with one of the extensions, in
order (such a file may end with something that the backend cannot read). -/
inductive HoldsEntries {β δ : Type} (exts : List String) (describes : β → Option δ → Prop) : PathKind β → List (Option δ) → Prop
  | file (bs : List β) (rs : List (Option δ)) (h : List.Forall₂ describes bs rs) : HoldsEntries exts describes (.file (.ok (bs.map .item))) rs
  | dir (fs : List (DirEntry β × List (Option δ)))
      (h : ∀ f ∈ fs, f.1.isFile = true → (∃ ext ∈ exts, HasExtension f.1.name ext) → List.Forall₂ describes f.1.items f.2) :
      HoldsEntries exts describes (.dir (fs.map Prod.fst))
        ((open Classical in fs.filter fun f => f.1.isFile = true ∧ ∃ ext ∈ exts, HasExtension f.1.name ext).flatMap Prod.snd)

/-- What the entries at a path describe, for each of the backends. Only ccdc has the options `heaviest_component` and `molecular_centres`. -/
inductive PathHolds (B : CifBackends) (asString : String → String) (o : ReadOptions) (path : String) (rs : List (Option Described)) : Prop
  | gemmi (hr : o.reader = "gemmi") (ho : o.heaviest = false ∧ o.centres = false) (h : HoldsEntries ["cif"] (GemmiDescribes B.gemmi asString o) (B.gemmiFiles path) rs)
  | ase (hr : o.reader = "ase" ∨ o.reader = "pycodcif") (ho : o.heaviest = false ∧ o.centres = false)
      (h : HoldsEntries ["cif"] (AseDescribes B.ase asString o) (B.aseFiles o.reader path) rs)
  | pymatgen (hr : o.reader = "pymatgen") (ho : o.heaviest = false ∧ o.centres = false)
      (h : HoldsEntries ["cif"] (PmgDescribes B.pymatgen asString o) (B.pymatgenFiles path) rs)
  | ccdc (P : CcdcPackage) (hP : B.ccdc = some P) (hs : "" ∉ P.suffixes) (hr : o.reader = "ccdc")
      (h : HoldsEntries P.suffixes (CcdcDescribes P.env o.rh o.d o.heaviest o.centres) (P.files path) rs)

/-- The refcodes that are asked for: those given, or all of their families, each once, in the order of the search. -/
def IsRefcodes (search : String → List String) (families : Bool) (given codes : List String) : Prop :=
  if families then codes.Nodup ∧ (∀ c, c ∈ codes ↔ ∃ f ∈ given, c ∈ search f) ∧
    codes.Pairwise fun x y => (given.flatMap search).idxOf x < (given.flatMap search).idxOf y
  else codes = given

/-- What the entries of the CSD with the refcodes describe. -/
def RefcodesHold (B : CifBackends) (o : ReadOptions) (given : List String) (rs : List (Option Described)) : Prop :=
  ∃ P, B.ccdc = some P ∧ ∃ codes, IsRefcodes P.search o.families given codes ∧
    List.Forall₂ (fun c r => ∃ x, P.entry c = .item x ∧ CcdcDescribes P.env o.rh o.d o.heaviest o.centres x r) codes rs

/-- The periodic set represents the crystal that is described: it has its name and the lengths and angles of its cell, and the motif, repeated by the cell, gives each point
of the crystal exactly once. -/
def RepresentsCrystal (c : Described) (x : Crystal) : Prop :=
  ∃ S : PeriodicSet 3, x = ⟨c.name, 3, S⟩ ∧ c.HasCell S.cell ∧ Function.Injective (sitePos S.motif S.cell) ∧ periodicPoints S.motif S.cell = c.points S.cell

/-- The items that `CSDReader` goes through: those of the whole database if the argument is None or `'CSD'` in any case, else the entries with the refcodes asked for. -/
inductive CsdItems (P : CcdcPackage) (families : Bool) : Refcodes → List (Event CcdcEntry) → Prop
  | all : CsdItems P families .none P.database
  | csd (s : String) (h : lower s = "csd") : CsdItems P families (.str s) P.database
  | one (s : String) (h : lower s ≠ "csd") (codes : List String) (hc : IsRefcodes P.search families [s] codes) : CsdItems P families (.str s) (codes.map P.entry)
  | many (given codes : List String) (hc : IsRefcodes P.search families given codes) : CsdItems P families (.list (given.map some)) (codes.map P.entry)

/-- The first or second argument of `compare` is a string or a list of strings. -/
inductive IsStrings : Input → List String → Prop
  | one (p : String) : IsStrings (.one (.str p)) [p]
  | many (ps : List String) : IsStrings (.many (ps.map .str)) ps

/-- The argument of `compare` stands for these crystals, in order: those at paths, or, with `csd_refcodes=True`, those of refcodes; blocks and entries that are passed
over are left out. -/
inductive InputHolds (B : CifBackends) (asString : String → String) (o : ReadOptions) (inp : Input) (cs : List Described) : (csd : Bool) → Prop
  | paths (paths : List String) (f : String → List (Option Described)) (hp : IsStrings inp paths) (h : ∀ p ∈ paths, PathHolds B asString o p (f p))
      (hc : cs = (paths.flatMap f).reduceOption) : InputHolds B asString o inp cs false
  | refcodes (given : List String) (rs : List (Option Described)) (hp : IsStrings inp given) (h : RefcodesHold B o given rs) (hc : cs = rs.reduceOption) :
      InputHolds B asString o inp cs true

end Amd
