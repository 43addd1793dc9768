import Verif.Model.Reader
import Verif.Model.CifBlocks
import Verif.Model.Objects

/-!
# `compare` with paths of CIF files and with refcodes of the CSD

The readers that `compare` calls (`compare.py:175`, `ret.extend(CifReader(path, **reader_kwargs))`, and `compare.py:154`, `list(CSDReader(refcodes, **reader_kwargs))`), put
together from the models of `CifReader` and `CSDReader` (`Model/Reader.lean`) and of the conversion of blocks of gemmi, ase and pymatgen and of entries of ccdc.

Simplifications: every path is read in the same state of the process (readers change it only by showing warnings and, without `show_warnings`, by ignoring
further ones); of an exception only that there is one is kept. Parsing of the files by the packages is a parameter. What a conversion does to the objects of ccdc is
not kept: each is read anew and converted once.
-/

namespace Amd

/-- csd-python-api: the package as a parameter of the converter; `EntryReader.known_suffixes`; what is at a path, as `EntryReader` sees it (`io.py:311-312, 328-333`);
`EntryReader('CSD').entry` and the items of `EntryReader('CSD')` (`io.py:491-495`); the identifiers of the hits of `TextNumericSearch` (`io.py:471-474`). -/
structure CcdcPackage where
  env : CcdcEnv
  suffixes : List String
  files : String → PathKind CcdcEntry
  entry : String → Event CcdcEntry
  database : List (Event CcdcEntry)
  search : String → List String

/-- What the backends of `CifReader` give: packages as parameters of the converters, and what is at a path, as the parser of the package sees it
(`io.py:270-334`; ase has two parsers, chosen by `reader`). csd-python-api may not be installed. -/
structure CifBackends where
  gemmi : GemmiEnv
  gemmiFiles : String → PathKind GemmiBlock
  ase : AseEnv
  aseFiles : (reader : String) → String → PathKind AseBlock
  pymatgen : PmgEnv
  pymatgenFiles : String → PathKind PmgBlock
  ccdc : Option CcdcPackage

/-- The periodic set that a converter returns, `io.py:696-706`; the types are not used by `compare`. -/
def ReadSet.toCrystal (s : ReadSet) : Crystal := ⟨s.name, 3, s.set⟩

/-- The periodic set that the converter for entries returns, `io.py:1404-1406, 1444-1453`. It has a name. -/
def FullSet.toCrystal (s : FullSet) : Crystal := ⟨s.name.getD "", 3, s.set⟩

/-- The converter and the files that `CifReader` uses with one of its backends, `io.py:271-320, 328-333`. -/
def backendEnv {β α : Type} (convert : β → Bool → String → Bool → Bool → Conversion α) (files : String → PathKind β) (toCrystal : α → Crystal)
    (suffixes : Option (List String)) : ReaderEnv β α where
  converter := fun _ rh d heaviest centres b => convert b rh d heaviest centres
  path := fun _ p => files p
  name := fun s => (toCrystal s).name
  ccdc := suffixes

/-- The text of an argument that should be a string; no option is the empty text. -/
def PyVal.text : PyVal → String
  | .str s => s
  | _ => ""

/-- Any exception of a reader. -/
def anyExc {α : Type} : Except Exc α → Except CErr α
  | .ok a => .ok a
  | .error _ => .error (.run .value)

/-- `list(CifReader(path, **kw))` with one of the backends, `compare.py:175`, `io.py:107-171, 237-334`. -/
noncomputable def readPath {β α : Type} (convert : β → Bool → String → Bool → Bool → Conversion α) (files : String → PathKind β) (toCrystal : α → Crystal)
    (suffixes : Option (List String)) (w : World) (reader : String) (kw : Kwargs) (path : String) : Except CErr (List Crystal) :=
  match cifReaderInit (backendEnv convert files toCrystal suffixes) path reader (argOf kw "remove_hydrogens").truthy (argOf kw "disorder").text
    (argOf kw "heaviest_component").truthy (argOf kw "molecular_centres").truthy (argOf kw "show_warnings").truthy with
  | .error _ => .error (.run .value)
  | .ok r => anyExc ((r.toList w).2.map fun l => l.map toCrystal)

/-- `list(CifReader(path, **kw))`, `compare.py:175`: the choice of the backend, `io.py:270-325`. -/
noncomputable def cifReader (B : CifBackends) (w : World) (kw : Kwargs) (path : String) : Except CErr (List Crystal) :=
  let reader := (argOf kw "reader").text
  if reader = "gemmi" then readPath (fun b rh d _ _ => gemmiConvert B.gemmi b rh d) B.gemmiFiles ReadSet.toCrystal none w reader kw path
  else if reader = "ase" ∨ reader = "pycodcif" then readPath (fun b rh d _ _ => aseConvert B.ase b rh d) (B.aseFiles reader) ReadSet.toCrystal none w reader kw path
  else if reader = "pymatgen" then readPath (fun b rh d _ _ => pymatgenConvert B.pymatgen b rh d) B.pymatgenFiles ReadSet.toCrystal none w reader kw path
  else if reader = "ccdc" then
    match B.ccdc with
    | none => .error (.run .value)
    | some P => readPath (fun x rh d heaviest centres => (ccdcEntryConvert P.env x rh d heaviest centres).2) P.files FullSet.toCrystal (some P.suffixes) w reader kw path
  else .error (.run .value)

/-- `CSDReader.__init__`, `io.py:425-497`. -/
noncomputable def csdReaderInit (ccdc : Option CcdcPackage) (refcodes : Refcodes := .none) (families : Bool := false) (removeHydrogens : Bool := false)
    (disorder : String := "skip") (heaviest : Bool := false) (centres : Bool := false) (showWarnings : Bool := true) : Except Exc (Reader CcdcEntry FullSet) :=
  if disorder ∉ ["skip", "ordered_sites", "all_sites"] then .error (.other "ValueError")
  else match ccdc with
    | none => .error (.other "ImportError")
    | some P =>
      match csdRefcodes P.search refcodes families with
      | .error e => .error e
      | .ok codes => .ok
        { events := match codes with
            | none => P.database
            | some l => l.map P.entry
          converter := fun x => (ccdcEntryConvert P.env x removeHydrogens disorder heaviest centres).2
          name := fun s => s.toCrystal.name
          showWarnings := showWarnings }

/-- `list(CSDReader(refcodes, **kw))`, `compare.py:143-154`, where `refcodes` is a list of strings. -/
noncomputable def csdReader (B : CifBackends) (w : World) (kw : Kwargs) (refcodes : List String) : Except CErr (List Crystal) :=
  match csdReaderInit B.ccdc (.list (refcodes.map some)) (argOf kw "refcode_families").truthy (argOf kw "remove_hydrogens").truthy (argOf kw "disorder").text
    (argOf kw "heaviest_component").truthy (argOf kw "molecular_centres").truthy (argOf kw "show_warnings").truthy with
  | .error _ => .error (.run .value)
  | .ok r => anyExc ((r.toList w).2.map fun l => l.map FullSet.toCrystal)

end Amd
