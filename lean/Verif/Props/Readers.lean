import Verif.Proof.CifCompare
import Verif.Props.CifCompareExample

/-!
# The crystals that `CifReader` and `CSDReader` give: C88

From files, or refcodes, to a list of periodic sets: the iterator, the conversion of each item, and the items that are passed over.
-/

namespace Amd

open Classical

variable {B : CifBackends} {asString : String → String} {w : World} {kw : Kwargs} {o : ReadOptions}

theorem Reads.represents {c : Described} {x : Crystal} (h : Reads c x) : RepresentsCrystal c x := by
  obtain ⟨S, e, hS⟩ := h
  obtain ⟨_, _, hd⟩ := hS.desc
  exact ⟨S, e, hS.cell, hd.once, hS.points⟩

/-- **C88** `list(CifReader(path, ...))` has, in order, one periodic set for each block of the file, or of the files of the directory with the right extension,
that is not passed over, and it represents the crystal that the block describes. (With `disorder='all_sites'` a point may be listed more than once: C89.) -/
theorem C88_cif (ho : CifOptions kw o) (hd : o.Distinct) (hw : ∀ x, w.action x ≠ .error) {path : String}
    {rs : List (Option Described)} (hf : PathHolds B asString o path rs) (hp : ∀ c ∈ rs.reduceOption, c.Proper) :
    ∃ cs, cifReader B w kw path = .ok cs ∧ List.Forall₂ RepresentsCrystal rs.reduceOption cs := by
  obtain ⟨cs, h1, h2⟩ := reader_reads ho hd hw hf hp
  exact ⟨cs, h1, h2.imp fun _ _ h => h.represents⟩

theorem csdItems_init {P : CcdcPackage} {families rh : Bool} {d : String} {heaviest centres sw : Bool} {refcodes : Refcodes} {events : List (Event CcdcEntry)}
    (h : CsdItems P families refcodes events) (hd : d ∈ ["skip", "ordered_sites", "all_sites"]) :
    csdReaderInit (some P) refcodes families rh d heaviest centres sw =
      .ok { events := events, converter := fun x => (ccdcEntryConvert P.env x rh d heaviest centres).2, name := fun s => s.toCrystal.name, showWarnings := sw } := by
  have c := C53_arguments P.search families
  unfold csdReaderInit
  rw [if_neg (fun hx => hx hd)]
  cases h with
  | all => simp only [c.1]
  | csd s h => simp only [c.2.1 s h]
  | one s h codes hc =>
    have := refcodes_eq hc
    simp only [c.2.2.1 s h]
    rw [show [some s] = [s].map some from rfl, this]
  | many given codes hc => simp only [refcodes_eq hc]

/-- **C88** `list(CSDReader(refcodes, ...))` has, in order, one periodic set for each entry that is asked for and not passed over, and it represents the crystal that
the entry describes, given `remove_hydrogens`, `disorder`, `heaviest_component` and `molecular_centres`. (With `disorder='all_sites'`
and without `molecular_centres` a point may be listed more than once: C89.) -/
theorem C88_csd {P : CcdcPackage} {refcodes : Refcodes} {xs : List CcdcEntry} (hi : CsdItems P o.families refcodes (xs.map .item))
    (hd : o.Distinct) (hw : ∀ x, w.action x ≠ .error) {rs : List (Option Described)}
    (hx : List.Forall₂ (fun x r => CcdcDescribes P.env o.rh o.d o.heaviest o.centres x r) xs rs) (hp : ∀ c ∈ rs.reduceOption, c.Proper) (showWarnings : Bool) :
    ∃ r ss, csdReaderInit (some P) refcodes o.families o.rh o.d o.heaviest o.centres showWarnings = .ok r ∧ (r.toList w).2 = .ok ss ∧
      List.Forall₂ RepresentsCrystal rs.reduceOption (ss.map FullSet.toCrystal) := by
  rw [csdItems_init hi hd.valid]
  have hc : List.Forall₂ (fun x r => ReadsAs Described.Proper Reads FullSet.toCrystal (ccdcEntryConvert P.env x o.rh o.d o.heaviest o.centres).2.2 r) xs rs :=
    hx.imp fun _ _ h => ccdc_readsAs h hd.atoms
  refine ⟨_, _, rfl, C41_list xs rfl (fun _ => hw) fun x hxs => ?_,
    (reads_filter (convert := fun x => (ccdcEntryConvert P.env x o.rh o.d o.heaviest o.centres).2) hc hp).imp fun _ _ h => h.represents⟩
  exact reads_each (convert := fun x => (ccdcEntryConvert P.env x o.rh o.d o.heaviest o.centres).2) hc hp hxs

/-- **C88** A refcode that is not in the CSD is not passed over: `list(CSDReader(refcodes))` raises what the database raises, although the crystals before it could be read. -/
theorem C88_csd_unknown {P : CcdcPackage} {refcodes : Refcodes} {xs : List CcdcEntry} {e : Exc} {post : List (Event CcdcEntry)}
    (hi : CsdItems P o.families refcodes (xs.map .item ++ .raise e :: post))
    (hd : o.Distinct) (hw : ∀ x, w.action x ≠ .error) {rs : List (Option Described)}
    (hx : List.Forall₂ (fun x r => CcdcDescribes P.env o.rh o.d o.heaviest o.centres x r) xs rs) (hp : ∀ c ∈ rs.reduceOption, c.Proper) (showWarnings : Bool) :
    ∃ r, csdReaderInit (some P) refcodes o.families o.rh o.d o.heaviest o.centres showWarnings = .ok r ∧ (r.toList w).2 = .error e := by
  rw [csdItems_init hi hd.valid]
  have hc : List.Forall₂ (fun x r => ReadsAs Described.Proper Reads FullSet.toCrystal (ccdcEntryConvert P.env x o.rh o.d o.heaviest o.centres).2.2 r) xs rs :=
    hx.imp fun _ _ h => ccdc_readsAs h hd.atoms
  refine ⟨_, rfl, collect_raise (post := .raise e :: post) _ (fun _ => hw) rfl ?_ rfl (by simp)⟩
  intro ev hev
  obtain ⟨x, hxs, rfl⟩ := List.mem_map.1 hev
  exact Or.inr ⟨x, rfl, reads_each (convert := fun x => (ccdcEntryConvert P.env x o.rh o.d o.heaviest o.centres).2) hc hp hxs⟩

theorem cifInit_warns {ι α : Type} {env : ReaderEnv ι α} {path reader : String} {rh heaviest centres sw : Bool} {d : String} {r : Reader ι α}
    (h : cifReaderInit env path reader rh d heaviest centres sw = .ok r) : r.showWarnings = sw := by
  unfold cifReaderInit at h
  split at h
  · cases h
  split at h
  · cases h
  split at h
  · cases h
  cases he : backendExtensions env reader with
  | error e => rw [he] at h; cases h
  | ok exts =>
    rw [he] at h
    simp only [bind, Except.bind] at h
    split at h
    · rename_i parsed _
      cases parsed with
      | error e => cases h
      | ok evs =>
        obtain rfl := Except.ok.inj h
        rfl
    · obtain rfl := Except.ok.inj h
      rfl
    · cases h

theorem csdInit_warns {ccdc : Option CcdcPackage} {refcodes : Refcodes} {families rh heaviest centres sw : Bool} {d : String} {r : Reader CcdcEntry FullSet}
    (h : csdReaderInit ccdc refcodes families rh d heaviest centres sw = .ok r) : r.showWarnings = sw := by
  unfold csdReaderInit at h
  split at h
  · cases h
  split at h
  · cases h
  split at h
  · cases h
  · obtain rfl := Except.ok.inj h
    rfl

/-- **C88** The options of `CSDReader` are checked before anything is read: a wrong `disorder` is a ValueError, csd-python-api not installed an ImportError, and refcodes
that are not strings a ValueError. -/
theorem C88_csd_rejected {ccdc : Option CcdcPackage} {refcodes : Refcodes} {families rh heaviest centres sw : Bool} {d : String} :
    (d ∉ ["skip", "ordered_sites", "all_sites"] → csdReaderInit ccdc refcodes families rh d heaviest centres sw = .error (.other "ValueError")) ∧
    (d ∈ ["skip", "ordered_sites", "all_sites"] → ccdc = none → csdReaderInit ccdc refcodes families rh d heaviest centres sw = .error (.other "ImportError")) ∧
    (d ∈ ["skip", "ordered_sites", "all_sites"] → ccdc ≠ none → (refcodes = .other ∨ ∃ l, refcodes = .list l ∧ none ∈ l) →
      csdReaderInit ccdc refcodes families rh d heaviest centres sw = .error (.other "ValueError")) := by
  refine ⟨fun h => ?_, fun h h0 => ?_, fun h h0 h1 => ?_⟩ <;> unfold csdReaderInit
  · rw [if_pos h]
  · rw [if_neg (fun hx => hx h), h0]
  · rw [if_neg (fun hx => hx h)]
    cases ccdc with
    | none => exact absurd rfl h0
    | some P =>
      have c := C53_arguments P.search families
      rcases h1 with rfl | ⟨l, rfl, hl⟩
      · simp only [c.2.2.2.2.2]
      · simp only [c.2.2.2.2.1 l hl]

/-- **C88** With `show_warnings=False`, `list(CifReader(...))` and `list(CSDReader(...))` show no warnings. -/
theorem C88_silent {rh heaviest centres families : Bool} {d : String} :
    (∀ {ι α : Type} {env : ReaderEnv ι α} {path reader : String} {r : Reader ι α}, cifReaderInit env path reader rh d heaviest centres false = .ok r →
      (r.toList w).1.shown = w.shown) ∧
    ∀ {ccdc : Option CcdcPackage} {refcodes : Refcodes} {r : Reader CcdcEntry FullSet}, csdReaderInit ccdc refcodes families rh d heaviest centres false = .ok r →
      (r.toList w).1.shown = w.shown :=
  ⟨fun h => (C42_silent (cifInit_warns h) w).2, fun h => (C42_silent (csdInit_warns h) w).2⟩

/-- **C88** With `show_warnings=True` and no filters of warnings, `list(CSDReader(...))` shows the warnings about the crystals that are read, each with the name, in order. -/
theorem C88_csd_shown {P : CcdcPackage} {refcodes : Refcodes} {xs : List CcdcEntry} (hi : CsdItems P o.families refcodes (xs.map .item))
    (hd : o.Distinct) (hw : ∀ x, w.action x = .display) {rs : List (Option Described)}
    (hx : List.Forall₂ (fun x r => CcdcDescribes P.env o.rh o.d o.heaviest o.centres x r) xs rs) (hp : ∀ c ∈ rs.reduceOption, c.Proper) {r : Reader CcdcEntry FullSet}
    (hr : csdReaderInit (some P) refcodes o.families o.rh o.d o.heaviest o.centres true = .ok r) :
    (r.toList w).1.shown = w.shown ++ xs.flatMap fun x => match (ccdcEntryConvert P.env x o.rh o.d o.heaviest o.centres).2 with
      | (ws, .ok s) => ws.map fun y => ⟨y.category, "(name=" ++ s.toCrystal.name ++ ") " ++ y.text⟩
      | (_, .error _) => [] := by
  rw [csdItems_init hi hd.valid] at hr
  obtain rfl := Except.ok.inj hr
  have hc : List.Forall₂ (fun x r => ReadsAs Described.Proper Reads FullSet.toCrystal (ccdcEntryConvert P.env x o.rh o.d o.heaviest o.centres).2.2 r) xs rs :=
    hx.imp fun _ _ h => ccdc_readsAs h hd.atoms
  rw [C42_shown_partial rfl hw]
  · simp only [List.flatMap_map]
    congr 1
    refine List.flatMap_congr fun x _ => ?_
    rcases h : (ccdcEntryConvert P.env x o.rh o.d o.heaviest o.centres).2 with ⟨ws, s | s⟩ <;> simp only [expectedWarnings, h]
  · intro ev hev
    obtain ⟨x, hxs, rfl⟩ := List.mem_map.1 hev
    exact Or.inr ⟨x, rfl, reads_each (convert := fun x => (ccdcEntryConvert P.env x o.rh o.d o.heaviest o.centres).2) hc hp hxs⟩

/-! ### Examples -/

/-- With each of the backends, `list(CifReader('b.cif', remove_hydrogens=True, reader=reader))` has one crystal, although the file has two blocks. -/
example {reader : String} (hr : reader ∈ ["gemmi", "ase", "pycodcif", "pymatgen", "ccdc"]) : ∃ c,
    cifReader exampleBackends ⟨[], []⟩ (routeKwargs true (cifKwargs reader)).cif "b.cif" = .ok [c] ∧ RepresentsCrystal imageDesc c := by
  obtain ⟨cs, h1, h2⟩ := C88_cif (w := ⟨[], []⟩) ((cif_reads reader).options.cif true) (Or.inl rfl) (fun x hx => (by cases hx)) (holds_files hr).2 (by simpa using image_proper)
  cases h2 with
  | cons h h' =>
    cases h'
    exact ⟨_, h1, h⟩

/-- A file with one block, whose hydrogen is disordered. -/
noncomputable def looseBackends : CifBackends :=
  { exampleBackends with
    aseFiles := fun _ _ => .file (.ok ([screwAse "loose" looseRows aseListed].map .item))
    pymatgenFiles := fun _ => .file (.ok ([screwPmg "loose" looseRows pmgNamed].map .item)) }

theorem loose_holds {reader : String} (h : reader ∈ ["ase", "pycodcif", "pymatgen"]) :
    PathHolds looseBackends id (cifOptions reader) "l.cif" [some (((screwLike "loose" looseRows).withoutHydrogens id).described id false "skip")] := by
  simp only [List.mem_cons, List.not_mem_nil, or_false] at h
  have w : WordRows looseRows = true := by decide +kernel
  have hw := screwLike_written "loose" loose_lengths loose_numbers
  have hx : EntryDescribes id false "skip" ((screwLike "loose" looseRows).withoutHydrogens id)
      (some (((screwLike "loose" looseRows).withoutHydrogens id).described id false "skip")) := by
    refine .crystal ?_ loose_removed
    exact screwLike_written "loose" (rows := looseRows.filter fun r => ¬ HydrogenRow id screwTags r) (fun r hr => loose_lengths r (List.mem_of_mem_filter hr))
      (fun r hr => loose_numbers r (List.mem_of_mem_filter hr))
  rcases h with rfl | rfl | rfl
  · exact .ase (Or.inl rfl) ⟨rfl, rfl⟩ (.file _ _ (.cons ⟨_, screwAse_holds loose_lengths loose_numbers w (screwAse_listed _ "loose" _), Or.inr ⟨rfl, hw, hx⟩⟩ .nil))
  · exact .ase (Or.inr rfl) ⟨rfl, rfl⟩ (.file _ _ (.cons ⟨_, screwAse_holds loose_lengths loose_numbers w (screwAse_listed _ "loose" _), Or.inr ⟨rfl, hw, hx⟩⟩ .nil))
  · exact .pymatgen rfl ⟨rfl, rfl⟩ (.file _ _ (.cons ⟨_, screwPmg_holds loose_lengths (screwPmg_named "loose" _), Or.inr ⟨rfl, hw, hx⟩⟩ .nil))

theorem loose_sites : ((screwLike "loose" looseRows).withoutHydrogens id).sites id false "skip" = {![1 / 4, -1 / 10, 13 / 10]} := by
  ext x
  constructor
  · rintro ⟨r, hr, -, hx⟩
    obtain ⟨h1, h2⟩ := List.mem_filter.1 hr
    have h2 : ¬ HydrogenRow id (screwLike "loose" looseRows).tags r := by simpa using h2
    rw [loose_hydrogen h1 h2] at hx
    exact writtenPoint_unique hx screw_point
  · rintro rfl
    refine ⟨["C1", "C", "0.25", "-0.1(2)", "1.3", "1.0"], List.mem_filter.2 ⟨List.mem_cons_self, ?_⟩, ⟨(screw_used "skip").1, (fun h => by cases h)⟩, screw_point⟩
    have : ¬ HydrogenRow id (screwLike "loose" looseRows).tags ["C1", "C", "0.25", "-0.1(2)", "1.3", "1.0"] := (screw_used "skip").2 rfl
    simpa using this

/-- `list(CifReader('l.cif', remove_hydrogens=True, reader=reader))` has the crystal, although a hydrogen is disordered. -/
example {reader : String} (hr : reader ∈ ["ase", "pycodcif", "pymatgen"]) : ∃ c,
    cifReader looseBackends ⟨[], []⟩ (routeKwargs true (cifKwargs reader)).cif "l.cif" = .ok [c] ∧
      RepresentsCrystal ⟨"loose", screwNumbers, screwOps, {![1 / 4, -1 / 10, 13 / 10]}⟩ c := by
  have e : ((screwLike "loose" looseRows).withoutHydrogens id).described id false "skip" = ⟨"loose", screwNumbers, screwOps, {![1 / 4, -1 / 10, 13 / 10]}⟩ :=
    congrArg (Described.mk "loose" screwNumbers screwOps) loose_sites
  have hf := loose_holds hr
  rw [e] at hf
  obtain ⟨cs, h1, h2⟩ := C88_cif (w := ⟨[], []⟩) ((cif_reads reader).options.cif true) (Or.inl rfl) (fun x hx => (by cases hx)) hf
    (by simpa using proper_of (e := ⟨"loose", screwNumbers, screwOps, {![1 / 4, -1 / 10, 13 / 10]}⟩) rfl rfl ⟨_, rfl⟩ screw_proper.exact)
  cases h2 with
  | cons h h' =>
    cases h'
    exact ⟨_, h1, h⟩

/-- Sodium chloride. -/
noncomputable def cubeSalt : CcdcEntry := ⟨"CUBE", true, false, cubeCrystal [plainAtom "Na" 11 23 (quarter 0), plainAtom "Cl" 17 35 (quarter 1)]⟩

/-- The CSD with one entry, of which each atom is a component. -/
noncomputable def cubePackage : CcdcPackage := ⟨atomsEnv, ["cif"], fun _ => .missing, fun c => if c = "CUBE" then .item cubeSalt else .raise (.other "RuntimeError"), [.item cubeSalt], fun _ => []⟩

/-- The centre of the chlorine atom, without symmetry. -/
noncomputable def cubeDesc : Described := ⟨"CUBE", ⟨1, 1, 1, 90, 90, 90⟩, {screwOne}, {quarter 1}⟩

theorem salt_used : cubeSalt.crystal.usedAtoms true "ordered_sites" = [plainAtom "Na" 11 23 (quarter 0), plainAtom "Cl" 17 35 (quarter 1)] := by
  have h : cubeSalt.crystal.usedAtoms true "ordered_sites" = cubeSalt.crystal.disorderedMolecule := by
    rw [CcdcCrystal.usedAtoms, List.filter_eq_self]
    intro a ha
    have ha : a ∈ [plainAtom "Na" 11 23 (quarter 0), plainAtom "Cl" 17 35 (quarter 1)] := ha
    simp only [List.mem_cons, List.not_mem_nil, or_false] at ha
    rw [decide_eq_true_iff]
    rcases ha with rfl | rfl
    · exact ⟨fun _ => plain_not_disordered, (fun _ h => by rcases h with h | h <;> exact absurd h (by simp [plainAtom])), ⟨_, rfl⟩⟩
    · exact ⟨fun _ => plain_not_disordered, (fun _ h => by rcases h with h | h <;> exact absurd h (by simp [plainAtom])), ⟨_, rfl⟩⟩
  exact h

theorem cube_par : HasCellpar cubeCell 1 1 1 90 90 90 := by
  have h90 : Real.cos (90 * (Real.pi / 180)) = 0 := by
    rw [show (90 : ℝ) * (Real.pi / 180) = Real.pi / 2 by ring, Real.cos_pi_div_two]
  refine ⟨⟨?_, ?_⟩, ⟨?_, ?_⟩, ⟨?_, ?_⟩, ⟨?_, ?_, ?_⟩, ⟨?_, ?_, ?_⟩, ?_, ?_, ?_⟩ <;> (try simp [cubeCell, Fin.sum_univ_three, h90]) <;> try norm_num

theorem chlorine_centre (q : Pt 3 ℝ) : IsCentre [plainAtom "Cl" 17 35 (quarter 1)] q ↔ q = quarter 1 := by
  rw [isCentre_iff (P := [quarter 1]) rfl (by simp)]
  have : centreOf [quarter 1] = quarter 1 := by
    funext i
    simp [centreOf]
  rw [this]

theorem one_group (cell : Fin 3 → Pt 3 ℝ) : IsSpaceGroup cell {screwOne} where
  isometry := by
    rintro g rfl x y
    rw [opPoint_one, opPoint_one]
  lattice := by
    rintro g rfl i j
    by_cases h : i = j
    · exact ⟨1, by simp [screwOne, h]⟩
    · exact ⟨0, by simp [screwOne, h]⟩
  one := ⟨_, rfl, 0, fun x i => by rw [opPoint_one]; simp⟩
  mul := by
    rintro g rfl h rfl
    exact ⟨_, rfl, 0, fun x i => by rw [opPoint_one, opPoint_one]; simp⟩
  inv := by
    rintro g rfl
    exact ⟨_, rfl, ⟨0, fun x i => by rw [opPoint_one, opPoint_one]; simp⟩, 0, fun x i => by rw [opPoint_one, opPoint_one]; simp⟩

/-- With `heaviest_component` and `molecular_centres` the entry describes the centre of the chlorine atom. -/
theorem describes_salt : CcdcDescribes atomsEnv true "ordered_sites" true true cubeSalt (some cubeDesc) := by
  have hl : CcdcLeft atomsEnv true "ordered_sites" true cubeSalt.crystal [plainAtom "Cl" 17 35 (quarter 1)] := by
    refine .heaviest rfl [[plainAtom "Na" 11 23 (quarter 0)], [plainAtom "Cl" 17 35 (quarter 1)]] (by rw [salt_used]; rfl) (by decide) ?_ 1 (by decide) ?_
    · simp [plainAtom]
    · intro j hj
      have hj : j < 2 := hj
      interval_cases j <;> (simp [totalWeight, plainAtom]; try norm_num)
  have hc : {q | ∃ l ∈ atomsEnv.packing (atomsEnv.setMolecule cubeSalt.crystal [plainAtom "Cl" 17 35 (quarter 1)]), IsCentre l q} = {quarter 1} := by
    ext q
    have := chlorine_centre q
    simpa [atomsEnv] using this
  rw [cubeDesc, ← hc]
  refine .centres (atomsEnv.setMolecule cubeSalt.crystal [plainAtom "Cl" 17 35 (quarter 1)]) ⟨1, 1, 1, 90, 90, 90⟩ ⟨rfl, by simp, ?_, _, hl, rfl⟩
    ⟨rfl, by norm_num, by norm_num, by simp, cubeCell, ?_⟩ rfl (by simp [atomsEnv]) ?_
  · intro a ha
    have ha : a ∈ [plainAtom "Na" 11 23 (quarter 0), plainAtom "Cl" 17 35 (quarter 1)] := ha
    simp only [List.mem_cons, List.not_mem_nil, or_false] at ha
    rcases ha with rfl | rfl <;> simp [plainAtom]
  · simpa using cube_par
  · intro l hl
    have hl : l = [plainAtom "Cl" 17 35 (quarter 1)] := by simpa [atomsEnv] using hl
    exact ⟨quarter 1, by rw [hl, chlorine_centre]⟩

theorem salt_proper : cubeDesc.Proper where
  group := ⟨cubeCell, by simpa [Described.HasCell, cubeDesc] using cube_par, cube_cell, one_group _⟩
  finiteOps := Set.finite_singleton _
  finiteSites := Set.finite_singleton _
  nonempty := Set.singleton_nonempty _
  exact := by
    rintro p rfl q rfl g rfl h rfl - i
    exact ⟨0, by simp⟩
  size := by simp [Described.size, cubeDesc]

/-- `list(CSDReader('CUBE', remove_hydrogens=True, disorder='ordered_sites', heaviest_component=True, molecular_centres=True))`, and the same for the whole CSD. -/
example (s : String) (hs : s = "CUBE" ∨ s = "Csd") : ∃ r x, csdReaderInit (some cubePackage) (.str s) false true "ordered_sites" true true true = .ok r ∧
    (r.toList ⟨[], []⟩).2 = .ok [x] ∧ RepresentsCrystal cubeDesc x.toCrystal := by
  have hi : CsdItems cubePackage false (.str s) ([cubeSalt].map .item) := by
    rcases hs with rfl | rfl
    · have : CsdItems cubePackage false (.str "CUBE") (["CUBE"].map cubePackage.entry) := .one "CUBE" (by decide +kernel) _ rfl
      simpa [cubePackage] using this
    · exact .csd "Csd" (by decide +kernel)
  obtain ⟨r, ss, h1, h2, h3⟩ := C88_csd (o := ⟨"gemmi", true, "ordered_sites", true, true, false⟩) hi (Or.inr (Or.inl rfl)) (w := ⟨[], []⟩) (fun x hx => (by cases hx))
    (.cons describes_salt .nil) (by simpa using salt_proper) true
  cases ss with
  | nil => cases h3
  | cons x l =>
    cases h3 with
    | cons h h' =>
      have h' := List.map_eq_nil_iff.1 (List.forall₂_nil_left_iff.1 h')
      subst h'
      exact ⟨r, x, h1, h2, h⟩

/-- With a refcode that is not in the CSD, RuntimeError. -/
example : ∃ r, csdReaderInit (some cubePackage) (.list [some "CUBE", some "NONE"]) false true "ordered_sites" true true true = .ok r ∧
    (r.toList ⟨[], []⟩).2 = .error (.other "RuntimeError") := by
  have hi : CsdItems cubePackage false (.list (["CUBE", "NONE"].map some)) (["CUBE", "NONE"].map cubePackage.entry) := .many _ _ rfl
  exact C88_csd_unknown (o := ⟨"gemmi", true, "ordered_sites", true, true, false⟩) (xs := [cubeSalt]) (post := []) (by simpa [cubePackage] using hi) (Or.inr (Or.inl rfl))
    (w := ⟨[], []⟩) (fun x hx => (by cases hx)) (.cons describes_salt .nil) (by simpa using salt_proper) true

end Amd
