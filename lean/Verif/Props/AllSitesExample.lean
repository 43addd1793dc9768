import Verif.Props.AllSites

/-!
# Examples for C89

A file in which two of the sites are images of each other: with `disorder='all_sites'` both orbits are listed, so that every point is listed twice.
-/

namespace Amd

open Classical

/-- The site of the example for C80 and an image of it. -/
def mixedRows : List (List String) := [["C1", "C", "0.25", "-0.1(2)", "1.3", "1.0"], ["C7", "C", "-0.25", "0.4", "-1.3", "1.0"]]

/-- The sites. -/
noncomputable def mixedDesc : SitesDescribed := ⟨"mixed", screwNumbers, screwOps, [![1 / 4, -1 / 10, 13 / 10], ![-1 / 4, 2 / 5, -13 / 10]]⟩

/-- The entry. -/
noncomputable def mixedEntry : CifEntry := screwLike "mixed" mixedRows

theorem mixed_numbers : NumberRows mixedRows := by
  intro r hr
  simp only [mixedRows, List.mem_cons, List.not_mem_nil, or_false] at hr
  rcases hr with rfl | rfl
  · exact screw_numbers _ (by simp [screwRows])
  · exact image_numbers _ (by simp [imageRows])

theorem mixed_written : mixedEntry.Written := screwLike_written _ (by decide) mixed_numbers

theorem mixed_describes : EntryDescribesAll id true mixedEntry (some mixedDesc) := by
  refine .crystal mixed_written ⟨_, _, List.mem_cons_self, screw_used _, screw_point⟩ _ ?_
  have : (mixedEntry.rows.filter fun r => WrittenUsed id mixedEntry.tags true "all_sites" r) = mixedRows := by
    rw [List.filter_eq_self.2]
    · rfl
    intro r hr
    have hr : r ∈ mixedRows := hr
    simp only [mixedRows, List.mem_cons, List.not_mem_nil, or_false] at hr
    rw [decide_eq_true_iff]
    rcases hr with rfl | rfl
    · exact screw_used _
    · exact image_used _
  rw [this]
  exact .cons screw_point (.cons image_point .nil)

theorem screwCell_par_numbers : HasCellpar screwCell screwNumbers.a screwNumbers.b screwNumbers.c screwNumbers.α screwNumbers.β screwNumbers.γ :=
  screwCell_has (e := screwDesc) rfl

theorem mixed_proper : mixedDesc.Proper where
  group := ⟨screwCell, screwCell_par_numbers, screwCell_nonSingular, screw_group screwCell_par⟩
  exact := by
    intro x hx
    simp only [mixedDesc, List.mem_cons, List.not_mem_nil, or_false] at hx
    rcases hx with rfl | rfl
    · exact screw_proper.exact
    · exact image_proper.exact

/-- The entry of the CSD. -/
noncomputable def ccdcMixed : CcdcEntry := screwCcdc "mixed" [carbonAtom "C1" ![1 / 4, -1 / 10, 13 / 10], carbonAtom "C7" ![-1 / 4, 2 / 5, -13 / 10]]

theorem mixed_ccdc : CcdcDescribesAll wholeEnv true false ccdcMixed (some mixedDesc) := by
  have hu : ccdcMixed.crystal.usedAtoms true "all_sites" = ccdcMixed.crystal.disorderedMolecule := by
    rw [CcdcCrystal.usedAtoms, List.filter_eq_self]
    intro a ha
    have ha : a ∈ [carbonAtom "C1" ![1 / 4, -1 / 10, 13 / 10], carbonAtom "C7" ![-1 / 4, 2 / 5, -13 / 10]] := ha
    simp only [List.mem_cons, List.not_mem_nil, or_false] at ha
    rw [decide_eq_true_iff]
    rcases ha with rfl | rfl
    · exact ⟨(fun h => absurd h (by decide)), (fun _ h => by rcases h with h | h <;> exact absurd h (by simp [carbonAtom])), ⟨_, rfl⟩⟩
    · exact ⟨(fun h => absurd h (by decide)), (fun _ h => by rcases h with h | h <;> exact absurd h (by simp [carbonAtom])), ⟨_, rfl⟩⟩
  refine .atoms (wholeEnv.setMolecule ccdcMixed.crystal ccdcMixed.crystal.disorderedMolecule) screwNumbers screwOps
    ⟨rfl, (fun h => absurd h (by decide)), ?_, _, ?_, rfl⟩ ⟨rfl, screw_valid⟩ (Or.inr ⟨by simp [wholeEnv, ccdcMixed, screwCcdc], ?_, ?_⟩)
    (by simp [wholeEnv, ccdcMixed, screwCcdc]) _ (.cons rfl (.cons rfl .nil))
  · intro a ha
    have ha : a ∈ [carbonAtom "C1" ![1 / 4, -1 / 10, 13 / 10], carbonAtom "C7" ![-1 / 4, 2 / 5, -13 / 10]] := ha
    simp only [List.mem_cons, List.not_mem_nil, or_false] at ha
    rcases ha with rfl | rfl <;> simp [carbonAtom]
  · rw [← hu]
    exact .all fun h => by cases h
  · intro s hs
    have hs : s ∈ ["x,y,z", "-x, 1/2+Y, -z"] := hs
    exact screw_texts.1 s hs
  · intro g hg
    obtain ⟨s, hs, h⟩ := screw_texts.2 g hg
    exact ⟨s, by simpa [wholeEnv, ccdcMixed, screwCcdc] using hs, h⟩

/-- The ccdc package, with the entry in a file and in the CSD. -/
noncomputable def mixedCcdc : CcdcPackage where
  env := wholeEnv
  suffixes := ["cif"]
  files := fun _ => .file (.ok ([ccdcMixed].map .item))
  entry := fun _ => .item ccdcMixed
  database := []
  search := fun _ => []

/-- The file as seen by the packages. -/
noncomputable def mixedBackends : CifBackends where
  gemmi := exampleGemmi
  gemmiFiles := fun _ => .file (.ok ([screwGemmi "mixed" mixedRows].map .item))
  ase := aseGroups
  aseFiles := fun _ _ => .file (.ok ([screwAse "mixed" mixedRows aseListed].map .item))
  pymatgen := pmgGroups
  pymatgenFiles := fun _ => .file (.ok ([screwPmg "mixed" mixedRows pmgNamed].map .item))
  ccdc := some mixedCcdc

/-- Options of the example. -/
def mixedKwargs (reader : String) : Kwargs := [("remove_hydrogens", .bool true), ("reader", .str reader), ("disorder", .str "all_sites")]

theorem mixed_options (reader : String) : CifOptions (routeKwargs true (mixedKwargs reader)).cif { reader := reader, rh := true, d := "all_sites" } :=
  ⟨rfl, rfl, rfl, rfl, rfl⟩

theorem mixed_holds {reader : String} (h : reader ∈ ["gemmi", "ase", "pycodcif", "pymatgen", "ccdc"]) :
    PathHoldsAll mixedBackends id { reader := reader, rh := true, d := "all_sites" } "mixed.cif" [some mixedDesc] := by
  simp only [List.mem_cons, List.not_mem_nil, or_false] at h
  have w : WordRows mixedRows = true := by decide +kernel
  rcases h with rfl | rfl | rfl | rfl | rfl
  · exact .gemmi rfl rfl (.file _ _ (.cons ⟨_, screwGemmi_holds exampleGemmi rfl "mixed" mixedRows, mixed_describes⟩ .nil))
  · exact .ase (Or.inl rfl) rfl (.file _ _ (.cons ⟨_, screwAse_holds (by decide) mixed_numbers w (screwAse_listed _ "mixed" _), mixed_describes⟩ .nil))
  · exact .ase (Or.inr rfl) rfl (.file _ _ (.cons ⟨_, screwAse_holds (by decide) mixed_numbers w (screwAse_listed _ "mixed" _), mixed_describes⟩ .nil))
  · exact .pymatgen rfl rfl (.file _ _ (.cons ⟨_, screwPmg_holds (by decide) (screwPmg_named "mixed" _), mixed_describes⟩ .nil))
  · exact .ccdc mixedCcdc rfl (by decide) rfl (.file _ _ (.cons mixed_ccdc .nil))

/-- `list(CifReader('mixed.cif', remove_hydrogens=True, disorder='all_sites', reader=reader))` has one set, which lists both orbits. -/
example {reader : String} (hr : reader ∈ ["gemmi", "ase", "pycodcif", "pymatgen", "ccdc"]) : ∃ c,
    cifReader mixedBackends ⟨[], []⟩ (routeKwargs true (mixedKwargs reader)).cif "mixed.cif" = .ok [c] ∧ ListsCrystal mixedDesc c := by
  obtain ⟨cs, h1, h2⟩ := C89_cif (w := ⟨[], []⟩) (mixed_options reader) rfl rfl (fun x hx => (by cases hx)) (mixed_holds hr) (by simpa using mixed_proper)
  cases h2 with
  | cons h h' =>
    cases h'
    exact ⟨_, h1, h⟩

/-- `list(CSDReader('MIXED', remove_hydrogens=True, disorder='all_sites'))` too. -/
example : ∃ r x, csdReaderInit (some mixedCcdc) (.str "MIXED") false true "all_sites" false false true = .ok r ∧ (r.toList ⟨[], []⟩).2 = .ok [x] ∧
    ListsCrystal mixedDesc x.toCrystal := by
  obtain ⟨r, ss, h1, h2, h3⟩ := C89_csd (w := ⟨[], []⟩) (P := mixedCcdc) (rh := true) (heaviest := false) (families := false) (refcodes := .str "MIXED") (xs := [ccdcMixed])
    (.one "MIXED" (by decide +kernel) ["MIXED"] rfl) (fun x hx => (by cases hx)) (.cons mixed_ccdc .nil) (by simpa using mixed_proper) true
  cases ss with
  | nil => cases h3
  | cons x ss =>
    cases h3 with
    | cons h h' =>
      cases ss with
      | nil => exact ⟨r, x, h1, h2, h⟩
      | cons y ss => cases h'

/-- The conversion of the block with gemmi is successful, so that `C89_gemmi` applies: two orbits, all points are carbon. -/
example : ∃ s orbits, (gemmiConvert exampleGemmi (screwGemmi "mixed" mixedRows) true "all_sites").2 = .ok s ∧ ListsOrbits screwOps orbits s.set ∧
    s.types = orbitTypes orbits ∧ orbits.map SiteOrbit.site = [![1 / 4, -1 / 10, 13 / 10], ![-1 / 4, 2 / 5, -13 / 10]] := by
  have hr := C87_gemmi (rh := true) (d := "all_sites") mixed_written (screwGemmi_holds exampleGemmi rfl "mixed" mixedRows)
  obtain ⟨s, hs, S, h1, h2, -⟩ := ReadAsWritten.lists mixed_describes (fun _ => hr) mixed_proper
  have hc := hr.cell s hs
  have hg := gram_of_cellpar screwCell_par_numbers hc
  obtain ⟨orbits, h3, h4, h5⟩ := C89_gemmi mixed_written (screwGemmi_holds exampleGemmi rfl "mixed" mixedRows) hs (nonSingular_congr hg screwCell_nonSingular)
    (isSpaceGroup_congr hg (screw_group screwCell_par)) (by
      rintro x ⟨r, hr, -, hx⟩
      have hr : r ∈ mixedRows := hr
      simp only [mixedRows, List.mem_cons, List.not_mem_nil, or_false] at hr
      rcases hr with rfl | rfl
      · rw [writtenPoint_unique hx screw_point]
        exact screw_proper.exact
      · rw [writtenPoint_unique hx image_point]
        exact image_proper.exact)
  refine ⟨s, orbits, hs, h3, h4, ?_⟩
  have := mixed_describes
  cases this with
  | crystal _ _ _ h6 => exact forall₂_right_unique _ (fun a b c hb hc => writtenPoint_unique hc.1 hb) h6 h5

end Amd
