import Verif.Props.AllSitesCompare
import Verif.Props.AllSitesExample

/-!
# Examples for C91

In one file a site and an image of it, in another file the same site twice: the same crystal, in which every point is listed twice.
-/

namespace Amd

open Classical

/-- A site twice. -/
def twiceRows : List (List String) := [["C7", "C", "-0.25", "0.4", "-1.3", "1.0"], ["C7", "C", "-0.25", "0.4", "-1.3", "1.0"]]

/-- The sites. -/
noncomputable def twiceDesc : SitesDescribed := ⟨"twice", screwNumbers, screwOps, [![-1 / 4, 2 / 5, -13 / 10], ![-1 / 4, 2 / 5, -13 / 10]]⟩

/-- The entry. -/
noncomputable def twiceEntry : CifEntry := screwLike "twice" twiceRows

theorem twice_numbers : NumberRows twiceRows := by
  intro r hr
  simp only [twiceRows, List.mem_cons, List.not_mem_nil, or_false, or_self] at hr
  subst hr
  exact image_numbers _ (by simp [imageRows])

theorem twice_written : twiceEntry.Written := screwLike_written _ (by decide) twice_numbers

theorem twice_describes : EntryDescribesAll id true twiceEntry (some twiceDesc) := by
  refine .crystal twice_written ⟨_, _, List.mem_cons_self, image_used _, image_point⟩ _ ?_
  have : (twiceEntry.rows.filter fun r => WrittenUsed id twiceEntry.tags true "all_sites" r) = twiceRows := by
    rw [List.filter_eq_self.2]
    · rfl
    intro r hr
    have hr : r ∈ twiceRows := hr
    simp only [twiceRows, List.mem_cons, List.not_mem_nil, or_false, or_self] at hr
    rw [decide_eq_true_iff, hr]
    exact image_used _
  rw [this]
  exact .cons image_point (.cons image_point .nil)

theorem screwOps_ncard : screwOps.ncard ≤ 2 := by
  unfold screwOps
  exact (Set.ncard_insert_le _ _).trans (by rw [Set.ncard_singleton])

theorem mixed_size : mixedDesc.size ≤ 4 := by
  have := screwOps_ncard
  change 2 * screwOps.ncard ≤ 4
  omega

theorem twice_size : twiceDesc.size ≤ 4 := by
  have := screwOps_ncard
  change 2 * screwOps.ncard ≤ 4
  omega

theorem screwOps_finite : screwOps.Finite := by
  unfold screwOps
  exact Set.toFinite _

theorem mixed_comparable : mixedDesc.Comparable := ⟨mixed_proper, screwOps_finite, by simp [mixedDesc], mixed_size.trans (by norm_num)⟩

theorem twice_comparable : twiceDesc.Comparable where
  proper := ⟨mixed_proper.group, by
    intro x hx
    simp only [twiceDesc, List.mem_cons, List.not_mem_nil, or_false, or_self] at hx
    subst hx
    exact image_proper.exact⟩
  finiteOps := screwOps_finite
  nonempty := by simp [twiceDesc]
  size := twice_size.trans (by norm_num)

theorem countP_swap {α : Type} {P : α → Bool} {a b : α} (h : P a = P b) : [b, b].countP P = [a, b].countP P := by simp [List.countP_cons, h]

theorem mixed_times : twiceDesc.times screwCell = mixedDesc.times screwCell := by
  have h : crystalPoints screwCell screwOps {![-1 / 4, 2 / 5, -13 / 10]} = crystalPoints screwCell screwOps {![1 / 4, -1 / 10, 13 / 10]} := screw_points
  funext p
  refine countP_swap (P := fun x => decide (p ∈ crystalPoints screwCell screwOps {x})) ?_
  rw [Bool.eq_iff_iff, decide_eq_true_iff, decide_eq_true_iff, h]

/-- Every point is listed twice. -/
example {p : Pt 3 ℝ} (hp : p ∈ crystalPoints screwCell screwOps {![1 / 4, -1 / 10, 13 / 10]}) : mixedDesc.times screwCell p = 2 := by
  rw [← mixed_times]
  have h : crystalPoints screwCell screwOps {![-1 / 4, 2 / 5, -13 / 10]} = crystalPoints screwCell screwOps {![1 / 4, -1 / 10, 13 / 10]} := screw_points
  rw [← h] at hp
  simp [SitesDescribed.times, twiceDesc, hp]

theorem mixed_same : SameSites mixedDesc twiceDesc :=
  ⟨screwCell, screwCell, screwCell_par_numbers, screwCell_par_numbers, id, fun _ _ => rfl, fun p => by rw [mixed_times]; rfl⟩

theorem mixed_shaped (k : ℕ) : mixedDesc.WellShaped k := ⟨screwCell, screwCell_par_numbers, Or.inl screwCell_dominant⟩

theorem twice_shaped (k : ℕ) : twiceDesc.WellShaped k := ⟨screwCell, screwCell_par_numbers, Or.inl screwCell_dominant⟩

/-- The entry of the CSD. -/
noncomputable def ccdcTwice : CcdcEntry := screwCcdc "twice" [carbonAtom "C1" ![-1 / 4, 2 / 5, -13 / 10], carbonAtom "C7" ![-1 / 4, 2 / 5, -13 / 10]]

theorem twice_ccdc : CcdcDescribesAll wholeEnv true false ccdcTwice (some twiceDesc) := by
  have hu : ccdcTwice.crystal.usedAtoms true "all_sites" = ccdcTwice.crystal.disorderedMolecule := by
    rw [CcdcCrystal.usedAtoms, List.filter_eq_self]
    intro a ha
    have ha : a ∈ [carbonAtom "C1" ![-1 / 4, 2 / 5, -13 / 10], carbonAtom "C7" ![-1 / 4, 2 / 5, -13 / 10]] := ha
    simp only [List.mem_cons, List.not_mem_nil, or_false] at ha
    rw [decide_eq_true_iff]
    rcases ha with rfl | rfl
    · exact ⟨(fun h => absurd h (by decide)), (fun _ h => by rcases h with h | h <;> exact absurd h (by simp [carbonAtom])), ⟨_, rfl⟩⟩
    · exact ⟨(fun h => absurd h (by decide)), (fun _ h => by rcases h with h | h <;> exact absurd h (by simp [carbonAtom])), ⟨_, rfl⟩⟩
  refine .atoms (wholeEnv.setMolecule ccdcTwice.crystal ccdcTwice.crystal.disorderedMolecule) screwNumbers screwOps
    ⟨rfl, (fun h => absurd h (by decide)), ?_, _, ?_, rfl⟩ ⟨rfl, screw_valid⟩ (Or.inr ⟨by simp [wholeEnv, ccdcTwice, screwCcdc], ?_, ?_⟩)
    (by simp [wholeEnv, ccdcTwice, screwCcdc]) _ (.cons rfl (.cons rfl .nil))
  · intro a ha
    have ha : a ∈ [carbonAtom "C1" ![-1 / 4, 2 / 5, -13 / 10], carbonAtom "C7" ![-1 / 4, 2 / 5, -13 / 10]] := ha
    simp only [List.mem_cons, List.not_mem_nil, or_false] at ha
    rcases ha with rfl | rfl <;> simp [carbonAtom]
  · rw [← hu]
    exact .all fun h => by cases h
  · intro s hs
    have hs : s ∈ ["x,y,z", "-x, 1/2+Y, -z"] := hs
    exact screw_texts.1 s hs
  · intro g hg
    obtain ⟨s, hs, h⟩ := screw_texts.2 g hg
    exact ⟨s, by simpa [wholeEnv, ccdcTwice, screwCcdc] using hs, h⟩

/-- The file `mixed.cif`, and the other file. -/
def pairFiles {β : Type} (a b : β) (path : String) : PathKind β := .file (.ok ([if path = "mixed.cif" then a else b].map .item))

/-- The ccdc package, with the entries in files and in the CSD. -/
noncomputable def pairCcdc : CcdcPackage where
  env := wholeEnv
  suffixes := ["cif"]
  files := pairFiles ccdcMixed ccdcTwice
  entry := fun c => .item (if c = "MIXED" then ccdcMixed else ccdcTwice)
  database := []
  search := fun _ => []

/-- The files as seen by the packages. -/
noncomputable def pairBackends : CifBackends where
  gemmi := exampleGemmi
  gemmiFiles := pairFiles (screwGemmi "mixed" mixedRows) (screwGemmi "twice" twiceRows)
  ase := aseGroups
  aseFiles := fun _ => pairFiles (screwAse "mixed" mixedRows aseListed) (screwAse "twice" twiceRows aseListed)
  pymatgen := pmgGroups
  pymatgenFiles := pairFiles (screwPmg "mixed" mixedRows pmgNamed) (screwPmg "twice" twiceRows pmgNamed)
  ccdc := some pairCcdc

/-- The readers are `CifReader` and `CSDReader`. -/
noncomputable def pairEnv : Env := { exampleEnv with cifReader := cifReader pairBackends ⟨[], []⟩, csdReader := csdReader pairBackends ⟨[], []⟩ }

/-- The options. -/
def allOptions (reader : String) : ReadOptions := { reader := reader, rh := true, d := "all_sites" }

theorem pair_reads (reader : String) : ReadsAllSites pairEnv pairBackends ⟨[], []⟩ (mixedKwargs reader) (allOptions reader) :=
  ⟨rfl, rfl, (fun x hx => (by cases hx)), ⟨rfl, rfl, rfl, rfl, rfl, rfl⟩, rfl, rfl⟩

theorem pair_holds {β : Type} {exts : List String} {a b : β} {describes : β → Option SitesDescribed → Prop} (ha : describes a (some mixedDesc)) (hb : describes b (some twiceDesc)) :
    HoldsEntries exts describes (pairFiles a b "mixed.cif") [some mixedDesc] ∧ HoldsEntries exts describes (pairFiles a b "twice.cif") [some twiceDesc] := by
  constructor
  · rw [pairFiles, if_pos rfl]
    exact .file _ _ (.cons ha .nil)
  · rw [pairFiles, if_neg (by decide)]
    exact .file _ _ (.cons hb .nil)

theorem pair_files {reader : String} (h : reader ∈ ["gemmi", "ase", "pycodcif", "pymatgen", "ccdc"]) :
    PathHoldsAll pairBackends id (allOptions reader) "mixed.cif" [some mixedDesc] ∧ PathHoldsAll pairBackends id (allOptions reader) "twice.cif" [some twiceDesc] := by
  simp only [List.mem_cons, List.not_mem_nil, or_false] at h
  have w : WordRows mixedRows = true := by decide +kernel
  have w' : WordRows twiceRows = true := by decide +kernel
  have hase := pair_holds (exts := ["cif"]) (describes := fun b r => ∃ e, AseHolds aseGroups id b e ∧ EntryDescribesAll id true e r)
    ⟨_, screwAse_holds (by decide) mixed_numbers w (screwAse_listed _ "mixed" _), mixed_describes⟩
    ⟨_, screwAse_holds (by decide) twice_numbers w' (screwAse_listed _ "twice" _), twice_describes⟩
  rcases h with rfl | rfl | rfl | rfl | rfl
  · have := pair_holds (exts := ["cif"]) (describes := fun b r => ∃ e, GemmiHolds exampleGemmi id b e ∧ EntryDescribesAll id true e r)
      ⟨_, screwGemmi_holds exampleGemmi rfl "mixed" mixedRows, mixed_describes⟩ ⟨_, screwGemmi_holds exampleGemmi rfl "twice" twiceRows, twice_describes⟩
    exact ⟨.gemmi rfl rfl this.1, .gemmi rfl rfl this.2⟩
  · exact ⟨.ase (Or.inl rfl) rfl hase.1, .ase (Or.inl rfl) rfl hase.2⟩
  · exact ⟨.ase (Or.inr rfl) rfl hase.1, .ase (Or.inr rfl) rfl hase.2⟩
  · have := pair_holds (exts := ["cif"]) (describes := fun b r => ∃ e, PmgHolds pmgGroups id b e ∧ EntryDescribesAll id true e r)
      ⟨_, screwPmg_holds (by decide) (screwPmg_named "mixed" _), mixed_describes⟩ ⟨_, screwPmg_holds (by decide) (screwPmg_named "twice" _), twice_describes⟩
    exact ⟨.pymatgen rfl rfl this.1, .pymatgen rfl rfl this.2⟩
  · have := pair_holds (exts := pairCcdc.suffixes) mixed_ccdc twice_ccdc
    exact ⟨.ccdc pairCcdc rfl (by decide) rfl this.1, .ccdc pairCcdc rfl (by decide) rfl this.2⟩

theorem pair_mixed {reader : String} (h : reader ∈ ["gemmi", "ase", "pycodcif", "pymatgen", "ccdc"]) :
    InputHoldsAll pairBackends id (allOptions reader) (.one (.str "mixed.cif")) [mixedDesc] false :=
  .paths ["mixed.cif"] (fun _ => [some mixedDesc]) (.one _) (fun p hp => by rw [List.mem_singleton.1 hp]; exact (pair_files h).1) rfl

theorem pair_twice {reader : String} (h : reader ∈ ["gemmi", "ase", "pycodcif", "pymatgen", "ccdc"]) :
    InputHoldsAll pairBackends id (allOptions reader) (.one (.str "twice.cif")) [twiceDesc] false :=
  .paths ["twice.cif"] (fun _ => [some twiceDesc]) (.one _) (fun p hp => by rw [List.mem_singleton.1 hp]; exact (pair_files h).2) rfl

theorem matrix_one {f : ℕ → ℕ → ℝ} {M : List (List ℝ)} (h : IsMatrix 1 1 f M) : M = [[f 0 0]] := by
  obtain ⟨m1, m2, m3⟩ := h
  have m3 := m3 0 0 (by simp) (by simp)
  obtain ⟨r, rfl⟩ := List.length_eq_one_iff.1 m1
  obtain ⟨x, rfl⟩ := List.length_eq_one_iff.1 (m2 r (by simp))
  simp at m3
  rw [m3]

/-- `compare('mixed.cif', 'twice.cif', by='AMD', k=100, remove_hydrogens=True, disorder='all_sites', reader=reader)` finds distance 0. -/
example {reader : String} (hr : reader ∈ ["gemmi", "ase", "pycodcif", "pymatgen", "ccdc"]) : ∃ F, ∀ fuel ≥ F,
    compare pairEnv (.one (.str "mixed.cif")) (some (.one (.str "twice.cif"))) {} (mixedKwargs reader) fuel = .ok (.matrix ["mixed"] ["twice"] [[0]]) := by
  obtain ⟨M, f, F, hM, h1, h2⟩ := C91_amd_two_partial (args := {}) (pair_reads reader) (by decide +kernel) rfl (by norm_num) rfl (pair_mixed hr) (pair_twice hr)
    (by simpa using mixed_comparable) (by simpa using twice_comparable) (by simp) (by simp)
  have h0 := (h2 0 0 (by simp) (by simp) (mixed_shaped _) (twice_shaped _)).2 mixed_same
  refine ⟨F, fun fuel hf => ?_⟩
  rw [h1 fuel hf, matrix_one hM, h0]
  rfl

/-- By PDD the distance is at most 0.0006. -/
example {reader : String} (hr : reader ∈ ["gemmi", "ase", "pycodcif", "pymatgen", "ccdc"]) : ∃ (x : ℝ) (F : ℕ), 0 ≤ x ∧ x ≤ 6 / 10000 ∧ ∀ fuel ≥ F,
    compare pairEnv (.one (.str "mixed.cif")) (some (.one (.str "twice.cif"))) { by_ := "pdd" } (mixedKwargs reader) fuel = .ok (.matrix ["mixed"] ["twice"] [[x]]) := by
  obtain ⟨M, f, F, hM, h1, h2⟩ := C91_pdd_two_partial (args := { by_ := "pdd" }) (pair_reads reader) exampleEnv_sound.sched (by decide +kernel) rfl
    (tol := 1 / 10000) (by norm_num) ⟨rfl, rfl, ⟨none, rfl⟩, ⟨_, rfl⟩⟩ (pair_mixed hr) (pair_twice hr)
    (by simpa using mixed_comparable) (by simpa using twice_comparable) (by simp) (by simp) rfl
  obtain ⟨h0, h3⟩ := (h2 0 0 (by simp) (by simp) (mixed_shaped _) (twice_shaped _) _ rfl).2 mixed_same
  refine ⟨f 0 0, F, h0, h3.trans ?_, fun fuel hf => ?_⟩
  · have := emdTol_mono (max_le mixed_size twice_size) (C := 100 * 4) (by norm_num)
    have e1 : (mixedDesc.cell.a : ℝ) = 4 := by norm_num [mixedDesc, screwNumbers]
    have e2 : (twiceDesc.cell.a : ℝ) = 4 := by norm_num [twiceDesc, screwNumbers]
    simp only [List.getElem_cons_zero, e1, e2, max_self]
    refine (add_le_add_right this _).trans ?_
    have hc : (kwOr (mixedKwargs reader) "collapse" (.bool true)).truthy = true := rfl
    rw [if_pos hc]
    norm_num [emdTol]
  · rw [h1 fuel hf, matrix_one hM]
    rfl

/-- `compare(['MIXED', 'TWICE'], csd_refcodes=True, remove_hydrogens=True, disorder='all_sites')` finds that all distances are 0. -/
example : ∃ (M : List (List ℝ)) (F : ℕ), IsMatrix 2 2 (fun _ _ => 0) M ∧ ∀ fuel ≥ F,
    compare pairEnv (.many [.str "MIXED", .str "TWICE"]) none { csdRefcodes := true } (mixedKwargs "ccdc") fuel = .ok (.matrix ["mixed", "twice"] ["mixed", "twice"] M) := by
  have hi : InputHoldsAll pairBackends id (allOptions "ccdc") (.many [.str "MIXED", .str "TWICE"]) [mixedDesc, twiceDesc] true :=
    .refcodes ["MIXED", "TWICE"] [some mixedDesc, some twiceDesc] (.many ["MIXED", "TWICE"]) ⟨pairCcdc, rfl, ["MIXED", "TWICE"], rfl,
      .cons ⟨_, rfl, by rw [if_pos rfl]; exact mixed_ccdc⟩ (.cons ⟨_, rfl, by rw [if_neg (by decide)]; exact twice_ccdc⟩ .nil)⟩ rfl
  obtain ⟨M, f, F, hM, h1, h2⟩ := C91_amd_partial (args := { csdRefcodes := true }) (pair_reads "ccdc") (by decide +kernel) rfl (by norm_num) rfl hi
    (by simpa using ⟨mixed_comparable, twice_comparable⟩) (by simp)
  refine ⟨M, F, ⟨hM.1, hM.2.1, fun i j hi hj => ?_⟩, h1⟩
  have hf : f i j = 0 := by
    refine (h2 i j hi hj ?_ ?_).2 ?_
    · interval_cases i
      exacts [mixed_shaped _, twice_shaped _]
    · interval_cases j
      exacts [mixed_shaped _, twice_shaped _]
    · have h0 : mixedDesc.HasCell screwCell := screwCell_par_numbers
      have h1 : twiceDesc.HasCell screwCell := screwCell_par_numbers
      interval_cases i <;> interval_cases j
      exacts [⟨_, _, h0, h0, id, fun _ _ => rfl, fun _ => rfl⟩, mixed_same, ⟨_, _, h1, h0, id, fun _ _ => rfl, fun p => congrFun mixed_times.symm p⟩,
        ⟨_, _, h1, h1, id, fun _ _ => rfl, fun _ => rfl⟩]
  rw [hM.2.2 i j hi hj, hf]

end Amd
