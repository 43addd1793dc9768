import Verif.Props.Continuous
import Verif.Props.AllSitesCompareExample

/-!
# Examples for C92

A site of the example for C83 is displaced by 0.01 along the second axis. With `disorder='all_sites'` there are two sites at the same point, and only one of them is displaced.
-/

namespace Amd

open Classical

/-- The site, displaced. -/
noncomputable def movedSite : Pt 3 ℝ := ![-1 / 4, 201 / 500, -13 / 10]

/-- The crystal with the displaced site. -/
noncomputable def movedDesc : Described := ⟨"moved", screwNumbers, screwOps, {movedSite}⟩

theorem moved_exact : ExactSites (1 / 1000) screwOps {movedSite} := by
  rintro p rfl q rfl g (rfl | rfl) h (rfl | rfl) hc i
  · exact ⟨0, by simp⟩
  · obtain ⟨n, hn⟩ := hc 0
    rw [opPoint_one, opPoint_screw] at hn
    refine (far_half (Or.inr ?_) n hn).elim
    simp [movedSite]; norm_num
  · obtain ⟨n, hn⟩ := hc 0
    rw [opPoint_one, opPoint_screw] at hn
    refine (far_half (Or.inl ?_) n hn).elim
    simp [movedSite]; norm_num
  · exact ⟨0, by simp⟩

theorem moved_proper : movedDesc.Proper := proper_of rfl rfl ⟨_, rfl⟩ moved_exact

theorem half_not_int (n : ℤ) : (1 / 2 : ℝ) ≠ n := by
  intro h
  have h2 : ((2 * n : ℤ) : ℝ) = ((1 : ℤ) : ℝ) := by push_cast; linarith
  have := Int.cast_injective h2
  omega

theorem moved_images : SameImages screwOps ![-1 / 4, 2 / 5, -13 / 10] ![-1 / 4, 2 / 5, -13 / 10] movedSite movedSite := by
  rintro g (rfl | rfl) h (rfl | rfl) n
  · simp only [left_eq_add]
  · rw [opPoint_one, opPoint_one, opPoint_screw, opPoint_screw]
    constructor
    · intro h
      have := h 0
      refine absurd ?_ (half_not_int (-n 0))
      simp at this
      push_cast
      linarith
    · intro h
      have := h 0
      refine absurd ?_ (half_not_int (-n 0))
      simp [movedSite] at this
      push_cast
      linarith
  · rw [opPoint_one, opPoint_one, opPoint_screw, opPoint_screw]
    constructor
    · intro h
      have := h 0
      refine absurd ?_ (half_not_int (n 0))
      simp at this
      linarith
    · intro h
      have := h 0
      refine absurd ?_ (half_not_int (n 0))
      simp [movedSite] at this
      linarith
  · simp only [left_eq_add]

theorem moved_by {cell : Fin 3 → Pt 3 ℝ} (h : HasCellpar cell 4 5 6 90 105 90) : eucl (cartesian cell ![-1 / 4, 2 / 5, -13 / 10]) (cartesian cell movedSite) ≤ 1 / 100 := by
  rw [eucl_cartesian_congr (gram_of_cellpar h screwCell_par)]
  refine Real.sqrt_le_iff.2 ⟨by norm_num, ?_⟩
  simp [sqDist, cartesian, Fin.sum_univ_three, movedSite, screwCell]
  norm_num

theorem sites_moved : SitesMoved (1 / 100) imageDesc movedDesc := by
  refine ⟨rfl, rfl, fun _ => movedSite, by simp [movedDesc, imageDesc], ?_, ?_⟩
  · rintro p rfl q rfl
    exact moved_images
  · rintro cell hc p rfl
    exact moved_by (by simpa [Described.HasCell, imageDesc, screwNumbers] using hc)

/-- The entry of the CSD. -/
noncomputable def ccdcMoved : CcdcEntry := screwCcdc "moved" [carbonAtom "C7" movedSite]

theorem describes_ccdcMoved : CcdcDescribes wholeEnv true "skip" false false ccdcMoved (some movedDesc) := ccdc_describes (by decide +kernel) (by simp) false

/-- The ccdc package, with the entries in the CSD. -/
noncomputable def movedCcdc : CcdcPackage where
  env := wholeEnv
  suffixes := ["cif"]
  files := pairFiles ccdcImage ccdcMoved
  entry := fun c => .item (if c = "IMAGES" then ccdcImage else ccdcMoved)
  database := []
  search := fun _ => []

/-- The packages. -/
noncomputable def movedBackends : CifBackends := { exampleBackends with ccdc := some movedCcdc }

/-- The readers are `CifReader` and `CSDReader`. -/
noncomputable def movedEnv : Env := { exampleEnv with cifReader := cifReader movedBackends ⟨[], []⟩, csdReader := csdReader movedBackends ⟨[], []⟩ }

theorem moved_reads : ReadsInputs movedEnv movedBackends ⟨[], []⟩ (cifKwargs "ccdc") (cifOptions "ccdc") :=
  ⟨rfl, rfl, (fun x hx => (by cases hx)), ⟨rfl, rfl, rfl, rfl, rfl, rfl⟩, Or.inl rfl⟩

theorem moved_refcodes : InputHolds movedBackends id (cifOptions "ccdc") (.one (.str "IMAGES")) [imageDesc] true ∧
    InputHolds movedBackends id (cifOptions "ccdc") (.one (.str "MOVED")) [movedDesc] true :=
  ⟨.refcodes ["IMAGES"] [some imageDesc] (.one "IMAGES") ⟨movedCcdc, rfl, ["IMAGES"], rfl, .cons ⟨_, rfl, by rw [if_pos rfl]; exact describes_ccdcImage false⟩ .nil⟩ rfl,
    .refcodes ["MOVED"] [some movedDesc] (.one "MOVED") ⟨movedCcdc, rfl, ["MOVED"], rfl, .cons ⟨_, rfl, by rw [if_neg (by decide)]; exact describes_ccdcMoved⟩ .nil⟩ rfl⟩

/-- `compare('IMAGES', 'MOVED', by='AMD', csd_refcodes=True, remove_hydrogens=True)` finds a distance of at most 0.02. -/
example : ∃ (x : ℝ) (F : ℕ), x ≤ 1 / 50 ∧ ∀ fuel ≥ F,
    compare movedEnv (.one (.str "IMAGES")) (some (.one (.str "MOVED"))) { csdRefcodes := true } (cifKwargs "ccdc") fuel = .ok (.matrix ["image"] ["moved"] [[x]]) := by
  obtain ⟨M, f, F, hM, h1, h2⟩ := C92_compare_amd_partial (args := { csdRefcodes := true }) moved_reads (by decide +kernel) rfl (by norm_num) rfl moved_refcodes.1 moved_refcodes.2
    (by simpa using image_proper) (by simpa using moved_proper) (by simp) (by simp)
  have h0 := (h2 0 0 (by simp) (by simp) (screw_shaped rfl _) (screw_shaped rfl _)).2 _ sites_moved
  exact ⟨f 0 0, F, h0.trans (by norm_num), fun fuel hf => by rw [h1 fuel hf, matrix_one hM]; rfl⟩

/-- By PDD the distance is at most 0.021. -/
example : ∃ (x : ℝ) (F : ℕ), x ≤ 21 / 1000 ∧ ∀ fuel ≥ F,
    compare movedEnv (.one (.str "IMAGES")) (some (.one (.str "MOVED"))) { by_ := "pdd", csdRefcodes := true } (cifKwargs "ccdc") fuel = .ok (.matrix ["image"] ["moved"] [[x]]) := by
  obtain ⟨M, f, F, hM, h1, h2⟩ := C92_compare_pdd_partial (args := { by_ := "pdd", csdRefcodes := true }) moved_reads exampleEnv_sound.sched (by decide +kernel) rfl
    (tol := 1 / 10000) (by norm_num) ⟨rfl, rfl, ⟨none, rfl⟩, ⟨_, rfl⟩⟩ moved_refcodes.1 moved_refcodes.2
    (by simpa using image_proper) (by simpa using moved_proper) (by simp) (by simp) rfl
  have h0 := (h2 0 0 (by simp) (by simp) (screw_shaped rfl _) (screw_shaped rfl _) _ rfl).2 _ sites_moved
  refine ⟨f 0 0, F, h0.trans ?_, fun fuel hf => by rw [h1 fuel hf, matrix_one hM]; rfl⟩
  have := emdTol_mono (max_le (size_le (e := imageDesc) ⟨_, rfl⟩ rfl) (size_le (e := movedDesc) ⟨_, rfl⟩ rfl)) (C := 100 * 4) (by norm_num)
  have e1 : (imageDesc.cell.a : ℝ) = 4 := by norm_num [imageDesc, screwNumbers]
  have e2 : (movedDesc.cell.a : ℝ) = 4 := by norm_num [movedDesc, screwNumbers]
  simp only [List.getElem_cons_zero, e1, e2, max_self]
  have hc : (kwOr (cifKwargs "ccdc") "collapse" (.bool true)).truthy = true := rfl
  rw [if_pos hc]
  have h4 : emdTol 2 (100 * 4) ≤ 1 / 10000 := by norm_num [emdTol]
  have h5 := this.trans h4
  push_cast
  linarith

/-! ### Overlapping sites -/

/-- Two sites at the same point, one of them displaced. -/
noncomputable def splitDesc : SitesDescribed := ⟨"split", screwNumbers, screwOps, [![-1 / 4, 2 / 5, -13 / 10], movedSite]⟩

theorem split_comparable : splitDesc.Comparable where
  proper := ⟨mixed_proper.group, by
    intro x hx
    simp only [splitDesc, List.mem_cons, List.not_mem_nil, or_false] at hx
    rcases hx with rfl | rfl
    · exact image_proper.exact
    · exact moved_exact⟩
  finiteOps := screwOps_finite
  nonempty := by simp [splitDesc]
  size := by
    have := screwOps_ncard
    change 2 * screwOps.ncard ≤ _
    omega

theorem split_moved : ListedSitesMoved (1 / 100) twiceDesc splitDesc := by
  refine ⟨rfl, rfl, .cons ⟨fun _ _ _ _ _ => Iff.rfl, fun cell _ => ?_⟩ (.cons ⟨moved_images, fun cell hc => moved_by ?_⟩ .nil)⟩
  · rw [eucl_eq_zero.mpr rfl]
    norm_num
  · simpa [SitesDescribed.HasCell, twiceDesc, screwNumbers] using hc

/-- The entry of the CSD. -/
noncomputable def ccdcSplit : CcdcEntry := screwCcdc "split" [carbonAtom "C1" ![-1 / 4, 2 / 5, -13 / 10], carbonAtom "C7" movedSite]

theorem split_ccdc : CcdcDescribesAll wholeEnv true false ccdcSplit (some splitDesc) := by
  have hm : ∀ {a}, a ∈ ccdcSplit.crystal.disorderedMolecule → a = carbonAtom "C1" ![-1 / 4, 2 / 5, -13 / 10] ∨ a = carbonAtom "C7" movedSite := by
    intro a ha
    have ha : a ∈ [carbonAtom "C1" ![-1 / 4, 2 / 5, -13 / 10], carbonAtom "C7" movedSite] := ha
    simpa using ha
  have hu : ccdcSplit.crystal.usedAtoms true "all_sites" = ccdcSplit.crystal.disorderedMolecule := by
    rw [CcdcCrystal.usedAtoms, List.filter_eq_self]
    intro a ha
    rw [decide_eq_true_iff]
    rcases hm ha with rfl | rfl
    · exact ⟨(fun h => absurd h (by decide)), (fun _ h => by rcases h with h | h <;> exact absurd h (by simp [carbonAtom])), ⟨_, rfl⟩⟩
    · exact ⟨(fun h => absurd h (by decide)), (fun _ h => by rcases h with h | h <;> exact absurd h (by simp [carbonAtom])), ⟨_, rfl⟩⟩
  refine .atoms (wholeEnv.setMolecule ccdcSplit.crystal ccdcSplit.crystal.disorderedMolecule) screwNumbers screwOps
    ⟨rfl, (fun h => absurd h (by decide)), ?_, _, ?_, rfl⟩ ⟨rfl, screw_valid⟩ (Or.inr ⟨by simp [wholeEnv, ccdcSplit, screwCcdc], ?_, ?_⟩)
    (by simp [wholeEnv, ccdcSplit, screwCcdc]) _ (.cons rfl (.cons rfl .nil))
  · intro a ha
    rcases hm ha with rfl | rfl <;> simp [carbonAtom]
  · rw [← hu]
    exact .all fun h => by cases h
  · intro s hs
    have hs : s ∈ ["x,y,z", "-x, 1/2+Y, -z"] := hs
    exact screw_texts.1 s hs
  · intro g hg
    obtain ⟨s, hs, h⟩ := screw_texts.2 g hg
    exact ⟨s, by simpa [wholeEnv, ccdcSplit, screwCcdc] using hs, h⟩

/-- The ccdc package, with the entries in the CSD. -/
noncomputable def splitCcdc : CcdcPackage where
  env := wholeEnv
  suffixes := ["cif"]
  files := pairFiles ccdcTwice ccdcSplit
  entry := fun c => .item (if c = "TWICE" then ccdcTwice else ccdcSplit)
  database := []
  search := fun _ => []

/-- The packages. -/
noncomputable def splitBackends : CifBackends := { exampleBackends with ccdc := some splitCcdc }

/-- The readers are `CifReader` and `CSDReader`. -/
noncomputable def splitEnv : Env := { exampleEnv with cifReader := cifReader splitBackends ⟨[], []⟩, csdReader := csdReader splitBackends ⟨[], []⟩ }

theorem split_reads : ReadsAllSites splitEnv splitBackends ⟨[], []⟩ (mixedKwargs "ccdc") (allOptions "ccdc") :=
  ⟨rfl, rfl, (fun x hx => (by cases hx)), ⟨rfl, rfl, rfl, rfl, rfl, rfl⟩, rfl, rfl⟩

/-- `compare('TWICE', 'SPLIT', by='AMD', csd_refcodes=True, remove_hydrogens=True, disorder='all_sites')` finds a distance of at most 0.02. -/
example : ∃ (x : ℝ) (F : ℕ), x ≤ 1 / 50 ∧ ∀ fuel ≥ F,
    compare splitEnv (.one (.str "TWICE")) (some (.one (.str "SPLIT"))) { csdRefcodes := true } (mixedKwargs "ccdc") fuel = .ok (.matrix ["twice"] ["split"] [[x]]) := by
  have hi : InputHoldsAll splitBackends id (allOptions "ccdc") (.one (.str "TWICE")) [twiceDesc] true :=
    .refcodes ["TWICE"] [some twiceDesc] (.one "TWICE") ⟨splitCcdc, rfl, ["TWICE"], rfl, .cons ⟨_, rfl, by rw [if_pos rfl]; exact twice_ccdc⟩ .nil⟩ rfl
  have hi' : InputHoldsAll splitBackends id (allOptions "ccdc") (.one (.str "SPLIT")) [splitDesc] true :=
    .refcodes ["SPLIT"] [some splitDesc] (.one "SPLIT") ⟨splitCcdc, rfl, ["SPLIT"], rfl, .cons ⟨_, rfl, by rw [if_neg (by decide)]; exact split_ccdc⟩ .nil⟩ rfl
  obtain ⟨M, f, F, hM, h1, h2⟩ := C92_sites_compare_amd_partial (args := { csdRefcodes := true }) split_reads (by decide +kernel) rfl (by norm_num) rfl hi hi'
    (by simpa using twice_comparable) (by simpa using split_comparable) (by simp) (by simp)
  have h0 := (h2 0 0 (by simp) (by simp) (twice_shaped _) ⟨screwCell, screwCell_par_numbers, Or.inl screwCell_dominant⟩).2 _ split_moved
  exact ⟨f 0 0, F, h0.trans (by norm_num), fun fuel hf => by rw [h1 fuel hf, matrix_one hM]; rfl⟩

end Amd
