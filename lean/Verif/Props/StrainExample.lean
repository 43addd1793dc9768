import Verif.Props.Strain
import Verif.Props.ContinuousExample
import Verif.Props.RepeatedExample

/-!
# Examples for C93

The crystal of the example for C83 is measured again: the first edge of the cell is 4.0004 instead of 4, and the site is displaced by 0.01.
-/

namespace Amd

open Classical

/-- The cell at another temperature. -/
def warmNumbers : CellNumbers := ⟨4 + 1 / 2500, 5, 6, 90, 105, 90⟩

/-- Vectors of the cell. -/
noncomputable def warmCell : Fin 3 → Pt 3 ℝ :=
  ![![4 + 1 / 2500, 0, 0], ![0, 5, 0], ![6 * Real.cos (105 * (Real.pi / 180)), 0, 6 * Real.sin (105 * (Real.pi / 180))]]

theorem warmCell_par : HasCellpar warmCell (4 + 1 / 2500) 5 6 90 105 90 := by
  have h90 : Real.cos (90 * (Real.pi / 180)) = 0 := by
    rw [show (90 : ℝ) * (Real.pi / 180) = Real.pi / 2 by ring, Real.cos_pi_div_two]
  have hs := Real.sin_sq_add_cos_sq (105 * (Real.pi / 180))
  refine ⟨⟨?_, ?_⟩, ⟨?_, ?_⟩, ⟨?_, ?_⟩, ⟨?_, ?_, ?_⟩, ⟨?_, ?_, ?_⟩, ?_, ?_, ?_⟩ <;> (try simp [warmCell, Fin.sum_univ_three, h90]) <;> try norm_num
  · linear_combination 36 * hs
  · ring

theorem warmCell_par_numbers : HasCellpar warmCell warmNumbers.a warmNumbers.b warmNumbers.c warmNumbers.α warmNumbers.β warmNumbers.γ := by
  have := warmCell_par
  norm_num [warmNumbers] at this ⊢
  exact this

theorem warmCell_nonSingular : NonSingular warmCell := by
  refine Fintype.linearIndependent_iff.2 fun c h => ?_
  have h0 := congrFun h 0
  have h1 := congrFun h 1
  have h2 := congrFun h 2
  simp [warmCell, Fin.sum_univ_three] at h0 h1 h2
  have c2 : c 2 = 0 := h2.resolve_right cos_105.2.ne'
  rw [c2] at h0
  have c0 : c 0 = 0 := by
    norm_num at h0
    exact h0
  intro i
  fin_cases i
  exacts [c0, h1, c2]

theorem warmCell_dominant : HalfDominant warmCell := by
  have h := cos_105.1
  have hs := Real.sin_sq_add_cos_sq (105 * (Real.pi / 180))
  have ha : |(4 + 2500⁻¹ : ℝ)| = 4 + 1 / 2500 := by rw [abs_of_pos (by norm_num)]; norm_num
  intro i
  fin_cases i
  · have e : (Finset.univ.erase (0 : Fin 3)) = {1, 2} := by decide
    simp only [Fin.zero_eta, e, Finset.sum_pair (show (1 : Fin 3) ≠ 2 by decide)]
    simp [gram, warmCell, Fin.sum_univ_three, abs_mul, ha]
    linarith
  · have e : (Finset.univ.erase (1 : Fin 3)) = {0, 2} := by decide
    simp only [Fin.mk_one, e, Finset.sum_pair (show (0 : Fin 3) ≠ 2 by decide)]
    simp [gram, warmCell, Fin.sum_univ_three]
  · have e : (Finset.univ.erase (2 : Fin 3)) = {0, 1} := by decide
    simp only [Fin.reduceFinMk, e, Finset.sum_pair (show (0 : Fin 3) ≠ 1 by decide)]
    simp [gram, warmCell, Fin.sum_univ_three, abs_mul, ha]
    nlinarith

theorem screw_group_of {cell : Fin 3 → Pt 3 ℝ} {a b c β : ℝ} (hc : HasCellpar cell a b c 90 β 90) : IsSpaceGroup cell {screwOne, screwOp} := by
  have h90 : Real.cos (90 * (Real.pi / 180)) = 0 := by
    rw [show (90 : ℝ) * (Real.pi / 180) = Real.pi / 2 by ring, Real.cos_pi_div_two]
  obtain ⟨-, -, -, a12, -, a01⟩ := hc
  have h01 : ∑ j, cell 0 j * cell 1 j = 0 := by rw [a01.2.2, h90, mul_zero]
  have h12 : ∑ j, cell 1 j * cell 2 j = 0 := by rw [a12.2.2, h90, mul_zero]
  obtain ⟨-, h2, h3, h4, h5⟩ := screw_group screwCell_par
  refine ⟨?_, h2, h3, h4, h5⟩
  rintro g (rfl | rfl) x y
  · rw [opPoint_one, opPoint_one]
  · exact screw_isometry h01 h12 x y

/-- The crystal that was measured again. -/
noncomputable def warmDesc : Described := ⟨"warm", warmNumbers, screwOps, {movedSite}⟩

theorem warm_proper : warmDesc.Proper where
  group := ⟨warmCell, warmCell_par_numbers, warmCell_nonSingular, screw_group_of warmCell_par⟩
  finiteOps := Set.toFinite {screwOne, screwOp}
  finiteSites := Set.finite_singleton _
  nonempty := Set.singleton_nonempty _
  exact := moved_exact
  size := (size_le ⟨_, rfl⟩ rfl).trans (by norm_num)

theorem warm_shaped (k : ℕ) : warmDesc.WellShaped k := ⟨warmCell, warmCell_par_numbers, Or.inl warmCell_dominant⟩

/-- The strain is at most 0.00121. -/
theorem warm_strained : screwNumbers.StrainedBy (6 * ((1 + 1 / 10000) ^ 2 * (1 + 0) - 1)) warmNumbers := by
  refine C93_parameters (screwCell_has (e := screwDesc) rfl) warmCell_par_numbers screwCell_dominant (by norm_num) ?_ ?_ ?_ ?_ ?_ ?_ <;>
    norm_num [screwNumbers, warmNumbers, screwDesc, abs_of_pos]

theorem warm_remeasured : Remeasured (121 / 100000) (1 / 100) imageDesc warmDesc := by
  constructor
  · obtain ⟨cell, cell', h, h', hx⟩ := warm_strained
    refine ⟨cell, cell', h, h', fun x => (hx x).trans (mul_le_mul_of_nonneg_right (by norm_num) (eucl_nonneg _ _))⟩
  · refine ⟨rfl, rfl, fun _ => movedSite, by simp [warmDesc, imageDesc], ?_, ?_⟩
    · rintro p rfl q rfl
      exact moved_images
    · rintro cell hc p rfl
      have hp : HasCellpar cell (4 + 1 / 2500) 5 6 90 105 90 := by simpa [Described.HasCell, warmDesc, warmNumbers] using hc
      rw [eucl_cartesian_congr (gram_of_cellpar hp warmCell_par)]
      refine Real.sqrt_le_iff.2 ⟨by norm_num, ?_⟩
      simp [sqDist, cartesian, Fin.sum_univ_three, movedSite, warmCell]
      norm_num

/-- The entry of the CSD. -/
noncomputable def ccdcWarm : CcdcEntry :=
  ⟨"warm", true, false, ⟨"warm", false, [carbonAtom "C7" movedSite], [carbonAtom "C7" movedSite], [some (4 + 1 / 2500), some 5, some 6, some 90, some 105, some 90],
    ["x,y,z", "-x, 1/2+Y, -z"]⟩⟩

theorem warm_valid : warmNumbers.Valid := by
  refine ⟨by norm_num [warmNumbers], by norm_num [warmNumbers], fun θ hθ => ?_, warmCell, warmCell_par_numbers⟩
  simp only [warmNumbers, List.mem_cons, List.not_mem_nil, or_false] at hθ
  rcases hθ with rfl | rfl | rfl
  · exact Or.inl rfl
  · right; norm_num [abs_of_pos]
  · exact Or.inl rfl

theorem describes_ccdcWarm : CcdcDescribes wholeEnv true "skip" false false ccdcWarm (some warmDesc) := by
  have hu : ccdcWarm.crystal.usedAtoms true "skip" = [carbonAtom "C7" movedSite] := by
    rw [CcdcCrystal.usedAtoms, ccdcWarm, List.filter_cons_of_pos (by simpa using carbon_used (by decide +kernel))]
    rfl
  have hs : wholeEnv.sites (wholeEnv.setMolecule ccdcWarm.crystal [carbonAtom "C7" movedSite]) = {movedSite} := by
    ext y
    simp [CcdcEnv.sites, wholeEnv, carbonAtom, eq_comm]
  rw [warmDesc, ← hs]
  refine .atoms (wholeEnv.setMolecule ccdcWarm.crystal [carbonAtom "C7" movedSite]) warmNumbers screwOps
    ⟨rfl, ?_, ?_, _, ?_, rfl⟩ ⟨rfl, warm_valid⟩ (Or.inr ⟨by simp [wholeEnv, ccdcWarm], ?_, ?_⟩) rfl (by simp [wholeEnv]) (by simp [wholeEnv, carbonAtom])
  · rintro - (h | h | ⟨a, ha, h⟩)
    · cases h
    · cases h
    · obtain rfl : a = carbonAtom "C7" movedSite := List.mem_singleton.1 ha
      exact atom_ordered (by decide +kernel) h
  · intro a ha
    obtain rfl : a = carbonAtom "C7" movedSite := List.mem_singleton.1 ha
    simp [carbonAtom]
  · rw [← hu]
    exact .all fun _ => by simp [wholeEnv]
  · intro s hs
    have hs : s ∈ ["x,y,z", "-x, 1/2+Y, -z"] := hs
    exact screw_texts.1 s hs
  · intro g hg
    obtain ⟨s, hs, h⟩ := screw_texts.2 g hg
    exact ⟨s, by simpa [wholeEnv, ccdcWarm] using hs, h⟩

/-- The ccdc package, with the entries in the CSD. -/
noncomputable def warmCcdc : CcdcPackage where
  env := wholeEnv
  suffixes := ["cif"]
  files := pairFiles ccdcImage ccdcWarm
  entry := fun c => .item (if c = "IMAGES" then ccdcImage else ccdcWarm)
  database := []
  search := fun _ => []

/-- The packages. -/
noncomputable def warmBackends : CifBackends := { exampleBackends with ccdc := some warmCcdc }

/-- The readers are `CifReader` and `CSDReader`. -/
noncomputable def warmEnv : Env := { exampleEnv with cifReader := cifReader warmBackends ⟨[], []⟩, csdReader := csdReader warmBackends ⟨[], []⟩ }

theorem warm_reads : ReadsInputs warmEnv warmBackends ⟨[], []⟩ (cifKwargs "ccdc") (cifOptions "ccdc") :=
  ⟨rfl, rfl, (fun x hx => (by cases hx)), ⟨rfl, rfl, rfl, rfl, rfl, rfl⟩, Or.inl rfl⟩

theorem warm_refcodes : InputHolds warmBackends id (cifOptions "ccdc") (.one (.str "IMAGES")) [imageDesc] true ∧
    InputHolds warmBackends id (cifOptions "ccdc") (.one (.str "WARM")) [warmDesc] true :=
  ⟨.refcodes ["IMAGES"] [some imageDesc] (.one "IMAGES") ⟨warmCcdc, rfl, ["IMAGES"], rfl, .cons ⟨_, rfl, by rw [if_pos rfl]; exact describes_ccdcImage false⟩ .nil⟩ rfl,
    .refcodes ["WARM"] [some warmDesc] (.one "WARM") ⟨warmCcdc, rfl, ["WARM"], rfl, .cons ⟨_, rfl, by rw [if_neg (by decide)]; exact describes_ccdcWarm⟩ .nil⟩ rfl⟩

/-- `compare('IMAGES', 'WARM', by='AMD', k=10, csd_refcodes=True, remove_hydrogens=True)` finds a distance of at most 0.07. -/
example : ∃ (x : ℝ) (F : ℕ), x ≤ 7 / 100 ∧ ∀ fuel ≥ F,
    compare warmEnv (.one (.str "IMAGES")) (some (.one (.str "WARM"))) { k := 10, csdRefcodes := true } (cifKwargs "ccdc") fuel = .ok (.matrix ["image"] ["warm"] [[x]]) := by
  obtain ⟨M, f, F, hM, h1, h2⟩ := C93_compare_amd_partial (args := { k := 10, csdRefcodes := true }) warm_reads (by decide +kernel) rfl (by norm_num) rfl warm_refcodes.1
    warm_refcodes.2 (by simpa using image_proper) (by simpa using warm_proper) (by simp) (by simp)
  obtain ⟨a, ha, -⟩ := C83_amd_unique image_proper 10
  have h0 := (h2 0 0 (by simp) (by simp) (screw_shaped rfl _) (warm_shaped _) a ha _ (by norm_num)).2 _ warm_remeasured
  have h3 := (C93_last image_proper ha 9).2
  have h4 : min (imageDesc.cell.a : ℝ) (min imageDesc.cell.b imageDesc.cell.c) ≤ 4 := (min_le_left _ _).trans (by norm_num [imageDesc, screwNumbers])
  refine ⟨f 0 0, F, h0.trans ?_, fun fuel hf => by rw [h1 fuel hf, matrix_one hM]; rfl⟩
  norm_num at h3 ⊢
  linarith

/-- By PDD the distance is at most 0.071. -/
example : ∃ (x : ℝ) (F : ℕ), x ≤ 71 / 1000 ∧ ∀ fuel ≥ F,
    compare warmEnv (.one (.str "IMAGES")) (some (.one (.str "WARM"))) { by_ := "pdd", k := 10, csdRefcodes := true } (cifKwargs "ccdc") fuel =
      .ok (.matrix ["image"] ["warm"] [[x]]) := by
  obtain ⟨M, f, F, hM, h1, h2⟩ := C93_compare_pdd_partial (args := { by_ := "pdd", k := 10, csdRefcodes := true }) warm_reads exampleEnv_sound.sched (by decide +kernel) rfl
    (tol := 1 / 10000) (by norm_num) ⟨rfl, rfl, ⟨none, rfl⟩, ⟨_, rfl⟩⟩ warm_refcodes.1 warm_refcodes.2
    (by simpa using image_proper) (by simpa using warm_proper) (by simp) (by simp) rfl
  obtain ⟨a, ha, -⟩ := C83_amd_unique image_proper 10
  have h0 := (h2 0 0 (by simp) (by simp) (screw_shaped rfl _) (warm_shaped _) _ rfl a ha _ (by norm_num)).2 _ warm_remeasured
  have h3 := (C93_last image_proper ha 9).2
  have h4 : min (imageDesc.cell.a : ℝ) (min imageDesc.cell.b imageDesc.cell.c) ≤ 4 := (min_le_left _ _).trans (by norm_num [imageDesc, screwNumbers])
  refine ⟨f 0 0, F, h0.trans ?_, fun fuel hf => by rw [h1 fuel hf, matrix_one hM]; rfl⟩
  have := emdTol_mono (max_le (size_le (e := imageDesc) ⟨_, rfl⟩ rfl) (size_le (e := warmDesc) ⟨_, rfl⟩ rfl)) (C := 10 * (4 + 1 / 2500)) (by norm_num)
  have e1 : (imageDesc.cell.a : ℝ) = 4 := by norm_num [imageDesc, screwNumbers]
  have e2 : (warmDesc.cell.a : ℝ) = 4 + 1 / 2500 := by norm_num [warmDesc, warmNumbers]
  have e3 : max (4 : ℝ) (4 + 1 / 2500) = 4 + 1 / 2500 := by norm_num
  simp only [List.getElem_cons_zero, e1, e2, e3]
  have hc : (kwOr (cifKwargs "ccdc") "collapse" (.bool true)).truthy = true := rfl
  rw [if_pos hc]
  have h5 : emdTol 2 (10 * (4 + 1 / 2500)) ≤ 1 / 10000 := by norm_num [emdTol]
  have h6 := this.trans h5
  push_cast at h3 ⊢
  norm_num at h3 h6 ⊢
  linarith

/-! ### Overlapping sites -/

/-- Two sites, the crystal of the example for C92, in the cell at another temperature. -/
noncomputable def warmSplit : SitesDescribed := ⟨"warm", warmNumbers, screwOps, [![-1 / 4, 2 / 5, -13 / 10], movedSite]⟩

theorem warmSplit_comparable : warmSplit.Comparable where
  proper := ⟨⟨warmCell, warmCell_par_numbers, warmCell_nonSingular, screw_group_of warmCell_par⟩, split_comparable.proper.exact⟩
  finiteOps := screwOps_finite
  nonempty := by simp [warmSplit]
  size := split_comparable.size

theorem warmSplit_remeasured : SitesRemeasured (121 / 100000) (1 / 100) twiceDesc warmSplit := by
  refine ⟨warm_remeasured.1, rfl, rfl, .cons ⟨fun _ _ _ _ _ => Iff.rfl, fun cell _ => ?_⟩ (.cons ⟨moved_images, fun cell hc => ?_⟩ .nil)⟩
  · rw [eucl_eq_zero.mpr rfl]
    norm_num
  · obtain ⟨τ, h1, -, h3⟩ := warm_remeasured.2.2.2
    have h : ({movedSite} : Set (Pt 3 ℝ)) = τ '' {![-1 / 4, 2 / 5, -13 / 10]} := h1
    rw [Set.image_singleton, Set.singleton_eq_singleton_iff] at h
    rw [h]
    exact h3 cell hc _ rfl

/-- The AMDs of the two crystals, up to the tenth entry, differ by at most 0.07. -/
example : ∃ a a', twiceDesc.IsAMD 10 a ∧ warmSplit.IsAMD 10 a' ∧ chebyshev a a' ≤ 7 / 100 := by
  obtain ⟨a, ha, -⟩ := C91_amd_unique twice_comparable 10
  obtain ⟨b, hb, -⟩ := C91_amd_unique warmSplit_comparable 10
  refine ⟨a, b, ha, hb, ?_⟩
  have h := (C93_sites_amd twice_comparable warmSplit_comparable (by norm_num) (C93_sites_remeasured twice_comparable.proper warmSplit_comparable.proper warmSplit_remeasured) ha hb).2.2.2
  have h3 := (C93_sites_last twice_comparable ha 9).2
  have h4 : min (twiceDesc.cell.a : ℝ) (min twiceDesc.cell.b twiceDesc.cell.c) ≤ 4 := (min_le_left _ _).trans (by norm_num [twiceDesc, screwNumbers])
  refine h.trans ?_
  norm_num at h3 ⊢
  linarith

/-! ### Periodic sets -/

/-- Stretching by a hundredth. -/
noncomputable def longer : Pt 1 ℝ →ₗ[ℝ] Pt 1 ℝ := (101 / 100 : ℝ) • LinearMap.id

/-- Points on a line, stretched. -/
noncomputable def longSet (l : List ℝ) : PeriodicSet 1 := { motif := (lineSet l).motif.map longer, cell := fun i => longer ((lineSet l).cell i) }

theorem longer_strain : Strain (1 / 100) longer := by
  intro p q
  have e : eucl (longer p) (longer q) = 101 / 100 * eucl p q := by
    unfold eucl
    rw [show sqDist (longer p) (longer q) = (101 / 100) ^ 2 * sqDist p q by simp [sqDist, longer]; ring, Real.sqrt_mul (by norm_num), Real.sqrt_sq (by norm_num)]
  rw [e, show 101 / 100 * eucl p q - eucl p q = 1 / 100 * eucl p q by ring, abs_of_nonneg (mul_nonneg (by norm_num) (eucl_nonneg p q))]

theorem long_strained (l : List ℝ) : StrainedListed (1 / 100) 0 (lineSet l) (longSet l) := by
  refine ⟨longer, longer_strain, mapSite (lineSet l).motif longer, fun s t => ?_⟩
  have := sitePos_mapSite (motif := (lineSet l).motif) (cell := (lineSet l).cell) (A := longer)
  have e : ∀ s, sitePos (longSet l).motif (longSet l).cell (mapSite (lineSet l).motif longer s) = longer (sitePos (lineSet l).motif (lineSet l).cell s) := this
  erw [e s, e t]
  simp

theorem long_half (l : List ℝ) : HalfDominant (longSet l).cell := by
  intro i
  fin_cases i
  simp only [Fin.zero_eta, show (Finset.univ.erase (0 : Fin 1)) = ∅ by decide, Finset.sum_empty, mul_zero, gram]
  exact Finset.sum_nonneg fun _ _ => mul_self_nonneg _

theorem long_fits {l : List ℝ} (h : ∀ x ∈ l, 0 ≤ x ∧ x < 1) : FitsInCell (longSet l).motif (longSet l).cell := by
  refine ⟨0, fun q hq => ?_⟩
  obtain ⟨y, hy, rfl⟩ := List.mem_map.1 hq
  obtain ⟨x, hx, rfl⟩ := List.mem_map.1 hy
  refine ⟨fun _ => x, fun _ => h x hx, ?_⟩
  funext j
  fin_cases j
  simp [longSet, lineSet, longer]
  ring

theorem long_nonSingular (l : List ℝ) : NonSingular (longSet l).cell :=
  nonSingular_map (lineSet_nonSingular l) (longer_strain.injective (by norm_num))

/-- The AMDs of two points a quarter apart, with period 1, and the stretched set. -/
example {fuel fuel' : ℕ} {a a' : List ℝ} (ha : AMD (lineSet [0, 1 / 4]) 50 fuel = .ok a) (ha' : AMD (longSet [0, 1 / 4]) 50 fuel' = .ok a') :
    ∀ j < 50, |a.getD j 0 - a'.getD j 0| ≤ 1 / 100 * a.getD j 0 := by
  have hl : ∀ x ∈ [0, (1 / 4 : ℝ)], 0 ≤ x ∧ x < 1 := by
    intro x hx
    fin_cases hx <;> norm_num
  have := (C93_set_amd_partial (by norm_num) (lineSet_listing (l := [0, 1 / 4]) (by simp)) (isListing_full (long_nonSingular [0, 1 / 4]) (by simp [lineSet])) (by norm_num)
    (long_strained _) (covered_of_halfDominant (by norm_num) (lineSet_half _) (lineSet_fits hl)) (covered_of_halfDominant (by norm_num) (long_half _) (long_fits hl)) ha ha').2.2
  simpa using this

end Amd
