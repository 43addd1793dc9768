import Verif.Props.Nearest
import Verif.Props.CifCompareExample
import Verif.Props.AllSitesCompareExample

/-! Cases that meet the hypotheses of C94. -/

namespace Amd

open Classical

theorem cifEnv_sound : cifEnv.Sound := ⟨exampleEnv_sound.sched, exampleEnv_sound.part, exampleEnv_sound.sort, exampleEnv_sound.knn⟩

theorem pairEnv_sound : pairEnv.Sound := ⟨exampleEnv_sound.sched, exampleEnv_sound.part, exampleEnv_sound.sort, exampleEnv_sound.knn⟩

/-- With two items the nearest other item is the other one. -/
theorem nearest_of_two {a b : String} {d : ℕ → ℕ → ℝ} {f : Frame} (h : IsNearestTable 1 [a, b] [a, b] (fun i j => j < 2 ∧ j ≠ i) d f) :
    f = .nearest [a, b] [([b, a], [d 0 1, d 1 0])] := by
  obtain ⟨cols, idx, rfl, hl, hn, hc⟩ := h
  obtain ⟨col, rfl⟩ := List.length_eq_one_iff.1 hl
  have hidx : ∀ i < 2, idx i = [1 - i] := by
    intro i hi
    obtain ⟨h1, -, h3, -⟩ := hn i (by simpa using hi)
    obtain ⟨x, hx⟩ := List.length_eq_one_iff.1 h1
    have := h3 x (by rw [hx]; simp)
    rw [hx]
    congr 1
    omega
  have := hc 0 (by norm_num)
  simp only [List.length_cons, List.length_nil, List.getElem?_cons_zero, Option.some.injEq] at this
  rw [this]
  simp [List.range_succ, hidx 0, hidx 1]

/-- `compare('SCREWS', n_neighbors=1, csd_refcodes=True, refcode_families=True, …)`: each of the two entries without disorder has the other one as its nearest, at distance 0. -/
example : ∃ F, ∀ fuel ≥ F, compare cifEnv (.one (.str "SCREWS")) none { nNeighbors := some 1, csdRefcodes := true } csdKwargs fuel =
    .ok (.nearest ["screw", "image"] [(["image", "screw"], [0, 0])]) := by
  have hp : ∀ e ∈ [screwDesc, imageDesc], e.Proper := by simpa using ⟨screw_proper, image_proper⟩
  obtain ⟨d, f, F, hM, h1, h2⟩ := C94_amd_partial (args := { nNeighbors := some 1, csdRefcodes := true }) csd_reads cifEnv_sound (by decide +kernel) rfl (by norm_num)
    (by simp) rfl holds_family hp
  have hf := nearest_of_two hM
  obtain ⟨_, _, col, e1, e2, e3⟩ := (h2 0 1 (by simp) (by simp) (screw_shaped rfl _) (screw_shaped rfl _)).2 (by simp) screw_same
  obtain ⟨_, _, col', e1', e2', e3'⟩ := (h2 1 0 (by simp) (by simp) (screw_shaped rfl _) (screw_shaped rfl _)).2 (by simp) (same_of rfl rfl screw_points.symm)
  rw [hf, Frame.nearest.injEq] at e1 e1'
  rw [← e1.2] at e2
  rw [← e1'.2] at e2'
  simp only [List.getElem?_cons_zero, Option.some.injEq] at e2 e2'
  subst e2 e2'
  simp only [List.getElem?_cons_zero, List.getElem?_cons_succ, Option.some.injEq] at e3 e3'
  refine ⟨F, fun fuel hx => ?_⟩
  rw [h1 fuel hx, hf, e3, e3']
  rfl

theorem holds_three {reader : String} (h : reader ∈ ["gemmi", "ase", "pycodcif", "pymatgen", "ccdc"]) :
    InputHolds exampleBackends id (cifOptions reader) (.many [.str "a.cif", .str "b.cif", .str "a.cif"]) [screwDesc, imageDesc, screwDesc] false := by
  refine .paths ["a.cif", "b.cif", "a.cif"] (fun p => if p = "a.cif" then [some screwDesc] else [some imageDesc, none]) (.many ["a.cif", "b.cif", "a.cif"]) (fun p hp => ?_) rfl
  simp only [List.mem_cons, List.not_mem_nil, or_false] at hp
  rcases hp with rfl | rfl | rfl
  · exact (holds_files h).1
  · exact (holds_files h).2
  · exact (holds_files h).1

theorem three_slack {reader : String} {d d' : Described} (hd : d = screwDesc ∨ d = imageDesc) (hd' : d' = screwDesc ∨ d' = imageDesc) :
    (if (kwOr (cifKwargs reader) "collapse" (.bool true)).truthy then 4 * (1 / 10000 : ℝ) else 0) + emdTol (max d.size d'.size) (((100 : ℕ) : ℝ) * max (d.cell.a : ℝ) d'.cell.a) ≤ 6 / 10000 := by
  have hs : ∀ x, x = screwDesc ∨ x = imageDesc → x.size ≤ 2 ∧ (x.cell.a : ℝ) = 4 := by
    rintro x (rfl | rfl)
    · exact ⟨size_le ⟨_, rfl⟩ rfl, by norm_num [screwDesc, screwNumbers]⟩
    · exact ⟨size_le ⟨_, rfl⟩ rfl, by norm_num [imageDesc, screwNumbers]⟩
  have := emdTol_mono (max_le (hs d hd).1 (hs d' hd').1) (C := ((100 : ℕ) : ℝ) * 4) (by norm_num)
  rw [(hs d hd).2, (hs d' hd').2, max_self]
  refine (add_le_add_right this _).trans ?_
  have hc : (kwOr (cifKwargs reader) "collapse" (.bool true)).truthy = true := rfl
  rw [if_pos hc]
  norm_num [emdTol]

/-- `compare(['a.cif', 'b.cif', 'a.cif'], by='PDD', n_neighbors=1, …)`: each of the three crystals has another one at distance at most 0.0006. -/
example {reader : String} (hr : reader ∈ ["gemmi", "ase", "pycodcif", "pymatgen", "ccdc"]) : ∃ (f : Frame) (F : ℕ), (∀ i < 3, ∃ x, FirstDist f i x ∧ 0 ≤ x ∧ x ≤ 6 / 10000) ∧
    ∀ fuel ≥ F, compare cifEnv (.many [.str "a.cif", .str "b.cif", .str "a.cif"]) none { by_ := "PDD", nNeighbors := some 1 } (cifKwargs reader) fuel = .ok f := by
  have hp : ∀ e ∈ [screwDesc, imageDesc, screwDesc], e.Proper := by simpa using ⟨screw_proper, image_proper, screw_proper⟩
  obtain ⟨d, f, F, -, h1, h2⟩ := C94_pdd_partial (args := { by_ := "PDD", nNeighbors := some 1 }) (cif_reads reader) cifEnv_sound (by decide +kernel) rfl (by norm_num)
    (by simp) (tol := 1 / 10000) (by norm_num) ⟨rfl, rfl, ⟨none, rfl⟩, ⟨_, rfl⟩⟩ (holds_three hr) hp rfl
  refine ⟨f, F, fun i hi => ?_, h1⟩
  obtain ⟨j, hj, hij, hs, hi', hj', w1, w2⟩ : ∃ j, ∃ hj : j < [screwDesc, imageDesc, screwDesc].length, i ≠ j ∧ DescribeSame [screwDesc, imageDesc, screwDesc][i] [screwDesc, imageDesc, screwDesc][j] ∧
      ([screwDesc, imageDesc, screwDesc][i] = screwDesc ∨ [screwDesc, imageDesc, screwDesc][i] = imageDesc) ∧
      ([screwDesc, imageDesc, screwDesc][j] = screwDesc ∨ [screwDesc, imageDesc, screwDesc][j] = imageDesc) ∧
      [screwDesc, imageDesc, screwDesc][i].WellShaped 100 ∧ [screwDesc, imageDesc, screwDesc][j].WellShaped 100 := by
    interval_cases i
    · exact ⟨1, by simp, by simp, screw_same, Or.inl rfl, Or.inr rfl, screw_shaped rfl _, screw_shaped rfl _⟩
    · exact ⟨0, by simp, by simp, same_of rfl rfl screw_points.symm, Or.inr rfl, Or.inl rfl, screw_shaped rfl _, screw_shaped rfl _⟩
    · exact ⟨1, by simp, by simp, screw_same, Or.inl rfl, Or.inr rfl, screw_shaped rfl _, screw_shaped rfl _⟩
  obtain ⟨x, hf, h0, hx⟩ := (h2 i j hi hj hij w1 w2 _ rfl).2 hs
  exact ⟨x, hf, h0, hx.trans (three_slack hi' hj')⟩

/-- `compare('b.cif', ['a.cif', 'b.cif', 'a.cif'], n_neighbors=3, …)` by AMD, with as many neighbours as there are crystals: `DIST 1` is 0. By PDD `n_neighbors=2` is possible. -/
example {reader : String} (hr : reader ∈ ["gemmi", "ase", "pycodcif", "pymatgen", "ccdc"]) :
    (∃ (f : Frame) (F : ℕ), FirstDist f 0 0 ∧ ∀ fuel ≥ F,
      compare cifEnv (.one (.str "b.cif")) (some (.many [.str "a.cif", .str "b.cif", .str "a.cif"])) { nNeighbors := some 3 } (cifKwargs reader) fuel = .ok f) ∧
    ∃ (f : Frame) (F : ℕ) (x : ℝ), FirstDist f 0 x ∧ 0 ≤ x ∧ x ≤ 6 / 10000 ∧ ∀ fuel ≥ F,
      compare cifEnv (.one (.str "b.cif")) (some (.many [.str "a.cif", .str "b.cif", .str "a.cif"])) { by_ := "PDD", nNeighbors := some 2 } (cifKwargs reader) fuel = .ok f := by
  have hp : ∀ e ∈ [screwDesc, imageDesc, screwDesc], e.Proper := by simpa using ⟨screw_proper, image_proper, screw_proper⟩
  have hp1 : ∀ e ∈ [imageDesc], e.Proper := by simpa using image_proper
  have hsame : DescribeSame imageDesc screwDesc := same_of rfl rfl screw_points.symm
  constructor
  · obtain ⟨d, f, F, -, h1, h2⟩ := C94_amd_two_partial (args := { nNeighbors := some 3 }) (cif_reads reader) cifEnv_sound (by decide +kernel) rfl (by norm_num) (by simp) rfl
      (holds_b hr) (holds_three hr) hp1 hp (by simp)
    exact ⟨f, F, (h2 0 0 (by simp) (by simp) (screw_shaped rfl _) (screw_shaped rfl _)).2 hsame, h1⟩
  · obtain ⟨d, f, F, -, h1, h2⟩ := C94_pdd_two_partial (args := { by_ := "PDD", nNeighbors := some 2 }) (cif_reads reader) cifEnv_sound (by decide +kernel) rfl (by norm_num)
      (by simp) (tol := 1 / 10000) (by norm_num) ⟨rfl, rfl, ⟨none, rfl⟩, ⟨_, rfl⟩⟩ (holds_b hr) (holds_three hr) hp1 hp (by simp) rfl
    obtain ⟨x, hf, h0, hx⟩ := (h2 0 0 (by simp) (by simp) (screw_shaped rfl _) (screw_shaped rfl _) _ rfl).2 hsame
    exact ⟨f, F, x, hf, h0, hx.trans (three_slack (Or.inr rfl) (Or.inl rfl)), h1⟩

/-- For the family and all large `k`. -/
example : ∃ k₀, ∀ k ≥ k₀, ∃ (f : Frame) (F : ℕ), FirstDist f 0 0 ∧ ∀ fuel ≥ F,
    compare cifEnv (.one (.str "SCREWS")) none { k := k, nNeighbors := some 1, csdRefcodes := true } csdKwargs fuel = .ok f := by
  have hp : ∀ e ∈ [screwDesc, imageDesc], e.Proper := by simpa using ⟨screw_proper, image_proper⟩
  obtain ⟨k₀, h⟩ := C94_amd_large_k_partial hp
  refine ⟨k₀, fun k hk => ?_⟩
  obtain ⟨d, f, F, -, h1, h2⟩ := h cifEnv exampleBackends id _ _ (.one (.str "SCREWS")) { k := k, nNeighbors := some 1, csdRefcodes := true } csdKwargs 1 csd_reads cifEnv_sound
    (show upper "AMD" = "AMD" by decide +kernel) rfl (by norm_num) (by simp) hk rfl holds_family
  exact ⟨f, F, (h2 0 1 (by simp) (by simp)).2 (by simp) screw_same, h1⟩

/-! ### `disorder='all_sites'` -/

theorem all_three : InputHoldsAll pairBackends id (allOptions "ccdc") (.many [.str "MIXED", .str "TWICE", .str "MIXED"]) [mixedDesc, twiceDesc, mixedDesc] true :=
  .refcodes ["MIXED", "TWICE", "MIXED"] [some mixedDesc, some twiceDesc, some mixedDesc] (.many ["MIXED", "TWICE", "MIXED"]) ⟨pairCcdc, rfl, ["MIXED", "TWICE", "MIXED"], rfl,
    .cons ⟨_, rfl, by rw [if_pos rfl]; exact mixed_ccdc⟩ (.cons ⟨_, rfl, by rw [if_neg (by decide)]; exact twice_ccdc⟩
      (.cons ⟨_, rfl, by rw [if_pos rfl]; exact mixed_ccdc⟩ .nil))⟩ rfl

theorem mixed_twice_slack : (if (kwOr (mixedKwargs "ccdc") "collapse" (.bool true)).truthy then 4 * (1 / 10000 : ℝ) else 0) +
    emdTol (max mixedDesc.size twiceDesc.size) (((100 : ℕ) : ℝ) * max (mixedDesc.cell.a : ℝ) twiceDesc.cell.a) ≤ 6 / 10000 := by
  have := emdTol_mono (max_le mixed_size twice_size) (C := ((100 : ℕ) : ℝ) * 4) (by norm_num)
  have e1 : (mixedDesc.cell.a : ℝ) = 4 := by norm_num [mixedDesc, screwNumbers]
  have e2 : (twiceDesc.cell.a : ℝ) = 4 := by norm_num [twiceDesc, screwNumbers]
  rw [e1, e2, max_self]
  refine (add_le_add_right this _).trans ?_
  have hc : (kwOr (mixedKwargs "ccdc") "collapse" (.bool true)).truthy = true := rfl
  rw [if_pos hc]
  norm_num [emdTol]

/-- `compare(['MIXED', 'TWICE', 'MIXED'], n_neighbors=1, csd_refcodes=True, disorder='all_sites', …)`: `DIST 1` of the first row is 0 by AMD and at most 0.0006 by PDD; for one collection, for
two, and by AMD for all large `k`. -/
example (two : Option Input) (htwo : two = none ∨ two = some (.many [.str "MIXED", .str "TWICE", .str "MIXED"])) :
    (∃ (f : Frame) (F : ℕ), FirstDist f 0 0 ∧ ∀ fuel ≥ F,
      compare pairEnv (.many [.str "MIXED", .str "TWICE", .str "MIXED"]) two { nNeighbors := some 2, csdRefcodes := true } (mixedKwargs "ccdc") fuel = .ok f) ∧
    (∃ (f : Frame) (F : ℕ) (x : ℝ), FirstDist f 0 x ∧ 0 ≤ x ∧ x ≤ 6 / 10000 ∧ ∀ fuel ≥ F,
      compare pairEnv (.many [.str "MIXED", .str "TWICE", .str "MIXED"]) two { by_ := "PDD", nNeighbors := some 1, csdRefcodes := true } (mixedKwargs "ccdc") fuel = .ok f) ∧
    ∃ k₀, ∀ k ≥ k₀, ∃ (f : Frame) (F : ℕ), FirstDist f 0 0 ∧ ∀ fuel ≥ F,
      compare pairEnv (.many [.str "MIXED", .str "TWICE", .str "MIXED"]) none { k := k, nNeighbors := some 2, csdRefcodes := true } (mixedKwargs "ccdc") fuel = .ok f := by
  have hp : ∀ e ∈ [mixedDesc, twiceDesc, mixedDesc], e.Comparable := by simpa using ⟨mixed_comparable, twice_comparable, mixed_comparable⟩
  refine ⟨?_, ?_, ?_⟩
  · rcases htwo with rfl | rfl
    · obtain ⟨d, f, F, -, h1, h2⟩ := C94_sites_amd_partial (args := { nNeighbors := some 2, csdRefcodes := true }) (pair_reads "ccdc") pairEnv_sound (by decide +kernel) rfl (by norm_num)
        (by simp) rfl all_three hp
      exact ⟨f, F, (h2 0 1 (by simp) (by simp) (mixed_shaped _) (twice_shaped _)).2 (by simp) mixed_same, h1⟩
    · obtain ⟨d, f, F, -, h1, h2⟩ := C94_sites_amd_two_partial (args := { nNeighbors := some 2, csdRefcodes := true }) (pair_reads "ccdc") pairEnv_sound (by decide +kernel) rfl (by norm_num)
        (by simp) rfl all_three all_three hp hp (by simp)
      exact ⟨f, F, (h2 0 1 (by simp) (by simp) (mixed_shaped _) (twice_shaped _)).2 mixed_same, h1⟩
  · rcases htwo with rfl | rfl
    · obtain ⟨d, f, F, -, h1, h2⟩ := C94_sites_pdd_partial (args := { by_ := "PDD", nNeighbors := some 1, csdRefcodes := true }) (pair_reads "ccdc") pairEnv_sound (by decide +kernel) rfl
        (by norm_num) (by simp) (tol := 1 / 10000) (by norm_num) ⟨rfl, rfl, ⟨none, rfl⟩, ⟨_, rfl⟩⟩ all_three hp rfl
      obtain ⟨x, hf, h0, hx⟩ := (h2 0 1 (by simp) (by simp) (by simp) (mixed_shaped _) (twice_shaped _) _ rfl).2 mixed_same
      exact ⟨f, F, x, hf, h0, hx.trans mixed_twice_slack, h1⟩
    · obtain ⟨d, f, F, -, h1, h2⟩ := C94_sites_pdd_two_partial (args := { by_ := "PDD", nNeighbors := some 1, csdRefcodes := true }) (pair_reads "ccdc") pairEnv_sound (by decide +kernel) rfl
        (by norm_num) (by simp) (tol := 1 / 10000) (by norm_num) ⟨rfl, rfl, ⟨none, rfl⟩, ⟨_, rfl⟩⟩ all_three all_three hp hp (by simp) rfl
      obtain ⟨x, hf, h0, hx⟩ := (h2 0 1 (by simp) (by simp) (mixed_shaped _) (twice_shaped _) _ rfl).2 mixed_same
      exact ⟨f, F, x, hf, h0, hx.trans mixed_twice_slack, h1⟩
  · obtain ⟨k₀, h⟩ := C94_sites_amd_large_k_partial hp
    refine ⟨k₀, fun k hk => ?_⟩
    obtain ⟨d, f, F, -, h1, h2⟩ := h pairEnv pairBackends id _ _ (.many [.str "MIXED", .str "TWICE", .str "MIXED"]) { k := k, nNeighbors := some 2, csdRefcodes := true }
      (mixedKwargs "ccdc") 2 (pair_reads "ccdc") pairEnv_sound (show upper "AMD" = "AMD" by decide +kernel) rfl (by norm_num) (by simp) hk rfl all_three
    exact ⟨f, F, (h2 0 1 (by simp) (by simp)).2 (by simp) mixed_same, h1⟩

end Amd
