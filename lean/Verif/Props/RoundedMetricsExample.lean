import Verif.Props.RoundedMetrics
import Verif.Props.RoundedExample
import Verif.Props.ContinuousMetricsExample

/-!
# Examples of C115
-/

namespace Amd

open Classical

/-- As `hexEnv`, with the distances of scipy. -/
noncomputable def hexCityEnv : Env := { hexEnv with other := scipyOther }

theorem hexCity_reads : ReadsInputs hexCityEnv hexBackends ⟨[], []⟩ [("metric", .str "cityblock")] ⟨"gemmi", false, "skip", false, false, false⟩ :=
  ⟨rfl, rfl, (fun x hx => (by cases hx)), ⟨rfl, rfl, rfl, rfl, rfl, rfl⟩, Or.inl rfl⟩

theorem hex_errors : (hexIdeal "four").roundError (1 / 30000) + (hexIdeal "five").roundError (1 / 30000) ≤ 8 / 1000 := by
  simp only [Described.roundError, hexIdeal, hexNumbers]
  norm_num

theorem hex_edge (n : String) : ((hexIdeal n).cell.a : ℝ) = 4 := by norm_num [hexIdeal, hexNumbers]

theorem four_proper : ∀ c ∈ [hexIdeal "four"], c.ProperRounded (1 / 30000) := List.forall_mem_singleton.2 (hex_properRounded "four")

/-- `compare` with `metric='cityblock'` and `k=10`, by AMD and by PDD, of one and of two collections: entries of the same ideal crystal are nearly 0. -/
example : (∃ (M : List (List ℝ)) (F : ℕ), 0 ≤ (M.getD 0 []).getD 1 0 ∧ (M.getD 0 []).getD 1 0 ≤ (10 : ℕ) * (8 / 1000) ∧
      ∀ fuel ≥ F, compare hexCityEnv (.many [.str "four.cif", .str "five.cif"]) none { k := 10 } [("metric", .str "cityblock")] fuel = .ok (.matrix ["four", "five"] ["four", "five"] M)) ∧
    (∃ (M : List (List ℝ)) (F : ℕ), 0 ≤ (M.getD 0 []).getD 1 0 ∧ (M.getD 0 []).getD 1 0 ≤ (10 : ℕ) * (8 / 1000) ∧
      ∀ fuel ≥ F, compare hexCityEnv (.one (.str "four.cif")) (some (.many [.str "four.cif", .str "five.cif"])) { k := 10 } [("metric", .str "cityblock")] fuel = .ok (.matrix ["four"] ["four", "five"] M)) ∧
    (∃ (M : List (List ℝ)) (F : ℕ), 0 ≤ (M.getD 0 []).getD 1 0 ∧ (M.getD 0 []).getD 1 0 ≤ 4 * (10 : ℕ) * (1 / 10000) + emdTol (max (hexIdeal "four").size (hexIdeal "five").size) ((10 : ℕ) * ((10 : ℕ) * max 4 4)) + (10 : ℕ) * (8 / 1000) ∧
      ∀ fuel ≥ F, compare hexCityEnv (.many [.str "four.cif", .str "five.cif"]) none { by_ := "PDD", k := 10 } [("metric", .str "cityblock")] fuel = .ok (.matrix ["four", "five"] ["four", "five"] M)) ∧
    (∃ (M : List (List ℝ)) (F : ℕ), 0 ≤ (M.getD 0 []).getD 1 0 ∧ (M.getD 0 []).getD 1 0 ≤ 4 * (10 : ℕ) * (1 / 10000) + emdTol (max (hexIdeal "four").size (hexIdeal "five").size) ((10 : ℕ) * ((10 : ℕ) * max 4 4)) + (10 : ℕ) * (8 / 1000) ∧
      ∀ fuel ≥ F, compare hexCityEnv (.one (.str "four.cif")) (some (.many [.str "four.cif", .str "five.cif"])) { by_ := "PDD", k := 10 } [("metric", .str "cityblock")] fuel = .ok (.matrix ["four"] ["four", "five"] M)) := by
  refine ⟨?_, ?_, ?_, ?_⟩
  · obtain ⟨M, f, F, hM, h1, h2⟩ := C115_amd_partial (args := { k := 10 }) hexCity_reads rfl (by decide +kernel) rfl (by norm_num)
      (metric := .named "cityblock") (city_tame hexCityEnv rfl _) rfl rfl hex_both both_rounds both_proper (by simp)
    obtain ⟨h0, h3⟩ := (h2 0 1 (by simp) (by simp) (hex_shaped "four" _) (hex_shaped "five" _)).2 (hex_same _ _)
    refine ⟨M, F, ?_, ?_, h1⟩ <;> rw [hM.2.2 0 1 (by simp) (by simp)]
    · exact h0
    · exact h3.trans (mul_le_mul_of_nonneg_left hex_errors (Nat.cast_nonneg _))
  · obtain ⟨M, f, F, hM, h1, h2⟩ := C115_amd_two_partial (args := { k := 10 }) hexCity_reads rfl (by decide +kernel) rfl (by norm_num)
      (metric := .named "cityblock") (city_tame hexCityEnv rfl _) rfl rfl hex_four hex_both (.cons four_rounds .nil) both_rounds four_proper both_proper (by simp) (by simp)
    obtain ⟨h0, h3⟩ := (h2 0 1 (by simp) (by simp) (hex_shaped "four" _) (hex_shaped "five" _)).2 (hex_same _ _)
    refine ⟨M, F, ?_, ?_, h1⟩ <;> rw [hM.2.2 0 1 (by simp) (by simp)]
    · exact h0
    · exact h3.trans (mul_le_mul_of_nonneg_left hex_errors (Nat.cast_nonneg _))
  · obtain ⟨M, f, F, hM, h1, h2⟩ := C115_pdd_partial (args := { by_ := "PDD", k := 10 }) (tol := 1 / 10000) (collapse := true) hexCity_reads rfl exampleEnv_sound.sched (by decide +kernel) rfl (by norm_num)
      (metric := .named "cityblock") (city_tame hexCityEnv rfl _) ⟨rfl, rfl, ⟨none, rfl⟩, ⟨_, rfl⟩⟩ hex_both both_rounds both_proper (by simp) rfl
    obtain ⟨h0, h3⟩ := (h2 0 1 (by simp) (by simp) (hex_shaped "four" _) (hex_shaped "five" _) _ rfl).2 (hex_same _ _)
    refine ⟨M, F, ?_, ?_, h1⟩ <;> rw [hM.2.2 0 1 (by simp) (by simp)]
    · exact h0
    · simp only [List.getElem_cons_zero, List.getElem_cons_succ, if_true, hex_edge] at h3
      exact h3.trans (add_le_add le_rfl (mul_le_mul_of_nonneg_left hex_errors (Nat.cast_nonneg _)))
  · obtain ⟨M, f, F, hM, h1, h2⟩ := C115_pdd_two_partial (args := { by_ := "PDD", k := 10 }) (tol := 1 / 10000) (collapse := true) hexCity_reads rfl exampleEnv_sound.sched (by decide +kernel) rfl (by norm_num)
      (metric := .named "cityblock") (city_tame hexCityEnv rfl _) ⟨rfl, rfl, ⟨none, rfl⟩, ⟨_, rfl⟩⟩ hex_four hex_both (.cons four_rounds .nil) both_rounds four_proper both_proper (by simp) (by simp) rfl
    obtain ⟨h0, h3⟩ := (h2 0 1 (by simp) (by simp) (hex_shaped "four" _) (hex_shaped "five" _) _ rfl).2 (hex_same _ _)
    refine ⟨M, F, ?_, ?_, h1⟩ <;> rw [hM.2.2 0 1 (by simp) (by simp)]
    · exact h0
    · simp only [List.getElem_cons_zero, List.getElem_cons_succ, if_true, hex_edge] at h3
      exact h3.trans (add_le_add le_rfl (mul_le_mul_of_nonneg_left hex_errors (Nat.cast_nonneg _)))

/-- For all large `k`. -/
example : ∃ k₀, ∀ k : ℕ, k₀ ≤ k →
    (∃ (M : List (List ℝ)) (F : ℕ), 0 ≤ (M.getD 0 []).getD 1 0 ∧ (M.getD 0 []).getD 1 0 ≤ k * (8 / 1000) ∧
      ∀ fuel ≥ F, compare hexCityEnv (.many [.str "four.cif", .str "five.cif"]) none { k := k } [("metric", .str "cityblock")] fuel = .ok (.matrix ["four", "five"] ["four", "five"] M)) ∧
    (∃ (M : List (List ℝ)) (F : ℕ), 0 ≤ (M.getD 0 []).getD 1 0 ∧ (M.getD 0 []).getD 1 0 ≤ k * (8 / 1000) ∧
      ∀ fuel ≥ F, compare hexCityEnv (.one (.str "four.cif")) (some (.many [.str "four.cif", .str "five.cif"])) { k := k } [("metric", .str "cityblock")] fuel = .ok (.matrix ["four"] ["four", "five"] M)) ∧
    (∃ (M : List (List ℝ)) (F : ℕ), 0 ≤ (M.getD 0 []).getD 1 0 ∧ (M.getD 0 []).getD 1 0 ≤ 4 * k * (1 / 10000) + emdTol (max (hexIdeal "four").size (hexIdeal "five").size) (k * (k * max 4 4)) + k * (8 / 1000) ∧
      ∀ fuel ≥ F, compare hexCityEnv (.many [.str "four.cif", .str "five.cif"]) none { by_ := "PDD", k := k } [("metric", .str "cityblock")] fuel = .ok (.matrix ["four", "five"] ["four", "five"] M)) ∧
    (∃ (M : List (List ℝ)) (F : ℕ), 0 ≤ (M.getD 0 []).getD 1 0 ∧ (M.getD 0 []).getD 1 0 ≤ 4 * k * (1 / 10000) + emdTol (max (hexIdeal "four").size (hexIdeal "five").size) (k * (k * max 4 4)) + k * (8 / 1000) ∧
      ∀ fuel ≥ F, compare hexCityEnv (.one (.str "four.cif")) (some (.many [.str "four.cif", .str "five.cif"])) { by_ := "PDD", k := k } [("metric", .str "cityblock")] fuel = .ok (.matrix ["four"] ["four", "five"] M)) := by
  obtain ⟨k₁, g₁⟩ := C115_amd_large_k_partial both_proper (by simp)
  obtain ⟨k₂, g₂⟩ := C115_amd_two_large_k_partial four_proper both_proper (by simp) (by simp)
  obtain ⟨k₃, g₃⟩ := C115_pdd_large_k_partial both_proper (by simp)
  obtain ⟨k₄, g₄⟩ := C115_pdd_two_large_k_partial four_proper both_proper (by simp) (by simp)
  refine ⟨k₁ + k₂ + k₃ + k₄, fun k hk => ⟨?_, ?_, ?_, ?_⟩⟩
  · obtain ⟨M, f, F, hM, h1, h2⟩ := g₁ hexCityEnv hexBackends id _ _ (.many [.str "four.cif", .str "five.cif"]) { k := k } [("metric", .str "cityblock")] _ (.named "cityblock") k hexCity_reads rfl
      (show upper "AMD" = "AMD" by decide +kernel) rfl (show k₁ ≤ k by omega) (city_tame hexCityEnv rfl _) rfl rfl hex_both both_rounds
    obtain ⟨h0, h3⟩ := (h2 0 1 (by simp) (by simp)).2 (hex_same _ _)
    refine ⟨M, F, ?_, ?_, h1⟩ <;> rw [hM.2.2 0 1 (by simp) (by simp)]
    · exact h0
    · exact h3.trans (mul_le_mul_of_nonneg_left hex_errors (Nat.cast_nonneg _))
  · obtain ⟨M, f, F, hM, h1, h2⟩ := g₂ hexCityEnv hexBackends id _ _ (.one (.str "four.cif")) (.many [.str "four.cif", .str "five.cif"]) { k := k } [("metric", .str "cityblock")] _ _ (.named "cityblock") k hexCity_reads rfl
      (show upper "AMD" = "AMD" by decide +kernel) rfl (show k₂ ≤ k by omega) (city_tame hexCityEnv rfl _) rfl rfl hex_four (.cons four_rounds .nil) hex_both both_rounds
    obtain ⟨h0, h3⟩ := (h2 0 1 (by simp) (by simp)).2 (hex_same _ _)
    refine ⟨M, F, ?_, ?_, h1⟩ <;> rw [hM.2.2 0 1 (by simp) (by simp)]
    · exact h0
    · exact h3.trans (mul_le_mul_of_nonneg_left hex_errors (Nat.cast_nonneg _))
  · obtain ⟨M, f, F, hM, h1, h2⟩ := g₃ hexCityEnv hexBackends id _ _ (.many [.str "four.cif", .str "five.cif"]) { by_ := "PDD", k := k } [("metric", .str "cityblock")] _ (.named "cityblock") k (1 / 10000) true hexCity_reads rfl exampleEnv_sound.sched
      (show upper "PDD" = "PDD" by decide +kernel) rfl (show k₃ ≤ k by omega) (by norm_num) (city_tame hexCityEnv rfl _) ⟨rfl, rfl, ⟨none, rfl⟩, ⟨_, rfl⟩⟩ hex_both both_rounds rfl
    obtain ⟨h0, h3⟩ := (h2 0 1 (by simp) (by simp) _ rfl).2 (hex_same _ _)
    refine ⟨M, F, ?_, ?_, h1⟩ <;> rw [hM.2.2 0 1 (by simp) (by simp)]
    · exact h0
    · simp only [List.getElem_cons_zero, List.getElem_cons_succ, if_true, hex_edge] at h3
      exact h3.trans (add_le_add le_rfl (mul_le_mul_of_nonneg_left hex_errors (Nat.cast_nonneg _)))
  · obtain ⟨M, f, F, hM, h1, h2⟩ := g₄ hexCityEnv hexBackends id _ _ (.one (.str "four.cif")) (.many [.str "four.cif", .str "five.cif"]) { by_ := "PDD", k := k } [("metric", .str "cityblock")] _ _ (.named "cityblock") k (1 / 10000) true hexCity_reads rfl exampleEnv_sound.sched
      (show upper "PDD" = "PDD" by decide +kernel) rfl (show k₄ ≤ k by omega) (by norm_num) (city_tame hexCityEnv rfl _) ⟨rfl, rfl, ⟨none, rfl⟩, ⟨_, rfl⟩⟩ hex_four (.cons four_rounds .nil) hex_both both_rounds rfl
    obtain ⟨h0, h3⟩ := (h2 0 1 (by simp) (by simp) _ rfl).2 (hex_same _ _)
    refine ⟨M, F, ?_, ?_, h1⟩ <;> rw [hM.2.2 0 1 (by simp) (by simp)]
    · exact h0
    · simp only [List.getElem_cons_zero, List.getElem_cons_succ, if_true, hex_edge] at h3
      exact h3.trans (add_le_add le_rfl (mul_le_mul_of_nonneg_left hex_errors (Nat.cast_nonneg _)))

end Amd
