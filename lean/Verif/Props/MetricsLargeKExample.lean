import Verif.Props.MetricsLargeK
import Verif.Props.NearestMetricsExample

/-!
# C96 and C97 for all cells: examples

Files of the same crystal in two settings, by the Euclidean metric, and entries with overlapping sites by the city block metric.
-/

namespace Amd

open Classical

/-- One collection, files: by AMD the entry of the same crystals is 0; by PDD it is not negative; more neighbours never make an entry smaller. -/
example : ∃ k₀, ∀ k ≥ k₀, (∃ (f : Frame) (M : List (List ℝ)) (g : ℕ → ℕ → ℝ) (F : ℕ), g 0 1 = 0 ∧ IsMatrix [screwDesc, imageDesc, screwDesc].length 3 g M ∧ (∃ r c, f = .matrix r c M) ∧
      ∀ fuel ≥ F, compare nearEnv (.many [.str "a.cif", .str "b.cif", .str "a.cif"]) none { k := k } (metricKwargs "euclidean") fuel = .ok f) ∧
    (∃ (f : Frame) (M : List (List ℝ)) (g : ℕ → ℕ → ℝ) (F : ℕ), 0 ≤ g 0 1 ∧ IsMatrix [screwDesc, imageDesc, screwDesc].length 3 g M ∧ (∃ r c, f = .matrix r c M) ∧
      ∀ fuel ≥ F, compare nearEnv (.many [.str "a.cif", .str "b.cif", .str "a.cif"]) none { by_ := "PDD", k := k } (metricKwargs "euclidean") fuel = .ok f) ∧
    (∃ (r c : List String) (M M' : List (List ℝ)) (g g' : ℕ → ℕ → ℝ) (F : ℕ), g' 0 1 ≤ g 0 1 ∧ IsMatrix [screwDesc, imageDesc, screwDesc].length 3 g M ∧ IsMatrix [screwDesc, imageDesc, screwDesc].length 3 g' M' ∧
      ∀ fuel ≥ F, compare nearEnv (.many [.str "a.cif", .str "b.cif", .str "a.cif"]) none { k := k + 5 } (metricKwargs "euclidean") fuel = .ok (.matrix r c M) ∧
        compare nearEnv (.many [.str "a.cif", .str "b.cif", .str "a.cif"]) none { k := k } (metricKwargs "euclidean") fuel = .ok (.matrix r c M')) ∧
    ∃ (r c : List String) (M M' : List (List ℝ)) (g g' : ℕ → ℕ → ℝ) (F : ℕ), g' 0 1 ≤ g 0 1 + (4 * √(k + 5 : ℕ) * (1 / 10000) + emdTol (max screwDesc.size imageDesc.size) (√(k + 5 : ℕ) * ((k + 5 : ℕ) * max (screwDesc.cell.a : ℝ) imageDesc.cell.a))) + (4 * √(k : ℕ) * (1 / 10000) + emdTol (max screwDesc.size imageDesc.size) (√(k : ℕ) * ((k : ℕ) * max (screwDesc.cell.a : ℝ) imageDesc.cell.a))) ∧
      IsMatrix [screwDesc, imageDesc, screwDesc].length 3 g M ∧ IsMatrix [screwDesc, imageDesc, screwDesc].length 3 g' M' ∧
      ∀ fuel ≥ F, compare nearEnv (.many [.str "a.cif", .str "b.cif", .str "a.cif"]) none { by_ := "PDD", k := k + 5 } (metricKwargs "euclidean") fuel = .ok (.matrix r c M) ∧
        compare nearEnv (.many [.str "a.cif", .str "b.cif", .str "a.cif"]) none { by_ := "PDD", k := k } (metricKwargs "euclidean") fuel = .ok (.matrix r c M') := by
  have hp : ∀ e ∈ [screwDesc, imageDesc, screwDesc], e.Proper := by simpa using ⟨screw_proper, image_proper, screw_proper⟩
  have tame : ∀ k : ℕ, TameMetric k √k ((MetricArg.named "euclidean").dist nearEnv.other) := fun k => (C96_metrics (env := nearEnv) scipy_names k).1
  have shr : Shrinks ((MetricArg.named "euclidean").dist nearEnv.other) := (C97_shrinks (env := nearEnv) scipy_names).1
  obtain ⟨k₁, h₁⟩ := C96_amd_large_k_partial hp (by simp)
  obtain ⟨k₂, h₂⟩ := C96_pdd_large_k_partial hp (by simp)
  obtain ⟨k₃, h₃⟩ := C97_more_amd_large_k_partial hp (by simp)
  obtain ⟨k₄, h₄⟩ := C97_more_pdd_large_k_partial hp (by simp)
  refine ⟨k₁ + k₂ + k₃ + k₄, fun k hk => ⟨?_, ?_, ?_, ?_⟩⟩
  · obtain ⟨M, f, F, hM, h1, h2⟩ := h₁ nearEnv exampleBackends id _ _ (.many [.str "a.cif", .str "b.cif", .str "a.cif"]) { k := k } (metricKwargs "euclidean") (.named "euclidean") (near_reads "euclidean") (show upper "AMD" = "AMD" by decide +kernel) rfl (show k₁ ≤ k by omega) rfl rfl
      (tame _).toRowMetric.self (tame _).toRowMetric.symm (holds_three (by simp))
    exact ⟨_, M, f, F, (h2 0 1 (by simp) (by simp)).2 screw_same, hM, ⟨_, _, rfl⟩, h1⟩
  · obtain ⟨M, f, F, hM, h1, h2⟩ := h₂ nearEnv exampleBackends id _ _ (.many [.str "a.cif", .str "b.cif", .str "a.cif"]) { by_ := "PDD", k := k } (metricKwargs "euclidean") (.named "euclidean") _ (1 / 10000) true (near_reads "euclidean") nearEnv_sound.sched (show upper "PDD" = "PDD" by decide +kernel) rfl
      (show k₂ ≤ k by omega) (tame _) (by norm_num) ⟨rfl, rfl, ⟨none, rfl⟩, ⟨_, rfl⟩⟩ (holds_three (by simp)) rfl
    exact ⟨_, M, f, F, ((h2 0 1 (by simp) (by simp) _ rfl).2 screw_same).1, hM, ⟨_, _, rfl⟩, h1⟩
  · obtain ⟨M, M', f, f', F, hM, hM', h1, h2⟩ := h₃ nearEnv exampleBackends id _ _ _ (.many [.str "a.cif", .str "b.cif", .str "a.cif"]) { k := k + 5 } { k := k } (metricKwargs "euclidean") (metricKwargs "euclidean") (.named "euclidean") (near_reads "euclidean") (near_reads "euclidean")
      (show upper "AMD" = "AMD" by decide +kernel) (show upper "AMD" = "AMD" by decide +kernel) rfl rfl (show k₃ ≤ k by omega) (show k ≤ k + 5 by omega) rfl rfl rfl rfl (tame _).toRowMetric (tame _).toRowMetric shr (holds_three (by simp)) (holds_three (by simp))
    exact ⟨_, _, M, M', f, f', F, h2 0 1 (by simp) (by simp), hM, hM', h1⟩
  · obtain ⟨M, M', f, f', F, hM, hM', h1, h2⟩ := h₄ nearEnv exampleBackends id _ _ _ (.many [.str "a.cif", .str "b.cif", .str "a.cif"]) { by_ := "PDD", k := k + 5 } { by_ := "PDD", k := k } (metricKwargs "euclidean") (metricKwargs "euclidean") (.named "euclidean") _ _ (1 / 10000) (1 / 10000) true true
      (near_reads "euclidean") (near_reads "euclidean") nearEnv_sound.sched (show upper "PDD" = "PDD" by decide +kernel) (show upper "PDD" = "PDD" by decide +kernel) rfl rfl (show k₄ ≤ k by omega) (show k ≤ k + 5 by omega) (tame _) (tame _) shr (by norm_num) (by norm_num) ⟨rfl, rfl, ⟨none, rfl⟩, ⟨_, rfl⟩⟩
      ⟨rfl, rfl, ⟨none, rfl⟩, ⟨_, rfl⟩⟩ (holds_three (by simp)) (holds_three (by simp)) rfl rfl
    exact ⟨_, _, M, M', f, f', F, h2 0 1 (by simp) (by simp) _ _ rfl rfl, hM, hM', h1⟩

/-- Two collections, files: by AMD the entry of the same crystals is 0; by PDD it is not negative; more neighbours never make an entry smaller. -/
example : ∃ k₀, ∀ k ≥ k₀, (∃ (f : Frame) (M : List (List ℝ)) (g : ℕ → ℕ → ℝ) (F : ℕ), g 0 0 = 0 ∧ IsMatrix [imageDesc].length 3 g M ∧ (∃ r c, f = .matrix r c M) ∧
      ∀ fuel ≥ F, compare nearEnv (.one (.str "b.cif")) (some (.many [.str "a.cif", .str "b.cif", .str "a.cif"])) { k := k } (metricKwargs "euclidean") fuel = .ok f) ∧
    (∃ (f : Frame) (M : List (List ℝ)) (g : ℕ → ℕ → ℝ) (F : ℕ), 0 ≤ g 0 0 ∧ IsMatrix [imageDesc].length 3 g M ∧ (∃ r c, f = .matrix r c M) ∧
      ∀ fuel ≥ F, compare nearEnv (.one (.str "b.cif")) (some (.many [.str "a.cif", .str "b.cif", .str "a.cif"])) { by_ := "PDD", k := k } (metricKwargs "euclidean") fuel = .ok f) ∧
    (∃ (r c : List String) (M M' : List (List ℝ)) (g g' : ℕ → ℕ → ℝ) (F : ℕ), g' 0 0 ≤ g 0 0 ∧ IsMatrix [imageDesc].length 3 g M ∧ IsMatrix [imageDesc].length 3 g' M' ∧
      ∀ fuel ≥ F, compare nearEnv (.one (.str "b.cif")) (some (.many [.str "a.cif", .str "b.cif", .str "a.cif"])) { k := k + 5 } (metricKwargs "euclidean") fuel = .ok (.matrix r c M) ∧
        compare nearEnv (.one (.str "b.cif")) (some (.many [.str "a.cif", .str "b.cif", .str "a.cif"])) { k := k } (metricKwargs "euclidean") fuel = .ok (.matrix r c M')) ∧
    ∃ (r c : List String) (M M' : List (List ℝ)) (g g' : ℕ → ℕ → ℝ) (F : ℕ), g' 0 0 ≤ g 0 0 + (4 * √(k + 5 : ℕ) * (1 / 10000) + emdTol (max imageDesc.size screwDesc.size) (√(k + 5 : ℕ) * ((k + 5 : ℕ) * max (imageDesc.cell.a : ℝ) screwDesc.cell.a))) + (4 * √(k : ℕ) * (1 / 10000) + emdTol (max imageDesc.size screwDesc.size) (√(k : ℕ) * ((k : ℕ) * max (imageDesc.cell.a : ℝ) screwDesc.cell.a))) ∧
      IsMatrix [imageDesc].length 3 g M ∧ IsMatrix [imageDesc].length 3 g' M' ∧
      ∀ fuel ≥ F, compare nearEnv (.one (.str "b.cif")) (some (.many [.str "a.cif", .str "b.cif", .str "a.cif"])) { by_ := "PDD", k := k + 5 } (metricKwargs "euclidean") fuel = .ok (.matrix r c M) ∧
        compare nearEnv (.one (.str "b.cif")) (some (.many [.str "a.cif", .str "b.cif", .str "a.cif"])) { by_ := "PDD", k := k } (metricKwargs "euclidean") fuel = .ok (.matrix r c M') := by
  have hp : ∀ e ∈ [screwDesc, imageDesc, screwDesc], e.Proper := by simpa using ⟨screw_proper, image_proper, screw_proper⟩
  have hp1 : ∀ e ∈ [imageDesc], e.Proper := by simpa using image_proper
  have hsame : DescribeSame imageDesc screwDesc := same_of rfl rfl screw_points.symm
  have tame : ∀ k : ℕ, TameMetric k √k ((MetricArg.named "euclidean").dist nearEnv.other) := fun k => (C96_metrics (env := nearEnv) scipy_names k).1
  have shr : Shrinks ((MetricArg.named "euclidean").dist nearEnv.other) := (C97_shrinks (env := nearEnv) scipy_names).1
  obtain ⟨k₁, h₁⟩ := C96_amd_two_large_k_partial hp1 hp (by simp) (by simp)
  obtain ⟨k₂, h₂⟩ := C96_pdd_two_large_k_partial hp1 hp (by simp) (by simp)
  obtain ⟨k₃, h₃⟩ := C97_more_amd_two_large_k_partial hp1 hp (by simp) (by simp)
  obtain ⟨k₄, h₄⟩ := C97_more_pdd_two_large_k_partial hp1 hp (by simp) (by simp)
  refine ⟨k₁ + k₂ + k₃ + k₄, fun k hk => ⟨?_, ?_, ?_, ?_⟩⟩
  · obtain ⟨M, f, F, hM, h1, h2⟩ := h₁ nearEnv exampleBackends id _ _ (.one (.str "b.cif")) (.many [.str "a.cif", .str "b.cif", .str "a.cif"]) { k := k } (metricKwargs "euclidean") (.named "euclidean") (near_reads "euclidean") (show upper "AMD" = "AMD" by decide +kernel) rfl (show k₁ ≤ k by omega) rfl rfl
      (tame _).toRowMetric.self (holds_b (by simp)) (holds_three (by simp))
    exact ⟨_, M, f, F, (h2 0 0 (by simp) (by simp)).2 hsame, hM, ⟨_, _, rfl⟩, h1⟩
  · obtain ⟨M, f, F, hM, h1, h2⟩ := h₂ nearEnv exampleBackends id _ _ (.one (.str "b.cif")) (.many [.str "a.cif", .str "b.cif", .str "a.cif"]) { by_ := "PDD", k := k } (metricKwargs "euclidean") (.named "euclidean") _ (1 / 10000) true (near_reads "euclidean") nearEnv_sound.sched (show upper "PDD" = "PDD" by decide +kernel) rfl
      (show k₂ ≤ k by omega) (tame _) (by norm_num) ⟨rfl, rfl, ⟨none, rfl⟩, ⟨_, rfl⟩⟩ (holds_b (by simp)) (holds_three (by simp)) rfl
    exact ⟨_, M, f, F, ((h2 0 0 (by simp) (by simp) _ rfl).2 hsame).1, hM, ⟨_, _, rfl⟩, h1⟩
  · obtain ⟨M, M', f, f', F, hM, hM', h1, h2⟩ := h₃ nearEnv exampleBackends id _ _ _ (.one (.str "b.cif")) (.many [.str "a.cif", .str "b.cif", .str "a.cif"]) { k := k + 5 } { k := k } (metricKwargs "euclidean") (metricKwargs "euclidean") (.named "euclidean") (near_reads "euclidean") (near_reads "euclidean")
      (show upper "AMD" = "AMD" by decide +kernel) (show upper "AMD" = "AMD" by decide +kernel) rfl rfl (show k₃ ≤ k by omega) (show k ≤ k + 5 by omega) rfl rfl rfl rfl (tame _).toRowMetric (tame _).toRowMetric shr (holds_b (by simp)) (holds_b (by simp)) (holds_three (by simp)) (holds_three (by simp))
    exact ⟨_, _, M, M', f, f', F, h2 0 0 (by simp) (by simp), hM, hM', h1⟩
  · obtain ⟨M, M', f, f', F, hM, hM', h1, h2⟩ := h₄ nearEnv exampleBackends id _ _ _ (.one (.str "b.cif")) (.many [.str "a.cif", .str "b.cif", .str "a.cif"]) { by_ := "PDD", k := k + 5 } { by_ := "PDD", k := k } (metricKwargs "euclidean") (metricKwargs "euclidean") (.named "euclidean") _ _ (1 / 10000) (1 / 10000) true true
      (near_reads "euclidean") (near_reads "euclidean") nearEnv_sound.sched (show upper "PDD" = "PDD" by decide +kernel) (show upper "PDD" = "PDD" by decide +kernel) rfl rfl (show k₄ ≤ k by omega) (show k ≤ k + 5 by omega) (tame _) (tame _) shr (by norm_num) (by norm_num) ⟨rfl, rfl, ⟨none, rfl⟩, ⟨_, rfl⟩⟩
      ⟨rfl, rfl, ⟨none, rfl⟩, ⟨_, rfl⟩⟩ (holds_b (by simp)) (holds_b (by simp)) (holds_three (by simp)) (holds_three (by simp)) rfl rfl
    exact ⟨_, _, M, M', f, f', F, h2 0 0 (by simp) (by simp) _ _ rfl rfl, hM, hM', h1⟩

/-- One collection, `disorder='all_sites'`: by AMD the entry of the same crystals is 0; by PDD it is not negative; more neighbours never make an entry smaller. -/
example : ∃ k₀, ∀ k ≥ k₀, (∃ (f : Frame) (M : List (List ℝ)) (g : ℕ → ℕ → ℝ) (F : ℕ), g 0 1 = 0 ∧ IsMatrix [mixedDesc, twiceDesc, mixedDesc].length 3 g M ∧ (∃ r c, f = .matrix r c M) ∧
      ∀ fuel ≥ F, compare nearPairEnv (.many [.str "MIXED", .str "TWICE", .str "MIXED"]) none { k := k, csdRefcodes := true } (("metric", .str "cityblock") :: mixedKwargs "ccdc") fuel = .ok f) ∧
    (∃ (f : Frame) (M : List (List ℝ)) (g : ℕ → ℕ → ℝ) (F : ℕ), 0 ≤ g 0 1 ∧ IsMatrix [mixedDesc, twiceDesc, mixedDesc].length 3 g M ∧ (∃ r c, f = .matrix r c M) ∧
      ∀ fuel ≥ F, compare nearPairEnv (.many [.str "MIXED", .str "TWICE", .str "MIXED"]) none { by_ := "PDD", k := k, csdRefcodes := true } (("metric", .str "cityblock") :: mixedKwargs "ccdc") fuel = .ok f) ∧
    (∃ (r c : List String) (M M' : List (List ℝ)) (g g' : ℕ → ℕ → ℝ) (F : ℕ), g' 0 1 ≤ g 0 1 ∧ IsMatrix [mixedDesc, twiceDesc, mixedDesc].length 3 g M ∧ IsMatrix [mixedDesc, twiceDesc, mixedDesc].length 3 g' M' ∧
      ∀ fuel ≥ F, compare nearPairEnv (.many [.str "MIXED", .str "TWICE", .str "MIXED"]) none { k := k + 5, csdRefcodes := true } (("metric", .str "cityblock") :: mixedKwargs "ccdc") fuel = .ok (.matrix r c M) ∧
        compare nearPairEnv (.many [.str "MIXED", .str "TWICE", .str "MIXED"]) none { k := k, csdRefcodes := true } (("metric", .str "cityblock") :: mixedKwargs "ccdc") fuel = .ok (.matrix r c M')) ∧
    ∃ (r c : List String) (M M' : List (List ℝ)) (g g' : ℕ → ℕ → ℝ) (F : ℕ), g' 0 1 ≤ g 0 1 + (4 * (k + 5 : ℕ) * (1 / 10000) + emdTol (max mixedDesc.size twiceDesc.size) ((k + 5 : ℕ) * ((k + 5 : ℕ) * max (mixedDesc.cell.a : ℝ) twiceDesc.cell.a))) + (4 * (k : ℕ) * (1 / 10000) + emdTol (max mixedDesc.size twiceDesc.size) ((k : ℕ) * ((k : ℕ) * max (mixedDesc.cell.a : ℝ) twiceDesc.cell.a))) ∧
      IsMatrix [mixedDesc, twiceDesc, mixedDesc].length 3 g M ∧ IsMatrix [mixedDesc, twiceDesc, mixedDesc].length 3 g' M' ∧
      ∀ fuel ≥ F, compare nearPairEnv (.many [.str "MIXED", .str "TWICE", .str "MIXED"]) none { by_ := "PDD", k := k + 5, csdRefcodes := true } (("metric", .str "cityblock") :: mixedKwargs "ccdc") fuel = .ok (.matrix r c M) ∧
        compare nearPairEnv (.many [.str "MIXED", .str "TWICE", .str "MIXED"]) none { by_ := "PDD", k := k, csdRefcodes := true } (("metric", .str "cityblock") :: mixedKwargs "ccdc") fuel = .ok (.matrix r c M') := by
  have hp : ∀ e ∈ [mixedDesc, twiceDesc, mixedDesc], e.Comparable := by simpa using ⟨mixed_comparable, twice_comparable, mixed_comparable⟩
  have tame : ∀ k : ℕ, TameMetric k k ((MetricArg.named "cityblock").dist nearPairEnv.other) := fun k => (C96_metrics (env := nearPairEnv) scipy_names k).2.1
  have shr : Shrinks ((MetricArg.named "cityblock").dist nearPairEnv.other) := (C97_shrinks (env := nearPairEnv) scipy_names).2.1
  obtain ⟨k₁, h₁⟩ := C96_sites_amd_large_k_partial hp (by simp)
  obtain ⟨k₂, h₂⟩ := C96_sites_pdd_large_k_partial hp (by simp)
  obtain ⟨k₃, h₃⟩ := C97_sites_more_amd_large_k_partial hp (by simp)
  obtain ⟨k₄, h₄⟩ := C97_sites_more_pdd_large_k_partial hp (by simp)
  refine ⟨k₁ + k₂ + k₃ + k₄, fun k hk => ⟨?_, ?_, ?_, ?_⟩⟩
  · obtain ⟨M, f, F, hM, h1, h2⟩ := h₁ nearPairEnv pairBackends id _ _ (.many [.str "MIXED", .str "TWICE", .str "MIXED"]) { k := k, csdRefcodes := true } (("metric", .str "cityblock") :: mixedKwargs "ccdc") (.named "cityblock") (near_pair_reads "ccdc") (show upper "AMD" = "AMD" by decide +kernel) rfl (show k₁ ≤ k by omega) rfl rfl
      (tame _).toRowMetric.self (tame _).toRowMetric.symm all_three
    exact ⟨_, M, f, F, (h2 0 1 (by simp) (by simp)).2 mixed_same, hM, ⟨_, _, rfl⟩, h1⟩
  · obtain ⟨M, f, F, hM, h1, h2⟩ := h₂ nearPairEnv pairBackends id _ _ (.many [.str "MIXED", .str "TWICE", .str "MIXED"]) { by_ := "PDD", k := k, csdRefcodes := true } (("metric", .str "cityblock") :: mixedKwargs "ccdc") (.named "cityblock") _ (1 / 10000) true (near_pair_reads "ccdc") nearPairEnv_sound.sched (show upper "PDD" = "PDD" by decide +kernel) rfl
      (show k₂ ≤ k by omega) (tame _) (by norm_num) ⟨rfl, rfl, ⟨none, rfl⟩, ⟨_, rfl⟩⟩ all_three rfl
    exact ⟨_, M, f, F, ((h2 0 1 (by simp) (by simp) _ rfl).2 mixed_same).1, hM, ⟨_, _, rfl⟩, h1⟩
  · obtain ⟨M, M', f, f', F, hM, hM', h1, h2⟩ := h₃ nearPairEnv pairBackends id _ _ _ (.many [.str "MIXED", .str "TWICE", .str "MIXED"]) { k := k + 5, csdRefcodes := true } { k := k, csdRefcodes := true } (("metric", .str "cityblock") :: mixedKwargs "ccdc") (("metric", .str "cityblock") :: mixedKwargs "ccdc") (.named "cityblock") (near_pair_reads "ccdc") (near_pair_reads "ccdc")
      (show upper "AMD" = "AMD" by decide +kernel) (show upper "AMD" = "AMD" by decide +kernel) rfl rfl (show k₃ ≤ k by omega) (show k ≤ k + 5 by omega) rfl rfl rfl rfl (tame _).toRowMetric (tame _).toRowMetric shr all_three all_three
    exact ⟨_, _, M, M', f, f', F, h2 0 1 (by simp) (by simp), hM, hM', h1⟩
  · obtain ⟨M, M', f, f', F, hM, hM', h1, h2⟩ := h₄ nearPairEnv pairBackends id _ _ _ (.many [.str "MIXED", .str "TWICE", .str "MIXED"]) { by_ := "PDD", k := k + 5, csdRefcodes := true } { by_ := "PDD", k := k, csdRefcodes := true } (("metric", .str "cityblock") :: mixedKwargs "ccdc") (("metric", .str "cityblock") :: mixedKwargs "ccdc") (.named "cityblock") _ _ (1 / 10000) (1 / 10000) true true
      (near_pair_reads "ccdc") (near_pair_reads "ccdc") nearPairEnv_sound.sched (show upper "PDD" = "PDD" by decide +kernel) (show upper "PDD" = "PDD" by decide +kernel) rfl rfl (show k₄ ≤ k by omega) (show k ≤ k + 5 by omega) (tame _) (tame _) shr (by norm_num) (by norm_num) ⟨rfl, rfl, ⟨none, rfl⟩, ⟨_, rfl⟩⟩
      ⟨rfl, rfl, ⟨none, rfl⟩, ⟨_, rfl⟩⟩ all_three all_three rfl rfl
    exact ⟨_, _, M, M', f, f', F, h2 0 1 (by simp) (by simp) _ _ rfl rfl, hM, hM', h1⟩

/-- Two collections, `disorder='all_sites'`: by AMD the entry of the same crystals is 0; by PDD it is not negative; more neighbours never make an entry smaller. -/
example : ∃ k₀, ∀ k ≥ k₀, (∃ (f : Frame) (M : List (List ℝ)) (g : ℕ → ℕ → ℝ) (F : ℕ), g 0 1 = 0 ∧ IsMatrix [mixedDesc, twiceDesc, mixedDesc].length 3 g M ∧ (∃ r c, f = .matrix r c M) ∧
      ∀ fuel ≥ F, compare nearPairEnv (.many [.str "MIXED", .str "TWICE", .str "MIXED"]) (some (.many [.str "MIXED", .str "TWICE", .str "MIXED"])) { k := k, csdRefcodes := true } (("metric", .str "cityblock") :: mixedKwargs "ccdc") fuel = .ok f) ∧
    (∃ (f : Frame) (M : List (List ℝ)) (g : ℕ → ℕ → ℝ) (F : ℕ), 0 ≤ g 0 1 ∧ IsMatrix [mixedDesc, twiceDesc, mixedDesc].length 3 g M ∧ (∃ r c, f = .matrix r c M) ∧
      ∀ fuel ≥ F, compare nearPairEnv (.many [.str "MIXED", .str "TWICE", .str "MIXED"]) (some (.many [.str "MIXED", .str "TWICE", .str "MIXED"])) { by_ := "PDD", k := k, csdRefcodes := true } (("metric", .str "cityblock") :: mixedKwargs "ccdc") fuel = .ok f) ∧
    (∃ (r c : List String) (M M' : List (List ℝ)) (g g' : ℕ → ℕ → ℝ) (F : ℕ), g' 0 1 ≤ g 0 1 ∧ IsMatrix [mixedDesc, twiceDesc, mixedDesc].length 3 g M ∧ IsMatrix [mixedDesc, twiceDesc, mixedDesc].length 3 g' M' ∧
      ∀ fuel ≥ F, compare nearPairEnv (.many [.str "MIXED", .str "TWICE", .str "MIXED"]) (some (.many [.str "MIXED", .str "TWICE", .str "MIXED"])) { k := k + 5, csdRefcodes := true } (("metric", .str "cityblock") :: mixedKwargs "ccdc") fuel = .ok (.matrix r c M) ∧
        compare nearPairEnv (.many [.str "MIXED", .str "TWICE", .str "MIXED"]) (some (.many [.str "MIXED", .str "TWICE", .str "MIXED"])) { k := k, csdRefcodes := true } (("metric", .str "cityblock") :: mixedKwargs "ccdc") fuel = .ok (.matrix r c M')) ∧
    ∃ (r c : List String) (M M' : List (List ℝ)) (g g' : ℕ → ℕ → ℝ) (F : ℕ), g' 0 1 ≤ g 0 1 + (4 * (k + 5 : ℕ) * (1 / 10000) + emdTol (max mixedDesc.size twiceDesc.size) ((k + 5 : ℕ) * ((k + 5 : ℕ) * max (mixedDesc.cell.a : ℝ) twiceDesc.cell.a))) + (4 * (k : ℕ) * (1 / 10000) + emdTol (max mixedDesc.size twiceDesc.size) ((k : ℕ) * ((k : ℕ) * max (mixedDesc.cell.a : ℝ) twiceDesc.cell.a))) ∧
      IsMatrix [mixedDesc, twiceDesc, mixedDesc].length 3 g M ∧ IsMatrix [mixedDesc, twiceDesc, mixedDesc].length 3 g' M' ∧
      ∀ fuel ≥ F, compare nearPairEnv (.many [.str "MIXED", .str "TWICE", .str "MIXED"]) (some (.many [.str "MIXED", .str "TWICE", .str "MIXED"])) { by_ := "PDD", k := k + 5, csdRefcodes := true } (("metric", .str "cityblock") :: mixedKwargs "ccdc") fuel = .ok (.matrix r c M) ∧
        compare nearPairEnv (.many [.str "MIXED", .str "TWICE", .str "MIXED"]) (some (.many [.str "MIXED", .str "TWICE", .str "MIXED"])) { by_ := "PDD", k := k, csdRefcodes := true } (("metric", .str "cityblock") :: mixedKwargs "ccdc") fuel = .ok (.matrix r c M') := by
  have hp : ∀ e ∈ [mixedDesc, twiceDesc, mixedDesc], e.Comparable := by simpa using ⟨mixed_comparable, twice_comparable, mixed_comparable⟩
  have tame : ∀ k : ℕ, TameMetric k k ((MetricArg.named "cityblock").dist nearPairEnv.other) := fun k => (C96_metrics (env := nearPairEnv) scipy_names k).2.1
  have shr : Shrinks ((MetricArg.named "cityblock").dist nearPairEnv.other) := (C97_shrinks (env := nearPairEnv) scipy_names).2.1
  obtain ⟨k₁, h₁⟩ := C96_sites_amd_two_large_k_partial hp hp (by simp) (by simp)
  obtain ⟨k₂, h₂⟩ := C96_sites_pdd_two_large_k_partial hp hp (by simp) (by simp)
  obtain ⟨k₃, h₃⟩ := C97_sites_more_amd_two_large_k_partial hp hp (by simp) (by simp)
  obtain ⟨k₄, h₄⟩ := C97_sites_more_pdd_two_large_k_partial hp hp (by simp) (by simp)
  refine ⟨k₁ + k₂ + k₃ + k₄, fun k hk => ⟨?_, ?_, ?_, ?_⟩⟩
  · obtain ⟨M, f, F, hM, h1, h2⟩ := h₁ nearPairEnv pairBackends id _ _ (.many [.str "MIXED", .str "TWICE", .str "MIXED"]) (.many [.str "MIXED", .str "TWICE", .str "MIXED"]) { k := k, csdRefcodes := true } (("metric", .str "cityblock") :: mixedKwargs "ccdc") (.named "cityblock") (near_pair_reads "ccdc") (show upper "AMD" = "AMD" by decide +kernel) rfl (show k₁ ≤ k by omega) rfl rfl
      (tame _).toRowMetric.self all_three all_three
    exact ⟨_, M, f, F, (h2 0 1 (by simp) (by simp)).2 mixed_same, hM, ⟨_, _, rfl⟩, h1⟩
  · obtain ⟨M, f, F, hM, h1, h2⟩ := h₂ nearPairEnv pairBackends id _ _ (.many [.str "MIXED", .str "TWICE", .str "MIXED"]) (.many [.str "MIXED", .str "TWICE", .str "MIXED"]) { by_ := "PDD", k := k, csdRefcodes := true } (("metric", .str "cityblock") :: mixedKwargs "ccdc") (.named "cityblock") _ (1 / 10000) true (near_pair_reads "ccdc") nearPairEnv_sound.sched (show upper "PDD" = "PDD" by decide +kernel) rfl
      (show k₂ ≤ k by omega) (tame _) (by norm_num) ⟨rfl, rfl, ⟨none, rfl⟩, ⟨_, rfl⟩⟩ all_three all_three rfl
    exact ⟨_, M, f, F, ((h2 0 1 (by simp) (by simp) _ rfl).2 mixed_same).1, hM, ⟨_, _, rfl⟩, h1⟩
  · obtain ⟨M, M', f, f', F, hM, hM', h1, h2⟩ := h₃ nearPairEnv pairBackends id _ _ _ (.many [.str "MIXED", .str "TWICE", .str "MIXED"]) (.many [.str "MIXED", .str "TWICE", .str "MIXED"]) { k := k + 5, csdRefcodes := true } { k := k, csdRefcodes := true } (("metric", .str "cityblock") :: mixedKwargs "ccdc") (("metric", .str "cityblock") :: mixedKwargs "ccdc") (.named "cityblock") (near_pair_reads "ccdc") (near_pair_reads "ccdc")
      (show upper "AMD" = "AMD" by decide +kernel) (show upper "AMD" = "AMD" by decide +kernel) rfl rfl (show k₃ ≤ k by omega) (show k ≤ k + 5 by omega) rfl rfl rfl rfl (tame _).toRowMetric (tame _).toRowMetric shr all_three all_three all_three all_three
    exact ⟨_, _, M, M', f, f', F, h2 0 1 (by simp) (by simp), hM, hM', h1⟩
  · obtain ⟨M, M', f, f', F, hM, hM', h1, h2⟩ := h₄ nearPairEnv pairBackends id _ _ _ (.many [.str "MIXED", .str "TWICE", .str "MIXED"]) (.many [.str "MIXED", .str "TWICE", .str "MIXED"]) { by_ := "PDD", k := k + 5, csdRefcodes := true } { by_ := "PDD", k := k, csdRefcodes := true } (("metric", .str "cityblock") :: mixedKwargs "ccdc") (("metric", .str "cityblock") :: mixedKwargs "ccdc") (.named "cityblock") _ _ (1 / 10000) (1 / 10000) true true
      (near_pair_reads "ccdc") (near_pair_reads "ccdc") nearPairEnv_sound.sched (show upper "PDD" = "PDD" by decide +kernel) (show upper "PDD" = "PDD" by decide +kernel) rfl rfl (show k₄ ≤ k by omega) (show k ≤ k + 5 by omega) (tame _) (tame _) shr (by norm_num) (by norm_num) ⟨rfl, rfl, ⟨none, rfl⟩, ⟨_, rfl⟩⟩
      ⟨rfl, rfl, ⟨none, rfl⟩, ⟨_, rfl⟩⟩ all_three all_three all_three all_three rfl rfl
    exact ⟨_, _, M, M', f, f', F, h2 0 1 (by simp) (by simp) _ _ rfl rfl, hM, hM', h1⟩

end Amd
