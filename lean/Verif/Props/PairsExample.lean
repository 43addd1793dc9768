import Verif.Props.Pairs
import Verif.Props.MetricOrder

/-!
# Examples for C102
-/

namespace Amd

open Classical

/-- The third example crystal moved and with another name. -/
noncomputable def renamedThird : Crystal := ⟨"z", 2, { exampleSet with motif := [![1, 1]] }⟩

theorem third_valid : ∀ c ∈ [renamedThird] ++ exampleCrystals, c.Valid := by
  intro c hc
  rcases List.mem_cons.1 hc with rfl | hc
  · exact exampleCrystals_valid ⟨"c", 2, { exampleSet with motif := [![0, 0]] }⟩ (by simp [exampleCrystals])
  · exact exampleCrystals_valid c hc

theorem example_collections (args : CompareArgs) (h : args.csdRefcodes = false) (kwargs : Kwargs) :
    Collections exampleEnv args kwargs (.one (.str "data.cif")) none exampleCrystals exampleCrystals ∧
      Collections exampleEnv args kwargs (.one (.pset renamedThird)) (some (.one (.str "data.cif"))) [renamedThird] exampleCrystals := by
  unfold Collections
  rw [h]
  exact ⟨⟨rfl, rfl⟩, rfl, rfl⟩

theorem example_same : SameAt exampleCrystals 0 exampleCrystals 0 ∧ SameAt exampleCrystals 2 [renamedThird] 0 := 
  ⟨⟨_, _, rfl, rfl, SameSet.refl _⟩, _, _, rfl, rfl, LinearMap.id, ![1, 1], by simp, by simp [renamedThird]⟩

/-- `compare('data.cif')` of three crystals, and the third of them, moved and with another name, against `'data.cif'` with `low_memory`: the distance of the first and the third is the same. -/
example : ∃ (M N : List (List ℝ)) (f g : ℕ → ℕ → ℝ) (F : ℕ), IsMatrix 3 3 f M ∧ IsMatrix 1 3 g N ∧
    (∀ fuel ≥ F, compare exampleEnv (.one (.str "data.cif")) none {} [] fuel = .ok (.matrix ["a", "b", "c"] ["a", "b", "c"] M) ∧
      compare exampleEnv (.one (.pset renamedThird)) (some (.one (.str "data.cif"))) {} [("low_memory", .bool true)] fuel = .ok (.matrix ["z"] ["a", "b", "c"] N)) ∧ f 0 2 = g 0 0 := by
  obtain ⟨M, N, f, g, F, hM, hN, h1, h2⟩ := C102_amd (env := exampleEnv) (args := {}) (args' := {}) (kwargs := []) (kwargs' := [("low_memory", .bool true)])
    (example_collections {} rfl _).1 (example_collections {} rfl _).2 (by simp [exampleCrystals]) (by simp) (fun c hc => exampleCrystals_valid c (by simpa using hc)) third_valid (by rfl)
    (by rfl) rfl rfl rfl (metric := .named "chebyshev") rfl rfl (Or.inl rfl) (Or.inr ⟨by decide, rfl⟩) (EMD_default_metric _)
  refine ⟨M, N, f, g, F, hM, hN, h1, ?_⟩
  have := h2 0 2 0 0 (Or.inr ⟨example_same.1, example_same.2⟩)
  exact sub_eq_zero.1 (abs_nonpos_iff.1 this)

/-- The same by PDD, with four jobs in the second call. -/
example : ∃ (M N : List (List ℝ)) (f g : ℕ → ℕ → ℝ) (F : ℕ), IsMatrix 3 3 f M ∧ IsMatrix 1 3 g N ∧
    (∀ fuel ≥ F, compare exampleEnv (.one (.str "data.cif")) none { by_ := "PDD" } [] fuel = .ok (.matrix ["a", "b", "c"] ["a", "b", "c"] M) ∧
      compare exampleEnv (.one (.pset renamedThird)) (some (.one (.str "data.cif"))) { by_ := "PDD" } [("n_jobs", .int 4)] fuel = .ok (.matrix ["z"] ["a", "b", "c"] N)) ∧ f 0 2 = g 0 0 := by
  obtain ⟨M, N, f, g, F, hM, hN, h1, h2⟩ := C102_pdd (env := exampleEnv) (args := { by_ := "PDD" }) (args' := { by_ := "PDD" }) (kwargs := []) (kwargs' := [("n_jobs", .int 4)])
    exampleEnv_sound.sched (example_collections _ rfl _).1 (example_collections _ rfl _).2 (by simp [exampleCrystals]) (by simp) (fun c hc => exampleCrystals_valid c (by simpa using hc)) third_valid
    (by rfl) (by rfl) rfl rfl rfl (metric := .named "chebyshev") PddOptions.default ⟨rfl, rfl, ⟨_, rfl⟩, ⟨_, rfl⟩⟩ rfl rfl (EMD_default_metric _)
    (fun c hc => by
      have hc : c ∈ exampleCrystals := by simpa using hc
      simp only [exampleCrystals, List.mem_cons, List.not_mem_nil, or_false] at hc
      rcases hc with rfl | rfl | rfl <;> simp [exampleSet, exampleAsym])
  refine ⟨M, N, f, g, F, hM, hN, h1, ?_⟩
  have := h2 0 2 0 0 (Or.inr ⟨example_same.1, example_same.2⟩)
  exact sub_eq_zero.1 (abs_nonpos_iff.1 this)

/-- And the bounds that the theorem for large periodic sets asks for. -/
example : ∃ (n : ℕ) (C : ℝ) (M N : List (List ℝ)) (f g : ℕ → ℕ → ℝ) (F : ℕ), IsMatrix 3 3 f M ∧ IsMatrix 1 3 g N ∧
    (∀ fuel ≥ F, compare exampleEnv (.one (.str "data.cif")) none { by_ := "PDD" } [] fuel = .ok (.matrix ["a", "b", "c"] ["a", "b", "c"] M) ∧
      compare exampleEnv (.one (.pset renamedThird)) (some (.one (.str "data.cif"))) { by_ := "PDD" } [] fuel = .ok (.matrix ["z"] ["a", "b", "c"] N)) ∧
    |f 0 2 - g 0 0| ≤ 2 * emdTol n (1 * C) := by
  obtain ⟨n, C, hC0, hC⟩ := C100_within [] (1 / 10000) 100 (exampleCrystals ++ exampleCrystals)
  obtain ⟨M, N, f, g, F, hM, hN, h1, h2⟩ := C102_pdd_large (env := exampleEnv) (args := { by_ := "PDD" }) (args' := { by_ := "PDD" }) (kwargs := []) (kwargs' := [])
    exampleEnv_sound.sched (example_collections _ rfl _).1 (example_collections _ rfl _).2 (by simp [exampleCrystals]) (by simp) (fun c hc => exampleCrystals_valid c (by simpa using hc)) third_valid
    (by rfl) (by rfl) rfl rfl rfl (metric := .named "chebyshev") PddOptions.default PddOptions.default rfl rfl (chebyshev_tame _) hC0 hC
  exact ⟨n, C, M, N, f, g, F, hM, hN, h1, h2 0 2 0 0 (Or.inr ⟨example_same.1, example_same.2⟩)⟩

end Amd
