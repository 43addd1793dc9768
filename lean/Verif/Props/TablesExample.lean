import Verif.Props.Tables
import Verif.Props.PairsExample

/-!
# Examples for C103
-/

namespace Amd

open Classical

theorem one_collection_valid : ∀ c ∈ exampleCrystals ++ exampleCrystals, c.Valid := fun c hc => exampleCrystals_valid c (by simpa using hc)

/-- Three crystals: the nearest other crystal by AMD. -/
example : ∃ (M : List (List ℝ)) (f : ℕ → ℕ → ℝ) (T : Frame) (F : ℕ), IsMatrix 3 3 f M ∧ IsNearestTable 1 ["a", "b", "c"] ["a", "b", "c"] (Candidate none 3) f T ∧
    ∀ fuel ≥ F, compare exampleEnv (.one (.str "data.cif")) none {} [] fuel = .ok (.matrix ["a", "b", "c"] ["a", "b", "c"] M) ∧
      compare exampleEnv (.one (.str "data.cif")) none { nNeighbors := some 1 } [] fuel = .ok T :=
  C103_amd (env := exampleEnv) (args := {}) (kwargs := []) (example_collections {} rfl _).1 (by simp [exampleCrystals]) one_collection_valid (by rfl) (n := 1) (by norm_num) (by simp [exampleCrystals])
    (fun _ => by simp [exampleCrystals]) (metric := .named "chebyshev") rfl (Or.inl rfl) (EMD_default_metric _) (exampleEnv_sound.knn _)

/-- One crystal against three: the nearest three by AMD. -/
example : ∃ (M : List (List ℝ)) (f : ℕ → ℕ → ℝ) (T : Frame) (F : ℕ), IsMatrix 1 3 f M ∧
    IsNearestTable 3 ["z"] ["a", "b", "c"] (Candidate (some (.one (.str "data.cif"))) 3) f T ∧
    ∀ fuel ≥ F, compare exampleEnv (.one (.pset renamedThird)) (some (.one (.str "data.cif"))) {} [] fuel = .ok (.matrix ["z"] ["a", "b", "c"] M) ∧
      compare exampleEnv (.one (.pset renamedThird)) (some (.one (.str "data.cif"))) { nNeighbors := some 3 } [] fuel = .ok T :=
  C103_amd (env := exampleEnv) (args := {}) (kwargs := []) (example_collections {} rfl _).2 (by simp) third_valid (by rfl) (n := 3) (by norm_num) (by simp [exampleCrystals]) (by simp)
    (metric := .named "chebyshev") rfl (Or.inl rfl) (EMD_default_metric _) (exampleEnv_sound.knn _)

/-- Three crystals by PDD. -/
example : ∃ (M : List (List ℝ)) (f : ℕ → ℕ → ℝ) (T : Frame) (F : ℕ), IsMatrix 3 3 f M ∧ IsNearestTable 1 ["a", "b", "c"] ["a", "b", "c"] (Candidate none 3) f T ∧
    ∀ fuel ≥ F, compare exampleEnv (.one (.str "data.cif")) none { by_ := "PDD" } [] fuel = .ok (.matrix ["a", "b", "c"] ["a", "b", "c"] M) ∧
      compare exampleEnv (.one (.str "data.cif")) none { by_ := "PDD", nNeighbors := some 1 } [] fuel = .ok T :=
  C103_pdd_partial (env := exampleEnv) (args := { by_ := "PDD" }) (kwargs := []) exampleEnv_sound (example_collections _ rfl _).1 (by simp [exampleCrystals]) one_collection_valid (by rfl) (n := 1)
    (by simp [exampleCrystals]) (fun _ => by simp [exampleCrystals]) (metric := .named "chebyshev") PddOptions.default (EMD_default_metric _).nonneg

/-- One and two neighbours by AMD, and one and two columns against three crystals by PDD. -/
example : (∃ (T U : Frame) (F : ℕ), (∀ fuel ≥ F, compare exampleEnv (.one (.str "data.cif")) none { nNeighbors := some 1 } [] fuel = .ok T ∧
      compare exampleEnv (.one (.str "data.cif")) none { nNeighbors := some 2 } [] fuel = .ok U) ∧ ∀ c < 1, ∃ v, T.distColumn c = some v ∧ U.distColumn c = some v) ∧
    ∃ (T U : Frame) (F : ℕ), (∀ fuel ≥ F, compare exampleEnv (.one (.pset renamedThird)) (some (.one (.str "data.cif"))) { by_ := "PDD", nNeighbors := some 1 } [] fuel = .ok T ∧
      compare exampleEnv (.one (.pset renamedThird)) (some (.one (.str "data.cif"))) { by_ := "PDD", nNeighbors := some 2 } [] fuel = .ok U) ∧
      ∀ c < 1, ∃ v, T.distColumn c = some v ∧ U.distColumn c = some v :=
  ⟨C103_amd_more (env := exampleEnv) (args := {}) (kwargs := []) (example_collections {} rfl _).1 one_collection_valid (by rfl) (n := 1) (m := 2) (by norm_num) (by norm_num)
    (by simp [exampleCrystals]) (fun _ => by simp [exampleCrystals]) (metric := .named "chebyshev") rfl (EMD_default_metric _) (exampleEnv_sound.knn _),
  C103_pdd_more_partial (env := exampleEnv) (args := { by_ := "PDD" }) (kwargs := []) exampleEnv_sound (example_collections _ rfl _).2 (by simp) third_valid (by rfl) (n := 1) (m := 2) (by norm_num)
    (by simp [exampleCrystals]) (by simp) (metric := .named "chebyshev") PddOptions.default (EMD_default_metric _).nonneg⟩

end Amd
