import Verif.Props.MetricOrder
import Verif.Props.MetricsExample

/-!
# Examples for C100
-/

namespace Amd

open Classical

/-- The environment of the example. -/
noncomputable def orderEnv : Env := { exampleEnv with other := scipyOther }

theorem order_inputs (r : Routed) : getCrystals orderEnv false r (.one (.str "data.cif")) = .ok exampleCrystals := rfl

/-- Three crystals by AMD: the matrix by the default metric, by the Euclidean metric and by the city block metric. -/
example : ∃ (A B : List (List ℝ)) (f g : ℕ → ℕ → ℝ) (F : ℕ), IsMatrix 3 3 f A ∧ IsMatrix 3 3 g B ∧
    (∀ fuel ≥ F, compare orderEnv (.one (.str "data.cif")) none {} [] fuel = .ok (.matrix ["a", "b", "c"] ["a", "b", "c"] A) ∧
      compare orderEnv (.one (.str "data.cif")) none {} [("metric", .str "euclidean")] fuel = .ok (.matrix ["a", "b", "c"] ["a", "b", "c"] B)) ∧
    ∀ i < 3, ∀ j < 3, f i j ≤ 1 * g i j :=
  C100_amd (args := {}) (args' := {}) (kwargs := []) (kwargs' := [("metric", .str "euclidean")]) exampleCrystals_valid rfl (by rfl) (by rfl) rfl rfl (metric := .named "chebyshev")
    (metric' := .named "euclidean") rfl rfl rfl rfl (C100_metrics (env := orderEnv) scipy_names _).1 (order_inputs _) (order_inputs _) (by simp [exampleCrystals])

/-- The same with two collections. -/
example : ∃ (A B : List (List ℝ)) (f g : ℕ → ℕ → ℝ) (F : ℕ), IsMatrix 3 3 f A ∧ IsMatrix 3 3 g B ∧
    (∀ fuel ≥ F, compare orderEnv (.one (.str "data.cif")) (some (.one (.str "data.cif"))) {} [("metric", .str "cityblock")] fuel = .ok (.matrix ["a", "b", "c"] ["a", "b", "c"] A) ∧
      compare orderEnv (.one (.str "data.cif")) (some (.one (.str "data.cif"))) {} [("metric", .str "euclidean")] fuel = .ok (.matrix ["a", "b", "c"] ["a", "b", "c"] B)) ∧
    ∀ i < 3, ∀ j < 3, f i j ≤ 10 * g i j := by
  have h := (C100_metrics (env := orderEnv) scipy_names 100).2.2.1
  rw [show √((100 : ℕ) : ℝ) = 10 by rw [show ((100 : ℕ) : ℝ) = 10 ^ 2 by norm_num]; exact Real.sqrt_sq (by norm_num)] at h
  exact C100_amd_two (args := {}) (args' := {}) (kwargs := [("metric", .str "cityblock")]) (kwargs' := [("metric", .str "euclidean")]) exampleCrystals_valid exampleCrystals_valid rfl (by rfl)
    (by rfl) rfl rfl (metric := .named "cityblock") (metric' := .named "euclidean") rfl rfl rfl rfl h (order_inputs _) (order_inputs _) (order_inputs _) (order_inputs _)

/-- By PDD. -/
example : ∃ (n : ℕ) (C : ℝ) (A B : List (List ℝ)) (f g : ℕ → ℕ → ℝ) (F : ℕ), IsMatrix 3 3 f A ∧ IsMatrix 3 3 g B ∧
    (∀ fuel ≥ F, compare orderEnv (.one (.str "data.cif")) none { by_ := "PDD" } [("metric", .str "euclidean")] fuel = .ok (.matrix ["a", "b", "c"] ["a", "b", "c"] A) ∧
      compare orderEnv (.one (.str "data.cif")) none { by_ := "PDD" } [("metric", .str "cityblock")] fuel = .ok (.matrix ["a", "b", "c"] ["a", "b", "c"] B)) ∧
    ∀ i < 3, ∀ j < 3, f i j ≤ 1 * g i j + (emdTol n (√(100 : ℕ) * C) + 1 * emdTol n ((100 : ℕ) * C)) := by
  obtain ⟨n, C, hC0, hC⟩ := C100_within [("metric", .str "euclidean")] (1 / 10000) 100 exampleCrystals
  exact ⟨n, C, C100_pdd (args := { by_ := "PDD" }) (args' := { by_ := "PDD" }) (env := orderEnv) (kwargs := [("metric", .str "euclidean")]) (kwargs' := [("metric", .str "cityblock")]) exampleEnv_sound.sched
    exampleCrystals_valid rfl (by rfl) (by rfl) rfl rfl (metric := .named "euclidean") (metric' := .named "cityblock") ⟨rfl, rfl, ⟨none, rfl⟩, ⟨_, rfl⟩⟩ ⟨rfl, rfl, ⟨none, rfl⟩, ⟨_, rfl⟩⟩ rfl rfl
    (C96_metrics (env := orderEnv) scipy_names _).1 (C96_metrics (env := orderEnv) scipy_names _).2.1 (C100_metrics (env := orderEnv) scipy_names _).2.1 (order_inputs _) (order_inputs _)
    (by simp [exampleCrystals]) hC0 hC⟩

/-- By PDD with two collections. -/
example : ∃ (n : ℕ) (C : ℝ) (A B : List (List ℝ)) (f g : ℕ → ℕ → ℝ) (F : ℕ), IsMatrix 3 3 f A ∧ IsMatrix 3 3 g B ∧
    (∀ fuel ≥ F, compare orderEnv (.one (.str "data.cif")) (some (.one (.str "data.cif"))) { by_ := "PDD" } [] fuel = .ok (.matrix ["a", "b", "c"] ["a", "b", "c"] A) ∧
      compare orderEnv (.one (.str "data.cif")) (some (.one (.str "data.cif"))) { by_ := "PDD" } [("metric", .str "euclidean")] fuel = .ok (.matrix ["a", "b", "c"] ["a", "b", "c"] B)) ∧
    ∀ i < 3, ∀ j < 3, f i j ≤ 1 * g i j + (emdTol n (1 * C) + 1 * emdTol n (√(100 : ℕ) * C)) := by
  obtain ⟨n, C, hC0, hC⟩ := C100_within [] (1 / 10000) 100 (exampleCrystals ++ exampleCrystals)
  exact ⟨n, C, C100_pdd_two (args := { by_ := "PDD" }) (args' := { by_ := "PDD" }) (env := orderEnv) (kwargs := []) (kwargs' := [("metric", .str "euclidean")]) exampleEnv_sound.sched
    exampleCrystals_valid exampleCrystals_valid rfl (by rfl) (by rfl) rfl rfl (metric := .named "chebyshev") (metric' := .named "euclidean") ⟨rfl, rfl, ⟨none, rfl⟩, ⟨_, rfl⟩⟩
    ⟨rfl, rfl, ⟨none, rfl⟩, ⟨_, rfl⟩⟩ rfl rfl
    (C96_metrics (env := orderEnv) scipy_names _).2.2 (C96_metrics (env := orderEnv) scipy_names _).1 (C100_metrics (env := orderEnv) scipy_names _).1 (order_inputs _) (order_inputs _)
    (order_inputs _) (order_inputs _) (by simp [exampleCrystals]) hC0 hC⟩

end Amd
