import Verif.Props.Moved

/-!
# Examples for C109
-/

namespace Amd

open Classical

/-- A quarter turn in the plane, and a scaling by `s`. -/
noncomputable def turnBy (s : ℝ) : Pt 2 ℝ →ₗ[ℝ] Pt 2 ℝ where
  toFun p := ![-(s * p 1), s * p 0]
  map_add' p q := by ext i; fin_cases i <;> simp <;> ring
  map_smul' a p := by ext i; fin_cases i <;> simp <;> ring

theorem turnBy_length (s : ℝ) (p : Pt 2 ℝ) : ∑ j, turnBy s p j ^ 2 = s ^ 2 * ∑ j, p j ^ 2 := by
  simp [turnBy, Fin.sum_univ_two]
  ring

/-- The crystals of the example, each turned, scaled and shifted differently. -/
noncomputable def movedCrystals (s : ℝ) : List Crystal :=
  [⟨"a", 2, exampleSet.image (turnBy s) ![1, 5]⟩, ⟨"b", 2, exampleAsym.image (turnBy s) ![0, 1 / 3]⟩, ⟨"c", 2, { exampleSet with motif := [![0, 0]] }.image (turnBy s) ![-1, 7]⟩]

theorem movedCrystals_moved (s : ℝ) : List.Forall₂ (Crystal.Moved s) exampleCrystals (movedCrystals s) :=
  .cons ⟨"a", turnBy s, ![1, 5], turnBy_length s, rfl⟩ (.cons ⟨"b", turnBy s, ![0, 1 / 3], turnBy_length s, rfl⟩ (.cons ⟨"c", turnBy s, ![-1, 7], turnBy_length s, rfl⟩ .nil))

/-- The moved crystals passed as a list of `PeriodicSet`s. -/
noncomputable def movedInput (s : ℝ) : Input := .many ((movedCrystals s).map .pset)

theorem moved_inputs (r : Routed) (s : ℝ) : getCrystals orderEnv false r (movedInput s) = .ok (movedCrystals s) := rfl

/-- C109_rigid: nearest neighbours by PDD, and a comparison with the crystals that were not moved. -/
example (fuel : ℕ) : compare orderEnv (movedInput 1) none { by_ := "PDD", nNeighbors := some 2 } [] fuel = compare orderEnv (.one (.str "data.cif")) none { by_ := "PDD", nNeighbors := some 2 } [] fuel :=
  (C109_rigid (args := { by_ := "PDD", nNeighbors := some 2 }) (Or.inr (by rfl)) (movedCrystals_moved 1) rfl (order_inputs _) (moved_inputs _ 1) fuel).1

/-- C109_rigid with two collections by AMD, both moved. -/
example (fuel : ℕ) : compare orderEnv (movedInput 1) (some (movedInput 1)) {} [("metric", .str "euclidean")] fuel =
    compare orderEnv (.one (.str "data.cif")) (some (.one (.str "data.cif"))) {} [("metric", .str "euclidean")] fuel :=
  (C109_rigid (args := {}) (Or.inl (by rfl)) (movedCrystals_moved 1) rfl (order_inputs _) (moved_inputs _ 1) fuel).2 _ _ _ _ (movedCrystals_moved 1) rfl (order_inputs _) (moved_inputs _ 1)

/-- C109_reordered: a motif of two points listed backwards. -/
example (fuel : ℕ) : compare orderEnv (.one (.pset ⟨"a", 2, { exampleSet with motif := [![3 / 2, 1], ![0, 0]] }⟩)) none {} [] fuel = compare orderEnv (.one (.pset ⟨"a", 2, exampleSet⟩)) none {} [] fuel :=
  (C109_reordered (env := orderEnv) (args := {}) (kwargs := []) (cs := [⟨"a", 2, exampleSet⟩]) (ms := [⟨"a", 2, { exampleSet with motif := [![3 / 2, 1], ![0, 0]] }⟩]) (by rfl)
    (.cons ⟨"a", [![3 / 2, 1], ![0, 0]], by norm_num, by simp [exampleSet], List.Perm.swap _ _ _, rfl, rfl⟩ .nil) rfl rfl rfl fuel).1

/-- C109_amd_two: twice as large, by the Euclidean metric. -/
example : ∃ (M N : List (List ℝ)) (f : ℕ → ℕ → ℝ) (F : ℕ), IsMatrix 3 3 f M ∧ IsMatrix 3 3 (fun i j => 2 * f i j) N ∧ ∀ fuel ≥ F,
    compare orderEnv (.one (.str "data.cif")) (some (.one (.str "data.cif"))) {} [("metric", .str "euclidean")] fuel = .ok (.matrix ["a", "b", "c"] ["a", "b", "c"] M) ∧
    compare orderEnv (movedInput 2) (some (movedInput 2)) {} [("metric", .str "euclidean")] fuel = .ok (.matrix ["a", "b", "c"] ["a", "b", "c"] N) :=
  C109_amd_two (args := {}) (by norm_num) exampleCrystals_valid exampleCrystals_valid (movedCrystals_moved 2) (movedCrystals_moved 2) (by rfl) rfl (metric := .named "euclidean") rfl rfl
    (C109_metrics (env := orderEnv) scipy_names _).2.1 (order_inputs _) (order_inputs _) (moved_inputs _ 2) (moved_inputs _ 2)

/-- C109_amd_one, with the default metric. -/
example : ∃ (M N : List (List ℝ)) (f : ℕ → ℕ → ℝ) (F : ℕ), IsMatrix 3 3 f M ∧ IsMatrix 3 3 (fun i j => 2 * f i j) N ∧ ∀ fuel ≥ F,
    compare orderEnv (.one (.str "data.cif")) none {} [] fuel = .ok (.matrix ["a", "b", "c"] ["a", "b", "c"] M) ∧
    compare orderEnv (movedInput 2) none {} [] fuel = .ok (.matrix ["a", "b", "c"] ["a", "b", "c"] N) :=
  C109_amd_one (args := {}) (kwargs := []) (by norm_num) exampleCrystals_valid (movedCrystals_moved 2) (by rfl) rfl (metric := .named "chebyshev") rfl rfl
    (C109_metrics (env := orderEnv) scipy_names _).1 (order_inputs _) (moved_inputs _ 2) (by simp [exampleCrystals])

/-- C109_pdd_one: the tolerance 1/10000 becomes 2/10000. -/
example : ∃ (n : ℕ) (C : ℝ) (M N : List (List ℝ)) (f g : ℕ → ℕ → ℝ) (F : ℕ), IsMatrix 3 3 f M ∧ IsMatrix 3 3 g N ∧ (∀ fuel ≥ F,
      compare orderEnv (.one (.str "data.cif")) none { by_ := "PDD" } [] fuel = .ok (.matrix ["a", "b", "c"] ["a", "b", "c"] M) ∧
      compare orderEnv (movedInput 2) none { by_ := "PDD" } [("collapse_tol", .float (2 * (1 / 10000)))] fuel = .ok (.matrix ["a", "b", "c"] ["a", "b", "c"] N)) ∧
    ∀ i < 3, ∀ j < 3, |g i j - 2 * f i j| ≤ emdTol n (1 * (2 * C)) + 2 * emdTol n (1 * C) := by
  obtain ⟨n, C, hC0, hC⟩ := C100_within [] (1 / 10000) 100 exampleCrystals
  exact ⟨n, C, C109_pdd_one (args := { by_ := "PDD" }) (args' := { by_ := "PDD" }) (env := orderEnv) (kwargs := []) (kwargs' := [("collapse_tol", .float (2 * (1 / 10000)))]) (by norm_num)
    exampleEnv_sound.sched exampleCrystals_valid (movedCrystals_moved 2) rfl (by rfl) (by rfl) rfl rfl (metric := .named "chebyshev") ⟨rfl, rfl, ⟨none, rfl⟩, ⟨_, rfl⟩⟩
    ⟨rfl, rfl, ⟨none, rfl⟩, ⟨_, rfl⟩⟩ rfl rfl (C96_metrics (env := orderEnv) scipy_names _).2.2 (C109_metrics (env := orderEnv) scipy_names _).1 (order_inputs _) (moved_inputs _ 2)
    (by simp [exampleCrystals]) hC0 hC⟩

/-- C109_pdd_two: half as large, by the city block metric. -/
example : ∃ (n : ℕ) (C : ℝ) (M N : List (List ℝ)) (f g : ℕ → ℕ → ℝ) (F : ℕ), IsMatrix 3 3 f M ∧ IsMatrix 3 3 g N ∧ (∀ fuel ≥ F,
      compare orderEnv (.one (.str "data.cif")) (some (.one (.str "data.cif"))) { by_ := "PDD" } [("metric", .str "cityblock")] fuel = .ok (.matrix ["a", "b", "c"] ["a", "b", "c"] M) ∧
      compare orderEnv (movedInput (1 / 2)) (some (movedInput (1 / 2))) { by_ := "PDD" } [("collapse_tol", .float (1 / 2 * (1 / 10000))), ("metric", .str "cityblock")] fuel =
        .ok (.matrix ["a", "b", "c"] ["a", "b", "c"] N)) ∧
    ∀ i < 3, ∀ j < 3, |g i j - 1 / 2 * f i j| ≤ emdTol n ((100 : ℕ) * (1 / 2 * C)) + 1 / 2 * emdTol n ((100 : ℕ) * C) := by
  obtain ⟨n, C, hC0, hC⟩ := C100_within [("metric", .str "cityblock")] (1 / 10000) 100 (exampleCrystals ++ exampleCrystals)
  exact ⟨n, C, C109_pdd_two (args := { by_ := "PDD" }) (args' := { by_ := "PDD" }) (env := orderEnv) (kwargs := [("metric", .str "cityblock")])
    (kwargs' := [("collapse_tol", .float (1 / 2 * (1 / 10000))), ("metric", .str "cityblock")]) (by norm_num)
    exampleEnv_sound.sched exampleCrystals_valid exampleCrystals_valid (movedCrystals_moved _) (movedCrystals_moved _) rfl (by rfl) (by rfl) rfl rfl (metric := .named "cityblock")
    ⟨rfl, rfl, ⟨none, rfl⟩, ⟨_, rfl⟩⟩ ⟨rfl, rfl, ⟨none, rfl⟩, ⟨_, rfl⟩⟩ rfl rfl (C96_metrics (env := orderEnv) scipy_names _).2.1 (C109_metrics (env := orderEnv) scipy_names _).2.2
    (order_inputs _) (order_inputs _) (moved_inputs _ _) (moved_inputs _ _) (by simp [exampleCrystals]) hC0 hC⟩

end Amd
