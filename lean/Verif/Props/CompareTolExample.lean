import Verif.Props.CompareTol
import Verif.Props.ReorderedPdd

/-!
# Examples for C111
-/

namespace Amd

theorem plainCrystals_plain : ∀ c ∈ plainCrystals, c.Plain := by
  intro c hc
  simp only [plainCrystals, List.mem_cons, List.not_mem_nil, or_false] at hc
  rcases hc with rfl | rfl <;> rfl

theorem plain_inputs (r : Routed) : getCrystals orderEnv false r (.many (plainCrystals.map .pset)) = .ok plainCrystals := rfl

/-- A bound for the AMDs of finitely many crystals. -/
theorem amds_bounded (k : ℕ) : ∀ cs : List Crystal, ∃ C : ℝ, 0 ≤ C ∧ ∀ c ∈ cs, ∀ fuel a, AMD c.set k fuel = .ok a → ∀ x ∈ a, x ≤ C := by
  intro cs
  induction cs with
  | nil => exact ⟨0, le_rfl, by simp⟩
  | cons c cs ih =>
    obtain ⟨C, h0, h⟩ := ih
    by_cases hex : ∃ fuel a, AMD c.set k fuel = .ok a
    · obtain ⟨f, a, ha⟩ := hex
      obtain ⟨B, hB⟩ := Finset.exists_le a.toFinset
      refine ⟨max C B, h0.trans (le_max_left _ _), fun d hd fuel b hb x hx => ?_⟩
      rcases List.mem_cons.1 hd with rfl | hd
      · have e1 := AMD_fuel (le_max_left f fuel) ha
        rw [AMD_fuel (le_max_right f fuel) hb] at e1
        obtain rfl := Except.ok.inj e1
        exact (hB x (List.mem_toFinset.2 hx)).trans (le_max_right _ _)
      · exact (h d hd fuel b hb x hx).trans (le_max_left _ _)
    · refine ⟨C, h0, fun d hd fuel b hb x hx => ?_⟩
      rcases List.mem_cons.1 hd with rfl | hd
      · exact absurd ⟨fuel, b, hb⟩ hex
      · exact h d hd fuel b hb x hx

/-- C111_nothing: the tolerance `nan`, nearest neighbours by PDD. -/
example (fuel : ℕ) : compareTol orderEnv (.one (.str "data.cif")) none { by_ := "PDD", nNeighbors := some 1 } .nan [] fuel =
    compare orderEnv (.one (.str "data.cif")) none { by_ := "PDD", nNeighbors := some 1 } [("collapse", .bool false), ("collapse_tol", .float 0)] fuel :=
  C111_nothing (Or.inl rfl) 0 fuel

/-- C111_inf. -/
example : ∃ T F, ∀ t ≥ T, ∀ fuel ≥ F, compareTol orderEnv (.one (.str "data.cif")) none { by_ := "PDD" } .inf [] fuel =
    compare orderEnv (.one (.str "data.cif")) none { by_ := "PDD" } [("collapse_tol", .float t)] fuel := by
  refine C111_inf (args := { by_ := "PDD" }) fun i hi cs hcs => ?_
  rw [show i = .one (.str "data.cif") by simpa using hi, order_inputs] at hcs
  obtain rfl := Except.ok.inj hcs
  exact exampleCrystals_valid

/-- C111_amd_one. -/
example : ∃ (C : ℝ) (M N : List (List ℝ)) (f g : ℕ → ℕ → ℝ) (F : ℕ), IsMatrix 2 2 f M ∧ IsMatrix 2 2 g N ∧ (∀ fuel ≥ F,
      compare orderEnv (.many (plainCrystals.map .pset)) none {} [] fuel = .ok (.matrix ["a", "c"] ["a", "c"] M) ∧
      compareTol orderEnv (.many (plainCrystals.map .pset)) none { by_ := "PDD" } .inf [] fuel = .ok (.matrix ["a", "c"] ["a", "c"] N)) ∧
    ∀ i < 2, ∀ j < 2, |g i j - f i j| ≤ emdTol 1 (1 * C) := by
  obtain ⟨C, hC0, hC⟩ := amds_bounded 100 plainCrystals
  exact ⟨C, C111_amd_one (env := orderEnv) (args := {}) (args' := { by_ := "PDD" }) (kwargs := []) exampleEnv_sound.sched plainCrystals_valid plainCrystals_plain rfl (by rfl) (by rfl) rfl rfl
    PddOptions.default rfl rfl (C96_metrics (env := orderEnv) scipy_names _).2.2 (plain_inputs _) (plain_inputs _) (by simp [plainCrystals]) hC0 hC⟩

/-- C111_amd_two, by the Euclidean metric. -/
example : ∃ (C : ℝ) (M N : List (List ℝ)) (f g : ℕ → ℕ → ℝ) (F : ℕ), IsMatrix 2 2 f M ∧ IsMatrix 2 2 g N ∧ (∀ fuel ≥ F,
      compare orderEnv (.many (plainCrystals.map .pset)) (some (.many (plainCrystals.map .pset))) {} [("metric", .str "euclidean")] fuel = .ok (.matrix ["a", "c"] ["a", "c"] M) ∧
      compareTol orderEnv (.many (plainCrystals.map .pset)) (some (.many (plainCrystals.map .pset))) { by_ := "PDD" } .inf [("metric", .str "euclidean")] fuel =
        .ok (.matrix ["a", "c"] ["a", "c"] N)) ∧
    ∀ i < 2, ∀ j < 2, |g i j - f i j| ≤ emdTol 1 (√(100 : ℕ) * C) := by
  obtain ⟨C, hC0, hC⟩ := amds_bounded 100 (plainCrystals ++ plainCrystals)
  exact ⟨C, C111_amd_two (env := orderEnv) (args := {}) (args' := { by_ := "PDD" }) (kwargs := [("metric", .str "euclidean")]) (tol := 1 / 10000) exampleEnv_sound.sched
    (fun c hc => plainCrystals_valid c (by simpa using hc)) (fun c hc => plainCrystals_plain c (by simpa using hc)) rfl (by rfl) (by rfl) rfl rfl
    (metric := .named "euclidean") ⟨rfl, rfl, ⟨none, rfl⟩, ⟨_, rfl⟩⟩ rfl rfl (C96_metrics (env := orderEnv) scipy_names _).1 (plain_inputs _) (plain_inputs _) (plain_inputs _) (plain_inputs _)
    (by simp [plainCrystals]) hC0 hC⟩

end Amd
