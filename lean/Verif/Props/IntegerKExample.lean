import Verif.Props.IntegerK

/-!
# Examples for C101
-/

namespace Amd

/-- The integers on a line and 3 neighbours. -/
example (fuel : ℕ) : AMDInt wholeNumbers 3 fuel = AMD wholeNumbers 3 fuel ∧ PDDInt wholeNumbers 3 true true (1 / 10000) fuel = PDD wholeNumbers 3 true true (1 / 10000) fuel :=
  C101_natural (by norm_num) wholeNumbers_units wholeNumbers_ne 3 true true (1 / 10000) fuel

/-- `PDD` refuses -2, for which `AMD` returns a list (`C101_false`). -/
example : ∃ F, ∀ fuel ≥ F, PDDInt wholeNumbers (-2) true true (1 / 10000) fuel = .error .value :=
  C101_pdd (k := -2) (by norm_num) wholeNumbers_nonSingular wholeNumbers_units wholeNumbers_ne (by norm_num) true true (1 / 10000)

/-- The list has length `1 * (2 * 1 + 1) - 2 = 1`. -/
example : ∃ F, ∀ fuel ≥ F, AMDInt wholeNumbers (-2) fuel = .error .value ∨ ∃ a, AMDInt wholeNumbers (-2) fuel = .ok a ∧ (a.length : ℤ) = (2 * (1 : ℕ) + 1) * wholeNumbers.motif.length + -2 :=
  (C101_amd_partial (k := -2) (by norm_num) wholeNumbers_nonSingular wholeNumbers_units wholeNumbers_ne (by norm_num)).2.2

/-- From -4 on `AMD` refuses, too. -/
example : ∀ fuel, AMDInt wholeNumbers (-4) fuel = .error .value :=
  (C101_amd_partial (k := -4) (by norm_num) wholeNumbers_nonSingular wholeNumbers_units wholeNumbers_ne (by norm_num)).2.1 (by simp [wholeNumbers])

/-- `compare` of three crystals with `k=-1` by PDD, and with `k=-2` by AMD. -/
example : ∃ F, ∀ fuel ≥ F, compareInt exampleEnv (.one (.str "data.cif")) none { by_ := "PDD" } (-1) [] fuel = .error (.run .bounds) :=
  C101_compare (args := { by_ := "PDD" }) (kwargs := []) (k := -1) (by norm_num) (.inr (by rfl)) (tol := 1 / 10000) rfl exampleCrystals_valid (example_inputs _) (fun i h => by cases h)

example : ∃ F, ∀ fuel ≥ F, compareInt exampleEnv (.one (.str "data.cif")) (some (.one (.str "data.cif"))) {} (-2) [] fuel = .error (.run .value) :=
  C101_compare (args := {}) (kwargs := []) (k := -2) (by norm_num) (.inl (by rfl)) (tol := 1 / 10000) rfl exampleCrystals_valid (example_inputs _)
    (fun i h => by cases h; exact ⟨_, example_inputs _⟩)

end Amd
