import Verif.Props.ReadFirst
import Verif.Props.PairsExample

/-!
# Examples for C104
-/

namespace Amd

open Classical

/-- The example file read with `remove_hydrogens` and compared by PDD with `n_jobs`, against its three crystals compared with `n_jobs` alone. -/
example (fuel : ℕ) : compare exampleEnv (.one (.str "data.cif")) none { by_ := "PDD" } [("remove_hydrogens", .bool true), ("n_jobs", .int 4)] fuel =
    compare exampleEnv (asSets exampleCrystals) none { by_ := "PDD" } [("n_jobs", .int 4)] fuel := by
  have h := C104_read_first (env := exampleEnv) (args := { by_ := "PDD" }) (kwargs := [("remove_hydrogens", .bool true), ("n_jobs", .int 4)]) (example_collections _ rfl _).1 fuel
  have e : withoutReading [("remove_hydrogens", .bool true), ("n_jobs", .int 4)] = [("n_jobs", .int 4)] := by simp [withoutReading, readingKeys]
  rw [e] at h
  exact h

/-- A set against a file. -/
example (fuel : ℕ) : compare exampleEnv (.one (.pset renamedThird)) (some (.one (.str "data.cif"))) { nNeighbors := some 2 } [("reader", .str "ase")] fuel =
    compare exampleEnv (asSets [renamedThird]) (some (asSets exampleCrystals)) { nNeighbors := some 2 } [] fuel := by
  have h := C104_read_first (env := exampleEnv) (args := { nNeighbors := some 2 }) (kwargs := [("reader", .str "ase")]) (example_collections _ rfl _).2 fuel
  have e : withoutReading [("reader", .str "ase")] = [] := by simp [withoutReading, readingKeys]
  rw [e] at h
  exact h

/-- The three crystals with themselves, by AMD and by PDD. -/
example : (∃ (M : List (List ℝ)) (F : ℕ), ∀ fuel ≥ F, compare exampleEnv (.one (.str "data.cif")) none {} [] fuel = .ok (.matrix ["a", "b", "c"] ["a", "b", "c"] M) ∧
      compare exampleEnv (.one (.str "data.cif")) (some (.one (.str "data.cif"))) {} [] fuel = .ok (.matrix ["a", "b", "c"] ["a", "b", "c"] M)) ∧
    ∃ (M : List (List ℝ)) (F : ℕ), ∀ fuel ≥ F, compare exampleEnv (.one (.str "data.cif")) none { by_ := "PDD" } [] fuel = .ok (.matrix ["a", "b", "c"] ["a", "b", "c"] M) ∧
      compare exampleEnv (.one (.str "data.cif")) (some (.one (.str "data.cif"))) { by_ := "PDD" } [] fuel = .ok (.matrix ["a", "b", "c"] ["a", "b", "c"] M) :=
  ⟨C104_twice_amd (env := exampleEnv) (args := {}) (kwargs := []) (example_inputs _) exampleCrystals_valid (by rfl) rfl (metric := .named "chebyshev") rfl (Or.inl rfl) (EMD_default_metric _),
    C104_twice_pdd (env := exampleEnv) (args := { by_ := "PDD" }) (kwargs := []) exampleEnv_sound.sched (example_inputs _) exampleCrystals_valid (by rfl) rfl (metric := .named "chebyshev")
      PddOptions.default (EMD_default_metric _) (fun c hc => by
        simp only [exampleCrystals, List.mem_cons, List.not_mem_nil, or_false] at hc
        rcases hc with rfl | rfl | rfl <;> simp [exampleSet, exampleAsym])⟩

end Amd
