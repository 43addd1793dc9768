import Verif.Props.Metrics
import Verif.Props.CifCompareExample
import Verif.Props.AllSitesCompareExample
import Verif.Props.CommandLineExample

/-!
# Examples of other metrics
-/

namespace Amd

open Classical

/-- The distances of scipy. -/
noncomputable def scipyOther (s : String) : List ℝ → List ℝ → ℝ := if s = "euclidean" then euclidean else if s = "cityblock" then cityblock else chebyshev

theorem scipy_names : ScipyNames scipyOther := ⟨if_pos rfl, (if_neg (by decide)).trans (if_pos rfl)⟩

/-- The distances differ. -/
example : chebyshev [3, 4] [0, 0] = (4 : ℝ) ∧ euclidean [3, 4] [0, 0] = 5 ∧ cityblock [3, 4] [0, 0] = 7 := by
  refine ⟨by norm_num [chebyshev], ?_, by norm_num [cityblock]⟩
  rw [euclidean, show (List.zipWith (fun a b => (a - b) ^ 2) [3, 4] [0, 0]).sum = (5 : ℝ) ^ 2 by norm_num, Real.sqrt_sq (by norm_num)]

/-- As `cifEnv`, with these distances. -/
noncomputable def metricEnv : Env := { cifEnv with other := scipyOther }

/-- `'cityblock'` adds the differences. -/
example : (MetricArg.named "cityblock").dist metricEnv.other [3, 4] [0, 0] = 7 := by
  rw [(C96_names (env := metricEnv) scipy_names).2.1]
  norm_num [cityblock]

/-- Options of the example. -/
def metricKwargs (metric : String) : Kwargs := [("remove_hydrogens", .bool true), ("metric", .str metric)]

theorem metric_reads (metric : String) : ReadsInputs metricEnv exampleBackends ⟨[], []⟩ (metricKwargs metric) (cifOptions "gemmi") :=
  ⟨rfl, rfl, (fun x hx => (by cases hx)), ⟨rfl, rfl, rfl, rfl, rfl, rfl⟩, Or.inl rfl⟩

/-- `compare('a.cif', 'b.cif', by='AMD', remove_hydrogens=True, metric='euclidean')` finds distance 0. -/
example : ∃ (M : List (List ℝ)) (F : ℕ), IsMatrix 1 1 (fun _ _ => 0) M ∧ ∀ fuel ≥ F,
    compare metricEnv (.one (.str "a.cif")) (some (.one (.str "b.cif"))) {} (metricKwargs "euclidean") fuel = .ok (.matrix ["screw"] ["image"] M) := by
  obtain ⟨M, f, F, hM, h1, h2⟩ := C96_amd_two_partial (args := {}) (metric_reads "euclidean") (by decide +kernel) rfl (metric := .named "euclidean") rfl rfl
    (C96_metrics (env := metricEnv) scipy_names _).1.self (holds_a (by simp)) (holds_b (by simp)) (by simpa using screw_proper) (by simpa using image_proper) (by simp) (by simp)
  have h0 := (h2 0 0 (by simp) (by simp) (screw_shaped rfl _) (screw_shaped rfl _)).2 screw_same
  refine ⟨M, F, ⟨hM.1, hM.2.1, fun i j hi hj => ?_⟩, h1⟩
  rw [hM.2.2 i j hi hj]
  obtain rfl : i = 0 := by omega
  obtain rfl : j = 0 := by omega
  rw [h0]

/-- By PDD, with the Euclidean distance of rows, the distance is at most 0.008. -/
example : ∃ (x : ℝ) (M : List (List ℝ)) (F : ℕ), IsMatrix 1 1 (fun _ _ => x) M ∧ 0 ≤ x ∧ x ≤ 8 / 1000 ∧ ∀ fuel ≥ F,
    compare metricEnv (.one (.str "a.cif")) (some (.one (.str "b.cif"))) { by_ := "PDD" } (metricKwargs "euclidean") fuel = .ok (.matrix ["screw"] ["image"] M) := by
  have hL : √((100 : ℕ) : ℝ) = 10 := by
    rw [show ((100 : ℕ) : ℝ) = 10 ^ 2 by norm_num, Real.sqrt_sq (by norm_num)]
  obtain ⟨M, f, F, hM, h1, h2⟩ := C96_pdd_two_partial (args := { by_ := "PDD" }) (metric_reads "euclidean") exampleEnv_sound.sched (by decide +kernel) rfl (metric := .named "euclidean")
    (C96_metrics (env := metricEnv) scipy_names _).1 (tol := 1 / 10000) (by norm_num) ⟨rfl, rfl, ⟨none, rfl⟩, ⟨_, rfl⟩⟩
    (holds_a (by simp)) (holds_b (by simp)) (by simpa using screw_proper) (by simpa using image_proper) (by simp) (by simp) rfl
  obtain ⟨h0, h3⟩ := (h2 0 0 (by simp) (by simp) (screw_shaped rfl _) (screw_shaped rfl _) _ rfl).2 screw_same
  refine ⟨f 0 0, M, F, ⟨hM.1, hM.2.1, fun i j hi hj => ?_⟩, h0, h3.trans ?_, h1⟩
  · rw [hM.2.2 i j hi hj]
    obtain rfl : i = 0 := by omega
    obtain rfl : j = 0 := by omega
    rfl
  · have hsz : max screwDesc.size imageDesc.size ≤ 2 := max_le (size_le ⟨_, rfl⟩ rfl) (size_le ⟨_, rfl⟩ rfl)
    have e1 : (screwDesc.cell.a : ℝ) = 4 := by norm_num [screwDesc, screwNumbers]
    have e2 : (imageDesc.cell.a : ℝ) = 4 := by norm_num [imageDesc, screwNumbers]
    have := emdTol_mono hsz (C := 10 * (100 * 4)) (by norm_num)
    simp only [List.getElem_cons_zero, e1, e2, max_self, hL]
    have hc : (kwOr (metricKwargs "euclidean") "collapse" (.bool true)).truthy = true := rfl
    rw [if_pos hc]
    refine (add_le_add_right (by exact_mod_cast this) _).trans ?_
    norm_num [emdTol]

/-- As `pairEnv`, with these distances. -/
noncomputable def metricPairEnv : Env := { pairEnv with other := scipyOther }

/-- The hypotheses for `disorder='all_sites'` can be met as well. -/
theorem metric_pair_reads (reader : String) : ReadsAllSites metricPairEnv pairBackends ⟨[], []⟩ (("metric", .str "cityblock") :: mixedKwargs reader) (allOptions reader) :=
  ⟨rfl, rfl, (fun x hx => (by cases hx)), ⟨rfl, rfl, rfl, rfl, rfl, rfl⟩, rfl, rfl⟩

/-- `compare('mixed.cif', 'twice.cif', metric='cityblock', remove_hydrogens=True, disorder='all_sites', reader=reader)` finds distance 0. -/
example {reader : String} (hr : reader ∈ ["gemmi", "ase", "pycodcif", "pymatgen", "ccdc"]) : ∃ F, ∀ fuel ≥ F,
    compare metricPairEnv (.one (.str "mixed.cif")) (some (.one (.str "twice.cif"))) {} (("metric", .str "cityblock") :: mixedKwargs reader) fuel = .ok (.matrix ["mixed"] ["twice"] [[0]]) := by
  obtain ⟨M, f, F, hM, h1, h2⟩ := C96_sites_amd_two_partial (args := {}) (metric_pair_reads reader) (by decide +kernel) rfl (metric := .named "cityblock") rfl rfl
    (C96_metrics (env := metricPairEnv) scipy_names _).2.1.self (pair_mixed hr) (pair_twice hr)
    (by simpa using mixed_comparable) (by simpa using twice_comparable) (by simp) (by simp)
  have h0 := (h2 0 0 (by simp) (by simp) (mixed_shaped _) (twice_shaped _)).2 mixed_same
  refine ⟨F, fun fuel hf => ?_⟩
  rw [h1 fuel hf, matrix_one hM, h0]
  rfl

/-- `amd --remove_h a.cif b.cif --metric=cityblock`. -/
theorem metric_line : CommandLine [.removeHydrogens, .metric "cityblock"] ["a.cif", "b.cif"] ["--remove_h", "a.cif", "b.cif", "--metric" ++ "=" ++ "cityblock"] := by
  refine ⟨.inl ⟨[.removeHydrogens], [.metric "cityblock"], ["--remove_h"], ["--metric" ++ "=" ++ "cityblock"], rfl, ?_, ?_, ?_, by simp, rfl⟩, by decide⟩
  · exact .cons (s := .removeHydrogens) (v := none) rfl (.flag "--remove_h" ⟨by decide +kernel, by decide +kernel, by decide +kernel⟩) .nil
  · exact .cons (s := .metric "cityblock") (v := some "cityblock") rfl (.joined "--metric" "cityblock" (abbreviates_long ⟨_, by decide, rfl⟩) (by decide)) .nil
  · intro p hp
    refine Or.inl ?_
    revert p
    decide +kernel

/-- It writes a matrix with a zero. -/
example : ∃ (M : List (List ℝ)) (F : ℕ), M = [[0]] ∧ ∀ fuel ≥ F, cliRun metricEnv (fun f => f == "csv") ["--remove_h", "a.cif", "b.cif", "--metric=cityblock"] fuel =
    .ok { frame := .matrix ["screw"] ["image"] M, path := (settingsArgs [.removeHydrogens, .metric "cityblock"] ["a.cif", "b.cif"]).output, format := "csv" } := by
  obtain ⟨M, f, F, hM, h1, h2⟩ := C96_command_amd_partial (env := metricEnv) (B := exampleBackends) (w := ⟨[], []⟩) (formats := fun f => f == "csv") metric_line rfl
    ⟨rfl, rfl, (fun x hx => (by cases hx)), Or.inl rfl⟩ rfl rfl (C96_metrics (env := metricEnv) scipy_names _).2.1.self rfl
    (holds_a (reader := "gemmi") (by simp)) (holds_b (reader := "gemmi") (by simp)) (by simpa using screw_proper) (by simpa using image_proper) (by simp) (by simp)
  have h0 := (h2 0 0 (by simp) (by simp) (screw_shaped rfl _) (screw_shaped rfl _)).2 screw_same
  have hM0 : M = [[0]] := by
    obtain ⟨m1, m2, m3⟩ := hM
    have m3 := m3 0 0 (by simp) (by simp)
    obtain ⟨r, rfl⟩ := List.length_eq_one_iff.1 m1
    obtain ⟨x, rfl⟩ := List.length_eq_one_iff.1 (m2 r (by simp))
    rw [h0] at m3
    simp at m3
    rw [m3]
  exact ⟨M, F, hM0, h1⟩

end Amd
