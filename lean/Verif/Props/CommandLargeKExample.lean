import Verif.Props.CommandLargeK
import Verif.Props.MetricsExample
import Verif.Props.AllSitesCompareExample

/-!
# The command line for all cells: examples
-/

namespace Amd

open Classical

/-- Every positive number can be written. -/
theorem digits_of (k : ℕ) (hk : 0 < k) : ∃ ds : List (Fin 10), ds ≠ [] ∧ digitsValue ds = k := by
  refine ⟨((Nat.digits 10 k).map fun d => Fin.ofNat 10 d).reverse, ?_, ?_⟩
  · simpa [Nat.digits_ne_nil_iff_ne_zero] using hk.ne'
  · rw [digitsValue, List.reverse_reverse, List.map_map]
    have : (Nat.digits 10 k).map (Fin.val ∘ fun d => Fin.ofNat 10 d) = Nat.digits 10 k := by
      conv_rhs => rw [← List.map_id (Nat.digits 10 k)]
      refine List.map_congr_left fun d hd => ?_
      simpa using Nat.digits_lt_base (by norm_num) hd
    rw [this, Nat.ofDigits_digits]

/-- The options of the command lines below. -/
def largeSettings (b : String) (k : ℕ) : List Setting := [.removeHydrogens, .metric "cityblock", .by_ b, .k k]

/-- `amd --remove_h a.cif b.cif --metric=cityblock --by=PDD --k=1000`, and so on. -/
def largeLine (paths : List String) (b t : String) : List String := ["--remove_h"] ++ paths ++ ["--metric" ++ "=" ++ "cityblock", "--by" ++ "=" ++ b, "--k" ++ "=" ++ t]

theorem large_line {paths : List String} {b : String} (hp : ∀ p ∈ paths, p.toList.head? ≠ some '-') (hne : paths ≠ []) (hb : b ∈ ["AMD", "PDD"]) {ds : List (Fin 10)} (hd : ds ≠ []) :
    CommandLine (largeSettings b (digitsValue ds)) paths (largeLine paths b (String.ofList (ds.map digitText))) := by
  refine ⟨.inl ⟨[.removeHydrogens], [.metric "cityblock", .by_ b, .k (digitsValue ds)], ["--remove_h"], _, rfl, ?_, ?_, fun p h => Or.inl (hp p h), hne, rfl⟩, by simp [settingsK, largeSettings]⟩
  · exact .cons (s := .removeHydrogens) (v := none) rfl (.flag "--remove_h" ⟨by decide +kernel, by decide +kernel, by decide +kernel⟩) .nil
  · refine .cons (s := .metric "cityblock") (v := some "cityblock") rfl (.joined "--metric" "cityblock" (abbreviates_long ⟨_, by decide, rfl⟩) (by decide))
      (.cons (s := .by_ b) (v := some b) ⟨rfl, hb⟩ (.joined "--by" b (abbreviates_long ⟨_, by decide, rfl⟩) ?_)
        (.cons (s := .k (digitsValue ds)) (v := some (String.ofList (ds.map digitText))) ⟨_, rfl, .none, ds, hd, rfl, by simp [Sign.value]⟩
          (.joined "--k" _ (abbreviates_long ⟨_, by decide, rfl⟩) ?_) .nil))
    · rintro rfl
      revert hb
      decide
    · intro h
      have h := congrArg String.toList h
      rw [String.toList_ofList] at h
      obtain ⟨d, ds, rfl⟩ := List.exists_cons_of_ne_nil hd
      have h0 := (List.cons.inj (h.trans (show "--".toList = ['-', '-'] by decide +kernel))).1
      exact (show ∀ d : Fin 10, digitText d ≠ '-' by decide) d h0

theorem large_runs (paths : List String) (b : String) (k : ℕ) : RunsWith metricEnv exampleBackends ⟨[], []⟩ (settingsArgs (largeSettings b k) paths) :=
  ⟨rfl, rfl, (fun x hx => (by cases hx)), Or.inl rfl⟩

/-- Whatever the cells, for all large `k`, by the city block metric: the command finds distance 0 for the two files of the same crystal by AMD, and hardly more by PDD; and it writes the matrix of one file. -/
example : ∃ k₀, ∀ k ≥ k₀, ∃ ds : List (Fin 10), digitsValue ds = k ∧
    (∃ F, ∀ fuel ≥ F, cliRun metricEnv (fun f => f == "csv") (largeLine ["a.cif", "b.cif"] "AMD" (String.ofList (ds.map digitText))) fuel =
      .ok { frame := .matrix ["screw"] ["image"] [[0]], path := (settingsArgs (largeSettings "AMD" k) ["a.cif", "b.cif"]).output, format := "csv" }) ∧
    (∃ (x : ℝ) (F : ℕ), 0 ≤ x ∧ x ≤ 4 * k * (1 / 10000) + emdTol (max screwDesc.size imageDesc.size) (k * (k * max (screwDesc.cell.a : ℝ) imageDesc.cell.a)) ∧ ∀ fuel ≥ F,
      cliRun metricEnv (fun f => f == "csv") (largeLine ["a.cif", "b.cif"] "PDD" (String.ofList (ds.map digitText))) fuel =
        .ok { frame := .matrix ["screw"] ["image"] [[x]], path := (settingsArgs (largeSettings "PDD" k) ["a.cif", "b.cif"]).output, format := "csv" }) ∧
    (∃ F, ∀ fuel ≥ F, cliRun metricEnv (fun f => f == "csv") (largeLine ["a.cif"] "AMD" (String.ofList (ds.map digitText))) fuel =
      .ok { frame := .matrix ["screw"] ["screw"] [[0]], path := (settingsArgs (largeSettings "AMD" k) ["a.cif"]).output, format := "csv" }) ∧
    ∃ (x : ℝ) (F : ℕ), 0 ≤ x ∧ ∀ fuel ≥ F, cliRun metricEnv (fun f => f == "csv") (largeLine ["a.cif"] "PDD" (String.ofList (ds.map digitText))) fuel =
      .ok { frame := .matrix ["screw"] ["screw"] [[x]], path := (settingsArgs (largeSettings "PDD" k) ["a.cif"]).output, format := "csv" } := by
  have hp : ∀ e ∈ [screwDesc], e.Proper := by simpa using screw_proper
  have hp' : ∀ e ∈ [imageDesc], e.Proper := by simpa using image_proper
  have tame : ∀ k : ℕ, TameMetric k k ((MetricArg.named "cityblock").dist metricEnv.other) := fun k => (C96_metrics (env := metricEnv) scipy_names k).2.1
  have o2 : ∀ p ∈ ["a.cif", "b.cif"], p.toList.head? ≠ some '-' := by decide +kernel
  have o1 : ∀ p ∈ ["a.cif"], p.toList.head? ≠ some '-' := by decide +kernel
  have self : DescribeSame screwDesc screwDesc := same_of rfl rfl rfl
  obtain ⟨k₁, h₁⟩ := C96_command_amd_two_large_k_partial hp hp' (by simp) (by simp)
  obtain ⟨k₂, h₂⟩ := C96_command_pdd_two_large_k_partial hp hp' (by simp) (by simp)
  obtain ⟨k₃, h₃⟩ := C96_command_amd_large_k_partial hp (by simp)
  obtain ⟨k₄, h₄⟩ := C96_command_pdd_large_k_partial hp (by simp)
  refine ⟨k₁ + k₂ + k₃ + k₄ + 1, fun k hk => ?_⟩
  obtain ⟨ds, hd, rfl⟩ := digits_of k (by omega)
  refine ⟨ds, rfl, ?_, ?_, ?_, ?_⟩
  · obtain ⟨M, f, F, hM, h1, h2⟩ := h₁ metricEnv exampleBackends id ⟨[], []⟩ _ _ (fun f => f == "csv") "a.cif" "b.cif" _ (large_line o2 (by simp) (b := "AMD") (by simp) hd) rfl (large_runs _ _ _) rfl
      (show k₁ ≤ digitsValue ds by omega) rfl (tame _).toRowMetric.self rfl (holds_a (reader := "gemmi") (by simp)) (holds_b (reader := "gemmi") (by simp))
    refine ⟨F, fun fuel hf => ?_⟩
    rw [h1 fuel hf, matrix_one hM, (h2 0 0 (by simp) (by simp)).2 screw_same]
    rfl
  · obtain ⟨M, f, F, hM, h1, h2⟩ := h₂ metricEnv exampleBackends id ⟨[], []⟩ _ _ (fun f => f == "csv") "a.cif" "b.cif" _ _ (large_line o2 (by simp) (b := "PDD") (by simp) hd) rfl (large_runs _ _ _)
      exampleEnv_sound.sched rfl (show k₂ ≤ digitsValue ds by omega) (by norm_num [settingsArgs, largeSettings, Setting.apply]) (tame _) rfl (holds_a (reader := "gemmi") (by simp))
      (holds_b (reader := "gemmi") (by simp))
    obtain ⟨n1, n2⟩ := (h2 0 0 (by simp) (by simp) _ rfl).2 screw_same
    exact ⟨f 0 0, F, n1, n2, fun fuel hf => by rw [h1 fuel hf, matrix_one hM]; rfl⟩
  · obtain ⟨M, f, F, hM, h1, h2⟩ := h₃ metricEnv exampleBackends id ⟨[], []⟩ _ _ (fun f => f == "csv") "a.cif" _ (large_line o1 (by simp) (b := "AMD") (by simp) hd) rfl (large_runs _ _ _) rfl
      (show k₃ ≤ digitsValue ds by omega) rfl (tame _).toRowMetric.self (tame _).toRowMetric.symm rfl (holds_a (reader := "gemmi") (by simp))
    refine ⟨F, fun fuel hf => ?_⟩
    rw [h1 fuel hf, matrix_one hM, (h2 0 0 (by simp) (by simp)).2 self]
    rfl
  · obtain ⟨M, f, F, hM, h1, h2⟩ := h₄ metricEnv exampleBackends id ⟨[], []⟩ _ _ (fun f => f == "csv") "a.cif" _ _ (large_line o1 (by simp) (b := "PDD") (by simp) hd) rfl (large_runs _ _ _)
      exampleEnv_sound.sched rfl (show k₄ ≤ digitsValue ds by omega) (by norm_num [settingsArgs, largeSettings, Setting.apply]) (tame _) rfl (holds_a (reader := "gemmi") (by simp))
    exact ⟨f 0 0, F, ((h2 0 0 (by simp) (by simp) _ rfl).2 self).1, fun fuel hf => by rw [h1 fuel hf, matrix_one hM]; rfl⟩

end Amd
