import Verif.Props.ContinuousMetrics
import Verif.Props.MetricsExample
import Verif.Props.ContinuousExample
import Verif.Props.StrainExample

/-!
# Examples of nearly the same crystal, by other metrics
-/

namespace Amd

open Classical

/-- As `warmEnv`, with the distances of scipy. -/
noncomputable def warmMetricEnv : Env := { warmEnv with other := scipyOther }

/-- As `cifKwargs`, with a metric. -/
def cityKwargs : Kwargs := ("metric", .str "cityblock") :: cifKwargs "ccdc"

theorem warm_metric_reads : ReadsInputs warmMetricEnv warmBackends ⟨[], []⟩ cityKwargs (cifOptions "ccdc") :=
  ⟨rfl, rfl, (fun x hx => (by cases hx)), ⟨rfl, rfl, rfl, rfl, rfl, rfl⟩, Or.inl rfl⟩

theorem city_tame (env : Env) (h : env.other = scipyOther) (k : ℕ) : TameMetric k k ((MetricArg.named "cityblock").dist env.other) := (C96_metrics (env := env) (h ▸ scipy_names) k).2.1

/-- `compare('IMAGES', 'WARM', by='AMD', k=10, csd_refcodes=True, remove_hydrogens=True, metric='cityblock')` finds a distance of at most 0.7. -/
example : ∃ (x : ℝ) (F : ℕ), x ≤ 7 / 10 ∧ ∀ fuel ≥ F,
    compare warmMetricEnv (.one (.str "IMAGES")) (some (.one (.str "WARM"))) { k := 10, csdRefcodes := true } cityKwargs fuel = .ok (.matrix ["image"] ["warm"] [[x]]) := by
  obtain ⟨M, f, F, hM, h1, h2⟩ := C114_amd_partial (args := { k := 10, csdRefcodes := true }) warm_metric_reads (by decide +kernel) rfl (metric := .named "cityblock") rfl rfl
    (city_tame _ rfl _) warm_refcodes.1 warm_refcodes.2 (by simpa using image_proper) (by simpa using warm_proper) (by simp) (by simp)
  obtain ⟨a, ha, -⟩ := C83_amd_unique image_proper 10
  have h0 := ((h2 0 0 (by simp) (by simp) (screw_shaped rfl _) (warm_shaped _)).2.2 a ha _ (by norm_num)).2 _ warm_remeasured
  have h3 := (C93_last image_proper ha 9).2
  have h4 : min (imageDesc.cell.a : ℝ) (min imageDesc.cell.b imageDesc.cell.c) ≤ 4 := (min_le_left _ _).trans (by norm_num [imageDesc, screwNumbers])
  refine ⟨f 0 0, F, h0.trans ?_, fun fuel hf => by rw [h1 fuel hf, matrix_one hM]; rfl⟩
  norm_num at h3 ⊢
  linarith

/-- By PDD the distance is at most 0.71. -/
example : ∃ (x : ℝ) (F : ℕ), x ≤ 71 / 100 ∧ ∀ fuel ≥ F,
    compare warmMetricEnv (.one (.str "IMAGES")) (some (.one (.str "WARM"))) { by_ := "pdd", k := 10, csdRefcodes := true } cityKwargs fuel = .ok (.matrix ["image"] ["warm"] [[x]]) := by
  obtain ⟨M, f, F, hM, h1, h2⟩ := C114_pdd_partial (args := { by_ := "pdd", k := 10, csdRefcodes := true }) warm_metric_reads exampleEnv_sound.sched (by decide +kernel) rfl
    (metric := .named "cityblock") (city_tame _ rfl _) (tol := 1 / 10000) (by norm_num) ⟨rfl, rfl, ⟨none, rfl⟩, ⟨_, rfl⟩⟩ warm_refcodes.1 warm_refcodes.2
    (by simpa using image_proper) (by simpa using warm_proper) (by simp) (by simp) rfl
  obtain ⟨a, ha, -⟩ := C83_amd_unique image_proper 10
  have h0 := ((h2 0 0 (by simp) (by simp) (screw_shaped rfl _) (warm_shaped _) _ rfl).2.2 a ha _ (by norm_num)).2 _ warm_remeasured
  have h3 := (C93_last image_proper ha 9).2
  have h4 : min (imageDesc.cell.a : ℝ) (min imageDesc.cell.b imageDesc.cell.c) ≤ 4 := (min_le_left _ _).trans (by norm_num [imageDesc, screwNumbers])
  refine ⟨f 0 0, F, h0.trans ?_, fun fuel hf => by rw [h1 fuel hf, matrix_one hM]; rfl⟩
  have := emdTol_mono (max_le (size_le (e := imageDesc) ⟨_, rfl⟩ rfl) (size_le (e := warmDesc) ⟨_, rfl⟩ rfl)) (C := 10 * (10 * (4 + 1 / 2500))) (by norm_num)
  have e1 : (imageDesc.cell.a : ℝ) = 4 := by norm_num [imageDesc, screwNumbers]
  have e2 : (warmDesc.cell.a : ℝ) = 4 + 1 / 2500 := by norm_num [warmDesc, warmNumbers]
  have e3 : max (4 : ℝ) (4 + 1 / 2500) = 4 + 1 / 2500 := by norm_num
  simp only [List.getElem_cons_zero, e1, e2, e3]
  have hc : (kwOr cityKwargs "collapse" (.bool true)).truthy = true := rfl
  rw [if_pos hc]
  have h5 : emdTol 2 (10 * (10 * (4 + 1 / 2500))) ≤ 1 / 1000 := by norm_num [emdTol]
  have h6 := this.trans h5
  push_cast at h3 ⊢
  norm_num at h3 h6 ⊢
  linarith

/-- For all large `k` the distance is at most `k` times `η` times the last entry of the AMD, plus `2ε`. -/
example : ∃ k₀, ∀ k ≥ k₀, ∃ (x : ℝ) (F : ℕ), (∀ a, imageDesc.IsAMD k a → x ≤ k * (121 / 100000 * a.getD (k - 1) 0 + 2 * (1 / 100))) ∧ ∀ fuel ≥ F,
    compare warmMetricEnv (.one (.str "IMAGES")) (some (.one (.str "WARM"))) { k := k, csdRefcodes := true } cityKwargs fuel = .ok (.matrix ["image"] ["warm"] [[x]]) := by
  obtain ⟨k₀, h⟩ := C114_amd_large_k_partial (ds := [imageDesc]) (ds' := [warmDesc]) (by simpa using image_proper) (by simpa using warm_proper) (by simp) (by simp)
  refine ⟨k₀, fun k hk => ?_⟩
  obtain ⟨M, f, F, hM, h1, h2⟩ := h warmMetricEnv warmBackends id _ _ _ _ { k := k, csdRefcodes := true } cityKwargs (.named "cityblock") k warm_metric_reads
    (show upper "AMD" = "AMD" by decide +kernel) rfl hk rfl rfl (city_tame _ rfl _) warm_refcodes.1 warm_refcodes.2
  refine ⟨f 0 0, F, fun a ha => ?_, fun fuel hf => by rw [h1 fuel hf, matrix_one hM]; rfl⟩
  exact ((h2 0 0 (by simp) (by simp)).2.2.2.2 a ha _ (by norm_num)).2 _ warm_remeasured

/-- The same by PDD, up to the rounding of weights and the tolerance. -/
example : ∃ k₀, ∀ k ≥ k₀, ∃ (x : ℝ) (F : ℕ), (∀ a, imageDesc.IsAMD k a → x ≤ k * (121 / 100000 * a.getD (k - 1) 0 + 2 * (1 / 100)) +
      (4 * k * (1 / 10000) + emdTol (max imageDesc.size warmDesc.size) (k * (k * max (imageDesc.cell.a : ℝ) warmDesc.cell.a)))) ∧ ∀ fuel ≥ F,
    compare warmMetricEnv (.one (.str "IMAGES")) (some (.one (.str "WARM"))) { by_ := "PDD", k := k, csdRefcodes := true } cityKwargs fuel = .ok (.matrix ["image"] ["warm"] [[x]]) := by
  obtain ⟨k₀, h⟩ := C114_pdd_large_k_partial (ds := [imageDesc]) (ds' := [warmDesc]) (by simpa using image_proper) (by simpa using warm_proper) (by simp) (by simp)
  refine ⟨k₀, fun k hk => ?_⟩
  obtain ⟨M, f, F, hM, h1, h2⟩ := h warmMetricEnv warmBackends id _ _ _ _ { by_ := "PDD", k := k, csdRefcodes := true } cityKwargs (.named "cityblock") k (1 / 10000) true warm_metric_reads
    exampleEnv_sound.sched (show upper "PDD" = "PDD" by decide +kernel) rfl hk (city_tame _ rfl _) (by norm_num) ⟨rfl, rfl, ⟨none, rfl⟩, ⟨_, rfl⟩⟩ warm_refcodes.1 warm_refcodes.2 rfl
  refine ⟨f 0 0, F, fun a ha => ?_, fun fuel hf => by rw [h1 fuel hf, matrix_one hM]; rfl⟩
  exact ((h2 0 0 (by simp) (by simp) _ rfl).2.2.2.2 a ha _ (by norm_num)).2 _ warm_remeasured

/-! ### Overlapping sites -/

/-- As `splitEnv`, with the distances of scipy. -/
noncomputable def splitMetricEnv : Env := { splitEnv with other := scipyOther }

theorem split_metric_reads : ReadsAllSites splitMetricEnv splitBackends ⟨[], []⟩ (("metric", .str "cityblock") :: mixedKwargs "ccdc") (allOptions "ccdc") :=
  ⟨rfl, rfl, (fun x hx => (by cases hx)), ⟨rfl, rfl, rfl, rfl, rfl, rfl⟩, rfl, rfl⟩

/-- `compare('TWICE', 'SPLIT', k=k, csd_refcodes=True, remove_hydrogens=True, disorder='all_sites', metric='cityblock')` finds a distance of at most `0.02 * k`, for every `k`; and by PDD
with `k=10` at most 0.21. -/
example : (∀ k : ℕ, ∃ (x : ℝ) (F : ℕ), x ≤ k * (1 / 50) ∧ ∀ fuel ≥ F,
      compare splitMetricEnv (.one (.str "TWICE")) (some (.one (.str "SPLIT"))) { k := k, csdRefcodes := true } (("metric", .str "cityblock") :: mixedKwargs "ccdc") fuel =
        .ok (.matrix ["twice"] ["split"] [[x]])) ∧
    (∃ k₀ : ℕ, ∀ k ≥ k₀, ∃ (x : ℝ) (F : ℕ), x ≤ k * (1 / 50) ∧ ∀ fuel ≥ F,
      compare splitMetricEnv (.one (.str "TWICE")) (some (.one (.str "SPLIT"))) { k := k, csdRefcodes := true } (("metric", .str "cityblock") :: mixedKwargs "ccdc") fuel =
        .ok (.matrix ["twice"] ["split"] [[x]])) ∧
    ∃ (x : ℝ) (F : ℕ), x ≤ 21 / 100 ∧ ∀ fuel ≥ F,
      compare splitMetricEnv (.one (.str "TWICE")) (some (.one (.str "SPLIT"))) { by_ := "PDD", k := 10, csdRefcodes := true } (("metric", .str "cityblock") :: mixedKwargs "ccdc") fuel =
        .ok (.matrix ["twice"] ["split"] [[x]]) := by
  have hi : InputHoldsAll splitBackends id (allOptions "ccdc") (.one (.str "TWICE")) [twiceDesc] true :=
    .refcodes ["TWICE"] [some twiceDesc] (.one "TWICE") ⟨splitCcdc, rfl, ["TWICE"], rfl, .cons ⟨_, rfl, by rw [if_pos rfl]; exact twice_ccdc⟩ .nil⟩ rfl
  have hi' : InputHoldsAll splitBackends id (allOptions "ccdc") (.one (.str "SPLIT")) [splitDesc] true :=
    .refcodes ["SPLIT"] [some splitDesc] (.one "SPLIT") ⟨splitCcdc, rfl, ["SPLIT"], rfl, .cons ⟨_, rfl, by rw [if_neg (by decide)]; exact split_ccdc⟩ .nil⟩ rfl
  refine ⟨fun k => ?_, ?_, ?_⟩
  · obtain ⟨M, f, F, hM, h1, h2⟩ := C114_sites_amd_partial (args := { k := k, csdRefcodes := true }) split_metric_reads (show upper "AMD" = "AMD" by decide +kernel) rfl (metric := .named "cityblock") rfl rfl
      (city_tame _ rfl _) hi hi' (by simpa using twice_comparable) (by simpa using split_comparable) (by simp) (by simp)
    have h0 := (h2 0 0 (by simp) (by simp) (twice_shaped _) ⟨screwCell, screwCell_par_numbers, Or.inl screwCell_dominant⟩).2.1 _ split_moved
    exact ⟨f 0 0, F, h0.trans (by norm_num), fun fuel hf => by rw [h1 fuel hf, matrix_one hM]; rfl⟩
  · obtain ⟨k₀, h⟩ := C114_sites_amd_large_k_partial (ds := [twiceDesc]) (ds' := [splitDesc]) (by simpa using twice_comparable) (by simpa using split_comparable) (by simp) (by simp)
    refine ⟨k₀, fun k hk => ?_⟩
    obtain ⟨M, f, F, hM, h1, h2⟩ := h splitMetricEnv splitBackends id _ _ _ _ { k := k, csdRefcodes := true } _ (.named "cityblock") k split_metric_reads
      (show upper "AMD" = "AMD" by decide +kernel) rfl hk rfl rfl (city_tame _ rfl _) hi hi'
    have h0 := (h2 0 0 (by simp) (by simp)).2.2.2.1 _ split_moved
    exact ⟨f 0 0, F, h0.trans (by norm_num), fun fuel hf => by rw [h1 fuel hf, matrix_one hM]; rfl⟩
  · obtain ⟨M, f, F, hM, h1, h2⟩ := C114_sites_pdd_partial (args := { by_ := "PDD", k := 10, csdRefcodes := true }) split_metric_reads exampleEnv_sound.sched (by decide +kernel) rfl
      (metric := .named "cityblock") (city_tame _ rfl _) (tol := 1 / 10000) (by norm_num) ⟨rfl, rfl, ⟨none, rfl⟩, ⟨_, rfl⟩⟩ hi hi'
      (by simpa using twice_comparable) (by simpa using split_comparable) (by simp) (by simp) rfl
    have h0 := (h2 0 0 (by simp) (by simp) (twice_shaped _) ⟨screwCell, screwCell_par_numbers, Or.inl screwCell_dominant⟩ _ rfl).2.1 _ split_moved
    refine ⟨f 0 0, F, h0.trans ?_, fun fuel hf => by rw [h1 fuel hf, matrix_one hM]; rfl⟩
    have := emdTol_mono (max_le twice_size (show splitDesc.size ≤ _ from twice_size)) (C := 10 * (10 * 4)) (by norm_num)
    have e1 : (twiceDesc.cell.a : ℝ) = 4 := by norm_num [twiceDesc, screwNumbers]
    have e2 : (splitDesc.cell.a : ℝ) = 4 := by norm_num [splitDesc, screwNumbers]
    have hc : (kwOr (("metric", .str "cityblock") :: mixedKwargs "ccdc") "collapse" (.bool true)).truthy = true := rfl
    simp only [List.getElem_cons_zero, e1, e2, max_self]
    rw [if_pos hc]
    have h5 : emdTol 4 (10 * (10 * 4)) ≤ 1 / 1000 := by norm_num [emdTol]
    have h6 := this.trans h5
    push_cast
    norm_num at h6 ⊢
    linarith

/-- By PDD for all large `k`. -/
example : ∃ k₀ : ℕ, ∀ k ≥ k₀, ∃ (x : ℝ) (F : ℕ), x ≤ k * (2 * (1 / 100)) + (4 * k * (1 / 10000) + emdTol (max twiceDesc.size splitDesc.size) (k * (k * max (twiceDesc.cell.a : ℝ) splitDesc.cell.a))) ∧
    ∀ fuel ≥ F, compare splitMetricEnv (.one (.str "TWICE")) (some (.one (.str "SPLIT"))) { by_ := "PDD", k := k, csdRefcodes := true } (("metric", .str "cityblock") :: mixedKwargs "ccdc") fuel =
      .ok (.matrix ["twice"] ["split"] [[x]]) := by
  have hi : InputHoldsAll splitBackends id (allOptions "ccdc") (.one (.str "TWICE")) [twiceDesc] true :=
    .refcodes ["TWICE"] [some twiceDesc] (.one "TWICE") ⟨splitCcdc, rfl, ["TWICE"], rfl, .cons ⟨_, rfl, by rw [if_pos rfl]; exact twice_ccdc⟩ .nil⟩ rfl
  have hi' : InputHoldsAll splitBackends id (allOptions "ccdc") (.one (.str "SPLIT")) [splitDesc] true :=
    .refcodes ["SPLIT"] [some splitDesc] (.one "SPLIT") ⟨splitCcdc, rfl, ["SPLIT"], rfl, .cons ⟨_, rfl, by rw [if_neg (by decide)]; exact split_ccdc⟩ .nil⟩ rfl
  obtain ⟨k₀, h⟩ := C114_sites_pdd_large_k_partial (ds := [twiceDesc]) (ds' := [splitDesc]) (by simpa using twice_comparable) (by simpa using split_comparable) (by simp) (by simp)
  refine ⟨k₀, fun k hk => ?_⟩
  obtain ⟨M, f, F, hM, h1, h2⟩ := h splitMetricEnv splitBackends id _ _ _ _ { by_ := "PDD", k := k, csdRefcodes := true } _ (.named "cityblock") k (1 / 10000) true split_metric_reads
    exampleEnv_sound.sched (show upper "PDD" = "PDD" by decide +kernel) rfl hk (city_tame _ rfl _) (by norm_num) ⟨rfl, rfl, ⟨none, rfl⟩, ⟨_, rfl⟩⟩ hi hi' rfl
  exact ⟨f 0 0, F, (h2 0 0 (by simp) (by simp) _ rfl).2.2.2.1 _ split_moved, fun fuel hf => by rw [h1 fuel hf, matrix_one hM]; rfl⟩

end Amd
