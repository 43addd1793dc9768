import Verif.Props.Matrices
import Verif.Props.MetricsExample

/-!
# Examples for C97
-/

namespace Amd

open Classical

theorem family_proper : ∀ e ∈ [screwDesc, imageDesc], e.Proper := by simpa using ⟨screw_proper, image_proper⟩

theorem family_shaped (k : ℕ) : ∀ e ∈ [screwDesc, imageDesc], e.WellShaped k := by simpa using ⟨screw_shaped rfl k, screw_shaped rfl k⟩

theorem family_size : ∀ e ∈ [screwDesc, imageDesc], e.size ≤ 2 := by simpa using ⟨size_le ⟨_, rfl⟩ rfl, size_le ⟨_, rfl⟩ rfl⟩

theorem family_edge : ∀ e ∈ [screwDesc, imageDesc], ((100 : ℕ) : ℝ) * (e.cell.a : ℝ) ≤ 400 := by
  simp only [List.mem_cons, List.not_mem_nil, or_false]
  rintro e (rfl | rfl)
  · norm_num [screwDesc, screwNumbers]
  · norm_num [imageDesc, screwNumbers]

/-- The entries of a family of the CSD, by AMD and by PDD. -/
example : ∃ (A P : List (List ℝ)) (f g : ℕ → ℕ → ℝ) (F : ℕ), IsMatrix 2 2 f A ∧ IsMatrix 2 2 g P ∧
      (∀ fuel ≥ F, compare cifEnv (.one (.str "SCREWS")) none { csdRefcodes := true } csdKwargs fuel = .ok (.matrix ["screw", "image"] ["screw", "image"] A) ∧
        compare cifEnv (.one (.str "SCREWS")) none { by_ := "PDD", csdRefcodes := true } csdKwargs fuel = .ok (.matrix ["screw", "image"] ["screw", "image"] P)) ∧
      (∀ i < 2, ∀ j < 2, f i j ≤ g i j + 5 / 10000) ∧ IsDistanceTable 2 0 f ∧ IsDistanceTable 2 (2 / 10000) g := by
  obtain ⟨cs, h⟩ := input_gives (args := { csdRefcodes := true }) csd_reads holds_family family_proper
  obtain ⟨e1, e2, e3⟩ := described_lawful.facts family_proper h.reads
  have e1 : cs.length = 2 := e1
  have e2 : cs.map Crystal.name = ["screw", "image"] := e2
  have hc0 : cs ≠ [] := fun h0 => by simp [h0] at e1
  have hg := h.some hc0
  have hC := described_within (kwargs' := csdKwargs) (C := 400) family_proper (family_shaped _) h family_size family_edge (1 / 10000)
  have ho : PddOptions csdKwargs (1 / 10000) (.named "chebyshev") := ⟨rfl, rfl, ⟨none, rfl⟩, ⟨_, rfl⟩⟩
  obtain ⟨A, P, f, g, F, hA, hP, h1, h2⟩ := C97_filter (env := cifEnv) (args := { csdRefcodes := true }) (args' := { by_ := "PDD", csdRefcodes := true }) (kwargs := csdKwargs) exampleEnv_sound.sched
    e3 (by norm_num) rfl (by decide +kernel) (by decide +kernel) rfl rfl rfl (tol := 1 / 10000) (by norm_num) ho hg hg hc0 (by norm_num) hC
  obtain ⟨A', f', F', hA', hf', h1'⟩ := C97_amd_distances (env := cifEnv) (args := { csdRefcodes := true }) (kwargs := csdKwargs) e3 (by decide +kernel) rfl (metric := .named "chebyshev") rfl rfl
    (EMD_default_metric _) hg hc0
  obtain ⟨P', g', G', hP', hg', h2'⟩ := C97_pdd_distances (env := cifEnv) (args := { by_ := "PDD", csdRefcodes := true }) (kwargs := csdKwargs) exampleEnv_sound.sched e3 (by decide +kernel) rfl ho
    (L := 1) (chebyshev_tame _) hg hc0 (C := 400) (by norm_num) hC
  have eA : A' = A := by
    have := (h1 (max F F') (by omega)).1.symm.trans (h1' (max F F') (by omega))
    simpa using this.symm
  have eP : P' = P := by
    have := (h1 (max F G') (by omega)).2.symm.trans (h2' (max F G') (by omega))
    simpa using this.symm
  subst eA eP
  rw [e1] at hA hP hA' hP' h2 hf' hg'
  rw [e2] at h1
  refine ⟨A', P', f', g', F, hA', hP', h1, fun i hi j hj => ?_, hf', ⟨hg'.1, hg'.2, hg'.3, fun i hi j hj l hl => (hg'.4 i hi j hj l hl).trans ?_⟩⟩
  · have hle := h2 i hi j hj
    rw [show f i j = f' i j from ((hA.2.2 i j hi hj).symm.trans (hA'.2.2 i j hi hj)), show g i j = g' i j from ((hP.2.2 i j hi hj).symm.trans (hP'.2.2 i j hi hj))] at hle
    refine hle.trans ?_
    rw [if_pos (show (kwOr csdKwargs "collapse" (.bool true)).truthy = true from rfl), add_assoc]
    refine add_le_add_right ?_ _
    norm_num [emdTol]
  · refine add_le_add_right ?_ _
    norm_num [emdTol]

/-- `compare('a.cif', 'b.cif', metric='euclidean', k=10)` and with 100 neighbours. -/
example : ∃ (M M' : List (List ℝ)) (f f' : ℕ → ℕ → ℝ) (F : ℕ), IsMatrix 1 1 f M ∧ IsMatrix 1 1 f' M' ∧ f' 0 0 ≤ f 0 0 ∧
    ∀ fuel ≥ F, compare metricEnv (.one (.str "a.cif")) (some (.one (.str "b.cif"))) {} (metricKwargs "euclidean") fuel = .ok (.matrix ["screw"] ["image"] M) ∧
      compare metricEnv (.one (.str "a.cif")) (some (.one (.str "b.cif"))) { k := 10 } (metricKwargs "euclidean") fuel = .ok (.matrix ["screw"] ["image"] M') := by
  have met := fun k => (C96_metrics (env := metricEnv) scipy_names k).1.toRowMetric
  obtain ⟨M, M', f, f', F, hM, hM', h1, h2⟩ := C97_more_amd_two_partial (args := {}) (args' := { k := 10 }) (metric_reads "euclidean") (metric_reads "euclidean") (by norm_num) (by decide +kernel)
    (by decide +kernel) rfl rfl (metric := .named "euclidean") rfl rfl rfl rfl (met _) (met _) (C97_shrinks (env := metricEnv) scipy_names).1
    (holds_a (by simp)) (holds_a (by simp)) (by simpa using screw_proper) (by simp) (holds_b (by simp)) (holds_b (by simp)) (by simpa using image_proper) (by simp)
  exact ⟨M, M', f, f', F, hM, hM', h2 0 0 (by simp) (by simp) (screw_shaped rfl _) (screw_shaped rfl _), h1⟩

/-- By PDD. -/
example : ∃ (M M' : List (List ℝ)) (f f' : ℕ → ℕ → ℝ) (F : ℕ), IsMatrix 1 1 f M ∧ IsMatrix 1 1 f' M' ∧ f' 0 0 ≤ f 0 0 + 11 / 10000 ∧
    ∀ fuel ≥ F, compare cifEnv (.one (.str "a.cif")) (some (.one (.str "b.cif"))) { by_ := "PDD" } (cifKwargs "gemmi") fuel = .ok (.matrix ["screw"] ["image"] M) ∧
      compare cifEnv (.one (.str "a.cif")) (some (.one (.str "b.cif"))) { by_ := "PDD", k := 10 } (cifKwargs "gemmi") fuel = .ok (.matrix ["screw"] ["image"] M') := by
  obtain ⟨M, M', f, f', F, hM, hM', h1, h2⟩ := C97_more_pdd_two_partial (args := { by_ := "PDD" }) (args' := { by_ := "PDD", k := 10 }) (cif_reads "gemmi") (cif_reads "gemmi") exampleEnv_sound.sched
    (by norm_num) (by decide +kernel) (by decide +kernel) rfl rfl (metric := .named "chebyshev") (chebyshev_tame _) (chebyshev_tame _) chebyshev_shrinks (tol := 1 / 10000) (tol' := 1 / 10000)
    (by norm_num) (by norm_num) ⟨rfl, rfl, ⟨none, rfl⟩, ⟨_, rfl⟩⟩ ⟨rfl, rfl, ⟨none, rfl⟩, ⟨_, rfl⟩⟩
    (holds_a (by simp)) (holds_a (by simp)) (by simpa using screw_proper) (by simp) (holds_b (by simp)) (holds_b (by simp)) (by simpa using image_proper) (by simp) rfl rfl
  refine ⟨M, M', f, f', F, hM, hM', (h2 0 0 (by simp) (by simp) (screw_shaped rfl _) (screw_shaped rfl _) _ _ rfl rfl).trans ?_, h1⟩
  have hsz : max screwDesc.size imageDesc.size ≤ 2 := max_le (size_le ⟨_, rfl⟩ rfl) (size_le ⟨_, rfl⟩ rfl)
  have e1 : (screwDesc.cell.a : ℝ) = 4 := by norm_num [screwDesc, screwNumbers]
  have e2 : (imageDesc.cell.a : ℝ) = 4 := by norm_num [imageDesc, screwNumbers]
  have t1 := emdTol_mono hsz (C := 400) (by norm_num)
  have t2 := emdTol_mono hsz (C := 40) (by norm_num)
  have hc : (kwOr (cifKwargs "gemmi") "collapse" (.bool true)).truthy = true := rfl
  simp only [List.getElem_cons_zero, e1, e2, max_self, hc, if_true]
  norm_num [emdTol] at t1 t2 ⊢
  linarith

/-- With `disorder='all_sites'`. -/
example {reader : String} (hr : reader ∈ ["gemmi", "ase", "pycodcif", "pymatgen", "ccdc"]) : ∃ (M M' : List (List ℝ)) (f f' : ℕ → ℕ → ℝ) (F : ℕ), IsMatrix 1 1 f M ∧ IsMatrix 1 1 f' M' ∧ f' 0 0 ≤ f 0 0 ∧
    ∀ fuel ≥ F, compare metricPairEnv (.one (.str "mixed.cif")) (some (.one (.str "twice.cif"))) {} (("metric", .str "cityblock") :: mixedKwargs reader) fuel = .ok (.matrix ["mixed"] ["twice"] M) ∧
      compare metricPairEnv (.one (.str "mixed.cif")) (some (.one (.str "twice.cif"))) { k := 10 } (("metric", .str "cityblock") :: mixedKwargs reader) fuel = .ok (.matrix ["mixed"] ["twice"] M') := by
  have met := fun k => (C96_metrics (env := metricPairEnv) scipy_names k).2.1.toRowMetric
  obtain ⟨M, M', f, f', F, hM, hM', h1, h2⟩ := C97_sites_more_amd_two_partial (args := {}) (args' := { k := 10 }) (metric_pair_reads reader) (metric_pair_reads reader) (by norm_num) (by decide +kernel)
    (by decide +kernel) rfl rfl (metric := .named "cityblock") rfl rfl rfl rfl (met _) (met _) (C97_shrinks (env := metricPairEnv) scipy_names).2.1
    (pair_mixed hr) (pair_mixed hr) (by simpa using mixed_comparable) (by simp) (pair_twice hr) (pair_twice hr) (by simpa using twice_comparable) (by simp)
  exact ⟨M, M', f, f', F, hM, hM', h2 0 0 (by simp) (by simp) (mixed_shaped _) (twice_shaped _), h1⟩

end Amd
