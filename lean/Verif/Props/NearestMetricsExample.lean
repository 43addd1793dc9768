import Verif.Props.NearestMetrics
import Verif.Props.NearestExample
import Verif.Props.MetricsExample

/-!
# Examples of nearest crystals by other metrics
-/

namespace Amd

open Classical

/-- Nearest items by sorting all distances, for any metric. -/
noncomputable def scipyKnn (metric : MetricArg ℝ) (xb : List (List ℝ)) (x : List ℝ) (n : ℕ) : NearRow ℝ :=
  let ds := xb.map fun y => metric.dist scipyOther x y
  { dists := ((exampleSort ds).take n).map fun j => metric.dist scipyOther x (xb.getD j []), inds := (exampleSort ds).take n }

theorem scipyKnn_contract (metric : MetricArg ℝ) : KnnContract (metric.dist scipyOther) (scipyKnn metric) := by
  generalize hg : metric.dist scipyOther = g
  intro xb x n hn
  have e : scipyKnn metric xb x n =
      { dists := ((exampleSort (xb.map fun y => g x y)).take n).map fun j => g x (xb.getD j []), inds := (exampleSort (xb.map fun y => g x y)).take n } := by rw [scipyKnn, hg]
  rw [e]
  have hp := exampleSort_perm (xb.map fun y => g x y)
  have hs := exampleSort_sorted (xb.map fun y => g x y)
  have hl := hp.length_eq
  rw [List.length_map, List.length_range] at hl
  rw [List.length_map] at hp
  have hnd : (exampleSort (xb.map fun y => g x y)).Nodup := hp.nodup_iff.2 List.nodup_range
  have hval : ∀ j ∈ exampleSort (xb.map fun y => g x y), (xb.map fun y => g x y).getD j 0 = g x (xb.getD j []) := by
    intro j hj
    have hj : j < xb.length := List.mem_range.1 (hp.subset hj)
    simp [List.getD_eq_getElem?_getD, hj]
  refine ⟨?_, hnd.sublist (List.take_sublist _ _), fun j hj => List.mem_range.1 (hp.subset (List.take_subset _ _ hj)), rfl, ?_, ?_⟩
  · change ((exampleSort (xb.map fun y => g x y)).take n).length = n
    rw [List.length_take, hl]
    exact min_eq_left hn
  · change (((exampleSort (xb.map fun y => g x y)).take n).map fun j => g x (xb.getD j [])).Pairwise (· ≤ ·)
    rw [List.pairwise_map]
    refine (hs.sublist (List.take_sublist _ _)).imp_of_mem fun {a b} ha hb h => ?_
    rwa [hval a (List.take_subset _ _ ha), hval b (List.take_subset _ _ hb)] at h
  · intro j hj hjn i hi
    have hmem : j ∈ exampleSort (xb.map fun y => g x y) := hp.mem_iff.2 (List.mem_range.2 hj)
    have hs' := hs
    rw [← List.take_append_drop n (exampleSort (xb.map fun y => g x y)), List.pairwise_append] at hs'
    rw [← List.take_append_drop n (exampleSort (xb.map fun y => g x y)), List.mem_append] at hmem
    have hd := hmem.resolve_left hjn
    have := hs'.2.2 i hi j hd
    rwa [hval i (List.take_subset _ _ hi), hval j (List.drop_subset _ _ hd)] at this

/-- As `metricEnv`, with the nearest items by the metric. -/
noncomputable def nearEnv : Env := { metricEnv with knn := fun _ => scipyKnn }

theorem nearEnv_sound : nearEnv.Sound := ⟨exampleEnv_sound.sched, exampleEnv_sound.part, exampleEnv_sound.sort, fun _ => by
  have h := scipyKnn_contract (.named "chebyshev")
  rw [MetricArg.dist, if_pos rfl] at h
  exact h⟩

theorem near_reads (metric : String) : ReadsInputs nearEnv exampleBackends ⟨[], []⟩ (metricKwargs metric) (cifOptions "gemmi") :=
  ⟨rfl, rfl, (fun x hx => (by cases hx)), ⟨rfl, rfl, rfl, rfl, rfl, rfl⟩, Or.inl rfl⟩

/-- `compare(['a.cif', 'b.cif', 'a.cif'], n_neighbors=2, metric='euclidean', …)` by AMD: `DIST 1` is 0 in the first row; for one collection, for two, and for all large `k`. -/
example : (∃ (f : Frame) (F : ℕ), FirstDist f 0 0 ∧ ∀ fuel ≥ F,
      compare nearEnv (.many [.str "a.cif", .str "b.cif", .str "a.cif"]) none { nNeighbors := some 2 } (metricKwargs "euclidean") fuel = .ok f) ∧
    (∃ (f : Frame) (F : ℕ), FirstDist f 0 0 ∧ ∀ fuel ≥ F,
      compare nearEnv (.one (.str "b.cif")) (some (.many [.str "a.cif", .str "b.cif", .str "a.cif"])) { nNeighbors := some 3 } (metricKwargs "euclidean") fuel = .ok f) ∧
    ∃ k₀, ∀ k ≥ k₀, ∃ (f : Frame) (F : ℕ), FirstDist f 0 0 ∧ ∀ fuel ≥ F,
      compare nearEnv (.many [.str "a.cif", .str "b.cif", .str "a.cif"]) none { k := k, nNeighbors := some 2 } (metricKwargs "euclidean") fuel = .ok f := by
  have hp : ∀ e ∈ [screwDesc, imageDesc, screwDesc], e.Proper := by simpa using ⟨screw_proper, image_proper, screw_proper⟩
  have hp1 : ∀ e ∈ [imageDesc], e.Proper := by simpa using image_proper
  have hsame : DescribeSame imageDesc screwDesc := same_of rfl rfl screw_points.symm
  have hmet : ∀ k, RowMetric k ((MetricArg.named "euclidean").dist nearEnv.other) := fun k => (C96_metrics (env := nearEnv) scipy_names k).1.toRowMetric
  refine ⟨?_, ?_, ?_⟩
  · obtain ⟨d, f, F, -, h1, h2⟩ := C113_amd_partial (args := { nNeighbors := some 2 }) (near_reads "euclidean") (by decide +kernel) rfl (by norm_num) (by simp)
      (metric := .named "euclidean") rfl (hmet _) (scipyKnn_contract _) (holds_three (by simp)) hp
    exact ⟨f, F, (h2 0 1 (by simp) (by simp) (screw_shaped rfl _) (screw_shaped rfl _)).2 (by simp) screw_same, h1⟩
  · obtain ⟨d, f, F, -, h1, h2⟩ := C113_amd_two_partial (args := { nNeighbors := some 3 }) (near_reads "euclidean") (by decide +kernel) rfl (by norm_num) (by simp)
      (metric := .named "euclidean") rfl (hmet _) (scipyKnn_contract _) (holds_b (by simp)) (holds_three (by simp)) hp1 hp (by simp)
    exact ⟨f, F, (h2 0 0 (by simp) (by simp) (screw_shaped rfl _) (screw_shaped rfl _)).2 hsame, h1⟩
  · obtain ⟨k₀, h⟩ := C113_amd_large_k_partial hp
    refine ⟨k₀, fun k hk => ?_⟩
    obtain ⟨d, f, F, -, h1, h2⟩ := h nearEnv exampleBackends id _ _ (.many [.str "a.cif", .str "b.cif", .str "a.cif"]) { k := k, nNeighbors := some 2 } (metricKwargs "euclidean") 2
      (.named "euclidean") (near_reads "euclidean") (show upper "AMD" = "AMD" by decide +kernel) rfl (by norm_num) (by simp) hk rfl (hmet _) (scipyKnn_contract _) (holds_three (by simp))
    exact ⟨f, F, (h2 0 1 (by simp) (by simp)).2 (by simp) screw_same, h1⟩

theorem near_slack {d d' : Described} (hd : d = screwDesc ∨ d = imageDesc) (hd' : d' = screwDesc ∨ d' = imageDesc) :
    (if (kwOr (metricKwargs "euclidean") "collapse" (.bool true)).truthy then 4 * √((100 : ℕ) : ℝ) * (1 / 10000 : ℝ) else 0) +
    emdTol (max d.size d'.size) (√((100 : ℕ) : ℝ) * (((100 : ℕ) : ℝ) * max (d.cell.a : ℝ) d'.cell.a)) ≤ 8 / 1000 := by
  have hL : √((100 : ℕ) : ℝ) = 10 := by
    rw [show ((100 : ℕ) : ℝ) = 10 ^ 2 by norm_num, Real.sqrt_sq (by norm_num)]
  have one : ∀ d, d = screwDesc ∨ d = imageDesc → d.size ≤ 2 ∧ (d.cell.a : ℝ) = 4 := by
    rintro d (rfl | rfl)
    · exact ⟨size_le ⟨_, rfl⟩ rfl, by norm_num [screwDesc, screwNumbers]⟩
    · exact ⟨size_le ⟨_, rfl⟩ rfl, by norm_num [imageDesc, screwNumbers]⟩
  have := emdTol_mono (max_le (one d hd).1 (one d' hd').1) (C := 10 * (((100 : ℕ) : ℝ) * 4)) (by norm_num)
  have hc : (kwOr (metricKwargs "euclidean") "collapse" (.bool true)).truthy = true := rfl
  rw [(one d hd).2, (one d' hd').2, max_self, hL, if_pos hc]
  refine (add_le_add_right this _).trans ?_
  norm_num [emdTol]

/-- By PDD, with the Euclidean distance of rows: at most 0.008, for one collection and for two. -/
example : (∃ (f : Frame) (F : ℕ) (x : ℝ), FirstDist f 0 x ∧ 0 ≤ x ∧ x ≤ 8 / 1000 ∧ ∀ fuel ≥ F,
      compare nearEnv (.many [.str "a.cif", .str "b.cif", .str "a.cif"]) none { by_ := "PDD", nNeighbors := some 1 } (metricKwargs "euclidean") fuel = .ok f) ∧
    ∃ (f : Frame) (F : ℕ) (x : ℝ), FirstDist f 0 x ∧ 0 ≤ x ∧ x ≤ 8 / 1000 ∧ ∀ fuel ≥ F,
      compare nearEnv (.one (.str "b.cif")) (some (.many [.str "a.cif", .str "b.cif", .str "a.cif"])) { by_ := "PDD", nNeighbors := some 2 } (metricKwargs "euclidean") fuel = .ok f := by
  have hp : ∀ e ∈ [screwDesc, imageDesc, screwDesc], e.Proper := by simpa using ⟨screw_proper, image_proper, screw_proper⟩
  have hp1 : ∀ e ∈ [imageDesc], e.Proper := by simpa using image_proper
  have hsame : DescribeSame imageDesc screwDesc := same_of rfl rfl screw_points.symm
  constructor
  · obtain ⟨d, f, F, -, h1, h2⟩ := C113_pdd_partial (args := { by_ := "PDD", nNeighbors := some 1 }) (near_reads "euclidean") nearEnv_sound (by decide +kernel) rfl (by norm_num) (by simp)
      (metric := .named "euclidean") (C96_metrics (env := nearEnv) scipy_names _).1 (tol := 1 / 10000) (by norm_num) ⟨rfl, rfl, ⟨none, rfl⟩, ⟨_, rfl⟩⟩ (holds_three (by simp)) hp rfl
    obtain ⟨x, hf, h0, hx⟩ := (h2 0 1 (by simp) (by simp) (by simp) (screw_shaped rfl _) (screw_shaped rfl _) _ rfl).2 screw_same
    exact ⟨f, F, x, hf, h0, hx.trans (near_slack (Or.inl rfl) (Or.inr rfl)), h1⟩
  · obtain ⟨d, f, F, -, h1, h2⟩ := C113_pdd_two_partial (args := { by_ := "PDD", nNeighbors := some 2 }) (near_reads "euclidean") nearEnv_sound (by decide +kernel) rfl (by norm_num) (by simp)
      (metric := .named "euclidean") (C96_metrics (env := nearEnv) scipy_names _).1 (tol := 1 / 10000) (by norm_num) ⟨rfl, rfl, ⟨none, rfl⟩, ⟨_, rfl⟩⟩ (holds_b (by simp)) (holds_three (by simp))
      hp1 hp (by simp) rfl
    obtain ⟨x, hf, h0, hx⟩ := (h2 0 0 (by simp) (by simp) (screw_shaped rfl _) (screw_shaped rfl _) _ rfl).2 hsame
    exact ⟨f, F, x, hf, h0, hx.trans (near_slack (Or.inr rfl) (Or.inl rfl)), h1⟩

/-- For all large `k`: two collections by AMD; and by PDD, with the number of neighbours below the number of candidates. -/
example : ∃ k₀, ∀ k ≥ k₀, (∃ (f : Frame) (F : ℕ), FirstDist f 0 0 ∧ ∀ fuel ≥ F,
      compare nearEnv (.one (.str "b.cif")) (some (.many [.str "a.cif", .str "b.cif", .str "a.cif"])) { k := k, nNeighbors := some 3 } (metricKwargs "euclidean") fuel = .ok f) ∧
    (∃ (f : Frame) (F : ℕ) (x : ℝ), FirstDist f 0 x ∧ 0 ≤ x ∧ ∀ fuel ≥ F,
      compare nearEnv (.many [.str "a.cif", .str "b.cif", .str "a.cif"]) none { by_ := "PDD", k := k, nNeighbors := some 1 } (metricKwargs "euclidean") fuel = .ok f) ∧
    ∃ (f : Frame) (F : ℕ) (x : ℝ), FirstDist f 0 x ∧ 0 ≤ x ∧ ∀ fuel ≥ F,
      compare nearEnv (.one (.str "b.cif")) (some (.many [.str "a.cif", .str "b.cif", .str "a.cif"])) { by_ := "PDD", k := k, nNeighbors := some 2 } (metricKwargs "euclidean") fuel = .ok f := by
  have hp : ∀ e ∈ [screwDesc, imageDesc, screwDesc], e.Proper := by simpa using ⟨screw_proper, image_proper, screw_proper⟩
  have hp1 : ∀ e ∈ [imageDesc], e.Proper := by simpa using image_proper
  have hsame : DescribeSame imageDesc screwDesc := same_of rfl rfl screw_points.symm
  have tame : ∀ k : ℕ, TameMetric k √k ((MetricArg.named "euclidean").dist nearEnv.other) := fun k => (C96_metrics (env := nearEnv) scipy_names k).1
  obtain ⟨k₁, h₁⟩ := C113_amd_two_large_k_partial hp1 hp (by simp)
  obtain ⟨k₂, h₂⟩ := C113_pdd_large_k_partial hp
  obtain ⟨k₃, h₃⟩ := C113_pdd_two_large_k_partial hp1 hp (by simp)
  refine ⟨max k₁ (max k₂ k₃), fun k hk => ⟨?_, ?_, ?_⟩⟩
  · obtain ⟨d, f, F, -, h1, h2⟩ := h₁ nearEnv exampleBackends id _ _ (.one (.str "b.cif")) (.many [.str "a.cif", .str "b.cif", .str "a.cif"]) { k := k, nNeighbors := some 3 }
      (metricKwargs "euclidean") 3 (.named "euclidean") (near_reads "euclidean") (show upper "AMD" = "AMD" by decide +kernel) rfl (by norm_num) (by simp) (le_trans (le_max_left _ _) hk) rfl
      (tame _).toRowMetric (scipyKnn_contract _) (holds_b (by simp)) (holds_three (by simp))
    exact ⟨f, F, (h2 0 0 (by simp) (by simp)).2 hsame, h1⟩
  · obtain ⟨d, f, F, -, h1, h2⟩ := h₂ nearEnv exampleBackends id _ _ (.many [.str "a.cif", .str "b.cif", .str "a.cif"]) { by_ := "PDD", k := k, nNeighbors := some 1 }
      (metricKwargs "euclidean") 1 (.named "euclidean") _ (1 / 10000) true (near_reads "euclidean") nearEnv_sound (show upper "PDD" = "PDD" by decide +kernel) rfl (by norm_num) (by simp)
      (le_trans (le_trans (le_max_left _ _) (le_max_right _ _)) hk) (tame _) (by norm_num) ⟨rfl, rfl, ⟨none, rfl⟩, ⟨_, rfl⟩⟩ (holds_three (by simp)) rfl
    obtain ⟨x, hf, h0, -⟩ := (h2 0 1 (by simp) (by simp) (by simp) _ rfl).2 screw_same
    exact ⟨f, F, x, hf, h0, h1⟩
  · obtain ⟨d, f, F, -, h1, h2⟩ := h₃ nearEnv exampleBackends id _ _ (.one (.str "b.cif")) (.many [.str "a.cif", .str "b.cif", .str "a.cif"]) { by_ := "PDD", k := k, nNeighbors := some 2 }
      (metricKwargs "euclidean") 2 (.named "euclidean") _ (1 / 10000) true (near_reads "euclidean") nearEnv_sound (show upper "PDD" = "PDD" by decide +kernel) rfl (by norm_num) (by simp)
      (le_trans (le_trans (le_max_right _ _) (le_max_right _ _)) hk) (tame _) (by norm_num) ⟨rfl, rfl, ⟨none, rfl⟩, ⟨_, rfl⟩⟩ (holds_b (by simp)) (holds_three (by simp)) rfl
    obtain ⟨x, hf, h0, -⟩ := (h2 0 0 (by simp) (by simp) _ rfl).2 hsame
    exact ⟨f, F, x, hf, h0, h1⟩

/-! ### `disorder='all_sites'` -/

/-- As `metricPairEnv`, with the nearest items by the metric. -/
noncomputable def nearPairEnv : Env := { metricPairEnv with knn := fun _ => scipyKnn }

theorem nearPairEnv_sound : nearPairEnv.Sound := ⟨nearEnv_sound.sched, nearEnv_sound.part, nearEnv_sound.sort, nearEnv_sound.knn⟩

theorem near_pair_reads (reader : String) : ReadsAllSites nearPairEnv pairBackends ⟨[], []⟩ (("metric", .str "cityblock") :: mixedKwargs reader) (allOptions reader) :=
  ⟨rfl, rfl, (fun x hx => (by cases hx)), ⟨rfl, rfl, rfl, rfl, rfl, rfl⟩, rfl, rfl⟩

/-- `compare(['MIXED', 'TWICE', 'MIXED'], n_neighbors=2, csd_refcodes=True, disorder='all_sites', metric='cityblock', …)`: by AMD `DIST 1` of the first row is 0; for one collection, for two,
and for all large `k`. By PDD it is at most 0.1. -/
example (two : Option Input) (htwo : two = none ∨ two = some (.many [.str "MIXED", .str "TWICE", .str "MIXED"])) :
    (∃ (f : Frame) (F : ℕ), FirstDist f 0 0 ∧ ∀ fuel ≥ F,
      compare nearPairEnv (.many [.str "MIXED", .str "TWICE", .str "MIXED"]) two { nNeighbors := some 2, csdRefcodes := true } (("metric", .str "cityblock") :: mixedKwargs "ccdc") fuel = .ok f) ∧
    (∃ (f : Frame) (F : ℕ) (x : ℝ), FirstDist f 0 x ∧ 0 ≤ x ∧ x ≤ 1 / 10 ∧ ∀ fuel ≥ F,
      compare nearPairEnv (.many [.str "MIXED", .str "TWICE", .str "MIXED"]) two { by_ := "PDD", nNeighbors := some 1, csdRefcodes := true } (("metric", .str "cityblock") :: mixedKwargs "ccdc") fuel =
        .ok f) ∧
    ∃ k₀, ∀ k ≥ k₀, ∃ (f : Frame) (F : ℕ), FirstDist f 0 0 ∧ ∀ fuel ≥ F,
      compare nearPairEnv (.many [.str "MIXED", .str "TWICE", .str "MIXED"]) none { k := k, nNeighbors := some 2, csdRefcodes := true } (("metric", .str "cityblock") :: mixedKwargs "ccdc") fuel =
        .ok f := by
  have hp : ∀ e ∈ [mixedDesc, twiceDesc, mixedDesc], e.Comparable := by simpa using ⟨mixed_comparable, twice_comparable, mixed_comparable⟩
  have tame : ∀ k : ℕ, TameMetric k k ((MetricArg.named "cityblock").dist nearPairEnv.other) := fun k => (C96_metrics (env := nearPairEnv) scipy_names k).2.1
  have hslack : (if (kwOr (("metric", .str "cityblock") :: mixedKwargs "ccdc") "collapse" (.bool true)).truthy then 4 * ((100 : ℕ) : ℝ) * (1 / 10000 : ℝ) else 0) +
      emdTol (max mixedDesc.size twiceDesc.size) (((100 : ℕ) : ℝ) * (((100 : ℕ) : ℝ) * max (mixedDesc.cell.a : ℝ) twiceDesc.cell.a)) ≤ 1 / 10 := by
    have := emdTol_mono (max_le mixed_size twice_size) (C := ((100 : ℕ) : ℝ) * (((100 : ℕ) : ℝ) * 4)) (by norm_num)
    have e1 : (mixedDesc.cell.a : ℝ) = 4 := by norm_num [mixedDesc, screwNumbers]
    have e2 : (twiceDesc.cell.a : ℝ) = 4 := by norm_num [twiceDesc, screwNumbers]
    have hc : (kwOr (("metric", .str "cityblock") :: mixedKwargs "ccdc") "collapse" (.bool true)).truthy = true := rfl
    rw [e1, e2, max_self, if_pos hc]
    refine (add_le_add_right this _).trans ?_
    norm_num [emdTol]
  refine ⟨?_, ?_, ?_⟩
  · rcases htwo with rfl | rfl
    · obtain ⟨d, f, F, -, h1, h2⟩ := C113_sites_amd_partial (args := { nNeighbors := some 2, csdRefcodes := true }) (near_pair_reads "ccdc") (by decide +kernel) rfl (by norm_num)
        (by simp) (metric := .named "cityblock") rfl (tame _).toRowMetric (scipyKnn_contract _) all_three hp
      exact ⟨f, F, (h2 0 1 (by simp) (by simp) (mixed_shaped _) (twice_shaped _)).2 (by simp) mixed_same, h1⟩
    · obtain ⟨d, f, F, -, h1, h2⟩ := C113_sites_amd_two_partial (args := { nNeighbors := some 2, csdRefcodes := true }) (near_pair_reads "ccdc") (by decide +kernel) rfl (by norm_num)
        (by simp) (metric := .named "cityblock") rfl (tame _).toRowMetric (scipyKnn_contract _) all_three all_three hp hp (by simp)
      exact ⟨f, F, (h2 0 1 (by simp) (by simp) (mixed_shaped _) (twice_shaped _)).2 mixed_same, h1⟩
  · rcases htwo with rfl | rfl
    · obtain ⟨d, f, F, -, h1, h2⟩ := C113_sites_pdd_partial (args := { by_ := "PDD", nNeighbors := some 1, csdRefcodes := true }) (near_pair_reads "ccdc") nearPairEnv_sound (by decide +kernel) rfl
        (by norm_num) (by simp) (metric := .named "cityblock") (tame _) (tol := 1 / 10000) (by norm_num) ⟨rfl, rfl, ⟨none, rfl⟩, ⟨_, rfl⟩⟩ all_three hp rfl
      obtain ⟨x, hf, h0, hx⟩ := (h2 0 1 (by simp) (by simp) (by simp) (mixed_shaped _) (twice_shaped _) _ rfl).2 mixed_same
      exact ⟨f, F, x, hf, h0, hx.trans hslack, h1⟩
    · obtain ⟨d, f, F, -, h1, h2⟩ := C113_sites_pdd_two_partial (args := { by_ := "PDD", nNeighbors := some 1, csdRefcodes := true }) (near_pair_reads "ccdc") nearPairEnv_sound (by decide +kernel) rfl
        (by norm_num) (by simp) (metric := .named "cityblock") (tame _) (tol := 1 / 10000) (by norm_num) ⟨rfl, rfl, ⟨none, rfl⟩, ⟨_, rfl⟩⟩ all_three all_three hp hp (by simp) rfl
      obtain ⟨x, hf, h0, hx⟩ := (h2 0 1 (by simp) (by simp) (mixed_shaped _) (twice_shaped _) _ rfl).2 mixed_same
      exact ⟨f, F, x, hf, h0, hx.trans hslack, h1⟩
  · obtain ⟨k₀, h⟩ := C113_sites_amd_large_k_partial hp
    refine ⟨k₀, fun k hk => ?_⟩
    obtain ⟨d, f, F, -, h1, h2⟩ := h nearPairEnv pairBackends id _ _ (.many [.str "MIXED", .str "TWICE", .str "MIXED"]) { k := k, nNeighbors := some 2, csdRefcodes := true }
      (("metric", .str "cityblock") :: mixedKwargs "ccdc") 2 (.named "cityblock") (near_pair_reads "ccdc") (show upper "AMD" = "AMD" by decide +kernel) rfl (by norm_num) (by simp) hk rfl
      (tame _).toRowMetric (scipyKnn_contract _) all_three
    exact ⟨f, F, (h2 0 1 (by simp) (by simp)).2 (by simp) mixed_same, h1⟩

/-- For all large `k`, with two collections and by PDD. -/
example : ∃ k₀, ∀ k ≥ k₀, (∃ (f : Frame) (F : ℕ), FirstDist f 0 0 ∧ ∀ fuel ≥ F,
      compare nearPairEnv (.many [.str "MIXED", .str "TWICE", .str "MIXED"]) (some (.many [.str "MIXED", .str "TWICE", .str "MIXED"])) { k := k, nNeighbors := some 3, csdRefcodes := true }
        (("metric", .str "cityblock") :: mixedKwargs "ccdc") fuel = .ok f) ∧
    (∃ (f : Frame) (F : ℕ) (x : ℝ), FirstDist f 0 x ∧ 0 ≤ x ∧ ∀ fuel ≥ F,
      compare nearPairEnv (.many [.str "MIXED", .str "TWICE", .str "MIXED"]) none { by_ := "PDD", k := k, nNeighbors := some 1, csdRefcodes := true }
        (("metric", .str "cityblock") :: mixedKwargs "ccdc") fuel = .ok f) ∧
    ∃ (f : Frame) (F : ℕ) (x : ℝ), FirstDist f 0 x ∧ 0 ≤ x ∧ ∀ fuel ≥ F,
      compare nearPairEnv (.many [.str "MIXED", .str "TWICE", .str "MIXED"]) (some (.many [.str "MIXED", .str "TWICE", .str "MIXED"]))
        { by_ := "PDD", k := k, nNeighbors := some 2, csdRefcodes := true } (("metric", .str "cityblock") :: mixedKwargs "ccdc") fuel = .ok f := by
  have hp : ∀ e ∈ [mixedDesc, twiceDesc, mixedDesc], e.Comparable := by simpa using ⟨mixed_comparable, twice_comparable, mixed_comparable⟩
  have tame : ∀ k : ℕ, TameMetric k k ((MetricArg.named "cityblock").dist nearPairEnv.other) := fun k => (C96_metrics (env := nearPairEnv) scipy_names k).2.1
  obtain ⟨k₁, h₁⟩ := C113_sites_amd_two_large_k_partial hp hp (by simp)
  obtain ⟨k₂, h₂⟩ := C113_sites_pdd_large_k_partial hp
  obtain ⟨k₃, h₃⟩ := C113_sites_pdd_two_large_k_partial hp hp (by simp)
  refine ⟨max k₁ (max k₂ k₃), fun k hk => ⟨?_, ?_, ?_⟩⟩
  · obtain ⟨d, f, F, -, h1, h2⟩ := h₁ nearPairEnv pairBackends id _ _ (.many [.str "MIXED", .str "TWICE", .str "MIXED"]) (.many [.str "MIXED", .str "TWICE", .str "MIXED"])
      { k := k, nNeighbors := some 3, csdRefcodes := true } _ 3 (.named "cityblock") (near_pair_reads "ccdc") (show upper "AMD" = "AMD" by decide +kernel) rfl (by norm_num) (by simp)
      (le_trans (le_max_left _ _) hk) rfl (tame _).toRowMetric (scipyKnn_contract _) all_three all_three
    exact ⟨f, F, (h2 0 1 (by simp) (by simp)).2 mixed_same, h1⟩
  · obtain ⟨d, f, F, -, h1, h2⟩ := h₂ nearPairEnv pairBackends id _ _ (.many [.str "MIXED", .str "TWICE", .str "MIXED"]) { by_ := "PDD", k := k, nNeighbors := some 1, csdRefcodes := true }
      _ 1 (.named "cityblock") _ (1 / 10000) true (near_pair_reads "ccdc") nearPairEnv_sound (show upper "PDD" = "PDD" by decide +kernel) rfl (by norm_num) (by simp)
      (le_trans (le_trans (le_max_left _ _) (le_max_right _ _)) hk) (tame _) (by norm_num) ⟨rfl, rfl, ⟨none, rfl⟩, ⟨_, rfl⟩⟩ all_three rfl
    obtain ⟨x, hf, h0, -⟩ := (h2 0 1 (by simp) (by simp) (by simp) _ rfl).2 mixed_same
    exact ⟨f, F, x, hf, h0, h1⟩
  · obtain ⟨d, f, F, -, h1, h2⟩ := h₃ nearPairEnv pairBackends id _ _ (.many [.str "MIXED", .str "TWICE", .str "MIXED"]) (.many [.str "MIXED", .str "TWICE", .str "MIXED"])
      { by_ := "PDD", k := k, nNeighbors := some 2, csdRefcodes := true } _ 2 (.named "cityblock") _ (1 / 10000) true (near_pair_reads "ccdc") nearPairEnv_sound
      (show upper "PDD" = "PDD" by decide +kernel) rfl (by norm_num) (by simp) (le_trans (le_trans (le_max_right _ _) (le_max_right _ _)) hk) (tame _) (by norm_num)
      ⟨rfl, rfl, ⟨none, rfl⟩, ⟨_, rfl⟩⟩ all_three all_three rfl
    obtain ⟨x, hf, h0, -⟩ := (h2 0 1 (by simp) (by simp) _ rfl).2 mixed_same
    exact ⟨f, F, x, hf, h0, h1⟩

end Amd
