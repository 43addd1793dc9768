import Verif.Proof.Nearest
import Verif.Proof.Metrics
import Verif.Proof.Tables

/-! The nearest crystals by other metrics, for any notion of a description of a crystal. -/

namespace Amd

open Classical

variable {δ : Type} {N : Notion δ} {env : Env} {kwargs : Kwargs} {args : CompareArgs} {inp inp' : Input} {ds ds' : List δ} {cs cs' : List Crystal}

theorem Notion.Lawful.near_amd_one_by (hN : N.Lawful) (hby : upper args.by_ = "AMD") {n : ℕ} (hnn : args.nNeighbors = some n) (hn0 : 0 < n) (hnl : n < ds.length)
    {metric : MetricArg ℝ} (hm : (kwOr kwargs "metric" (.str "chebyshev")).toMetric = .ok metric) (hd : RowMetric args.k (metric.dist env.other))
    (hknn : KnnContract (metric.dist env.other) (env.knn (routeKwargs args.verbose kwargs).near metric)) (hi : N.Gives env args kwargs inp ds cs) (he : ∀ e ∈ ds, N.Proper e) :
    ∃ (d : ℕ → ℕ → ℝ) (f : Frame) (F : ℕ), IsNearestTable n (ds.map N.name) (ds.map N.name) (fun i j => j < ds.length ∧ j ≠ i) d f ∧
      (∀ fuel ≥ F, compare env inp none args kwargs fuel = .ok f) ∧ (∀ i < ds.length, ∀ j < ds.length, 0 ≤ d i j) ∧
      ∀ i j (hi : i < ds.length) (hj : j < ds.length), N.Good args.k ds[i] → N.Good args.k ds[j] → N.RightAmdBy (metric.dist env.other) args.k ds[i] ds[j] (d i j) := by
  obtain ⟨e1, e2, e3⟩ := hN.facts he hi.reads
  have hc0 : cs ≠ [] := List.ne_nil_of_length_pos (by omega)
  obtain ⟨a, b, f, F, hM, hF⟩ := amd_nearest (inp' := none) ⟨hi.some hc0, rfl⟩ (fun c hc => e3 c (by simpa using hc)) hby hnn hn0 (by omega) (fun _ => by omega) hm hd hknn
  rw [e1, e2] at hM
  have hr := List.forall₂_iff_get.1 hi.reads
  obtain ⟨ha, hb, -⟩ := hF F le_rfl
  refine ⟨_, f, F, hM.congr (fun i _ j => by simp [Candidate]) (fun _ _ _ _ => rfl), fun fuel hf => (hF fuel hf).2.2, fun i hi j hj => ?_, fun i j hi hj hg hg' => ?_⟩
  · exact hd.nonneg _ _ (amd_width (e3 _ (List.getElem_mem _)) (ha i (by omega))) (amd_width (e3 _ (List.getElem_mem _)) (hb j (by omega)))
  · exact hN.rightAmdBy hd.self (hr.2 i hi (by omega)) (hr.2 j hj (by omega)) hg hg' (ha i (by omega)) (hb j (by omega))

theorem Notion.Lawful.near_amd_two_by (hN : N.Lawful) (hby : upper args.by_ = "AMD") {n : ℕ} (hnn : args.nNeighbors = some n) (hn0 : 0 < n) (hnl : n ≤ ds'.length)
    {metric : MetricArg ℝ} (hm : (kwOr kwargs "metric" (.str "chebyshev")).toMetric = .ok metric) (hd : RowMetric args.k (metric.dist env.other))
    (hknn : KnnContract (metric.dist env.other) (env.knn (routeKwargs args.verbose kwargs).near metric)) (hi : N.Gives env args kwargs inp ds cs) (hi' : N.Gives env args kwargs inp' ds' cs')
    (he : ∀ e ∈ ds, N.Proper e) (he' : ∀ e ∈ ds', N.Proper e) (hne : ds ≠ []) :
    ∃ (d : ℕ → ℕ → ℝ) (f : Frame) (F : ℕ), IsNearestTable n (ds.map N.name) (ds'.map N.name) (fun _ j => j < ds'.length) d f ∧
      (∀ fuel ≥ F, compare env inp (some inp') args kwargs fuel = .ok f) ∧ (∀ i < ds.length, ∀ j < ds'.length, 0 ≤ d i j) ∧
      ∀ i j (hi : i < ds.length) (hj : j < ds'.length), N.Good args.k ds[i] → N.Good args.k ds'[j] → N.RightAmdBy (metric.dist env.other) args.k ds[i] ds'[j] (d i j) := by
  obtain ⟨e1, e2, e3⟩ := hN.facts he hi.reads
  obtain ⟨e1', e2', e3'⟩ := hN.facts he' hi'.reads
  have hc0 : cs ≠ [] := fun h0 => hne (List.length_eq_zero_iff.1 (by rw [← e1, h0]; rfl))
  have hc0' : cs' ≠ [] := List.ne_nil_of_length_pos (by omega)
  obtain ⟨a, b, f, F, hM, hF⟩ := amd_nearest (inp' := some inp') ⟨hi.some hc0, hi'.some hc0'⟩ (fun c hc => (List.mem_append.1 hc).elim (e3 c) (e3' c)) hby hnn hn0 (by omega)
    (fun h0 => by cases h0) hm hd hknn
  rw [e1', e2, e2'] at hM
  have hr := List.forall₂_iff_get.1 hi.reads
  have hr' := List.forall₂_iff_get.1 hi'.reads
  obtain ⟨ha, hb, -⟩ := hF F le_rfl
  refine ⟨_, f, F, hM.congr (fun i _ j => by simp [Candidate]) (fun _ _ _ _ => rfl), fun fuel hf => (hF fuel hf).2.2, fun i hi j hj => ?_, fun i j hi hj hg hg' => ?_⟩
  · exact hd.nonneg _ _ (amd_width (e3 _ (List.getElem_mem _)) (ha i (by omega))) (amd_width (e3' _ (List.getElem_mem _)) (hb j (by omega)))
  · exact hN.rightAmdBy hd.self (hr.2 i hi (by omega)) (hr'.2 j hj (by omega)) hg hg' (ha i (by omega)) (hb j (by omega))

theorem Notion.Lawful.near_pdd_two_by (hN : N.Lawful) (hs : env.Sound) (hby : upper args.by_ = "PDD") {n : ℕ} (hnn : args.nNeighbors = some n) (hnl : n < ds'.length) {tol : ℝ} (htol : 0 ≤ tol)
    {metric : MetricArg ℝ} {L : ℝ} (hd : TameMetric args.k L (metric.dist env.other))
    (ho : PddOptions kwargs tol metric) (hi : N.Gives env args kwargs inp ds cs) (hi' : N.Gives env args kwargs inp' ds' cs') (he : ∀ e ∈ ds, N.Proper e)
    (he' : ∀ e ∈ ds', N.Proper e) (hne : ds ≠ []) {collapse : Bool} (hcol : (kwOr kwargs "collapse" (.bool true)).truthy = collapse) :
    ∃ (d : ℕ → ℕ → ℝ) (f : Frame) (F : ℕ), IsNearestTable n (ds.map N.name) (ds'.map N.name) (fun _ j => j < ds'.length) d f ∧
      (∀ fuel ≥ F, compare env inp (some inp') args kwargs fuel = .ok f) ∧ (∀ i < ds.length, ∀ j < ds'.length, 0 ≤ d i j) ∧
      ∀ i j (hi : i < ds.length) (hj : j < ds'.length), N.Good args.k ds[i] → N.Good args.k ds'[j] →
        N.RightPddBy (metric.dist env.other) args.k (N.slackBy L collapse tol args.k ds[i] ds'[j]) ds[i] ds'[j] (d i j) := by
  subst hcol
  obtain ⟨e1, e2, e3⟩ := hN.facts he hi.reads
  obtain ⟨e1', e2', e3'⟩ := hN.facts he' hi'.reads
  have hc0 : cs ≠ [] := fun h0 => hne (List.length_eq_zero_iff.1 (by rw [← e1, h0]; rfl))
  have hc0' : cs' ≠ [] := List.ne_nil_of_length_pos (by omega)
  obtain ⟨p, q, d, f, F, hM, hF⟩ := C38_pdd_two_partial hs e3 e3' hby hnn (by omega) ho hd.nonneg (hi.some hc0) hc0 (hi'.some hc0')
  rw [e1', e2, e2'] at hM
  have hr := List.forall₂_iff_get.1 hi.reads
  have hr' := List.forall₂_iff_get.1 hi'.reads
  have wp := pddOf_weighted e3 fun fuel hf => (hF fuel hf).1
  have wq := pddOf_weighted e3' fun fuel hf => (hF fuel hf).2.1
  obtain ⟨hp, hq, hx, -⟩ := hF F le_rfl
  refine ⟨d, f, F, hM, fun fuel hf => (hF fuel hf).2.2.2, fun i hi j hj => ?_, fun i j hi hj hg hg' => ?_⟩
  · obtain ⟨plan, hx⟩ := hx i j (by omega) (by omega)
    exact C29_nonneg (wp i (by omega)) (wq j (by omega)) hd.nonneg hx
  · obtain ⟨plan, hx⟩ := hx i j (by omega) (by omega)
    exact (hN.rightPddBy hd htol (he _ (List.getElem_mem hi)) (he' _ (List.getElem_mem hj)) (hr.2 i hi (by omega)) (hr'.2 j hj (by omega)) hg hg' (hp i (by omega))
      (hq j (by omega)) hx).2

theorem Notion.Lawful.near_pdd_one_by (hN : N.Lawful) (hs : env.Sound) (hby : upper args.by_ = "PDD") {n : ℕ} (hnn : args.nNeighbors = some n) (hnl : n + 1 < ds.length) {tol : ℝ} (htol : 0 ≤ tol)
    {metric : MetricArg ℝ} {L : ℝ} (hd : TameMetric args.k L (metric.dist env.other))
    (ho : PddOptions kwargs tol metric) (hi : N.Gives env args kwargs inp ds cs) (he : ∀ e ∈ ds, N.Proper e) {collapse : Bool}
    (hcol : (kwOr kwargs "collapse" (.bool true)).truthy = collapse) :
    ∃ (d : ℕ → ℕ → ℝ) (f : Frame) (F : ℕ), IsNearestTable n (ds.map N.name) (ds.map N.name) (fun i j => j < ds.length ∧ j ≠ i) d f ∧
      (∀ fuel ≥ F, compare env inp none args kwargs fuel = .ok f) ∧ (∀ i < ds.length, ∀ j < ds.length, 0 ≤ d i j) ∧
      ∀ i j (hi : i < ds.length) (hj : j < ds.length), i ≠ j → N.Good args.k ds[i] → N.Good args.k ds[j] →
        N.RightPddBy (metric.dist env.other) args.k (N.slackBy L collapse tol args.k ds[i] ds[j]) ds[i] ds[j] (d i j) := by
  subst hcol
  obtain ⟨e1, e2, e3⟩ := hN.facts he hi.reads
  have hc0 : cs ≠ [] := List.ne_nil_of_length_pos (by omega)
  obtain ⟨p, x, f, F, hM, hF⟩ := C38_pdd_partial hs e3 hby hnn (by omega) ho hd.nonneg (hi.some hc0)
  rw [e1, e2] at hM
  have hr := List.forall₂_iff_get.1 hi.reads
  have wp := pddOf_weighted e3 fun fuel hf => (hF fuel hf).1
  obtain ⟨hp, hx, -⟩ := hF F le_rfl
  have hx0 : ∀ i j, i < j → j < ds.length → 0 ≤ x i j := fun i j hij hj => by
    obtain ⟨plan, hx⟩ := hx i j hij (by omega)
    exact C29_nonneg (wp i (by omega)) (wp j (by omega)) hd.nonneg hx
  have lt : ∀ i j (hi : i < ds.length) (hj : j < ds.length), i < j → N.Good args.k ds[i] → N.Good args.k ds[j] →
      N.RightPddBy (metric.dist env.other) args.k (N.slackBy L (kwOr kwargs "collapse" (.bool true)).truthy tol args.k ds[i] ds[j]) ds[i] ds[j] (x i j) := by
    intro i j hi hj hij hg hg'
    obtain ⟨plan, hx⟩ := hx i j hij (by omega)
    exact (hN.rightPddBy hd htol (he _ (List.getElem_mem hi)) (he _ (List.getElem_mem hj)) (hr.2 i hi (by omega)) (hr.2 j hj (by omega)) hg hg' (hp i (by omega)) (hp j (by omega)) hx).2
  refine ⟨_, f, F, hM, fun fuel hf => (hF fuel hf).2.2, fun i hi j hj => ?_, fun i j hi hj hij hg hg' => ?_⟩
  · split_ifs with hij
    · exact le_rfl
    · exact hx0 _ _ (by omega) (by omega)
  rw [if_neg hij]
  rcases Nat.lt_or_gt_of_ne hij with hij | hij
  · rw [min_eq_left hij.le, max_eq_right hij.le]
    exact lt i j hi hj hij hg hg'
  · rw [min_eq_right hij.le, max_eq_left hij.le, Notion.slackBy_symm]
    refine hN.rightPdd_of_first_by hd.toRowMetric (he _ (List.getElem_mem hi)) (he _ (List.getElem_mem hj)) (hx0 j i hij hi) fun p q hp hq => ?_
    rw [exactEmd_symm hd.toRowMetric (hN.weighted hq) (hN.weighted hp)]
    exact (lt j i hj hi hij hg' hg).1 q p hq hp

end Amd
