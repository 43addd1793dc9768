import Verif.Spec.Metrics
import Verif.Proof.Compared

/-! Other metrics: `compare` for any notion of a description of a crystal. -/

namespace Amd

open Classical

/-! ### The distances -/

/-- A list as a point. -/
def rowPoint (k : ℕ) (r : List ℝ) : Pt k ℝ := fun i => r.getD i 0

theorem zipWith_sum (f : ℝ → ℝ → ℝ) : ∀ {k : ℕ} {r s : List ℝ}, r.length = k → s.length = k → (List.zipWith f r s).sum = ∑ i : Fin k, f (r.getD i 0) (s.getD i 0)
  | 0, r, s, hr, hs => by
    rw [List.length_eq_zero_iff.1 hr]
    simp
  | k + 1, a :: r, b :: s, hr, hs => by
    rw [List.zipWith_cons_cons, List.sum_cons, Fin.sum_univ_succ, zipWith_sum f (k := k) (by simpa using hr) (by simpa using hs)]
    simp
  | k + 1, [], s, hr, hs => by simp at hr
  | k + 1, a :: r, [], hr, hs => by simp at hs

theorem euclidean_eq {k : ℕ} {r s : List ℝ} (hr : r.length = k) (hs : s.length = k) : euclidean r s = eucl (rowPoint k r) (rowPoint k s) := by
  rw [euclidean, zipWith_sum _ hr hs, eucl, sqDist]
  rfl

theorem chebyshev_entry {k : ℕ} {r s : List ℝ} (hr : r.length = k) (hs : s.length = k) (i : Fin k) : |r.getD i 0 - s.getD i 0| ≤ chebyshev r s :=
  ((chebyshev_le_iff (hr.trans hs.symm)).1 le_rfl).2 i (by rw [hr]; exact i.2)

theorem cityblock_tame (k : ℕ) : TameMetric k k cityblock := by
  refine ⟨⟨fun r s hr hs => ?_, fun r hr => ?_, fun r s hr hs => ?_, fun r s t hr hs ht => ?_⟩, Nat.cast_nonneg k, fun r s hr hs => ?_⟩
  · rw [cityblock, zipWith_sum _ hr hs]
    exact Finset.sum_nonneg fun _ _ => abs_nonneg _
  · rw [cityblock, zipWith_sum _ hr hr]
    simp
  · rw [cityblock, cityblock, zipWith_sum _ hr hs, zipWith_sum _ hs hr]
    exact Finset.sum_congr rfl fun _ _ => abs_sub_comm _ _
  · rw [cityblock, cityblock, cityblock, zipWith_sum _ hr hs, zipWith_sum _ hs ht, zipWith_sum _ hr ht, ← Finset.sum_add_distrib]
    exact Finset.sum_le_sum fun _ _ => abs_sub_le _ _ _
  · rw [cityblock, zipWith_sum _ hr hs]
    refine (Finset.sum_le_sum fun i _ => chebyshev_entry hr hs i).trans ?_
    simp

theorem euclidean_tame (k : ℕ) : TameMetric k √k euclidean := by
  refine ⟨⟨fun r s hr hs => Real.sqrt_nonneg _, fun r hr => ?_, fun r s hr hs => ?_, fun r s t hr hs ht => ?_⟩, Real.sqrt_nonneg _, fun r s hr hs => ?_⟩
  · rw [euclidean, zipWith_sum _ hr hr]
    simp
  · rw [euclidean_eq hr hs, euclidean_eq hs hr, eucl_comm]
  · rw [euclidean_eq hr hs, euclidean_eq hs ht, euclidean_eq hr ht]
    exact eucl_triangle _ _ _
  · have h0 : 0 ≤ chebyshev r s := ((chebyshev_le_iff (hr.trans hs.symm)).1 le_rfl).1
    rw [euclidean, zipWith_sum _ hr hs, ← Real.sqrt_sq h0, ← Real.sqrt_mul (Nat.cast_nonneg k)]
    refine Real.sqrt_le_sqrt ?_
    refine (Finset.sum_le_sum (g := fun _ => chebyshev r s ^ 2) fun i _ => ?_).trans (by simp)
    rw [← sq_abs]
    exact pow_le_pow_left₀ (abs_nonneg _) (chebyshev_entry hr hs i) 2

theorem chebyshev_tame (k : ℕ) : TameMetric k 1 chebyshev := ⟨chebyshev_metric k, zero_le_one, fun r s _ _ => by rw [one_mul]⟩

/-- The Earth mover's distance by such a metric is at most that many times the one by the default metric. -/
theorem exactEmd_tame {k : ℕ} {L : ℝ} {δ : List ℝ → List ℝ → ℝ} (h : TameMetric k L δ) {p q : List (PRow ℝ)} (hp : WeightedRows k p) (hq : WeightedRows k q) :
    exactEmd δ p q ≤ L * exactEmd chebyshev p q := by
  have key : ∀ g, IsPlan (fun i : Fin p.length => p[i].weight) (fun j : Fin q.length => q[j].weight) g →
      exactEmd δ p q ≤ L * planCost (fun i j => chebyshev p[i].dists q[j].dists) g := by
    intro g hg
    refine (wasserstein_le (fun i j => h.nonneg _ _ (hp.len i) (hq.len j)) hg).trans ?_
    unfold planCost
    rw [Finset.mul_sum]
    refine Finset.sum_le_sum fun i _ => ?_
    rw [Finset.mul_sum]
    refine Finset.sum_le_sum fun j _ => ?_
    calc g i j * δ p[i].dists q[j].dists ≤ g i j * (L * chebyshev p[i].dists q[j].dists) := mul_le_mul_of_nonneg_left (h.bound _ _ (hp.len i) (hq.len j)) (hg.nonneg i j)
      _ = L * (g i j * chebyshev p[i].dists q[j].dists) := by ring
  rcases h.const.eq_or_lt with h0 | h0
  · obtain ⟨g, hg⟩ := exists_plan hp.nonneg hq.nonneg (hp.sum_eq.trans hq.sum_eq.symm)
    have := key g hg
    rwa [← h0, zero_mul] at this ⊢
  · rw [← div_le_iff₀' h0]
    exact le_wasserstein hp.nonneg hq.nonneg (hp.sum_eq.trans hq.sum_eq.symm) fun g hg => by rw [div_le_iff₀' h0]; exact key g hg

/-! ### `compare` -/

variable {δ : Type} {N : Notion δ} {w : World} {env : Env} {kwargs : Kwargs} {args : CompareArgs} {inp inp' : Input} {ds ds' : List δ} {e e' : δ} {cs cs' : List Crystal}

theorem compare_amd_metric_two (hv : ∀ c ∈ cs, c.Valid) (hv' : ∀ c ∈ cs', c.Valid) (hby : upper args.by_ = "AMD") (hn : args.nNeighbors = none) {metric : MetricArg ℝ}
    (hm : (kwOr kwargs "metric" (.str "chebyshev")).toMetric = .ok metric) (hl : (kwOr kwargs "low_memory" (.bool false)).truthy = false)
    (hg : getCrystals env args.csdRefcodes (routeKwargs args.verbose kwargs) inp = .ok cs)
    (hg' : getCrystals env args.csdRefcodes (routeKwargs args.verbose kwargs) inp' = .ok cs') :
    ∃ (a b : ℕ → List ℝ) (M : List (List ℝ)) (F : ℕ), IsMatrix cs.length cs'.length (fun i j => metric.dist env.other (a i) (b j)) M ∧ ∀ fuel ≥ F,
      (∀ i (hi : i < cs.length), AMD cs[i].set args.k fuel = .ok (a i)) ∧ (∀ j (hj : j < cs'.length), AMD cs'[j].set args.k fuel = .ok (b j)) ∧
      compare env inp (some inp') args kwargs fuel = .ok (.matrix (cs.map Crystal.name) (cs'.map Crystal.name) M) := by
  obtain ⟨a, F, h1, h2, h3⟩ := amds_all hv args.k
  obtain ⟨b, G, g1, g2, g3⟩ := amds_all hv' args.k
  obtain ⟨M, hM1, hM2⟩ := (C35_metric (other := env.other) (k := args.k) (rows := a) (rows' := b) metric).1
  rw [h1, g1] at hM2
  refine ⟨fun i => a.getD i [], fun i => b.getD i [], M, max F G, hM2, fun fuel hf => ⟨(h3 fuel (by omega)).2, (g3 fuel (by omega)).2, ?_⟩⟩
  rw [(compare_amd hby hg).2 _ _ hg', compareAmd, (h3 fuel (by omega)).1, hn]
  have hmet : (argOf (routeKwargs args.verbose kwargs).amds "metric").toMetric = .ok metric := hm
  have hlow : (argOf (routeKwargs args.verbose kwargs).amds "low_memory").truthy = false := hl
  simp only [lift, bind, Except.bind, hmet, hlow, hM1, (g3 fuel (by omega)).1]
  exact matrixFrame_ok hM2 (by simp) (by simp)

/-- Entry `x` of the matrix is right for `e` and `e'` by the metric `d`. -/
def Notion.RightAmdBy (N : Notion δ) (d : List ℝ → List ℝ → ℝ) (k : ℕ) (e e' : δ) (x : ℝ) : Prop :=
  (∀ a b, N.IsAMD e k a → N.IsAMD e' k b → x = d a b) ∧ (N.Same e e' → x = 0)

/-- What is allowed between an entry and the exact distance. -/
noncomputable def Notion.slackBy (N : Notion δ) (L : ℝ) (collapse : Bool) (tol : ℝ) (k : ℕ) (e e' : δ) : ℝ :=
  (if collapse then 4 * L * tol else 0) + emdTol (max (N.size e) (N.size e')) (L * (k * max (N.edge e) (N.edge e')))

/-- Entry `x` is right for `e` and `e'` by the metric `d`. -/
def Notion.RightPddBy (N : Notion δ) (d : List ℝ → List ℝ → ℝ) (k : ℕ) (slack : ℝ) (e e' : δ) (x : ℝ) : Prop :=
  (∀ p q, N.IsPDD e k p → N.IsPDD e' k q → |x - exactEmd d p q| ≤ slack) ∧ (N.Same e e' → 0 ≤ x ∧ x ≤ slack)

theorem Notion.Lawful.rightAmdBy (hN : N.Lawful) {d : List ℝ → List ℝ → ℝ} {k : ℕ} (hd : ∀ a, a.length = k → d a a = 0) {c c' : Crystal} (hc : N.Reads e c) (hc' : N.Reads e' c')
    (hg : N.Good k e) (hg' : N.Good k e') {fuel fuel' : ℕ} {a a' : List ℝ} (ha : AMD c.set k fuel = .ok a) (ha' : AMD c'.set k fuel' = .ok a') : N.RightAmdBy d k e e' (d a a') := by
  obtain ⟨S, rfl, hS⟩ := hc
  obtain ⟨S', rfl, hS'⟩ := hc'
  have hs := hg _ hS
  have hs' := hg' _ hS'
  refine ⟨fun x y hx hy => by rw [hN.amd hS hs ha hx, hN.amd hS' hs' ha' hy], fun hsame => ?_⟩
  obtain ⟨x, hx⟩ := hN.exists_amd hS k
  obtain ⟨y, hy⟩ := hN.exists_amd hS' k
  rw [hN.amd hS hs ha hx, hN.amd hS' hs' ha' hy, hN.same_amd hS hS' hsame hx hy]
  exact hd _ (hN.amd_length hy)

theorem Notion.Lawful.amd_two_by (hN : N.Lawful) (hby : upper args.by_ = "AMD") (hnn : args.nNeighbors = none) {metric : MetricArg ℝ}
    (hm : (kwOr kwargs "metric" (.str "chebyshev")).toMetric = .ok metric) (hl : (kwOr kwargs "low_memory" (.bool false)).truthy = false)
    (hd : ∀ a, a.length = args.k → metric.dist env.other a a = 0) (hi : N.Gives env args kwargs inp ds cs) (hi' : N.Gives env args kwargs inp' ds' cs')
    (he : ∀ e ∈ ds, N.Proper e) (he' : ∀ e ∈ ds', N.Proper e) (hne : ds ≠ []) (hne' : ds' ≠ []) :
    ∃ (M : List (List ℝ)) (f : ℕ → ℕ → ℝ) (F : ℕ), IsMatrix ds.length ds'.length f M ∧
      (∀ fuel ≥ F, compare env inp (some inp') args kwargs fuel = .ok (.matrix (ds.map N.name) (ds'.map N.name) M)) ∧
      ∀ i j (hi : i < ds.length) (hj : j < ds'.length), N.Good args.k ds[i] → N.Good args.k ds'[j] → N.RightAmdBy (metric.dist env.other) args.k ds[i] ds'[j] (f i j) := by
  obtain ⟨e1, e2, e3⟩ := hN.facts he hi.reads
  obtain ⟨e1', e2', e3'⟩ := hN.facts he' hi'.reads
  have hc0 : cs ≠ [] := fun h0 => hne (List.length_eq_zero_iff.1 (by rw [← e1, h0]; rfl))
  have hc0' : cs' ≠ [] := fun h0 => hne' (List.length_eq_zero_iff.1 (by rw [← e1', h0]; rfl))
  obtain ⟨a, b, M, F, hM, hF⟩ := compare_amd_metric_two e3 e3' hby hnn hm hl (hi.some hc0) (hi'.some hc0')
  rw [e1, e1'] at hM
  have hr := List.forall₂_iff_get.1 hi.reads
  have hr' := List.forall₂_iff_get.1 hi'.reads
  refine ⟨M, _, F, hM, fun fuel hf => by rw [(hF fuel hf).2.2, e2, e2'], fun i j hi hj hg hg' => ?_⟩
  obtain ⟨ha, hb, -⟩ := hF F le_rfl
  exact hN.rightAmdBy hd (hr.2 i hi (by omega)) (hr'.2 j hj (by omega)) hg hg' (ha i (by omega)) (hb j (by omega))

theorem Notion.Lawful.amd_one_by (hN : N.Lawful) (hby : upper args.by_ = "AMD") (hnn : args.nNeighbors = none) {metric : MetricArg ℝ}
    (hm : (kwOr kwargs "metric" (.str "chebyshev")).toMetric = .ok metric) (hl : (kwOr kwargs "low_memory" (.bool false)).truthy = false)
    (hd : ∀ a, a.length = args.k → metric.dist env.other a a = 0)
    (hsymm : ∀ a b, a.length = args.k → b.length = args.k → metric.dist env.other a b = metric.dist env.other b a)
    (hi : N.Gives env args kwargs inp ds cs) (he : ∀ e ∈ ds, N.Proper e) (hne : ds ≠ []) :
    ∃ (M : List (List ℝ)) (f : ℕ → ℕ → ℝ) (F : ℕ), IsMatrix ds.length ds.length f M ∧
      (∀ fuel ≥ F, compare env inp none args kwargs fuel = .ok (.matrix (ds.map N.name) (ds.map N.name) M)) ∧
      ∀ i j (hi : i < ds.length) (hj : j < ds.length), N.Good args.k ds[i] → N.Good args.k ds[j] → N.RightAmdBy (metric.dist env.other) args.k ds[i] ds[j] (f i j) := by
  obtain ⟨e1, e2, e3⟩ := hN.facts he hi.reads
  have hc0 : cs ≠ [] := fun h0 => hne (List.length_eq_zero_iff.1 (by rw [← e1, h0]; rfl))
  obtain ⟨a, M, F, hM, hF⟩ := C37_amd_metric e3 hby hnn hm hl (hi.some hc0) hc0
  rw [e1] at hM
  have hr := List.forall₂_iff_get.1 hi.reads
  refine ⟨M, _, F, hM, fun fuel hf => by rw [(hF fuel hf).2, e2], fun i j hi hj hg hg' => ?_⟩
  obtain ⟨ha, -⟩ := hF F le_rfl
  have right := fun i j (hi : i < ds.length) (hj : j < ds.length) (hg : N.Good args.k ds[i]) (hg' : N.Good args.k ds[j]) =>
    hN.rightAmdBy hd (hr.2 i hi (by omega)) (hr.2 j hj (by omega)) hg hg' (ha i (by omega)) (ha j (by omega))
  rcases lt_trichotomy i j with hij | rfl | hij
  · rw [if_neg hij.ne, min_eq_left hij.le, max_eq_right hij.le]
    exact right i j hi hj hg hg'
  · rw [if_pos rfl]
    refine ⟨fun x y hx hy => ?_, fun _ => rfl⟩
    rw [(hN.amd_unique (he _ (List.getElem_mem hi)) args.k).unique hx hy, hd _ (hN.amd_length hy)]
  · rw [if_neg hij.ne', min_eq_right hij.le, max_eq_left hij.le]
    obtain ⟨h1, h2⟩ := right j i hj hi hg' hg
    have hij' := right i j hi hj hg hg'
    refine ⟨fun x y hx hy => ?_, fun hsame => ?_⟩
    · rw [h1 y x hy hx, hsymm _ _ (hN.amd_length hy) (hN.amd_length hx)]
    · obtain ⟨x, hx⟩ := (hN.amd_unique (he _ (List.getElem_mem hi)) args.k).exists
      obtain ⟨y, hy⟩ := (hN.amd_unique (he _ (List.getElem_mem hj)) args.k).exists
      rw [h1 y x hy hx, hsymm _ _ (hN.amd_length hy) (hN.amd_length hx), ← hij'.1 x y hx hy, hij'.2 hsame]

/-! ### PDD -/

theorem Notion.Lawful.rightPdd_of_first_by (hN : N.Lawful) {d : List ℝ → List ℝ → ℝ} {k : ℕ} (hd : RowMetric k d) (he : N.Proper e) (he' : N.Proper e') {x s : ℝ} (h0 : 0 ≤ x)
    (first : ∀ p q, N.IsPDD e k p → N.IsPDD e' k q → |x - exactEmd d p q| ≤ s) : N.RightPddBy d k s e e' x := by
  refine ⟨first, fun hsame => ⟨h0, ?_⟩⟩
  obtain ⟨S, hS⟩ := hN.reads he
  obtain ⟨S', hS'⟩ := hN.reads he'
  obtain ⟨q, hq⟩ := hN.exists_pdd he hS k
  obtain ⟨q', hq'⟩ := hN.exists_pdd he' hS' k
  have h1 := first q q' hq hq'
  rw [exactEmd_zero hd (hN.weighted hq) (hN.weighted hq') (hN.same_pdd he he' hS hS' hsame hq hq'), sub_zero] at h1
  exact (le_abs_self x).trans h1

theorem Notion.Lawful.rightPddBy (hN : N.Lawful) {d : List ℝ → List ℝ → ℝ} {k : ℕ} {L : ℝ} (hd : TameMetric k L d) {c c' : Crystal} {tol : ℝ} (htol : 0 ≤ tol) (he : N.Proper e)
    (he' : N.Proper e') (hc : N.Reads e c) (hc' : N.Reads e' c') (hg : N.Good k e) (hg' : N.Good k e') {fuel fuel' fuel'' : ℕ} {p p' : List (PRow ℝ)}
    (hp : pddOf kwargs tol c k fuel = .ok p) (hp' : pddOf kwargs tol c' k fuel' = .ok p') {x : ℝ} {plan : List (List ℝ)} (hx : emd d p p' fuel'' = .ok (x, plan)) :
    0 ≤ x ∧ N.RightPddBy d k (N.slackBy L (kwOr kwargs "collapse" (.bool true)).truthy tol k e e') e e' x := by
  obtain ⟨S, rfl, hS⟩ := hc
  obtain ⟨S', rfl, hS'⟩ := hc'
  have hs := hg _ hS
  have hs' := hg' _ hS'
  have hw : ∀ q, N.IsPDD e k q → _ := fun q hq => hN.pdd he hS hs htol hp hq
  have hw' : ∀ q, N.IsPDD e' k q → _ := fun q hq => hN.pdd he' hS' hs' htol hp' hq
  obtain ⟨q, hq⟩ := hN.exists_pdd he hS k
  obtain ⟨q', hq'⟩ := hN.exists_pdd he' hS' k
  have w1 := (hw q hq).1
  have w1' := (hw' q' hq').1
  have met := hd.toRowMetric
  have h0 := C29_nonneg w1 w1' met.nonneg hx
  refine ⟨h0, hN.rightPdd_of_first_by met he he' h0 ?_⟩
  intro q q' hq hq'
  have w2 := hN.weighted hq
  have w2' := hN.weighted hq'
  have n1 := (exactEmd_tame hd w1 w2).trans (mul_le_mul_of_nonneg_left (hw q hq).2 hd.const)
  have n1' := (exactEmd_tame hd w1' w2').trans (mul_le_mul_of_nonneg_left (hw' q' hq').2 hd.const)
  obtain ⟨l1, r1⟩ := hN.range he hS hs hp
  obtain ⟨l1', r1'⟩ := hN.range he' hS' hs' hp'
  obtain ⟨a1, a2⟩ := hN.edge hS
  obtain ⟨a1', a2'⟩ := hN.edge hS'
  have hk : (0 : ℝ) ≤ k := Nat.cast_nonneg k
  have hB : 0 ≤ (k : ℝ) * max (N.edge e) (N.edge e') := mul_nonneg hk (a2.trans (le_max_left _ _))
  have near := emd_near w1 w1' met.nonneg (C := L * (k * max (N.edge e) (N.edge e'))) (fun r hr s hs => (hd.bound _ _ (w1.width r hr) (w1'.width s hs)).trans
    (mul_le_mul_of_nonneg_left (chebyshev_range hB (w1.width r hr) (w1'.width s hs)
    (fun y hy => ⟨(r1 r hr y hy).1, (r1 r hr y hy).2.trans (by rw [a1]; exact mul_le_mul_of_nonneg_left (le_max_left _ _) hk)⟩)
    (fun y hy => ⟨(r1' s hs y hy).1, (r1' s hs y hy).2.trans (by rw [a1']; exact mul_le_mul_of_nonneg_left (le_max_right _ _) hk)⟩)) hd.const)) hx
  have mono := emdTol_mono (max_le_max l1 l1') (mul_nonneg hd.const hB)
  have t1 := exactEmd_triangle met w1 w2 w1'
  have t2 := exactEmd_triangle met w2 w2' w1'
  have t3 := exactEmd_triangle met w2 w1 w2'
  have t4 := exactEmd_triangle met w1 w1' w2'
  rw [exactEmd_symm met w1' w2'] at t2
  rw [exactEmd_symm met w1 w2] at t3
  have e0 : N.slackBy L (kwOr kwargs "collapse" (.bool true)).truthy tol k e e' = 2 * (L * collapseError (kwOr kwargs "collapse" (.bool true)).truthy tol) +
      emdTol (max (N.size e) (N.size e')) (L * (k * max (N.edge e) (N.edge e'))) := by
    rw [Notion.slackBy, collapseError]
    split_ifs <;> ring
  rw [e0]
  rw [abs_le] at near ⊢
  constructor <;> linarith [near.1, near.2]

theorem Notion.slackBy_symm (L : ℝ) (collapse : Bool) (tol : ℝ) (k : ℕ) (e e' : δ) : N.slackBy L collapse tol k e e' = N.slackBy L collapse tol k e' e := by
  unfold Notion.slackBy
  rw [max_comm (N.size e), max_comm (N.edge e)]

theorem Notion.slackBy_nonneg {L : ℝ} (hL : 0 ≤ L) {collapse : Bool} {tol : ℝ} (htol : 0 ≤ tol) (k : ℕ) (e e' : δ) (ha : 0 ≤ N.edge e) : 0 ≤ N.slackBy L collapse tol k e e' := by
  unfold Notion.slackBy emdTol
  have hm : 0 ≤ max (N.edge e) (N.edge e') := ha.trans (le_max_left _ _)
  have : 0 ≤ (1 + 7 * (max (N.size e) (N.size e') : ℕ) * (L * ((k : ℝ) * max (N.edge e) (N.edge e')))) / 100000000 := by positivity
  have h4 : 0 ≤ 4 * L * tol := by positivity
  split_ifs <;> linarith

theorem Notion.Lawful.pdd_two_by (hN : N.Lawful) (hs : env.sched.Complete) (hby : upper args.by_ = "PDD") (hnn : args.nNeighbors = none) {tol : ℝ} (htol : 0 ≤ tol)
    {metric : MetricArg ℝ} {L : ℝ} (hd : TameMetric args.k L (metric.dist env.other))
    (ho : PddOptions kwargs tol metric) (hi : N.Gives env args kwargs inp ds cs) (hi' : N.Gives env args kwargs inp' ds' cs') (he : ∀ e ∈ ds, N.Proper e)
    (he' : ∀ e ∈ ds', N.Proper e) (hne : ds ≠ []) (hne' : ds' ≠ []) {collapse : Bool} (hcol : (kwOr kwargs "collapse" (.bool true)).truthy = collapse) :
    ∃ (M : List (List ℝ)) (f : ℕ → ℕ → ℝ) (F : ℕ), IsMatrix ds.length ds'.length f M ∧
      (∀ fuel ≥ F, compare env inp (some inp') args kwargs fuel = .ok (.matrix (ds.map N.name) (ds'.map N.name) M)) ∧
      ∀ i j (hi : i < ds.length) (hj : j < ds'.length), N.Good args.k ds[i] → N.Good args.k ds'[j] →
        N.RightPddBy (metric.dist env.other) args.k (N.slackBy L collapse tol args.k ds[i] ds'[j]) ds[i] ds'[j] (f i j) := by
  subst hcol
  obtain ⟨e1, e2, e3⟩ := hN.facts he hi.reads
  obtain ⟨e1', e2', e3'⟩ := hN.facts he' hi'.reads
  have hc0 : cs ≠ [] := fun h0 => hne (List.length_eq_zero_iff.1 (by rw [← e1, h0]; rfl))
  have hc0' : cs' ≠ [] := fun h0 => hne' (List.length_eq_zero_iff.1 (by rw [← e1', h0]; rfl))
  obtain ⟨p, q, x, M, F, hM, hF⟩ := C37_pdd_two hs e3 e3' hby hnn ho hd.nonneg (hi.some hc0) hc0 (hi'.some hc0')
  rw [e1, e1'] at hM
  have hr := List.forall₂_iff_get.1 hi.reads
  have hr' := List.forall₂_iff_get.1 hi'.reads
  refine ⟨M, x, F, hM, fun fuel hf => by rw [(hF fuel hf).2.2.2, e2, e2'], fun i j hi hj hg hg' => ?_⟩
  obtain ⟨hp, hq, hx, -⟩ := hF F le_rfl
  obtain ⟨plan, hx⟩ := hx i j (by omega) (by omega)
  exact (hN.rightPddBy hd htol (he _ (List.getElem_mem hi)) (he' _ (List.getElem_mem hj)) (hr.2 i hi (by omega)) (hr'.2 j hj (by omega)) hg hg' (hp i (by omega))
    (hq j (by omega)) hx).2

theorem Notion.Lawful.pdd_one_by (hN : N.Lawful) (hs : env.sched.Complete) (hby : upper args.by_ = "PDD") (hnn : args.nNeighbors = none) {tol : ℝ} (htol : 0 ≤ tol)
    {metric : MetricArg ℝ} {L : ℝ} (hd : TameMetric args.k L (metric.dist env.other))
    (ho : PddOptions kwargs tol metric) (hi : N.Gives env args kwargs inp ds cs) (he : ∀ e ∈ ds, N.Proper e) (hne : ds ≠ [])
    {collapse : Bool} (hcol : (kwOr kwargs "collapse" (.bool true)).truthy = collapse) :
    ∃ (M : List (List ℝ)) (f : ℕ → ℕ → ℝ) (F : ℕ), IsMatrix ds.length ds.length f M ∧
      (∀ fuel ≥ F, compare env inp none args kwargs fuel = .ok (.matrix (ds.map N.name) (ds.map N.name) M)) ∧
      ∀ i j (hi : i < ds.length) (hj : j < ds.length), N.Good args.k ds[i] → N.Good args.k ds[j] →
        N.RightPddBy (metric.dist env.other) args.k (N.slackBy L collapse tol args.k ds[i] ds[j]) ds[i] ds[j] (f i j) := by
  subst hcol
  obtain ⟨e1, e2, e3⟩ := hN.facts he hi.reads
  have hc0 : cs ≠ [] := fun h0 => hne (List.length_eq_zero_iff.1 (by rw [← e1, h0]; rfl))
  obtain ⟨p, x, M, F, hM, hF⟩ := C37_pdd hs e3 hby hnn ho hd.nonneg (hi.some hc0) hc0
  rw [e1] at hM
  have hr := List.forall₂_iff_get.1 hi.reads
  refine ⟨M, _, F, hM, fun fuel hf => by rw [(hF fuel hf).2.2, e2], fun i j hi hj hg hg' => ?_⟩
  obtain ⟨hp, hx, -⟩ := hF F le_rfl
  have lt : ∀ i j (hi : i < ds.length) (hj : j < ds.length), i < j → N.Good args.k ds[i] → N.Good args.k ds[j] → 0 ≤ x i j ∧
      N.RightPddBy (metric.dist env.other) args.k (N.slackBy L (kwOr kwargs "collapse" (.bool true)).truthy tol args.k ds[i] ds[j]) ds[i] ds[j] (x i j) := by
    intro i j hi hj hij hg hg'
    obtain ⟨plan, hx⟩ := hx i j hij (by omega)
    exact hN.rightPddBy hd htol (he _ (List.getElem_mem hi)) (he _ (List.getElem_mem hj)) (hr.2 i hi (by omega)) (hr.2 j hj (by omega)) hg hg' (hp i (by omega)) (hp j (by omega)) hx
  rcases lt_trichotomy i j with hij | rfl | hij
  · rw [if_neg hij.ne, min_eq_left hij.le, max_eq_right hij.le]
    exact (lt i j hi hj hij hg hg').2
  · rw [if_pos rfl]
    have hs := he _ (List.getElem_mem hi)
    obtain ⟨S, eS, hS⟩ := hr.2 i hi (by omega)
    refine hN.rightPdd_of_first_by hd.toRowMetric hs hs le_rfl fun p q hp hq => ?_
    rw [exactEmd_zero hd.toRowMetric (hN.weighted hp) (hN.weighted hq) ((hN.pdd_unique hs _).2 p q hp hq), sub_zero, abs_zero]
    exact Notion.slackBy_nonneg hd.const htol _ _ _ (hN.edge hS).2
  · rw [if_neg hij.ne', min_eq_right hij.le, max_eq_left hij.le, Notion.slackBy_symm]
    obtain ⟨h0, hR⟩ := lt j i hj hi hij hg' hg
    refine hN.rightPdd_of_first_by hd.toRowMetric (he _ (List.getElem_mem hi)) (he _ (List.getElem_mem hj)) h0 fun p q hp hq => ?_
    rw [exactEmd_symm hd.toRowMetric (hN.weighted hq) (hN.weighted hp)]
    exact hR.1 q p hq hp

end Amd
