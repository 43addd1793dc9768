import Verif.Proof.RoundedRead
import Verif.Proof.Metrics
import Verif.Proof.Pairs

/-!
# Few digits and other metrics: proofs for C115
-/

namespace Amd

open Classical

variable {B : CifBackends} {asString : String → String} {rh : Bool} {d : String} {o : ReadOptions} {w : World} {env : Env} {kw kwargs : Kwargs} {args : CompareArgs}
  {inp inp' : Input} {ds ds' is is' : List Described} {c c' c₀ : Described} {δ η : ℝ} {S S' : PeriodicSet 3} {k : ℕ} {e : CifEntry}

/-- Entry `x` of the matrix is near the right one. -/
def NearAmdBy (d : List ℝ → List ℝ → ℝ) (L δ : ℝ) (k : ℕ) (c c' : Described) (x : ℝ) : Prop :=
  (∀ a b, c.IsAMD k a → c'.IsAMD k b → |x - d a b| ≤ L * (c.roundError δ + c'.roundError δ)) ∧ (DescribeSame c c' → 0 ≤ x ∧ x ≤ L * (c.roundError δ + c'.roundError δ))

theorem nearAmd_by {d : List ℝ → List ℝ → ℝ} {L : ℝ} (met : TameMetric k L d) (hp : c.ProperRounded δ) (hp' : c'.ProperRounded δ) {x x' : Crystal} (hc : ∃ S, x = ⟨c.name, 3, S⟩ ∧ RoundFacts (4 * δ) c S)
    (hc' : ∃ S, x' = ⟨c'.name, 3, S⟩ ∧ RoundFacts (4 * δ) c' S) (hk : 0 < k) (hg : RoundGood (4 * δ) k c) (hg' : RoundGood (4 * δ) k c') {fuel fuel' : ℕ} {a a' : List ℝ}
    (ha : AMD x.set k fuel = .ok a) (ha' : AMD x'.set k fuel' = .ok a') : NearAmdBy d L δ k c c' (d a a') := by
  obtain ⟨S, rfl, hS⟩ := hc
  obtain ⟨S', rfl, hS'⟩ := hc'
  have hs := hg _ hS
  have hs' := hg' _ hS'
  have key : ∀ b b', c.IsAMD k b → c'.IsAMD k b' → |d a a' - d b b'| ≤ L * (c.roundError δ + c'.roundError δ) := by
    intro b b' hb hb'
    obtain ⟨l1, l2, h1⟩ := hS.amd hs ha hb
    obtain ⟨l1', l2', h1'⟩ := hS'.amd hs' ha' hb'
    have n0 := (abs_nonneg _).trans (h1 0 hk)
    have n0' := (abs_nonneg _).trans (h1' 0 hk)
    have n1 : chebyshev a b ≤ c.roundError δ := by
      rw [roundError_eq]
      exact (chebyshev_le_iff (l1.trans l2.symm)).2 ⟨n0, fun j hj => h1 j (by omega)⟩
    have n1' : chebyshev a' b' ≤ c'.roundError δ := by
      rw [roundError_eq]
      exact (chebyshev_le_iff (l1'.trans l2'.symm)).2 ⟨n0', fun j hj => h1' j (by omega)⟩
    have n1 := (met.bound _ _ l1 l2).trans (mul_le_mul_of_nonneg_left n1 met.const)
    have n1' := (met.bound _ _ l1' l2').trans (mul_le_mul_of_nonneg_left n1' met.const)
    have t1 := met.triangle a b a' l1 l2 l1'
    have t2 := met.triangle b b' a' l2 l2' l1'
    have t3 := met.triangle b a b' l2 l1 l2'
    have t4 := met.triangle a a' b' l1 l1' l2'
    rw [met.symm b' a' l2' l1'] at t2
    rw [met.symm b a l2 l1] at t3
    rw [abs_le, mul_add]
    constructor <;> linarith
  refine ⟨key, fun hsame => ?_⟩
  obtain ⟨S₁, hS₁⟩ := hp.proper.reads
  obtain ⟨S₁', hS₁'⟩ := hp'.proper.reads
  obtain ⟨b, hb⟩ := hS₁.exists_amd k
  obtain ⟨b', hb'⟩ := hS₁'.exists_amd k
  have h1 := key b b' hb hb'
  rw [DescribeSame.amd hS₁ hS₁' hsame hb hb', met.self _ (hS'.amd hs' ha' hb').2.1, sub_zero] at h1
  exact ⟨met.nonneg _ _ (hS.amd hs ha hb).1 (hS'.amd hs' ha' hb').1, (le_abs_self _).trans h1⟩

theorem rounded_amd_two_by {cs cs' : List Crystal} (hby : upper args.by_ = "AMD") (hnn : args.nNeighbors = none) (hk : 0 < args.k)
    {metric : MetricArg ℝ} {L : ℝ} (hd : TameMetric args.k L (metric.dist env.other))
    (hm : (kwOr kwargs "metric" (.str "chebyshev")).toMetric = .ok metric) (hl : (kwOr kwargs "low_memory" (.bool false)).truthy = false) (hi : GivesRounded δ env args kwargs inp is cs) (hi' : GivesRounded δ env args kwargs inp' is' cs')
    (he : ∀ c ∈ is, c.ProperRounded δ) (he' : ∀ c ∈ is', c.ProperRounded δ) (hne : is ≠ []) (hne' : is' ≠ []) :
    ∃ (M : List (List ℝ)) (f : ℕ → ℕ → ℝ) (F : ℕ), IsMatrix is.length is'.length f M ∧
      (∀ fuel ≥ F, compare env inp (some inp') args kwargs fuel = .ok (.matrix (is.map Described.name) (is'.map Described.name) M)) ∧
      ∀ i j (hi : i < is.length) (hj : j < is'.length), RoundGood (4 * δ) args.k is[i] → RoundGood (4 * δ) args.k is'[j] → NearAmdBy (metric.dist env.other) L δ args.k is[i] is'[j] (f i j) := by
  obtain ⟨e1, e2, e3⟩ := hi.facts he
  obtain ⟨e1', e2', e3'⟩ := hi'.facts he'
  have hc0 : cs ≠ [] := fun h0 => hne (List.length_eq_zero_iff.1 (by rw [← e1, h0]; rfl))
  have hc0' : cs' ≠ [] := fun h0 => hne' (List.length_eq_zero_iff.1 (by rw [← e1', h0]; rfl))
  obtain ⟨a, b, M, F, hM, hF⟩ := compare_amd_metric_two e3 e3' hby hnn hm hl (hi.given hc0) (hi'.given hc0')
  rw [e1, e1'] at hM
  have hr := List.forall₂_iff_get.1 hi.reads
  have hr' := List.forall₂_iff_get.1 hi'.reads
  refine ⟨M, _, F, hM, fun fuel hf => by rw [(hF fuel hf).2.2, e2, e2'], fun i j hi hj hg hg' => ?_⟩
  obtain ⟨ha, hb, -⟩ := hF F le_rfl
  exact nearAmd_by hd (he _ (List.getElem_mem hi)) (he' _ (List.getElem_mem hj)) (hr.2 i hi (by omega)) (hr'.2 j hj (by omega)) hk hg hg' (ha i (by omega)) (hb j (by omega))

theorem rounded_amd_one_by {cs : List Crystal} (hby : upper args.by_ = "AMD") (hnn : args.nNeighbors = none) (hk : 0 < args.k)
    {metric : MetricArg ℝ} {L : ℝ} (hd : TameMetric args.k L (metric.dist env.other))
    (hm : (kwOr kwargs "metric" (.str "chebyshev")).toMetric = .ok metric) (hl : (kwOr kwargs "low_memory" (.bool false)).truthy = false) (hi : GivesRounded δ env args kwargs inp is cs) (he : ∀ c ∈ is, c.ProperRounded δ) (hne : is ≠ []) :
    ∃ (M : List (List ℝ)) (f : ℕ → ℕ → ℝ) (F : ℕ), IsMatrix is.length is.length f M ∧
      (∀ fuel ≥ F, compare env inp none args kwargs fuel = .ok (.matrix (is.map Described.name) (is.map Described.name) M)) ∧
      ∀ i j (hi : i < is.length) (hj : j < is.length), RoundGood (4 * δ) args.k is[i] → RoundGood (4 * δ) args.k is[j] → NearAmdBy (metric.dist env.other) L δ args.k is[i] is[j] (f i j) := by
  obtain ⟨e1, e2, e3⟩ := hi.facts he
  have hc0 : cs ≠ [] := fun h0 => hne (List.length_eq_zero_iff.1 (by rw [← e1, h0]; rfl))
  obtain ⟨a, M, F, hM, hF⟩ := C37_amd_metric e3 hby hnn hm hl (hi.given hc0) hc0
  rw [e1] at hM
  have hr := List.forall₂_iff_get.1 hi.reads
  refine ⟨M, _, F, hM, fun fuel hf => by rw [(hF fuel hf).2, e2], fun i j hi hj hg hg' => ?_⟩
  obtain ⟨ha, -⟩ := hF F le_rfl
  have h := nearAmd_by hd (he _ (List.getElem_mem hi)) (he _ (List.getElem_mem hj)) (hr.2 i hi (by omega)) (hr.2 j hj (by omega)) hk hg hg' (ha i (by omega)) (ha j (by omega))
  have len : ∀ (t : ℕ) (ht : t < is.length), RoundGood (4 * δ) args.k is[t] → (a t).length = args.k := by
    intro t ht hgt
    exact amd_width (e3 _ (List.getElem_mem (by omega))) (ha t (by omega))
  have e : (if i = j then 0 else metric.dist env.other (a (min i j)) (a (max i j))) = metric.dist env.other (a i) (a j) := by
    rcases lt_trichotomy i j with hij | hij | hij
    · rw [if_neg hij.ne, min_eq_left hij.le, max_eq_right hij.le]
    · subst hij
      rw [if_pos rfl, hd.self _ (len i hi hg)]
    · rw [if_neg hij.ne', min_eq_right hij.le, max_eq_left hij.le, hd.symm _ _ (len j hj hg') (len i hi hg)]
  rw [e]
  exact h

/-! ### PDD -/

/-- Entry `x` of the matrix is near the right one. -/
def NearPddBy (d : List ℝ → List ℝ → ℝ) (k : ℕ) (s : ℝ) (c c' : Described) (x : ℝ) : Prop :=
  (∀ p q, c.IsPDD k p → c'.IsPDD k q → |x - exactEmd d p q| ≤ s) ∧ (DescribeSame c c' → 0 ≤ x ∧ x ≤ s)

/-- What is allowed between an entry and the exact distance. -/
noncomputable def roundSlackBy (L δ : ℝ) (collapse : Bool) (tol : ℝ) (k : ℕ) (c c' : Described) : ℝ :=
  (if collapse then 4 * L * tol else 0) + emdTol (max c.size c'.size) (L * (k * max (c.cell.a : ℝ) c'.cell.a)) + L * (c.roundError δ + c'.roundError δ)

theorem nearPdd_of_first_by {d : List ℝ → List ℝ → ℝ} (met : RowMetric k d) (hp : c.Proper) (hp' : c'.Proper) {x s : ℝ} (h0 : 0 ≤ x)
    (first : ∀ p q, c.IsPDD k p → c'.IsPDD k q → |x - exactEmd d p q| ≤ s) : NearPddBy d k s c c' x := by
  refine ⟨first, fun hsame => ⟨h0, ?_⟩⟩
  obtain ⟨S, hS⟩ := hp.reads
  obtain ⟨S', hS'⟩ := hp'.reads
  obtain ⟨q, hq⟩ := hS.exists_pdd hp.size k
  obtain ⟨q', hq'⟩ := hS'.exists_pdd hp'.size k
  have h1 := first q q' hq hq'
  rw [exactEmd_zero met (weighted_of_isPDD hq) (weighted_of_isPDD hq') (DescribeSame.pdd hS hS' hp.size hp'.size hsame hq hq'), sub_zero] at h1
  exact (le_abs_self x).trans h1

theorem nearPdd_by {d : List ℝ → List ℝ → ℝ} {L : ℝ} (hd : TameMetric k L d) {tol : ℝ} (htol : 0 ≤ tol) (hp : c.ProperRounded δ) (hp' : c'.ProperRounded δ) {y y' : Crystal} (hc : ∃ S, y = ⟨c.name, 3, S⟩ ∧ RoundFacts (4 * δ) c S)
    (hc' : ∃ S, y' = ⟨c'.name, 3, S⟩ ∧ RoundFacts (4 * δ) c' S) (hg : RoundGood (4 * δ) k c) (hg' : RoundGood (4 * δ) k c') {fuel fuel' fuel'' : ℕ} {p p' : List (PRow ℝ)}
    (h1 : pddOf kwargs tol y k fuel = .ok p) (h1' : pddOf kwargs tol y' k fuel' = .ok p') {x : ℝ} {plan : List (List ℝ)} (hx : emd d p p' fuel'' = .ok (x, plan)) :
    0 ≤ x ∧ NearPddBy d k (roundSlackBy L δ (kwOr kwargs "collapse" (.bool true)).truthy tol k c c') c c' x := by
  obtain ⟨S, rfl, hS⟩ := hc
  obtain ⟨S', rfl, hS'⟩ := hc'
  have hs := hg _ hS
  have hs' := hg' _ hS'
  obtain ⟨z1, -, inds, mult, u1, u2, u3, u4⟩ := hS.description hp.proper
  obtain ⟨z1', -, inds', mult', u1', u2', u3', u4'⟩ := hS'.description hp'.proper
  have met := hd.toRowMetric
  have w1 : WeightedRows k p := EMD_input_of_PDD (by norm_num) u1 u2 u3 u4 (z1.trans hp.proper.size) h1
  have w1' : WeightedRows k p' := EMD_input_of_PDD (by norm_num) u1' u2' u3' u4' (z1'.trans hp'.proper.size) h1'
  have h0 := C29_nonneg w1 w1' met.nonneg hx
  refine ⟨h0, nearPdd_of_first_by met hp.proper hp'.proper h0 ?_⟩
  intro q q' hq hq'
  obtain ⟨-, n1⟩ := hS.pdd (z1.trans hp.proper.size) hs htol h1 hq
  obtain ⟨-, n1'⟩ := hS'.pdd (z1'.trans hp'.proper.size) hs' htol h1' hq'
  rw [← roundError_eq] at n1 n1'
  have w2 := weighted_of_isPDD hq
  have w2' := weighted_of_isPDD hq'
  have n1 := (exactEmd_tame hd w1 w2).trans (mul_le_mul_of_nonneg_left n1 hd.const)
  have n1' := (exactEmd_tame hd w1' w2').trans (mul_le_mul_of_nonneg_left n1' hd.const)
  obtain ⟨l1, r1⟩ := PDD_range (by norm_num) u1 u2 u3 u4 hs h1 0
  obtain ⟨l1', r1'⟩ := PDD_range (by norm_num) u1' u2' u3' u4' hs' h1' 0
  obtain ⟨a1, a2⟩ := hS.edge
  obtain ⟨a1', a2'⟩ := hS'.edge
  have hk : (0 : ℝ) ≤ k := Nat.cast_nonneg k
  have hB : 0 ≤ (k : ℝ) * max (c.cell.a : ℝ) c'.cell.a := mul_nonneg hk (a2.trans (le_max_left _ _))
  have near := emd_near w1 w1' met.nonneg (C := L * (k * max (c.cell.a : ℝ) c'.cell.a)) (fun r hr s hs => (hd.bound _ _ (w1.width r hr) (w1'.width s hs)).trans
    (mul_le_mul_of_nonneg_left (chebyshev_range hB (w1.width r hr) (w1'.width s hs)
    (fun y hy => ⟨(r1 r hr y hy).1, (r1 r hr y hy).2.trans (by rw [a1]; exact mul_le_mul_of_nonneg_left (le_max_left _ _) hk)⟩)
    (fun y hy => ⟨(r1' s hs y hy).1, (r1' s hs y hy).2.trans (by rw [a1']; exact mul_le_mul_of_nonneg_left (le_max_right _ _) hk)⟩)) hd.const)) hx
  have mono := emdTol_mono (max_le_max (l1.trans z1) (l1'.trans z1')) (mul_nonneg hd.const hB)
  have t1 := exactEmd_triangle met w1 w2 w1'
  have t2 := exactEmd_triangle met w2 w2' w1'
  have t3 := exactEmd_triangle met w2 w1 w2'
  have t4 := exactEmd_triangle met w1 w1' w2'
  rw [exactEmd_symm met w1' w2'] at t2
  rw [exactEmd_symm met w1 w2] at t3
  have e0 : roundSlackBy L δ (kwOr kwargs "collapse" (.bool true)).truthy tol k c c' = 2 * (L * collapseError (kwOr kwargs "collapse" (.bool true)).truthy tol) +
      emdTol (max c.size c'.size) (L * (k * max (c.cell.a : ℝ) c'.cell.a)) + (L * c.roundError δ + L * c'.roundError δ) := by
    rw [roundSlackBy, collapseError]
    split_ifs <;> ring
  rw [e0]
  rw [abs_le] at near ⊢
  constructor <;> linarith [near.1, near.2]

theorem roundSlack_symm_by (L : ℝ) (collapse : Bool) (tol : ℝ) (k : ℕ) (c c' : Described) : roundSlackBy L δ collapse tol k c c' = roundSlackBy L δ collapse tol k c' c := by
  unfold roundSlackBy
  rw [max_comm c.size, max_comm (c.cell.a : ℝ), add_comm (c.roundError δ)]

theorem RoundFacts.slackBy_nonneg {L : ℝ} (hL : 0 ≤ L) (h : RoundFacts η c S) (h' : RoundFacts η c' S') (hδ : 0 ≤ δ) {collapse : Bool} {tol : ℝ} (htol : 0 ≤ tol) (k : ℕ) :
    0 ≤ roundSlackBy L δ collapse tol k c c' := by
  have n1 := h.error_nonneg hδ
  have n2 := h'.error_nonneg hδ
  unfold roundSlackBy emdTol
  have hm : 0 ≤ max (c.cell.a : ℝ) c'.cell.a := h.edge.2.trans (le_max_left _ _)
  have : 0 ≤ (1 + 7 * (max c.size c'.size : ℕ) * (L * ((k : ℝ) * max (c.cell.a : ℝ) c'.cell.a))) / 100000000 := by positivity
  have h4 : 0 ≤ 4 * L * tol := by positivity
  have h5 : 0 ≤ L * (c.roundError δ + c'.roundError δ) := by positivity
  split_ifs <;> linarith

theorem rounded_pdd_two_by {cs cs' : List Crystal} (hs : env.sched.Complete) (hby : upper args.by_ = "PDD") (hnn : args.nNeighbors = none) {tol : ℝ} (htol : 0 ≤ tol)
    {metric : MetricArg ℝ} {L : ℝ} (hd : TameMetric args.k L (metric.dist env.other))
    (ho : PddOptions kwargs tol metric) (hi : GivesRounded δ env args kwargs inp is cs) (hi' : GivesRounded δ env args kwargs inp' is' cs')
    (he : ∀ c ∈ is, c.ProperRounded δ) (he' : ∀ c ∈ is', c.ProperRounded δ) (hne : is ≠ []) (hne' : is' ≠ [])
    {collapse : Bool} (hcol : (kwOr kwargs "collapse" (.bool true)).truthy = collapse) :
    ∃ (M : List (List ℝ)) (f : ℕ → ℕ → ℝ) (F : ℕ), IsMatrix is.length is'.length f M ∧
      (∀ fuel ≥ F, compare env inp (some inp') args kwargs fuel = .ok (.matrix (is.map Described.name) (is'.map Described.name) M)) ∧
      ∀ i j (hi : i < is.length) (hj : j < is'.length), RoundGood (4 * δ) args.k is[i] → RoundGood (4 * δ) args.k is'[j] →
        NearPddBy (metric.dist env.other) args.k (roundSlackBy L δ collapse tol args.k is[i] is'[j]) is[i] is'[j] (f i j) := by
  subst hcol
  obtain ⟨e1, e2, e3⟩ := hi.facts he
  obtain ⟨e1', e2', e3'⟩ := hi'.facts he'
  have hc0 : cs ≠ [] := fun h0 => hne (List.length_eq_zero_iff.1 (by rw [← e1, h0]; rfl))
  have hc0' : cs' ≠ [] := fun h0 => hne' (List.length_eq_zero_iff.1 (by rw [← e1', h0]; rfl))
  obtain ⟨p, q, x, M, F, hM, hF⟩ := C37_pdd_two hs e3 e3' hby hnn ho hd.nonneg (hi.given hc0) hc0 (hi'.given hc0')
  rw [e1, e1'] at hM
  have hr := List.forall₂_iff_get.1 hi.reads
  have hr' := List.forall₂_iff_get.1 hi'.reads
  refine ⟨M, x, F, hM, fun fuel hf => by rw [(hF fuel hf).2.2.2, e2, e2'], fun i j hi hj hg hg' => ?_⟩
  obtain ⟨hp, hq, hx, -⟩ := hF F le_rfl
  obtain ⟨plan, hx⟩ := hx i j (by omega) (by omega)
  exact (nearPdd_by hd htol (he _ (List.getElem_mem hi)) (he' _ (List.getElem_mem hj)) (hr.2 i hi (by omega)) (hr'.2 j hj (by omega)) hg hg' (hp i (by omega))
    (hq j (by omega)) hx).2

theorem rounded_pdd_one_by {cs : List Crystal} (hs : env.sched.Complete) (hby : upper args.by_ = "PDD") (hnn : args.nNeighbors = none) {tol : ℝ} (htol : 0 ≤ tol)
    {metric : MetricArg ℝ} {L : ℝ} (hd : TameMetric args.k L (metric.dist env.other))
    (ho : PddOptions kwargs tol metric) (hi : GivesRounded δ env args kwargs inp is cs) (he : ∀ c ∈ is, c.ProperRounded δ) (hne : is ≠ [])
    {collapse : Bool} (hcol : (kwOr kwargs "collapse" (.bool true)).truthy = collapse) :
    ∃ (M : List (List ℝ)) (f : ℕ → ℕ → ℝ) (F : ℕ), IsMatrix is.length is.length f M ∧
      (∀ fuel ≥ F, compare env inp none args kwargs fuel = .ok (.matrix (is.map Described.name) (is.map Described.name) M)) ∧
      ∀ i j (hi : i < is.length) (hj : j < is.length), RoundGood (4 * δ) args.k is[i] → RoundGood (4 * δ) args.k is[j] →
        NearPddBy (metric.dist env.other) args.k (roundSlackBy L δ collapse tol args.k is[i] is[j]) is[i] is[j] (f i j) := by
  subst hcol
  obtain ⟨e1, e2, e3⟩ := hi.facts he
  have hc0 : cs ≠ [] := fun h0 => hne (List.length_eq_zero_iff.1 (by rw [← e1, h0]; rfl))
  obtain ⟨p, x, M, F, hM, hF⟩ := C37_pdd hs e3 hby hnn ho hd.nonneg (hi.given hc0) hc0
  rw [e1] at hM
  have hr := List.forall₂_iff_get.1 hi.reads
  refine ⟨M, _, F, hM, fun fuel hf => by rw [(hF fuel hf).2.2, e2], fun i j hi hj hg hg' => ?_⟩
  obtain ⟨hp, hx, -⟩ := hF F le_rfl
  have lt : ∀ i j (hi : i < is.length) (hj : j < is.length), i < j → RoundGood (4 * δ) args.k is[i] → RoundGood (4 * δ) args.k is[j] → 0 ≤ x i j ∧
      NearPddBy (metric.dist env.other) args.k (roundSlackBy L δ (kwOr kwargs "collapse" (.bool true)).truthy tol args.k is[i] is[j]) is[i] is[j] (x i j) := by
    intro i j hi hj hij hg hg'
    obtain ⟨plan, hx⟩ := hx i j hij (by omega)
    exact nearPdd_by hd htol (he _ (List.getElem_mem hi)) (he _ (List.getElem_mem hj)) (hr.2 i hi (by omega)) (hr.2 j hj (by omega)) hg hg' (hp i (by omega)) (hp j (by omega)) hx
  rcases lt_trichotomy i j with hij | rfl | hij
  · rw [if_neg hij.ne, min_eq_left hij.le, max_eq_right hij.le]
    exact (lt i j hi hj hij hg hg').2
  · rw [if_pos rfl]
    have hs := (he _ (List.getElem_mem hi)).proper
    obtain ⟨S, -, hS⟩ := hr.2 i hi (by omega)
    obtain ⟨T, hT⟩ := hs.reads
    have same : DescribeSame is[i] is[i] := ⟨_, _, hT.cell, hT.cell, id, fun _ _ => rfl, by rw [Set.image_id]⟩
    refine nearPdd_of_first_by hd.toRowMetric hs hs le_rfl fun p q hp hq => ?_
    rw [exactEmd_zero hd.toRowMetric (weighted_of_isPDD hp) (weighted_of_isPDD hq) (DescribeSame.pdd hT hT hs.size hs.size same hp hq), sub_zero, abs_zero]
    exact RoundFacts.slackBy_nonneg hd.const hS hS (he _ (List.getElem_mem hi)).nonneg htol _
  · rw [if_neg hij.ne', min_eq_right hij.le, max_eq_left hij.le, roundSlack_symm_by]
    obtain ⟨h0, hR⟩ := lt j i hj hi hij hg' hg
    refine nearPdd_of_first_by hd.toRowMetric (he _ (List.getElem_mem hi)).proper (he _ (List.getElem_mem hj)).proper h0 fun p q hp hq => ?_
    rw [exactEmd_symm hd.toRowMetric (weighted_of_isPDD hq) (weighted_of_isPDD hp)]
    exact hR.1 q p hq hp

end Amd
