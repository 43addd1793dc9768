import Verif.Proof.EmdSym
import Verif.Proof.PddFacts
import Mathlib.Algebra.Order.BigOperators.Group.List

/-!
# From flows to the statements about `EMD`
-/

set_option linter.unusedSectionVars false

namespace Amd

open Finset

theorem chebyshev_metric (k : ℕ) : RowMetric k chebyshev := by
  have h0 : ∀ r s : List ℝ, r.length = s.length → 0 ≤ chebyshev r s := fun r s h => ((chebyshev_le_iff h).1 le_rfl).1
  refine ⟨fun r s hr hs => h0 r s (hr.trans hs.symm), fun r _ => ?_, fun r s hr hs => ?_, fun r s t hr hs ht => ?_⟩
  · exact le_antisymm ((chebyshev_le_iff rfl).2 ⟨le_rfl, fun j _ => by simp⟩) (h0 r r rfl)
  · have : ∀ r s : List ℝ, r.length = k → s.length = k → chebyshev r s ≤ chebyshev s r := fun r s hr hs => by
      obtain ⟨h1, h2⟩ := (chebyshev_le_iff (hs.trans hr.symm)).1 (le_refl (chebyshev s r))
      exact (chebyshev_le_iff (hr.trans hs.symm)).2 ⟨h1, fun j hj => by rw [abs_sub_comm]; exact h2 j (by omega)⟩
    exact le_antisymm (this r s hr hs) (this s r hs hr)
  · obtain ⟨h1, h2⟩ := (chebyshev_le_iff (hr.trans hs.symm)).1 (le_refl (chebyshev r s))
    obtain ⟨h3, h4⟩ := (chebyshev_le_iff (hs.trans ht.symm)).1 (le_refl (chebyshev s t))
    refine (chebyshev_le_iff (hr.trans ht.symm)).2 ⟨add_nonneg h1 h3, fun j hj => ?_⟩
    have := abs_add_le (r.getD j 0 - s.getD j 0) (s.getD j 0 - t.getD j 0)
    rw [sub_add_sub_cancel] at this
    linarith [h2 j hj, h4 j (by omega)]

section
variable {k : ℕ} {p q : List (PRow ℝ)} {δ : List ℝ → List ℝ → ℝ} {C : ℝ} {fuel : ℕ} {d : ℝ} {plan : List (List ℝ)}

theorem exists_dist_bound (p q : List (PRow ℝ)) (δ : List ℝ → List ℝ → ℝ) : ∃ C, 0 ≤ C ∧ ∀ r ∈ p, ∀ s ∈ q, δ r.dists s.dists ≤ C := by
  refine ⟨∑ i : Fin p.length, ∑ j : Fin q.length, |δ p[i].dists q[j].dists|, sum_nonneg fun i _ => sum_nonneg fun j _ => abs_nonneg _, ?_⟩
  intro r hr s hs
  obtain ⟨i, hi, rfl⟩ := List.mem_iff_getElem.1 hr
  obtain ⟨j, hj, rfl⟩ := List.mem_iff_getElem.1 hs
  have h1 : |δ p[i].dists q[j].dists| ≤ ∑ j : Fin q.length, |δ p[i].dists q[j].dists| :=
    single_le_sum (f := fun j : Fin q.length => |δ p[i].dists q[j].dists|) (fun j _ => abs_nonneg _) (mem_univ ⟨j, hj⟩)
  have h2 : ∑ j : Fin q.length, |δ p[i].dists q[j].dists| ≤ ∑ i : Fin p.length, ∑ j : Fin q.length, |δ p[i].dists q[j].dists| :=
    single_le_sum (f := fun i : Fin p.length => ∑ j : Fin q.length, |δ p[i].dists q[j].dists|) (fun i _ => sum_nonneg fun j _ => abs_nonneg _) (mem_univ ⟨i, hi⟩)
  exact (le_abs_self _).trans (h1.trans h2)

theorem emd_near (hp : WeightedRows k p) (hq : WeightedRows k q) (hδ : ∀ r s, r.length = k → s.length = k → 0 ≤ δ r s) (hC : ∀ r ∈ p, ∀ s ∈ q, δ r.dists s.dists ≤ C)
    (h : emd δ p q fuel = .ok (d, plan)) : |d - exactEmd δ p q| ≤ emdTol (max p.length q.length) C := by
  obtain ⟨X, -, hX, -, -, eX⟩ := emd_out hp hq hδ
  have hR := emd_rounded hp hq hδ hC hX
  have e := eX _ _ h
  rw [Prod.mk.injEq] at e
  have := hp.inh
  have := hq.inh
  have hC0 := hR.C_nonneg
  obtain ⟨g, hg, hcost⟩ := hR.lower
  have hlow := wasserstein_le (fun i j => (hR.c_le i j).1) hg
  have hup : d - C * (5 * (max p.length q.length : ℕ) + 2) / 100000000 ≤ exactEmd δ p q := by
    refine le_wasserstein hR.a_nonneg hR.b_nonneg (hR.sa.trans hR.sb.symm) fun g hg => ?_
    have := hR.upper hg
    rw [← e.1] at this
    linarith
  rw [← e.1] at hcost
  have hN : (1 : ℝ) ≤ (max p.length q.length : ℕ) := by
    have h0 : 0 < p.length := List.length_pos_iff.2 hp.nonempty
    exact_mod_cast le_trans h0 (le_max_left _ _)
  have hCN : C ≤ C * (max p.length q.length : ℕ) := le_mul_of_one_le_right hC0 hN
  unfold emdTol
  rw [abs_le]
  constructor
  · have : exactEmd δ p q ≤ d + (1 + C * (2 * (max p.length q.length : ℕ))) / 100000000 := hlow.trans hcost
    have h2 : (1 + C * (2 * (max p.length q.length : ℕ))) / 100000000 ≤ (1 + 7 * (max p.length q.length : ℕ) * C) / 100000000 := by
      apply div_le_div_of_nonneg_right _ (by norm_num)
      nlinarith
    linarith
  · have h2 : C * (5 * (max p.length q.length : ℕ) + 2) / 100000000 ≤ (1 + 7 * (max p.length q.length : ℕ) * C) / 100000000 := by
      apply div_le_div_of_nonneg_right _ (by norm_num)
      nlinarith
    linarith

theorem exactEmd_triangle {r : List (PRow ℝ)} (hδ : RowMetric k δ) (hp : WeightedRows k p) (hq : WeightedRows k q) (hr : WeightedRows k r) :
    exactEmd δ p r ≤ exactEmd δ p q + exactEmd δ q r :=
  wasserstein_triangle hp.nonneg hq.nonneg hr.nonneg (hp.sum_eq.trans hq.sum_eq.symm) (hq.sum_eq.trans hr.sum_eq.symm)
    (fun i j => hδ.nonneg _ _ (hp.len i) (hr.len j)) fun i j l => hδ.triangle _ _ _ (hp.len i) (hq.len j) (hr.len l)

theorem weightAt_eq (p : List (PRow ℝ)) (x : List ℝ) [DecidableEq (List ℝ)] : weightAt p x = ∑ i : Fin p.length, if p[i].dists = x then p[i].weight else 0 := by
  classical
  unfold weightAt
  have : ∀ l : List (PRow ℝ), ((l.filter fun r => decide (r.dists = x)).map fun r => r.weight).sum = (l.map fun r => if r.dists = x then r.weight else 0).sum := by
    intro l
    induction l with
    | nil => simp
    | cons a l ih =>
      by_cases h : a.dists = x
      · simp [h, ih]
      · simp [h, ih]
  have h2 := this p
  have h3 : (p.map fun r => if r.dists = x then r.weight else 0).sum = ∑ i : Fin p.length, if p[i].dists = x then p[i].weight else 0 := by
    rw [← List.sum_ofFn]
    congr 1
    apply List.ext_getElem
    · simp
    · intro i h1 h2; simp
  rw [← h3, ← h2]
  congr!

theorem exactEmd_zero (hδ : RowMetric k δ) (hp : WeightedRows k p) (hq : WeightedRows k q) (h : ∀ x, weightAt p x = weightAt q x) : exactEmd δ p q = 0 := by
  classical
  refine wasserstein_zero (f := fun i : Fin p.length => p[i].dists) (f' := fun j : Fin q.length => q[j].dists) hp.nonneg hq.nonneg
    (fun i j => hδ.nonneg _ _ (hp.len i) (hq.len j)) (fun i j e => ?_) fun x => ?_
  · rw [e]; exact hδ.self _ (hq.len j)
  · rw [← weightAt_eq, ← weightAt_eq]; exact h x

theorem exactEmd_symm (hδ : RowMetric k δ) (hp : WeightedRows k p) (hq : WeightedRows k q) : exactEmd δ q p = exactEmd δ p q := by
  unfold exactEmd
  rw [← wasserstein_swap]
  congr 1
  funext j i
  exact hδ.symm _ _ (hq.len i) (hp.len j)

theorem exactEmd_congr {p' : List (PRow ℝ)} (hδ : RowMetric k δ) (hp : WeightedRows k p) (hp' : WeightedRows k p') (hq : WeightedRows k q)
    (h : ∀ x, weightAt p x = weightAt p' x) : exactEmd δ p q = exactEmd δ p' q := by
  have h1 := exactEmd_triangle hδ hp hp' hq
  have h2 := exactEmd_triangle hδ hp' hp hq
  rw [exactEmd_zero hδ hp hp' h] at h1
  rw [exactEmd_zero hδ hp' hp fun x => (h x).symm] at h2
  exact le_antisymm (by linarith) (by linarith)

theorem amd_entry {v : List ℝ} (hp : WeightedRows k p) (h : pddToAmd k p = .ok v) : v.length = k ∧ ∀ j < k, v.getD j 0 = ∑ i : Fin p.length, p[i].weight * p[i].dists.getD j 0 := by
  unfold pddToAmd at h
  have ht : (p.map (·.weight)).sum = 1 := hp.total
  rw [ht] at h
  rw [if_neg (by norm_num)] at h
  injection h with h
  subst h
  refine ⟨by simp, fun j hj => ?_⟩
  rw [List.getD_eq_getElem _ _ (by simpa using hj)]
  simp only [List.getElem_map, List.getElem_range, div_one]
  rw [← List.sum_ofFn]
  congr 1
  apply List.ext_getElem
  · simp
  · intro i h1 h2; simp

theorem amd_le_exactEmd {u v : List ℝ} (hp : WeightedRows k p) (hq : WeightedRows k q) (hu : pddToAmd k p = .ok u) (hv : pddToAmd k q = .ok v) :
    chebyshev u v ≤ exactEmd chebyshev p q := by
  obtain ⟨u1, u2⟩ := amd_entry hp hu
  obtain ⟨v1, v2⟩ := amd_entry hq hv
  refine (chebyshev_le_iff (u1.trans v1.symm)).2 ⟨wasserstein_nonneg fun i j => (chebyshev_metric k).nonneg _ _ (hp.len i) (hq.len j), fun j hj => ?_⟩
  rw [u2 j (by omega), v2 j (by omega)]
  refine mean_le_wasserstein hp.nonneg hq.nonneg (hp.sum_eq.trans hq.sum_eq.symm) fun i i' => ?_
  exact ((chebyshev_le_iff ((hp.len i).trans (hq.len i').symm)).1 le_rfl).2 j (by have := hp.len i; omega)

end

/-! ### Equal sums of integer weights -/

section
variable {ι κ : Type*} [Fintype ι] [Fintype κ]

/-- If the integer weights have the same sum, the flow found has all of it. -/
theorem NetOut.full {A : ι → ℤ} {B : κ → ℤ} {c X : ι → κ → ℤ} (h : NetOut A B c X) (hs : ∑ i, A i = ∑ j, B j) :
    (∀ i, ∑ j, X i j = A i) ∧ ∀ j, ∑ i, X i j = B j := by
  classical
  have hm := h.mass
  rw [hs, min_self] at hm
  have rowle : ∀ i, ∑ j, X i j ≤ A i := by
    rcases h.margins with ⟨_, h2, -⟩ | ⟨_, _, i0, -, h3, h4⟩
    · exact h2
    · intro i
      by_cases hi : i = i0
      · rw [hi]; rw [hs] at h4; simpa using h4
      · exact h3 i hi
  have colle : ∀ j, ∑ i, X i j ≤ B j := by
    rcases h.margins with ⟨_, _, i0, -, h3, h4⟩ | ⟨_, h2, -⟩
    · intro i
      by_cases hi : i = i0
      · rw [hi]; rw [hs] at h4; simpa using h4
      · exact h3 i hi
    · exact h2
  constructor
  · have := (sum_eq_sum_iff_of_le fun i (_ : i ∈ univ) => rowle i).1 (le_antisymm (sum_le_sum fun i _ => rowle i) (by rw [hs]; exact hm))
    exact fun i => this i (mem_univ i)
  · rw [sum_comm] at hm
    have := (sum_eq_sum_iff_of_le fun i (_ : i ∈ univ) => colle i).1 (le_antisymm (sum_le_sum fun i _ => colle i) hm)
    exact fun i => this i (mem_univ i)

/-- ... and is a cheapest plan. -/
theorem NetOut.value {A : ι → ℤ} {B : κ → ℤ} {c X : ι → κ → ℤ} (h : NetOut A B c X) (hs : ∑ i, A i = ∑ j, B j) (hA : ∀ i, 0 ≤ A i) (hB : ∀ j, 0 ≤ B j)
    (hc : ∀ i j, 0 ≤ c i j) :
    ∑ i, ∑ j, (X i j : ℝ) / 100000000 * ((c i j : ℝ) / 100000000) =
      wasserstein (fun i => (A i : ℝ) / 100000000) (fun j => (B j : ℝ) / 100000000) (fun i j => (c i j : ℝ) / 100000000) := by
  obtain ⟨hr, hcl⟩ := h.full hs
  have hc' : ∀ i j, (0 : ℝ) ≤ (c i j : ℝ) / 100000000 := fun i j => div_nonneg (Int.cast_nonneg (hc i j)) (by norm_num)
  apply le_antisymm
  · refine le_wasserstein (fun i => div_nonneg (Int.cast_nonneg (hA i)) (by norm_num)) (fun j => div_nonneg (Int.cast_nonneg (hB j)) (by norm_num)) ?_ fun g hg => ?_
    · rw [← sum_div, ← sum_div]
      congr 1
      exact_mod_cast hs
    · have hle : ∀ i j, 100000000 * g i j ≤ A i := fun i j => by
        have := single_le_sum (f := fun j => g i j) (fun j _ => hg.nonneg i j) (mem_univ j)
        rw [hg.rows i] at this
        linarith
      have hle' : ∀ i j, 100000000 * g i j ≤ B j := fun i j => by
        have := single_le_sum (f := fun i => g i j) (fun i _ => hg.nonneg i j) (mem_univ i)
        rw [hg.cols j] at this
        linarith
      have := h.opt (fun i j => 100000000 * g i j) (fun i j => ⟨mul_nonneg (by norm_num) (hg.nonneg i j), hle i j, hle' i j⟩)
        (fun i => by rw [← mul_sum, hg.rows i]; have : ((∑ j, X i j : ℤ) : ℝ) = A i := by rw [hr i]
                     push_cast at this; rw [this]; ring)
        (fun j => by rw [← mul_sum, hg.cols j]; have : ((∑ i, X i j : ℤ) : ℝ) = B j := by rw [hcl j]
                     push_cast at this; rw [this]; ring)
      rw [planCost_smul] at this
      have e1 : ∑ i, ∑ j, (X i j : ℝ) / 100000000 * ((c i j : ℝ) / 100000000) = planCost (fun i j => (c i j : ℝ)) (fun i j => (X i j : ℝ)) / 10000000000000000 := by
        unfold planCost
        simp only [sum_div]
        exact sum_congr rfl fun i _ => sum_congr rfl fun j _ => by ring
      have e2 : planCost (fun i j => (c i j : ℝ) / 100000000) g = planCost (fun i j => (c i j : ℝ)) g / 100000000 := by
        unfold planCost
        simp only [sum_div]
        exact sum_congr rfl fun i _ => sum_congr rfl fun j _ => by ring
      rw [e1, e2]
      linarith
  · have := wasserstein_le (c := fun i j => (c i j : ℝ) / 100000000) hc' (g := fun i j => (X i j : ℝ) / 100000000)
      (a := fun i => (A i : ℝ) / 100000000) (b := fun j => (B j : ℝ) / 100000000)
      ⟨fun i j => div_nonneg (Int.cast_nonneg (h.bounds i j).1) (by norm_num), fun i => ?_, fun j => ?_⟩
    · exact this
    · rw [← sum_div]; congr 1; exact_mod_cast hr i
    · rw [← sum_div]; congr 1; exact_mod_cast hcl j

end

section
variable {k : ℕ} {p q : List (PRow ℝ)} {δ : List ℝ → List ℝ → ℝ} {C : ℝ} {fuel : ℕ} {d : ℝ} {plan : List (List ℝ)}

theorem emd_balanced (hp : WeightedRows k p) (hq : WeightedRows k q) (hδ : ∀ r s, r.length = k → s.length = k → 0 ≤ δ r s)
    (hs : ∑ i : Fin p.length, ⌊p[i].weight * 100000000⌋ = ∑ j : Fin q.length, ⌊q[j].weight * 100000000⌋) (h : emd δ p q fuel = .ok (d, plan)) :
    d = wasserstein (fun i : Fin p.length => (⌊p[i].weight * 100000000⌋ : ℝ) / 100000000) (fun j : Fin q.length => (⌊q[j].weight * 100000000⌋ : ℝ) / 100000000)
      fun i j => (⌊δ p[i].dists q[j].dists * 100000000⌋ : ℝ) / 100000000 := by
  obtain ⟨X, -, hX, -, -, eX⟩ := emd_out hp hq hδ
  have e := eX _ _ h
  rw [Prod.mk.injEq] at e
  rw [e.1]
  refine hX.value hs (fun i => (floor_pos hp i).le) (fun j => (floor_pos hq j).le) fun i j => ?_
  exact Int.floor_nonneg.2 (mul_nonneg (hδ _ _ (hp.len i) (hq.len j)) (by norm_num))

theorem sum_fin_map {α : Type*} {M : Type*} [AddCommMonoid M] (l : List α) (f : α → M) : ∑ i : Fin l.length, f l[i] = (l.map f).sum := by
  rw [← List.sum_ofFn]
  congr 1
  apply List.ext_getElem
  · simp
  · intro i h1 h2; simp

/-- Permuted rows are at distance 0. -/
theorem emd_perm_zero (hδ : RowMetric k δ) (hp : WeightedRows k p) (hq : WeightedRows k q)
    (hpq : (p.map fun r => (r.weight, r.dists)).Perm (q.map fun r => (r.weight, r.dists))) (h : emd δ p q fuel = .ok (d, plan)) : d = 0 := by
  classical
  have key : ∀ {M : Type} [AddCommMonoid M] (f : ℝ × List ℝ → M), ∑ i : Fin p.length, f (p[i].weight, p[i].dists) = ∑ j : Fin q.length, f (q[j].weight, q[j].dists) := by
    intro M _ f
    rw [sum_fin_map p fun r => f (r.weight, r.dists), sum_fin_map q fun r => f (r.weight, r.dists)]
    have := (hpq.map f).sum_eq
    rwa [List.map_map, List.map_map] at this
  rw [emd_balanced hp hq hδ.nonneg (key fun x => ⌊x.1 * 100000000⌋) h]
  refine wasserstein_zero (f := fun i : Fin p.length => p[i].dists) (f' := fun j : Fin q.length => q[j].dists)
    (fun i => div_nonneg (Int.cast_nonneg (floor_pos hp i).le) (by norm_num)) (fun i => div_nonneg (Int.cast_nonneg (floor_pos hq i).le) (by norm_num)) (fun i j => ?_)
    (fun i j e => ?_) fun x => ?_
  · exact div_nonneg (Int.cast_nonneg (Int.floor_nonneg.2 (mul_nonneg (hδ.nonneg _ _ (hp.len i) (hq.len j)) (by norm_num)))) (by norm_num)
  · rw [e, hδ.self _ (hq.len j)]; simp
  · exact key fun y => if y.2 = x then (⌊y.1 * 100000000⌋ : ℝ) / 100000000 else 0

/-- PDDs of one row. -/
theorem emd_single {r s : List ℝ} {g g' : List ℕ} (hr : r.length = k) (hs : s.length = k) (hδ : ∀ r s, r.length = k → s.length = k → 0 ≤ δ r s)
    (h : emd δ [{ weight := 1, dists := r, group := g }] [{ weight := 1, dists := s, group := g' }] fuel = .ok (d, plan)) :
    d = (⌊δ r s * 100000000⌋ : ℝ) / 100000000 := by
  have w : ∀ (r : List ℝ) (g : List ℕ), r.length = k → WeightedRows k [{ weight := 1, dists := r, group := g }] := by
    intro r g hr
    exact ⟨by simp, by simpa using hr, by intro x hx; rw [List.mem_singleton.1 hx]; norm_num, by simp⟩
  obtain ⟨X, -, hX, -, -, eX⟩ := emd_out (w r g hr) (w s g' hs) hδ
  have e := eX _ _ h
  rw [Prod.mk.injEq] at e
  obtain ⟨h1, -⟩ := hX.full rfl
  have h2 := h1 0
  have h3 : X 0 0 = 100000000 := by
    have : ⌊(1 : ℝ) * 100000000⌋ = 100000000 := by norm_num
    simpa [this] using h2
  rw [e.1]
  simp only [List.length_singleton, Finset.univ_unique, Fin.default_eq_zero, Finset.sum_singleton, h3]
  simp

/-- The rows of a PDD of a set with at most `1e8` points. -/
theorem collapse_weight_ge (k : ℕ) (col : Bool) (tol : ℝ) (dists : List (List ℝ)) (ws : List ℝ)
    (hk : ∀ r ∈ dists, r.length = k) (hlen : ws.length = dists.length) {c : ℝ} (hc : 0 ≤ c) (hpos : ∀ w ∈ ws, c ≤ w) :
    ∀ r ∈ collapseRows k col tol dists ws, c ≤ r.weight := by
  rw [collapseRows_eq k col tol dists ws hk]
  intro r hr
  obtain ⟨g, hg, rfl⟩ := List.mem_map.mp hr
  have hall : ∀ i ∈ g, c ≤ ws.getD i 0 := by
    intro i hi
    have := rowGroups_lt hg hi
    rw [List.getD_eq_getElem _ _ (by omega)]
    exact hpos _ (List.getElem_mem _)
  obtain ⟨i, hi⟩ := List.exists_mem_of_ne_nil _ (by simpa using rowGroups_nonempty col tol dists g hg)
  refine (hall i hi).trans (List.single_le_sum ?_ _ (List.mem_map.2 ⟨i, hi, rfl⟩))
  intro x hx
  obtain ⟨j, hj, rfl⟩ := List.mem_map.1 hx
  exact hc.trans (hall j hj)

end

end Amd
