import Verif.Spec.MetricOrder
import Verif.Props.Matrices
import Mathlib.Algebra.Order.Chebyshev

/-! Metrics that bound each other. -/

namespace Amd

open Classical

theorem chebyshev_le_euclidean (k : ℕ) : BoundedBy k 1 chebyshev euclidean := by
  refine ⟨zero_le_one, fun r s hr hs => ?_⟩
  rw [one_mul, chebyshev_le_iff (hr.trans hs.symm)]
  refine ⟨Real.sqrt_nonneg _, fun j hj => ?_⟩
  rw [euclidean, zipWith_sum _ hr hs]
  refine Real.abs_le_sqrt ?_
  exact Finset.single_le_sum (f := fun i : Fin k => (r.getD i 0 - s.getD i 0) ^ 2) (fun i _ => sq_nonneg _) (Finset.mem_univ (⟨j, by omega⟩ : Fin k))

theorem euclidean_le_cityblock (k : ℕ) : BoundedBy k 1 euclidean cityblock := by
  refine ⟨zero_le_one, fun r s hr hs => ?_⟩
  rw [one_mul, euclidean, cityblock, zipWith_sum _ hr hs, zipWith_sum _ hr hs]
  refine Real.sqrt_le_iff.2 ⟨Finset.sum_nonneg fun _ _ => abs_nonneg _, ?_⟩
  have := Finset.sum_sq_le_sq_sum_of_nonneg (s := Finset.univ) (f := fun i : Fin k => |r.getD i 0 - s.getD i 0|) fun _ _ => abs_nonneg _
  simpa only [sq_abs] using this

theorem cityblock_le_euclidean (k : ℕ) : BoundedBy k √k cityblock euclidean := by
  refine ⟨Real.sqrt_nonneg _, fun r s hr hs => ?_⟩
  rw [euclidean, cityblock, zipWith_sum _ hr hs, zipWith_sum _ hr hs, ← Real.sqrt_mul (Nat.cast_nonneg k)]
  refine Real.le_sqrt_of_sq_le ?_
  have := sq_sum_le_card_mul_sum_sq (s := Finset.univ) (f := fun i : Fin k => |r.getD i 0 - s.getD i 0|)
  simpa only [sq_abs, Finset.card_univ, Fintype.card_fin] using this

theorem exactEmd_bounded {k : ℕ} {L : ℝ} {d d' : List ℝ → List ℝ → ℝ} (h : BoundedBy k L d d') (h0 : ∀ r s, r.length = k → s.length = k → 0 ≤ d r s) {p q : List (PRow ℝ)}
    (hp : WeightedRows k p) (hq : WeightedRows k q) : exactEmd d p q ≤ L * exactEmd d' p q := by
  have key : ∀ g, IsPlan (fun i : Fin p.length => p[i].weight) (fun j : Fin q.length => q[j].weight) g →
      exactEmd d p q ≤ L * planCost (fun i j => d' p[i].dists q[j].dists) g := by
    intro g hg
    refine (wasserstein_le (fun i j => h0 _ _ (hp.len i) (hq.len j)) hg).trans ?_
    unfold planCost
    rw [Finset.mul_sum]
    refine Finset.sum_le_sum fun i _ => ?_
    rw [Finset.mul_sum]
    refine Finset.sum_le_sum fun j _ => ?_
    calc g i j * d p[i].dists q[j].dists ≤ g i j * (L * d' p[i].dists q[j].dists) := mul_le_mul_of_nonneg_left (h.bound _ _ (hp.len i) (hq.len j)) (hg.nonneg i j)
      _ = L * (g i j * d' p[i].dists q[j].dists) := by ring
  rcases h.const.eq_or_lt with h0 | h0
  · obtain ⟨g, hg⟩ := exists_plan hp.nonneg hq.nonneg (hp.sum_eq.trans hq.sum_eq.symm)
    have := key g hg
    rwa [← h0, zero_mul] at this ⊢
  · rw [← div_le_iff₀' h0]
    exact le_wasserstein hp.nonneg hq.nonneg (hp.sum_eq.trans hq.sum_eq.symm) fun g hg => by rw [div_le_iff₀' h0]; exact key g hg

theorem pddOf_fuel {kwargs : Kwargs} {tol : ℝ} {c : Crystal} {k f f' : ℕ} {p q : List (PRow ℝ)} (h : pddOf kwargs tol c k f = .ok p) (h' : pddOf kwargs tol c k f' = .ok q) : p = q := by
  rcases le_total f f' with hf | hf
  · have := (PDD_fuel hf h).symm.trans h'
    simpa using this
  · have := h.symm.trans (PDD_fuel hf h')
    simpa using this

/-- The computed distance of two PDDs by a tame metric is near the exact one. -/
theorem pdds_near {kwargs : Kwargs} {c c' : Crystal} (hv : c.Valid) (hv' : c'.Valid) {tol : ℝ} {k n : ℕ} {C L : ℝ} {d : List ℝ → List ℝ → ℝ} (hd : TameMetric k L d) (hC0 : 0 ≤ C)
    (hC : PddWithin kwargs tol k n C c) (hC' : PddWithin kwargs tol k n C c') {f1 f2 f5 : ℕ} {p q : List (PRow ℝ)} (hp : pddOf kwargs tol c k f1 = .ok p) (hq : pddOf kwargs tol c' k f2 = .ok q)
    {x : ℝ} {plan : List (List ℝ)} (hx : emd d p q f5 = .ok (x, plan)) : 0 ≤ x ∧ |x - exactEmd d p q| ≤ emdTol n (L * C) := by
  obtain ⟨w, r0⟩ := pddOf_rows hv hp
  obtain ⟨w', r0'⟩ := pddOf_rows hv' hq
  obtain ⟨l1, c1⟩ := hC _ _ hp
  obtain ⟨l2, c2⟩ := hC' _ _ hq
  have hLC : 0 ≤ L * C := mul_nonneg hd.const hC0
  refine ⟨C29_nonneg w w' hd.nonneg hx, (emd_near w w' hd.nonneg (C := L * C) (fun r hr s hs => ?_) hx).trans (emdTol_mono (max_le l1 l2) hLC)⟩
  have w1 := w.width r hr
  have w2 := w'.width s hs
  exact (hd.bound _ _ w1 w2).trans (mul_le_mul_of_nonneg_left (chebyshev_range hC0 w1 w2 (fun y hy => ⟨r0 r hr y hy, c1 r hr y hy⟩) fun y hy => ⟨r0' s hs y hy, c2 s hs y hy⟩) hd.const)

theorem bounded_of_near {k : ℕ} {L t t' : ℝ} {d d' : List ℝ → List ℝ → ℝ} (h : BoundedBy k L d d') (h0 : ∀ r s, r.length = k → s.length = k → 0 ≤ d r s) {p q : List (PRow ℝ)}
    (hp : WeightedRows k p) (hq : WeightedRows k q) {x y : ℝ} (hx : |x - exactEmd d p q| ≤ t) (hy : |y - exactEmd d' p q| ≤ t') : x ≤ L * y + (t + L * t') := by
  have n1 := (abs_le.1 hx).2
  have n2 := mul_le_mul_of_nonneg_left (abs_le.1 hy).1 h.const
  have := exactEmd_bounded h h0 hp hq
  linarith

end Amd
