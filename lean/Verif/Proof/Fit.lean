import Verif.Spec.Transport
import Mathlib.Tactic.Linarith
import Mathlib.Tactic.FieldSimp
import Mathlib.Tactic.Ring
import Mathlib.Algebra.Order.BigOperators.Group.Finset
import Mathlib.Algebra.Order.Field.Basic
import Mathlib.Algebra.BigOperators.Field

/-!
# Changing a flow a little to fit given row and column sums
-/

set_option linter.unusedSectionVars false

namespace Amd

open Finset

variable {ι κ : Type*} [Fintype ι] [Fintype κ]

/-- Reduce each row of `g` to at most `a`. -/
theorem trim_rows (a : ι → ℝ) (ha : ∀ i, 0 ≤ a i) (g : ι → κ → ℝ) (hg : ∀ i j, 0 ≤ g i j) :
    ∃ h : ι → κ → ℝ, (∀ i j, 0 ≤ h i j) ∧ (∀ i j, h i j ≤ g i j) ∧ (∀ i, ∑ j, h i j ≤ a i) ∧
      ∀ i, ∑ j, h i j = ∑ j, g i j - max (∑ j, g i j - a i) 0 := by
  classical
  refine ⟨fun i j => if ∑ j, g i j ≤ a i then g i j else g i j * (a i / ∑ j, g i j), ?_, ?_, ?_, ?_⟩
  · intro i j
    beta_reduce
    split_ifs with h
    · exact hg i j
    · exact mul_nonneg (hg i j) (div_nonneg (ha i) (sum_nonneg fun j _ => hg i j))
  · intro i j
    beta_reduce
    split_ifs with h
    · exact le_rfl
    · push Not at h
      have : 0 < ∑ j, g i j := lt_of_le_of_lt (ha i) h
      exact mul_le_of_le_one_right (hg i j) ((div_le_one this).2 h.le)
  · intro i
    by_cases h : ∑ j, g i j ≤ a i
    · simp only [h, if_true]
    · simp only [h, if_false]
      push Not at h
      have : 0 < ∑ j, g i j := lt_of_le_of_lt (ha i) h
      rw [← sum_mul, mul_div_cancel₀ _ this.ne']
  · intro i
    by_cases h : ∑ j, g i j ≤ a i
    · simp only [h, if_true]
      rw [max_eq_right (by linarith), sub_zero]
    · simp only [h, if_false]
      push Not at h
      have : 0 < ∑ j, g i j := lt_of_le_of_lt (ha i) h
      rw [← sum_mul, mul_div_cancel₀ _ this.ne', max_eq_left (by linarith)]
      ring

/-- Any flow `g` can be changed to have row sums `a` and column sums `b`; the cost grows by at most `C` per unit that is missing. -/
theorem fit (a : ι → ℝ) (b : κ → ℝ) (ha : ∀ i, 0 ≤ a i) (hb : ∀ j, 0 ≤ b j) (hab : ∑ i, a i = ∑ j, b j) (g : ι → κ → ℝ) (hg : ∀ i j, 0 ≤ g i j)
    (c : ι → κ → ℝ) (C : ℝ) (hc : ∀ i j, 0 ≤ c i j ∧ c i j ≤ C) :
    ∃ h, IsPlan a b h ∧ planCost c h ≤ planCost c g +
      C * (∑ i, a i - ∑ i, ∑ j, g i j + ∑ i, max (∑ j, g i j - a i) 0 + ∑ j, max (∑ i, g i j - b j) 0) := by
  obtain ⟨g1, p1, q1, r1, m1⟩ := trim_rows a ha g hg
  obtain ⟨g2, p2, q2, r2, m2⟩ := trim_rows b hb (fun j i => g1 i j) fun j i => p1 i j
  -- what is missing
  have hA : ∀ i, 0 ≤ a i - ∑ j, g2 j i := fun i => by
    have := sum_le_sum fun j (_ : j ∈ univ) => q2 j i
    linarith [r1 i]
  have hB : ∀ j, 0 ≤ b j - ∑ i, g2 j i := fun j => by linarith [r2 j]
  have hS : ∑ i, (a i - ∑ j, g2 j i) = ∑ j, (b j - ∑ i, g2 j i) := by
    rw [sum_sub_distrib, sum_sub_distrib, hab, sum_comm]
  set D := ∑ i, (a i - ∑ j, g2 j i) with hD
  have hD0 : 0 ≤ D := sum_nonneg fun i _ => hA i
  refine ⟨fun i j => g2 j i + (a i - ∑ j, g2 j i) * (b j - ∑ i, g2 j i) / D, ⟨?_, ?_, ?_⟩, ?_⟩
  · intro i j
    exact add_nonneg (p2 j i) (div_nonneg (mul_nonneg (hA i) (hB j)) hD0)
  · intro i
    rw [sum_add_distrib]
    have : ∑ j, (a i - ∑ j, g2 j i) * (b j - ∑ i, g2 j i) / D = (a i - ∑ j, g2 j i) := by
      rw [← sum_div, ← mul_sum, ← hS]
      by_cases h : D = 0
      · have := (sum_eq_zero_iff_of_nonneg fun i _ => hA i).1 (hD ▸ h) i (mem_univ i)
        rw [this]; simp
      · field_simp
    rw [this]; ring
  · intro j
    rw [sum_add_distrib]
    have : ∑ i, (a i - ∑ j, g2 j i) * (b j - ∑ i, g2 j i) / D = (b j - ∑ i, g2 j i) := by
      rw [← sum_div, ← sum_mul, ← hD]
      by_cases h : D = 0
      · have := (sum_eq_zero_iff_of_nonneg fun j _ => hB j).1 (hS ▸ h) j (mem_univ j)
        rw [this]; simp
      · field_simp
    rw [this]; ring
  · have e1 : planCost c (fun i j => g2 j i + (a i - ∑ j, g2 j i) * (b j - ∑ i, g2 j i) / D) =
        planCost c (fun i j => g2 j i) + ∑ i, ∑ j, (a i - ∑ j, g2 j i) * (b j - ∑ i, g2 j i) / D * c i j := by
      unfold planCost
      simp only [add_mul, sum_add_distrib]
    have e2 : planCost c (fun i j => g2 j i) ≤ planCost c g := by
      unfold planCost
      exact sum_le_sum fun i _ => sum_le_sum fun j _ => mul_le_mul_of_nonneg_right ((q2 j i).trans (q1 i j)) (hc i j).1
    have e3 : ∑ i, ∑ j, (a i - ∑ j, g2 j i) * (b j - ∑ i, g2 j i) / D * c i j ≤ C * D := by
      have : ∑ i, ∑ j, (a i - ∑ j, g2 j i) * (b j - ∑ i, g2 j i) / D * c i j ≤ ∑ i, ∑ j, (a i - ∑ j, g2 j i) * (b j - ∑ i, g2 j i) / D * C :=
        sum_le_sum fun i _ => sum_le_sum fun j _ => mul_le_mul_of_nonneg_left (hc i j).2 (div_nonneg (mul_nonneg (hA i) (hB j)) hD0)
      refine this.trans (le_of_eq ?_)
      simp only [← sum_mul, ← sum_div, ← mul_sum]
      rw [← hS, ← hD]
      by_cases h : D = 0
      · simp [h]
      · field_simp
    have e4 : D = ∑ i, a i - ∑ i, ∑ j, g i j + ∑ i, max (∑ j, g i j - a i) 0 + ∑ j, max (∑ i, g1 i j - b j) 0 := by
      rw [hD, sum_sub_distrib]
      have h1 : ∑ i, ∑ j, g2 j i = ∑ j, ∑ i, g2 j i := sum_comm
      have h2 : ∑ j, ∑ i, g2 j i = ∑ j, ∑ i, g1 i j - ∑ j, max (∑ i, g1 i j - b j) 0 := by
        rw [← sum_sub_distrib]; exact sum_congr rfl fun j _ => m2 j
      have h3 : ∑ j, ∑ i, g1 i j = ∑ i, ∑ j, g1 i j := sum_comm
      have h4 : ∑ i, ∑ j, g1 i j = ∑ i, ∑ j, g i j - ∑ i, max (∑ j, g i j - a i) 0 := by
        rw [← sum_sub_distrib]; exact sum_congr rfl fun i _ => m1 i
      rw [h1, h2, h3, h4]; ring
    have e5 : ∑ j, max (∑ i, g1 i j - b j) 0 ≤ ∑ j, max (∑ i, g i j - b j) 0 :=
      sum_le_sum fun j _ => max_le_max (sub_le_sub_right (sum_le_sum fun i _ => q1 i j) _) le_rfl
    rcases isEmpty_or_nonempty ι with hι | ⟨⟨i0⟩⟩
    · have : D = 0 := by rw [hD]; simp
      have z : ∑ i, ∑ j, (a i - ∑ j, g2 j i) * (b j - ∑ i, g2 j i) / D * c i j = 0 := by simp
      rw [e1, z]
      simp only [univ_eq_empty, sum_empty, sub_self, zero_add, zero_sub]
      have hb0 : ∀ j, b j = 0 := by
        intro j
        have : ∑ j, b j = 0 := by rw [← hab]; simp
        exact (sum_eq_zero_iff_of_nonneg fun j _ => hb j).1 this j (mem_univ j)
      simp [hb0]
      simpa using e2
    · rcases isEmpty_or_nonempty κ with hκ | ⟨⟨j0⟩⟩
      · have ha0 : ∀ i, a i = 0 := by
          intro i
          have : ∑ i, a i = 0 := by rw [hab]; simp
          exact (sum_eq_zero_iff_of_nonneg fun i _ => ha i).1 this i (mem_univ i)
        simp [planCost, ha0]
      · have hC : 0 ≤ C := (hc i0 j0).1.trans (hc i0 j0).2
        rw [e1]
        have := mul_le_mul_of_nonneg_left (e4.le.trans (by linarith : _ ≤ ∑ i, a i - ∑ i, ∑ j, g i j + ∑ i, max (∑ j, g i j - a i) 0 + ∑ j, max (∑ i, g i j - b j) 0)) hC
        linarith

/-- Raise or lower `z ≤ κ` to a vector below `κ` with sum `r`. -/
theorem fill_row (z k : κ → ℝ) (hz : ∀ j, 0 ≤ z j) (hzk : ∀ j, z j ≤ k j) (r : ℝ) (hr : 0 ≤ r) (hrk : r ≤ ∑ j, k j) :
    ∃ y : κ → ℝ, (∀ j, 0 ≤ y j) ∧ (∀ j, y j ≤ k j) ∧ ∑ j, y j = r ∧ ∑ j, max (y j - z j) 0 ≤ max (r - ∑ j, z j) 0 := by
  by_cases h : ∑ j, z j ≤ r
  · by_cases h0 : ∑ j, (k j - z j) = 0
    · have hr' : ∑ j, z j = r := by rw [sum_sub_distrib] at h0; linarith
      exact ⟨z, hz, hzk, hr', by simp [hr']⟩
    · have hpos : 0 < ∑ j, (k j - z j) := lt_of_le_of_ne (sum_nonneg fun j _ => sub_nonneg.2 (hzk j)) (Ne.symm h0)
      have hl0 : 0 ≤ (r - ∑ j, z j) / ∑ j, (k j - z j) := div_nonneg (by linarith) hpos.le
      have hl1 : (r - ∑ j, z j) / ∑ j, (k j - z j) ≤ 1 := by
        rw [div_le_one hpos, sum_sub_distrib]; linarith
      have hy : ∀ j, z j ≤ z j + (r - ∑ j, z j) / (∑ j, (k j - z j)) * (k j - z j) := fun j =>
        le_add_of_nonneg_right (mul_nonneg hl0 (sub_nonneg.2 (hzk j)))
      have hsum : ∑ j, (r - ∑ j, z j) / (∑ j, (k j - z j)) * (k j - z j) = r - ∑ j, z j := by
        rw [← mul_sum]; field_simp
      refine ⟨fun j => z j + (r - ∑ j, z j) / (∑ j, (k j - z j)) * (k j - z j), fun j => (hz j).trans (hy j), ?_, ?_, ?_⟩
      · intro j
        have := mul_le_mul_of_nonneg_right hl1 (sub_nonneg.2 (hzk j))
        beta_reduce
        linarith
      · rw [sum_add_distrib, hsum]; ring
      · rw [max_eq_left (by linarith)]
        refine le_of_eq (Eq.trans ?_ hsum)
        refine sum_congr rfl fun j _ => ?_
        beta_reduce
        rw [max_eq_left (by linarith [hy j])]; ring
  · push Not at h
    have hpos : 0 < ∑ j, z j := lt_of_le_of_lt hr h
    have h1 : r / ∑ j, z j ≤ 1 := by rw [div_le_one hpos]; exact h.le
    have h2 : ∀ j, z j * (r / ∑ j, z j) ≤ z j := fun j => mul_le_of_le_one_right (hz j) h1
    refine ⟨fun j => z j * (r / ∑ j, z j), fun j => mul_nonneg (hz j) (div_nonneg hr hpos.le), fun j => (h2 j).trans (hzk j), ?_, ?_⟩
    · rw [← sum_mul, mul_div_cancel₀ _ hpos.ne']
    · rw [max_eq_right (by linarith)]
      apply le_of_eq
      exact sum_eq_zero fun j _ => max_eq_right (by linarith [h2 j])

theorem sum_excess_le (g : κ → ℝ) (hg : ∀ j, 0 ≤ g j) (α : ℝ) (hα : 0 ≤ α) : ∑ j, max (g j - α) 0 ≤ max (∑ j, g j - α) 0 := by
  classical
  by_cases h : ∃ j0, α < g j0
  · obtain ⟨j0, h0⟩ := h
    rw [← add_sum_erase univ _ (mem_univ j0), ← add_sum_erase univ g (mem_univ j0), max_eq_left (by linarith)]
    have : ∑ j ∈ univ.erase j0, max (g j - α) 0 ≤ ∑ j ∈ univ.erase j0, g j := sum_le_sum fun j _ => max_le (by linarith) (hg j)
    exact le_max_of_le_left (by linarith)
  · push Not at h
    rw [sum_eq_zero fun j _ => max_eq_right (by linarith [h j])]
    exact le_max_right _ _

/-- Changing `g` to the row and column sums of a flow `X` bounded by `α`, `β`, where only the row `i0` of `X` may sum to more than `α`. -/
theorem fit_capped [Nonempty κ] (α : ι → ℝ) (β : κ → ℝ) (i0 : ι) (X : ι → κ → ℝ) (hX : ∀ i j, 0 ≤ X i j ∧ X i j ≤ α i) (hr : ∀ i ≠ i0, ∑ j, X i j ≤ α i)
    (hs : ∀ j, ∑ i, X i j ≤ β j) (g : ι → κ → ℝ) (hg : ∀ i j, 0 ≤ g i j) (hga : ∀ i, α i ≤ ∑ j, g i j) (hga' : ∑ j, g i0 j ≤ α i0 + 1)
    (hgb : ∀ j, β j ≤ ∑ i, g i j) (d : ℝ) (hd0 : 0 ≤ d) (hd : ∑ j, X i0 j ≤ α i0 + d) (c : ι → κ → ℝ) (C : ℝ) (hc : ∀ i j, 0 ≤ c i j ∧ c i j ≤ C) :
    ∃ h, (∀ i j, 0 ≤ h i j ∧ h i j ≤ α i ∧ h i j ≤ β j) ∧ (∀ i, ∑ j, h i j = ∑ j, X i j) ∧ (∀ j, ∑ i, h i j = ∑ i, X i j) ∧
      planCost c h ≤ planCost c g + C * (3 * (∑ i, ∑ j, g i j - ∑ i, ∑ j, X i j) + 2 * d + 2) := by
  classical
  obtain ⟨j0⟩ := ‹Nonempty κ›
  have hα : ∀ i, 0 ≤ α i := fun i => (hX i j0).1.trans (hX i j0).2
  have hC : 0 ≤ C := (hc i0 j0).1.trans (hc i0 j0).2
  set S : κ → ℝ := fun j => ∑ i, X i j with hS
  have hS0 : ∀ j, 0 ≤ S j := fun j => sum_nonneg fun i _ => (hX i j).1
  -- the row i0
  obtain ⟨y, y0, yk, ysum, yex⟩ := fill_row (fun j => min (g i0 j) (min (α i0) (S j))) (fun j => min (α i0) (S j))
    (fun j => le_min (hg i0 j) (le_min (hα i0) (hS0 j))) (fun j => min_le_right _ _) (∑ j, X i0 j) (sum_nonneg fun j _ => (hX i0 j).1)
    (sum_le_sum fun j _ => le_min (hX i0 j).2 (single_le_sum (f := fun i => X i j) (fun i _ => (hX i j).1) (mem_univ i0)))
  -- the other rows
  obtain ⟨h, ⟨hp, hrow, hcol⟩, hcost⟩ := fit (fun i => if i = i0 then 0 else ∑ j, X i j) (fun j => S j - y j)
    (fun i => by split_ifs; exacts [le_rfl, sum_nonneg fun j _ => (hX i j).1]) (fun j => sub_nonneg.2 ((yk j).trans (min_le_right _ _)))
    (by
      rw [sum_sub_distrib, ysum, hS, sum_comm (s := univ) (t := univ), ← add_sum_erase univ (fun i => ∑ j, X i j) (mem_univ i0), add_sub_cancel_left,
        ← add_sum_erase univ _ (mem_univ i0), if_pos rfl, zero_add]
      exact sum_congr rfl fun i hi => if_neg (ne_of_mem_erase hi))
    (fun i j => if i = i0 then 0 else g i j) (fun i j => by split_ifs; exacts [le_rfl, hg i j]) c C hc
  have hi0 : ∀ j, h i0 j = 0 := by
    have := hrow i0
    rw [if_pos rfl] at this
    exact fun j => (sum_eq_zero_iff_of_nonneg fun j _ => hp i0 j).1 this j (mem_univ j)
  have hle : ∀ i j, h i j ≤ ∑ j, h i j := fun i j => single_le_sum (f := fun j => h i j) (fun j _ => hp i j) (mem_univ j)
  have hle' : ∀ i j, h i j ≤ S j - y j := fun i j => by rw [← hcol j]; exact single_le_sum (f := fun i => h i j) (fun i _ => hp i j) (mem_univ i)
  refine ⟨fun i j => if i = i0 then y j else h i j, ?_, ?_, ?_, ?_⟩
  · intro i j
    beta_reduce
    split_ifs with hi
    · subst hi
      exact ⟨y0 j, (yk j).trans (min_le_left _ _), ((yk j).trans (min_le_right _ _)).trans (hs j)⟩
    · refine ⟨hp i j, ?_, ?_⟩
      · have := hle i j
        rw [hrow i, if_neg hi] at this
        exact this.trans (hr i hi)
      · exact ((hle' i j).trans (sub_le_self _ (y0 j))).trans (hs j)
  · intro i
    by_cases hi : i = i0
    · simp only [hi, if_true]; exact ysum
    · simp only [hi, if_false]; rw [hrow i, if_neg hi]
  · intro j
    have := hcol j
    rw [← add_sum_erase univ _ (mem_univ i0)] at this
    rw [← add_sum_erase univ _ (mem_univ i0)]
    beta_reduce
    rw [if_pos rfl, sum_congr rfl fun i hi => if_neg (ne_of_mem_erase hi)]
    rw [hi0 j, zero_add] at this
    rw [this, hS]; ring
  · -- the cost
    have e1 : planCost c (fun i j => if i = i0 then y j else h i j) = planCost c h + ∑ j, y j * c i0 j := by
      unfold planCost
      rw [← add_sum_erase univ _ (mem_univ i0), ← add_sum_erase univ (fun i => ∑ j, h i j * c i j) (mem_univ i0)]
      simp only [if_true, hi0, zero_mul, sum_const_zero, zero_add]
      rw [add_comm]
      congr 1
      exact sum_congr rfl fun i hi => by simp only [if_neg (ne_of_mem_erase hi)]
    have e2 : planCost c g = planCost c (fun i j => if i = i0 then 0 else g i j) + ∑ j, g i0 j * c i0 j := by
      unfold planCost
      rw [← add_sum_erase univ _ (mem_univ i0), ← add_sum_erase univ (fun i => ∑ j, (if i = i0 then 0 else g i j) * c i j) (mem_univ i0)]
      simp only [if_true, zero_mul, sum_const_zero, zero_add]
      rw [add_comm]
      congr 1
      exact sum_congr rfl fun i hi => by simp only [if_neg (ne_of_mem_erase hi)]
    set P := ∑ j, max (y j - g i0 j) 0 with hP
    have e3 : ∑ j, y j * c i0 j ≤ ∑ j, g i0 j * c i0 j + C * P := by
      rw [hP, mul_sum, ← sum_add_distrib]
      refine sum_le_sum fun j _ => ?_
      have h1 : (y j - g i0 j) * c i0 j ≤ max (y j - g i0 j) 0 * c i0 j := mul_le_mul_of_nonneg_right (le_max_left _ _) (hc i0 j).1
      have h2 : max (y j - g i0 j) 0 * c i0 j ≤ max (y j - g i0 j) 0 * C := mul_le_mul_of_nonneg_left (hc i0 j).2 (le_max_right _ _)
      linarith
    -- the masses
    set Q := ∑ i, ∑ j, g i j - ∑ i, ∑ j, X i j with hQ
    have hQ' : Q = ∑ j, (∑ i, g i j - S j) := by
      rw [hQ, sum_sub_distrib, sum_comm (f := fun i j => g i j), sum_comm (f := fun i j => X i j)]
    have hSg : ∀ j, S j ≤ ∑ i, g i j := fun j => (hs j).trans (hgb j)
    have m1 : ∑ i, (if i = i0 then 0 else ∑ j, X i j) - ∑ i, ∑ j, (if i = i0 then 0 else g i j) +
        ∑ i, max (∑ j, (if i = i0 then 0 else g i j) - (if i = i0 then 0 else ∑ j, X i j)) 0 = 0 := by
      rw [← sum_sub_distrib, ← sum_add_distrib]
      refine sum_eq_zero fun i _ => ?_
      by_cases hi : i = i0
      · simp [hi]
      · simp only [hi, if_false]
        rw [max_eq_left (by linarith [hr i hi, hga i])]; ring
    have m2 : ∑ j, max (∑ i, (if i = i0 then 0 else g i j) - (S j - y j)) 0 ≤ Q + P := by
      rw [hQ', hP, ← sum_add_distrib]
      refine sum_le_sum fun j _ => ?_
      have : ∑ i, g i j = g i0 j + ∑ i, (if i = i0 then 0 else g i j) := by
        rw [← add_sum_erase univ (fun i => g i j) (mem_univ i0), ← add_sum_erase univ (fun i => if i = i0 then 0 else g i j) (mem_univ i0), if_pos rfl, zero_add]
        congr 1
        exact sum_congr rfl fun i hi => (if_neg (ne_of_mem_erase hi)).symm
      have h1 := le_max_left (y j - g i0 j) 0
      have h2 := le_max_right (y j - g i0 j) 0
      exact max_le (by linarith) (by linarith [hSg j])
    have m3 : P ≤ Q + d + 1 := by
      have h1 : P ≤ ∑ j, max (y j - min (g i0 j) (min (α i0) (S j))) 0 :=
        sum_le_sum fun j _ => max_le_max (sub_le_sub_left (min_le_left _ _) _) le_rfl
      have h2 : ∑ j, g i0 j - ∑ j, min (g i0 j) (min (α i0) (S j)) ≤ 1 + Q := by
        rw [← sum_sub_distrib, hQ']
        have h3 : ∑ j, (g i0 j - min (g i0 j) (min (α i0) (S j))) ≤ ∑ j, (max (g i0 j - α i0) 0 + (∑ i, g i j - S j)) := by
          refine sum_le_sum fun j _ => ?_
          have k1 := le_max_left (g i0 j - α i0) 0
          have k2 := le_max_right (g i0 j - α i0) 0
          have k3 := hSg j
          have k4 : g i0 j ≤ ∑ i, g i j := single_le_sum (f := fun i => g i j) (fun i _ => hg i j) (mem_univ i0)
          rcases min_choice (g i0 j) (min (α i0) (S j)) with k | k
          · rw [k]; linarith
          · rw [k]
            rcases min_choice (α i0) (S j) with k' | k' <;> rw [k'] <;> linarith
        rw [sum_add_distrib] at h3
        have h4 := sum_excess_le (g i0) (hg i0) (α i0) (hα i0)
        have h5 : max (∑ j, g i0 j - α i0) 0 ≤ 1 := max_le (by linarith) (by norm_num)
        linarith
      have hQ0 : 0 ≤ Q := by rw [hQ']; exact sum_nonneg fun j _ => sub_nonneg.2 (hSg j)
      refine (h1.trans yex).trans (max_le ?_ (by linarith))
      linarith [hga i0]
    have m4 : ∑ i, (if i = i0 then 0 else ∑ j, X i j) - ∑ i, ∑ j, (if i = i0 then 0 else g i j) +
        ∑ i, max (∑ j, (if i = i0 then 0 else g i j) - (if i = i0 then 0 else ∑ j, X i j)) 0 +
        ∑ j, max (∑ i, (if i = i0 then 0 else g i j) - (S j - y j)) 0 ≤ Q + P := by rw [m1, zero_add]; exact m2
    have m5 := mul_le_mul_of_nonneg_left m4 hC
    have m6 : C * (Q + P) + C * P ≤ C * (3 * Q + 2 * d + 2) := by
      have : C * (Q + P) + C * P = C * (Q + 2 * P) := by ring
      rw [this]
      exact mul_le_mul_of_nonneg_left (by linarith) hC
    rw [e1]
    linarith
end Amd
