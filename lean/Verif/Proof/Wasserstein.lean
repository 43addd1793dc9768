import Verif.Proof.Fit

/-!
# The Wasserstein distance
-/

set_option linter.unusedSectionVars false

namespace Amd

open Finset

variable {ι κ τ : Type*} [Fintype ι] [Fintype κ] [Fintype τ]

theorem IsPlan.cost_nonneg {a : ι → ℝ} {b : κ → ℝ} {g c : ι → κ → ℝ} (h : IsPlan a b g) (hc : ∀ i j, 0 ≤ c i j) : 0 ≤ planCost c g :=
  sum_nonneg fun i _ => sum_nonneg fun j _ => mul_nonneg (h.nonneg i j) (hc i j)

theorem wasserstein_nonneg {a : ι → ℝ} {b : κ → ℝ} {c : ι → κ → ℝ} (hc : ∀ i j, 0 ≤ c i j) : 0 ≤ wasserstein a b c := by
  apply Real.sInf_nonneg
  rintro x ⟨g, hg, rfl⟩
  exact hg.cost_nonneg hc

theorem wasserstein_le {a : ι → ℝ} {b : κ → ℝ} {c g : ι → κ → ℝ} (hc : ∀ i j, 0 ≤ c i j) (hg : IsPlan a b g) : wasserstein a b c ≤ planCost c g := by
  refine csInf_le ⟨0, ?_⟩ ⟨g, hg, rfl⟩
  rintro x ⟨g, hg, rfl⟩
  exact hg.cost_nonneg hc

theorem exists_plan {a : ι → ℝ} {b : κ → ℝ} (ha : ∀ i, 0 ≤ a i) (hb : ∀ j, 0 ≤ b j) (hab : ∑ i, a i = ∑ j, b j) : ∃ g, IsPlan a b g := by
  obtain ⟨h, hh, -⟩ := fit a b ha hb hab (fun _ _ => 0) (fun _ _ => le_rfl) (fun _ _ => 0) 0 (fun _ _ => ⟨le_rfl, le_rfl⟩)
  exact ⟨h, hh⟩

theorem le_wasserstein {a : ι → ℝ} {b : κ → ℝ} {c : ι → κ → ℝ} (ha : ∀ i, 0 ≤ a i) (hb : ∀ j, 0 ≤ b j) (hab : ∑ i, a i = ∑ j, b j) {x : ℝ}
    (h : ∀ g, IsPlan a b g → x ≤ planCost c g) : x ≤ wasserstein a b c := by
  obtain ⟨g, hg⟩ := exists_plan ha hb hab
  refine le_csInf ⟨_, g, hg, rfl⟩ ?_
  rintro y ⟨g, hg, rfl⟩
  exact h g hg

theorem wasserstein_swap (a : ι → ℝ) (b : κ → ℝ) (c : ι → κ → ℝ) : wasserstein b a (fun j i => c i j) = wasserstein a b c := by
  unfold wasserstein
  congr 1
  ext x
  constructor
  · rintro ⟨g, hg, rfl⟩
    exact ⟨fun i j => g j i, ⟨fun i j => hg.nonneg j i, hg.cols, hg.rows⟩, by unfold planCost; rw [sum_comm]⟩
  · rintro ⟨g, hg, rfl⟩
    exact ⟨fun i j => g j i, ⟨fun i j => hg.nonneg j i, hg.cols, hg.rows⟩, by unfold planCost; rw [sum_comm]⟩

/-- Plans can be composed. -/
theorem IsPlan.comp {a : ι → ℝ} {b : κ → ℝ} {d : τ → ℝ} {g : ι → κ → ℝ} {g' : κ → τ → ℝ} (h : IsPlan a b g) (h' : IsPlan b d g') {c : ι → κ → ℝ} {c' : κ → τ → ℝ}
    {c'' : ι → τ → ℝ} (hc : ∀ i j k, c'' i k ≤ c i j + c' j k) : ∃ q, IsPlan a d q ∧ planCost c'' q ≤ planCost c g + planCost c' g' := by
  have hb0 : ∀ j, 0 ≤ b j := fun j => by rw [← h.cols j]; exact sum_nonneg fun i _ => h.nonneg i j
  have z1 : ∀ i j, b j = 0 → g i j = 0 := fun i j hj => by
    have := h.cols j
    rw [hj] at this
    exact (sum_eq_zero_iff_of_nonneg fun i _ => h.nonneg i j).1 this i (mem_univ i)
  have z2 : ∀ j k, b j = 0 → g' j k = 0 := fun j k hj => by
    have := h'.rows j
    rw [hj] at this
    exact (sum_eq_zero_iff_of_nonneg fun k _ => h'.nonneg j k).1 this k (mem_univ k)
  have r1 : ∀ i j, ∑ k, g i j * g' j k / b j = g i j := by
    intro i j
    rw [← sum_div, ← mul_sum, h'.rows j]
    by_cases hj : b j = 0
    · rw [z1 i j hj]; simp
    · field_simp
  have r2 : ∀ j k, ∑ i, g i j * g' j k / b j = g' j k := by
    intro j k
    rw [← sum_div, ← sum_mul, h.cols j]
    by_cases hj : b j = 0
    · rw [z2 j k hj]; simp
    · field_simp
  have n0 : ∀ i j k, 0 ≤ g i j * g' j k / b j := fun i j k => div_nonneg (mul_nonneg (h.nonneg i j) (h'.nonneg j k)) (hb0 j)
  refine ⟨fun i k => ∑ j, g i j * g' j k / b j, ⟨fun i k => sum_nonneg fun j _ => n0 i j k, fun i => ?_, fun k => ?_⟩, ?_⟩
  · rw [sum_comm, sum_congr rfl fun j _ => r1 i j, h.rows i]
  · rw [sum_comm, sum_congr rfl fun j _ => r2 j k, h'.cols k]
  · have e1 : planCost c g = ∑ i, ∑ k, ∑ j, g i j * g' j k / b j * c i j := by
      unfold planCost
      refine sum_congr rfl fun i _ => ?_
      rw [sum_comm]
      refine sum_congr rfl fun j _ => ?_
      rw [← sum_mul, r1]
    have e2 : planCost c' g' = ∑ i, ∑ k, ∑ j, g i j * g' j k / b j * c' j k := by
      unfold planCost
      rw [sum_comm' (t' := univ) (s' := fun _ => univ) (by simp)]
      rw [sum_comm (s := (univ : Finset ι)) (t := (univ : Finset τ))]
      refine sum_congr rfl fun k _ => ?_
      rw [sum_comm]
      refine sum_congr rfl fun j _ => ?_
      rw [← sum_mul, r2]
    rw [e1, e2]
    unfold planCost
    rw [← sum_add_distrib]
    refine sum_le_sum fun i _ => ?_
    rw [← sum_add_distrib]
    refine sum_le_sum fun k _ => ?_
    rw [← sum_add_distrib, sum_mul]
    refine sum_le_sum fun j _ => ?_
    rw [← mul_add]
    exact mul_le_mul_of_nonneg_left (hc i j k) (n0 i j k)

theorem wasserstein_triangle {a : ι → ℝ} {b : κ → ℝ} {d : τ → ℝ} (ha : ∀ i, 0 ≤ a i) (hb : ∀ j, 0 ≤ b j) (hd : ∀ k, 0 ≤ d k) (hab : ∑ i, a i = ∑ j, b j)
    (hbd : ∑ j, b j = ∑ k, d k) {c : ι → κ → ℝ} {c' : κ → τ → ℝ} {c'' : ι → τ → ℝ} (h0 : ∀ i k, 0 ≤ c'' i k) (hc : ∀ i j k, c'' i k ≤ c i j + c' j k) :
    wasserstein a d c'' ≤ wasserstein a b c + wasserstein b d c' := by
  have h1 : wasserstein a d c'' - wasserstein b d c' ≤ wasserstein a b c := by
    refine le_wasserstein ha hb hab fun g hg => ?_
    have : wasserstein a d c'' - planCost c g ≤ wasserstein b d c' := by
      refine le_wasserstein hb hd hbd fun g' hg' => ?_
      obtain ⟨q, hq, hcost⟩ := hg.comp hg' hc
      have := wasserstein_le h0 hq
      linarith
    linarith
  linarith

/-- No cost: the weights at equal points agree. -/
theorem wasserstein_zero {α : Type*} [DecidableEq α] {a : ι → ℝ} {b : κ → ℝ} {f : ι → α} {f' : κ → α} {c : ι → κ → ℝ} (ha : ∀ i, 0 ≤ a i) (hb : ∀ j, 0 ≤ b j)
    (hc0 : ∀ i j, 0 ≤ c i j) (hc : ∀ i j, f i = f' j → c i j = 0)
    (h : ∀ x, ∑ i, (if f i = x then a i else 0) = ∑ j, (if f' j = x then b j else 0)) : wasserstein a b c = 0 := by
  refine le_antisymm ?_ (wasserstein_nonneg hc0)
  set W : α → ℝ := fun x => ∑ i, (if f i = x then a i else 0) with hW
  have ha1 : ∀ i, a i ≤ W (f i) := fun i => by
    have := single_le_sum (f := fun i' => if f i' = f i then a i' else 0) (fun i' _ => by split_ifs; exacts [ha i', le_rfl]) (mem_univ i)
    simpa using this
  have hb1 : ∀ j, b j ≤ W (f' j) := fun j => by
    have := single_le_sum (f := fun j' => if f' j' = f' j then b j' else 0) (fun j' _ => by split_ifs; exacts [hb j', le_rfl]) (mem_univ j)
    rw [hW]
    simp only
    rw [h]
    simpa using this
  have hW0 : ∀ x, 0 ≤ W x := fun x => sum_nonneg fun i _ => by split_ifs; exacts [ha i, le_rfl]
  have hg : IsPlan a b (fun i j => if f i = f' j then a i * b j / W (f i) else 0) := by
    refine ⟨fun i j => ?_, fun i => ?_, fun j => ?_⟩
    · split_ifs
      · exact div_nonneg (mul_nonneg (ha i) (hb j)) (hW0 _)
      · exact le_rfl
    · have : ∑ j, (if f i = f' j then a i * b j / W (f i) else 0) = a i * (∑ j, if f' j = f i then b j else 0) / W (f i) := by
        rw [mul_sum, sum_div]
        exact sum_congr rfl fun j _ => by by_cases e : f i = f' j <;> simp [e, eq_comm]
      rw [this, ← h (f i)]
      change a i * W (f i) / W (f i) = a i
      by_cases hz : W (f i) = 0
      · have := ha1 i; rw [hz] at this
        have := le_antisymm this (ha i)
        simp [this]
      · field_simp
    · have : ∑ i, (if f i = f' j then a i * b j / W (f i) else 0) = (∑ i, if f i = f' j then a i else 0) * b j / W (f' j) := by
        rw [sum_mul, sum_div]
        exact sum_congr rfl fun i _ => by by_cases e : f i = f' j <;> simp [e]
      rw [this]
      change W (f' j) * b j / W (f' j) = b j
      by_cases hz : W (f' j) = 0
      · have := hb1 j; rw [hz] at this
        have := le_antisymm this (hb j)
        simp [this]
      · field_simp
  refine (wasserstein_le hc0 hg).trans (le_of_eq ?_)
  unfold planCost
  refine sum_eq_zero fun i _ => sum_eq_zero fun j _ => ?_
  beta_reduce
  split_ifs with e
  · rw [hc i j e, mul_zero]
  · rw [zero_mul]

/-- The means of any function that changes by at most the cost differ by at most the distance. -/
theorem mean_le_wasserstein {a : ι → ℝ} {b : κ → ℝ} (ha : ∀ i, 0 ≤ a i) (hb : ∀ j, 0 ≤ b j) (hab : ∑ i, a i = ∑ j, b j) {c : ι → κ → ℝ} {f : ι → ℝ} {f' : κ → ℝ}
    (hc : ∀ i j, |f i - f' j| ≤ c i j) : |∑ i, a i * f i - ∑ j, b j * f' j| ≤ wasserstein a b c := by
  refine le_wasserstein ha hb hab fun g hg => ?_
  have e1 : ∑ i, a i * f i - ∑ j, b j * f' j = ∑ i, ∑ j, g i j * (f i - f' j) := by
    have h1 : ∑ i, a i * f i = ∑ i, ∑ j, g i j * f i := sum_congr rfl fun i _ => by rw [← sum_mul, hg.rows]
    have h2 : ∑ j, b j * f' j = ∑ i, ∑ j, g i j * f' j := by
      rw [sum_comm]; exact sum_congr rfl fun j _ => by rw [← sum_mul, hg.cols]
    rw [h1, h2, ← sum_sub_distrib]
    refine sum_congr rfl fun i _ => ?_
    rw [← sum_sub_distrib]
    exact sum_congr rfl fun j _ => by ring
  rw [e1]
  refine (abs_sum_le_sum_abs _ _).trans (sum_le_sum fun i _ => (abs_sum_le_sum_abs _ _).trans (sum_le_sum fun j _ => ?_))
  rw [abs_mul, abs_of_nonneg (hg.nonneg i j)]
  exact mul_le_mul_of_nonneg_left (hc i j) (hg.nonneg i j)

end Amd
