import Verif.Proof.NetOpt
import Verif.Proof.Fit
import Verif.Model.Compare

/-!
# What `network_simplex` returns
-/

set_option linter.unusedSectionVars false

namespace Amd

open Finset

/-! ### Lists -/

theorem flatten_getD {α : Type*} (d : α) (n : ℕ) : ∀ (rows : List (List α)), (∀ r ∈ rows, r.length = n) → ∀ u < rows.length, ∀ v < n,
    rows.flatten.getD (u * n + v) d = (rows.getD u []).getD v d := by
  intro rows
  induction rows with
  | nil => intro _ u hu; simp at hu
  | cons r rows ih =>
    intro h u hu v hv
    have hr := h r (by simp)
    rw [List.flatten_cons]
    cases u with
    | zero => simp only [zero_mul, zero_add, List.getD_cons_zero]; exact List.getD_append _ _ _ _ (by omega)
    | succ u =>
      have e : (u + 1) * n + v = u * n + v + r.length := by rw [hr]; ring
      rw [List.getD_append_right _ _ _ _ (by rw [e]; omega), e, Nat.add_sub_cancel, List.getD_cons_succ]
      exact ih (fun x hx => h x (by simp [hx])) u (by simpa using hu) v hv

theorem flatten_length {α : Type*} (n : ℕ) (rows : List (List α)) (h : ∀ r ∈ rows, r.length = n) : rows.flatten.length = rows.length * n := by
  induction rows with
  | nil => simp
  | cons r rows ih =>
    rw [List.flatten_cons, List.length_append, h r (by simp), ih fun x hx => h x (by simp [hx]), List.length_cons]
    ring

theorem argmax_lt {l : List ℤ} (h : l ≠ []) : argmax l < l.length ∧ ∀ i < l.length, l.getD i 0 ≤ l.getD (argmax l) 0 := by
  have hpos := List.length_pos_iff.2 h
  obtain ⟨X, Y, h1, h2, h3⟩ := firstMin_spec (fun i => -l.getD i 0) (List.range' 1 (l.length - 1)) 0
  have hr : 0 :: List.range' 1 (l.length - 1) = List.range l.length := by
    obtain ⟨n, hn⟩ : ∃ n, l.length = n + 1 := ⟨l.length - 1, by omega⟩
    rw [hn, List.range_eq_range', List.range'_succ]
    simp
  rw [hr] at h1
  unfold argmax
  generalize firstMin (fun i => -l.getD i 0) 0 (List.range' 1 (l.length - 1)) = k at *
  constructor
  · have : k ∈ List.range l.length := by rw [h1]; simp
    simpa using this
  · intro i hi
    have : i ∈ X ++ k :: Y := by rw [← h1]; simpa using hi
    rcases List.mem_append.1 this with hh | hh
    · have := h2 i hh; omega
    · rcases List.mem_cons.1 hh with rfl | hh
      · exact le_rfl
      · have := h3 i hh; omega

theorem bumpMax_length (l : List ℤ) (d : ℤ) : (bumpMax l d).length = l.length := by simp [bumpMax]

theorem bumpMax_getD {l : List ℤ} (hl : l ≠ []) (d : ℤ) (i : ℕ) : (bumpMax l d).getD i 0 = l.getD i 0 + if i = argmax l then d else 0 := by
  have := (argmax_lt hl).1
  unfold bumpMax
  simp only [List.getD_eq_getElem?_getD, List.getElem?_set]
  by_cases h : argmax l = i
  · subst h; simp [this]
  · rw [if_neg h, if_neg (fun hh => h hh.symm), add_zero]

theorem bumpMax_sum {l : List ℤ} (hl : l ≠ []) (d : ℤ) : (bumpMax l d).sum = l.sum + d := by
  rw [← sum_getD, ← sum_getD l, bumpMax_length]
  simp only [bumpMax_getD hl, sum_add_distrib]
  congr 1
  rw [sum_ite_eq' _ (argmax l), if_pos (mem_range.2 (argmax_lt hl).1)]

theorem mem_getD {l : List ℤ} {x : ℤ} (h : x ∈ l) : ∃ i < l.length, l.getD i 0 = x := by
  obtain ⟨i, hi, rfl⟩ := List.mem_iff_getElem.1 h
  exact ⟨i, hi, List.getD_eq_getElem _ _ hi⟩

theorem bumpMax_pos {l : List ℤ} (hl : l ≠ []) {d : ℤ} (hd : 0 ≤ d) (h : ∀ x ∈ l, 0 < x) : ∀ x ∈ bumpMax l d, 0 < x := by
  intro x hx
  obtain ⟨i, hi, rfl⟩ := mem_getD hx
  rw [bumpMax_length] at hi
  rw [bumpMax_getD hl]
  have := h _ (getD_mem_of_lt hi)
  split_ifs <;> omega

/-! ### The output -/

/-- What `network_simplex` guarantees about the flows `X` between integer weights `A` and `B` with integer costs `c`. -/
structure NetOut {ι κ : Type*} [Fintype ι] [Fintype κ] (A : ι → ℤ) (B : κ → ℤ) (c : ι → κ → ℤ) (X : ι → κ → ℤ) : Prop where
  bounds : ∀ i j, 0 ≤ X i j ∧ X i j ≤ A i ∧ X i j ≤ B j
  margins : (∑ j, B j ≤ ∑ i, A i ∧ (∀ i, ∑ j, X i j ≤ A i) ∧ ∃ j0, (∀ j, B j ≤ B j0) ∧ (∀ j ≠ j0, ∑ i, X i j ≤ B j) ∧ ∑ i, X i j0 ≤ B j0 + (∑ i, A i - ∑ j, B j)) ∨
    (∑ i, A i ≤ ∑ j, B j ∧ (∀ j, ∑ i, X i j ≤ B j) ∧ ∃ i0, (∀ i, A i ≤ A i0) ∧ (∀ i ≠ i0, ∑ j, X i j ≤ A i) ∧ ∑ j, X i0 j ≤ A i0 + (∑ j, B j - ∑ i, A i))
  mass : min (∑ i, A i) (∑ j, B j) ≤ ∑ i, ∑ j, X i j
  opt : ∀ h : ι → κ → ℝ, (∀ i j, 0 ≤ h i j ∧ h i j ≤ A i ∧ h i j ≤ B j) → (∀ i, ∑ j, h i j = ∑ j, (X i j : ℝ)) → (∀ j, ∑ i, h i j = ∑ i, (X i j : ℝ)) →
    planCost (fun i j => (c i j : ℝ)) (fun i j => (X i j : ℝ)) ≤ planCost (fun i j => (c i j : ℝ)) h

section
variable {ι κ : Type*} [Fintype ι] [Fintype κ]

/-- A flow within the capacities `min (A i) (B j)`. -/
def Capped (A : ι → ℤ) (B : κ → ℤ) (g : ι → κ → ℝ) : Prop := ∀ i j, 0 ≤ g i j ∧ g i j ≤ A i ∧ g i j ≤ B j

/-- A flow with sums below `A'`, `B'` of largest mass. -/
structure MaxFlow (A : ι → ℤ) (B : κ → ℤ) (A' : ι → ℤ) (B' : κ → ℤ) (X : ι → κ → ℤ) : Prop where
  rows : ∀ i, ∑ j, X i j ≤ A' i
  cols : ∀ j, ∑ i, X i j ≤ B' j
  max : ∀ g : ι → κ → ℝ, Capped A B g → (∀ i, ∑ j, g i j ≤ A' i) → (∀ j, ∑ i, g i j ≤ B' j) → ∑ i, ∑ j, g i j ≤ ∑ i, ∑ j, (X i j : ℝ)

end

theorem balance_cases {s t : List ℤ} (hs : s ≠ []) (ht : t ≠ []) :
    (t.sum ≤ s.sum ∧ (balance s t).1 = s ∧ (balance s t).2.length = t.length ∧ ∃ j0 < t.length, (∀ j < t.length, t.getD j 0 ≤ t.getD j0 0) ∧
      (∀ j, (balance s t).2.getD j 0 = t.getD j 0 + if j = j0 then s.sum - t.sum else 0)) ∨
    (s.sum ≤ t.sum ∧ (balance s t).2 = t ∧ (balance s t).1.length = s.length ∧ ∃ i0 < s.length, (∀ i < s.length, s.getD i 0 ≤ s.getD i0 0) ∧
      (∀ i, (balance s t).1.getD i 0 = s.getD i 0 + if i = i0 then t.sum - s.sum else 0)) := by
  unfold balance
  by_cases h1 : 0 < t.sum - s.sum
  · right
    simp only [h1, if_true]
    exact ⟨by omega, trivial, bumpMax_length _ _, argmax s, (argmax_lt hs).1, (argmax_lt hs).2, fun i => bumpMax_getD hs _ i⟩
  · left
    simp only [h1, if_false]
    by_cases h2 : t.sum - s.sum < 0
    · simp only [h2, if_true]
      refine ⟨by omega, trivial, bumpMax_length _ _, argmax t, (argmax_lt ht).1, (argmax_lt ht).2, fun i => ?_⟩
      rw [bumpMax_getD ht, neg_sub]
    · simp only [h2, if_false]
      refine ⟨by omega, trivial, trivial, argmax t, (argmax_lt ht).1, (argmax_lt ht).2, fun i => ?_⟩
      have : s.sum - t.sum = 0 := by omega
      rw [this]; simp

theorem balance_length (s t : List ℤ) : (balance s t).1.length = s.length ∧ (balance s t).2.length = t.length := by
  unfold balance
  dsimp only
  split_ifs <;> simp [bumpMax_length]

theorem balance_sum {s t : List ℤ} (hs : s ≠ []) (ht : t ≠ []) : (balance s t).1.sum = max s.sum t.sum ∧ (balance s t).2.sum = max s.sum t.sum := by
  unfold balance
  dsimp only
  split_ifs with h1 h2
  · exact ⟨by rw [bumpMax_sum hs]; omega, by change t.sum = _; omega⟩
  · exact ⟨by change s.sum = _; omega, by rw [bumpMax_sum ht]; omega⟩
  · constructor <;> simp only <;> omega

theorem balance_pos {s t : List ℤ} (hs : s ≠ []) (ht : t ≠ []) (h1 : ∀ x ∈ s, 0 < x) (h2 : ∀ x ∈ t, 0 < x) :
    (∀ x ∈ (balance s t).1, 0 < x) ∧ ∀ x ∈ (balance s t).2, 0 < x := by
  unfold balance
  dsimp only
  split_ifs with h3 h4
  · exact ⟨bumpMax_pos hs h3.le h1, h2⟩
  · exact ⟨h1, bumpMax_pos ht (by omega) h2⟩
  · exact ⟨h1, h2⟩

/-- The integer algorithm, for capacities that are the smaller of the two weights. -/
theorem simplexInt_out {s t costs caps : List ℤ} (hs : s ≠ []) (ht : t ≠ []) (h1 : ∀ x ∈ s, 0 < x) (h2 : ∀ x ∈ t, 0 < x) (hs' : s.sum ≤ fpMul) (ht' : t.sum ≤ fpMul)
    (hcl : costs.length = s.length * t.length) (hc : ∀ x ∈ costs, 0 ≤ x) (hkl : caps.length = s.length * t.length)
    (hk : ∀ u < s.length, ∀ v < t.length, caps.getD (u * t.length + v) 0 = min (s.getD u 0) (t.getD v 0)) :
    ∃ r : List ℤ, ∃ fuel0, (∀ fuel ≥ fuel0, simplexInt s t costs caps fuel = .ok r) ∧ r.length = s.length * t.length ∧
      NetOut (fun i : Fin s.length => s.getD i 0) (fun j : Fin t.length => t.getD j 0) (fun i j => costs.getD (i * t.length + j) 0)
        (fun i j => r.getD (i * t.length + j) 0) ∧
      MaxFlow (fun i : Fin s.length => s.getD i 0) (fun j : Fin t.length => t.getD j 0) (fun i => (balance s t).1.getD i 0) (fun j => (balance s t).2.getD j 0)
        (fun i j => r.getD (i * t.length + j) 0) := by
  obtain ⟨l1, l2⟩ := balance_length s t
  obtain ⟨b1, b2⟩ := balance_sum hs ht
  obtain ⟨p1, p2⟩ := balance_pos hs ht h1 h2
  have hspos := List.length_pos_iff.2 hs
  have htpos := List.length_pos_iff.2 ht
  have hsg : ∀ u < s.length, 0 < s.getD u 0 := fun u hu => h1 _ (getD_mem_of_lt hu)
  have htg : ∀ v < t.length, 0 < t.getD v 0 := fun v hv => h2 _ (getD_mem_of_lt hv)
  have hgood : GoodInput (balance s t).1 (balance s t).2 costs caps := by
    refine ⟨?_, ?_, p1, p2, by rw [b1, b2], by rw [b2]; exact max_le hs' ht', by rw [hcl, l1, l2], by rw [hkl, l1, l2], hc, ?_⟩
    · rw [← List.length_pos_iff, l1]; exact hspos
    · rw [← List.length_pos_iff, l2]; exact htpos
    · intro x hx
      obtain ⟨k, hk', rfl⟩ := mem_getD hx
      rw [hkl] at hk'
      have e : k = k / t.length * t.length + k % t.length := (Nat.div_add_mod' k t.length).symm
      have hu : k / t.length < s.length := Nat.div_lt_of_lt_mul (by rwa [mul_comm] at hk')
      have hv := Nat.mod_lt k htpos
      rw [e, hk _ hu _ hv]
      exact lt_min (hsg _ hu) (htg _ hv)
  obtain ⟨r, fuel0, hf, hl, ρ, σ, π, hO⟩ := simplexInt_opt hgood hs ht
  rw [l1, l2] at hl
  have hb := hO.bounds
  have hr := hO.rows
  have hcol := hO.cols
  have hre := hO.rest
  have hsl := hO.slack
  have hm := hO.mass
  rw [l1, l2] at hb hr hcol hre hsl hm
  have hmax : MaxFlow (fun i : Fin s.length => s.getD i 0) (fun j : Fin t.length => t.getD j 0) (fun i => (balance s t).1.getD i 0) (fun j => (balance s t).2.getD j 0)
      (fun i j => r.getD (i * t.length + j) 0) := by
    refine ⟨fun i => ?_, fun j => ?_, fun g hg hgr hgc => ?_⟩
    · have h1 := hr i i.2
      rw [Finset.sum_range] at h1
      have := hre.1 i i.2
      linarith
    · have h1 := hcol j j.2
      rw [Finset.sum_range] at h1
      have := hre.2 j j.2
      linarith
    · have := hm (fun u v => if h : u < s.length ∧ v < t.length then g ⟨u, h.1⟩ ⟨v, h.2⟩ else 0) ?_ ?_ ?_
      · simp only [Finset.sum_range] at this
        simpa using this
      · intro u hu v hv
        rw [dif_pos ⟨hu, hv⟩, hk u hu v hv, Int.cast_min]
        have := hg ⟨u, hu⟩ ⟨v, hv⟩
        exact ⟨this.1, le_min this.2.1 this.2.2⟩
      · intro u hu
        rw [Finset.sum_range]
        simpa [hu] using hgr ⟨u, hu⟩
      · intro v hv
        rw [Finset.sum_range]
        simpa [hv] using hgc ⟨v, hv⟩
  refine ⟨r, fuel0, hf, hl, ⟨?_, ?_, ?_, ?_⟩, hmax⟩
  · intro i j
    have := hb i i.2 j j.2
    rw [hk i i.2 j j.2, le_min_iff] at this
    exact ⟨this.1, this.2⟩
  · simp only [Finset.sum_range] at hr hcol
    have es : ∑ i : Fin s.length, s.getD i 0 = s.sum := by rw [← sum_getD s, Finset.sum_range]
    have et : ∑ i : Fin t.length, t.getD i 0 = t.sum := by rw [← sum_getD t, Finset.sum_range]
    rw [es, et]
    rcases balance_cases hs ht with ⟨c1, c2, -, j0, c4, c5, c6⟩ | ⟨c1, c2, -, j0, c4, c5, c6⟩
    · left
      refine ⟨c1, ?_, ⟨j0, c4⟩, fun j => c5 j j.2, ?_, ?_⟩
      · intro i
        have := hr i i.2
        rw [c2] at this
        have := hre.1 i i.2
        linarith
      · intro j hj
        have := hcol j j.2
        rw [c6, if_neg (fun hh => hj (Fin.ext hh))] at this
        have := hre.2 j j.2
        linarith
      · have := hcol j0 c4
        rw [c6, if_pos rfl] at this
        have := hre.2 j0 c4
        simp only
        linarith
    · right
      refine ⟨c1, ?_, ⟨j0, c4⟩, fun j => c5 j j.2, ?_, ?_⟩
      · intro i
        have := hcol i i.2
        rw [c2] at this
        have := hre.2 i i.2
        linarith
      · intro j hj
        have := hr j j.2
        rw [c6, if_neg (fun hh => hj (Fin.ext hh))] at this
        have := hre.1 j j.2
        linarith
      · have := hr j0 c4
        rw [c6, if_pos rfl] at this
        have := hre.1 j0 c4
        simp only
        linarith
  · -- the product flow
    have hS0 : 0 < max s.sum t.sum := lt_max_of_lt_left (by
      rw [← sum_getD s]
      exact sum_pos (fun u hu => hsg u (mem_range.1 hu)) (by simpa using hs))
    have hS : (0 : ℝ) < ((max s.sum t.sum : ℤ) : ℝ) := by exact_mod_cast hS0
    have es : ∑ u ∈ range s.length, (s.getD u 0 : ℝ) = (s.sum : ℝ) := by rw [← sum_getD s]; push_cast; rfl
    have et : ∑ u ∈ range t.length, (t.getD u 0 : ℝ) = (t.sum : ℝ) := by rw [← sum_getD t]; push_cast; rfl
    have hle : ∀ u < s.length, (s.getD u 0 : ℝ) ≤ ((max s.sum t.sum : ℤ) : ℝ) := by
      intro u hu
      have : s.getD u 0 ≤ s.sum := by
        rw [← sum_getD s]
        exact single_le_sum (f := fun u => s.getD u 0) (fun u hu => (hsg u (mem_range.1 hu)).le) (mem_range.2 hu)
      exact_mod_cast this.trans (le_max_left _ _)
    have hle' : ∀ u < t.length, (t.getD u 0 : ℝ) ≤ ((max s.sum t.sum : ℤ) : ℝ) := by
      intro u hu
      have : t.getD u 0 ≤ t.sum := by
        rw [← sum_getD t]
        exact single_le_sum (f := fun u => t.getD u 0) (fun u hu => (htg u (mem_range.1 hu)).le) (mem_range.2 hu)
      exact_mod_cast this.trans (le_max_right _ _)
    have hs0 : ∀ u < s.length, (0 : ℝ) ≤ s.getD u 0 := fun u hu => by exact_mod_cast (hsg u hu).le
    have ht0 : ∀ u < t.length, (0 : ℝ) ≤ t.getD u 0 := fun u hu => by exact_mod_cast (htg u hu).le
    have hsm : (s.sum : ℝ) ≤ ((max s.sum t.sum : ℤ) : ℝ) := by exact_mod_cast le_max_left _ _
    have htm : (t.sum : ℝ) ≤ ((max s.sum t.sum : ℤ) : ℝ) := by exact_mod_cast le_max_right _ _
    have hge : (∀ i, s.getD i 0 ≤ (balance s t).1.getD i 0) ∧ ∀ j, t.getD j 0 ≤ (balance s t).2.getD j 0 := by
      rcases balance_cases hs ht with ⟨c1, c2, -, j0, c4, c5, c6⟩ | ⟨c1, c2, -, j0, c4, c5, c6⟩
      · exact ⟨fun i => by rw [c2], fun j => by rw [c6]; split_ifs <;> omega⟩
      · exact ⟨fun i => by rw [c6]; split_ifs <;> omega, fun i => by rw [c2]⟩
    have key := hm (fun u v => (s.getD u 0 : ℝ) * t.getD v 0 / ((max s.sum t.sum : ℤ) : ℝ)) ?_ ?_ ?_
    · simp only [← sum_div, ← mul_sum, ← sum_mul, es, et] at key
      have : ((min s.sum t.sum : ℤ) : ℝ) * ((max s.sum t.sum : ℤ) : ℝ) = (s.sum : ℝ) * t.sum := by exact_mod_cast min_mul_max s.sum t.sum
      rw [← this, mul_div_cancel_right₀ _ hS.ne'] at key
      have e1 : ∑ i : Fin s.length, s.getD i 0 = s.sum := by rw [← sum_getD s, Finset.sum_range]
      have e2 : ∑ i : Fin t.length, t.getD i 0 = t.sum := by rw [← sum_getD t, Finset.sum_range]
      rw [e1, e2]
      simp only [Finset.sum_range] at key
      exact_mod_cast key
    · intro u hu v hv
      rw [hk u hu v hv, Int.cast_min]
      refine ⟨div_nonneg (mul_nonneg (hs0 u hu) (ht0 v hv)) hS.le, le_min ?_ ?_⟩
      · rw [div_le_iff₀ hS]; exact mul_le_mul_of_nonneg_left (hle' v hv) (hs0 u hu)
      · rw [div_le_iff₀ hS, mul_comm]; exact mul_le_mul_of_nonneg_left (hle u hu) (ht0 v hv)
    · intro u hu
      rw [← sum_div, ← mul_sum, et, div_le_iff₀ hS]
      have : (s.getD u 0 : ℝ) ≤ (balance s t).1.getD u 0 := by exact_mod_cast hge.1 u
      exact mul_le_mul this htm (by rw [← et]; exact sum_nonneg fun u hu => ht0 u (mem_range.1 hu)) ((hs0 u hu).trans this)
    · intro u hu
      rw [← sum_div, ← sum_mul, es, div_le_iff₀ hS, mul_comm]
      have : (t.getD u 0 : ℝ) ≤ (balance s t).2.getD u 0 := by exact_mod_cast hge.2 u
      exact mul_le_mul this hsm (by rw [← es]; exact sum_nonneg fun u hu => hs0 u (mem_range.1 hu)) ((ht0 u hu).trans this)
  · intro h hb' hr' hc'
    have hh : ∀ i j, 0 ≤ (h i j - r.getD (i * t.length + j) 0) * ((costs.getD (i * t.length + j) 0 : ℝ) - π i + π (s.length + j)) := by
      intro i j
      refine hsl i i.2 j j.2 (h i j) (hb' i j).1 ?_
      rw [hk i i.2 j j.2]
      push_cast
      exact le_min (hb' i j).2.1 (hb' i j).2.2
    have hsum := sum_nonneg fun i (_ : i ∈ (univ : Finset (Fin s.length))) => sum_nonneg fun j (_ : j ∈ (univ : Finset (Fin t.length))) => hh i j
    have e : ∑ i : Fin s.length, ∑ j : Fin t.length, (h i j - r.getD (i * t.length + j) 0) * ((costs.getD (i * t.length + j) 0 : ℝ) - π i + π (s.length + j)) =
        planCost (fun (i : Fin s.length) (j : Fin t.length) => (costs.getD (i * t.length + j) 0 : ℝ)) h -
        planCost (fun (i : Fin s.length) (j : Fin t.length) => (costs.getD (i * t.length + j) 0 : ℝ)) (fun i j => (r.getD (i * t.length + j) 0 : ℝ)) -
        ∑ i : Fin s.length, (π i : ℝ) * (∑ j : Fin t.length, h i j - ∑ j : Fin t.length, (r.getD (i * t.length + j) 0 : ℝ)) +
        ∑ j : Fin t.length, (π (s.length + j) : ℝ) * (∑ i : Fin s.length, h i j - ∑ i : Fin s.length, (r.getD (i * t.length + j) 0 : ℝ)) := by
      unfold planCost
      have e2 : ∑ j : Fin t.length, (π (s.length + j) : ℝ) * (∑ i : Fin s.length, h i j - ∑ i : Fin s.length, (r.getD (i * t.length + j) 0 : ℝ)) =
          ∑ i : Fin s.length, ∑ j : Fin t.length, (π (s.length + j) : ℝ) * (h i j - (r.getD (i * t.length + j) 0 : ℝ)) := by
        rw [sum_comm]
        exact sum_congr rfl fun j _ => by rw [← mul_sum, sum_sub_distrib]
      rw [e2]
      simp only [← sum_sub_distrib, ← sum_add_distrib, mul_sum]
      exact sum_congr rfl fun i _ => sum_congr rfl fun j _ => by ring
    rw [e] at hsum
    have z1 : ∑ i : Fin s.length, (π i : ℝ) * (∑ j : Fin t.length, h i j - ∑ j : Fin t.length, (r.getD (i * t.length + j) 0 : ℝ)) = 0 :=
      sum_eq_zero fun i _ => by rw [hr' i, sub_self, mul_zero]
    have z2 : ∑ j : Fin t.length, (π (s.length + j) : ℝ) * (∑ i : Fin s.length, h i j - ∑ i : Fin s.length, (r.getD (i * t.length + j) 0 : ℝ)) = 0 :=
      sum_eq_zero fun i _ => by rw [hc' i, sub_self, mul_zero]
    rw [z1, z2] at hsum
    linarith

theorem simplexInt_out' {s t costs caps : List ℤ} {m n : ℕ} (hm : s.length = m) (hn : t.length = n) (hs : s ≠ []) (ht : t ≠ []) (h1 : ∀ x ∈ s, 0 < x) (h2 : ∀ x ∈ t, 0 < x)
    (hs' : s.sum ≤ fpMul) (ht' : t.sum ≤ fpMul) (hcl : costs.length = m * n) (hc : ∀ x ∈ costs, 0 ≤ x) (hkl : caps.length = m * n)
    (hk : ∀ u < m, ∀ v < n, caps.getD (u * n + v) 0 = min (s.getD u 0) (t.getD v 0)) :
    ∃ r : List ℤ, ∃ fuel0, (∀ fuel ≥ fuel0, simplexInt s t costs caps fuel = .ok r) ∧ r.length = m * n ∧
      NetOut (fun i : Fin m => s.getD i 0) (fun j : Fin n => t.getD j 0) (fun i j => costs.getD (i * n + j) 0) (fun i j => r.getD (i * n + j) 0) ∧
      MaxFlow (fun i : Fin m => s.getD i 0) (fun j : Fin n => t.getD j 0) (fun i => (balance s t).1.getD i 0) (fun j => (balance s t).2.getD j 0)
        (fun i j => r.getD (i * n + j) 0) := by
  subst hm hn
  exact simplexInt_out hs ht h1 h2 hs' ht' hcl hc hkl hk

theorem sum_zipWith (l1 l2 : List ℝ) (h : l1.length = l2.length) :
    (List.zipWith (fun x c : ℝ => x * c) l1 l2).sum = ∑ k ∈ range l1.length, l1.getD k 0 * l2.getD k 0 := by
  induction l1 generalizing l2 with
  | nil => simp
  | cons a l1 ih =>
    cases l2 with
    | nil => simp at h
    | cons b l2 =>
      rw [List.zipWith_cons_cons, List.sum_cons, List.length_cons, sum_range_succ', ih l2 (by simpa using h)]
      simp only [List.getD_cons_succ, List.getD_cons_zero]
      ring

theorem map_range_ofFn {α : Type*} (n : ℕ) (f : ℕ → α) : (List.range n).map f = List.ofFn fun i : Fin n => f i := by
  rw [← List.map_coe_finRange_eq_range, List.map_map, ← List.ofFn_eq_map]
  rfl

theorem fpInt_nonneg {x : ℝ} (h : 0 ≤ x) : fpInt x = ⌊x * 100000000⌋ := by simp [fpInt, h]

/-- Integer weights. -/
noncomputable def wInt (s : List ℝ) (i : Fin s.length) : ℤ := ⌊s[i] * 100000000⌋

/-- Integer costs. -/
noncomputable def cInt {m n : ℕ} (c : Fin m → Fin n → ℝ) (i : Fin m) (j : Fin n) : ℤ := ⌊c i j * 100000000⌋

/-- `network_simplex` on weights and a matrix of costs. -/
theorem networkSimplex_out {s t : List ℝ} {costs : List (List ℝ)} {c : Fin s.length → Fin t.length → ℝ} (hs : s ≠ []) (ht : t ≠ []) (hs1 : ∀ x ∈ s, 1 / 100000000 ≤ x)
    (ht1 : ∀ x ∈ t, 1 / 100000000 ≤ x) (hss : s.sum ≤ 1) (hts : t.sum ≤ 1) (hcl : costs.length = s.length) (hrl : ∀ r ∈ costs, r.length = t.length)
    (hce : ∀ (i : Fin s.length) (j : Fin t.length), (costs.getD i []).getD j 0 = c i j) (hc : ∀ i j, 0 ≤ c i j) :
    ∃ (X : Fin s.length → Fin t.length → ℤ) (fuel0 : ℕ), NetOut (wInt s) (wInt t) (cInt c) X ∧
      MaxFlow (wInt s) (wInt t) (fun i => (balance (s.map fpInt) (t.map fpInt)).1.getD i 0) (fun j => (balance (s.map fpInt) (t.map fpInt)).2.getD j 0) X ∧
      ∀ fuel ≥ fuel0, networkSimplex s t costs fuel =
      .ok (∑ i, ∑ j, (X i j : ℝ) / 100000000 * ((cInt c i j : ℝ) / 100000000),
        List.ofFn fun i => List.ofFn fun j => (X i j : ℝ) / 100000000) := by
  have hs0 : ∀ x ∈ s, 0 ≤ x := fun x hx => le_trans (by norm_num) (hs1 x hx)
  have ht0 : ∀ x ∈ t, 0 ≤ x := fun x hx => le_trans (by norm_num) (ht1 x hx)
  have hpos : ∀ x : ℝ, 1 / 100000000 ≤ x → 0 < fpInt x := by
    intro x hx
    rw [fpInt_nonneg (le_trans (by norm_num) hx)]
    have : (1 : ℤ) ≤ ⌊x * 100000000⌋ := by
      rw [Int.le_floor]
      push_cast
      have := mul_le_mul_of_nonneg_right hx (by norm_num : (0 : ℝ) ≤ 100000000)
      norm_num at this ⊢
      exact this
    omega
  have hsum : ∀ l : List ℝ, (∀ x ∈ l, 0 ≤ x) → l.sum ≤ 1 → (l.map fpInt).sum ≤ fpMul := by
    intro l h0 h1
    have : ∀ l : List ℝ, (∀ x ∈ l, 0 ≤ x) → (((l.map fpInt).sum : ℤ) : ℝ) ≤ l.sum * 100000000 := by
      intro l
      induction l with
      | nil => simp
      | cons a l ih =>
        intro h
        have h2 := ih fun x hx => h x (by simp [hx])
        have h3 := Int.floor_le (a * 100000000)
        rw [← fpInt_nonneg (h a (by simp))] at h3
        simp only [List.map_cons, List.sum_cons, Int.cast_add]
        linarith
    have h2 := this l h0
    unfold fpMul
    have h3 : (((l.map fpInt).sum : ℤ) : ℝ) ≤ ((100000000 : ℤ) : ℝ) := by push_cast; push_cast at h2; linarith
    exact_mod_cast h3
  have hfl : costs.flatten.length = s.length * t.length := by rw [flatten_length _ _ hrl, hcl]
  have hgetc : ∀ i < s.length, ∀ j < t.length, (costs.flatten.map fpInt).getD (i * t.length + j) 0 = fpInt ((costs.getD i []).getD j 0) := by
    intro i hi j hj
    have hk := edge_lt hi hj
    rw [List.getD_eq_getElem _ _ (by rw [List.length_map, hfl]; exact hk), List.getElem_map, ← List.getD_eq_getElem _ 0 (by rw [hfl]; exact hk),
      flatten_getD 0 _ _ hrl i (by rw [hcl]; exact hi) j hj]
  have hmapl : ∀ r ∈ s.map (fun a => t.map fun b => fpInt (min a b)), r.length = t.length := by
    intro r hr
    obtain ⟨a, -, rfl⟩ := List.mem_map.1 hr
    simp
  have hmono : ∀ a b : ℝ, 0 ≤ a → 0 ≤ b → fpInt (min a b) = min (fpInt a) (fpInt b) := by
    intro a b ha hb
    rw [fpInt_nonneg (le_min ha hb), fpInt_nonneg ha, fpInt_nonneg hb]
    rcases le_total a b with h | h
    · rw [min_eq_left h, min_eq_left (Int.floor_le_floor (by linarith))]
    · rw [min_eq_right h, min_eq_right (Int.floor_le_floor (by linarith))]
  obtain ⟨r, fuel0, hr, hrlen, hout, hmax⟩ := simplexInt_out' (s := s.map fpInt) (t := t.map fpInt) (costs := costs.flatten.map fpInt)
    (caps := s.flatMap fun a => t.map fun b => fpInt (min a b)) (List.length_map ..) (List.length_map ..) (by simpa using hs) (by simpa using ht)
    (by intro x hx; obtain ⟨a, ha, rfl⟩ := List.mem_map.1 hx; exact hpos a (hs1 a ha))
    (by intro x hx; obtain ⟨a, ha, rfl⟩ := List.mem_map.1 hx; exact hpos a (ht1 a ha)) (hsum s hs0 hss) (hsum t ht0 hts)
    (by rw [List.length_map, hfl])
    (by
      intro x hx
      obtain ⟨k, hk', rfl⟩ := mem_getD hx
      rw [List.length_map, hfl] at hk'
      have htpos := List.length_pos_iff.2 ht
      have e : k = k / t.length * t.length + k % t.length := (Nat.div_add_mod' k t.length).symm
      have hu : k / t.length < s.length := Nat.div_lt_of_lt_mul (by rwa [mul_comm] at hk')
      have hv := Nat.mod_lt k htpos
      have := hce ⟨_, hu⟩ ⟨_, hv⟩
      have h0 := hc ⟨_, hu⟩ ⟨_, hv⟩
      dsimp only at this
      rw [e, hgetc _ hu _ hv, this, fpInt_nonneg h0]
      exact Int.floor_nonneg.2 (by positivity))
    (by rw [List.flatMap_def, flatten_length _ _ hmapl, List.length_map])
    (by
      intro u hu v hv
      rw [List.flatMap_def, flatten_getD 0 _ _ hmapl u (by simpa using hu) v hv]
      simp only [List.getD_eq_getElem?_getD, List.getElem?_map, List.getElem?_eq_getElem hu, List.getElem?_eq_getElem hv, Option.map_some, Option.getD_some]
      exact hmono _ _ (hs0 _ (List.getElem_mem hu)) (ht0 _ (List.getElem_mem hv)))
  have hc' : ∀ (i : Fin s.length) (j : Fin t.length), (costs.flatten.map fpInt).getD (i * t.length + j) 0 = cInt c i j := by
    intro i j
    rw [hgetc i i.2 j j.2, hce i j, fpInt_nonneg (hc i j), cInt]
  have e1 : ∀ l : List ℝ, (∀ x ∈ l, 0 ≤ x) → (fun i : Fin l.length => (l.map fpInt).getD i 0) = wInt l := by
    intro l hl
    funext i
    rw [List.getD_eq_getElem _ _ (by simp), List.getElem_map, fpInt_nonneg (hl _ (List.getElem_mem _))]
    rfl
  rw [e1 s hs0, e1 t ht0] at hmax
  refine ⟨fun i j => r.getD (i * t.length + j) 0, fuel0, ?_, hmax, ?_⟩
  · rw [e1 s hs0, e1 t ht0, funext fun i => funext fun j => hc' i j] at hout
    exact hout
  · intro fuel hf
    unfold networkSimplex
    simp only [bind, Except.bind]
    rw [hr fuel hf]
    dsimp only
    congr 2
    · rw [sum_zipWith _ _ (by rw [List.length_map, List.length_map, List.length_map, hfl, hrlen]), List.length_map, hrlen, sum_range_mul, Finset.sum_range]
      refine sum_congr rfl fun i _ => ?_
      rw [Finset.sum_range]
      refine sum_congr rfl fun j _ => ?_
      have hk := edge_lt i.2 j.2
      rw [← hc' i j, List.getD_eq_getElem _ _ (by rw [List.length_map, hrlen]; exact hk), List.getElem_map,
        List.getD_eq_getElem (List.map (fun x : ℤ => (x : ℝ) / 100000000) _) _ (by rw [List.length_map, List.length_map, hfl]; exact hk), List.getElem_map,
        ← List.getD_eq_getElem r 0, ← List.getD_eq_getElem _ 0]
    · rw [map_range_ofFn]
      congr 1
      funext i
      rw [map_range_ofFn]
      congr 1
      funext j
      have hk := edge_lt i.2 j.2
      rw [List.getD_eq_getElem _ _ (by rw [List.length_map, hrlen]; exact hk), List.getElem_map, List.getD_eq_getElem r _ (by rw [hrlen]; exact hk)]

end Amd
