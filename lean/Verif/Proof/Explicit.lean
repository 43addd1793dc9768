import Verif.Proof.Searchable
import Mathlib.Algebra.Order.BigOperators.Ring.Finset
import Mathlib.Analysis.InnerProductSpace.Basic
import Mathlib.Order.Interval.Finset.Defs
import Mathlib.Data.Int.Interval
import Mathlib.Data.Fintype.BigOperators

/-! Helper lemmas: an explicit number of neighbours from which on the search is complete. -/

namespace Amd

variable {D : ℕ}

theorem startsAt_of_card {m k r : ℕ} (h : m * (2 * (r - 3) + 1) ^ D ≤ k) : StartsAt D m k r := by
  by_cases hr : r ≤ 2
  · exact Or.inl hr
  right
  intro F hF
  obtain ⟨t, rfl⟩ : ∃ t, r = t + 3 := ⟨r - 3, by omega⟩
  have hsub : F ⊆ Fintype.piFinset fun _ : Fin D => Finset.Icc (-(t : ℤ)) t := by
    intro n hn
    rw [Fintype.mem_piFinset]
    intro i
    have h1 := (sq_le_normSq n i).trans (hF n hn)
    have h2 : n i ^ 2 ≤ (t : ℤ) ^ 2 := by
      refine h1.trans (le_of_eq ?_)
      push_cast
      ring
    rw [Finset.mem_Icc]
    exact abs_le.1 (abs_le_of_sq_le_sq h2 (by omega))
  have hc := Finset.card_le_card hsub
  rw [Fintype.card_piFinset] at hc
  simp only [Int.card_Icc, Finset.prod_const, Finset.card_univ, Fintype.card_fin] at hc
  have e : ((t : ℤ) + 1 - -(t : ℤ)).toNat = 2 * (t + 3 - 3) + 1 := by omega
  rw [e] at hc
  calc F.card * m ≤ (2 * (t + 3 - 3) + 1) ^ D * m := Nat.mul_le_mul_right _ hc
    _ = m * (2 * (t + 3 - 3) + 1) ^ D := Nat.mul_comm _ _
    _ ≤ k := h

/-- `⟨v A, w A⟩` through the Gram matrix. -/
theorem gram_bilin (cell : Fin D → Pt D ℝ) (v w : Fin D → ℝ) :
    ∑ c, (∑ i, v i * cell i c) * (∑ i, w i * cell i c) = ∑ i, v i * ∑ j, gram cell i j * w j := by
  simp_rw [Finset.sum_mul_sum, gram, Finset.mul_sum, Finset.sum_mul, Finset.mul_sum]
  rw [Finset.sum_comm]
  refine Finset.sum_congr rfl fun i _ => ?_
  rw [Finset.sum_comm]
  refine Finset.sum_congr rfl fun j _ => ?_
  refine Finset.sum_congr rfl fun c _ => ?_
  ring

theorem descends_explicit {cell : Fin D → Pt D ℝ} {σ L d : ℝ} {r : ℕ} (hσ : 0 < σ)
    (hlow : ∀ v : Fin D → ℝ, σ ^ 2 * ∑ i, v i ^ 2 ≤ ∑ c, (∑ i, v i * cell i c) ^ 2) (hL : ∀ i, gram cell i i ≤ L ^ 2)
    (hr : d / σ + √D * L ^ 2 / (2 * σ ^ 2) ≤ r) (hd : 0 ≤ d) :
    Descends cell (fun f => ∑ c, (∑ i, f i * cell i c) ^ 2 ≤ d ^ 2) r := by
  refine StepsDown.descends fun n f hn hf => ?_
  by_contra hc
  push Not at hc
  -- no coordinate can be stepped: add up
  have h1 : ∀ i, 2 * ((n i : ℝ) * ∑ j, gram cell i j * ((n j : ℝ) - f j)) ≤ |(n i : ℝ)| * gram cell i i := by
    intro i
    obtain ⟨hp, hm⟩ := hc i
    rcases lt_trichotomy (n i) 0 with h | h | h
    · have := hm h
      have h' : (n i : ℝ) < 0 := by exact_mod_cast h
      rw [abs_of_neg h']
      nlinarith
    · simp [h]
    · have := hp h
      have h' : (0 : ℝ) < n i := by exact_mod_cast h
      rw [abs_of_pos h']
      nlinarith
  set v : Fin D → ℝ := fun i => (n i : ℝ) with hv
  set N := √(∑ c, (∑ i, v i * cell i c) ^ 2) with hN
  set M := √(∑ i, v i ^ 2) with hM
  have hN0 : 0 ≤ N := Real.sqrt_nonneg _
  have hN2 : N ^ 2 = ∑ c, (∑ i, v i * cell i c) ^ 2 := Real.sq_sqrt (Finset.sum_nonneg fun _ _ => sq_nonneg _)
  have hM2 : M ^ 2 = ∑ i, v i ^ 2 := Real.sq_sqrt (Finset.sum_nonneg fun _ _ => sq_nonneg _)
  have hM0 : 0 ≤ M := Real.sqrt_nonneg _
  -- `σ M ≤ N` and `r < M`
  have hσM : σ * M ≤ N := by
    refine abs_le_of_sq_le_sq' ?_ hN0 |>.2
    rw [mul_pow, hM2, hN2]
    exact hlow v
  have hrM : (r : ℝ) < M := by
    refine Real.lt_sqrt_of_sq_lt ?_
    have h : ((r : ℤ) ^ 2 : ℤ) < ∑ i, n i ^ 2 := hn
    have h' : (r : ℝ) ^ 2 < ∑ i, (n i : ℝ) ^ 2 := by exact_mod_cast h
    exact h'
  -- the two sides of the sum
  have hleft : ∑ i, 2 * ((n i : ℝ) * ∑ j, gram cell i j * ((n j : ℝ) - f j)) = 2 * (N ^ 2 - ∑ c, (∑ i, v i * cell i c) * (∑ i, f i * cell i c)) := by
    rw [← Finset.mul_sum, ← gram_bilin cell v (fun j => (n j : ℝ) - f j), hN2, ← Finset.sum_sub_distrib]
    congr 1
    refine Finset.sum_congr rfl fun c _ => ?_
    simp_rw [sub_mul]
    rw [Finset.sum_sub_distrib]
    ring
  have hcs : ∑ c, (∑ i, v i * cell i c) * (∑ i, f i * cell i c) ≤ N * d := by
    refine (Real.sum_mul_le_sqrt_mul_sqrt Finset.univ _ _).trans ?_
    refine mul_le_mul_of_nonneg_left ?_ hN0
    rw [Real.sqrt_le_left hd]
    exact hf
  have hright : ∑ i, |(n i : ℝ)| * gram cell i i ≤ L ^ 2 * (√D * M) := by
    calc ∑ i, |(n i : ℝ)| * gram cell i i ≤ ∑ i, |(n i : ℝ)| * L ^ 2 := Finset.sum_le_sum fun i _ => mul_le_mul_of_nonneg_left (hL i) (abs_nonneg _)
      _ = L ^ 2 * ∑ i, 1 * |(n i : ℝ)| := by rw [← Finset.sum_mul, mul_comm]; simp
      _ ≤ L ^ 2 * (√D * M) := by
        refine mul_le_mul_of_nonneg_left ((Real.sum_mul_le_sqrt_mul_sqrt Finset.univ _ _).trans (le_of_eq ?_)) (sq_nonneg _)
        simp [hM, hv]
  have hsum := (Finset.sum_le_sum fun i (_ : i ∈ Finset.univ) => h1 i).trans hright
  rw [hleft] at hsum
  -- contradiction
  have hMpos : 0 < M := lt_of_le_of_lt (Nat.cast_nonneg r) hrM
  have hNpos : 0 < N := lt_of_lt_of_le (mul_pos hσ hMpos) hσM
  have hk : √D * L ^ 2 * M ≤ √D * L ^ 2 * (N / σ) := by
    refine mul_le_mul_of_nonneg_left ?_ (by positivity)
    rw [le_div_iff₀ hσ]
    linarith
  have h2 : 2 * (N - d) ≤ √D * L ^ 2 / σ := by
    have : N * (2 * (N - d)) ≤ N * (√D * L ^ 2 / σ) := by
      have e : N * (√D * L ^ 2 / σ) = √D * L ^ 2 * (N / σ) := by ring
      rw [e]
      nlinarith
    exact le_of_mul_le_mul_left this hNpos
  have h3 : σ * (d / σ + √D * L ^ 2 / (2 * σ ^ 2)) = d + √D * L ^ 2 / σ / 2 := by
    field_simp
  have h4 := mul_le_mul_of_nonneg_left hr hσ.le
  have h5 := mul_lt_mul_of_pos_left hrM hσ
  rw [h3] at h4
  linarith

theorem nonSingular_of_low {cell : Fin D → Pt D ℝ} {σ : ℝ} (hσ : 0 < σ)
    (hlow : ∀ v : Fin D → ℝ, σ ^ 2 * ∑ i, v i ^ 2 ≤ ∑ c, (∑ i, v i * cell i c) ^ 2) : NonSingular cell := by
  refine Fintype.linearIndependent_iff.2 fun v h i => ?_
  have h0 : ∀ c, ∑ i, v i * cell i c = 0 := by
    intro c
    simpa using congrFun h c
  have := hlow v
  simp only [h0] at this
  have h1 : ∑ i, v i ^ 2 ≤ 0 := by
    have h2 : 0 < σ ^ 2 := by positivity
    simp at this
    by_contra hc
    push Not at hc
    have := mul_pos h2 hc
    linarith
  have h2 := (Finset.sum_eq_zero_iff_of_nonneg fun i _ => sq_nonneg (v i)).1 (le_antisymm h1 (Finset.sum_nonneg fun _ _ => sq_nonneg _)) i (Finset.mem_univ i)
  exact pow_eq_zero_iff (by norm_num) |>.1 h2

/-- The explicit condition implies that the search is complete. -/
theorem ManyNeighbours.searchable {motif : List (Pt D ℝ)} {cell : Fin D → Pt D ℝ} {k : ℕ} (h : ManyNeighbours motif cell k) (hm : motif ≠ []) :
    Searchable motif cell k ∧ NonSingular cell := by
  obtain ⟨σ, L, d, r, hσ, hlow, hL, hd, hr, hk⟩ := h
  have hns := nonSingular_of_low hσ hlow
  obtain ⟨p, hp⟩ := List.exists_mem_of_ne_nil motif hm
  have hd0 : 0 ≤ d := (Real.sqrt_nonneg _).trans (hd p hp p hp)
  obtain ⟨B, hB⟩ := fracDiff_bounded hns motif
  refine ⟨⟨_, r, descends_explicit hσ hlow hL hr hd0, ?_, startsAt_of_card hk⟩, hns⟩
  intro p hp q hq
  obtain ⟨f, -, hf⟩ := hB p hp q hq
  refine ⟨f, ?_, hf⟩
  simp only [← hf]
  exact (Real.sqrt_le_left hd0).1 (hd p hp q hq)

/-- Cells that are `DominantBy t` have the descent property beyond radius `r` when `D t² ≤ r²`. -/
theorem descends_of_dominant {cell : Fin D → Pt D ℝ} {t : ℕ} (ht : 1 ≤ t) (h : DominantBy t cell) {r : ℕ} (hr : D * t ^ 2 ≤ r ^ 2) :
    Descends cell (fun f => ∀ i, |f i| < 1) r := by
  refine StepsDown.descends fun n f hn hf => ?_
  have ht' : (1 : ℝ) ≤ t := by exact_mod_cast ht
  -- some coordinate is greater than `t` in absolute value
  have h2 : ∃ i, (t : ℤ) + 1 ≤ |n i| := by
    by_contra hc
    push Not at hc
    have : normSq n ≤ D * (t : ℤ) ^ 2 := by
      unfold normSq
      calc ∑ i, n i ^ 2 ≤ ∑ _i : Fin D, (t : ℤ) ^ 2 := by
            apply Finset.sum_le_sum
            intro i _
            have := hc i
            exact sq_le_sq' (by have := abs_le.1 (show |n i| ≤ t by omega); omega) (by have := abs_le.1 (show |n i| ≤ t by omega); omega)
        _ = D * (t : ℤ) ^ 2 := by simp
    have h3 : ((D * t ^ 2 : ℕ) : ℤ) ≤ (r : ℤ) ^ 2 := by exact_mod_cast hr
    push_cast at h3
    omega
  obtain ⟨i₁, hi₁⟩ := h2
  -- the coordinate of largest |n - f|
  obtain ⟨i, _, hmax⟩ := Finset.exists_max_image Finset.univ (fun j => |(n j : ℝ) - f j|) ⟨i₁, Finset.mem_univ _⟩
  have hv1 : (t : ℝ) < |(n i : ℝ) - f i| := by
    refine lt_of_lt_of_le ?_ (hmax i₁ (Finset.mem_univ _))
    have h4 : (t : ℝ) + 1 ≤ |(n i₁ : ℝ)| := by exact_mod_cast hi₁
    have h5 := hf i₁
    have h6 := abs_sub_abs_le_abs_sub (n i₁ : ℝ) (f i₁)
    linarith
  refine ⟨i, ?_⟩
  have hsum : ∑ j, gram cell i j * ((n j : ℝ) - f j) =
      gram cell i i * ((n i : ℝ) - f i) + ∑ j ∈ Finset.univ.erase i, gram cell i j * ((n j : ℝ) - f j) := by
    rw [← Finset.add_sum_erase _ _ (Finset.mem_univ i)]
  have hrest : |∑ j ∈ Finset.univ.erase i, gram cell i j * ((n j : ℝ) - f j)| ≤
      (∑ j ∈ Finset.univ.erase i, |gram cell i j|) * |(n i : ℝ) - f i| := by
    refine (Finset.abs_sum_le_sum_abs _ _).trans ?_
    rw [Finset.sum_mul]
    apply Finset.sum_le_sum
    intro j _
    rw [abs_mul]
    exact mul_le_mul_of_nonneg_left (hmax j (Finset.mem_univ _)) (abs_nonneg _)
  have hi := h i
  have hS : 0 ≤ ∑ j ∈ Finset.univ.erase i, |gram cell i j| := Finset.sum_nonneg fun _ _ => abs_nonneg _
  have hg : 0 ≤ gram cell i i := by
    unfold gram
    exact Finset.sum_nonneg fun c _ => mul_self_nonneg _
  set S := ∑ j ∈ Finset.univ.erase i, |gram cell i j|
  set R := ∑ j ∈ Finset.univ.erase i, gram cell i j * ((n j : ℝ) - f j)
  rw [hsum]
  have hR := abs_le.mp hrest
  have hfi := abs_lt.mp (hf i)
  -- `(G - S) x ≥ G / 2` for `x ≥ t`
  have key : ∀ x : ℝ, (t : ℝ) < x → gram cell i i ≤ 2 * (gram cell i i * x - S * x) := by
    intro x hx
    have h1 : 0 ≤ 2 * t * (gram cell i i - S) - gram cell i i := by nlinarith
    have h2 : gram cell i i * t ≤ t * (2 * (gram cell i i * x - S * x)) := by nlinarith
    nlinarith
  rcases lt_trichotomy (n i) 0 with h0 | h0 | h0
  · right
    refine ⟨h0, ?_⟩
    have h0' : (n i : ℝ) ≤ -1 := by exact_mod_cast (by omega : n i ≤ -1)
    rw [abs_of_neg (by linarith)] at hv1 hR
    have := key _ hv1
    nlinarith [hR.1, hR.2]
  · rw [h0] at hv1
    simp at hv1
    linarith [hf i]
  · left
    refine ⟨h0, ?_⟩
    have h0' : (1 : ℝ) ≤ (n i : ℝ) := by exact_mod_cast (by omega : 1 ≤ n i)
    rw [abs_of_pos (by linarith)] at hv1 hR
    have := key _ hv1
    nlinarith [hR.1, hR.2]

/-- Moderately oblique cells, for a number of neighbours that is not too small. -/
theorem searchable_of_dominant {motif : List (Pt D ℝ)} {cell : Fin D → Pt D ℝ} {t r k : ℕ} (ht : 1 ≤ t) (h : DominantBy t cell)
    (hr : D * t ^ 2 ≤ r ^ 2) (hfit : FitsInCell motif cell) (hk : r ≤ 2 ∨ motif.length * (2 * (r - 3) + 1) ^ D ≤ k) : Searchable motif cell k :=
  ⟨_, r, descends_of_dominant ht h hr, fracDiff_of_fits hfit, hk.elim Or.inl startsAt_of_card⟩

end Amd
