import Verif.Proof.KNearest
import Verif.Spec.Cells
import Mathlib.Tactic.NormNum
import Mathlib.Tactic.FieldSimp

/-! Helper lemmas: termination, and exactness for cells with the descent property. -/

set_option linter.unusedSectionVars false

namespace Amd

variable {D : ℕ}

/-! ### Exactness -/

/-- `|v A|²` through the Gram matrix. -/
theorem sqNorm_lin (cell : Fin D → Pt D ℝ) (v : Fin D → ℝ) :
    ∑ c, (∑ i, v i * cell i c) ^ 2 = ∑ i, ∑ j, v i * v j * gram cell i j := by
  have : ∀ c, (∑ i, v i * cell i c) ^ 2 = ∑ i, ∑ j, v i * v j * (cell i c * cell j c) := by
    intro c
    rw [sq, Finset.sum_mul_sum]
    apply Finset.sum_congr rfl; intro i _
    apply Finset.sum_congr rfl; intro j _
    ring
  simp_rw [this]
  rw [Finset.sum_comm]
  apply Finset.sum_congr rfl; intro i _
  rw [Finset.sum_comm]
  apply Finset.sum_congr rfl; intro j _
  rw [gram, Finset.mul_sum]

theorem gram_comm (cell : Fin D → Pt D ℝ) (i j : Fin D) : gram cell i j = gram cell j i := by
  unfold gram
  exact Finset.sum_congr rfl fun c _ => mul_comm _ _

/-- Stepping coordinate `i` by `s` changes the quadratic form by `-2 s (G v)_i + s² G_ii`. -/
theorem quad_step (cell : Fin D → Pt D ℝ) (v : Fin D → ℝ) (i : Fin D) (s : ℝ) :
    ∑ c, (∑ a, (v a - if a = i then s else 0) * cell a c) ^ 2 =
      ∑ c, (∑ a, v a * cell a c) ^ 2 - 2 * s * (∑ j, gram cell i j * v j) + s ^ 2 * gram cell i i := by
  have e1 : ∀ c, ∑ a, (v a - if a = i then s else 0) * cell a c = ∑ a, v a * cell a c - s * cell i c := by
    intro c
    simp_rw [sub_mul]
    rw [Finset.sum_sub_distrib]
    congr 1
    rw [Finset.sum_eq_single i]
    · simp
    · intro b _ hb; simp [hb]
    · simp
  simp_rw [e1, sub_sq]
  rw [Finset.sum_add_distrib, Finset.sum_sub_distrib]
  have e2 : ∑ c, 2 * (∑ a, v a * cell a c) * (s * cell i c) = 2 * s * ∑ j, gram cell i j * v j := by
    rw [Finset.mul_sum]
    simp_rw [gram, Finset.sum_mul, Finset.mul_sum]
    rw [Finset.sum_comm]
    refine Finset.sum_congr rfl fun c _ => ?_
    rw [Finset.sum_mul]
    refine Finset.sum_congr rfl fun a _ => ?_
    ring
  have e3 : ∑ c, (s * cell i c) ^ 2 = s ^ 2 * gram cell i i := by
    rw [gram, Finset.mul_sum]
    refine Finset.sum_congr rfl fun c _ => ?_
    ring
  rw [e2, e3]

theorem normSq_step (n : Fin D → ℤ) (i : Fin D) (s : ℤ) :
    normSq (fun a => n a - if a = i then s else 0) = normSq n - 2 * s * n i + s ^ 2 := by
  unfold normSq
  rw [← Finset.add_sum_erase _ _ (Finset.mem_univ i), ← Finset.add_sum_erase _ _ (Finset.mem_univ i)]
  have : ∑ x ∈ Finset.univ.erase i, (n x - if x = i then s else 0) ^ 2 =
      ∑ x ∈ Finset.univ.erase i, n x ^ 2 := by
    apply Finset.sum_congr rfl
    intro a ha
    rw [if_neg (Finset.ne_of_mem_erase ha), sub_zero]
  rw [this]
  simp
  ring

theorem sq_le_normSq (n : Fin D → ℤ) (i : Fin D) : n i ^ 2 ≤ normSq n :=
  Finset.single_le_sum (f := fun j => n j ^ 2) (fun _ _ => sq_nonneg _) (Finset.mem_univ i)

theorem normSq_nonneg (n : Fin D → ℤ) : 0 ≤ normSq n := Finset.sum_nonneg fun _ _ => sq_nonneg _

/-- Every integer vector of norm greater than `r` has a coordinate by which one can step towards 0 without moving
away from any point with fractional coordinates in `P` (in the metric of the cell). -/
def StepsDown (cell : Fin D → Pt D ℝ) (P : (Fin D → ℝ) → Prop) (r : ℕ) : Prop :=
  ∀ (n : Fin D → ℤ) (f : Fin D → ℝ), (r : ℤ) ^ 2 < normSq n → P f →
    ∃ i, (0 < n i ∧ gram cell i i ≤ 2 * ∑ j, gram cell i j * ((n j : ℝ) - f j)) ∨
         (n i < 0 ∧ gram cell i i ≤ -(2 * ∑ j, gram cell i j * ((n j : ℝ) - f j)))

/-- As `StepsDown`, with exceptions for which the conclusion wanted is known. -/
def StepsDownOr (cell : Fin D → Pt D ℝ) (P : (Fin D → ℝ) → Prop) (r : ℕ) : Prop :=
  ∀ (n : Fin D → ℤ) (f : Fin D → ℝ), (r : ℤ) ^ 2 < normSq n → P f →
    (∃ i, (0 < n i ∧ gram cell i i ≤ 2 * ∑ j, gram cell i j * ((n j : ℝ) - f j)) ∨
         (n i < 0 ∧ gram cell i i ≤ -(2 * ∑ j, gram cell i j * ((n j : ℝ) - f j)))) ∨
    ∀ d : ℕ, r ≤ d → (d : ℤ) ^ 2 < normSq n → ∃ n', InShell d n' ∧
      ∑ c, (∑ a, ((n' a : ℝ) - f a) * cell a c) ^ 2 ≤ ∑ c, (∑ a, ((n a : ℝ) - f a) * cell a c) ^ 2

/-- From any vector beyond layer `d ≥ r` one descends into layer `d` without increasing the distance. -/
theorem exists_in_layer {cell : Fin D → Pt D ℝ} {P : (Fin D → ℝ) → Prop} {r : ℕ} (hdes : StepsDownOr cell P r)
    {d : ℕ} (hrd : r ≤ d) (f : Fin D → ℝ) (hf : P f) :
    ∀ (N : ℕ) (n : Fin D → ℤ), normSq n ≤ N → (d : ℤ) ^ 2 < normSq n →
    ∃ n', InShell d n' ∧ ∑ c, (∑ a, ((n' a : ℝ) - f a) * cell a c) ^ 2 ≤
      ∑ c, (∑ a, ((n a : ℝ) - f a) * cell a c) ^ 2
  | 0, n, hN, hd => by
    have := sq_nonneg (d : ℤ)
    simp at hN
    omega
  | N + 1, n, hN, hd => by
    have hr2 : (r : ℤ) ^ 2 ≤ (d : ℤ) ^ 2 := by
      have : (r : ℤ) ≤ d := by exact_mod_cast hrd
      nlinarith
    rcases hdes n f (by omega) hf with ⟨i, hi⟩ | hdirect
    rotate_left
    · exact hdirect d hrd hd
    -- the step
    obtain ⟨s, hs1, hs2, hs3⟩ : ∃ s : ℤ, s ^ 2 = 1 ∧ 0 < s * n i ∧
        gram cell i i ≤ 2 * s * ∑ j, gram cell i j * ((n j : ℝ) - f j) := by
      rcases hi with ⟨h1, h2⟩ | ⟨h1, h2⟩
      · exact ⟨1, by norm_num, by omega, by push_cast; linarith⟩
      · exact ⟨-1, by norm_num, by omega, by push_cast; linarith⟩
    let n' : Fin D → ℤ := fun a => n a - if a = i then s else 0
    have hq : ∑ c, (∑ a, ((n' a : ℝ) - f a) * cell a c) ^ 2 ≤
        ∑ c, (∑ a, ((n a : ℝ) - f a) * cell a c) ^ 2 := by
      have h := quad_step cell (fun a => (n a : ℝ) - f a) i (s : ℝ)
      have e : ∀ a, ((n' a : ℤ) : ℝ) - f a = ((n a : ℝ) - f a) - if a = i then (s : ℝ) else 0 := by
        intro a
        simp only [n']
        split_ifs <;> push_cast <;> ring
      simp_rw [e]
      rw [h]
      have : ((s : ℝ)) ^ 2 = 1 := by exact_mod_cast hs1
      rw [this]
      linarith
    have hns : normSq n' = normSq n - 2 * (s * n i) + 1 := by
      rw [normSq_step, hs1]; ring
    by_cases hcase : (d : ℤ) ^ 2 < normSq n'
    · obtain ⟨n'', h1, h2⟩ := exists_in_layer hdes hrd f hf N n' (by push_cast at hN; omega) hcase
      exact ⟨n'', h1, h2.trans hq⟩
    · refine ⟨n', ⟨not_lt.mp hcase, ?_⟩, hq⟩
      rcases Nat.eq_zero_or_pos d with hd0 | hd0
      · exact Or.inl hd0
      · right
        -- |n'| ≥ |n| - 1 > d - 1
        have h1 : (s * n i) ^ 2 ≤ normSq n := by
          rw [mul_pow, hs1, one_mul]; exact sq_le_normSq n i
        set t := s * n i with ht
        have hdpos : (1 : ℤ) ≤ d := by exact_mod_cast hd0
        rw [hns]
        by_cases htd : t ≤ d
        · nlinarith
        · push Not at htd
          nlinarith

theorem StepsDownOr.descends {cell : Fin D → Pt D ℝ} {P : (Fin D → ℝ) → Prop} {r : ℕ} (h : StepsDownOr cell P r) : Descends cell P r :=
  fun _ n f hrd hd hf => exists_in_layer h hrd f hf (normSq n).toNat n (by rw [Int.toNat_of_nonneg (normSq_nonneg n)]) hd

theorem StepsDown.descends {cell : Fin D → Pt D ℝ} {P : (Fin D → ℝ) → Prop} {r : ℕ} (h : StepsDown cell P r) : Descends cell P r :=
  StepsDownOr.descends fun n f hn hf => Or.inl (h n f hn hf)

/-- With the descent property, nothing beyond the last layer looked at is nearer. -/
theorem complete_of_descends {motif x : List (Pt D ℝ)} {cell : Fin D → Pt D ℝ} {P : (Fin D → ℝ) → Prop}
    {r d : ℕ} (hD : 0 < D)
    (hdes : Descends cell P r) (hrd : r ≤ d) (hfit : FracDiff motif cell P) (hxm : ∀ p ∈ x, p ∈ motif)
    {b : ℝ} (hstop : ∀ n ∈ intLayer D d, ∀ p ∈ x, ∀ q ∈ motif, b ≤ sqDist p (q + latVec cell n)) :
    ∀ n, n ∉ layersUpTo D d → ∀ p ∈ x, ∀ q ∈ motif, b ≤ sqDist p (q + latVec cell n) := by
  intro n hn p hp q hq
  obtain ⟨f, hPf, ef⟩ := hfit p (hxm p hp) q hq
  have key : ∀ n : Fin D → ℤ, sqDist p (q + latVec cell n) =
      ∑ c, (∑ a, ((n a : ℝ) - f a) * cell a c) ^ 2 := by
    intro n
    unfold sqDist
    apply Finset.sum_congr rfl
    intro c _
    simp only [Pi.add_apply, latVec]
    simp_rw [sub_mul]
    rw [Finset.sum_sub_distrib, ← ef c]
    ring
  by_cases hlayer : n ∈ intLayer D d
  · exact hstop n hlayer p hp q hq
  · have hbig : (d : ℤ) ^ 2 < normSq n := by
      by_contra hle
      rw [not_lt, ← mem_layersUpTo hD, layersUpTo_succ, List.mem_append] at hle
      exact hle.elim hn hlayer
    obtain ⟨n', h1, h2⟩ := hdes d n f hrd hbig hPf
    rw [key n]
    refine le_trans ?_ h2
    rw [← key n']
    exact hstop n' ((mem_intLayer hD d n').mpr h1) p hp q hq

theorem fracDiff_of_fits {motif : List (Pt D ℝ)} {cell : Fin D → Pt D ℝ} (h : FitsInCell motif cell) :
    FracDiff motif cell (fun f => ∀ i, |f i| < 1) := by
  intro p hp q hq
  obtain ⟨o, ho⟩ := h
  obtain ⟨u, hu, eu⟩ := ho p hp
  obtain ⟨w, hw, ew⟩ := ho q hq
  refine ⟨fun i => u i - w i, ?_, ?_⟩
  · intro i
    rw [abs_lt]
    constructor <;> linarith [(hu i).1, (hu i).2, (hw i).1, (hw i).2]
  · intro j
    simp_rw [sub_mul]
    rw [Finset.sum_sub_distrib, eu, ew]
    ring

/-- Half dominant cells have the descent property beyond radius `r` when `D ≤ r²`. -/
theorem descends_of_halfDominant {cell : Fin D → Pt D ℝ} (h : HalfDominant cell) {r : ℕ} (hr : D ≤ r ^ 2) :
    Descends cell (fun f => ∀ i, |f i| < 1) r := by
  refine StepsDown.descends fun n f hn hf => ?_
  -- some coordinate is at least 2 in absolute value
  have h2 : ∃ i, 2 ≤ |n i| := by
    by_contra hc
    push Not at hc
    have : normSq n ≤ D := by
      unfold normSq
      calc ∑ i, n i ^ 2 ≤ ∑ _i : Fin D, (1 : ℤ) := by
            apply Finset.sum_le_sum
            intro i _
            have := hc i
            rw [sq_le_one_iff_abs_le_one]; omega
        _ = D := by simp
    have h3 : (D : ℤ) ≤ (r : ℤ) ^ 2 := by exact_mod_cast hr
    omega
  obtain ⟨i₁, hi₁⟩ := h2
  -- the coordinate of largest |n - f|
  obtain ⟨i, _, hmax⟩ := Finset.exists_max_image Finset.univ (fun j => |(n j : ℝ) - f j|) ⟨i₁, Finset.mem_univ _⟩
  have hv1 : 1 < |(n i : ℝ) - f i| := by
    refine lt_of_lt_of_le ?_ (hmax i₁ (Finset.mem_univ _))
    have h4 : (2 : ℝ) ≤ |(n i₁ : ℝ)| := by exact_mod_cast hi₁
    have h5 := hf i₁
    have h6 := abs_sub_abs_le_abs_sub (n i₁ : ℝ) (f i₁)
    linarith
  refine ⟨i, ?_⟩
  have hsum : ∑ j, gram cell i j * ((n j : ℝ) - f j) =
      gram cell i i * ((n i : ℝ) - f i) + ∑ j ∈ Finset.univ.erase i, gram cell i j * ((n j : ℝ) - f j) := by
    rw [← Finset.add_sum_erase _ _ (Finset.mem_univ i)]
  have hrest : |∑ j ∈ Finset.univ.erase i, gram cell i j * ((n j : ℝ) - f j)| ≤
      (∑ j ∈ Finset.univ.erase i, |gram cell i j|) * |(n i : ℝ) - f i| := by
    refine (Finset.abs_sum_le_sum_abs _ _).trans ?_
    rw [Finset.sum_mul]
    apply Finset.sum_le_sum
    intro j _
    rw [abs_mul]
    exact mul_le_mul_of_nonneg_left (hmax j (Finset.mem_univ _)) (abs_nonneg _)
  have hi := h i
  have hS : 0 ≤ ∑ j ∈ Finset.univ.erase i, |gram cell i j| := Finset.sum_nonneg fun _ _ => abs_nonneg _
  set S := ∑ j ∈ Finset.univ.erase i, |gram cell i j|
  set R := ∑ j ∈ Finset.univ.erase i, gram cell i j * ((n j : ℝ) - f j)
  rw [hsum]
  have hR := abs_le.mp hrest
  have hfi := abs_lt.mp (hf i)
  rcases lt_trichotomy (n i) 0 with h0 | h0 | h0
  · right
    refine ⟨h0, ?_⟩
    have h0' : (n i : ℝ) ≤ -1 := by exact_mod_cast (by omega : n i ≤ -1)
    rw [abs_of_neg (by linarith)] at hv1 hR
    nlinarith [hR.1, hR.2]
  · rw [h0] at hv1
    simp at hv1
    linarith [hf i]
  · left
    refine ⟨h0, ?_⟩
    have h0' : (1 : ℝ) ≤ (n i : ℝ) := by exact_mod_cast (by omega : 1 ≤ n i)
    rw [abs_of_pos (by linarith)] at hv1 hR
    nlinarith [hR.1, hR.2]

/-! ### Termination -/

theorem exists_lower_bound {cell : Fin D → Pt D ℝ} (h : NonSingular cell) :
    ∃ c : ℝ, 0 < c ∧ ∀ n : Fin D → ℤ, c * (normSq n : ℝ) ≤ sqNorm (latVec cell n) := by
  let L : (Fin D → ℝ) →ₗ[ℝ] (Fin D → ℝ) := Fintype.linearCombination ℝ cell
  have hinj : LinearMap.ker L = ⊥ := by
    rw [LinearMap.ker_eq_bot]
    exact linearIndependent_iff_injective_fintypeLinearCombination.mp h
  obtain ⟨C, hC0, hC⟩ := L.exists_antilipschitzWith hinj
  refine ⟨1 / (C ^ 2 * (D + 1)), by positivity, ?_⟩
  intro n
  have hlat : L (fun i => (n i : ℝ)) = latVec cell n := by
    funext j
    simp [L, Fintype.linearCombination_apply, latVec]
  have h1 : ‖(fun i => (n i : ℝ))‖ ≤ C * ‖latVec cell n‖ := by
    have := hC.le_mul_dist (fun i => (n i : ℝ)) 0
    rw [map_zero, dist_zero_right, dist_zero_right, hlat] at this
    exact this
  have h2 : (normSq n : ℝ) ≤ D * ‖(fun i => (n i : ℝ))‖ ^ 2 := by
    unfold normSq
    push_cast
    calc ∑ i, (n i : ℝ) ^ 2 ≤ ∑ _i : Fin D, ‖(fun i => (n i : ℝ))‖ ^ 2 := by
          apply Finset.sum_le_sum
          intro i _
          have := norm_le_pi_norm (fun i => (n i : ℝ)) i
          rw [← sq_abs (n i : ℝ)]
          exact pow_le_pow_left₀ (abs_nonneg _) this 2
      _ = D * ‖(fun i => (n i : ℝ))‖ ^ 2 := by simp
  have h3 : ‖latVec cell n‖ ^ 2 ≤ sqNorm (latVec cell n) := by
    have : ‖latVec cell n‖ ≤ √(sqNorm (latVec cell n)) := by
      rw [pi_norm_le_iff_of_nonneg (Real.sqrt_nonneg _)]
      intro i
      rw [Real.norm_eq_abs]
      apply Real.abs_le_sqrt
      exact Finset.single_le_sum (f := fun j => latVec cell n j ^ 2) (fun _ _ => sq_nonneg _) (Finset.mem_univ i)
    calc ‖latVec cell n‖ ^ 2 ≤ (√(sqNorm (latVec cell n))) ^ 2 := pow_le_pow_left₀ (norm_nonneg _) this 2
      _ = sqNorm (latVec cell n) := Real.sq_sqrt (Finset.sum_nonneg fun _ _ => sq_nonneg _)
  have h4 : ‖(fun i => (n i : ℝ))‖ ^ 2 ≤ C ^ 2 * sqNorm (latVec cell n) := by
    calc ‖(fun i => (n i : ℝ))‖ ^ 2 ≤ (C * ‖latVec cell n‖) ^ 2 := pow_le_pow_left₀ (norm_nonneg _) h1 2
      _ = C ^ 2 * ‖latVec cell n‖ ^ 2 := by ring
      _ ≤ C ^ 2 * sqNorm (latVec cell n) := by gcongr
  rw [div_mul_eq_mul_div, one_mul, div_le_iff₀ (by positivity)]
  have h5 : 0 ≤ sqNorm (latVec cell n) := Finset.sum_nonneg fun _ _ => sq_nonneg _
  have h6 : (D : ℝ) * ‖(fun i => (n i : ℝ))‖ ^ 2 ≤ D * (C ^ 2 * sqNorm (latVec cell n)) := by gcongr
  have h7 : 0 ≤ (C : ℝ) ^ 2 * sqNorm (latVec cell n) := by positivity
  nlinarith

theorem nearestNeighborsSq_terminates {motif x : List (Pt D ℝ)} {cell : Fin D → Pt D ℝ} (k : ℕ)
    (hD : 0 < D) (hx : x ≠ []) (hxm : ∀ p ∈ x, p ∈ motif) (hk : 0 < k) (hcell : NonSingular cell) :
    ∃ F, ∀ fuel, F ≤ fuel → nearestNeighborsSq nearReal motif cell x k fuel ≠ .error .fuel := by
  have hm : motif ≠ [] := by
    obtain ⟨p, hp⟩ := List.exists_mem_of_ne_nil x hx
    exact List.ne_nil_of_mem (hxm p hp)
  have hmpos : 0 < motif.length := List.length_pos_iff.mpr hm
  obtain ⟨dsq, h1, h2, _⟩ := diam_spec motif x cell hD hx hm k
  have hnl := two_le_numLayers (k := k) hD hmpos
  have hlen := le_length_cloud motif cell hD hm k
  obtain ⟨a, ha, hage, _⟩ := maxLast_rowsUpTo motif cell hx hk hlen
  obtain ⟨c, hc0, hc⟩ := exists_lower_bound hcell
  -- a layer that is certainly too far
  obtain ⟨e, he⟩ := exists_nat_ge ((√a + √dsq) ^ 2 / c)
  set nl := numLayers D motif.length k
  refine ⟨e + 2, ?_⟩
  intro fuel hfuel
  rw [nearestNeighborsSq_eq_loop nearReal motif x cell k fuel dsq h1]
  refine nnLoop_terminates (b := a) hD hx hxm hk (nearReal_sound motif x dsq h2) (nl + e) ?_ fuel nl
    (by omega) hlen (by omega) (by omega) hage
  intro n hn b hb0 hba
  rw [mem_intLayer hD] at hn
  unfold nearReal
  rw [decide_eq_false_iff_not, not_lt]
  have hn2 : ((nl + e : ℕ) - 1 : ℝ) ^ 2 < (normSq n : ℝ) := by
    rcases hn.2 with h | h
    · omega
    · exact_mod_cast h
  have hnl' : (2 : ℝ) ≤ (nl : ℝ) := by exact_mod_cast hnl
  have he0 : (0 : ℝ) ≤ e := Nat.cast_nonneg e
  have hbig : (e : ℝ) ≤ (normSq n : ℝ) := by
    push_cast at hn2
    nlinarith
  have hbd : (√b + √dsq) ^ 2 ≤ (√a + √dsq) ^ 2 := by
    have : √b ≤ √a := Real.sqrt_le_sqrt hba
    have h0 : 0 ≤ √b + √dsq := by positivity
    nlinarith
  calc (√b + √dsq) ^ 2 ≤ (√a + √dsq) ^ 2 := hbd
    _ = c * ((√a + √dsq) ^ 2 / c) := by field_simp
    _ ≤ c * (normSq n : ℝ) := by
      apply mul_le_mul_of_nonneg_left _ hc0.le
      exact he.trans hbig
    _ ≤ sqNorm (latVec cell n) := hc n

/-! ### All cells, for large radii -/

/-- Any motif has bounded fractional coordinates. -/
theorem fracDiff_bounded {cell : Fin D → Pt D ℝ} (h : NonSingular cell) (motif : List (Pt D ℝ)) :
    ∃ B : ℝ, FracDiff motif cell (fun f => ∀ i, |f i| ≤ B) := by
  have hspan : ∀ p : Pt D ℝ, ∃ f : Fin D → ℝ, ∀ j, p j = ∑ i, f i * cell i j := by
    intro p
    have hinj : Function.Injective (Fintype.linearCombination ℝ cell) :=
      linearIndependent_iff_injective_fintypeLinearCombination.mp h
    have hsurj := (LinearMap.injective_iff_surjective (f := Fintype.linearCombination ℝ cell)).mp hinj
    obtain ⟨f, hf⟩ := hsurj p
    refine ⟨f, fun j => ?_⟩
    rw [← hf]
    simp [Fintype.linearCombination_apply]
  choose F hF using hspan
  have hb : ∀ l : List (Pt D ℝ), ∃ B : ℝ, ∀ p ∈ l, ∀ i, |F p i| ≤ B := by
    intro l
    induction l with
    | nil => exact ⟨0, by simp⟩
    | cons p l ih =>
      obtain ⟨B, hB⟩ := ih
      refine ⟨max B (∑ i, |F p i|), ?_⟩
      intro q hq i
      rcases List.mem_cons.mp hq with rfl | hq
      · exact le_max_of_le_right
          (Finset.single_le_sum (f := fun i => |F q i|) (fun _ _ => abs_nonneg _) (Finset.mem_univ i))
      · exact le_max_of_le_left (hB q hq i)
  obtain ⟨B, hB⟩ := hb motif
  refine ⟨2 * B, ?_⟩
  intro p hp q hq
  refine ⟨fun i => F p i - F q i, ?_, ?_⟩
  · intro i
    have h1 := abs_le.mp (hB p hp i)
    have h2 := abs_le.mp (hB q hq i)
    rw [abs_le]
    constructor <;> linarith [h1.1, h1.2, h2.1, h2.2]
  · intro j
    simp_rw [sub_mul]
    rw [Finset.sum_sub_distrib, ← hF, ← hF]

/-- Every cell that spans space has the descent property beyond some radius. -/
theorem exists_descends {cell : Fin D → Pt D ℝ} (h : NonSingular cell) (B : ℝ) :
    ∃ r : ℕ, Descends cell (fun f => ∀ i, |f i| ≤ B) r := by
  suffices h : ∃ r : ℕ, StepsDown cell (fun f => ∀ i, |f i| ≤ B) r from h.imp fun _ h => h.descends
  rcases Nat.eq_zero_or_pos D with hD | hD
  · subst hD
    refine ⟨0, fun n f hn _ => ?_⟩
    simp [normSq] at hn
  obtain ⟨c, hc0, hc⟩ := exists_lower_bound h
  -- a bound for the part of `G v` coming from `f`, and for the diagonal
  let S : ℝ := ∑ i, ∑ j, |gram cell i j|
  have hS : 0 ≤ S := Finset.sum_nonneg fun _ _ => Finset.sum_nonneg fun _ _ => abs_nonneg _
  have hSi : ∀ i, ∑ j, |gram cell i j| ≤ S := fun i =>
    Finset.single_le_sum (f := fun i => ∑ j, |gram cell i j|)
      (fun _ _ => Finset.sum_nonneg fun _ _ => abs_nonneg _) (Finset.mem_univ i)
  have hSii : ∀ i, gram cell i i ≤ S := fun i =>
    (le_abs_self _).trans ((Finset.single_le_sum (f := fun j => |gram cell i j|)
      (fun _ _ => abs_nonneg _) (Finset.mem_univ i)).trans (hSi i))
  obtain ⟨r, hr⟩ := exists_nat_ge (D * (S + 2 * S * |B|) / c + 1)
  refine ⟨r, ?_⟩
  intro n f hn hf
  have hDpos : (0 : ℝ) < D := by exact_mod_cast hD
  -- a coordinate with large `n_i (G n)_i`
  have hquad : c * (normSq n : ℝ) ≤ ∑ i, (n i : ℝ) * ∑ j, gram cell i j * (n j : ℝ) := by
    have h1 := sqNorm_lin cell (fun i => (n i : ℝ))
    have h2 : sqNorm (latVec cell n) = ∑ c, (∑ i, (n i : ℝ) * cell i c) ^ 2 := rfl
    have h3 := hc n
    rw [h2, h1] at h3
    refine h3.trans (le_of_eq ?_)
    refine Finset.sum_congr rfl fun i _ => ?_
    rw [Finset.mul_sum]
    exact Finset.sum_congr rfl fun j _ => by ring
  have hne : (Finset.univ : Finset (Fin D)).Nonempty := ⟨⟨0, hD⟩, Finset.mem_univ _⟩
  obtain ⟨i, _, hi⟩ : ∃ i ∈ (Finset.univ : Finset (Fin D)),
      c * (normSq n : ℝ) / D ≤ (n i : ℝ) * ∑ j, gram cell i j * (n j : ℝ) := by
    apply Finset.exists_le_of_sum_le hne
    refine le_trans (le_of_eq ?_) hquad
    rw [Finset.sum_const, Finset.card_univ, Fintype.card_fin, nsmul_eq_mul]
    field_simp
  have hnr : (r : ℝ) ^ 2 < (normSq n : ℝ) := by exact_mod_cast hn
  have hr1 : (1 : ℝ) ≤ r := by
    refine le_trans ?_ hr
    have : 0 ≤ (D : ℝ) * (S + 2 * S * |B|) / c := by positivity
    linarith
  have hni : (n i : ℝ) ^ 2 ≤ (normSq n : ℝ) := by exact_mod_cast sq_le_normSq n i
  have hpos : 0 < (normSq n : ℝ) := lt_trans (by positivity) hnr
  have hX : 0 < (n i : ℝ) * ∑ j, gram cell i j * (n j : ℝ) := lt_of_lt_of_le (by positivity) hi
  have hrB : (S + 2 * S * |B|) ≤ c * r / D := by
    have h4 : D * (S + 2 * S * |B|) / c ≤ r := by linarith
    rw [div_le_iff₀ hc0] at h4
    rw [le_div_iff₀ hDpos]
    linarith
  -- `|(G n)_i| ≥ c r / D`
  have hG : c * r / D ≤ |∑ j, gram cell i j * (n j : ℝ)| := by
    have habs : (n i : ℝ) * ∑ j, gram cell i j * (n j : ℝ) =
        |(n i : ℝ)| * |∑ j, gram cell i j * (n j : ℝ)| := by
      rw [← abs_mul, abs_of_pos hX]
    rw [habs] at hi
    set g := |∑ j, gram cell i j * (n j : ℝ)|
    have hg0 : 0 ≤ g := abs_nonneg _
    have hsq : |(n i : ℝ)| ≤ √(normSq n : ℝ) := Real.abs_le_sqrt hni
    have h5 : c * (normSq n : ℝ) / D ≤ √(normSq n : ℝ) * g :=
      hi.trans (mul_le_mul_of_nonneg_right hsq hg0)
    have h6 : (√(normSq n : ℝ)) * √(normSq n : ℝ) = normSq n := Real.mul_self_sqrt hpos.le
    have h7 : 0 < √(normSq n : ℝ) := Real.sqrt_pos.mpr hpos
    have h8 : (r : ℝ) ≤ √(normSq n : ℝ) := Real.le_sqrt_of_sq_le hnr.le
    have h9 : c * √(normSq n : ℝ) / D ≤ g := by
      have : c * (normSq n : ℝ) / D = √(normSq n : ℝ) * (c * √(normSq n : ℝ) / D) := by
        rw [mul_div_assoc', ← h6]
        congr 1
        rw [h6]
        ring_nf
        rw [Real.sq_sqrt hpos.le]
      rw [this] at h5
      exact le_of_mul_le_mul_left h5 h7
    refine le_trans ?_ h9
    gcongr
  -- the part from `f`
  have hfpart : |∑ j, gram cell i j * f j| ≤ S * |B| := by
    refine (Finset.abs_sum_le_sum_abs _ _).trans ?_
    calc ∑ j, |gram cell i j * f j| ≤ ∑ j, |gram cell i j| * |B| := by
          refine Finset.sum_le_sum fun j _ => ?_
          rw [abs_mul]
          exact mul_le_mul_of_nonneg_left ((hf j).trans (le_abs_self B)) (abs_nonneg _)
      _ = (∑ j, |gram cell i j|) * |B| := by rw [Finset.sum_mul]
      _ ≤ S * |B| := mul_le_mul_of_nonneg_right (hSi i) (abs_nonneg _)
  have hsplit : ∑ j, gram cell i j * ((n j : ℝ) - f j) =
      ∑ j, gram cell i j * (n j : ℝ) - ∑ j, gram cell i j * f j := by
    rw [← Finset.sum_sub_distrib]
    exact Finset.sum_congr rfl fun j _ => by ring
  refine ⟨i, ?_⟩
  rw [hsplit]
  have hfp := abs_le.mp hfpart
  have hSB : 0 ≤ S * |B| := by positivity
  rcases lt_trichotomy (n i : ℝ) 0 with h0 | h0 | h0
  · right
    have hneg : ∑ j, gram cell i j * (n j : ℝ) < 0 := by
      by_contra hcon
      push Not at hcon
      nlinarith
    rw [abs_of_neg hneg] at hG
    exact ⟨by exact_mod_cast h0, by linarith [hSii i, hfp.1, hfp.2]⟩
  · rw [h0] at hX
    simp at hX
  · left
    have hp : 0 < ∑ j, gram cell i j * (n j : ℝ) := by
      by_contra hcon
      push Not at hcon
      nlinarith
    rw [abs_of_pos hp] at hG
    exact ⟨by exact_mod_cast h0, by linarith [hSii i, hfp.1, hfp.2]⟩

end Amd
