import Verif.Proof.EmdApprox

/-!
# The flow found has full row and column sums, or is the only one possible
-/

set_option linter.unusedSectionVars false

namespace Amd

open Finset

variable {ι κ : Type*} [Fintype ι] [Fintype κ]

/-- `A'`, `B'` are the weights after adding the difference of the sums to the largest entry `i0` of `A`. -/
structure Bumped [DecidableEq ι] (A : ι → ℤ) (B : κ → ℤ) (A' : ι → ℤ) (i0 : ι) : Prop where
  le : ∑ i, A i ≤ ∑ j, B j
  big : ∑ j, B j - ∑ i, A i ≤ A i0
  eq : ∀ i, A' i = A i + if i = i0 then ∑ j, B j - ∑ i, A i else 0

/-- Either some flow within the capacities has full row and column sums, or all flows of largest mass agree. -/
theorem full_or_forced [DecidableEq ι] {A : ι → ℤ} {B : κ → ℤ} {A' : ι → ℤ} {i0 : ι} (h : Bumped A B A' i0) (hA : ∀ i, 0 < A i) (hB : ∀ j, 0 < B j) :
    (∃ g : ι → κ → ℝ, Capped A B g ∧ (∀ i, ∑ j, g i j = A' i) ∧ ∀ j, ∑ i, g i j = B j) ∨
    ∃ G : ι → κ → ℝ, Capped A B G ∧ (∀ i, ∑ j, G i j ≤ A' i) ∧ (∀ j, ∑ i, G i j ≤ B j) ∧
      ∀ X : ι → κ → ℝ, Capped A B X → (∀ i, ∑ j, X i j ≤ A' i) → (∀ j, ∑ i, X i j ≤ B j) → ∑ i, ∑ j, G i j ≤ ∑ i, ∑ j, X i j → X = G := by
  classical
  set d : ℝ := ((∑ j, B j - ∑ i, A i : ℤ) : ℝ) with hd
  have hd0 : 0 ≤ d := by rw [hd]; exact_mod_cast sub_nonneg.2 h.le
  have hdA : d ≤ A i0 := by rw [hd]; exact_mod_cast h.big
  have hA' : ∀ i, (A' i : ℝ) = A i + if i = i0 then d else 0 := by
    intro i; rw [h.eq i]; push_cast; rw [hd]; push_cast; split_ifs <;> simp
  have hA0 : ∀ i, (0 : ℝ) < A i := fun i => by exact_mod_cast hA i
  have hB0 : ∀ j, (0 : ℝ) < B j := fun j => by exact_mod_cast hB j
  have hsum : ∑ j, (B j : ℝ) = ∑ i, (A i : ℝ) + d := by rw [hd]; push_cast; ring
  have hsingle : (A i0 : ℝ) ≤ ∑ i, (A i : ℝ) := single_le_sum (f := fun i => (A i : ℝ)) (fun i _ => (hA0 i).le) (mem_univ i0)
  have herase : ∑ i ∈ univ.erase i0, (A i : ℝ) = ∑ i, (A i : ℝ) - A i0 := by
    rw [← add_sum_erase univ (fun i => (A i : ℝ)) (mem_univ i0)]; ring
  -- completing a row i0
  have complete : ∀ y : κ → ℝ, (∀ j, 0 ≤ y j ∧ y j ≤ A i0 ∧ y j ≤ B j) → ∑ j, y j = A i0 + d →
      ∃ g : ι → κ → ℝ, Capped A B g ∧ (∀ i, ∑ j, g i j = A' i) ∧ ∀ j, ∑ i, g i j = B j := by
    intro y hy hys
    obtain ⟨q, hq, -⟩ := fit (fun i => if i = i0 then (0 : ℝ) else A i) (fun j => (B j : ℝ) - y j) (fun i => by split_ifs; exacts [le_rfl, (hA0 i).le])
      (fun j => sub_nonneg.2 (hy j).2.2) (by
        rw [sum_sub_distrib, hsum, hys, ← add_sum_erase univ _ (mem_univ i0), if_pos rfl, zero_add, sum_congr rfl fun i hi => if_neg (ne_of_mem_erase hi), herase]
        ring) (fun _ _ => 0) (fun _ _ => le_rfl) (fun _ _ => 0) 0 (fun _ _ => ⟨le_rfl, le_rfl⟩)
    have q0 : ∀ j, q i0 j = 0 := by
      have := hq.rows i0
      rw [if_pos rfl] at this
      exact fun j => (sum_eq_zero_iff_of_nonneg fun j _ => hq.nonneg i0 j).1 this j (mem_univ j)
    refine ⟨fun i j => if i = i0 then y j else q i j, fun i j => ?_, fun i => ?_, fun j => ?_⟩
    · beta_reduce
      split_ifs with hi
      · subst hi; exact hy j
      · have h1 : q i j ≤ ∑ j, q i j := single_le_sum (f := fun j => q i j) (fun j _ => hq.nonneg i j) (mem_univ j)
        have h2 : q i j ≤ ∑ i, q i j := single_le_sum (f := fun i => q i j) (fun i _ => hq.nonneg i j) (mem_univ i)
        rw [hq.rows i, if_neg hi] at h1
        rw [hq.cols j] at h2
        exact ⟨hq.nonneg i j, h1, by linarith [(hy j).1]⟩
    · rw [hA' i]
      by_cases hi : i = i0
      · subst hi; simp only [if_true]; exact hys
      · simp only [hi, if_false, add_zero]
        rw [hq.rows i, if_neg hi]
    · rw [← add_sum_erase univ _ (mem_univ i0)]
      beta_reduce
      rw [if_pos rfl, sum_congr rfl fun i hi => if_neg (ne_of_mem_erase hi)]
      have := hq.cols j
      rw [← add_sum_erase univ _ (mem_univ i0), q0 j, zero_add] at this
      rw [this]; ring
  by_cases hbig : ∃ j1, A i0 < B j1
  · obtain ⟨j1, hj1⟩ := hbig
    have hj1' : (A i0 : ℝ) < B j1 := by exact_mod_cast hj1
    have hBe : ∑ j ∈ univ.erase j1, (B j : ℝ) = ∑ j, (B j : ℝ) - B j1 := by
      rw [← add_sum_erase univ (fun j => (B j : ℝ)) (mem_univ j1)]; ring
    by_cases hle : B j1 ≤ ∑ i, A i
    · left
      have hle' : (B j1 : ℝ) ≤ ∑ i, (A i : ℝ) := by exact_mod_cast hle
      set r : ℝ := ∑ j ∈ univ.erase j1, (B j : ℝ) with hr
      have hrd : d ≤ r := by rw [hBe, hsum]; linarith
      by_cases hr0 : r = 0
      · have hd00 : d = 0 := le_antisymm (by linarith) hd0
        refine complete (fun j => if j = j1 then A i0 else 0) (fun j => ?_) ?_
        · split_ifs with hj
          · subst hj; exact ⟨(hA0 i0).le, le_rfl, hj1'.le⟩
          · exact ⟨le_rfl, (hA0 i0).le, (hB0 j).le⟩
        · rw [sum_ite_eq' univ j1, if_pos (mem_univ _), hd00, add_zero]
      · have hrpos : 0 < r := lt_of_le_of_ne (hd0.trans hrd) (Ne.symm hr0)
        refine complete (fun j => if j = j1 then A i0 else B j * d / r) (fun j => ?_) ?_
        · split_ifs with hj
          · subst hj; exact ⟨(hA0 i0).le, le_rfl, hj1'.le⟩
          · have hBr : (B j : ℝ) ≤ r := single_le_sum (f := fun j => (B j : ℝ)) (fun j _ => (hB0 j).le) (mem_erase.2 ⟨hj, mem_univ j⟩)
            refine ⟨div_nonneg (mul_nonneg (hB0 j).le hd0) hrpos.le, ?_, ?_⟩
            · refine le_trans ?_ hdA
              rw [div_le_iff₀ hrpos, mul_comm]
              exact mul_le_mul_of_nonneg_left hBr hd0
            · rw [div_le_iff₀ hrpos]
              exact mul_le_mul_of_nonneg_left hrd (hB0 j).le
        · rw [← add_sum_erase univ _ (mem_univ j1), if_pos rfl, sum_congr rfl fun j hj => if_neg (ne_of_mem_erase hj), ← sum_div, ← sum_mul, ← hr]
          field_simp
    · right
      push Not at hle
      have hle' : ∑ i, (A i : ℝ) < B j1 := by exact_mod_cast hle
      have hrest : ∑ j ∈ univ.erase j1, (B j : ℝ) < d := by rw [hBe, hsum]; linarith
      have hAle : ∀ i, (A i : ℝ) ≤ ∑ i, (A i : ℝ) := fun i => single_le_sum (f := fun i => (A i : ℝ)) (fun i _ => (hA0 i).le) (mem_univ i)
      have hBle : ∀ j, j ≠ j1 → (B j : ℝ) ≤ ∑ j ∈ univ.erase j1, (B j : ℝ) := fun j hj =>
        single_le_sum (f := fun j => (B j : ℝ)) (fun j _ => (hB0 j).le) (mem_erase.2 ⟨hj, mem_univ j⟩)
      have grow : ∀ i, ∑ j, (if j = j1 then (A i : ℝ) else if i = i0 then (B j : ℝ) else 0) = A i + if i = i0 then ∑ j ∈ univ.erase j1, (B j : ℝ) else 0 := by
        intro i
        rw [← add_sum_erase univ _ (mem_univ j1), if_pos rfl, sum_congr rfl fun j hj => if_neg (ne_of_mem_erase hj)]
        split_ifs <;> simp
      have gcol : ∀ j, ∑ i, (if j = j1 then (A i : ℝ) else if i = i0 then (B j : ℝ) else 0) = if j = j1 then ∑ i, (A i : ℝ) else B j := by
        intro j
        by_cases hj : j = j1
        · simp [hj]
        · simp [hj]
      refine ⟨fun i j => if j = j1 then (A i : ℝ) else if i = i0 then (B j : ℝ) else 0, fun i j => ?_, fun i => ?_, fun j => ?_, ?_⟩
      · beta_reduce
        by_cases hj : j = j1
        · subst hj; simp only [if_true]; exact ⟨(hA0 i).le, le_rfl, (hAle i).trans hle'.le⟩
        · by_cases hi : i = i0
          · subst hi; simp only [hj, if_false, if_true]
            exact ⟨(hB0 j).le, ((hBle j hj).trans hrest.le).trans hdA, le_rfl⟩
          · simp only [hj, hi, if_false]
            exact ⟨le_rfl, (hA0 i).le, (hB0 j).le⟩
      · rw [grow, hA']
        split_ifs
        · linarith
        · exact le_rfl
      · rw [gcol]
        split_ifs with hj
        · subst hj; exact hle'.le
        · exact le_rfl
      · intro X hX hr hc hmass
        have hmG : ∑ i, ∑ j, (if j = j1 then (A i : ℝ) else if i = i0 then (B j : ℝ) else 0) = ∑ i, (A i : ℝ) + ∑ j ∈ univ.erase j1, (B j : ℝ) := by
          rw [sum_congr rfl fun i _ => grow i, sum_add_distrib, sum_ite_eq' univ i0, if_pos (mem_univ _)]
        rw [hmG, sum_comm, ← add_sum_erase univ (fun j => ∑ i, X i j) (mem_univ j1)] at hmass
        have c1 : ∑ i, X i j1 ≤ ∑ i, (A i : ℝ) := sum_le_sum fun i _ => (hX i j1).2.1
        have c2 : ∑ j ∈ univ.erase j1, ∑ i, X i j ≤ ∑ j ∈ univ.erase j1, (B j : ℝ) := sum_le_sum fun j _ => hc j
        have e1 : ∀ i, X i j1 = A i := by
          have := (sum_eq_sum_iff_of_le fun i (_ : i ∈ univ) => (hX i j1).2.1).1 (by linarith)
          exact fun i => this i (mem_univ i)
        have e2 : ∀ j, j ≠ j1 → ∑ i, X i j = B j := by
          have := (sum_eq_sum_iff_of_le fun j (_ : j ∈ univ.erase j1) => hc j).1 (by linarith)
          exact fun j hj => this j (mem_erase.2 ⟨hj, mem_univ j⟩)
        have e3 : ∀ i, i ≠ i0 → ∀ j, j ≠ j1 → X i j = 0 := by
          intro i hi j hj
          have h1 := hr i
          rw [hA' i, if_neg hi, add_zero, ← add_sum_erase univ _ (mem_univ j1), e1 i] at h1
          have h2 : X i j ≤ ∑ j ∈ univ.erase j1, X i j := single_le_sum (f := fun j => X i j) (fun j _ => (hX i j).1) (mem_erase.2 ⟨hj, mem_univ j⟩)
          exact le_antisymm (by linarith) (hX i j).1
        funext i j
        by_cases hj : j = j1
        · subst hj; simp [e1]
        · by_cases hi : i = i0
          · subst hi
            simp only [hj, if_false, if_true]
            have := e2 j hj
            rw [← add_sum_erase univ _ (mem_univ i), sum_eq_zero fun i' hi' => e3 i' (ne_of_mem_erase hi') j hj, add_zero] at this
            exact this
          · simp only [hj, hi, if_false]; exact e3 i hi j hj
  · left
    push Not at hbig
    have hbig' : ∀ j, (B j : ℝ) ≤ A i0 := fun j => by exact_mod_cast hbig j
    have hS : 0 < ∑ j, (B j : ℝ) := by rw [hsum]; linarith [hA0 i0]
    have hle : (A i0 : ℝ) + d ≤ ∑ j, (B j : ℝ) := by rw [hsum]; linarith
    have hy : ∀ j, (B j : ℝ) * (A i0 + d) / ∑ j, (B j : ℝ) ≤ B j := fun j => by
      rw [div_le_iff₀ hS]; exact mul_le_mul_of_nonneg_left hle (hB0 j).le
    refine complete (fun j => B j * (A i0 + d) / ∑ j, (B j : ℝ)) (fun j => ⟨?_, (hy j).trans (hbig' j), hy j⟩) ?_
    · exact div_nonneg (mul_nonneg (hB0 j).le (by linarith [hA0 i0])) hS.le
    · rw [← sum_div, ← sum_mul, mul_div_cancel_left₀ _ hS.ne']

theorem MaxFlow.swap {A : ι → ℤ} {B : κ → ℤ} {A' : ι → ℤ} {B' : κ → ℤ} {X : ι → κ → ℤ} (h : MaxFlow A B A' B' X) : MaxFlow B A B' A' (fun j i => X i j) := by
  refine ⟨h.cols, h.rows, fun g hg hr hc => ?_⟩
  have := h.max (fun i j => g j i) (fun i j => ⟨(hg j i).1, (hg j i).2.2, (hg j i).2.1⟩) hc hr
  rwa [sum_comm, sum_comm (f := fun i j => (X i j : ℝ))] at this

/-- Two outputs of the algorithm for the same data have the same cost. -/
theorem cost_eq_of_bumped [DecidableEq ι] {A : ι → ℤ} {B : κ → ℤ} {A' : ι → ℤ} {i0 : ι} (hb : Bumped A B A' i0) (hA : ∀ i, 0 < A i) (hB : ∀ j, 0 < B j)
    {c X Y : ι → κ → ℤ} (hX : NetOut A B c X) (hY : NetOut A B c Y) (mX : MaxFlow A B A' B X) (mY : MaxFlow A B A' B Y) :
    planCost (fun i j => (c i j : ℝ)) (fun i j => (X i j : ℝ)) = planCost (fun i j => (c i j : ℝ)) (fun i j => (Y i j : ℝ)) := by
  have cap : ∀ {Z : ι → κ → ℤ}, NetOut A B c Z → Capped A B (fun i j => (Z i j : ℝ)) := by
    intro Z hZ i j
    obtain ⟨h1, h2, h3⟩ := hZ.bounds i j
    exact ⟨Int.cast_nonneg h1, Int.cast_le.2 h2, Int.cast_le.2 h3⟩
  have rr : ∀ {Z : ι → κ → ℤ}, MaxFlow A B A' B Z → ∀ i, ∑ j, (Z i j : ℝ) ≤ A' i := fun hZ i => by exact_mod_cast hZ.rows i
  have rc : ∀ {Z : ι → κ → ℤ}, MaxFlow A B A' B Z → ∀ j, ∑ i, (Z i j : ℝ) ≤ B j := fun hZ i => by exact_mod_cast hZ.cols i
  rcases full_or_forced hb hA hB with ⟨g, g1, g2, g3⟩ | ⟨G, g1, g2, g3, g4⟩
  · -- both have full sums
    have full : ∀ {Z : ι → κ → ℤ}, MaxFlow A B A' B Z → (∀ i, ∑ j, (Z i j : ℝ) = A' i) ∧ ∀ j, ∑ i, (Z i j : ℝ) = B j := by
      intro Z mZ
      have h1 := mZ.max g g1 (fun i => (g2 i).le) (fun j => (g3 j).le)
      have h2 : ∑ i, ∑ j, g i j = ∑ i, (A' i : ℝ) := sum_congr rfl fun i _ => g2 i
      have h3 : ∑ i, ∑ j, g i j = ∑ j, (B j : ℝ) := by rw [sum_comm]; exact sum_congr rfl fun i _ => g3 i
      have h4 : ∑ i, ∑ j, (Z i j : ℝ) ≤ ∑ i, (A' i : ℝ) := sum_le_sum fun i _ => rr mZ i
      have h5 : ∑ j, ∑ i, (Z i j : ℝ) ≤ ∑ j, (B j : ℝ) := sum_le_sum fun i _ => rc mZ i
      have h6 : ∑ j, ∑ i, (Z i j : ℝ) = ∑ i, ∑ j, (Z i j : ℝ) := sum_comm
      constructor
      · have := (sum_eq_sum_iff_of_le fun i (_ : i ∈ univ) => rr mZ i).1 (by linarith)
        exact fun i => this i (mem_univ i)
      · have := (sum_eq_sum_iff_of_le fun i (_ : i ∈ univ) => rc mZ i).1 (by linarith)
        exact fun i => this i (mem_univ i)
    obtain ⟨x1, x2⟩ := full mX
    obtain ⟨y1, y2⟩ := full mY
    exact le_antisymm (hX.opt _ (cap hY) (fun i => by rw [y1, x1]) fun j => by rw [y2, x2])
      (hY.opt _ (cap hX) (fun i => by rw [y1, x1]) fun j => by rw [y2, x2])
  · have e1 := g4 _ (cap hX) (rr mX) (rc mX) (mX.max G g1 g2 g3)
    have e2 := g4 _ (cap hY) (rr mY) (rc mY) (mY.max G g1 g2 g3)
    rw [e1, e2]

theorem balance_swap (s t : List ℤ) : balance t s = ((balance s t).2, (balance s t).1) := by
  unfold balance
  dsimp only
  rcases lt_trichotomy (t.sum - s.sum) 0 with h | h | h
  · rw [if_pos (by omega), if_neg (by omega), if_pos h, neg_sub]
  · rw [if_neg (by omega), if_neg (by omega), if_neg (by omega), if_neg (by omega)]
  · rw [if_neg (by omega), if_pos (by omega), if_pos h, neg_sub]

section
variable {k : ℕ} {p q : List (PRow ℝ)} {δ : List ℝ → List ℝ → ℝ}

theorem intWeights_getD (hp : WeightedRows k p) (i : Fin p.length) : (intWeights p).getD i 0 = ⌊p[i].weight * 100000000⌋ := by
  unfold intWeights
  rw [List.getD_eq_getElem _ _ (by simp), List.getElem_map, List.getElem_map]
  exact fpInt_nonneg (hp.nonneg i)

theorem intWeights_length (p : List (PRow ℝ)) : (intWeights p).length = p.length := by simp [intWeights]

theorem intWeights_sum (hp : WeightedRows k p) : (intWeights p).sum = ∑ i : Fin p.length, ⌊p[i].weight * 100000000⌋ := by
  rw [← sum_getD, intWeights_length, Finset.sum_range]
  exact sum_congr rfl fun i _ => intWeights_getD hp i

theorem floor_pos (hp : WeightedRows k p) (i : Fin p.length) : 0 < ⌊p[i].weight * 100000000⌋ := by
  have h := hp.weights _ (List.getElem_mem i.2)
  have : (1 : ℤ) ≤ ⌊p[i].weight * 100000000⌋ := by
    rw [Int.le_floor]
    push_cast
    have := mul_le_mul_of_nonneg_right h (by norm_num : (0 : ℝ) ≤ 100000000)
    norm_num at this ⊢
    exact this
  omega

theorem bumped_aux {m n : ℕ} {a : Fin m → ℝ} {A : Fin m → ℤ} {B : Fin n → ℤ} {s t : List ℤ} (ha : ∑ i, a i = 1) (hA : ∀ i, (A i : ℝ) ≤ a i * 100000000 ∧ a i * 100000000 ≤ A i + 1)
    (hB : ((∑ j, B j : ℤ) : ℝ) ≤ 100000000) (hm : m < 10000) (hsA : ∀ i : Fin m, s.getD i 0 = A i) (hs : s.sum = ∑ i, A i) (ht : t.sum = ∑ j, B j)
    (hle : s.sum ≤ t.sum) (i0 : Fin m) (hmax : ∀ i : Fin m, s.getD i 0 ≤ s.getD i0 0) {A' : ℕ → ℤ}
    (hA' : ∀ i : ℕ, A' i = s.getD i 0 + if i = i0 then t.sum - s.sum else 0) : Bumped A B (fun i : Fin m => A' i) i0 := by
  refine ⟨by rw [← hs, ← ht]; exact hle, ?_, fun i => ?_⟩
  · -- the largest weight is at least the mean
    have h1 : ((∑ i, A i : ℤ) : ℝ) ≤ m * (A i0 : ℝ) := by
      have : ∑ i, A i ≤ ∑ _i : Fin m, A i0 := sum_le_sum fun i _ => by rw [← hsA, ← hsA]; exact hmax i
      rw [sum_const, card_univ, Fintype.card_fin, nsmul_eq_mul] at this
      exact_mod_cast this
    have h2 : 100000000 - (m : ℝ) ≤ ((∑ i, A i : ℤ) : ℝ) := by
      have := sum_le_sum fun i (_ : i ∈ univ) => (hA i).2
      rw [← sum_mul, ha, sum_add_distrib] at this
      simp only [sum_const, card_univ, nsmul_eq_mul, mul_one, Fintype.card_fin] at this
      push_cast
      linarith
    have h3 : (m : ℝ) ≤ 9999 := by exact_mod_cast (by omega : m ≤ 9999)
    have h4 : ((∑ j, B j - ∑ i, A i : ℤ) : ℝ) ≤ m := by rw [Int.cast_sub]; linarith
    have hmpos : (0 : ℝ) < m := by exact_mod_cast i0.pos
    have h5 : (m : ℝ) ≤ A i0 := by
      by_contra hlt
      push Not at hlt
      have : (m : ℝ) * A i0 ≤ 9999 * A i0 ∨ A i0 < 0 := by
        rcases le_or_gt 0 (A i0) with h | h
        · exact .inl (mul_le_mul_of_nonneg_right h3 (by exact_mod_cast h))
        · exact .inr h
      rcases this with h | h
      · linarith
      · have : (m : ℝ) * A i0 ≤ 0 := mul_nonpos_of_nonneg_of_nonpos hmpos.le (by exact_mod_cast h.le)
        linarith
    have h6 : ((∑ j, B j - ∑ i, A i : ℤ) : ℝ) ≤ ((A i0 : ℤ) : ℝ) := h4.trans h5
    exact_mod_cast h6
  · rw [hA', hsA, hs, ht]
    by_cases h : i = i0
    · subst h; simp
    · rw [if_neg h, if_neg fun hh => h (Fin.ext hh)]

/-- `EMD` does not depend on the order of its arguments. -/
theorem emd_swap (hp : WeightedRows k p) (hq : WeightedRows k q) (hδ : RowMetric k δ) (hpl : p.length < 10000) (hql : q.length < 10000) {fuel fuel' : ℕ}
    {r r' : ℝ × List (List ℝ)} (h : emd δ p q fuel = .ok r) (h' : emd δ q p fuel' = .ok r') : r.1 = r'.1 := by
  obtain ⟨X, -, hX, mX, -, eX⟩ := emd_out hp hq hδ.nonneg
  obtain ⟨Y, -, hY, mY, -, eY⟩ := emd_out hq hp hδ.nonneg
  have hY' := hY.swap
  have mY' := mY.swap
  have ec : (fun (i : Fin p.length) (j : Fin q.length) => ⌊δ q[j].dists p[i].dists * 100000000⌋) = fun i j => ⌊δ p[i].dists q[j].dists * 100000000⌋ := by
    funext i j; rw [hδ.symm _ _ (hq.len j) (hp.len i)]
  rw [balance_swap] at mY'
  dsimp only at mY' hY'
  rw [ec] at hY'
  have hcost : planCost (fun i j => (⌊δ p[i].dists q[j].dists * 100000000⌋ : ℝ)) (fun (i : Fin p.length) (j : Fin q.length) => (X i j : ℝ)) =
      planCost (fun i j => (⌊δ p[i].dists q[j].dists * 100000000⌋ : ℝ)) (fun (i : Fin p.length) (j : Fin q.length) => (Y j i : ℝ)) := by
    have hpne : intWeights p ≠ [] := by simpa [intWeights] using hp.nonempty
    have hqne : intWeights q ≠ [] := by simpa [intWeights] using hq.nonempty
    have hfl : ∀ x : ℝ, ((⌊x⌋ : ℤ) : ℝ) ≤ x ∧ x ≤ (⌊x⌋ : ℤ) + 1 := fun x => ⟨Int.floor_le x, (Int.lt_floor_add_one x).le⟩
    have hle1 : ∀ {p : List (PRow ℝ)}, WeightedRows k p → ((∑ i : Fin p.length, ⌊p[i].weight * 100000000⌋ : ℤ) : ℝ) ≤ 100000000 := by
      intro p hp
      push_cast
      have := sum_le_sum fun (i : Fin p.length) (_ : i ∈ univ) => (hfl (p[i].weight * 100000000)).1
      rw [← sum_mul, hp.sum_eq] at this
      linarith
    rcases balance_cases hpne hqne with ⟨c1, c2, -, j0, c4, c5, c6⟩ | ⟨c1, c2, -, j0, c4, c5, c6⟩
    · rw [intWeights_length] at c4 c5
      have hb := bumped_aux (B := fun i : Fin p.length => ⌊p[i].weight * 100000000⌋) hq.sum_eq (fun i => hfl _) (hle1 hp) hql (intWeights_getD hq) (intWeights_sum hq)
        (intWeights_sum hp) c1 ⟨j0, c4⟩ (fun i => c5 i i.2) c6
      have e2 : (fun i : Fin p.length => (balance (intWeights p) (intWeights q)).1.getD i 0) = fun i => ⌊p[i].weight * 100000000⌋ := by
        funext i; rw [c2, intWeights_getD hp]
      rw [e2] at mX mY'
      have := cost_eq_of_bumped hb (floor_pos hq) (floor_pos hp) hX.swap hY'.swap mX.swap mY'.swap
      rwa [planCost_swap (fun (i : Fin p.length) (j : Fin q.length) => (⌊δ p[i].dists q[j].dists * 100000000⌋ : ℝ)) (fun i j => (X i j : ℝ)),
        planCost_swap (fun (i : Fin p.length) (j : Fin q.length) => (⌊δ p[i].dists q[j].dists * 100000000⌋ : ℝ)) (fun i j => (Y j i : ℝ))] at this
    · rw [intWeights_length] at c4 c5
      have hb := bumped_aux (B := fun i : Fin q.length => ⌊q[i].weight * 100000000⌋) hp.sum_eq (fun i => hfl _) (hle1 hq) hpl (intWeights_getD hp) (intWeights_sum hp)
        (intWeights_sum hq) c1 ⟨j0, c4⟩ (fun i => c5 i i.2) c6
      have e2 : (fun i : Fin q.length => (balance (intWeights p) (intWeights q)).2.getD i 0) = fun i => ⌊q[i].weight * 100000000⌋ := by
        funext i; rw [c2, intWeights_getD hq]
      rw [e2] at mX mY'
      exact cost_eq_of_bumped hb (floor_pos hp) (floor_pos hq) hX hY' mX mY'
  rw [eX _ _ h, eY _ _ h']
  dsimp only
  unfold planCost at hcost
  have e1 : ∀ Z : Fin p.length → Fin q.length → ℝ, ∑ i : Fin p.length, ∑ j : Fin q.length, Z i j / 100000000 * ((⌊δ p[i].dists q[j].dists * 100000000⌋ : ℝ) / 100000000) =
      (∑ i : Fin p.length, ∑ j : Fin q.length, Z i j * (⌊δ p[i].dists q[j].dists * 100000000⌋ : ℝ)) / 10000000000000000 := by
    intro Z
    simp only [sum_div]
    exact sum_congr rfl fun i _ => sum_congr rfl fun j _ => by ring
  rw [e1 fun i j => (X i j : ℝ), hcost, ← e1 fun i j => (Y j i : ℝ), sum_comm]
  refine sum_congr rfl fun j _ => sum_congr rfl fun i _ => ?_
  rw [hδ.symm _ _ (hq.len j) (hp.len i)]

end

end Amd
