import Verif.Proof.NetPivot
import Mathlib.Data.Nat.ModEq

/-!
# The pivot loop ends without entering edges
-/

set_option linter.unusedSectionVars false

namespace Amd

open Finset

section
variable {N : Net} {M C : ℤ} {st : NState} {L : List ℕ} {path : ℕ → List ℕ}

theorem B_pos (he : 0 < N.e) : 0 < N.B ∧ N.B ≤ N.e := by
  unfold Net.B
  have h1 : 0 < Nat.sqrt N.e := Nat.sqrt_pos.2 he
  have h2 := Nat.sqrt_le N.e
  refine ⟨by omega, ?_⟩
  split_ifs with h
  · nlinarith
  · nlinarith

theorem blockNext_mod (f : ℕ) : blockNext N f % N.e = (f + N.B) % N.e := by
  unfold blockNext
  split_ifs with h
  · rfl
  · have : f + N.B = (f + N.B - N.e) + N.e := by omega
    rw [this, Nat.add_mod_right]
    simp

theorem blockNext_le (he : 0 < N.e) {f : ℕ} (hf : f ≤ N.e) : blockNext N f ≤ N.e := by
  have := B_pos he
  unfold blockNext
  split_ifs <;> omega

theorem mem_blockInds (he : 0 < N.e) {f k : ℕ} (hf : f ≤ N.e) (hk : k ∈ blockInds N f) : k < N.e := by
  have := B_pos he
  unfold blockInds at hk
  split_ifs at hk with h
  · simp at hk; omega
  · simp at hk; omega

theorem blockInds_cover (he : 0 < N.e) {f t : ℕ} (hf : f ≤ N.e) (ht : t < N.B) : (f + t) % N.e ∈ blockInds N f := by
  have hB := B_pos he
  unfold blockInds
  split_ifs with h
  · rw [Nat.mod_eq_of_lt (by omega)]
    simp; omega
  · by_cases h2 : f + t < N.e
    · rw [Nat.mod_eq_of_lt h2]
      simp; omega
    · have h3 : f + t = (f + t - N.e) + N.e := by omega
      have h4 : (f + t) % N.e = (f + t - N.e) % N.e := by conv_lhs => rw [h3, Nat.add_mod_right]
      have h5 : (f + t - N.e) % N.e ≤ f + t - N.e := Nat.mod_le _ _
      rw [h4]
      simp; omega

theorem blockInds_ne (he : 0 < N.e) {f : ℕ} (hf : f ≤ N.e) : blockInds N f ≠ [] := by
  have := blockInds_cover he hf (t := 0) (B_pos he).1
  intro h
  rw [h] at this
  simp at this

theorem block_min (st : NState) (he : 0 < N.e) {f : ℕ} (hf : f ≤ N.e) : firstMin (redCost N st) ((blockInds N f).headD 0) (blockInds N f).tail ∈ blockInds N f ∧
    ∀ k ∈ blockInds N f, redCost N st (firstMin (redCost N st) ((blockInds N f).headD 0) (blockInds N f).tail) ≤ redCost N st k := by
  obtain ⟨b, l, hbl⟩ := List.exists_cons_of_ne_nil (blockInds_ne he hf)
  rw [hbl]
  simp only [List.headD_cons, List.tail_cons]
  obtain ⟨X, Y, h1, h2, h3⟩ := firstMin_spec (redCost N st) l b
  constructor
  · rw [h1]; simp
  · intro k hk
    rw [h1] at hk
    rcases List.mem_append.1 hk with h | h
    · exact (h2 k h).le
    · rcases List.mem_cons.1 h with h | h
      · rw [← h]
      · exact h3 k h

theorem findEntering_some (he : 0 < N.e) : ∀ (m f : ℕ), f ≤ N.e → ∀ {i p q f' : ℕ}, findEntering N st m f = some (i, p, q, f') → Ent N st i p q ∧ f' ≤ N.e := by
  intro m
  induction m with
  | zero => intro f _ i p q f' h; simp [findEntering] at h
  | succ m ih =>
    intro f hf i p q f' h
    rw [findEntering] at h
    have hb := block_min st he hf
    generalize firstMin (redCost N st) ((blockInds N f).headD 0) (blockInds N f).tail = k at h hb
    by_cases h0 : 0 ≤ redCost N st k
    · rw [if_pos h0] at h
      exact ih _ (blockNext_le he hf) h
    · rw [if_neg h0] at h
      have hk := mem_blockInds he hf hb.1
      by_cases hz : st.flow k = 0
      · rw [if_pos hz] at h
        simp only [Option.some.injEq, Prod.mk.injEq] at h
        obtain ⟨rfl, rfl, rfl, rfl⟩ := h
        exact ⟨⟨hk, by omega, Or.inl ⟨hz, rfl, rfl⟩⟩, blockNext_le he hf⟩
      · rw [if_neg hz] at h
        simp only [Option.some.injEq, Prod.mk.injEq] at h
        obtain ⟨rfl, rfl, rfl, rfl⟩ := h
        exact ⟨⟨hk, by omega, Or.inr ⟨hz, rfl, rfl⟩⟩, blockNext_le he hf⟩

theorem findEntering_none (he : 0 < N.e) : ∀ (m f : ℕ), f ≤ N.e → findEntering N st m f = none → ∀ t < m * N.B, 0 ≤ redCost N st ((f + t) % N.e) := by
  intro m
  induction m with
  | zero => intro f _ _ t ht; simp at ht
  | succ m ih =>
    intro f hf h t ht
    rw [findEntering] at h
    have hb := block_min st he hf
    generalize firstMin (redCost N st) ((blockInds N f).headD 0) (blockInds N f).tail = k at h hb
    by_cases h0 : 0 ≤ redCost N st k
    · rw [if_pos h0] at h
      by_cases htB : t < N.B
      · exact h0.trans (hb.2 _ (blockInds_cover he hf htB))
      · have := ih _ (blockNext_le he hf) h (t - N.B) (by rw [Nat.succ_mul] at ht; omega)
        rw [Nat.add_mod, blockNext_mod, ← Nat.add_mod] at this
        have e1 : f + N.B + (t - N.B) = f + t := by omega
        rwa [e1] at this
    · rw [if_neg h0] at h
      split_ifs at h

theorem findEntering_none_all (he : 0 < N.e) {f : ℕ} (hf : f ≤ N.e) (h : findEntering N st ((N.e + N.B - 1) / N.B) f = none) :
    ∀ k < N.e, 0 ≤ redCost N st k := by
  intro k hk
  have hB := B_pos he
  have hcov : N.e ≤ (N.e + N.B - 1) / N.B * N.B := by
    have h1 := Nat.div_add_mod (N.e + N.B - 1) N.B
    have h2 := Nat.mod_lt (N.e + N.B - 1) hB.1
    rw [Nat.mul_comm] at h1
    omega
  have h1 := findEntering_none he _ f hf h ((k + (N.e - f)) % N.e) (lt_of_lt_of_le (Nat.mod_lt _ he) hcov)
  have e1 : (f + (k + (N.e - f)) % N.e) % N.e = k := by
    rw [Nat.add_mod, Nat.mod_mod, ← Nat.add_mod]
    have : f + (k + (N.e - f)) = k + N.e := by omega
    rw [this, Nat.add_mod_right, Nat.mod_eq_of_lt hk]
  rwa [e1] at h1

/-! ### The measure -/

theorem totalCost_nonneg (hN : NetOK N M C) (I : Inv N st L path) : 0 ≤ totalCost N st := by
  apply sum_nonneg
  intro k hk
  have hk := mem_range.1 hk
  apply mul_nonneg (I.flow k hk).1
  by_cases hr : k < N.e
  · exact hN.cost_nonneg k hr
  · obtain ⟨v, hv, rfl⟩ := NetOK.art_form N hk hr
    rw [hN.cost_art v hv]
    exact hN.M_pos.le

theorem potSum_bound (hN : NetOK N M C) (I : Inv N st L path) : |potSum N st| ≤ N.n * (M + costSum N) := by
  unfold potSum
  refine (abs_sum_le_sum_abs _ _).trans ?_
  refine (sum_le_card_nsmul _ _ (M + costSum N) ?_).trans (by simp)
  intro v hv
  have := pi_bound hN I (mem_range.1 hv)
  rwa [piOf_of_lt (mem_range.1 hv)] at this

/-- A measure that decreases with every pivot. -/
def measure (N : Net) (M : ℤ) (st : NState) : ℤ :=
  totalCost N st * (2 * (N.n * (M + costSum N)) + 1) + (N.n * (M + costSum N) - potSum N st)

theorem measure_nonneg (hN : NetOK N M C) (I : Inv N st L path) : 0 ≤ measure N M st := by
  have h1 := totalCost_nonneg hN I
  have h2 := abs_le.1 (potSum_bound hN I)
  have h3 : 0 ≤ (N.n : ℤ) * (M + costSum N) := by
    have := hN.M_pos
    have := costSum_nonneg hN
    positivity
  unfold measure
  nlinarith

theorem measure_lt (hN : NetOK N M C) (I : Inv N st L path) {st' : NState} {L' : List ℕ} {path' : ℕ → List ℕ} (I' : Inv N st' L' path')
    (h : totalCost N st' < totalCost N st ∨ (totalCost N st' = totalCost N st ∧ potSum N st < potSum N st')) : measure N M st' < measure N M st := by
  have h1 := abs_le.1 (potSum_bound hN I)
  have h2 := abs_le.1 (potSum_bound hN I')
  have h3 : 0 ≤ (N.n : ℤ) * (M + costSum N) := by
    have := hN.M_pos
    have := costSum_nonneg hN
    positivity
  unfold measure
  generalize (N.n : ℤ) * (M + costSum N) = W at *
  rcases h with h | ⟨h, h'⟩
  · have : totalCost N st' + 1 ≤ totalCost N st := h
    nlinarith
  · rw [h]
    linarith

theorem e_pos (hN : NetOK N M C) : 0 < N.e := Nat.mul_pos hN.ns_pos hN.nt_pos

/-- With enough fuel the loop ends in a state that satisfies the invariant and has no entering edge. -/
theorem pivotLoop_ok (hN : NetOK N M C) : ∀ (fuel f : ℕ) (st : NState) (L : List ℕ) (path : ℕ → List ℕ), Inv N st L path → f ≤ N.e → measure N M st < fuel →
    ∃ st' L' path', pivotLoop N fuel f st = .ok st' ∧ Inv N st' L' path' ∧ ∀ k < N.e, 0 ≤ redCost N st' k := by
  have he := e_pos hN
  intro fuel
  induction fuel with
  | zero =>
    intro f st L path I _ hm
    have := measure_nonneg hN I
    simp at hm
    omega
  | succ fuel ih =>
    intro f st L path I hf hm
    rw [pivotLoop]
    cases hfe : findEntering N st ((N.e + N.B - 1) / N.B) f with
    | none => exact ⟨st, L, path, rfl, I, findEntering_none_all he hf hfe⟩
    | some x =>
      obtain ⟨i, p, q, f'⟩ := x
      obtain ⟨E, hf'⟩ := findEntering_some he _ f hf hfe
      obtain ⟨st1, L1, path1, hp, I1, hdec⟩ := pivot_step hN I E
      simp only [hp]
      have := measure_lt hN I I1 hdec
      exact ih f' st1 L1 path1 I1 hf' (by push_cast at hm; omega)

/-- The result does not depend on the fuel. -/
theorem pivotLoop_mono : ∀ (fuel fuel' f : ℕ) (st r : NState), fuel ≤ fuel' → pivotLoop N fuel f st = .ok r → pivotLoop N fuel' f st = .ok r := by
  intro fuel
  induction fuel with
  | zero => intro fuel' f st r _ h; simp [pivotLoop] at h
  | succ fuel ih =>
    intro fuel' f st r hle h
    obtain ⟨g, rfl⟩ : ∃ g, fuel' = g + 1 := ⟨fuel' - 1, by omega⟩
    rw [pivotLoop] at h ⊢
    cases hfe : findEntering N st ((N.e + N.B - 1) / N.B) f with
    | none => rw [hfe] at h; exact h
    | some x =>
      obtain ⟨i, p, q, f'⟩ := x
      rw [hfe] at h
      simp only at h ⊢
      cases hp : pivot N i p q st with
      | error e => rw [hp] at h; cases h
      | ok st' =>
        rw [hp] at h
        exact ih g f' st' r (by omega) h

end

end Amd
