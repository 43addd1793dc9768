import Verif.Model.NearestNeighbors
import Mathlib.Tactic.Linarith

/-! Helper lemmas: the `k` smallest entries of a list, and the row merge. -/

namespace Amd

section KS
variable {K : Type*} [LinearOrder K]

/-- `r` is the sorted list of the `k` smallest entries of `l` (with `rest` left over). -/
def IsKS (k : ℕ) (l r : List K) : Prop :=
  r.Pairwise (· ≤ ·) ∧ r.length = min k l.length ∧
    ∃ rest, l.Perm (r ++ rest) ∧ ∀ a ∈ r, ∀ b ∈ rest, a ≤ b

theorem sorted_insertionSort' (l : List K) : (l.insertionSort (· ≤ ·)).Pairwise (· ≤ ·) :=
  List.pairwise_insertionSort _ _

theorem eq_of_perm_sorted {l₁ l₂ : List K} (hp : l₁.Perm l₂) (h1 : l₁.Pairwise (· ≤ ·))
    (h2 : l₂.Pairwise (· ≤ ·)) : l₁ = l₂ :=
  hp.eq_of_pairwise (le := (· ≤ ·)) (fun _ _ _ _ h h' => le_antisymm h h') h1 h2

theorem isKS_sort_take (k : ℕ) (l : List K) : IsKS k l ((l.insertionSort (· ≤ ·)).take k) := by
  refine ⟨(sorted_insertionSort' l).sublist (List.take_sublist _ _), ?_,
    (l.insertionSort (· ≤ ·)).drop k, ?_, ?_⟩
  · rw [List.length_take, List.length_insertionSort]
  · rw [List.take_append_drop]; exact (List.perm_insertionSort _ _).symm
  · have h := sorted_insertionSort' l
    rw [← List.take_append_drop k (l.insertionSort (· ≤ ·)), List.pairwise_append] at h
    exact h.2.2

theorem IsKS.eq {k : ℕ} {l r : List K} (h : IsKS k l r) :
    r = (l.insertionSort (· ≤ ·)).take k := by
  obtain ⟨h1, h2, rest, h3, h4⟩ := h
  have hs : (r ++ rest.insertionSort (· ≤ ·)).Pairwise (· ≤ ·) := by
    rw [List.pairwise_append]
    refine ⟨h1, sorted_insertionSort' rest, ?_⟩
    intro a ha b hb
    exact h4 a ha b ((List.mem_insertionSort _).mp hb)
  have hp : (l.insertionSort (· ≤ ·)).Perm (r ++ rest.insertionSort (· ≤ ·)) :=
    (List.perm_insertionSort _ _).trans (h3.trans
      (List.Perm.append_left _ (List.perm_insertionSort _ _).symm))
  rw [eq_of_perm_sorted hp (sorted_insertionSort' l) hs]
  have hlen : l.length = r.length + rest.length := by rw [h3.length_eq, List.length_append]
  by_cases hk : k ≤ l.length
  · rw [min_eq_left hk] at h2
    rw [List.take_left' h2]
  · rw [min_eq_right (by omega)] at h2
    have : rest = [] := List.length_eq_zero_iff.mp (by omega)
    subst this
    rw [List.take_of_length_le (by simp; omega)]
    simp

theorem IsKS.unique {k : ℕ} {l r r' : List K} (h : IsKS k l r) (h' : IsKS k l r') : r = r' := by
  rw [h.eq, h'.eq]

theorem IsKS.perm {k : ℕ} {l l' r : List K} (h : IsKS k l r) (hp : l.Perm l') : IsKS k l' r := by
  obtain ⟨h1, h2, rest, h3, h4⟩ := h
  exact ⟨h1, by rw [← hp.length_eq]; exact h2, rest, hp.symm.trans h3, h4⟩

/-- Adding entries which are at least as large as all the `k` selected ones changes nothing. -/
theorem IsKS.append_of_ge {k : ℕ} {l r l' : List K} (h : IsKS k l r) (hk : k ≤ l.length)
    (hge : ∀ a ∈ r, ∀ b ∈ l', a ≤ b) : IsKS k (l ++ l') r := by
  obtain ⟨h1, h2, rest, h3, h4⟩ := h
  refine ⟨h1, ?_, rest ++ l', ?_, ?_⟩
  · rw [h2, List.length_append]; omega
  · rw [← List.append_assoc]; exact h3.append_right _
  · intro a ha b hb
    rcases List.mem_append.mp hb with hb | hb
    · exact h4 a ha b hb
    · exact hge a ha b hb

/-- If `k` of the entries are at most `b` then so are the `k` smallest ones. -/
theorem IsKS.le_of_left {k : ℕ} {q q' s : List K} (h : IsKS k (q ++ q') s) (hqk : q.length = k)
    {b : K} (hqb : ∀ x ∈ q, x ≤ b) : ∀ a ∈ s, a ≤ b := by
  obtain ⟨t1, t2, restt, t3, t4⟩ := h
  intro a ha
  by_contra hlt
  rw [not_le] at hlt
  have c1 : (q ++ q').countP (fun x => decide (x < a)) = (s ++ restt).countP (fun x => decide (x < a)) :=
    t3.countP_eq _
  rw [List.countP_append, List.countP_append] at c1
  have c2 : q.countP (fun x => decide (x < a)) = q.length := by
    rw [List.countP_eq_length]
    intro x hx
    have := hqb x hx
    simpa using lt_of_le_of_lt this hlt
  have c3 : restt.countP (fun x => decide (x < a)) = 0 := by
    rw [List.countP_eq_zero]
    intro x hx
    simpa using t4 a ha x hx
  have c4 : s.countP (fun x => decide (x < a)) < s.length := by
    refine lt_of_le_of_ne List.countP_le_length ?_
    intro he
    rw [List.countP_eq_length] at he
    simpa using he a ha
  have c5 : s.length ≤ k := by rw [t2]; exact min_le_left _ _
  omega

/-- Selecting first in the two halves changes nothing. -/
theorem IsKS.merge {k : ℕ} {l l' r r' s : List K} (h : IsKS k l r) (h' : IsKS k l' r')
    (hs : IsKS k (r ++ r') s) : IsKS k (l ++ l') s := by
  obtain ⟨h1, h2, rest, h3, h4⟩ := h
  obtain ⟨h1', h2', rest', h3', h4'⟩ := h'
  obtain ⟨s1, s2, rests, s3, s4⟩ := hs
  have hl : l.length = r.length + rest.length := by rw [h3.length_eq, List.length_append]
  have hl' : l'.length = r'.length + rest'.length := by rw [h3'.length_eq, List.length_append]
  have hrlen : r.length + r'.length = s.length + rests.length := by
    have := s3.length_eq
    simpa using this
  refine ⟨s1, ?_, rests ++ rest ++ rest', ?_, ?_⟩
  · simp only [List.length_append] at s2 ⊢
    omega
  · have p1 : (l ++ l').Perm ((r ++ rest) ++ (r' ++ rest')) := h3.append h3'
    have p2 : ((r ++ rest) ++ (r' ++ rest')).Perm ((r ++ r') ++ (rest ++ rest')) := by
      rw [List.append_assoc, List.append_assoc]
      apply List.Perm.append_left
      rw [← List.append_assoc, ← List.append_assoc]
      exact List.perm_append_comm.append_right _
    have p3 : ((r ++ r') ++ (rest ++ rest')).Perm ((s ++ rests) ++ (rest ++ rest')) := s3.append_right _
    refine (p1.trans (p2.trans p3)).trans ?_
    simp only [List.append_assoc]
    exact List.Perm.refl _
  · intro a ha b hb
    rw [List.append_assoc] at hb
    rcases List.mem_append.mp hb with hb | hb
    · exact s4 a ha b hb
    · rcases List.mem_append.mp hb with hb | hb
      · have hpos := List.length_pos_of_mem hb
        exact IsKS.le_of_left ⟨s1, s2, rests, s3, s4⟩ (by omega) (fun x hx => h4 x hx b hb) a ha
      · have hpos := List.length_pos_of_mem hb
        exact (IsKS.perm ⟨s1, s2, rests, s3, s4⟩ List.perm_append_comm).le_of_left (by omega)
          (fun x hx => h4' x hx b hb) a ha

end KS

section Merge
variable {K : Type*} [LinearOrder K]

theorem backScan_spec (dists : List K) (dist_ : K) (h0 : ∃ v, dists[0]? = some v ∧ v ≤ dist_) :
    ∀ j, 0 < j → j ≤ dists.length → (∀ i (h : i < dists.length), j ≤ i → dist_ < dists[i]) →
    ∃ s, backScan dists dist_ j = some s ∧ 0 < s ∧ s ≤ j ∧
      (∀ (h : s - 1 < dists.length), dists[s - 1] ≤ dist_) ∧
      (∀ i (h : i < dists.length), s ≤ i → dist_ < dists[i])
  | 0, h, _, _ => absurd h (by simp)
  | j + 1, _, hj, hge => by
    unfold backScan
    have hlt : j < dists.length := by omega
    rw [List.getElem?_eq_getElem hlt]
    simp only
    by_cases hv : dists[j] ≤ dist_
    · rw [if_pos hv]
      exact ⟨j + 1, rfl, by omega, le_refl _, fun _ => by simpa using hv, hge⟩
    · rw [if_neg hv]
      have hjpos : 0 < j := by
        rcases Nat.eq_zero_or_pos j with rfl | h
        · obtain ⟨v, e, hle⟩ := h0
          rw [List.getElem?_eq_getElem hlt, Option.some.injEq] at e
          rw [e] at hv
          exact absurd hle hv
        · exact h
      obtain ⟨s, e, s0, s1, s2, s3⟩ := backScan_spec dists dist_ h0 j hjpos (by omega) (by
        intro i h hji
        rcases Nat.eq_or_lt_of_le hji with he | hl
        · subst he; exact not_le.mp hv
        · exact hge i h hl)
      exact ⟨s, e, s0, by omega, s2, s3⟩

theorem mergeFill_spec (dists dists_ : List K) (hs : dists.Pairwise (· ≤ ·))
    (hs_ : dists_.Pairwise (· ≤ ·)) :
    ∀ (r dp dp_ : ℕ), dp + r ≤ dists.length →
    ∃ l, mergeFill dists dists_ r dp dp_ = some l ∧ IsKS r (dists.drop dp ++ dists_.drop dp_) l
  | 0, dp, dp_, h => by
    refine ⟨[], rfl, by simp, by simp, _, List.Perm.refl _, by simp⟩
  | r + 1, dp, dp_, h => by
    have hlt : dp < dists.length := by omega
    have hd : dists.drop dp = dists[dp] :: dists.drop (dp + 1) := List.drop_eq_getElem_cons hlt
    have hsd : (dists[dp] :: dists.drop (dp + 1)).Pairwise (· ≤ ·) := by
      rw [← hd]; exact hs.sublist (List.drop_sublist _ _)
    rw [List.pairwise_cons] at hsd
    unfold mergeFill
    rw [List.getElem?_eq_getElem hlt]
    by_cases hlt_ : dp_ < dists_.length
    · have hd_ : dists_.drop dp_ = dists_[dp_] :: dists_.drop (dp_ + 1) := List.drop_eq_getElem_cons hlt_
      have hsd_ : (dists_[dp_] :: dists_.drop (dp_ + 1)).Pairwise (· ≤ ·) := by
        rw [← hd_]; exact hs_.sublist (List.drop_sublist _ _)
      rw [List.pairwise_cons] at hsd_
      rw [List.getElem?_eq_getElem hlt_]
      simp only
      by_cases hle : dists[dp] ≤ dists_[dp_]
      · rw [if_pos hle]
        obtain ⟨l, e, k1, k2, rest, k3, k4⟩ := mergeFill_spec dists dists_ hs hs_ r (dp + 1) dp_ (by omega)
        refine ⟨dists[dp] :: l, by rw [e]; rfl, ?_, ?_, rest, ?_, ?_⟩
        · rw [List.pairwise_cons]
          refine ⟨?_, k1⟩
          intro x hx
          have hx' : x ∈ dists.drop (dp + 1) ++ dists_.drop dp_ :=
            k3.symm.subset (List.mem_append_left _ hx)
          rcases List.mem_append.mp hx' with hx' | hx'
          · exact hsd.1 x hx'
          · rw [hd_] at hx'
            rcases List.mem_cons.mp hx' with rfl | hx'
            · exact hle
            · exact hle.trans (hsd_.1 x hx')
        · rw [List.length_cons, k2]
          simp only [List.length_append, List.length_drop]
          omega
        · rw [hd, List.cons_append, List.cons_append]
          exact k3.cons _
        · intro a ha b hb
          rcases List.mem_cons.mp ha with rfl | ha
          · have hb' : b ∈ dists.drop (dp + 1) ++ dists_.drop dp_ :=
              k3.symm.subset (List.mem_append_right _ hb)
            rcases List.mem_append.mp hb' with hb' | hb'
            · exact hsd.1 b hb'
            · rw [hd_] at hb'
              rcases List.mem_cons.mp hb' with rfl | hb'
              · exact hle
              · exact hle.trans (hsd_.1 b hb')
          · exact k4 a ha b hb
      · rw [if_neg hle]
        have hle' := le_of_lt (not_le.mp hle)
        obtain ⟨l, e, k1, k2, rest, k3, k4⟩ := mergeFill_spec dists dists_ hs hs_ r dp (dp_ + 1) (by omega)
        refine ⟨dists_[dp_] :: l, by rw [e]; rfl, ?_, ?_, rest, ?_, ?_⟩
        · rw [List.pairwise_cons]
          refine ⟨?_, k1⟩
          intro x hx
          have hx' : x ∈ dists.drop dp ++ dists_.drop (dp_ + 1) :=
            k3.symm.subset (List.mem_append_left _ hx)
          rcases List.mem_append.mp hx' with hx' | hx'
          · rw [hd] at hx'
            rcases List.mem_cons.mp hx' with rfl | hx'
            · exact hle'
            · exact hle'.trans (hsd.1 x hx')
          · exact hsd_.1 x hx'
        · rw [List.length_cons, k2]
          simp only [List.length_append, List.length_drop]
          omega
        · rw [hd_, List.cons_append]
          exact List.perm_middle.trans (k3.cons _)
        · intro a ha b hb
          rcases List.mem_cons.mp ha with rfl | ha
          · have hb' : b ∈ dists.drop dp ++ dists_.drop (dp_ + 1) :=
              k3.symm.subset (List.mem_append_right _ hb)
            rcases List.mem_append.mp hb' with hb' | hb'
            · rw [hd] at hb'
              rcases List.mem_cons.mp hb' with rfl | hb'
              · exact hle'
              · exact hle'.trans (hsd.1 b hb')
            · exact hsd_.1 b hb'
          · exact k4 a ha b hb
    · have hd_ : dists_.drop dp_ = [] := List.drop_of_length_le (by omega)
      rw [List.getElem?_eq_none (by omega)]
      simp only
      obtain ⟨l, e, k1, k2, rest, k3, k4⟩ := mergeFill_spec dists dists_ hs hs_ r (dp + 1) dp_ (by omega)
      rw [hd_, List.append_nil] at k2 k3
      refine ⟨dists[dp] :: l, by rw [e]; rfl, ?_, ?_, rest, ?_, ?_⟩
      · rw [List.pairwise_cons]
        refine ⟨?_, k1⟩
        intro x hx
        exact hsd.1 x (k3.symm.subset (List.mem_append_left _ hx))
      · rw [List.length_cons, k2]
        simp only [List.length_append, List.length_drop]
        omega
      · rw [hd_, List.append_nil, hd, List.cons_append]
        exact k3.cons _
      · intro a ha b hb
        rcases List.mem_cons.mp ha with rfl | ha
        · exact hsd.1 b (k3.symm.subset (List.mem_append_right _ hb))
        · exact k4 a ha b hb

/-- The row merge is right as soon as the first existing entry is at most the first new one. -/
theorem mergeRow_spec {dists dists_ : List K} (hs : dists.Pairwise (· ≤ ·))
    (hs_ : dists_.Pairwise (· ≤ ·)) {v w : K} (hv : dists[0]? = some v) (hw : dists_[0]? = some w)
    (hvw : v ≤ w) :
    ∃ r, mergeRow dists dists_ = .ok r ∧ IsKS dists.length (dists ++ dists_) r := by
  unfold mergeRow
  rw [hw]
  simp only
  have hpos : 0 < dists.length := by
    rcases List.eq_nil_or_concat dists with h | ⟨_, _, h⟩ <;> subst h
    · simp at hv
    · simp
  obtain ⟨s, e, s0, s1, s2, s3⟩ := backScan_spec dists w ⟨v, hv, hvw⟩ dists.length hpos (le_refl _)
    (by intro i h h'; omega)
  rw [e]
  simp only
  obtain ⟨l, e', k1, k2, rest, k3, k4⟩ := mergeFill_spec dists dists_ hs hs_ (dists.length - s) s 0 (by omega)
  rw [e']
  refine ⟨dists.take s ++ l, rfl, ?_, ?_, rest, ?_, ?_⟩
  · rw [List.pairwise_append]
    refine ⟨hs.sublist (List.take_sublist _ _), k1, ?_⟩
    intro a ha b hb
    have hb' := k3.symm.subset (List.mem_append_left _ hb)
    rw [List.drop_zero] at hb'
    rcases List.mem_append.mp hb' with hb' | hb'
    · have := hs
      rw [← List.take_append_drop s dists, List.pairwise_append] at this
      exact this.2.2 a ha b hb'
    · -- everything kept is at most `w`, the smallest new entry
      have haw : a ≤ w := by
        obtain ⟨i, hi, rfl⟩ := List.getElem_of_mem ha
        rw [List.length_take] at hi
        rw [List.getElem_take]
        have h2 := s2 (by omega)
        rcases Nat.eq_or_lt_of_le (show i ≤ s - 1 by omega) with he | hl
        · simpa [he] using h2
        · exact (List.pairwise_iff_getElem.mp hs i (s - 1) (by omega) (by omega) hl).trans h2
      have hwb : w ≤ b := by
        cases dists_ with
        | nil => simp at hw
        | cons z zs =>
          simp at hw
          subst hw
          rw [List.pairwise_cons] at hs_
          rcases List.mem_cons.mp hb' with rfl | h
          · exact le_refl _
          · exact hs_.1 b h
      exact haw.trans hwb
  · simp only [List.length_append, List.length_take, List.length_drop] at k2 ⊢
    omega
  · rw [List.append_assoc]
    refine List.Perm.trans ?_ (k3.append_left _)
    rw [List.drop_zero, ← List.append_assoc, List.take_append_drop]
  · intro a ha b hb
    rcases List.mem_append.mp ha with ha | ha
    · have hb' := k3.symm.subset (List.mem_append_right _ hb)
      rw [List.drop_zero] at hb'
      rcases List.mem_append.mp hb' with hb' | hb'
      · have := hs
        rw [← List.take_append_drop s dists, List.pairwise_append] at this
        exact this.2.2 a ha b hb'
      · have haw : a ≤ w := by
          obtain ⟨i, hi, rfl⟩ := List.getElem_of_mem ha
          rw [List.length_take] at hi
          rw [List.getElem_take]
          have h2 := s2 (by omega)
          rcases Nat.eq_or_lt_of_le (show i ≤ s - 1 by omega) with he | hl
          · simpa [he] using h2
          · exact (List.pairwise_iff_getElem.mp hs i (s - 1) (by omega) (by omega) hl).trans h2
        have hwb : w ≤ b := by
          cases dists_ with
          | nil => simp at hw
          | cons z zs =>
            simp at hw
            subst hw
            rw [List.pairwise_cons] at hs_
            rcases List.mem_cons.mp hb' with rfl | h
            · exact le_refl _
            · exact hs_.1 b h
        exact haw.trans hwb
    · exact k4 a ha b hb

end Merge

end Amd
