import Verif.Model.EMD
import Mathlib.Data.List.Chain
import Mathlib.Data.List.Nodup
import Mathlib.Data.List.Infix

/-!
# Doubly linked cyclic lists

The thread of the spanning tree (`next_node`, `prev_node` of `_emd.py`) as a list; cutting out, moving and inserting a segment.
-/

set_option linter.unusedSectionVars false

namespace Amd

theorem put_same {α : Type*} (a : ℕ → α) (i : ℕ) (v : α) : put a i v i = v := by simp [put]

theorem put_ne {α : Type*} (a : ℕ → α) {i j : ℕ} (v : α) (h : j ≠ i) : put a i v j = a j := by simp [put, h]

theorem ne_of_mem_r {l : List ℕ} {i j : ℕ} (hi : i ∉ l) (hj : j ∈ l) : j ≠ i := fun h => hi (h ▸ hj)

theorem ne_of_mem_l {l : List ℕ} {i j : ℕ} (hj : j ∉ l) (hi : i ∈ l) : j ≠ i := fun h => hj (h ▸ hi)

/-- `b` follows `a` in the linked list. -/
def Link (next prev : ℕ → ℕ) (a b : ℕ) : Prop := next a = b ∧ prev b = a

/-- `next` and `prev` run through `L` in order and back to its head. -/
def Cyc (next prev : ℕ → ℕ) (L : List ℕ) : Prop := (L ++ L.head?.toList).IsChain (Link next prev)

theorem isChain_congr {next prev next' prev' : ℕ → ℕ} {l : List ℕ} (h : l.IsChain (Link next prev))
    (h1 : ∀ x ∈ l.dropLast, next' x = next x) (h2 : ∀ y ∈ l.tail, prev' y = prev y) : l.IsChain (Link next' prev') := by
  induction l with
  | nil => exact List.isChain_nil
  | cons a l ih =>
    cases l with
    | nil => exact List.isChain_singleton _
    | cons b l =>
      rw [List.isChain_cons_cons] at h ⊢
      refine ⟨⟨?_, ?_⟩, ih h.2 ?_ ?_⟩
      · rw [h1 a (by simp)]; exact h.1.1
      · rw [h2 b (by simp)]; exact h.1.2
      · intro x hx
        exact h1 x (by simp [List.dropLast_cons_cons, hx])
      · intro y hy
        exact h2 y (by simp at hy ⊢; exact Or.inr hy)

theorem nodup_getLast_not_mem {l : List ℕ} {a : ℕ} (h : l.Nodup) (ha : l.getLast? = some a) : a ∉ l.dropLast := by
  have h1 := List.dropLast_append_getLast? a ha
  rw [← h1] at h
  intro h2
  exact (List.nodup_append.1 h).2.2 a h2 a (by simp) rfl

theorem nodup_head_not_mem {l : List ℕ} {a : ℕ} (h : l.Nodup) (ha : l.head? = some a) : a ∉ l.tail := by
  cases l with
  | nil => simp
  | cons b l =>
    simp at ha
    subst ha
    simpa using (List.nodup_cons.1 h).1

theorem mem_of_getLast? {l : List ℕ} {a : ℕ} (ha : l.getLast? = some a) : a ∈ l := List.mem_of_getLast? ha

theorem mem_of_head? {l : List ℕ} {a : ℕ} (ha : l.head? = some a) : a ∈ l := List.mem_of_head? ha

section
variable {next prev : ℕ → ℕ} {A S C : List ℕ} {a r t z : ℕ}

theorem cyc_parts (hr : A.head? = some r) (hA : A.getLast? = some a) (ht : S.head? = some t) (hz : S.getLast? = some z)
    (h : Cyc next prev (A ++ S ++ C)) :
    A.IsChain (Link next prev) ∧ S.IsChain (Link next prev) ∧ (C ++ [r]).IsChain (Link next prev) ∧ Link next prev a t ∧
      (C ++ [r]).head? = some (next z) ∧ Link next prev z (next z) := by
  have h0 : (A ++ S ++ C).head? = some r := by simp [List.head?_append, hr]
  unfold Cyc at h
  rw [h0] at h
  simp only [Option.toList_some, List.append_assoc] at h
  rw [List.isChain_append, List.isChain_append] at h
  obtain ⟨h1, ⟨h2, h3, h4⟩, h5⟩ := h
  have h6 : Link next prev a t := h5 a hA t (by simp [List.head?_append, ht])
  obtain ⟨c, hc⟩ : ∃ c, (C ++ [r]).head? = some c := by
    cases C with
    | nil => exact ⟨r, rfl⟩
    | cons c C => exact ⟨c, rfl⟩
  have h7 := h4 z hz c hc
  have h8 : next z = c := h7.1
  refine ⟨h1, h2, h3, h6, ?_, ?_⟩
  · rw [h8]; exact hc
  · rw [h8]; exact h7

theorem cyc_remove (hnd : (A ++ S ++ C).Nodup) (hr : A.head? = some r) (hA : A.getLast? = some a) (ht : S.head? = some t)
    (hz : S.getLast? = some z) (h : Cyc next prev (A ++ S ++ C)) :
    Cyc (put (put next a (next z)) z t) (put (put prev (next z) a) t z) (A ++ C) ∧
      Cyc (put (put next a (next z)) z t) (put (put prev (next z) a) t z) S := by
  obtain ⟨h1, h2, h3, h4, h5, h6⟩ := cyc_parts hr hA ht hz h
  generalize hc : next z = c at *
  have haA := mem_of_getLast? hA
  have htS := mem_of_head? ht
  have hzS := mem_of_getLast? hz
  have hrA := mem_of_head? hr
  have hcC : c ∈ C ++ [r] := mem_of_head? h5
  rw [List.nodup_append, List.nodup_append] at hnd
  obtain ⟨⟨nA, nS, dAS⟩, nC, dASC⟩ := hnd
  have nCr : (C ++ [r]).Nodup := by
    rw [List.nodup_append]
    refine ⟨nC, by simp, ?_⟩
    intro x hx y hy
    simp at hy
    subst hy
    exact (dASC y (by simp [hrA]) x hx).symm
  have dS : ∀ x ∈ S, x ∉ A ∧ x ∉ C := fun x hx =>
    ⟨fun h => dAS x h x hx rfl, fun h => dASC x (by simp [hx]) x h rfl⟩
  have dA : ∀ x ∈ A, x ∉ C := fun x hx h => dASC x (by simp [hx]) x h rfl
  have hct : c ∉ S := by
    intro hs
    rcases List.mem_append.1 hcC with h | h
    · exact (dS c hs).2 h
    · simp at h; subst h; exact (dS c hs).1 hrA
  have hAa := nodup_getLast_not_mem nA hA
  have hSz := nodup_getLast_not_mem nS hz
  have hSt := nodup_head_not_mem nS ht
  have hCc := nodup_head_not_mem nCr h5
  have hArt := nodup_head_not_mem nA hr
  constructor
  · unfold Cyc
    have h0 : (A ++ C).head? = some r := by simp [List.head?_append, hr]
    rw [h0, Option.toList_some, List.append_assoc, List.isChain_append]
    refine ⟨isChain_congr h1 ?_ ?_, isChain_congr h3 ?_ ?_, ?_⟩
    · intro x hx
      have hxA := List.dropLast_subset _ hx
      rw [put_ne _ _ (ne_of_mem_r (dS z hzS).1 hxA), put_ne _ _ (ne_of_mem_r hAa hx)]
    · intro y hy
      have hyA := List.tail_subset _ hy
      rw [put_ne _ _ (ne_of_mem_r (dS t htS).1 hyA), put_ne]
      rintro rfl
      rcases List.mem_append.1 hcC with h | h
      · exact dA y hyA h
      · simp at h; subst h; exact hArt hy
    · intro x hx
      simp at hx
      rw [put_ne _ _ (ne_of_mem_r (dS z hzS).2 hx), put_ne _ _ (ne_of_mem_r (dA a haA) hx)]
    · intro y hy
      have hyC := List.tail_subset _ hy
      rw [put_ne, put_ne _ _ (ne_of_mem_r hCc hy)]
      rintro rfl
      rcases List.mem_append.1 hyC with h | h
      · exact (dS y htS).2 h
      · simp at h; subst h; exact (dS y htS).1 hrA
    · intro x hx y hy
      rw [hA] at hx
      rw [h5] at hy
      simp at hx hy
      subst hx hy
      refine ⟨?_, ?_⟩
      · rw [put_ne _ _ (ne_of_mem_r (dS z hzS).1 haA), put_same]
      · rw [put_ne _ _ (ne_of_mem_l hct htS), put_same]
  · unfold Cyc
    rw [ht, Option.toList_some, List.isChain_append]
    refine ⟨isChain_congr h2 ?_ ?_, List.isChain_singleton _, ?_⟩
    · intro x hx
      have hxS := List.dropLast_subset _ hx
      rw [put_ne _ _ (ne_of_mem_r hSz hx), put_ne _ _ (ne_of_mem_l (dS x hxS).1 haA)]
    · intro y hy
      have hyS := List.tail_subset _ hy
      rw [put_ne _ _ (ne_of_mem_r hSt hy), put_ne _ _ (ne_of_mem_r hct hyS)]
    · intro x hx y hy
      rw [hz] at hx
      simp at hx hy
      subst hx hy
      exact ⟨put_same _ _ _, put_same _ _ _⟩

theorem cyc_add (hnd : (A ++ S ++ C).Nodup) (hr : A.head? = some r) (hA : A.getLast? = some a) (ht : S.head? = some t)
    (hz : S.getLast? = some z) (h : Cyc next prev (A ++ C)) (hS : S.IsChain (Link next prev)) :
    Cyc (put (put next a t) z (next a)) (put (put prev t a) (next a) z) (A ++ S ++ C) := by
  have h0 : (A ++ C).head? = some r := by simp [List.head?_append, hr]
  have h0' : (A ++ S ++ C).head? = some r := by simp [List.head?_append, hr]
  unfold Cyc at h
  rw [h0, Option.toList_some, List.append_assoc, List.isChain_append] at h
  obtain ⟨h1, h3, h4⟩ := h
  obtain ⟨c, h5⟩ : ∃ c, (C ++ [r]).head? = some c := by
    cases C with
    | nil => exact ⟨r, rfl⟩
    | cons c C => exact ⟨c, rfl⟩
  have h6 := h4 a hA c h5
  have hc : next a = c := h6.1
  rw [hc]
  have haA := mem_of_getLast? hA
  have htS := mem_of_head? ht
  have hzS := mem_of_getLast? hz
  have hrA := mem_of_head? hr
  have hcC : c ∈ C ++ [r] := mem_of_head? h5
  rw [List.nodup_append, List.nodup_append] at hnd
  obtain ⟨⟨nA, nS, dAS⟩, nC, dASC⟩ := hnd
  have nCr : (C ++ [r]).Nodup := by
    rw [List.nodup_append]
    refine ⟨nC, by simp, ?_⟩
    intro x hx y hy
    simp at hy
    subst hy
    exact (dASC y (by simp [hrA]) x hx).symm
  have dS : ∀ x ∈ S, x ∉ A ∧ x ∉ C := fun x hx =>
    ⟨fun h => dAS x h x hx rfl, fun h => dASC x (by simp [hx]) x h rfl⟩
  have dA : ∀ x ∈ A, x ∉ C := fun x hx h => dASC x (by simp [hx]) x h rfl
  have hct : c ∉ S := by
    intro hs
    rcases List.mem_append.1 hcC with h | h
    · exact (dS c hs).2 h
    · simp at h; subst h; exact (dS c hs).1 hrA
  have hAa := nodup_getLast_not_mem nA hA
  have hSz := nodup_getLast_not_mem nS hz
  have hSt := nodup_head_not_mem nS ht
  have hCc := nodup_head_not_mem nCr h5
  have hArt := nodup_head_not_mem nA hr
  unfold Cyc
  rw [h0', Option.toList_some, List.append_assoc, List.append_assoc, List.isChain_append, List.isChain_append]
  refine ⟨isChain_congr h1 ?_ ?_, ⟨isChain_congr hS ?_ ?_, isChain_congr h3 ?_ ?_, ?_⟩, ?_⟩
  · intro x hx
    have hxA := List.dropLast_subset _ hx
    rw [put_ne _ _ (ne_of_mem_r (dS z hzS).1 hxA), put_ne _ _ (ne_of_mem_r hAa hx)]
  · intro y hy
    have hyA := List.tail_subset _ hy
    rw [put_ne, put_ne _ _ (ne_of_mem_r (dS t htS).1 hyA)]
    rintro rfl
    rcases List.mem_append.1 hcC with h | h
    · exact dA y hyA h
    · simp at h; subst h; exact hArt hy
  · intro x hx
    have hxS := List.dropLast_subset _ hx
    rw [put_ne _ _ (ne_of_mem_r hSz hx), put_ne _ _ (ne_of_mem_l (dS x hxS).1 haA)]
  · intro y hy
    have hyS := List.tail_subset _ hy
    rw [put_ne _ _ (ne_of_mem_r hct hyS), put_ne _ _ (ne_of_mem_r hSt hy)]
  · intro x hx
    simp at hx
    rw [put_ne _ _ (ne_of_mem_r (dS z hzS).2 hx), put_ne _ _ (ne_of_mem_r (dA a haA) hx)]
  · intro y hy
    have hyC := List.tail_subset _ hy
    rw [put_ne _ _ (ne_of_mem_r hCc hy), put_ne]
    rintro rfl
    rcases List.mem_append.1 hyC with h | h
    · exact (dS y htS).2 h
    · simp at h; subst h; exact (dS y htS).1 hrA
  · intro x hx y hy
    rw [hz] at hx
    rw [h5] at hy
    simp at hx hy
    subst hx hy
    exact ⟨put_same _ _ _, put_same _ _ _⟩
  · intro x hx y hy
    rw [hA] at hx
    have hy' : y = t := by simpa [List.head?_append, ht, eq_comm] using hy
    simp at hx
    subst hx hy'
    refine ⟨?_, ?_⟩
    · rw [put_ne _ _ (ne_of_mem_r (dS z hzS).1 haA), put_same]
    · rw [put_ne _ _ (ne_of_mem_r hct htS), put_same]

/-- Moving the segment `S` to the front: the four updates of `_make_root` after those of `_remove_edge`. -/
theorem cyc_rotate {m : ℕ} (hnd : (A ++ S ++ C).Nodup) (hr : A.head? = some r) (hA : A.getLast? = some a)
    (ht : S.head? = some t) (hz : S.getLast? = some z) (hm : (A ++ C).getLast? = some m) (h : Cyc next prev (A ++ S ++ C)) :
    Cyc (put (put (put (put next a (next z)) z t) z r) m t)
      (put (put (put (put prev (next z) a) t z) r z) t m) (S ++ (A ++ C)) := by
  obtain ⟨h1, h2⟩ := cyc_remove hnd hr hA ht hz h
  generalize (put (put next a (next z)) z t) = nx at *
  generalize (put (put prev (next z) a) t z) = pv at *
  have htS := mem_of_head? ht
  have hzS := mem_of_getLast? hz
  have hrA : r ∈ A ++ C := by simp [mem_of_head? hr]
  have hmA := mem_of_getLast? hm
  have hnd' : (S ++ (A ++ C)).Nodup := by
    have : (A ++ S ++ C).Perm (S ++ (A ++ C)) := by
      rw [← List.append_assoc]
      exact List.Perm.append_right _ List.perm_append_comm
    exact this.nodup_iff.1 hnd
  rw [List.nodup_append] at hnd'
  obtain ⟨nS, nA, d⟩ := hnd'
  have h0 : (A ++ C).head? = some r := by simp [List.head?_append, hr]
  have h0' : (S ++ (A ++ C)).head? = some t := by simp [List.head?_append, ht]
  unfold Cyc at *
  rw [h0, Option.toList_some, List.isChain_append] at h1
  rw [ht, Option.toList_some, List.isChain_append] at h2
  rw [h0', Option.toList_some, List.append_assoc, List.isChain_append, List.isChain_append]
  have hAm := nodup_getLast_not_mem nA hm
  have hSz := nodup_getLast_not_mem nS hz
  have hSt := nodup_head_not_mem nS ht
  have hArt := nodup_head_not_mem nA h0
  refine ⟨isChain_congr h2.1 ?_ ?_, ⟨isChain_congr h1.1 ?_ ?_, List.isChain_singleton _, ?_⟩, ?_⟩
  · intro x hx
    have hxS := List.dropLast_subset _ hx
    rw [put_ne _ _ (fun h => d x hxS m hmA h), put_ne _ _ (ne_of_mem_r hSz hx)]
  · intro y hy
    have hyS := List.tail_subset _ hy
    rw [put_ne _ _ (ne_of_mem_r hSt hy), put_ne _ _ (fun h => d y hyS r hrA h)]
  · intro x hx
    have hxA := List.dropLast_subset _ hx
    rw [put_ne _ _ (ne_of_mem_r hAm hx), put_ne _ _ (fun h => d z hzS x hxA h.symm)]
  · intro y hy
    have hyA := List.tail_subset _ hy
    rw [put_ne _ _ (fun h => d t htS y hyA h.symm), put_ne _ _ (ne_of_mem_r hArt hy)]
  · intro x hx y hy
    rw [hm] at hx
    simp at hx hy
    subst hx hy
    exact ⟨put_same _ _ _, put_same _ _ _⟩
  · intro x hx y hy
    rw [hz] at hx
    have hy' : y = r := by
      rw [List.head?_append, h0] at hy
      simpa [eq_comm] using hy
    simp at hx
    rw [← hx, hy']
    refine ⟨?_, ?_⟩
    · rw [put_ne _ _ (fun h => d z hzS m hmA h), put_same]
    · rw [put_ne _ _ (fun h => d t htS r hrA h.symm), put_same]

end

theorem cyc_congr {next prev next' prev' : ℕ → ℕ} {L : List ℕ} (h : Cyc next prev L) (h1 : ∀ x ∈ L, next' x = next x)
    (h2 : ∀ x ∈ L, prev' x = prev x) : Cyc next' prev' L := by
  unfold Cyc at *
  cases L with
  | nil => simp
  | cons r L =>
    simp only [List.head?_cons, Option.toList_some] at *
    apply isChain_congr h
    · intro x hx
      apply h1
      rw [List.dropLast_concat] at hx
      exact hx
    · intro y hy
      apply h2
      simp at hy ⊢
      tauto

end Amd
