import Verif.Proof.Minval

/-! Helper lemmas: `nearest_neighbors_minval` always comes to an end. -/

set_option linter.unusedSectionVars false

namespace Amd

/-! ### Sorted lists -/

section
variable {l l' : List ℝ} {v T : ℝ} {c : ℕ}

theorem sorted_split {s : List ℝ} (h : s.Pairwise (· ≤ ·)) (p : ℝ → Bool) (hp : ∀ a b, a ≤ b → p b = true → p a = true) :
    s = s.filter p ++ s.filter fun a => !p a := by
  induction s with
  | nil => rfl
  | cons a s ih =>
    rw [List.pairwise_cons] at h
    by_cases ha : p a = true
    · rw [List.filter_cons_of_pos ha, List.filter_cons_of_neg (by simp [ha]), List.cons_append]
      congr 1
      exact ih h.2
    · have hs : ∀ b ∈ s, p b = false := by
        intro b hb
        by_contra hc
        exact ha (hp a b (h.1 b hb) (by simpa using hc))
      have e : (a :: s).filter p = [] := by
        rw [List.filter_eq_nil_iff]
        intro b hb
        rcases List.mem_cons.mp hb with rfl | hb
        · exact ha
        · simp [hs b hb]
      rw [e, List.nil_append]
      symm
      rw [List.filter_eq_self]
      intro b hb
      rcases List.mem_cons.mp hb with rfl | hb
      · simpa using ha
      · simp [hs b hb]

theorem filter_sort_append (p : ℝ → Bool) (h : ∀ a ∈ l', p a = false) :
    ((l ++ l').insertionSort (· ≤ ·)).filter p = (l.insertionSort (· ≤ ·)).filter p := by
  apply eq_of_perm_sorted
  · refine ((List.perm_insertionSort _ _).filter p).trans ?_
    refine List.Perm.trans ?_ ((List.perm_insertionSort _ l).filter p).symm
    have e : l'.filter p = [] := List.filter_eq_nil_iff.mpr fun a ha => by simp [h a ha]
    rw [List.filter_append, e, List.append_nil]
  · exact (sorted_insertionSort' _).sublist List.filter_sublist
  · exact (sorted_insertionSort' _).sublist List.filter_sublist

theorem sorted_ge_iff {s : List ℝ} (h : s.Pairwise (· ≤ ·)) (hc : c < s.length) :
    v ≤ s.getD c 0 ↔ (s.filter fun a => decide (a < v)).length ≤ c := by
  have hs := sorted_split h (fun a => decide (a < v)) (by
    intro a b hab hb
    simp only [decide_eq_true_eq] at hb ⊢
    linarith)
  set A := s.filter fun a => decide (a < v) with hA
  set B := s.filter fun a => !decide (a < v) with hB
  rw [hs] at hc ⊢
  rw [List.getD_eq_getElem _ _ hc]
  by_cases h1 : c < A.length
  · rw [List.getElem_append_left h1]
    have : A[c] ∈ A := List.getElem_mem h1
    have := (List.mem_filter.mp this).2
    simp only [decide_eq_true_eq] at this
    constructor
    · intro h2; linarith
    · intro h2; omega
  · rw [List.getElem_append_right (by omega)]
    rw [List.length_append] at hc
    have : B[c - A.length] ∈ B := List.getElem_mem (by omega)
    have := (List.mem_filter.mp this).2
    simp only [Bool.not_eq_true', decide_eq_false_iff_not, not_lt] at this
    constructor
    · intro _; omega
    · intro _; exact this

theorem sort_append_ge (h : ∀ a ∈ l', v ≤ a) (hc : c < l.length) :
    v ≤ ((l ++ l').insertionSort (· ≤ ·)).getD c 0 ↔ v ≤ (l.insertionSort (· ≤ ·)).getD c 0 := by
  rw [sorted_ge_iff (sorted_insertionSort' _) (by rw [List.length_insertionSort, List.length_append]; omega),
    sorted_ge_iff (sorted_insertionSort' _) (by rw [List.length_insertionSort]; exact hc),
    filter_sort_append _ (fun a ha => by simpa using h a ha)]

theorem sort_append_take (h : ∀ a ∈ l', T < a) (hc : c < l.length) (hT : (l.insertionSort (· ≤ ·)).getD c 0 ≤ T) :
    ((l ++ l').insertionSort (· ≤ ·)).take (c + 1) = (l.insertionSort (· ≤ ·)).take (c + 1) := by
  have hp : ∀ a b : ℝ, a ≤ b → decide (b ≤ T) = true → decide (a ≤ T) = true := by
    intro a b hab hb
    simp only [decide_eq_true_eq] at hb ⊢
    linarith
  have h1 := sorted_split (sorted_insertionSort' (l ++ l')) _ hp
  have h2 := sorted_split (sorted_insertionSort' l) _ hp
  rw [filter_sort_append (fun a => decide (a ≤ T)) (fun a ha => by simpa using h a ha)] at h1
  set A := (l.insertionSort (· ≤ ·)).filter fun a => decide (a ≤ T) with hA
  have hcA : c < A.length := by
    by_contra hcon
    rw [h2, List.getD_eq_getElem _ _ (by rw [← h2, List.length_insertionSort]; exact hc),
      List.getElem_append_right (by omega)] at hT
    have hlen : A.length + ((l.insertionSort (· ≤ ·)).filter fun a => !decide (a ≤ T)).length = l.length := by
      have := congrArg List.length h2
      rw [List.length_append, List.length_insertionSort] at this
      exact this.symm
    have hm := List.getElem_mem (l := (l.insertionSort (· ≤ ·)).filter fun a => !decide (a ≤ T)) (n := c - A.length) (by omega)
    have hm' := (List.mem_filter.mp hm).2
    simp only [Bool.not_eq_true', decide_eq_false_iff_not, not_le] at hm'
    linarith
  rw [h1, h2, List.take_append_of_le_length (by omega), List.take_append_of_le_length (by omega)]

theorem sorted_last_ge {s : List ℝ} (h : s.Pairwise (· ≤ ·)) (hc : c < s.length) (hv : v ≤ s.getD c 0) :
    s.getLast?.any (fun x => decide (v ≤ x)) = true := by
  cases hl : s.getLast? with
  | none => rw [List.getLast?_eq_none_iff] at hl; simp [hl] at hc
  | some x =>
    rw [List.getD_eq_getElem _ _ hc] at hv
    have := getLast?_ge h hl _ (List.getElem_mem hc)
    simp only [Option.any_some, decide_eq_true_eq]
    linarith

end

variable {D : ℕ} {nrm : Pt D ℝ → ℝ} {close : ℝ → ℝ → Bool} {motif : List (Pt D ℝ)} {cell : Fin D → Pt D ℝ}

/-- All points added by layers from `d₁` on are farther than `B` from all motif points. -/
def FarFrom (motif : List (Pt D ℝ)) (cell : Fin D → Pt D ℝ) (d₁ : ℕ) (B : ℝ) : Prop :=
  ∀ d, d₁ ≤ d → ∀ c ∈ latticeToCloud motif ((intLayer D d).map (latVec cell)), ∀ p ∈ motif, B < eucl p c

theorem exists_farFrom (hD : 0 < D) (h : NonSingular cell) (motif : List (Pt D ℝ)) (B : ℝ) : ∃ d₁, FarFrom motif cell d₁ B := by
  have hfin : (⋃ p ∈ {p | p ∈ motif}, siteBall motif cell p B).Finite :=
    Set.Finite.biUnion (List.finite_toSet motif) fun p _ => siteBall_finite hD h p B
  obtain ⟨M, hM⟩ := (hfin.image fun s => normSq s.2).bddAbove
  refine ⟨M.toNat + 2, fun d hd c hc p hp => ?_⟩
  by_contra hcon
  rw [not_lt] at hcon
  obtain ⟨t, ht, hc⟩ := List.mem_flatMap.mp hc
  obtain ⟨n, hn, rfl⟩ := List.mem_map.mp ht
  obtain ⟨q, hq, rfl⟩ := List.mem_map.mp hc
  obtain ⟨i, hi, rfl⟩ := List.getElem_of_mem hq
  have hs : ((⟨i, hi⟩, n) : Site motif.length D) ∈ ⋃ p ∈ {p | p ∈ motif}, siteBall motif cell p B := by
    simp only [Set.mem_iUnion]
    exact ⟨p, hp, hcon⟩
  have h1 := hM (Set.mem_image_of_mem _ hs)
  simp only at h1
  rw [mem_intLayer hD] at hn
  rcases hn.2 with h2 | h2
  · omega
  · have h3 : M ≤ (M.toNat : ℤ) := Int.self_le_toNat M
    have h4 : (M.toNat : ℤ) + 1 ≤ (d : ℤ) - 1 := by omega
    nlinarith

theorem FarFrom.mono {d₁ d₂ : ℕ} {B : ℝ} (h : FarFrom motif cell d₁ B) (hd : d₁ ≤ d₂) : FarFrom motif cell d₂ B :=
  fun d h' => h d (hd.trans h')

/-- One turn of the loop. -/
theorem minvalLoop_step {v : ℝ} (hm : motif ≠ []) {cloud : List (Pt D ℝ)} (hc : cloud ≠ []) (d : ℕ) (prev : List (List ℝ)) :
    (∃ res, ∀ f, minvalLoop eucl nrm close (fun x => decide (v ≤ x)) motif cell (f + 1) d cloud prev (queryAll eucl motif cloud) = .ok res) ∨
    ∃ new, new ≠ [] ∧ (∀ c ∈ new, c ∈ latticeToCloud motif ((intLayer D d).map (latVec cell))) ∧
      minvalStable (fun x => decide (v ≤ x)) prev (queryAll eucl motif cloud) = false ∧
      ∀ f, minvalLoop eucl nrm close (fun x => decide (v ≤ x)) motif cell (f + 1) d cloud prev (queryAll eucl motif cloud) =
        minvalLoop eucl nrm close (fun x => decide (v ≤ x)) motif cell f (d + 1) (cloud ++ new) (queryAll eucl motif cloud)
          (queryAll eucl motif (cloud ++ new)) := by
  by_cases hs : minvalStable (fun x => decide (v ≤ x)) prev (queryAll eucl motif cloud) = true
  · left
    refine ⟨(prev, queryAll eucl motif cloud), fun f => ?_⟩
    rw [minvalLoop, if_pos hs]
  · cases hmx : ((queryAll eucl motif cloud).flatMap fun r => r.getLast?.toList).max? with
    | none =>
      exfalso
      rw [List.max?_eq_none_iff, List.flatMap_eq_nil_iff] at hmx
      obtain ⟨p, hp⟩ := List.exists_mem_of_ne_nil motif hm
      have := hmx _ (List.mem_map.mpr ⟨p, hp, rfl⟩)
      rw [Option.toList_eq_nil_iff, List.getLast?_eq_none_iff] at this
      have hl := congrArg List.length this
      simp only [List.length_insertionSort, List.length_map, List.length_nil] at hl
      exact absurd (List.length_eq_zero_iff.mp hl) hc
    | some mx =>
      by_cases he : (((intLayer D d).map (latVec cell)).filter fun l => close (nrm l) mx).isEmpty = true
      · left
        refine ⟨(queryAll eucl motif cloud, queryAll eucl motif cloud), fun f => ?_⟩
        rw [minvalLoop, if_neg hs, hmx]
        simp only
        rw [if_pos he]
      · right
        refine ⟨latticeToCloud motif (((intLayer D d).map (latVec cell)).filter fun l => close (nrm l) mx), ?_, ?_, by simpa using hs, fun f => ?_⟩
        · intro hn
          obtain ⟨t, ht⟩ := List.exists_mem_of_ne_nil (((intLayer D d).map (latVec cell)).filter fun l => close (nrm l) mx) (fun e => he (by rw [e]; rfl))
          obtain ⟨p, hp⟩ := List.exists_mem_of_ne_nil motif hm
          have : p + t ∈ latticeToCloud motif (((intLayer D d).map (latVec cell)).filter fun l => close (nrm l) mx) :=
            List.mem_flatMap.mpr ⟨t, ht, List.mem_map.mpr ⟨p, hp, rfl⟩⟩
          rw [hn] at this
          cases this
        · intro c hc'
          obtain ⟨t, ht, h⟩ := List.mem_flatMap.mp hc'
          exact List.mem_flatMap.mpr ⟨t, (List.mem_filter.mp ht).1, h⟩
        · rw [minvalLoop, if_neg hs, hmx]
          simp only
          rw [if_neg he]

/-- The state in which the columns up to `c` are final as regards `v`. -/
structure Settled (v : ℝ) (motif : List (Pt D ℝ)) (c : ℕ) (T : ℝ) (cloud : List (Pt D ℝ)) : Prop where
  lt : c < cloud.length
  first : firstCol (fun x => decide (v ≤ x)) (queryAll eucl motif cloud) = some c
  le : ∀ p ∈ motif, ((cloud.map (eucl p)).insertionSort (· ≤ ·)).getD c 0 ≤ T

theorem queryAll_mem {cloud : List (Pt D ℝ)} {r : List ℝ} (h : r ∈ queryAll eucl motif cloud) :
    ∃ p ∈ motif, r = (cloud.map (eucl p)).insertionSort (· ≤ ·) := by
  obtain ⟨p, hp, rfl⟩ := List.mem_map.mp h
  exact ⟨p, hp, rfl⟩

theorem firstCol_append {v : ℝ} {c : ℕ} {cloud new : List (Pt D ℝ)} (hm : motif ≠ []) (hlt : c < cloud.length)
    (hnew : ∀ q ∈ new, ∀ p ∈ motif, v ≤ eucl p q)
    (h : firstCol (fun x => decide (v ≤ x)) (queryAll eucl motif cloud) = some c) :
    firstCol (fun x => decide (v ≤ x)) (queryAll eucl motif (cloud ++ new)) = some c := by
  obtain ⟨h1, h2, h3⟩ := firstCol_some h
  have key : ∀ c' ≤ c, ∀ p ∈ motif, (v ≤ (((cloud ++ new).map (eucl p)).insertionSort (· ≤ ·)).getD c' 0 ↔
      v ≤ ((cloud.map (eucl p)).insertionSort (· ≤ ·)).getD c' 0) := by
    intro c' hc' p hp
    rw [List.map_append]
    apply sort_append_ge
    · intro a ha
      obtain ⟨q, hq, rfl⟩ := List.mem_map.mp ha
      exact hnew q hq p hp
    · rw [List.length_map]; omega
  refine firstCol_eq_some ?_ ?_ ?_
  · cases motif with
    | nil => exact absurd rfl hm
    | cons p l =>
      simp only [queryAll, List.map_cons, List.headD_cons, List.length_insertionSort, List.length_map, List.length_append]
      omega
  · intro r hr
    obtain ⟨p, hp, rfl⟩ := queryAll_mem hr
    have := h2 _ (List.mem_map.mpr ⟨p, hp, rfl⟩)
    simp only [decide_eq_true_eq] at this ⊢
    exact (key c le_rfl p hp).mpr this
  · intro c' hc'
    obtain ⟨r, hr, e⟩ := h3 c' hc'
    obtain ⟨p, hp, rfl⟩ := queryAll_mem hr
    refine ⟨_, List.mem_map.mpr ⟨p, hp, rfl⟩, ?_⟩
    simp only [decide_eq_false_iff_not] at e ⊢
    rwa [key c' hc'.le p hp]

theorem sort_append_le {l l' : List ℝ} {c : ℕ} (hc : c < l.length) :
    ((l ++ l').insertionSort (· ≤ ·)).getD c 0 ≤ (l.insertionSort (· ≤ ·)).getD c 0 := by
  by_contra hcon
  rw [not_le] at hcon
  -- more than `c` entries are at most the old value
  have h1 := (sorted_ge_iff (c := c) (v := ((l ++ l').insertionSort (· ≤ ·)).getD c 0) (sorted_insertionSort' (l ++ l'))
    (by rw [List.length_insertionSort, List.length_append]; omega)).mp le_rfl
  have h2 := (not_congr (sorted_ge_iff (c := c) (v := ((l ++ l').insertionSort (· ≤ ·)).getD c 0) (sorted_insertionSort' l)
    (by rw [List.length_insertionSort]; exact hc))).mp (not_le.mpr hcon)
  set w := ((l ++ l').insertionSort (· ≤ ·)).getD c 0
  have h3 : ((l ++ l').insertionSort (· ≤ ·) |>.filter fun a => decide (a < w)).length = ((l ++ l').filter fun a => decide (a < w)).length :=
    ((List.perm_insertionSort _ _).filter _).length_eq
  have h4 : (l.insertionSort (· ≤ ·) |>.filter fun a => decide (a < w)).length = (l.filter fun a => decide (a < w)).length :=
    ((List.perm_insertionSort _ _).filter _).length_eq
  rw [h3, List.filter_append, List.length_append] at h1
  rw [h4] at h2
  omega

theorem Settled.next {v T : ℝ} {c : ℕ} {cloud new : List (Pt D ℝ)} (hm : motif ≠ []) (h : Settled v motif c T cloud)
    (hnew : ∀ q ∈ new, ∀ p ∈ motif, v ≤ eucl p q) : Settled v motif c T (cloud ++ new) where
  lt := by rw [List.length_append]; have := h.lt; omega
  first := firstCol_append hm h.lt hnew h.first
  le := fun p hp => by
    rw [List.map_append]
    exact (sort_append_le (by rw [List.length_map]; exact h.lt)).trans (h.le p hp)

/-- Once settled, and once new points are farther than the columns in question, the loop stops. -/
theorem Settled.stable {v T : ℝ} {c : ℕ} {cloud new : List (Pt D ℝ)} (hm : motif ≠ []) (h : Settled v motif c T cloud)
    (hnew : ∀ q ∈ new, ∀ p ∈ motif, v ≤ eucl p q) (hT : ∀ q ∈ new, ∀ p ∈ motif, T < eucl p q) :
    minvalStable (fun x => decide (v ≤ x)) (queryAll eucl motif cloud) (queryAll eucl motif (cloud ++ new)) = true := by
  have h' := h.next hm hnew
  obtain ⟨_, h2, _⟩ := firstCol_some h'.first
  unfold minvalStable
  rw [Bool.and_eq_true]
  refine ⟨List.all_eq_true.mpr ?_, ?_⟩
  · intro r hr
    have h3 := h2 r hr
    obtain ⟨p, hp, rfl⟩ := queryAll_mem hr
    refine sorted_last_ge (c := c) (sorted_insertionSort' _) ?_ (by simpa using h3)
    rw [List.length_insertionSort, List.length_map]
    exact h'.lt
  · rw [h'.first]
    simp only [beq_iff_eq]
    unfold queryAll
    rw [List.map_map, List.map_map]
    apply List.map_congr_left
    intro p hp
    simp only [Function.comp_apply]
    rw [List.map_append]
    symm
    apply sort_append_take (T := T)
    · intro a ha
      obtain ⟨q, hq, rfl⟩ := List.mem_map.mp ha
      exact hT q hq p hp
    · rw [List.length_map]; exact h.lt
    · exact h.le p hp

/-- The loop ends from a given state. -/
def Ends (nrm : Pt D ℝ → ℝ) (close : ℝ → ℝ → Bool) (v : ℝ) (motif : List (Pt D ℝ)) (cell : Fin D → Pt D ℝ) (d : ℕ)
    (cloud : List (Pt D ℝ)) (prev : List (List ℝ)) : Prop :=
  ∃ F res, ∀ f, F ≤ f → minvalLoop eucl nrm close (fun x => decide (v ≤ x)) motif cell f d cloud prev (queryAll eucl motif cloud) = .ok res

theorem Ends.of_step {v : ℝ} (hm : motif ≠ []) {cloud : List (Pt D ℝ)} (hc : cloud ≠ []) {d : ℕ} {prev : List (List ℝ)}
    (h : ∀ new, new ≠ [] → (∀ c ∈ new, c ∈ latticeToCloud motif ((intLayer D d).map (latVec cell))) →
      minvalStable (fun x => decide (v ≤ x)) prev (queryAll eucl motif cloud) = false →
      Ends nrm close v motif cell (d + 1) (cloud ++ new) (queryAll eucl motif cloud)) :
    Ends nrm close v motif cell d cloud prev := by
  rcases minvalLoop_step (nrm := nrm) (close := close) (v := v) (cell := cell) hm hc d prev with ⟨res, hres⟩ | ⟨new, h1, h2, h3, h4⟩
  · refine ⟨1, res, fun f hf => ?_⟩
    obtain ⟨g, rfl⟩ := Nat.exists_eq_add_of_le' hf
    exact hres g
  · obtain ⟨F, res, hF⟩ := h new h1 h2 h3
    refine ⟨F + 1, res, fun f hf => ?_⟩
    obtain ⟨g, rfl⟩ := Nat.exists_eq_add_of_le' (show 1 ≤ f by omega)
    rw [h4]
    exact hF g (by omega)

theorem ends_of_settled {v T : ℝ} {c : ℕ} (hm : motif ≠ []) {d₁ d₂ : ℕ} (h1 : FarFrom motif cell d₁ v) (h2 : FarFrom motif cell d₂ T) :
    ∀ (j d : ℕ) (cloud : List (Pt D ℝ)) (prev : List (List ℝ)), d₂ ≤ d + j → d₁ ≤ d → Settled v motif c T cloud →
      Ends nrm close v motif cell d cloud prev := by
  intro j
  induction j with
  | zero =>
    intro d cloud prev hd hd1 hs
    have hc : cloud ≠ [] := by
      intro e
      have := hs.lt
      simp [e] at this
    apply Ends.of_step hm hc
    intro new _ hnew _
    have hv : ∀ q ∈ new, ∀ p ∈ motif, v ≤ eucl p q := fun q hq p hp => (h1 d hd1 q (hnew q hq) p hp).le
    apply Ends.of_step hm (by simp [hc])
    intro new' _ _ hst
    have := hs.stable hm hv (fun q hq p hp => h2 d (by omega) q (hnew q hq) p hp)
    rw [this] at hst
    cases hst
  | succ j ih =>
    intro d cloud prev hd hd1 hs
    have hc : cloud ≠ [] := by
      intro e
      have := hs.lt
      simp [e] at this
    apply Ends.of_step hm hc
    intro new _ hnew _
    exact ih (d + 1) _ _ (by omega) (by omega) (hs.next hm fun q hq p hp => (h1 d hd1 q (hnew q hq) p hp).le)

/-- If the last column is at least `v`, some column is. -/
theorem exists_firstCol {v : ℝ} (hm : motif ≠ []) {cloud : List (Pt D ℝ)} (hc : cloud ≠ [])
    (h : ∀ p ∈ motif, ∃ q ∈ cloud, v ≤ eucl p q) :
    ∃ c, c < cloud.length ∧ firstCol (fun x => decide (v ≤ x)) (queryAll eucl motif cloud) = some c := by
  have hpos : 0 < cloud.length := List.length_pos_iff.mpr hc
  have hlast : ∀ p ∈ motif, v ≤ ((cloud.map (eucl p)).insertionSort (· ≤ ·)).getD (cloud.length - 1) 0 := by
    intro p hp
    obtain ⟨q, hq, hv⟩ := h p hp
    have hlen : ((cloud.map (eucl p)).insertionSort (· ≤ ·)).length = cloud.length := by simp
    have hl := getLast?_row (row := (cloud.map (eucl p)).insertionSort (· ≤ ·)) hpos hlen
    have := getLast?_ge (sorted_insertionSort' _) hl (eucl p q)
      ((List.perm_insertionSort _ _).mem_iff.mpr (List.mem_map.mpr ⟨q, hq, rfl⟩))
    linarith
  have hlen : ((queryAll eucl motif cloud).headD []).length = cloud.length := by
    cases motif with
    | nil => exact absurd rfl hm
    | cons p l => simp [queryAll]
  cases hf : firstCol (fun x => decide (v ≤ x)) (queryAll eucl motif cloud) with
  | some c =>
    have := (firstCol_some hf).1
    rw [hlen] at this
    exact ⟨c, this, rfl⟩
  | none =>
    exfalso
    unfold firstCol at hf
    rw [List.find?_eq_none] at hf
    have := hf (cloud.length - 1) (List.mem_range.mpr (by rw [hlen]; omega))
    apply this
    rw [List.all_eq_true]
    intro r hr
    obtain ⟨p, hp, rfl⟩ := queryAll_mem hr
    simpa using hlast p hp

theorem ends_of_reached {v : ℝ} (hD : 0 < D) (hcell : NonSingular cell) (hm : motif ≠ []) {d₁ : ℕ} (h1 : FarFrom motif cell d₁ v) {d : ℕ} (hd : d₁ ≤ d)
    {cloud : List (Pt D ℝ)} (hc : cloud ≠ []) (prev : List (List ℝ)) (h : ∀ p ∈ motif, ∃ q ∈ cloud, v ≤ eucl p q) :
    Ends nrm close v motif cell d cloud prev := by
  obtain ⟨c, hlt, hf⟩ := exists_firstCol hm hc h
  obtain ⟨T, hT⟩ : ∃ T, ∀ p ∈ motif, ((cloud.map (eucl p)).insertionSort (· ≤ ·)).getD c 0 ≤ T := by
    obtain ⟨T, hT⟩ := ((List.finite_toSet motif).image fun p => ((cloud.map (eucl p)).insertionSort (· ≤ ·)).getD c 0).bddAbove
    exact ⟨T, fun p hp => hT (Set.mem_image_of_mem _ hp)⟩
  obtain ⟨d₂, h2⟩ := exists_farFrom hD hcell motif T
  exact ends_of_settled hm h1 h2 d₂ d cloud prev (by omega) hd ⟨hlt, hf, hT⟩

theorem minvalLoop_ends (hD : 0 < D) (hcell : NonSingular cell) (hm : motif ≠ []) (v : ℝ) (d : ℕ) (cloud : List (Pt D ℝ)) (hc : cloud ≠ [])
    (prev : List (List ℝ)) : Ends nrm close v motif cell d cloud prev := by
  obtain ⟨d₁, h1⟩ := exists_farFrom hD hcell motif v
  have key : ∀ (j d : ℕ) (cloud : List (Pt D ℝ)) (prev : List (List ℝ)), d₁ ≤ d + j → cloud ≠ [] →
      Ends nrm close v motif cell d cloud prev := by
    intro j
    induction j with
    | zero =>
      intro d cloud prev hd hc
      apply Ends.of_step hm hc
      intro new hne hnew _
      refine ends_of_reached hD hcell hm h1 (by omega) (by simp [hc]) _ ?_
      intro p hp
      obtain ⟨q, hq⟩ := List.exists_mem_of_ne_nil new hne
      exact ⟨q, List.mem_append_right _ hq, (h1 d (by omega) q (hnew q hq) p hp).le⟩
    | succ j ih =>
      intro d cloud prev hd hc
      apply Ends.of_step hm hc
      intro new _ _ _
      exact ih (d + 1) _ _ (by omega) (by simp [hc])
  exact key d₁ d cloud prev (by omega) hc

end Amd
