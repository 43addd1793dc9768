import Verif.Model.Calculate
import Verif.Spec.Collapse
import Mathlib.Data.List.Perm.Basic
import Mathlib.Data.List.Nodup

/-! Helper lemmas: `_collapse_into_groups`. -/

set_option linter.unusedSectionVars false

namespace Amd

theorem joinOverlapping_of_some (i : ℕ) : ∀ (js : List ℕ) (g : ℕ → Option ℕ) (j c : ℕ),
    g j = some c → joinOverlapping i js g j = some c
  | [], _, _, _, h => h
  | j' :: js, g, j, c, h => by
    rw [joinOverlapping]
    cases hg : g j' with
    | some b => exact joinOverlapping_of_some i js g j c h
    | none =>
      simp only
      apply joinOverlapping_of_some
      rw [Function.update_of_ne]
      · exact h
      · rintro rfl; rw [hg] at h; cases h

theorem joinOverlapping_spec (i c : ℕ) : ∀ (js : List ℕ) (g : ℕ → Option ℕ), g i = some c → ∀ j,
    joinOverlapping i js g j = if g j = none ∧ j ∈ js then some c else g j
  | [], g, h, j => by simp [joinOverlapping]
  | j' :: js, g, h, j => by
    rw [joinOverlapping]
    cases hg : g j' with
    | some b =>
      simp only
      rw [joinOverlapping_spec i c js g h]
      by_cases hj : j = j'
      · subst hj; simp [hg]
      · simp [hj]
    | none =>
      simp only
      have hi : i ≠ j' := by rintro rfl; rw [hg] at h; cases h
      rw [joinOverlapping_spec i c js _ (by rw [Function.update_of_ne hi]; exact h)]
      by_cases hj : j = j'
      · subst hj; simp [hg, h]
      · simp [hj]

/-- Invariant of the outer loop before visiting row `t`. -/
structure GroupInv (n : ℕ) (ov : ℕ → ℕ → Bool) (t : ℕ) (g : ℕ → Option ℕ) (leaders : List ℕ) : Prop where
  incr : leaders.Pairwise (· < ·)
  lt : ∀ l ∈ leaders, l < t
  lead : ∀ c l, leaders[c]? = some l → g l = some c
  mem : ∀ j c, g j = some c → ∃ l, leaders[c]? = some l ∧ (j = l ∨ (l < j ∧ j < n ∧ ov l j = true))
  done : ∀ j, j < t → g j ≠ none
  cover : ∀ l ∈ leaders, ∀ j, j < n → ov l j = true → g j ≠ none
  first : ∀ j c, g j = some c → ∀ c' l', c' < c → leaders[c']? = some l' → ov l' j = false

theorem groupInv_step {n : ℕ} {ov : ℕ → ℕ → Bool} {t : ℕ} {g : ℕ → Option ℕ} {leaders : List ℕ}
    (hn : t < n) (h : GroupInv n ov t g leaders) (hnone : g t = none) :
    GroupInv n ov (t + 1)
      (joinOverlapping t ((List.range n).filter (ov t)) (Function.update g t (some leaders.length)))
      (leaders ++ [t]) := by
  have hspec := joinOverlapping_spec t leaders.length ((List.range n).filter (ov t))
    (Function.update g t (some leaders.length)) (by simp)
  set g' := joinOverlapping t ((List.range n).filter (ov t)) (Function.update g t (some leaders.length))
  have hg' : ∀ j, g' j = if j = t then some leaders.length else
      if g j = none ∧ (j < n ∧ ov t j = true) then some leaders.length else g j := by
    intro j
    rw [hspec j]
    by_cases hj : j = t
    · subst hj; simp
    · simp [hj]
  have hold : ∀ j c, g j = some c → g' j = some c := by
    intro j c hj
    have hjt : j ≠ t := by rintro rfl; rw [hnone] at hj; cases hj
    rw [hg' j, if_neg hjt, if_neg (by rw [hj]; simp), hj]
  refine ⟨?_, ?_, ?_, ?_, ?_, ?_, ?_⟩
  · rw [List.pairwise_append]
    exact ⟨h.incr, by simp, by intro a ha b hb; rw [List.mem_singleton] at hb; subst hb; exact h.lt a ha⟩
  · intro l hl
    rcases List.mem_append.mp hl with hl | hl
    · have := h.lt l hl; omega
    · rw [List.mem_singleton] at hl; omega
  · intro c l hc
    by_cases hcl : c < leaders.length
    · rw [List.getElem?_append_left hcl] at hc
      exact hold l c (h.lead c l hc)
    · rw [List.getElem?_append_right (by omega)] at hc
      have hc0 : c - leaders.length = 0 := by
        by_contra hne
        rw [List.getElem?_eq_none (by simp; omega)] at hc
        cases hc
      rw [hc0] at hc
      simp at hc
      subst hc
      rw [hg' t, if_pos rfl]
      congr 1
      omega
  · intro j c hj
    rw [hg' j] at hj
    split_ifs at hj with h1 h2
    · injection hj with hj
      subst hj
      exact ⟨t, by simp, Or.inl h1⟩
    · injection hj with hj
      subst hj
      refine ⟨t, by simp, Or.inr ⟨?_, h2.2⟩⟩
      by_contra hlt
      exact h.done j (by omega) h2.1
    · obtain ⟨l, hl, h3⟩ := h.mem j c hj
      refine ⟨l, ?_, h3⟩
      rw [List.getElem?_append_left (List.getElem?_eq_some_iff.mp hl).1]
      exact hl
  · intro j hj
    by_cases hjt : j = t
    · rw [hg' j, if_pos hjt]; simp
    · cases hgj : g j with
      | none => exact absurd hgj (h.done j (by omega))
      | some c => rw [hold j c hgj]; simp
  · intro l hl j hj hov
    rcases List.mem_append.mp hl with hl | hl
    · cases hgj : g j with
      | none => exact absurd hgj (h.cover l hl j hj hov)
      | some c => rw [hold j c hgj]; simp
    · rw [List.mem_singleton] at hl
      subst hl
      cases hgj : g j with
      | some c => rw [hold j c hgj]; simp
      | none =>
        rw [hg' j]
        split_ifs with h1 h2
        · simp
        · simp
        · exact absurd ⟨hgj, hj, hov⟩ h2
  · intro j c hj c' l' hcc hl'
    rw [hg' j] at hj
    have hl2 : c < leaders.length + 1 → leaders[c']? = some l' := by
      intro hc
      rwa [List.getElem?_append_left (by omega)] at hl'
    split_ifs at hj with h1 h2
    · injection hj with hj
      have hl2 := hl2 (by omega)
      subst h1
      by_contra hcon
      have hcon : ov l' j = true := by simpa using hcon
      exact h.cover l' (List.mem_of_getElem? hl2) j hn hcon hnone
    · injection hj with hj
      have hl2 := hl2 (by omega)
      by_contra hcon
      have hcon : ov l' j = true := by simpa using hcon
      exact h.cover l' (List.mem_of_getElem? hl2) j h2.2.1 hcon h2.1
    · obtain ⟨l, hl, _⟩ := h.mem j c hj
      have := (List.getElem?_eq_some_iff.mp hl).1
      exact h.first j c hj c' l' hcc (hl2 (by omega))

theorem assignGroups_spec {n : ℕ} {ov : ℕ → ℕ → Bool} (hself : ∀ i, ov i i = false) :
    ∀ (r t : ℕ) (g : ℕ → Option ℕ) (leaders : List ℕ), t + r = n → GroupInv n ov t g leaders →
    ∃ g' leaders', assignGroups n ov (List.range' t r) (g, leaders.length) = (g', leaders'.length) ∧
      GroupInv n ov n g' leaders'
  | 0, t, g, leaders, ht, h => ⟨g, leaders, rfl, by
      have h1 : t = n := by omega
      rwa [h1] at h⟩
  | r + 1, t, g, leaders, ht, h => by
    rw [List.range'_succ, assignGroups]
    cases hg : g t with
    | some c =>
      refine assignGroups_spec hself r (t + 1) g leaders (by omega) ?_
      exact ⟨h.incr, fun l hl => (h.lt l hl).trans (Nat.lt_succ_self t), h.lead, h.mem,
        fun j hj => by
          rcases Nat.lt_succ_iff_lt_or_eq.mp hj with hj | hj
          · exact h.done j hj
          · rw [hj, hg]; simp, h.cover, h.first⟩
    | none =>
      have hs := groupInv_step (by omega) h hg
      have := assignGroups_spec hself r (t + 1) _ _ (by omega) hs
      simpa using this

/-! ### Collecting the groups -/

theorem appendTo_mem {num ind : ℕ} : ∀ (c s : ℕ) (f : ℕ → List ℕ), s ≤ num → num < s + c →
    appendTo num ind ((List.range' s c).map fun a => (a, f a)) =
      (List.range' s c).map fun a => (a, if a = num then f a ++ [ind] else f a)
  | 0, s, f, h1, h2 => by omega
  | c + 1, s, f, h1, h2 => by
    rw [List.range'_succ, List.map_cons, List.map_cons, appendTo]
    by_cases hs : s = num
    · rw [if_pos hs, if_pos hs]
      congr 1
      apply List.map_congr_left
      intro a ha
      rw [List.mem_range'_1] at ha
      rw [if_neg (by omega)]
    · rw [if_neg hs, if_neg hs, appendTo_mem c (s + 1) f (by omega) (by omega)]

theorem appendTo_new {num ind : ℕ} : ∀ (l : List (ℕ × List ℕ)), (∀ p ∈ l, p.1 ≠ num) →
    appendTo num ind l = l ++ [(num, [ind])]
  | [], _ => rfl
  | (a, x) :: l, h => by
    rw [appendTo, if_neg (h (a, x) (by simp)), appendTo_new l (fun p hp => h p (List.mem_cons_of_mem _ hp))]
    rfl

theorem collect_spec {n : ℕ} {ov : ℕ → ℕ → Bool} {g : ℕ → Option ℕ} {leaders : List ℕ}
    (h : GroupInv n ov n g leaders) : ∀ t, t ≤ n → ∃ c, c ≤ leaders.length ∧
    (∀ c' l, leaders[c']? = some l → (l < t ↔ c' < c)) ∧
    (List.range t).foldl (collectStep g) [] =
    (List.range' 0 c).map fun a => (a, (List.range t).filter fun i => g i = some a)
  | 0, _ => ⟨0, by omega, by intro c' l _; simp, rfl⟩
  | t + 1, ht => by
    obtain ⟨c, hc, hl, e⟩ := collect_spec h t (by omega)
    rw [List.range_succ, List.foldl_append, e]
    simp only [List.foldl_cons, List.foldl_nil, List.filter_append]
    unfold collectStep
    cases hg : g t with
    | none => exact absurd hg (h.done t (by omega))
    | some num =>
      obtain ⟨l, hll, hmem⟩ := h.mem t num hg
      have hll' : l ≤ t := by omega
      have hltlen := (List.getElem?_eq_some_iff.mp hll).1
      by_cases hnum : num < c
      · refine ⟨c, hc, ?_, ?_⟩
        · intro c' l' hc'
          rw [← hl c' l' hc']
          constructor
          · intro h1
            rcases Nat.lt_succ_iff_lt_or_eq.mp h1 with h1 | h1
            · exact h1
            · exfalso
              subst h1
              have h2 := h.lead c' l' hc'
              rw [hg] at h2
              injection h2 with h2
              subst h2
              rw [hc'] at hll
              injection hll with hll
              subst hll
              exact absurd ((hl num l' hc').mpr hnum) (by omega)
          · omega
        · simp only
          rw [appendTo_mem c 0 _ (by omega) (by omega)]
          apply List.map_congr_left
          intro a _
          by_cases ha : a = num
          · subst ha; simp [hg]
          · rw [if_neg ha]
            simp [hg, Ne.symm ha]
      · -- a new group: `t` is its leader
        have hlt : ¬ l < t := fun h1 => hnum ((hl num l hll).mp h1)
        have hlt' : l = t := by omega
        subst hlt'
        have hnc : num = c := by
          by_contra hne
          have hclt : c < num := by omega
          have hcl : c < leaders.length := by omega
          have h1 : leaders[c]? = some leaders[c] := List.getElem?_eq_getElem hcl
          have h2 := (hl c _ h1).not.mpr (by omega)
          have h3 := List.pairwise_iff_getElem.mp h.incr c num hcl hltlen hclt
          have h4 : leaders[num] = l := (List.getElem?_eq_some_iff.mp hll).2
          omega
        subst hnc
        refine ⟨num + 1, by omega, ?_, ?_⟩
        · intro c' l' hc'
          constructor
          · intro h1
            rcases Nat.lt_succ_iff_lt_or_eq.mp h1 with h1 | h1
            · have := (hl c' l' hc').mp h1; omega
            · subst h1
              have h2 := h.lead c' l' hc'
              rw [hg] at h2
              injection h2 with h2
              omega
          · intro h1
            rcases Nat.lt_succ_iff_lt_or_eq.mp h1 with h1 | h1
            · have := (hl c' l' hc').mpr h1; omega
            · subst h1
              rw [hll] at hc'
              injection hc' with hc'
              omega
        · simp only
          rw [appendTo_new _ (by
            intro p hp
            obtain ⟨a, ha, rfl⟩ := List.mem_map.mp hp
            rw [List.mem_range'_1] at ha
            simp only
            omega)]
          rw [List.range'_1_concat, List.map_append]
          congr 1
          · apply List.map_congr_left
            intro a ha
            rw [List.mem_range'_1] at ha
            have hna : ¬ num = a := by omega
            simp [hg, hna]
          · simp only [List.map_cons, List.map_nil, Nat.zero_add]
            have hempty : (List.range l).filter (fun i => decide (g i = some num)) = [] := by
              rw [List.filter_eq_nil_iff]
              intro i hi
              rw [List.mem_range] at hi
              simp only [decide_eq_true_eq]
              intro hgi
              obtain ⟨l', hl', h5⟩ := h.mem i num hgi
              rw [hll] at hl'
              injection hl' with hl'
              omega
            rw [hempty]
            simp [hg]

theorem flatten_filter_perm (g : ℕ → Option ℕ) (c : ℕ) : ∀ (l : List ℕ), (∀ i ∈ l, ∃ a, a < c ∧ g i = some a) →
    ((List.range c).map fun a => l.filter fun i => g i = some a).flatten.Perm l
  | [], _ => by
    have : ((List.range c).map fun a => ([] : List ℕ).filter fun i => g i = some a).flatten = [] := by
      simp
    rw [this]
  | i :: l, h => by
    obtain ⟨a, ha, hga⟩ := h i (by simp)
    have ih := flatten_filter_perm g c l (fun j hj => h j (List.mem_cons_of_mem _ hj))
    obtain ⟨s, t, hst⟩ : ∃ s t, List.range c = s ++ a :: t :=
      List.append_of_mem (List.mem_range.mpr ha)
    have hnd : (s ++ a :: t).Nodup := by rw [← hst]; exact List.nodup_range
    have hs : a ∉ s := fun hmem => by
      rw [List.nodup_append] at hnd
      exact hnd.2.2 a hmem a (by simp) rfl
    have ht : a ∉ t := by
      rw [List.nodup_append] at hnd
      exact (List.nodup_cons.mp hnd.2.1).1
    have e : ∀ u : List ℕ, a ∉ u →
        (u.map fun b => (i :: l).filter fun i => g i = some b) = u.map fun b => l.filter fun i => g i = some b := by
      intro u hu
      apply List.map_congr_left
      intro b hb
      rw [List.filter_cons_of_neg]
      rw [hga]
      simp only [Option.some.injEq, decide_eq_true_eq]
      rintro rfl
      exact hu hb
    rw [hst] at ih ⊢
    rw [List.map_append, List.map_cons, List.flatten_append, List.flatten_cons] at ih ⊢
    rw [e s hs, e t ht, List.filter_cons_of_pos (by simp [hga]), List.cons_append]
    exact List.perm_middle.trans (ih.cons i)

theorem collapseIntoGroups_spec (n : ℕ) (ov : ℕ → ℕ → Bool) (hself : ∀ i, ov i i = false) :
    IsLeaderGrouping n ov (collapseIntoGroups n ov) := by
  have h0 : GroupInv n ov 0 (fun _ => none) [] := by
    refine ⟨by simp, by simp, by simp, by simp, by omega, by simp, by simp⟩
  obtain ⟨g, leaders, e, hinv⟩ := assignGroups_spec hself n 0 _ [] (by omega) h0
  obtain ⟨c, hc, hl, ec⟩ := collect_spec hinv n (le_refl n)
  have hcl : c = leaders.length := by
    by_contra hne
    have hlt : c < leaders.length := by omega
    have h1 : leaders[c]? = some leaders[c] := List.getElem?_eq_getElem hlt
    have := (hl c _ h1).mp (hinv.lt _ (List.getElem_mem hlt))
    omega
  have hres : collapseIntoGroups n ov =
      (List.range c).map fun a => (List.range n).filter fun i => g i = some a := by
    unfold collapseIntoGroups
    rw [List.range_eq_range'] at ec ⊢
    rw [List.length_nil] at e
    rw [e]
    simp only
    rw [ec, List.map_map, List.range_eq_range']
    rfl
  -- the leader is the first element
  have hhead : ∀ a l, leaders[a]? = some l → l < n ∧ ((List.range n).filter fun i => g i = some a) =
      l :: ((List.range n).filter fun i => g i = some a).drop 1 := by
    intro a l ha
    have hln : l < n := hinv.lt l (List.mem_of_getElem? ha)
    refine ⟨hln, ?_⟩
    have hmem : l ∈ (List.range n).filter fun i => g i = some a := by
      rw [List.mem_filter, List.mem_range]
      exact ⟨hln, by simp [hinv.lead a l ha]⟩
    have hsorted : ((List.range n).filter fun i => g i = some a).Pairwise (· < ·) :=
      List.pairwise_lt_range.filter _
    cases hF : (List.range n).filter fun i => g i = some a with
    | nil => rw [hF] at hmem; cases hmem
    | cons b rest =>
      have hb : b ∈ (List.range n).filter fun i => g i = some a := by rw [hF]; simp
      rw [List.mem_filter] at hb
      obtain ⟨l', hl', h5⟩ := hinv.mem b a (by simpa using hb.2)
      rw [ha] at hl'
      injection hl' with hl'
      subst hl'
      rw [hF] at hmem hsorted
      rcases List.mem_cons.mp hmem with h6 | h6
      · rw [h6]; rfl
      · have := (List.pairwise_cons.mp hsorted).1 l h6
        omega
  have hex : ∀ a, a < c → ∃ l, leaders[a]? = some l := fun a ha =>
    ⟨leaders[a]'(by omega), List.getElem?_eq_getElem (by omega)⟩
  rw [hres]
  refine ⟨?_, ?_, ?_, ?_, ?_⟩
  · apply flatten_filter_perm
    intro i hi
    rw [List.mem_range] at hi
    cases hgi : g i with
    | none => exact absurd hgi (hinv.done i hi)
    | some a =>
      obtain ⟨l, hla, _⟩ := hinv.mem i a hgi
      have := (List.getElem?_eq_some_iff.mp hla).1
      exact ⟨a, by omega, rfl⟩
  · intro G hG
    obtain ⟨a, ha, rfl⟩ := List.mem_map.mp hG
    obtain ⟨l, hla⟩ := hex a (List.mem_range.mp ha)
    rw [(hhead a l hla).2]
    simp
  · intro G hG
    obtain ⟨a, ha, rfl⟩ := List.mem_map.mp hG
    exact List.pairwise_lt_range.filter _
  · intro G hG l hl' j hj
    obtain ⟨a, ha, rfl⟩ := List.mem_map.mp hG
    obtain ⟨l₀, hla⟩ := hex a (List.mem_range.mp ha)
    have hh := (hhead a l₀ hla).2
    rw [hh] at hl'
    simp at hl'
    subst hl'
    have hjm := List.mem_of_mem_drop hj
    rw [List.mem_filter] at hjm
    obtain ⟨l', hl', h5⟩ := hinv.mem j a (by simpa using hjm.2)
    rw [hla] at hl'
    injection hl' with hl'
    subst hl'
    rcases h5 with h5 | h5
    · exfalso
      subst h5
      have hsorted : ((List.range n).filter fun i => g i = some a).Pairwise (· < ·) :=
        List.pairwise_lt_range.filter _
      rw [hh] at hsorted
      exact absurd ((List.pairwise_cons.mp hsorted).1 j hj) (by omega)
    · exact h5.2.2
  · rw [List.pairwise_map]
    refine List.pairwise_lt_range.imp_of_mem ?_
    intro a b ha hb hab l hl' j hj
    obtain ⟨l₀, hla⟩ := hex a (List.mem_range.mp ha)
    rw [(hhead a l₀ hla).2] at hl'
    simp at hl'
    subst hl'
    rw [List.mem_filter] at hj
    have hgj : g j = some b := by simpa using hj.2
    refine ⟨?_, hinv.first j b hgj a l₀ hab hla⟩
    obtain ⟨l', hl', h5⟩ := hinv.mem j b hgj
    obtain ⟨h6, h6'⟩ := List.getElem?_eq_some_iff.mp hla
    obtain ⟨h7, h7'⟩ := List.getElem?_eq_some_iff.mp hl'
    have := List.pairwise_iff_getElem.mp hinv.incr a b h6 h7 hab
    omega

end Amd
