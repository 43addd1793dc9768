import Verif.Proof.LatticeGen
import Verif.Spec.Lattice
import Mathlib.Algebra.Order.Ring.Abs
import Mathlib.Data.List.Lex
import Mathlib.Data.List.Sort
import Mathlib.Data.List.Sublists

/-! Helper lemmas: reflections over all combinations of axes, and the complete layers. -/

namespace Amd

/-- A combination of axes: strictly increasing, bounded by `lim + length`. -/
def ValidAxes (lim : ℕ) (as : List ℕ) : Prop :=
  as.Pairwise (· < ·) ∧ ∀ x ∈ as, x < lim + as.length

theorem validAxes_cons {lim a : ℕ} {as : List ℕ} :
    ValidAxes lim (a :: as) ↔ (∀ x ∈ as, a < x) ∧ a < lim + (as.length + 1) ∧ ValidAxes (lim + 1) as := by
  unfold ValidAxes
  simp only [List.pairwise_cons, List.mem_cons, List.length_cons, forall_eq_or_imp]
  constructor
  · rintro ⟨⟨h1, h2⟩, h3, h4⟩
    exact ⟨h1, h3, h2, fun x hx => by have := h4 x hx; omega⟩
  · rintro ⟨h1, h3, h2, h4⟩
    exact ⟨⟨h1, h2⟩, h3, fun x hx => by have := h4 x hx; omega⟩

theorem head_le_lim : ∀ {as : List ℕ} {lim a : ℕ}, ValidAxes lim (a :: as) → a ≤ lim
  | [], lim, a, h => by
    have := (validAxes_cons.mp h).2.1
    simp at this; omega
  | b :: as, lim, a, h => by
    have h' := validAxes_cons.mp h
    have := head_le_lim h'.2.2
    have := h'.1 b (by simp)
    omega

theorem validAxes_range' : ∀ (r s lim : ℕ), s ≤ lim → ValidAxes lim (List.range' s r)
  | 0, s, lim, _ => by simp [ValidAxes]
  | r + 1, s, lim, h => by
    rw [List.range'_succ, validAxes_cons]
    refine ⟨?_, ?_, ?_⟩
    · intro x hx
      rw [List.mem_range'_1] at hx; omega
    · simp; omega
    · exact validAxes_range' r (s + 1) (lim + 1) (by omega)

theorem range'_le : ∀ (b : List ℕ) (s : ℕ), b.Pairwise (· < ·) → (∀ x ∈ b, s ≤ x) →
    List.range' s b.length ≤ b
  | [], s, _, _ => by simp
  | x :: b, s, h, hs => by
    rw [List.pairwise_cons] at h
    rw [List.length_cons, List.range'_succ]
    have hx : s ≤ x := hs x (by simp)
    rcases Nat.eq_or_lt_of_le hx with he | hl
    · subst he
      apply List.cons_le_cons
      exact range'_le b (s + 1) h.2 fun y hy => h.1 y hy
    · exact le_of_lt (List.Lex.rel hl)

theorem list_cons_lt_cons {a b : ℕ} {as bs : List ℕ} :
    a :: as < b :: bs ↔ a < b ∨ a = b ∧ as < bs := by
  exact List.cons_lt_cons_iff

theorem nextAxes_none : ∀ {as : List ℕ} {lim : ℕ}, ValidAxes lim as → nextAxes lim as = none →
    as = List.range' lim as.length
  | [], lim, _, _ => by simp
  | a :: as, lim, hv, h => by
    have hv' := validAxes_cons.mp hv
    unfold nextAxes at h
    cases h2 : nextAxes (lim + 1) as with
    | some as' => rw [h2] at h; simp at h
    | none =>
      rw [h2] at h
      simp only at h
      split_ifs at h with ha
      subst ha
      rw [List.length_cons, List.range'_succ]
      rw [← nextAxes_none hv'.2.2 h2]

theorem le_range' : ∀ (b : List ℕ) (lim : ℕ), ValidAxes lim b → b ≤ List.range' lim b.length
  | [], _, _ => by simp
  | x :: b, lim, h => by
    have h' := validAxes_cons.mp h
    rw [List.length_cons, List.range'_succ]
    rcases Nat.eq_or_lt_of_le (head_le_lim h) with he | hl
    · subst he
      exact List.cons_le_cons _ (le_range' b _ h'.2.2)
    · exact le_of_lt (List.Lex.rel hl)

theorem nextAxes_some : ∀ {as as' : List ℕ} {lim : ℕ}, ValidAxes lim as →
    nextAxes lim as = some as' →
    as'.length = as.length ∧ ValidAxes lim as' ∧ as < as' ∧
    ∀ b, ValidAxes lim b → b.length = as.length → as < b → as' ≤ b
  | [], as', lim, _, h => by simp [nextAxes] at h
  | a :: as, as', lim, hv, h => by
    have hv' := validAxes_cons.mp hv
    unfold nextAxes at h
    cases h2 : nextAxes (lim + 1) as with
    | some as1 =>
      rw [h2] at h
      simp only [Option.some.injEq] at h
      subst h
      obtain ⟨i1, i2, i3, i4⟩ := nextAxes_some hv'.2.2 h2
      refine ⟨by simp [i1], ?_, ?_, ?_⟩
      · rw [validAxes_cons]
        refine ⟨?_, by rw [i1]; exact hv'.2.1, i2⟩
        intro x hx
        -- the head of `as1` is at least the head of `as`
        cases as with
        | nil => simp [nextAxes] at h2
        | cons y ys =>
          cases as1 with
          | nil => simp at hx
          | cons z zs =>
            have hay := hv'.1 y (by simp)
            have hyz : y ≤ z := by
              rcases list_cons_lt_cons.mp i3 with h | h
              · omega
              · omega
            have hz := (validAxes_cons.mp i2).1
            rcases List.mem_cons.mp hx with rfl | hx
            · omega
            · have := hz x hx; omega
      · rw [list_cons_lt_cons]; exact Or.inr ⟨rfl, i3⟩
      · intro b hb hlen hlt
        cases b with
        | nil => simp at hlen
        | cons b0 bs =>
          rcases list_cons_lt_cons.mp hlt with h | ⟨h, h'⟩
          · exact le_of_lt (List.Lex.rel h)
          · subst h
            apply List.cons_le_cons
            exact i4 bs (validAxes_cons.mp hb).2.2 (by simpa using hlen) h'
    | none =>
      rw [h2] at h
      simp only at h
      split_ifs at h with ha
      simp only [Option.some.injEq] at h
      subst h
      have hle := head_le_lim hv
      refine ⟨by simp, validAxes_range' _ _ _ (by omega), ?_, ?_⟩
      · rw [List.range'_succ, list_cons_lt_cons]; left; omega
      · intro b hb hlen hlt
        cases b with
        | nil => simp at hlen
        | cons b0 bs =>
          have hbv := validAxes_cons.mp hb
          rcases list_cons_lt_cons.mp hlt with h | ⟨h, h'⟩
          · have := range'_le (b0 :: bs) (a + 1) hb.1 (by
              intro x hx
              rcases List.mem_cons.mp hx with rfl | hx
              · omega
              · have := hbv.1 x hx; omega)
            rw [hlen, List.length_cons] at this
            exact this
          · exfalso
            have e := nextAxes_none hv'.2.2 h2
            have := le_range' bs _ hbv.2.2
            have hl : bs.length = as.length := by simpa using hlen
            rw [hl, ← e] at this
            exact absurd h' (not_lt.mpr this)

theorem validAxes_sublist {lim : ℕ} {b : List ℕ} (h : ValidAxes lim b) :
    b.Sublist (List.range (lim + b.length)) := by
  apply List.sublist_of_subperm_of_pairwise (r := (· < ·))
  · apply List.subperm_of_subset
    · exact h.1.imp (fun h => Nat.ne_of_lt h)
    · intro x hx; rw [List.mem_range]; exact h.2 x hx
  · exact h.1
  · exact List.pairwise_lt_range

theorem axesFrom_spec (lim r : ℕ) : ∀ (f : ℕ) (as : List ℕ), ValidAxes lim as → as.length = r →
    (((List.range (lim + r)).sublists.filter (fun b => as < b)).length < f) →
    ∃ L, axesFrom lim f as = some L ∧ L.Pairwise (· < ·) ∧
      ∀ b, b ∈ L ↔ ValidAxes lim b ∧ b.length = r ∧ as ≤ b
  | 0, _, _, _, h => absurd h (by simp)
  | f + 1, as, hv, hl, hf => by
    unfold axesFrom
    cases h2 : nextAxes lim as with
    | none =>
      refine ⟨[as], rfl, by simp, ?_⟩
      intro b
      have e := nextAxes_none hv h2
      simp only [List.mem_singleton]
      constructor
      · rintro rfl; exact ⟨hv, hl, le_refl _⟩
      · rintro ⟨hb, hbl, hle⟩
        have := le_range' b _ hb
        rw [hbl, ← hl, ← e] at this
        exact le_antisymm this hle
    | some as' =>
      obtain ⟨i1, i2, i3, i4⟩ := nextAxes_some hv h2
      have hmem : as' ∈ (List.range (lim + r)).sublists := by
        rw [List.mem_sublists]
        have := validAxes_sublist i2
        rw [i1, hl] at this
        exact this
      have hlt : ((List.range (lim + r)).sublists.filter (fun b => as' < b)).length <
          ((List.range (lim + r)).sublists.filter (fun b => as < b)).length := by
        have hsub : (List.range (lim + r)).sublists.filter (fun b => as' < b) =
            ((List.range (lim + r)).sublists.filter (fun b => as < b)).filter (fun b => as' < b) := by
          rw [List.filter_filter]
          apply List.filter_congr
          intro b _
          by_cases hb : as' < b
          · simp [hb, lt_trans i3 hb]
          · simp [hb]
        rw [hsub]
        apply List.length_filter_lt_length_iff_exists.mpr
        exact ⟨as', by rw [List.mem_filter]; exact ⟨hmem, by simpa using i3⟩, by simp⟩
      obtain ⟨L, j1, j2, j3⟩ := axesFrom_spec lim r f as' i2 (by rw [i1, hl]) (by omega)
      refine ⟨as :: L, by simp [j1], ?_, ?_⟩
      · rw [List.pairwise_cons]
        refine ⟨?_, j2⟩
        intro b hb
        exact lt_of_lt_of_le i3 ((j3 b).mp hb).2.2
      · intro b
        rw [List.mem_cons, j3]
        constructor
        · rintro (rfl | ⟨h1, h2, h3⟩)
          · exact ⟨hv, hl, le_refl _⟩
          · exact ⟨h1, h2, le_of_lt (lt_of_lt_of_le i3 h3)⟩
        · rintro ⟨h1, h2, h3⟩
          rcases eq_or_lt_of_le h3 with h | h
          · exact Or.inl h.symm
          · exact Or.inr ⟨h1, h2, i4 b h1 (by rw [h2, hl]) h⟩

/-- The combinations enumerated for `r` reflections are exactly the `r`-element sets of axes, each once,
and the model's fuel is always enough. -/
theorem axesList_spec {D r : ℕ} (hr : r ≤ D) :
    (axesFrom (D - r) (2 ^ D + 1) (List.range r)).isSome ∧ (axesList D r).Nodup ∧
    ∀ b, b ∈ axesList D r ↔ b.Pairwise (· < ·) ∧ (∀ x ∈ b, x < D) ∧ b.length = r := by
  have hv : ValidAxes (D - r) (List.range r) := by
    rw [List.range_eq_range']; exact validAxes_range' r 0 (D - r) (by omega)
  obtain ⟨L, h1, h2, h3⟩ := axesFrom_spec (D - r) r (2 ^ D + 1) (List.range r) hv (by simp) (by
    refine Nat.lt_succ_of_le ((List.length_filter_le _ _).trans ?_)
    rw [List.length_sublists, List.length_range, Nat.sub_add_cancel hr])
  refine ⟨by rw [h1]; rfl, ?_, ?_⟩
  · rw [axesList, h1]
    exact h2.imp (fun h => ne_of_lt h)
  · intro b
    rw [axesList, h1, Option.getD_some, h3]
    constructor
    · rintro ⟨hb, hl, _⟩
      refine ⟨hb.1, fun x hx => ?_, hl⟩
      have := hb.2 x hx
      omega
    · rintro ⟨hp, hx, hl⟩
      refine ⟨⟨hp, fun x h => ?_⟩, hl, ?_⟩
      · have := hx x h; omega
      · have := range'_le b 0 hp (by simp)
        rw [hl, ← List.range_eq_range'] at this
        exact this

/-- All the axes sets used, including the empty one for the unreflected points. -/
def allAxes (D : ℕ) : List (List ℕ) := [] :: (List.range' 1 D).flatMap (axesList D)

theorem mem_allAxes {D : ℕ} {b : List ℕ} :
    b ∈ allAxes D ↔ b.Pairwise (· < ·) ∧ ∀ x ∈ b, x < D := by
  unfold allAxes
  rw [List.mem_cons, List.mem_flatMap]
  constructor
  · rintro (rfl | ⟨r, hr, hb⟩)
    · simp
    · rw [List.mem_range'_1] at hr
      have := ((axesList_spec (by omega)).2.2 b).mp hb
      exact ⟨this.1, this.2.1⟩
  · rintro ⟨hp, hx⟩
    by_cases hb : b = []
    · exact Or.inl hb
    · right
      have hlen : b.length ≤ D := by
        have h := List.Subperm.length_le (List.subperm_of_subset
          (hp.imp (fun h => Nat.ne_of_lt h)) (l₂ := List.range D)
          (fun x h => List.mem_range.mpr (hx x h)))
        simpa using h
      have hpos : 0 < b.length := List.length_pos_iff.mpr hb
      refine ⟨b.length, ?_, ((axesList_spec hlen).2.2 b).mpr ⟨hp, hx, rfl⟩⟩
      rw [List.mem_range'_1]; omega

theorem nodup_allAxes (D : ℕ) : (allAxes D).Nodup := by
  unfold allAxes
  rw [List.nodup_cons]
  constructor
  · rw [List.mem_flatMap]
    rintro ⟨r, hr, hb⟩
    rw [List.mem_range'_1] at hr
    have := ((axesList_spec (by omega)).2.2 _).mp hb
    simp at this; omega
  · rw [List.nodup_flatMap]
    refine ⟨fun r hr => ?_, ?_⟩
    · rw [List.mem_range'_1] at hr
      exact (axesList_spec (by omega)).2.1
    · refine List.Pairwise.imp_of_mem ?_ (List.nodup_range' (s := 1) (n := D) (step := 1))
      intro a b ha hb hab
      rw [List.mem_range'_1] at ha hb
      simp only [Function.onFun, List.Disjoint]
      intro c hc hc'
      have h1 := ((axesList_spec (by omega)).2.2 _).mp hc
      have h2 := ((axesList_spec (by omega)).2.2 _).mp hc'
      exact hab (h1.2.2.symm.trans h2.2.2)

theorem reflectPositive_eq {D : ℕ} (pos : List (Fin D → ℕ)) :
    reflectPositive pos =
      (allAxes D).flatMap fun axes => (pos.filter (offAxes axes)).map (reflectOn axes) := by
  unfold reflectPositive allAxes
  rw [List.flatMap_cons, List.flatMap_assoc]
  congr 1
  have : pos.filter (offAxes []) = pos := by
    rw [List.filter_eq_self]
    intro v _
    simp [offAxes]
  rw [this]
  apply List.map_congr_left
  intro v _
  funext i
  simp [reflectOn]

theorem reflectOn_neg_iff {D : ℕ} {axes : List ℕ} {v : Fin D → ℕ} (h : offAxes axes v = true)
    (i : Fin D) : reflectOn axes v i < 0 ↔ (i : ℕ) ∈ axes := by
  unfold offAxes at h
  have h := of_decide_eq_true h
  unfold reflectOn
  by_cases hi : (i : ℕ) ∈ axes
  · have := h i hi
    simp only [hi, if_true, iff_true]; omega
  · simp only [hi, if_false, iff_false]; omega

theorem natAbs_reflectOn {D : ℕ} (axes : List ℕ) (v : Fin D → ℕ) (i : Fin D) :
    (reflectOn axes v i).natAbs = v i := by
  unfold reflectOn; split_ifs <;> simp

theorem axes_ext {D : ℕ} {a b : List ℕ} (ha : a ∈ allAxes D) (hb : b ∈ allAxes D)
    (h : ∀ i : Fin D, (i : ℕ) ∈ a ↔ (i : ℕ) ∈ b) : a = b := by
  rw [mem_allAxes] at ha hb
  have hs : ∀ x, x ∈ a ↔ x ∈ b := fun x =>
    ⟨fun hx => (h ⟨x, ha.2 x hx⟩).mp hx, fun hx => (h ⟨x, hb.2 x hx⟩).mpr hx⟩
  have hp : a.Perm b := (List.perm_ext_iff_of_nodup (ha.1.imp (fun h => Nat.ne_of_lt h))
    (hb.1.imp (fun h => Nat.ne_of_lt h))).mpr hs
  exact hp.eq_of_pairwise (le := (· < ·)) (fun x y _ _ h1 h2 => absurd h1 (Nat.lt_asymm h2)) ha.1 hb.1

theorem nodup_reflectPositive {D : ℕ} {pos : List (Fin D → ℕ)} (h : pos.Nodup) :
    (reflectPositive pos).Nodup := by
  rw [reflectPositive_eq, List.nodup_flatMap]
  constructor
  · intro axes _
    apply List.Nodup.map_on _ (h.filter _)
    intro u _ v _ huv
    funext i
    rw [← natAbs_reflectOn axes u, huv, natAbs_reflectOn]
  · refine List.Pairwise.imp_of_mem ?_ (nodup_allAxes D)
    intro a b ha hb hab
    simp only [Function.onFun, List.Disjoint, List.mem_map, List.mem_filter]
    rintro w ⟨u, ⟨_, hu⟩, rfl⟩ ⟨v, ⟨_, hv⟩, huv⟩
    apply hab
    apply axes_ext ha hb
    intro i
    rw [← reflectOn_neg_iff hu, ← huv, reflectOn_neg_iff hv]

theorem mem_reflectPositive {D : ℕ} {pos : List (Fin D → ℕ)} {w : Fin D → ℤ} :
    w ∈ reflectPositive pos ↔ (fun i => (w i).natAbs) ∈ pos := by
  rw [reflectPositive_eq, List.mem_flatMap]
  constructor
  · rintro ⟨axes, _, h⟩
    rw [List.mem_map] at h
    obtain ⟨u, hu, rfl⟩ := h
    have : (fun i => (reflectOn axes u i).natAbs) = u := funext fun i => natAbs_reflectOn axes u i
    rw [this]
    exact List.mem_of_mem_filter hu
  · intro h
    have hmem : ∀ i : Fin D, (i : ℕ) ∈ (List.range D).filter
        (fun x => if h : x < D then decide (w ⟨x, h⟩ < 0) else false) ↔ w i < 0 := by
      intro i
      simp [List.mem_filter, i.isLt]
    refine ⟨(List.range D).filter (fun x => if h : x < D then decide (w ⟨x, h⟩ < 0) else false), ?_, ?_⟩
    · rw [mem_allAxes]
      refine ⟨List.pairwise_lt_range.filter _, ?_⟩
      intro x hx
      exact List.mem_range.mp (List.mem_of_mem_filter hx)
    · rw [List.mem_map]
      refine ⟨fun i => (w i).natAbs, ?_, ?_⟩
      · rw [List.mem_filter]
        refine ⟨h, ?_⟩
        unfold offAxes
        rw [decide_eq_true_iff]
        intro i hi
        have := (hmem i).mp hi
        change (w i).natAbs ≠ 0
        omega
      · funext i
        unfold reflectOn
        by_cases hi : w i < 0
        · rw [if_pos ((hmem i).mpr hi)]; change -((w i).natAbs : ℤ) = w i; omega
        · rw [if_neg (fun h => hi ((hmem i).mp h))]; change ((w i).natAbs : ℤ) = w i; omega

theorem normSq_natAbs {D : ℕ} (v : Fin D → ℤ) :
    ((∑ i, (v i).natAbs ^ 2 : ℕ) : ℤ) = normSq v := by
  unfold normSq
  push_cast
  exact Finset.sum_congr rfl fun i _ => by rw [sq_abs]

theorem nodup_intLayer : ∀ (D d : ℕ), (intLayer D d).Nodup
  | 0, _ => by simp [intLayer]
  | 1, 0 => by simp [intLayer]
  | 1, d + 1 => by
    simp only [intLayer, List.nodup_cons, List.mem_singleton, List.not_mem_nil, not_false_eq_true,
      List.nodup_nil, and_true]
    intro h
    have := congrFun h 0
    omega
  | n + 2, d => by
    obtain ⟨y, L, h1, h2, _, _⟩ := genState_spec (n + 1) d
    rw [intLayer, h1]
    exact nodup_reflectPositive h2

theorem mem_intLayer : ∀ {D : ℕ} (_ : 0 < D) (d : ℕ) (v : Fin D → ℤ),
    v ∈ intLayer D d ↔ InShell d v
  | 0, h, _, _ => absurd h (by simp)
  | 1, _, 0, v => by
    simp only [intLayer, List.mem_singleton, InShell, normSq, Fin.sum_univ_one]
    constructor
    · rintro rfl; simp
    · rintro ⟨h, _⟩
      funext i
      have : v 0 = 0 := by
        have h' : v 0 ^ 2 ≤ 0 := by simpa using h
        exact pow_eq_zero_iff (two_ne_zero) |>.mp (le_antisymm h' (sq_nonneg _))
      rw [Subsingleton.elim i 0, this]
  | 1, _, d + 1, v => by
    simp only [intLayer, List.mem_cons, List.not_mem_nil, or_false, InShell, normSq, Fin.sum_univ_one]
    have e : ∀ c : ℤ, (v = fun _ => c) ↔ v 0 = c := by
      intro c
      constructor
      · intro h; rw [h]
      · intro h; funext i; rw [Subsingleton.elim i 0, h]
    rw [e, e]
    push_cast
    constructor
    · rintro (h | h) <;> rw [h] <;> constructor
      · nlinarith
      · right; nlinarith
      · nlinarith
      · right; nlinarith
    · rintro ⟨h1, h2⟩
      rcases h2 with h2 | h2
      · simp at h2
      · have a1 : |v 0| ≤ |((d : ℤ) + 1)| := sq_le_sq.mp h1
        have a2 : |((d : ℤ) + 1 - 1)| < |v 0| := sq_lt_sq.mp h2
        have e1 : |((d : ℤ) + 1)| = (d : ℤ) + 1 := abs_of_nonneg (by omega)
        have e2 : |((d : ℤ) + 1 - 1)| = (d : ℤ) := by rw [add_sub_cancel_right, abs_of_nonneg (by omega)]
        rw [e1] at a1
        rw [e2] at a2
        rcases abs_cases (v 0) with ⟨h, _⟩ | ⟨h, _⟩
        · right; omega
        · left; omega
  | n + 2, _, d, v => by
    obtain ⟨y, L, h1, _, h3, _⟩ := genState_spec (n + 1) d
    rw [intLayer, h1]
    simp only [Option.map_some, Option.getD_some]
    rw [mem_reflectPositive, h3, InShell, ← normSq_natAbs]
    refine and_congr (by norm_cast) ?_
    by_cases hd : d = 0
    · simp [hd]
    · simp only [hd, false_or]
      obtain ⟨e, rfl⟩ : ∃ e, d = e + 1 := ⟨d - 1, by omega⟩
      rw [Nat.add_sub_cancel, Nat.cast_add, Nat.cast_one, add_sub_cancel_right]
      norm_cast

end Amd
