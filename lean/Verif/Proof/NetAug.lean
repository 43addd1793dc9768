import Verif.Proof.NetCycle

/-!
# Pushing flow around the cycle of an entering edge
-/

set_option linter.unusedSectionVars false

namespace Amd

open Finset

section
variable {N : Net} {M C : ℤ} {st : NState} {L : List ℕ} {path : ℕ → List ℕ} {i p q w : ℕ} {Yp Yq : List ℕ}

/-- Residual capacity for given flows. -/
def resF (N : Net) (f : ℕ → ℤ) (k s : ℕ) : ℤ := if N.tail k = s then N.cap k - f k else f k

/-- The condition of strong feasibility at an edge `k` from the child `v` to the parent `u`. -/
def SFat (N : Net) (f : ℕ → ℤ) (k v u : ℕ) : Prop := (N.tail k = v → 0 < f k) ∧ (k < N.e → N.tail k = u → f k < N.cap k)

theorem SFat_of_res {f : ℕ → ℤ} {k v u : ℕ} (hne : u ≠ v) (h : 0 < resF N f k u) : SFat N f k v u := by
  unfold resF at h
  constructor
  · intro ht
    rwa [if_neg (by omega)] at h
  · intro _ ht
    rw [if_pos ht] at h
    omega

theorem SFat_up {f f' : ℕ → ℤ} {k v u : ℕ} {δ : ℤ} (hne : u ≠ v) (hδ : 0 ≤ δ) (h : SFat N f k v u) (hf : f' k = f k + sgn N k v * δ) : SFat N f' k v u := by
  constructor
  · intro ht
    have := h.1 ht
    rw [hf]
    unfold sgn
    rw [if_pos ht]
    omega
  · intro hr ht
    have := h.2 hr ht
    rw [hf]
    unfold sgn
    rw [if_neg (by omega)]
    omega

theorem SFat_congr {f f' : ℕ → ℤ} {k v u : ℕ} (h : SFat N f k v u) (hf : f' k = f k) : SFat N f' k v u := by
  unfold SFat at *
  rwa [hf]

/-- Residual capacities after pushing `δ` along `k` from `s` to `t`. -/
theorem res_after {f f' : ℕ → ℤ} {k s t : ℕ} {δ : ℤ} (hne : s ≠ t) (hj : Joins N k s t) (hf : f' k = f k + sgn N k s * δ) :
    resF N f' k s = resF N f k s - δ ∧ resF N f' k t = resF N f k t + δ := by
  unfold resF
  rw [hf]
  unfold sgn
  rcases hj with ⟨a, -⟩ | ⟨a, -⟩
  · rw [if_pos a, if_pos a, if_pos a, if_neg (by omega), if_neg (by omega)]
    constructor <;> ring
  · rw [if_neg (by omega), if_neg (by omega), if_neg (by omega), if_pos a, if_pos a]
    constructor <;> ring

theorem leavesFirst_true {a j : ℕ} : ∀ (A B : List ℕ), a ∉ A → leavesFirst a j (A ++ j :: B) = true := by
  intro A
  induction A with
  | nil => intro B _; simp [leavesFirst]
  | cons x A ih =>
    intro B h
    simp at h
    simp only [List.cons_append, leavesFirst]
    by_cases hx : x = j
    · simp [hx]
    · rw [if_neg hx, if_neg (Ne.symm h.1)]
      exact ih B h.2

theorem leavesFirst_false {a j : ℕ} (haj : a ≠ j) : ∀ (A B : List ℕ), j ∉ A → leavesFirst a j (A ++ a :: B) = false := by
  intro A
  induction A with
  | nil => intro B _; simp [leavesFirst, haj]
  | cons x A ih =>
    intro B h
    simp at h
    simp only [List.cons_append, leavesFirst]
    rw [if_neg (Ne.symm h.1)]
    by_cases hx : x = a
    · simp [hx]
    · rw [if_neg hx]
      exact ih B h.2

/-- Which edge leaves the tree. -/
inductive Leave (N : Net) (st : NState) (i p : ℕ) (Yp Yq : List ℕ) (δ : ℤ) : ℕ → ℕ → ℕ → Prop
  | self (t : ℕ) (hδ : 0 < δ) (hp : ∀ y ∈ Yp, δ < resCap N st (edgeOf st y) (parOf st y)) : Leave N st i p Yp Yq δ i p t
  | down (Y1 : List ℕ) (c : ℕ) (Y2 : List ℕ) (hY : Yp = Y1 ++ c :: Y2) (hδ : 0 < δ)
      (h2 : ∀ y ∈ Y2, δ < resCap N st (edgeOf st y) (parOf st y)) : Leave N st i p Yp Yq δ (edgeOf st c) (parOf st c) c
  | up (Y1 : List ℕ) (c : ℕ) (Y2 : List ℕ) (hY : Yq = Y1 ++ c :: Y2) (hp : ∀ y ∈ Yp, δ < resCap N st (edgeOf st y) (parOf st y))
      (hi : δ < resCap N st i p) (h1 : ∀ y ∈ Y1, δ < resCap N st (edgeOf st y) y) : Leave N st i p Yp Yq δ (edgeOf st c) c (parOf st c)

theorem split_left {α : Type*} {D R X Y : List α} {x : α} (h : D ++ R = X ++ x :: Y) (hx : x ∉ D) : ∃ Z, X = D ++ Z ∧ R = Z ++ x :: Y := by
  rw [List.append_eq_append_iff] at h
  rcases h with ⟨a, ha, hb⟩ | ⟨a, ha, hb⟩
  · exact ⟨a, ha, hb⟩
  · cases a with
    | nil => exact ⟨[], by simpa using ha.symm, by simpa using hb.symm⟩
    | cons z a =>
      simp only [List.cons_append, List.cons.injEq] at hb
      exact absurd (by rw [ha, hb.1]; simp) hx

namespace CycleOf

theorem leaving (hN : NetOK N M C) (I : Inv N st L path) (K : CycleOf N st L path i p q w Yp Yq) :
    ∃ j s t, findLeaving N st (cycList st i p Yp Yq) = (j, s, t) ∧ (j, s) ∈ cycList st i p Yp Yq ∧ 0 ≤ resCap N st j s ∧
      (∀ x ∈ cycList st i p Yp Yq, resCap N st j s ≤ resCap N st x.1 x.2) ∧ (¬j < N.e → N.tail j ≠ s) ∧
      Leave N st i p Yp Yq (resCap N st j s) j s t := by
  obtain ⟨b, l, hbl⟩ : ∃ b l, cycList st i p Yp Yq = b :: l := by
    unfold cycList
    cases h : downPairs st Yp with
    | nil => exact ⟨_, _, rfl⟩
    | cons b l => exact ⟨_, _, rfl⟩
  obtain ⟨X, Y, h1, h2, h3⟩ := firstMin_spec (fun c : ℕ × ℕ => resCap N st c.1 c.2) l b
  have hfl : findLeaving N st (cycList st i p Yp Yq) = ((firstMin (fun c : ℕ × ℕ => resCap N st c.1 c.2) b l).1, (firstMin (fun c : ℕ × ℕ => resCap N st c.1 c.2) b l).2,
      if N.tail (firstMin (fun c : ℕ × ℕ => resCap N st c.1 c.2) b l).1 = (firstMin (fun c : ℕ × ℕ => resCap N st c.1 c.2) b l).2 then
        N.head (firstMin (fun c : ℕ × ℕ => resCap N st c.1 c.2) b l).1 else N.tail (firstMin (fun c : ℕ × ℕ => resCap N st c.1 c.2) b l).1) := by
    rw [hbl]
    rfl
  generalize hx : firstMin (fun c : ℕ × ℕ => resCap N st c.1 c.2) b l = x at h1 h2 h3 hfl
  rw [← hbl] at h1
  have hart := K.leaving_art hN I h1 h2 h3
  have hmem : x ∈ cycList st i p Yp Yq := by rw [h1]; simp
  have hmin : ∀ y ∈ cycList st i p Yp Yq, resCap N st x.1 x.2 ≤ resCap N st y.1 y.2 := by
    intro y hy
    rw [h1] at hy
    rcases List.mem_append.1 hy with h | h
    · exact (h2 y h).le
    · rcases List.mem_cons.1 h with h | h
      · rw [h]
      · exact h3 y h
  have h0 := K.res_nonneg I x hmem
  refine ⟨x.1, x.2, _, hfl, hmem, h0, hmin, hart, ?_⟩
  -- the other end
  have hother : ∀ t, x.2 ≠ t → Joins N x.1 x.2 t → (if N.tail x.1 = x.2 then N.head x.1 else N.tail x.1) = t := by
    intro t hne hj
    by_cases ht : N.tail x.1 = x.2
    · rw [if_pos ht]
      have hr : x.1 < N.e := by
        by_contra hr
        exact hart hr ht
      rcases hj with ⟨a, b⟩ | ⟨a, b⟩
      · rwa [NetOK.hd_real hr] at b
      · omega
    · rw [if_neg ht]
      rcases hj with ⟨a, b⟩ | ⟨a, b⟩
      · exact absurd a ht
      · exact a
  have hnd := (K.fst_nodup hN I).of_map
  rcases mem_cycList.1 hmem with ⟨c, hc, hxc⟩ | hxi | ⟨c, hc, hxc⟩
  · obtain ⟨Y1, Y2, hY⟩ := List.append_of_mem hc
    have hlt := K.bp.lt I hc
    obtain ⟨-, -, -, hj, -, -, hne⟩ := I.edgeOf_spec hlt
    have e1 : x.1 = edgeOf st c := by rw [hxc]
    have e2 : x.2 = parOf st c := by rw [hxc]
    rw [hother c (by rw [e2]; exact hne) (by rw [e1, e2]; exact hj.symm)]
    have hpos : 0 < resCap N st x.1 x.2 := by rw [e1, e2]; exact K.down_pos hN I hc
    have hsub : ∀ y ∈ Y2, (edgeOf st y, parOf st y) ∈ X := by
      have e3 : cycList st i p Yp Yq = (Y2.reverse.map fun c => (edgeOf st c, parOf st c)) ++ (x :: ((Y1.reverse.map fun c => (edgeOf st c, parOf st c)) ++ (i, p) :: upPairs st Yq)) := by
        unfold cycList downPairs
        rw [hY, hxc]
        simp
      have hnx : x ∉ (Y2.reverse.map fun c => (edgeOf st c, parOf st c)) := by
        rw [e3, List.nodup_append] at hnd
        intro h
        exact hnd.2.2 x h x (by simp) rfl
      have h1' := h1
      rw [e3] at h1'
      obtain ⟨Z, hZ, -⟩ := split_left h1' hnx
      intro y hy
      rw [hZ]
      exact List.mem_append_left _ (List.mem_map.2 ⟨y, by simpa using hy, rfl⟩)
    generalize hδ : resCap N st x.1 x.2 = δ at *
    rw [e1, e2]
    exact Leave.down Y1 c Y2 hY hpos fun y hy => h2 _ (hsub y hy)
  · have hpos : 0 < resCap N st x.1 x.2 := by rw [hxi]; exact (K.ent.facts hN I).2.2.2.2.2.1
    have hsub : ∀ y ∈ Yp, (edgeOf st y, parOf st y) ∈ X := by
      have hnx : x ∉ downPairs st Yp := by
        unfold cycList at hnd
        rw [List.nodup_append] at hnd
        intro h
        exact hnd.2.2 x h x (by simp [hxi]) rfl
      unfold cycList at h1
      obtain ⟨Z, hZ, -⟩ := split_left h1 hnx
      intro y hy
      rw [hZ]
      exact List.mem_append_left _ (mem_down.2 ⟨y, hy, rfl⟩)
    have e1 : x.1 = i := by rw [hxi]
    have e2 : x.2 = p := by rw [hxi]
    generalize hδ : resCap N st x.1 x.2 = δ at *
    rw [e1, e2]
    exact Leave.self _ hpos fun y hy => h2 _ (hsub y hy)
  · obtain ⟨Y1, Y2, hY⟩ := List.append_of_mem hc
    have hlt := K.bq.lt I hc
    obtain ⟨-, -, -, hj, -, -, hne⟩ := I.edgeOf_spec hlt
    have e1 : x.1 = edgeOf st c := by rw [hxc]
    have e2 : x.2 = c := by rw [hxc]
    rw [hother (parOf st c) (by rw [e2]; exact hne.symm) (by rw [e1, e2]; exact hj)]
    have e3 : cycList st i p Yp Yq = (downPairs st Yp ++ (i, p) :: upPairs st Y1) ++ (x :: upPairs st Y2) := by
      unfold cycList upPairs
      rw [hY, hxc]
      simp
    have hnx : x ∉ downPairs st Yp ++ (i, p) :: upPairs st Y1 := by
      rw [e3, List.nodup_append] at hnd
      intro h
      exact hnd.2.2 x h x (by simp) rfl
    rw [e3] at h1
    obtain ⟨Z, hZ, -⟩ := split_left h1 hnx
    generalize hδ : resCap N st x.1 x.2 = δ at *
    rw [e1, e2]
    refine Leave.up Y1 c Y2 hY ?_ ?_ ?_
    · intro y hy
      exact h2 _ (by rw [hZ]; exact List.mem_append_left _ (List.mem_append_left _ (mem_down.2 ⟨y, hy, rfl⟩)))
    · exact h2 (i, p) (by rw [hZ]; simp)
    · intro y hy
      exact h2 (edgeOf st y, y) (by rw [hZ]; exact List.mem_append_left _ (List.mem_append_right _ (List.mem_cons_of_mem _ (mem_up.2 ⟨y, hy, rfl⟩))))

/-! ### Flows after the push -/

theorem aug_mem (hN : NetOK N M C) (I : Inv N st L path) (K : CycleOf N st L path i p q w Yp Yq) (δ : ℤ) {k s : ℕ} (h : (k, s) ∈ cycList st i p Yp Yq) :
    augFlow N δ (cycList st i p Yp Yq) st.flow k = st.flow k + sgn N k s * δ :=
  augFlow_mem δ _ _ k s (K.fst_nodup hN I) h

theorem aug_bounds (hN : NetOK N M C) (I : Inv N st L path) (K : CycleOf N st L path i p q w Yp Yq) {δ : ℤ} (hδ : 0 ≤ δ)
    (hmin : ∀ x ∈ cycList st i p Yp Yq, δ ≤ resCap N st x.1 x.2) {k : ℕ} (hk : k < N.e + N.n) :
    0 ≤ augFlow N δ (cycList st i p Yp Yq) st.flow k ∧ augFlow N δ (cycList st i p Yp Yq) st.flow k ≤ N.cap k := by
  have hf := I.flow k hk
  by_cases h : k ∈ (cycList st i p Yp Yq).map Prod.fst
  · obtain ⟨⟨k', s⟩, hx, rfl⟩ := List.mem_map.1 h
    have h1 := hmin _ hx
    rw [K.aug_mem hN I δ hx]
    unfold resCap at h1
    unfold sgn
    simp only at *
    split_ifs at * <;> omega
  · rwa [augFlow_not_mem _ _ _ _ h]

/-- The change of a sum over edges weighted with `g` is `δ` times the signed sum along the cycle. -/
theorem aug_sum (I : Inv N st L path) (K : CycleOf N st L path i p q w Yp Yq) (δ : ℤ) (g : ℕ → ℤ) (π : ℕ → ℤ)
    (hg : ∀ v < N.n, (N.tail (edgeOf st v) = v → g (edgeOf st v) = π v - π (parOf st v)) ∧ (N.tail (edgeOf st v) ≠ v → g (edgeOf st v) = π (parOf st v) - π v)) :
    ∑ k ∈ range (N.e + N.n), augFlow N δ (cycList st i p Yp Yq) st.flow k * g k =
      ∑ k ∈ range (N.e + N.n), st.flow k * g k + δ * (sgn N i p * g i - π p + π q) := by
  rw [augFlow_sum δ _ g _ _ (K.fst_lt I)]
  congr 2
  unfold cycList
  rw [cycle_sum I.rep K.bp K.bq (fun c : ℕ × ℕ => sgn N c.1 c.2 * g c.1) π]
  · intro c hc
    have hlt := K.bp.lt I hc
    obtain ⟨-, -, -, hj, -, -, hne⟩ := I.edgeOf_spec hlt
    obtain ⟨g1, g2⟩ := hg c hlt
    unfold sgn
    simp only
    rcases hj with ⟨a, b⟩ | ⟨a, b⟩
    · rw [if_neg (by omega), g1 a]; ring
    · rw [if_pos a, g2 (by omega)]; ring
  · intro c hc
    have hlt := K.bq.lt I hc
    obtain ⟨-, -, -, hj, -, -, hne⟩ := I.edgeOf_spec hlt
    obtain ⟨g1, g2⟩ := hg c hlt
    unfold sgn
    simp only
    rcases hj with ⟨a, b⟩ | ⟨a, b⟩
    · rw [if_pos a, g1 a]; ring
    · rw [if_neg (by omega), g2 (by omega)]; ring

theorem aug_cons (hN : NetOK N M C) (I : Inv N st L path) (K : CycleOf N st L path i p q w Yp Yq) (δ : ℤ) {v : ℕ} (hv : v < N.n) :
    ∑ k ∈ range (N.e + N.n), augFlow N δ (cycList st i p Yp Yq) st.flow k * incid N k v = -N.dem v := by
  rw [K.aug_sum I δ (fun k => incid N k v) (fun u => if u = v then 1 else 0), I.cons v hv]
  · obtain ⟨-, -, hpq, hj, -⟩ := K.ent.facts hN I
    have : sgn N i p * incid N i v - (if p = v then 1 else 0) + (if q = v then 1 else 0) = 0 := by
      unfold sgn incid
      rcases hj with ⟨a, b⟩ | ⟨a, b⟩
      · rw [if_pos a, a, b]; ring
      · rw [if_neg (by omega), a, b]; ring
    rw [this]
    ring
  · intro u hu
    obtain ⟨-, -, -, hj, -, -, hne⟩ := I.edgeOf_spec hu
    unfold incid
    constructor
    · intro ht
      rcases hj with ⟨a, b⟩ | ⟨a, b⟩
      · rw [a, b]
      · omega
    · intro ht
      rcases hj with ⟨a, b⟩ | ⟨a, b⟩
      · exact absurd a ht
      · rw [a, b]

/-- Cost of the flows. -/
theorem aug_cost (hN : NetOK N M C) (I : Inv N st L path) (K : CycleOf N st L path i p q w Yp Yq) (δ : ℤ) :
    ∑ k ∈ range (N.e + N.n), augFlow N δ (cycList st i p Yp Yq) st.flow k * N.cost k =
      ∑ k ∈ range (N.e + N.n), st.flow k * N.cost k + δ * redCost N st i := by
  rw [K.aug_sum I δ N.cost (piOf N st)]
  · rw [(K.ent.facts hN I).2.2.2.2.2.2.1]
  · intro u hu
    obtain ⟨h1, h2⟩ := pi_parent I hu
    constructor
    · intro h; have := h1 h; linarith
    · intro h; have := h2 h; linarith

/-- After the push the leaving edge is empty, or real and full. -/
theorem aug_leaving (hN : NetOK N M C) (I : Inv N st L path) (K : CycleOf N st L path i p q w Yp Yq) {j s : ℕ} (h : (j, s) ∈ cycList st i p Yp Yq)
    (hart : ¬j < N.e → N.tail j ≠ s) :
    augFlow N (resCap N st j s) (cycList st i p Yp Yq) st.flow j = 0 ∨ (j < N.e ∧ augFlow N (resCap N st j s) (cycList st i p Yp Yq) st.flow j = N.cap j) := by
  rw [K.aug_mem hN I _ h]
  unfold sgn resCap
  by_cases ht : N.tail j = s
  · right
    refine ⟨by_contra fun hh => hart hh ht, ?_⟩
    rw [if_pos ht, if_pos ht]
    ring
  · left
    rw [if_neg ht, if_neg ht]
    ring

theorem not_mem_cyc (hN : NetOK N M C) (I : Inv N st L path) (K : CycleOf N st L path i p q w Yp Yq) {v : ℕ} (hv : v < N.n) (h1 : v ∉ Yp) (h2 : v ∉ Yq) :
    edgeOf st v ∉ (cycList st i p Yp Yq).map Prod.fst := by
  intro h
  obtain ⟨x, hx, he⟩ := List.mem_map.1 h
  rcases mem_cycList.1 hx with ⟨c, hc, rfl⟩ | rfl | ⟨c, hc, rfl⟩
  · have := I.edgeOf_inj (K.bp.lt I hc) hv he
    subst this
    exact h1 hc
  · exact K.edge_ne hN I hv he.symm
  · have := I.edgeOf_inj (K.bq.lt I hc) hv he
    subst this
    exact h2 hc

/-- Strong feasibility at edges that keep their orientation. -/
theorem aug_sf (hN : NetOK N M C) (I : Inv N st L path) (K : CycleOf N st L path i p q w Yp Yq) {δ : ℤ} (hδ : 0 ≤ δ) {v : ℕ} (hv : v < N.n)
    (hp : v ∈ Yp → δ < resCap N st (edgeOf st v) (parOf st v)) :
    SFat N (augFlow N δ (cycList st i p Yp Yq) st.flow) (edgeOf st v) v (parOf st v) := by
  obtain ⟨he, hpar, -, hj, -, -, hne⟩ := I.edgeOf_spec hv
  have h0 : SFat N st.flow (edgeOf st v) v (parOf st v) := I.sf v hv _ _ he hpar
  by_cases h1 : v ∈ Yp
  · have hm : (edgeOf st v, parOf st v) ∈ cycList st i p Yp Yq := mem_cycList.2 (Or.inl ⟨v, h1, rfl⟩)
    have h2 := (res_after (δ := δ) hne hj.symm (K.aug_mem hN I δ hm)).1
    apply SFat_of_res hne
    rw [h2]
    have := hp h1
    unfold resF
    unfold resCap at this
    omega
  · by_cases h2 : v ∈ Yq
    · exact SFat_up hne hδ h0 (K.aug_mem hN I δ (mem_cycList.2 (Or.inr (Or.inr ⟨v, h2, rfl⟩))))
    · exact SFat_congr h0 (augFlow_not_mem _ _ _ _ (K.not_mem_cyc hN I hv h1 h2))

end CycleOf

end

end Amd
