import Verif.Proof.NetInv
import Mathlib.Algebra.Order.BigOperators.Group.List

/-!
# Flows and potentials of a state of the pivot loop
-/

set_option linter.unusedSectionVars false

namespace Amd

open Finset

/-- `i` is an entering edge, traversed from `p` to `q`. -/
structure Ent (N : Net) (st : NState) (i p q : ℕ) : Prop where
  lt : i < N.e
  neg : redCost N st i < 0
  dir : (st.flow i = 0 ∧ p = N.tail i ∧ q = N.head i) ∨ (st.flow i ≠ 0 ∧ p = N.head i ∧ q = N.tail i)

section
variable {N : Net} {M C : ℤ} {st : NState} {L : List ℕ} {path : ℕ → List ℕ}

theorem piOf_of_lt {v : ℕ} (hv : v < N.n) : piOf N st v = st.pot v := by
  unfold piOf
  rw [if_neg (by omega)]

theorem redCost_eq (hN : NetOK N M C) {i : ℕ} (hi : i < N.e) : redCost N st i = if st.flow i = 0 then rcOf N st i else -rcOf N st i := by
  have h := hN.real_lt hi
  rw [NetOK.hd_real hi] at h
  unfold redCost rcOf
  rw [NetOK.hd_real hi, slot_of_ne N (by omega), slot_of_ne N (by omega), piOf_of_lt h.1, piOf_of_lt h.2.1]

/-- Facts about an entering edge. -/
theorem Ent.facts (hN : NetOK N M C) (I : Inv N st L path) {i p q : ℕ} (E : Ent N st i p q) :
    p < N.n ∧ q < N.n ∧ p ≠ q ∧ Joins N i p q ∧ (∀ v < N.n, st.edge v ≠ some i) ∧ 0 < resCap N st i p ∧
      sgn N i p * N.cost i - piOf N st p + piOf N st q = redCost N st i ∧ (st.flow i = 0 → p < N.ns) := by
  have h := hN.real_lt E.lt
  rw [NetOK.hd_real E.lt] at h
  have hrc := redCost_eq (st := st) hN E.lt
  have hneg := E.neg
  have hne : rcOf N st i ≠ 0 := by
    intro h0
    rw [hrc, h0] at hneg
    simp at hneg
  have hout := I.not_tree_of_rc hne
  have hcap := hN.cap_real i E.lt
  rcases E.dir with ⟨h0, rfl, rfl⟩ | ⟨h0, rfl, rfl⟩
  · refine ⟨h.1, h.2.1, h.2.2, Or.inl ⟨rfl, NetOK.hd_real E.lt⟩, hout, ?_, ?_, ?_⟩
    · unfold resCap
      rw [if_pos rfl, h0]
      omega
    · rw [hrc, if_pos h0]
      unfold sgn rcOf
      rw [if_pos rfl, NetOK.hd_real E.lt]
      ring
    · intro _
      exact hN.tail_real i E.lt
  · have hf : st.flow i = N.cap i := by
      rcases I.out i (by have := E.lt; omega) hout with h1 | h1
      · exact absurd h1 h0
      · exact h1.2
    refine ⟨h.2.1, h.1, h.2.2.symm, Or.inr ⟨rfl, NetOK.hd_real E.lt⟩, hout, ?_, ?_, ?_⟩
    · unfold resCap
      rw [if_neg h.2.2, hf]
      exact hcap
    · rw [hrc, if_neg h0]
      unfold sgn rcOf
      rw [if_neg h.2.2, NetOK.hd_real E.lt]
      ring
    · intro h1
      exact absurd h1 h0

/-! ### Sums -/

/-- Total flow from sources to sinks. -/
def realFlow (N : Net) (st : NState) : ℤ := ∑ k ∈ range N.e, st.flow k

theorem sum_split (N : Net) (g : ℕ → ℤ) : ∑ k ∈ range (N.e + N.n), g k = ∑ k ∈ range N.e, g k + ∑ v ∈ range N.n, g (N.e + v) :=
  sum_range_add _ _ _

theorem incid_art (hN : NetOK N M C) {c v : ℕ} (hc : c < N.n) (hv : v < N.n) :
    incid N (N.e + c) v = if c = v then (if 0 < N.dem c then -1 else 1) else 0 := by
  unfold incid
  rw [hN.tail_art c hc, NetOK.hd_art]
  have h1 : N.n ≠ v := by omega
  by_cases hcv : c = v
  · subst hcv
    by_cases hd : 0 < N.dem c
    · simp [hd, h1]
    · simp [hd, h1]
  · by_cases hd : 0 < N.dem c
    · simp [hd, hcv, h1]
    · simp [hd, hcv, h1]

/-- Conservation at one node: the flow to or from the root and the flow along real edges. -/
theorem cons_at (hN : NetOK N M C) (I : Inv N st L path) {v : ℕ} (hv : v < N.n) :
    ∑ k ∈ range N.e, st.flow k * incid N k v + st.flow (N.e + v) * (if 0 < N.dem v then -1 else 1) = -N.dem v := by
  have h := I.cons v hv
  rw [sum_split] at h
  rw [← h]
  congr 1
  symm
  have e1 : ∀ c ∈ range N.n, st.flow (N.e + c) * incid N (N.e + c) v = if c = v then st.flow (N.e + v) * (if 0 < N.dem v then -1 else 1) else 0 := by
    intro c hc
    rw [incid_art hN (mem_range.1 hc) hv]
    by_cases hcv : c = v
    · subst hcv; simp
    · simp [hcv]
  rw [sum_congr rfl e1, sum_ite_eq' (range N.n) v, if_pos (mem_range.2 hv)]

theorem dem_ne (hN : NetOK N M C) {v : ℕ} (hv : v < N.n) : (v < N.ns ∧ N.dem v < 0) ∨ (N.ns ≤ v ∧ 0 < N.dem v) := by
  by_cases h : v < N.ns
  · exact Or.inl ⟨h, hN.src v h⟩
  · exact Or.inr ⟨by omega, hN.snk v hv (by omega)⟩

theorem realFlow_nonneg (I : Inv N st L path) : 0 ≤ realFlow N st :=
  sum_nonneg fun k hk => (I.flow k (by have := mem_range.1 hk; omega)).1

/-- Without real flow the tree is the initial star. -/
theorem star_of_zero (hN : NetOK N M C) (I : Inv N st L path) (h : realFlow N st = 0) : ∀ v < N.n, parOf st v = N.n := by
  intro v hv
  have h0 : ∀ k ∈ range N.e, st.flow k = 0 :=
    (sum_eq_zero_iff_of_nonneg fun k hk => (I.flow k (by have := mem_range.1 hk; omega)).1).1 h
  have h1 := cons_at hN I hv
  rw [sum_eq_zero (fun k hk => by rw [h0 k hk, zero_mul]), zero_add] at h1
  have h2 : st.flow (N.e + v) ≠ 0 := by
    intro hz
    rw [hz, zero_mul] at h1
    rcases dem_ne hN hv with h | h <;> omega
  -- so the edge between `v` and the root is in the tree
  by_contra hp
  have h3 : ∀ u < N.n, st.edge u ≠ some (N.e + v) := by
    intro u hu hue
    have e1 : edgeOf st u = N.e + v := by simp [edgeOf, hue]
    obtain ⟨-, -, -, j, -, -, -⟩ := I.edgeOf_spec hu
    have hun : parOf st u = N.n := by
      have := I.art_iff hN hu
      rw [e1] at this
      by_contra hh
      have := this.2 hh
      omega
    have := I.art_edge hN hu hun
    rw [e1] at this
    have : v = u := by omega
    subst this
    exact hp hun
  rcases I.out (N.e + v) (by omega) h3 with h | h
  · exact h2 h
  · omega

theorem filter_sink_sum (hN : NetOK N M C) (I : Inv N st L path) :
    ∑ v ∈ (range N.n).filter (fun v => N.ns ≤ v), st.flow (N.e + v) + realFlow N st = ∑ v ∈ (range N.n).filter (fun v => N.ns ≤ v), N.dem v := by
  have e1 : ∀ v ∈ (range N.n).filter (fun v => N.ns ≤ v), N.dem v = st.flow (N.e + v) - ∑ k ∈ range N.e, st.flow k * incid N k v := by
    intro v hv
    simp only [mem_filter, mem_range] at hv
    have := cons_at hN I hv.1
    rw [if_pos (hN.snk v hv.1 hv.2)] at this
    linarith
  rw [sum_congr rfl e1, sum_sub_distrib, sum_comm]
  have e2 : ∀ k ∈ range N.e, ∑ v ∈ (range N.n).filter (fun v => N.ns ≤ v), st.flow k * incid N k v = -st.flow k := by
    intro k hk
    rw [mem_range] at hk
    have h1 := hN.tail_real k hk
    have h2 := hN.head_real k hk
    have e3 : ∀ v ∈ (range N.n).filter (fun v => N.ns ≤ v), st.flow k * incid N k v = if v = N.head k then -st.flow k else 0 := by
      intro v hv
      simp only [mem_filter, mem_range] at hv
      unfold incid
      rw [NetOK.hd_real hk, if_neg (by omega)]
      by_cases h : v = N.head k
      · simp [h]
      · simp [h, Ne.symm h]
    rw [sum_congr rfl e3, sum_ite_eq' _ (N.head k), if_pos (by simp [h2])]
  rw [sum_congr rfl e2, sum_neg_distrib]
  unfold realFlow
  ring

theorem filter_source_sum (hN : NetOK N M C) (I : Inv N st L path) :
    ∑ v ∈ (range N.n).filter (fun v => ¬N.ns ≤ v), st.flow (N.e + v) + realFlow N st = -∑ v ∈ (range N.n).filter (fun v => ¬N.ns ≤ v), N.dem v := by
  have e1 : ∀ v ∈ (range N.n).filter (fun v => ¬N.ns ≤ v), N.dem v = -st.flow (N.e + v) - ∑ k ∈ range N.e, st.flow k * incid N k v := by
    intro v hv
    simp only [mem_filter, mem_range] at hv
    have := cons_at hN I hv.1
    have h3 := hN.src v (by omega)
    rw [if_neg (by omega)] at this
    linarith
  rw [sum_congr rfl e1, sum_sub_distrib, sum_comm, sum_neg_distrib]
  have e2 : ∀ k ∈ range N.e, ∑ v ∈ (range N.n).filter (fun v => ¬N.ns ≤ v), st.flow k * incid N k v = st.flow k := by
    intro k hk
    rw [mem_range] at hk
    have h1 := hN.tail_real k hk
    have h2 := hN.head_real k hk
    have h4 := (hN.real_lt hk).1
    have e3 : ∀ v ∈ (range N.n).filter (fun v => ¬N.ns ≤ v), st.flow k * incid N k v = if v = N.tail k then st.flow k else 0 := by
      intro v hv
      simp only [mem_filter, mem_range] at hv
      unfold incid
      rw [NetOK.hd_real hk, if_neg (c := N.head k = v) (by omega)]
      by_cases h : v = N.tail k
      · simp [h]
      · simp [h, Ne.symm h]
    rw [sum_congr rfl e3, sum_ite_eq' _ (N.tail k), if_pos (by simp; omega)]
  rw [sum_congr rfl e2]
  unfold realFlow
  ring

theorem sum_pair_le {s : Finset ℕ} {g : ℕ → ℤ} (hg : ∀ x ∈ s, 0 ≤ g x) {a b : ℕ} (ha : a ∈ s) (hb : b ∈ s) (hab : a ≠ b) :
    g a + g b ≤ ∑ x ∈ s, g x := by
  rw [← sum_pair hab]
  exact sum_le_sum_of_subset_of_nonneg (by
    intro x hx
    simp only [mem_insert, mem_singleton] at hx
    rcases hx with rfl | rfl <;> assumption) fun x hx _ => hg x hx

theorem art_nonneg (I : Inv N st L path) {v : ℕ} (hv : v < N.n) : 0 ≤ st.flow (N.e + v) := (I.flow _ (by omega)).1

theorem sink_art_lt (hN : NetOK N M C) (I : Inv N st L path) (hF : 0 < realFlow N st) {c : ℕ} (hc : c < N.n) (h : N.ns ≤ c) :
    st.flow (N.e + c) < C := by
  have h1 := filter_sink_sum hN I
  have h2 := hN.sink_sum
  have h3 : st.flow (N.e + c) ≤ ∑ v ∈ (range N.n).filter (fun v => N.ns ≤ v), st.flow (N.e + v) :=
    single_le_sum (f := fun v => st.flow (N.e + v)) (fun v hv => art_nonneg I (by simp at hv; exact hv.1)) (by simp [hc, h])
  omega

theorem sink_pair_lt (hN : NetOK N M C) (I : Inv N st L path) (hF : 0 < realFlow N st) {c c' : ℕ} (hc : c < N.n) (h : N.ns ≤ c)
    (hc' : c' < N.n) (h' : N.ns ≤ c') (hne : c ≠ c') : st.flow (N.e + c) + st.flow (N.e + c') < C := by
  have h1 := filter_sink_sum hN I
  have h2 := hN.sink_sum
  have h3 := sum_pair_le (s := (range N.n).filter (fun v => N.ns ≤ v)) (g := fun v => st.flow (N.e + v))
    (fun v hv => art_nonneg I (by simp at hv; exact hv.1)) (a := c) (b := c') (by simp [hc, h]) (by simp [hc', h']) hne
  omega

theorem source_pair_le (hN : NetOK N M C) (I : Inv N st L path) {c c' : ℕ} (hc : c < N.n) (h : c < N.ns)
    (hc' : c' < N.n) (h' : c' < N.ns) (hne : c ≠ c') : st.flow (N.e + c) + st.flow (N.e + c') ≤ C := by
  have h1 := filter_source_sum hN I
  have h2 := hN.sink_sum
  have h4 := sum_filter_add_sum_filter_not (range N.n) (fun v => N.ns ≤ v) N.dem
  rw [hN.dem_sum] at h4
  have h5 := realFlow_nonneg I
  have h3 := sum_pair_le (s := (range N.n).filter (fun v => ¬N.ns ≤ v)) (g := fun v => st.flow (N.e + v))
    (fun v hv => art_nonneg I (by simp at hv; exact hv.1)) (a := c) (b := c') (by simp [hc, h]) (by simp [hc', h']) hne
  omega

/-! ### Bounds for potentials -/

/-- Sum of the costs of the real edges. -/
def costSum (N : Net) : ℤ := ∑ k ∈ range N.e, N.cost k

theorem costSum_nonneg (hN : NetOK N M C) : 0 ≤ costSum N := sum_nonneg fun k hk => hN.cost_nonneg k (mem_range.1 hk)

theorem cost_le_sum (hN : NetOK N M C) {k : ℕ} (hk : k < N.e) : N.cost k ≤ costSum N :=
  single_le_sum (f := N.cost) (fun k hk => hN.cost_nonneg k (mem_range.1 hk)) (mem_range.2 hk)

theorem list_cost_le (hN : NetOK N M C) {l : List ℕ} (hl : l.Nodup) (hr : ∀ k ∈ l, k < N.e) : (l.map N.cost).sum ≤ costSum N := by
  rw [← List.sum_toFinset _ hl]
  apply sum_le_sum_of_subset_of_nonneg
  · intro k hk
    simp at hk
    simpa using hr k hk
  · intro k hk _
    exact hN.cost_nonneg k (mem_range.1 hk)

/-- The potential differs from that of the parent by the cost of the edge. -/
theorem pi_parent (I : Inv N st L path) {v : ℕ} (hv : v < N.n) :
    (N.tail (edgeOf st v) = v → piOf N st v = piOf N st (parOf st v) + N.cost (edgeOf st v)) ∧
      (N.tail (edgeOf st v) ≠ v → piOf N st v = piOf N st (parOf st v) - N.cost (edgeOf st v)) := by
  obtain ⟨-, -, -, j, rc, -, hne⟩ := I.edgeOf_spec hv
  unfold rcOf at rc
  constructor
  · intro ht
    rcases j with ⟨a, b⟩ | ⟨a, b⟩
    · rw [a, b] at rc; linarith
    · omega
  · intro ht
    rcases j with ⟨a, b⟩ | ⟨a, b⟩
    · exact absurd a ht
    · rw [a, b] at rc; linarith

/-- Along a branch that does not reach the root the potential changes by at most the sum of all costs. -/
theorem pi_branch (hN : NetOK N M C) (I : Inv N st L path) {w : ℕ} (hw : w < N.n) : ∀ (Y : List ℕ) (p : ℕ), Branch path L p w Y →
    |piOf N st p - piOf N st w| ≤ ((Y.map (edgeOf st)).map N.cost).sum ∧ ∀ k ∈ Y.map (edgeOf st), k < N.e := by
  intro Y
  induction Y with
  | nil =>
    intro p b
    rw [b.nil I.rep]
    simp
  | cons y Y ih =>
    intro p b
    obtain ⟨rfl, hpn, u, hu, hpu, b'⟩ := b.cons I.rep
    obtain ⟨ih1, ih2⟩ := ih u b'
    have hy := I.lt_of_mem b.mem hpn
    have e3 : parOf st y = u := by simp [parOf, hpu]
    have hun : u ≠ N.n := by
      rintro rfl
      have := I.rep.path_root_of b'.anc
      omega
    have hr : edgeOf st y < N.e := by rw [I.art_iff hN hy, e3]; exact hun
    have hc := hN.cost_nonneg _ hr
    obtain ⟨h1, h2⟩ := pi_parent I hy
    rw [e3] at h1 h2
    simp only [List.map_cons, List.sum_cons, List.mem_cons, forall_eq_or_imp]
    refine ⟨?_, hr, ih2⟩
    rw [abs_le] at ih1 ⊢
    by_cases ht : N.tail (edgeOf st y) = y
    · have := h1 ht
      constructor <;> linarith
    · have := h2 ht
      constructor <;> linarith

theorem branch_nodup (I : Inv N st L path) {p w : ℕ} {Y : List ℕ} (b : Branch path L p w Y) : (Y.map (edgeOf st)).Nodup := by
  have h1 := I.rep.path_nodup p b.mem
  rw [b.eq, List.nodup_append] at h1
  refine (List.nodup_map_iff_inj_on h1.1).2 ?_
  intro x hx y hy h
  have hx' := b.sub I.rep x hx
  have hy' := b.sub I.rep y hy
  exact I.edgeOf_inj (I.lt_of_mem hx'.1 hx'.2.1) (I.lt_of_mem hy'.1 hy'.2.1) h

/-- The potential of a node and that of its ancestor below the root. -/
theorem pi_near (hN : NetOK N M C) (I : Inv N st L path) {v c : ℕ} (hv : v < N.n) (hc : c < N.n) (h : c ∈ path v) :
    |piOf N st v - piOf N st c| ≤ costSum N := by
  obtain ⟨Y, hY⟩ := I.rep.path_suffix v (I.mem_of_lt hv) c h
  have b : Branch path L v c Y := ⟨I.mem_of_lt hv, h, hY.symm⟩
  obtain ⟨h1, h2⟩ := pi_branch hN I hc Y v b
  exact h1.trans (list_cost_le hN (branch_nodup I b) h2)

theorem pi_top (hN : NetOK N M C) (I : Inv N st L path) {c : ℕ} (hc : c < N.n) (hp : parOf st c = N.n) :
    piOf N st c = if 0 < N.dem c then -M else M := by
  have h1 := I.art_edge hN hc hp
  obtain ⟨h2, h3⟩ := pi_parent I hc
  have h0 : piOf N st N.n = 0 := by simp [piOf]
  rw [h1, hp, h0, hN.cost_art c hc] at h2 h3
  have ht := hN.tail_art c hc
  by_cases hd : 0 < N.dem c
  · rw [if_pos hd] at ht ⊢
    have := h3 (by omega)
    linarith
  · rw [if_neg hd] at ht ⊢
    have := h2 ht
    linarith

/-- Every node is below a neighbour of the root. -/
theorem exists_top (I : Inv N st L path) : ∀ v ∈ L, v ≠ N.n → ∃ c < N.n, parOf st c = N.n ∧ c ∈ path v := by
  refine I.rep.induct (P := fun v => v ≠ N.n → ∃ c < N.n, parOf st c = N.n ∧ c ∈ path v) (fun h => absurd rfl h) ?_
  intro v hv hvn u hu hpu hp ih _
  have hlt := I.lt_of_mem hv hvn
  by_cases hun : u = N.n
  · exact ⟨v, hlt, by simp [parOf, hpu, hun], I.rep.self_mem hv⟩
  · obtain ⟨c, h1, h2, h3⟩ := ih hun
    exact ⟨c, h1, h2, by rw [hp]; simp [h3]⟩

theorem pi_bound (hN : NetOK N M C) (I : Inv N st L path) {v : ℕ} (hv : v < N.n) : |piOf N st v| ≤ M + costSum N := by
  obtain ⟨c, h1, h2, h3⟩ := exists_top I v (I.mem_of_lt hv) (by omega)
  have h4 := pi_near hN I hv h1 h3
  have h5 := pi_top hN I h1 h2
  have hM := hN.M_pos
  rw [abs_le] at h4 ⊢
  split_ifs at h5 <;> constructor <;> linarith

end

end Amd
