import Verif.Proof.TreeOps
import Mathlib.Algebra.BigOperators.Group.Finset.Basic
import Mathlib.Algebra.BigOperators.Ring.Finset
import Mathlib.Algebra.Order.BigOperators.Group.Finset
import Mathlib.Tactic.Ring

/-!
# The invariant of the pivot loop
-/

set_option linter.unusedSectionVars false

namespace Amd

open Finset

/-- The end of an edge. For edges to and from the root the array `heads` of the code holds the tail; this is the real end. -/
def Net.hd (N : Net) (k : ℕ) : ℕ := if k < N.e then N.head k else if 0 < N.dem (k - N.e) then k - N.e else N.n

/-- What `network_simplex` sets up when the weights are positive: `M` is the cost and `C` the capacity of the edges at the root. -/
structure NetOK (N : Net) (M C : ℤ) : Prop where
  ns_pos : 0 < N.ns
  nt_pos : 0 < N.nt
  tail_real : ∀ k < N.e, N.tail k < N.ns
  head_real : ∀ k < N.e, N.ns ≤ N.head k ∧ N.head k < N.n
  tail_art : ∀ v < N.n, N.tail (N.e + v) = if 0 < N.dem v then N.n else v
  src : ∀ v < N.ns, N.dem v < 0
  snk : ∀ v < N.n, N.ns ≤ v → 0 < N.dem v
  cost_nonneg : ∀ k < N.e, 0 ≤ N.cost k
  cost_art : ∀ v < N.n, N.cost (N.e + v) = M
  cost_le : 3 * ∑ k ∈ range N.e, N.cost k ≤ M
  M_pos : 0 < M
  cap_real : ∀ k < N.e, 0 < N.cap k
  cap_art : ∀ v < N.n, N.cap (N.e + v) = C
  dem_sum : ∑ v ∈ range N.n, N.dem v = 0
  sink_sum : ∑ v ∈ (range N.n).filter (fun v => N.ns ≤ v), N.dem v ≤ C

/-- Potential of a node, 0 at the root. -/
def piOf (N : Net) (st : NState) (v : ℕ) : ℤ := if v = N.n then 0 else st.pot v

/-- Reduced cost without the sign given by the flow. -/
def rcOf (N : Net) (st : NState) (k : ℕ) : ℤ := N.cost k - piOf N st (N.tail k) + piOf N st (N.hd k)

/-- `1` at the tail and `-1` at the end of an edge. -/
def incid (N : Net) (k v : ℕ) : ℤ := (if N.tail k = v then 1 else 0) - (if N.hd k = v then 1 else 0)

/-- `k` joins `v` and `u`. -/
def Joins (N : Net) (k v u : ℕ) : Prop := (N.tail k = v ∧ N.hd k = u) ∨ (N.tail k = u ∧ N.hd k = v)

theorem Joins.symm {N : Net} {k v u : ℕ} (h : Joins N k v u) : Joins N k u v := Or.symm h

structure Inv (N : Net) (st : NState) (L : List ℕ) (path : ℕ → List ℕ) : Prop where
  rep : Rep st N.n L path
  nodes : ∀ v, v ∈ L ↔ v ≤ N.n
  edge : ∀ v < N.n, ∃ k u, st.edge v = some k ∧ st.parent v = some u ∧ k < N.e + N.n ∧ Joins N k v u ∧ rcOf N st k = 0
  flow : ∀ k < N.e + N.n, 0 ≤ st.flow k ∧ st.flow k ≤ N.cap k
  cons : ∀ v < N.n, ∑ k ∈ range (N.e + N.n), st.flow k * incid N k v = -N.dem v
  out : ∀ k < N.e + N.n, (∀ v < N.n, st.edge v ≠ some k) → st.flow k = 0 ∨ (k < N.e ∧ st.flow k = N.cap k)
  sf : ∀ v < N.n, ∀ k u, st.edge v = some k → st.parent v = some u → (N.tail k = v → 0 < st.flow k) ∧ (k < N.e → N.tail k = u → st.flow k < N.cap k)

/-! ### Edges -/

namespace NetOK
variable {N : Net} {M C : ℤ}

theorem hd_real (hk : k < N.e) : N.hd k = N.head k := by simp [Net.hd, hk]

theorem hd_art (N : Net) (v : ℕ) : N.hd (N.e + v) = if 0 < N.dem v then v else N.n := by simp [Net.hd]

theorem art_form (N : Net) {k : ℕ} (hk : k < N.e + N.n) (h : ¬k < N.e) : ∃ v < N.n, k = N.e + v := ⟨k - N.e, by omega, by omega⟩

theorem real_lt (h : NetOK N M C) {k : ℕ} (hk : k < N.e) : N.tail k < N.n ∧ N.hd k < N.n ∧ N.tail k ≠ N.hd k := by
  have h1 := h.tail_real k hk
  have h2 := h.head_real k hk
  rw [hd_real hk]
  unfold Net.n at *
  omega

theorem n_pos (h : NetOK N M C) : 0 < N.n := by
  have := h.ns_pos
  unfold Net.n
  omega

theorem tail_ne_hd (h : NetOK N M C) {k : ℕ} (hk : k < N.e + N.n) : N.tail k ≠ N.hd k := by
  by_cases hr : k < N.e
  · exact (h.real_lt hr).2.2
  · obtain ⟨v, hv, rfl⟩ := art_form N hk hr
    rw [h.tail_art v hv, hd_art]
    split_ifs <;> omega

theorem real_iff (h : NetOK N M C) {k : ℕ} (hk : k < N.e + N.n) : k < N.e ↔ (N.tail k ≠ N.n ∧ N.hd k ≠ N.n) := by
  constructor
  · intro hr
    have := h.real_lt hr
    omega
  · intro hh
    by_contra hr
    obtain ⟨v, hv, rfl⟩ := art_form N hk hr
    rw [h.tail_art v hv, hd_art] at hh
    split_ifs at hh <;> omega

end NetOK

section
variable {N : Net} {M C : ℤ} {st : NState} {L : List ℕ} {path : ℕ → List ℕ}

namespace Inv

theorem mem_of_lt (I : Inv N st L path) {v : ℕ} (hv : v < N.n) : v ∈ L := (I.nodes v).2 hv.le

theorem length_le (I : Inv N st L path) : L.length ≤ N.n + 1 := by
  have : L.Subperm (List.range (N.n + 1)) := I.rep.nodup.subperm fun x hx => by
    rw [I.nodes] at hx
    simp
    omega
  simpa using this.length_le

theorem fuel_ok (I : Inv N st L path) : L.length ≤ innerFuel N := I.length_le.trans (by unfold innerFuel; omega)

theorem lt_of_mem (I : Inv N st L path) {v : ℕ} (hv : v ∈ L) (hn : v ≠ N.n) : v < N.n := by
  rw [I.nodes] at hv
  omega

theorem parent_path (I : Inv N st L path) {v u : ℕ} (hv : v < N.n) (hu : st.parent v = some u) : u ≤ N.n ∧ path v = v :: path u := by
  obtain ⟨u', h1, h2, h3⟩ := I.rep.step v (I.mem_of_lt hv) (by omega)
  rw [hu] at h2
  obtain rfl := Option.some.inj h2
  exact ⟨(I.nodes _).1 h1, h3⟩

theorem parent_ne (I : Inv N st L path) {v u : ℕ} (hv : v < N.n) (hu : st.parent v = some u) : u ≠ v := by
  rintro rfl
  have := (I.parent_path hv hu).2
  have := congrArg List.length this
  simp at this

/-- Everything about the edge above a node. -/
theorem edgeOf_spec (I : Inv N st L path) {v : ℕ} (hv : v < N.n) : st.edge v = some (edgeOf st v) ∧ st.parent v = some (parOf st v) ∧
    edgeOf st v < N.e + N.n ∧ Joins N (edgeOf st v) v (parOf st v) ∧ rcOf N st (edgeOf st v) = 0 ∧ parOf st v ≤ N.n ∧ parOf st v ≠ v := by
  obtain ⟨k, u, h1, h2, h3, h4, h5⟩ := I.edge v hv
  have e1 : edgeOf st v = k := by simp [edgeOf, h1]
  have e2 : parOf st v = u := by simp [parOf, h2]
  rw [e1, e2]
  exact ⟨h1, h2, h3, h4, h5, (I.parent_path hv h2).1, I.parent_ne hv h2⟩

theorem edgeOf_inj (I : Inv N st L path) {v v' : ℕ} (hv : v < N.n) (hv' : v' < N.n) (h : edgeOf st v = edgeOf st v') : v = v' := by
  obtain ⟨-, p1, -, j1, -, -, n1⟩ := I.edgeOf_spec hv
  obtain ⟨-, p2, -, j2, -, -, n2⟩ := I.edgeOf_spec hv'
  rw [h] at j1
  by_contra hne
  have hcross : parOf st v = v' ∧ parOf st v' = v := by
    rcases j1 with ⟨a, b⟩ | ⟨a, b⟩ <;> rcases j2 with ⟨c, d⟩ | ⟨c, d⟩ <;> (constructor <;> omega)
  have h1 := (I.parent_path hv p1).2
  have h2 := (I.parent_path hv' p2).2
  rw [hcross.1] at h1
  rw [hcross.2] at h2
  have := congrArg List.length h1
  have := congrArg List.length h2
  simp at *
  omega

/-- An edge whose reduced cost is not 0 is not in the tree. -/
theorem not_tree_of_rc (I : Inv N st L path) {k : ℕ} (h : rcOf N st k ≠ 0) : ∀ v < N.n, st.edge v ≠ some k := by
  intro v hv hk
  obtain ⟨k', u, h1, -, -, -, h5⟩ := I.edge v hv
  rw [hk] at h1
  obtain rfl := Option.some.inj h1
  exact h h5

/-- The edges at the root are those to artificial edges. -/
theorem art_iff (I : Inv N st L path) (hN : NetOK N M C) {v : ℕ} (hv : v < N.n) : edgeOf st v < N.e ↔ parOf st v ≠ N.n := by
  obtain ⟨-, -, h3, h4, -, h6, h7⟩ := I.edgeOf_spec hv
  rw [hN.real_iff h3]
  rcases h4 with ⟨a, b⟩ | ⟨a, b⟩ <;> omega

theorem art_edge (I : Inv N st L path) (hN : NetOK N M C) {v : ℕ} (hv : v < N.n) (hp : parOf st v = N.n) : edgeOf st v = N.e + v := by
  have h0 : ¬edgeOf st v < N.e := by rw [I.art_iff hN hv]; simpa using hp
  obtain ⟨-, -, h3, h4, -, h6, h7⟩ := I.edgeOf_spec hv
  obtain ⟨c, hc, hk⟩ := NetOK.art_form N h3 h0
  rw [hk] at h4 ⊢
  have t1 := hN.tail_art c hc
  have t2 := NetOK.hd_art N c
  rw [hp] at h4
  rcases h4 with ⟨a, b⟩ | ⟨a, b⟩ <;> split_ifs at t1 t2 <;> omega

end Inv

/-! ### The cycle -/

/-- Pairs of edge and starting node when going down to `p`. -/
def downPairs (st : NState) (Y : List ℕ) : List (ℕ × ℕ) := Y.reverse.map fun c => (edgeOf st c, parOf st c)

/-- Pairs of edge and starting node when going up from `q`. -/
def upPairs (st : NState) (Y : List ℕ) : List (ℕ × ℕ) := Y.map fun c => (edgeOf st c, c)

/-- The part `Y` of the path of `p` below its ancestor `w`. -/
structure Branch (path : ℕ → List ℕ) (L : List ℕ) (p w : ℕ) (Y : List ℕ) : Prop where
  mem : p ∈ L
  anc : w ∈ path p
  eq : path p = Y ++ path w

theorem Branch.cons (h : Rep st N.n L path) {p w y : ℕ} {Y : List ℕ} (b : Branch path L p w (y :: Y)) :
    y = p ∧ p ≠ N.n ∧ ∃ u ∈ L, st.parent p = some u ∧ Branch path L u w Y := by
  have hpw : p ≠ w := by
    rintro rfl
    have := congrArg List.length b.eq
    simp at this
    omega
  have hpn : p ≠ N.n := by
    rintro rfl
    exact hpw (h.path_root_of b.anc).symm
  obtain ⟨u, hu, hpu, hpp⟩ := h.step p b.mem hpn
  have hY := b.eq
  rw [hpp] at hY
  simp only [List.cons_append, List.cons.injEq] at hY
  have hwu : w ∈ path u := by
    have := b.anc
    rw [hpp] at this
    rcases List.mem_cons.1 this with hw | hw
    · exact absurd hw.symm hpw
    · exact hw
  exact ⟨hY.1.symm, hpn, u, hu, hpu, hu, hwu, hY.2⟩

theorem Branch.nil (h : Rep st N.n L path) {p w : ℕ} (b : Branch path L p w []) : p = w := by
  have hwL := h.path_sub p b.mem w b.anc
  have h1 := h.self_mem b.mem
  rw [b.eq, List.nil_append] at h1
  exact h.antisymm b.mem hwL h1 b.anc

theorem Branch.sub (h : Rep st N.n L path) {p w : ℕ} {Y : List ℕ} (b : Branch path L p w Y) : ∀ c ∈ Y, c ∈ L ∧ c ≠ N.n ∧ w ∈ path c ∧ c ≠ w := by
  induction Y generalizing p with
  | nil => simp
  | cons y Y ih =>
    intro c hc
    obtain ⟨rfl, hpn, u, hu, hpu, b'⟩ := b.cons h
    rcases List.mem_cons.1 hc with rfl | hc
    · refine ⟨b.mem, hpn, b.anc, ?_⟩
      rintro rfl
      have := congrArg List.length b.eq
      simp at this
      omega
    · exact ih b' c hc

theorem zip_down (h : Rep st N.n L path) {w : ℕ} : ∀ (Y : List ℕ) (p j : ℕ), Branch path L p w Y →
    ((Y.map (edgeOf st)).reverse ++ [j]).zip (Y ++ [w]).reverse = downPairs st Y ++ [(j, p)] := by
  intro Y
  induction Y with
  | nil =>
    intro p j b
    rw [b.nil h]
    simp [downPairs]
  | cons y Y ih =>
    intro p j b
    obtain ⟨rfl, hpn, u, hu, hpu, b'⟩ := b.cons h
    have e1 : (((y :: Y).map (edgeOf st)).reverse ++ [j]) = ((Y.map (edgeOf st)).reverse ++ [edgeOf st y]) ++ [j] := by simp
    have e2 : (y :: Y ++ [w]).reverse = (Y ++ [w]).reverse ++ [y] := by simp
    rw [e1, e2, List.zip_append (by simp), ih u (edgeOf st y) b']
    have e3 : parOf st y = u := by simp [parOf, hpu]
    simp [downPairs, e3]

theorem zip_up (Y : List ℕ) : (Y.map (edgeOf st)).zip Y = upPairs st Y := by
  induction Y with
  | nil => rfl
  | cons y Y ih => simp [upPairs] at *; exact ih

/-- What `_find_cycle` returns for an edge `i` outside the tree. -/
theorem findCycle_eq (I : Inv N st L path) {i p q : ℕ} (hp : p ≤ N.n) (hq : q ≤ N.n) (hi : ∀ v < N.n, st.edge v ≠ some i) :
    ∃ c w Yp Yq, findCycle N st i p q = .ok c ∧ Branch path L p w Yp ∧ Branch path L q w Yq ∧ (∀ x ∈ Yp, x ∉ path q) ∧ (∀ x ∈ Yq, x ∉ path p) ∧
      c.2 = (Yp.map (edgeOf st)).reverse ++ i :: Yq.map (edgeOf st) ∧ c.2.zip c.1 = downPairs st Yp ++ (i, p) :: upPairs st Yq := by
  have hR := I.rep
  have hpL := (I.nodes p).2 hp
  have hqL := (I.nodes q).2 hq
  have hl := I.length_le
  obtain ⟨w, hw, hw1, hw2, hw3⟩ := findApex_eq hR (innerFuel N) p q hpL hqL (by
    have h1 := hR.path_length_le hpL
    have h2 := hR.path_length_le hqL
    unfold innerFuel
    omega)
  obtain ⟨Yp, hYp⟩ := hR.path_suffix p hpL w hw1
  obtain ⟨Yq, hYq⟩ := hR.path_suffix q hqL w hw2
  have bp : Branch path L p w Yp := ⟨hpL, hw1, hYp.symm⟩
  have bq : Branch path L q w Yq := ⟨hqL, hw2, hYq.symm⟩
  have he : ∀ v ∈ L, v ≠ N.n → ∃ k, st.edge v = some k := by
    intro v hv hn
    obtain ⟨k, u, h1, -⟩ := I.edge v (I.lt_of_mem hv hn)
    exact ⟨k, h1⟩
  have t1 := tracePath_eq hR he Yp (innerFuel N) p hpL hw1 hYp.symm (by
    have h1 := hR.path_length_le hpL
    rw [← hYp] at h1
    simp at h1
    unfold innerFuel
    omega)
  have t2 := tracePath_eq hR he Yq (innerFuel N) q hqL hw2 hYq.symm (by
    have h1 := hR.path_length_le hqL
    rw [← hYq] at h1
    simp at h1
    unfold innerFuel
    omega)
  have hlast : (Yp.map (edgeOf st)).getLast? ≠ some i := by
    intro hh
    have := mem_of_getLast? hh
    obtain ⟨c, hc, hce⟩ := List.mem_map.1 this
    obtain ⟨hcL, hcn, -, -⟩ := bp.sub hR c hc
    have hclt := I.lt_of_mem hcL hcn
    exact hi c hclt (by rw [(I.edgeOf_spec hclt).1, hce])
  have disj : ∀ x ∈ Yp, x ∉ path q := by
    intro x hx hxq
    have h1 := hw3 x (by rw [← hYp]; simp [hx]) hxq
    have := hR.path_nodup p hpL
    rw [← hYp, List.nodup_append] at this
    exact this.2.2 x hx x h1 rfl
  have disj' : ∀ x ∈ Yq, x ∉ path p := by
    intro x hx hxp
    have h1 := hw3 x hxp (by rw [← hYq]; simp [hx])
    have := hR.path_nodup q hqL
    rw [← hYq, List.nodup_append] at this
    exact this.2.2 x hx x h1 rfl
  refine ⟨((Yp ++ [w]).reverse ++ (Yq ++ [w]).dropLast, (Yp.map (edgeOf st)).reverse ++ (if (Yp.map (edgeOf st)).getLast? = some i then [] else [i]) ++ Yq.map (edgeOf st)),
    w, Yp, Yq, ?_, bp, bq, disj, disj', ?_, ?_⟩
  · unfold findCycle
    rw [hw]
    simp only [bind, Except.bind]
    rw [t1]
    simp only []
    rw [t2]
  · simp only [hlast, if_false]
    simp
  · simp only [hlast, if_false]
    rw [List.dropLast_concat, List.zip_append (by simp), zip_down hR Yp p i bp, zip_up]
    simp

/-! ### Pushing flow around the cycle -/

/-- Sign of an edge traversed from `s`. -/
def sgn (N : Net) (k s : ℕ) : ℤ := if N.tail k = s then 1 else -1

/-- The flow after pushing `r` along `cyc`. -/
def augFlow (N : Net) (r : ℤ) : List (ℕ × ℕ) → (ℕ → ℤ) → (ℕ → ℤ)
  | [], f => f
  | (k, p) :: l, f => augFlow N r l (put f k (if N.tail k = p then f k + r else f k - r))

theorem augment_eq (r : ℤ) : ∀ (l : List (ℕ × ℕ)) (st : NState), augment N r l st = { st with flow := augFlow N r l st.flow } := by
  intro l
  induction l with
  | nil => intro st; rfl
  | cons c l ih =>
    intro st
    obtain ⟨k, p⟩ := c
    rw [augment, ih, augFlow]

theorem augFlow_not_mem (r : ℤ) : ∀ (l : List (ℕ × ℕ)) (f : ℕ → ℤ) (k : ℕ), k ∉ l.map Prod.fst → augFlow N r l f k = f k := by
  intro l
  induction l with
  | nil => intro f k _; rfl
  | cons c l ih =>
    intro f k hk
    obtain ⟨k', p⟩ := c
    simp at hk
    rw [augFlow, ih _ _ (by simpa using hk.2), put_ne _ _ hk.1]

theorem augFlow_mem (r : ℤ) : ∀ (l : List (ℕ × ℕ)) (f : ℕ → ℤ) (k s : ℕ), (l.map Prod.fst).Nodup → (k, s) ∈ l →
    augFlow N r l f k = f k + sgn N k s * r := by
  intro l
  induction l with
  | nil => intro f k s _ h; simp at h
  | cons c l ih =>
    intro f k s hnd hk
    obtain ⟨k', p⟩ := c
    simp only [List.map_cons, List.nodup_cons] at hnd
    rw [augFlow]
    rcases List.mem_cons.1 hk with hk' | hk'
    · obtain ⟨rfl, rfl⟩ := Prod.mk.inj hk'
      rw [augFlow_not_mem _ _ _ _ hnd.1, put_same]
      unfold sgn
      split_ifs <;> ring
    · rw [ih _ k s hnd.2 hk', put_ne]
      rintro rfl
      exact hnd.1 (List.mem_map.2 ⟨(k, s), hk', rfl⟩)

theorem augFlow_sum (r : ℤ) (m : ℕ) (g : ℕ → ℤ) : ∀ (l : List (ℕ × ℕ)) (f : ℕ → ℤ), (∀ c ∈ l, c.1 < m) →
    ∑ k ∈ range m, augFlow N r l f k * g k = ∑ k ∈ range m, f k * g k + r * (l.map fun c : ℕ × ℕ => sgn N c.1 c.2 * g c.1).sum := by
  intro l
  induction l with
  | nil => intro f _; simp [augFlow]
  | cons c l ih =>
    intro f hm
    obtain ⟨k0, p⟩ := c
    rw [augFlow, ih _ fun c hc => hm c (by simp [hc])]
    have hk0 : k0 < m := hm (k0, p) (by simp)
    have e1 : ∑ k ∈ range m, put f k0 (if N.tail k0 = p then f k0 + r else f k0 - r) k * g k = ∑ k ∈ range m, f k * g k + r * (sgn N k0 p * g k0) := by
      have e2 : ∀ k ∈ range m, put f k0 (if N.tail k0 = p then f k0 + r else f k0 - r) k * g k = f k * g k + if k = k0 then r * (sgn N k0 p * g k0) else 0 := by
        intro k _
        by_cases hk : k = k0
        · subst hk
          rw [put_same, if_pos rfl]
          unfold sgn
          split_ifs <;> ring
        · rw [put_ne _ _ hk, if_neg hk, add_zero]
      rw [sum_congr rfl e2, sum_add_distrib, sum_ite_eq' (range m) k0, if_pos (mem_range.2 hk0)]
    rw [e1]
    simp only [List.map_cons, List.sum_cons]
    ring

/-- Differences along a branch telescope. -/
theorem branch_sum (h : Rep st N.n L path) (g : ℕ → ℤ) {w : ℕ} : ∀ (Y : List ℕ) (p : ℕ), Branch path L p w Y →
    (Y.map fun c => g (parOf st c) - g c).sum = g w - g p := by
  intro Y
  induction Y with
  | nil =>
    intro p b
    rw [b.nil h]
    simp
  | cons y Y ih =>
    intro p b
    obtain ⟨rfl, hpn, u, hu, hpu, b'⟩ := b.cons h
    have e3 : parOf st y = u := by simp [parOf, hpu]
    simp only [List.map_cons, List.sum_cons]
    rw [ih u b', e3]
    ring

/-- A sum over the cycle of a quantity that is a difference of node values on tree edges. -/
theorem cycle_sum (h : Rep st N.n L path) {p q w i : ℕ} {Yp Yq : List ℕ} (bp : Branch path L p w Yp) (bq : Branch path L q w Yq)
    (F : ℕ × ℕ → ℤ) (g : ℕ → ℤ) (h1 : ∀ c ∈ Yp, F (edgeOf st c, parOf st c) = g (parOf st c) - g c)
    (h2 : ∀ c ∈ Yq, F (edgeOf st c, c) = g c - g (parOf st c)) :
    ((downPairs st Yp ++ (i, p) :: upPairs st Yq).map F).sum = F (i, p) - g p + g q := by
  have e1 : ((downPairs st Yp).map F).sum = g w - g p := by
    rw [← branch_sum h g Yp p bp]
    unfold downPairs
    rw [List.map_map, List.map_reverse, List.sum_reverse]
    congr 1
    apply List.map_congr_left
    intro c hc
    exact h1 c hc
  have e2 : ((upPairs st Yq).map F).sum = g q - g w := by
    have := branch_sum h g Yq q bq
    have e3 : ((upPairs st Yq).map F).sum = -(Yq.map fun c => g (parOf st c) - g c).sum := by
      unfold upPairs
      rw [List.map_map]
      clear this bq
      induction Yq with
      | nil => simp
      | cons y Y ih =>
        have := ih fun c hc => h2 c (by simp [hc])
        have e := h2 y (by simp)
        simp only [List.map_cons, List.sum_cons, Function.comp] at this ⊢
        rw [e]
        linarith
    rw [e3, this]
    ring
  rw [List.map_append, List.sum_append, List.map_cons, List.sum_cons, e1, e2]
  ring

theorem firstMin_spec {α : Type*} (r : α → ℤ) : ∀ (l : List α) (b : α), ∃ X Y, b :: l = X ++ firstMin r b l :: Y ∧
    (∀ x ∈ X, r (firstMin r b l) < r x) ∧ ∀ y ∈ Y, r (firstMin r b l) ≤ r y := by
  intro l
  induction l with
  | nil => intro b; exact ⟨[], [], by simp [firstMin]⟩
  | cons x l ih =>
    intro b
    rw [firstMin]
    by_cases hx : r x < r b
    · rw [if_pos hx]
      obtain ⟨X, Y, h1, h2, h3⟩ := ih x
      refine ⟨b :: X, Y, by rw [h1]; simp, ?_, h3⟩
      intro y hy
      rcases List.mem_cons.1 hy with rfl | hy
      · refine lt_of_le_of_lt ?_ hx
        have : x ∈ X ++ firstMin r x l :: Y := by rw [← h1]; simp
        rcases List.mem_append.1 this with h | h
        · exact (h2 x h).le
        · rcases List.mem_cons.1 h with h | h
          · rw [← h]
          · exact h3 x h
      · exact h2 y hy
    · rw [if_neg hx]
      obtain ⟨X, Y, h1, h2, h3⟩ := ih b
      cases X with
      | nil =>
        simp only [List.nil_append, List.cons.injEq] at h1
        refine ⟨[], x :: Y, by simp only [List.nil_append]; rw [← h1.1, h1.2], by simp, ?_⟩
        intro y hy
        rcases List.mem_cons.1 hy with rfl | hy
        · rw [← h1.1]; omega
        · exact h3 y hy
      | cons a X =>
        simp only [List.cons_append, List.cons.injEq] at h1
        obtain ⟨rfl, h1⟩ := h1
        refine ⟨b :: x :: X, Y, by simp only [List.cons_append]; rw [← h1], ?_, h3⟩
        intro y hy
        simp only [List.mem_cons] at hy
        rcases hy with rfl | rfl | hy
        · exact h2 y (by simp)
        · have := h2 b (by simp)
          omega
        · exact h2 y (by simp [hy])

end

end Amd
