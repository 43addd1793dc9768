import Verif.Proof.NetInit
import Mathlib.Data.Real.Basic
import Mathlib.Tactic.Linarith
import Mathlib.Tactic.FieldSimp

/-!
# A state without entering edge is optimal
-/

set_option linter.unusedSectionVars false

namespace Amd

open Finset

theorem sum_range_mul {R : Type*} [AddCommMonoid R] (m n : ℕ) (f : ℕ → R) : ∑ k ∈ range (m * n), f k = ∑ u ∈ range m, ∑ v ∈ range n, f (u * n + v) := by
  induction m with
  | zero => simp
  | succ m ih => rw [Nat.succ_mul, sum_range_add, ih, sum_range_succ]

section
variable {N : Net} {M C : ℤ} {st : NState} {L : List ℕ} {path : ℕ → List ℕ}

/-- Complementary slackness against any flows within the capacities. -/
theorem slack_nonneg (hN : NetOK N M C) (I : Inv N st L path) (hopt : ∀ k < N.e, 0 ≤ redCost N st k) {k : ℕ} (hk : k < N.e) {x : ℝ}
    (h0 : 0 ≤ x) (h1 : x ≤ N.cap k) : 0 ≤ (x - st.flow k) * (rcOf N st k : ℝ) := by
  have hr := hopt k hk
  rw [redCost_eq hN hk] at hr
  by_cases hz : st.flow k = 0
  · rw [if_pos hz] at hr
    rw [hz]
    have : (0 : ℝ) ≤ rcOf N st k := by exact_mod_cast hr
    simp only [Int.cast_zero, sub_zero]
    positivity
  · rw [if_neg hz] at hr
    have h2 : (rcOf N st k : ℝ) ≤ 0 := by exact_mod_cast (by omega : rcOf N st k ≤ 0)
    by_cases hrc : rcOf N st k = 0
    · simp [hrc]
    · have hf : st.flow k = N.cap k := by
        rcases I.out k (by omega) (I.not_tree_of_rc hrc) with h | h
        · exact absurd h hz
        · exact h.2
      rw [hf]
      exact mul_nonneg_of_nonpos_of_nonpos (by linarith) h2

/-- Potentials are positive and large, or negative and large. -/
theorem pi_sides (hN : NetOK N M C) (I : Inv N st L path) {v : ℕ} (hv : v < N.n) :
    M - costSum N ≤ piOf N st v ∨ piOf N st v ≤ -M + costSum N := by
  obtain ⟨c, h1, h2, h3⟩ := exists_top I v (I.mem_of_lt hv) (by omega)
  have h4 := abs_le.1 (pi_near hN I hv h1 h3)
  have h5 := pi_top hN I h1 h2
  split_ifs at h5
  · right; linarith
  · left; linarith

/-- Edges from the positive to the negative side are full, edges back are empty. -/
theorem cross_flow (hN : NetOK N M C) (I : Inv N st L path) (hopt : ∀ k < N.e, 0 ≤ redCost N st k) {k : ℕ} (hk : k < N.e) :
    (0 < piOf N st (N.tail k) → ¬0 < piOf N st (N.hd k) → st.flow k = N.cap k) ∧ (¬0 < piOf N st (N.tail k) → 0 < piOf N st (N.hd k) → st.flow k = 0) := by
  obtain ⟨h1, h2, -⟩ := hN.real_lt hk
  have s1 := pi_sides hN I h1
  have s2 := pi_sides hN I h2
  have hM := hN.M_pos
  have hK := costSum_nonneg hN
  have hMK : 3 * costSum N ≤ M := hN.cost_le
  have hc0 := hN.cost_nonneg k hk
  have hc1 := cost_le_sum hN hk
  have hr := hopt k hk
  rw [redCost_eq hN hk] at hr
  constructor
  · intro a b
    have hrc : rcOf N st k < 0 := by
      unfold rcOf
      rcases s1 with h | h <;> rcases s2 with h' | h' <;> linarith
    rcases I.out k (by omega) (I.not_tree_of_rc hrc.ne) with h | h
    · rw [if_pos h] at hr
      omega
    · exact h.2
  · intro a b
    have hrc : 0 < rcOf N st k := by
      unfold rcOf
      rcases s1 with h | h <;> rcases s2 with h' | h' <;> linarith
    by_contra hz
    rw [if_neg hz] at hr
    omega

/-- Flow left at the root belongs to the positive side for sources and the negative side for sinks. -/
theorem art_side (hN : NetOK N M C) (I : Inv N st L path) {v : ℕ} (hv : v < N.n) (h : st.flow (N.e + v) ≠ 0) :
    (v < N.ns → 0 < piOf N st v) ∧ (N.ns ≤ v → ¬0 < piOf N st v) := by
  have htree : ¬∀ u < N.n, st.edge u ≠ some (N.e + v) := by
    intro hh
    rcases I.out (N.e + v) (by omega) hh with h1 | h1
    · exact h h1
    · omega
  push Not at htree
  obtain ⟨u, hu, hue⟩ := htree
  have e1 := edgeOf_eq hue
  have hpn : parOf st u = N.n := by
    by_contra hh
    have := (I.art_iff hN hu).2 hh
    omega
  have e2 := I.art_edge hN hu hpn
  have huv : u = v := by omega
  subst huv
  have := pi_top hN I hu hpn
  have hM := hN.M_pos
  constructor
  · intro hs
    have := hN.src u hs
    rw [pi_top hN I hu hpn, if_neg (by omega)]
    exact hM
  · intro hs
    have := hN.snk u hu hs
    rw [pi_top hN I hu hpn, if_pos this]
    omega

end

/-! ### The plan computed on integers -/

section
variable {s t costs caps : List ℤ} {st : NState} {L : List ℕ} {path : ℕ → List ℕ}

theorem edge_lt {m n u v : ℕ} (hu : u < m) (hv : v < n) : u * n + v < m * n := by
  calc u * n + v < u * n + n := by omega
    _ = (u + 1) * n := by ring
    _ ≤ m * n := Nat.mul_le_mul_right n hu

theorem mkNet_tail {u v : ℕ} (hu : u < s.length) (hv : v < t.length) : (mkNet s t costs caps).tail (u * t.length + v) = u := by
  have := edge_lt hu hv
  simp only [mkNet, this, if_true]
  rw [Nat.mul_comm, Nat.mul_add_div (by omega), Nat.div_eq_of_lt hv, add_zero]

theorem mkNet_head {u v : ℕ} (hu : u < s.length) (hv : v < t.length) : (mkNet s t costs caps).hd (u * t.length + v) = s.length + v := by
  have h := edge_lt hu hv
  rw [NetOK.hd_real (by exact h)]
  simp only [mkNet, h, if_true]
  rw [Nat.mul_comm, Nat.mul_add_mod, Nat.mod_eq_of_lt hv]

theorem mkNet_cap {u v : ℕ} (hu : u < s.length) (hv : v < t.length) : (mkNet s t costs caps).cap (u * t.length + v) = caps.getD (u * t.length + v) 0 := by
  simp [mkNet, edge_lt hu hv]

theorem mkNet_cost {u v : ℕ} (hu : u < s.length) (hv : v < t.length) : (mkNet s t costs caps).cost (u * t.length + v) = costs.getD (u * t.length + v) 0 := by
  simp [mkNet, edge_lt hu hv]

theorem row_cons (h : GoodInput s t costs caps) (I : Inv (mkNet s t costs caps) st L path) {u : ℕ} (hu : u < s.length) :
    ∑ v ∈ range t.length, st.flow (u * t.length + v) + st.flow ((mkNet s t costs caps).e + u) = s.getD u 0 := by
  have hun : u < (mkNet s t costs caps).n := by rw [mkNet_n]; omega
  have h1 := cons_at (mkNet_ok h) I hun
  have hpos := h.s_pos _ (getD_mem_of_lt hu)
  rw [mkNet_dem_src hu, if_neg (by omega), mkNet_e, sum_range_mul] at h1
  have e1 : ∀ u' ∈ range s.length, ∑ v ∈ range t.length, st.flow (u' * t.length + v) * incid (mkNet s t costs caps) (u' * t.length + v) u =
      if u' = u then ∑ v ∈ range t.length, st.flow (u' * t.length + v) else 0 := by
    intro u' hu'
    rw [mem_range] at hu'
    by_cases hh : u' = u
    · rw [if_pos hh]
      apply sum_congr rfl
      intro v hv
      rw [mem_range] at hv
      unfold incid
      rw [mkNet_tail hu' hv, mkNet_head hu' hv, if_pos hh, if_neg (by omega)]
      ring
    · rw [if_neg hh]
      apply sum_eq_zero
      intro v hv
      rw [mem_range] at hv
      unfold incid
      rw [mkNet_tail hu' hv, mkNet_head hu' hv, if_neg hh, if_neg (by omega)]
      ring
  rw [sum_congr rfl e1, sum_ite_eq' _ u, if_pos (mem_range.2 hu)] at h1
  rw [mkNet_e]
  linarith

theorem col_cons (h : GoodInput s t costs caps) (I : Inv (mkNet s t costs caps) st L path) {v : ℕ} (hv : v < t.length) :
    ∑ u ∈ range s.length, st.flow (u * t.length + v) + st.flow ((mkNet s t costs caps).e + (s.length + v)) = t.getD v 0 := by
  have hun : s.length + v < (mkNet s t costs caps).n := by rw [mkNet_n]; omega
  have h1 := cons_at (mkNet_ok h) I hun
  have hpos := h.t_pos _ (getD_mem_of_lt hv)
  have e0 : (mkNet s t costs caps).dem (s.length + v) = t.getD v 0 := by rw [mkNet_dem_snk (by omega)]; simp
  rw [e0, if_pos hpos, mkNet_e, sum_range_mul] at h1
  have e1 : ∀ u ∈ range s.length, ∑ v' ∈ range t.length, st.flow (u * t.length + v') * incid (mkNet s t costs caps) (u * t.length + v') (s.length + v) =
      -st.flow (u * t.length + v) := by
    intro u hu
    rw [mem_range] at hu
    have e2 : ∀ v' ∈ range t.length, st.flow (u * t.length + v') * incid (mkNet s t costs caps) (u * t.length + v') (s.length + v) =
        if v' = v then -st.flow (u * t.length + v) else 0 := by
      intro v' hv'
      rw [mem_range] at hv'
      unfold incid
      rw [mkNet_tail hu hv', mkNet_head hu hv', if_neg (by omega)]
      by_cases hh : v' = v
      · subst hh; simp
      · rw [if_neg (by omega), if_neg hh]; ring
    rw [sum_congr rfl e2, sum_ite_eq' _ v, if_pos (mem_range.2 hv)]
  rw [sum_congr rfl e1, sum_neg_distrib] at h1
  rw [mkNet_e]
  linarith

/-- What the flows at the end of the pivot loop satisfy. -/
structure OptPlan (s t costs caps : List ℤ) (X : ℕ → ℕ → ℤ) (ρ σ : ℕ → ℤ) (π : ℕ → ℤ) : Prop where
  bounds : ∀ u < s.length, ∀ v < t.length, 0 ≤ X u v ∧ X u v ≤ caps.getD (u * t.length + v) 0
  rest : (∀ u < s.length, 0 ≤ ρ u) ∧ ∀ v < t.length, 0 ≤ σ v
  rows : ∀ u < s.length, ∑ v ∈ range t.length, X u v + ρ u = s.getD u 0
  cols : ∀ v < t.length, ∑ u ∈ range s.length, X u v + σ v = t.getD v 0
  pot : ∀ v < s.length + t.length, |π v| ≤ fauxInf s t costs caps + costs.sum
  slack : ∀ u < s.length, ∀ v < t.length, ∀ x : ℝ, 0 ≤ x → x ≤ caps.getD (u * t.length + v) 0 →
    0 ≤ (x - X u v) * ((costs.getD (u * t.length + v) 0 : ℝ) - π u + π (s.length + v))
  mass : ∀ g : ℕ → ℕ → ℝ, (∀ u < s.length, ∀ v < t.length, 0 ≤ g u v ∧ g u v ≤ caps.getD (u * t.length + v) 0) →
    (∀ u < s.length, ∑ v ∈ range t.length, g u v ≤ s.getD u 0) → (∀ v < t.length, ∑ u ∈ range s.length, g u v ≤ t.getD v 0) →
    ∑ u ∈ range s.length, ∑ v ∈ range t.length, g u v ≤ ∑ u ∈ range s.length, ∑ v ∈ range t.length, (X u v : ℝ)

theorem costSum_mkNet (h : GoodInput s t costs caps) : costSum (mkNet s t costs caps) = costs.sum := by
  unfold costSum
  rw [← sum_getD costs, h.costs_len, mkNet_e]
  apply sum_congr rfl
  intro k hk
  simp [mkNet, mem_range.1 hk]

theorem optPlan_of_final (h : GoodInput s t costs caps) (I : Inv (mkNet s t costs caps) st L path)
    (hopt : ∀ k < (mkNet s t costs caps).e, 0 ≤ redCost (mkNet s t costs caps) st k) :
    OptPlan s t costs caps (fun u v => st.flow (u * t.length + v)) (fun u => st.flow ((mkNet s t costs caps).e + u))
      (fun v => st.flow ((mkNet s t costs caps).e + (s.length + v))) st.pot := by
  have hN := mkNet_ok h
  have hlt : ∀ {u v}, u < s.length → v < t.length → u * t.length + v < (mkNet s t costs caps).e := fun hu hv => edge_lt hu hv
  have hρ : ∀ v < s.length + t.length, 0 ≤ st.flow ((mkNet s t costs caps).e + v) := fun v hv => (I.flow _ (by rw [mkNet_n]; omega)).1
  refine ⟨?_, ⟨fun u hu => hρ u (by omega), fun v hv => hρ _ (by omega)⟩, fun u hu => row_cons h I hu, fun v hv => col_cons h I hv, ?_, ?_, ?_⟩
  · intro u hu v hv
    have := I.flow (u * t.length + v) (by have := hlt hu hv; omega)
    rwa [mkNet_cap hu hv] at this
  · intro v hv
    have := pi_bound hN I (v := v) (by rw [mkNet_n]; exact hv)
    rwa [piOf_of_lt (by rw [mkNet_n]; exact hv), costSum_mkNet h] at this
  · intro u hu v hv x hx0 hx1
    have hk := hlt hu hv
    have := slack_nonneg hN I hopt hk hx0 (by rw [mkNet_cap hu hv]; exact hx1)
    unfold rcOf at this
    rw [mkNet_tail hu hv, mkNet_head hu hv, mkNet_cost hu hv, piOf_of_lt (by rw [mkNet_n]; omega), piOf_of_lt (by rw [mkNet_n]; omega)] at this
    push_cast at this
    exact this
  · -- no flow within the capacities moves more: the sides of positive and negative potential form a cut
    intro g hg hgr hgc
    have side : ∀ v < s.length + t.length, piOf (mkNet s t costs caps) st v = st.pot v := fun v hv => piOf_of_lt (by rw [mkNet_n]; exact hv)
    -- edge by edge
    have hcut : ∀ u < s.length, ∀ v < t.length,
        ((if 0 < st.pot u then (1 : ℝ) else 0) - (if 0 < st.pot (s.length + v) then (1 : ℝ) else 0)) * g u v ≤
        ((if 0 < st.pot u then (1 : ℝ) else 0) - (if 0 < st.pot (s.length + v) then (1 : ℝ) else 0)) * (st.flow (u * t.length + v) : ℝ) := by
      intro u hu v hv
      obtain ⟨c1, c2⟩ := cross_flow hN I hopt (hlt hu hv)
      rw [mkNet_tail hu hv, mkNet_head hu hv, side u (by omega), side _ (by omega)] at c1 c2
      rw [mkNet_cap hu hv] at c1
      obtain ⟨g0, g1⟩ := hg u hu v hv
      by_cases hA : 0 < st.pot u <;> by_cases hB : 0 < st.pot (s.length + v)
      · simp [hA, hB]
      · have := c1 hA hB
        simp only [hA, hB, if_true, if_false]
        rw [this]
        linarith
      · have := c2 hA hB
        simp only [hA, hB, if_true, if_false]
        rw [this]
        push_cast
        linarith
      · simp [hA, hB]
    have hsum := sum_le_sum fun u hu => sum_le_sum fun v hv => hcut u (mem_range.1 hu) v (mem_range.1 hv)
    -- row and column sums on both sides
    have split : ∀ x : ℕ → ℕ → ℝ, ∑ u ∈ range s.length, ∑ v ∈ range t.length,
        ((if 0 < st.pot u then (1 : ℝ) else 0) - (if 0 < st.pot (s.length + v) then (1 : ℝ) else 0)) * x u v =
        ∑ u ∈ range s.length, (if 0 < st.pot u then (1 : ℝ) else 0) * ∑ v ∈ range t.length, x u v -
        ∑ v ∈ range t.length, (if 0 < st.pot (s.length + v) then (1 : ℝ) else 0) * ∑ u ∈ range s.length, x u v := by
      intro x
      simp only [sub_mul, sum_sub_distrib, mul_sum]
      congr 1
      rw [sum_comm]
    rw [split g, split fun u v => (st.flow (u * t.length + v) : ℝ)] at hsum
    -- the flow is complete on the negative sources and the positive sinks
    have hrow : ∀ u < s.length, ¬0 < st.pot u → ∑ v ∈ range t.length, g u v ≤ ∑ v ∈ range t.length, (st.flow (u * t.length + v) : ℝ) := by
      intro u hu hneg
      have h1 := row_cons h I hu
      have h2 : st.flow ((mkNet s t costs caps).e + u) = 0 := by
        by_contra hz
        have := (art_side hN I (v := u) (by rw [mkNet_n]; omega) hz).1 hu
        rw [side u (by omega)] at this
        exact hneg this
      rw [h2, add_zero] at h1
      have h3 : (∑ v ∈ range t.length, (st.flow (u * t.length + v) : ℝ)) = (s.getD u 0 : ℝ) := by exact_mod_cast h1
      rw [h3]
      exact hgr u hu
    have hcol : ∀ v < t.length, 0 < st.pot (s.length + v) → ∑ u ∈ range s.length, g u v ≤ ∑ u ∈ range s.length, (st.flow (u * t.length + v) : ℝ) := by
      intro v hv hpos
      have h1 := col_cons h I hv
      have h2 : st.flow ((mkNet s t costs caps).e + (s.length + v)) = 0 := by
        by_contra hz
        have := (art_side hN I (v := s.length + v) (by rw [mkNet_n]; omega) hz).2 (by change s.length ≤ _; omega)
        rw [side _ (by omega)] at this
        exact this hpos
      rw [h2, add_zero] at h1
      have h3 : (∑ u ∈ range s.length, (st.flow (u * t.length + v) : ℝ)) = (t.getD v 0 : ℝ) := by exact_mod_cast h1
      rw [h3]
      exact hgc v hv
    have e1 : ∀ x : ℕ → ℕ → ℝ, ∑ u ∈ range s.length, ∑ v ∈ range t.length, x u v =
        ∑ u ∈ range s.length, (if 0 < st.pot u then (1 : ℝ) else 0) * ∑ v ∈ range t.length, x u v +
        ∑ u ∈ range s.length, (if 0 < st.pot u then (0 : ℝ) else 1) * ∑ v ∈ range t.length, x u v := by
      intro x
      rw [← sum_add_distrib]
      apply sum_congr rfl
      intro u _
      split_ifs <;> ring
    rw [e1 g, e1 fun u v => (st.flow (u * t.length + v) : ℝ)]
    have t1 : ∑ u ∈ range s.length, (if 0 < st.pot u then (0 : ℝ) else 1) * ∑ v ∈ range t.length, g u v ≤
        ∑ u ∈ range s.length, (if 0 < st.pot u then (0 : ℝ) else 1) * ∑ v ∈ range t.length, (st.flow (u * t.length + v) : ℝ) := by
      apply sum_le_sum
      intro u hu
      by_cases hA : 0 < st.pot u
      · simp [hA]
      · simp only [hA, if_false, one_mul]
        exact hrow u (mem_range.1 hu) hA
    have t2 : ∑ v ∈ range t.length, (if 0 < st.pot (s.length + v) then (1 : ℝ) else 0) * ∑ u ∈ range s.length, g u v ≤
        ∑ v ∈ range t.length, (if 0 < st.pot (s.length + v) then (1 : ℝ) else 0) * ∑ u ∈ range s.length, (st.flow (u * t.length + v) : ℝ) := by
      apply sum_le_sum
      intro v hv
      by_cases hA : 0 < st.pot (s.length + v)
      · simp only [hA, if_true, one_mul]
        exact hcol v (mem_range.1 hv) hA
      · simp [hA]
    linarith

/-- `simplexInt` ends with an optimal plan. -/
theorem simplexInt_opt {s t costs caps : List ℤ} (h : GoodInput (balance s t).1 (balance s t).2 costs caps) (hs : s ≠ []) (ht : t ≠ []) :
    ∃ r : List ℤ, ∃ fuel0, (∀ fuel ≥ fuel0, simplexInt s t costs caps fuel = .ok r) ∧ r.length = (balance s t).1.length * (balance s t).2.length ∧
      ∃ ρ σ π, OptPlan (balance s t).1 (balance s t).2 costs caps (fun u v => r.getD (u * (balance s t).2.length + v) 0) ρ σ π := by
  have hN := mkNet_ok h
  have I0 := init_inv h
  obtain ⟨st, L, path, hok, I, hopt⟩ := pivotLoop_ok hN ((measure (mkNet (balance s t).1 (balance s t).2 costs caps) (fauxInf (balance s t).1 (balance s t).2 costs caps) (initState (balance s t).1 (balance s t).2 costs caps)).toNat + 1) 0 _ _ _ I0 (by omega) (by
    have := measure_nonneg hN I0
    push_cast
    omega)
  refine ⟨(List.range (mkNet (balance s t).1 (balance s t).2 costs caps).e).map st.flow, (measure (mkNet (balance s t).1 (balance s t).2 costs caps) (fauxInf (balance s t).1 (balance s t).2 costs caps) (initState (balance s t).1 (balance s t).2 costs caps)).toNat + 1, ?_, by simp [mkNet_e], ?_⟩
  · intro fuel hfuel
    unfold simplexInt
    rw [if_neg (by simp [hs, ht])]
    simp only [bind, Except.bind]
    rw [pivotLoop_mono _ _ _ _ _ hfuel hok]
  · have hO := optPlan_of_final h I hopt
    refine ⟨fun u => st.flow ((mkNet (balance s t).1 (balance s t).2 costs caps).e + u),
      fun v => st.flow ((mkNet (balance s t).1 (balance s t).2 costs caps).e + ((balance s t).1.length + v)), st.pot, ?_⟩
    have hX : ∀ u < (balance s t).1.length, ∀ v < (balance s t).2.length,
        ((List.range (mkNet (balance s t).1 (balance s t).2 costs caps).e).map st.flow).getD (u * (balance s t).2.length + v) 0 = st.flow (u * (balance s t).2.length + v) := by
      intro u hu v hv
      have := edge_lt hu hv
      rw [List.getD_eq_getElem _ _ (by simpa [mkNet_e] using this)]
      simp
    refine ⟨?_, hO.rest, ?_, ?_, hO.pot, ?_, ?_⟩
    · intro u hu v hv
      rw [hX u hu v hv]
      exact hO.bounds u hu v hv
    · intro u hu
      rw [sum_congr rfl fun v hv => hX u hu v (mem_range.1 hv)]
      exact hO.rows u hu
    · intro v hv
      rw [sum_congr rfl fun u hu => hX u (mem_range.1 hu) v hv]
      exact hO.cols v hv
    · intro u hu v hv x h0 h1
      rw [hX u hu v hv]
      exact hO.slack u hu v hv x h0 h1
    · intro g hg hr hc
      refine (hO.mass g hg hr hc).trans (le_of_eq ?_)
      exact sum_congr rfl fun u hu => sum_congr rfl fun v hv => by rw [hX u (mem_range.1 hu) v (mem_range.1 hv)]

end

end Amd
