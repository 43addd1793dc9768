import Verif.Proof.NetTerm
import Mathlib.Data.List.GetD

/-!
# The initial state of the pivot loop satisfies the invariant
-/

set_option linter.unusedSectionVars false

namespace Amd

open Finset

theorem sum_getD (l : List ℤ) : ∑ k ∈ range l.length, l.getD k 0 = l.sum := by
  induction l with
  | nil => simp
  | cons a l ih =>
    rw [List.length_cons, sum_range_succ', List.sum_cons, ← ih]
    simp [add_comm]

theorem getD_mem_of_lt {l : List ℤ} {k : ℕ} (h : k < l.length) : l.getD k 0 ∈ l := by
  rw [List.getD_eq_getElem _ _ h]
  exact List.getElem_mem h

theorem le_foldl_max : ∀ (l : List ℤ) (a : ℤ), a ≤ l.foldl max a ∧ ∀ x ∈ l, x ≤ l.foldl max a := by
  intro l
  induction l with
  | nil => intro a; simp
  | cons b l ih =>
    intro a
    obtain ⟨h1, h2⟩ := ih (max a b)
    simp only [List.foldl_cons, List.mem_cons, forall_eq_or_imp]
    exact ⟨(le_max_left a b).trans h1, (le_max_right a b).trans h1, h2⟩

theorem le_maxZ {l : List ℤ} {x : ℤ} (h : x ∈ l) : x ≤ maxZ l := (le_foldl_max l _).2 x h

/-- Input of the pivot loop: positive weights with the same sum, costs and capacities. -/
structure GoodInput (s t costs caps : List ℤ) : Prop where
  s_ne : s ≠ []
  t_ne : t ≠ []
  s_pos : ∀ x ∈ s, 0 < x
  t_pos : ∀ x ∈ t, 0 < x
  sums : s.sum = t.sum
  small : t.sum ≤ fpMul
  costs_len : costs.length = s.length * t.length
  caps_len : caps.length = s.length * t.length
  costs_nonneg : ∀ x ∈ costs, 0 ≤ x
  caps_pos : ∀ x ∈ caps, 0 < x

section
variable {s t costs caps : List ℤ}

theorem mkNet_e : (mkNet s t costs caps).e = s.length * t.length := rfl

theorem mkNet_n : (mkNet s t costs caps).n = s.length + t.length := rfl

theorem mkNet_dem_src {v : ℕ} (hv : v < s.length) : (mkNet s t costs caps).dem v = -s.getD v 0 := by simp [mkNet, hv]

theorem mkNet_dem_snk {v : ℕ} (hv : s.length ≤ v) : (mkNet s t costs caps).dem v = t.getD (v - s.length) 0 := by
  simp only [mkNet]
  rw [if_neg (by omega)]

theorem mkNet_sink_sum : ∑ v ∈ (range (mkNet s t costs caps).n).filter (fun v => (mkNet s t costs caps).ns ≤ v), (mkNet s t costs caps).dem v = t.sum := by
  rw [← sum_getD t]
  have e1 : (range (mkNet s t costs caps).n).filter (fun v => (mkNet s t costs caps).ns ≤ v) = (range t.length).image (fun k => s.length + k) := by
    ext v
    simp only [mem_filter, mem_range, mem_image, mkNet_n]
    constructor
    · rintro ⟨h1, h2⟩
      exact ⟨v - s.length, by have : s.length ≤ v := h2; omega, by have : s.length ≤ v := h2; omega⟩
    · rintro ⟨k, hk, rfl⟩
      exact ⟨by omega, by change s.length ≤ _; omega⟩
  rw [e1, sum_image (by intro a _ b _ h; simpa using h)]
  apply sum_congr rfl
  intro k _
  rw [mkNet_dem_snk (by omega)]
  simp

theorem mkNet_dem_sum (h : GoodInput s t costs caps) : ∑ v ∈ range (mkNet s t costs caps).n, (mkNet s t costs caps).dem v = 0 := by
  rw [mkNet_n, sum_range_add]
  have e1 : ∑ v ∈ range s.length, (mkNet s t costs caps).dem v = -s.sum := by
    rw [← sum_getD s, ← sum_neg_distrib]
    exact sum_congr rfl fun v hv => mkNet_dem_src (mem_range.1 hv)
  have e2 : ∑ v ∈ range t.length, (mkNet s t costs caps).dem (s.length + v) = t.sum := by
    rw [← sum_getD t]
    exact sum_congr rfl fun v hv => by rw [mkNet_dem_snk (by omega)]; simp
  rw [e1, e2, h.sums]
  ring

theorem mkNet_ok (h : GoodInput s t costs caps) : NetOK (mkNet s t costs caps) (fauxInf s t costs caps) fpMul := by
  have hs := List.length_pos_of_ne_nil h.s_ne
  have ht := List.length_pos_of_ne_nil h.t_ne
  have hsp : ∀ v < s.length, 0 < s.getD v 0 := fun v hv => h.s_pos _ (getD_mem_of_lt hv)
  have htp : ∀ v < t.length, 0 < t.getD v 0 := fun v hv => h.t_pos _ (getD_mem_of_lt hv)
  have hcost : ∀ k < s.length * t.length, (mkNet s t costs caps).cost k = costs.getD k 0 := fun k hk => by simp [mkNet, hk]
  refine ⟨hs, ht, ?_, ?_, ?_, ?_, ?_, ?_, ?_, ?_, ?_, ?_, ?_, mkNet_dem_sum h, by rw [mkNet_sink_sum]; exact h.small⟩
  · intro k hk
    rw [mkNet_e] at hk
    simp only [mkNet, hk, if_true]
    exact Nat.div_lt_of_lt_mul (by rwa [Nat.mul_comm] at hk)
  · intro k hk
    rw [mkNet_e] at hk
    rw [mkNet_n]
    simp only [mkNet, hk, if_true]
    have := Nat.mod_lt k ht
    omega
  · intro v hv
    simp only [mkNet, Net.n, Net.e]
    simp
  · intro v hv
    rw [mkNet_dem_src hv]
    have := hsp v hv
    omega
  · intro v hv hv'
    have hv' : s.length ≤ v := hv'
    rw [mkNet_n] at hv
    rw [mkNet_dem_snk hv']
    exact htp _ (by omega)
  · intro k hk
    rw [mkNet_e] at hk
    rw [hcost k hk]
    exact h.costs_nonneg _ (getD_mem_of_lt (by rw [h.costs_len]; exact hk))
  · intro v hv
    simp [mkNet, Net.e]
  · rw [mkNet_e, sum_congr rfl fun k hk => hcost k (mem_range.1 hk), ← h.costs_len, sum_getD]
    unfold fauxInf
    have : costs.sum ≤ max (max (max costs.sum caps.sum) (maxZ s)) (maxZ t) :=
      (le_max_left _ _).trans ((le_max_left _ _).trans (le_max_left _ _))
    omega
  · unfold fauxInf
    have h1 : maxZ t ≤ max (max (max costs.sum caps.sum) (maxZ s)) (maxZ t) := le_max_right _ _
    have h2 := le_maxZ (getD_mem_of_lt ht)
    have h3 := htp 0 ht
    omega
  · intro k hk
    rw [mkNet_e] at hk
    simp only [mkNet, hk, if_true]
    exact h.caps_pos _ (getD_mem_of_lt (by rw [h.caps_len]; exact hk))
  · intro v hv
    simp [mkNet, Net.e]

/-! ### The initial tree is a star -/

/-- Paths in the star with centre `n`. -/
def starPath (n v : ℕ) : List ℕ := if v = n then [n] else [v, n]

theorem star_desc_root (n : ℕ) : desc (n :: List.range n) (starPath n) n = n :: List.range n := by
  unfold desc
  rw [List.filter_eq_self]
  intro w _
  unfold starPath
  split_ifs <;> simp

theorem filter_range_eq {n v : ℕ} (hv : v < n) : (List.range n).filter (fun w => decide (v = w)) = [v] := by
  induction n with
  | zero => omega
  | succ n ih =>
    rw [List.range_succ, List.filter_append]
    by_cases h : v = n
    · subst h
      have : (List.range v).filter (fun w => decide (v = w)) = [] := by
        rw [List.filter_eq_nil_iff]
        intro a ha
        simp at ha ⊢
        omega
      rw [this]
      simp
    · rw [ih (by omega)]
      simp [h]

theorem star_desc (n v : ℕ) (hv : v < n) : desc (n :: List.range n) (starPath n) v = [v] := by
  unfold desc
  rw [List.filter_cons]
  have h0 : ¬(decide (v ∈ starPath n n) = true) := by simp [starPath]; omega
  rw [if_neg h0]
  rw [← filter_range_eq hv]
  apply List.filter_congr
  intro w hw
  simp at hw
  simp only [starPath, if_neg (show ¬w = n by omega), decide_eq_decide]
  simp
  omega

theorem star_rep (h : GoodInput s t costs caps) :
    Rep (initState s t costs caps) (mkNet s t costs caps).n ((mkNet s t costs caps).n :: List.range (mkNet s t costs caps).n) (starPath (mkNet s t costs caps).n) := by
  have hn := (mkNet_ok h).n_pos
  generalize hN : (mkNet s t costs caps).n = n at hn
  have hnext : (initState s t costs caps).next = fun v => if v = n then 0 else v + 1 := by simp only [initState, hN]
  have hprev : (initState s t costs caps).prev = fun v => if v = 0 then n else v - 1 := by simp only [initState, hN]
  have hlast : (initState s t costs caps).last = fun v => if v = n then n - 1 else v := by simp only [initState, hN]
  have hsize : (initState s t costs caps).size = fun v => if v = n then (n : ℤ) + 1 else 1 := by simp only [initState, hN]
  have hpar : (initState s t costs caps).parent = fun v => if v = n then none else some n := by simp only [initState, hN]
  have hmem : ∀ v ∈ n :: List.range n, v = n ∨ v < n := by intro v hv; simpa using hv
  refine ⟨?_, rfl, by simp [starPath], ?_, ?_, ?_, ?_, ?_, ?_, ?_⟩
  · simp [List.nodup_range]
  · rw [hpar]; simp
  · intro v hv hne
    have : v < n := by rcases hmem v hv with h | h <;> omega
    refine ⟨n, by simp, by rw [hpar]; simp [hne], by simp [starPath, hne]⟩
  · intro v hv
    rcases hmem v hv with rfl | hlt
    · exact ⟨[], [], by rw [star_desc_root]; simp⟩
    · rw [star_desc n v hlt]
      obtain ⟨A, B, hAB⟩ := List.append_of_mem hv
      exact ⟨A, B, by rw [hAB]; simp⟩
  · intro v hv
    rcases hmem v hv with rfl | hlt
    · rw [star_desc_root]; rfl
    · rw [star_desc n v hlt]; rfl
  · intro v hv
    rw [hsize]
    rcases hmem v hv with rfl | hlt
    · rw [star_desc_root]; simp
    · rw [star_desc n v hlt]; simp; omega
  · intro v hv
    rw [hlast]
    rcases hmem v hv with rfl | hlt
    · rw [star_desc_root]
      obtain ⟨m, rfl⟩ : ∃ m, v = m + 1 := ⟨v - 1, by omega⟩
      rw [List.range_succ]
      simp [List.getLast?_cons]
    · rw [star_desc n v hlt]
      simp; omega
  · rw [hnext, hprev]
    unfold Cyc
    simp only [List.head?_cons, Option.toList_some]
    rw [List.isChain_iff_getElem]
    intro k hk
    simp only [List.length_append, List.length_cons, List.length_range, List.length_nil] at hk
    unfold Link
    have hg : ∀ k (hk : k < (n :: List.range n ++ [n]).length), (n :: List.range n ++ [n])[k] = if k = 0 then n else k - 1 := by
      intro k hk
      simp only [List.length_append, List.length_cons, List.length_range, List.length_nil] at hk
      cases k with
      | zero => simp
      | succ k =>
        simp only [List.cons_append, List.getElem_cons_succ, Nat.add_sub_cancel]
        rw [if_neg (by omega)]
        by_cases hkn : k < n
        · rw [List.getElem_append_left (by simpa using hkn)]
          simp
        · rw [List.getElem_append_right (by simp; omega)]
          simp; omega
    rw [hg, hg, if_neg (show ¬k + 1 = 0 by omega), Nat.add_sub_cancel]
    constructor
    · beta_reduce
      split_ifs <;> omega
    · beta_reduce
      split_ifs <;> omega

theorem init_inv (h : GoodInput s t costs caps) :
    Inv (mkNet s t costs caps) (initState s t costs caps) ((mkNet s t costs caps).n :: List.range (mkNet s t costs caps).n) (starPath (mkNet s t costs caps).n) := by
  have hN := mkNet_ok h
  have hedge : (initState s t costs caps).edge = fun v => some ((mkNet s t costs caps).e + v) := rfl
  have hpar : ∀ v < (mkNet s t costs caps).n, (initState s t costs caps).parent v = some (mkNet s t costs caps).n := by
    intro v hv
    simp only [initState]
    rw [if_neg (by omega)]
  have hreal : ∀ k < (mkNet s t costs caps).e, (initState s t costs caps).flow k = 0 := fun k hk => by simp [initState, hk]
  have hart : ∀ v < (mkNet s t costs caps).n, (initState s t costs caps).flow ((mkNet s t costs caps).e + v) = |(mkNet s t costs caps).dem v| := by
    intro v hv
    simp only [initState]
    rw [if_neg (by omega)]
    by_cases hvs : v < s.length
    · rw [if_pos (by change _ + v < _ + s.length; omega), mkNet_dem_src hvs, abs_neg]
      rw [Nat.add_sub_cancel_left, abs_of_pos (h.s_pos _ (getD_mem_of_lt hvs))]
    · rw [if_neg (by change ¬(_ + v < _ + s.length); omega), mkNet_dem_snk (by omega), Nat.add_sub_cancel_left]
      rw [mkNet_n] at hv
      have e1 : (mkNet s t costs caps).ns = s.length := rfl
      rw [e1, abs_of_pos (h.t_pos _ (getD_mem_of_lt (by omega)))]
  have hpot : ∀ v, (initState s t costs caps).pot v = if (mkNet s t costs caps).dem v ≤ 0 then fauxInf s t costs caps else -fauxInf s t costs caps := fun v => rfl
  refine ⟨star_rep h, ?_, ?_, ?_, ?_, ?_, ?_⟩
  · intro v
    simp
    omega
  · intro v hv
    refine ⟨_, _, by rw [hedge], hpar v hv, by omega, ?_, ?_⟩
    · unfold Joins
      rw [hN.tail_art v hv, NetOK.hd_art]
      by_cases hd : 0 < (mkNet s t costs caps).dem v
      · simp [hd]
      · simp [hd]
    · unfold rcOf
      rw [hN.tail_art v hv, NetOK.hd_art, hN.cost_art v hv]
      have h0 : piOf (mkNet s t costs caps) (initState s t costs caps) (mkNet s t costs caps).n = 0 := by simp [piOf]
      by_cases hd : 0 < (mkNet s t costs caps).dem v
      · rw [if_pos hd, if_pos hd, h0, piOf_of_lt hv, hpot, if_neg (by omega)]
        ring
      · rw [if_neg hd, if_neg hd, h0, piOf_of_lt hv, hpot, if_pos (by omega)]
        ring
  · intro k hk
    by_cases hr : k < (mkNet s t costs caps).e
    · rw [hreal k hr]
      exact ⟨le_refl _, (hN.cap_real k hr).le⟩
    · obtain ⟨v, hv, rfl⟩ := NetOK.art_form _ hk hr
      rw [hart v hv, hN.cap_art v hv]
      refine ⟨abs_nonneg _, ?_⟩
      have hsmall := h.small
      have hsums := h.sums
      by_cases hvs : v < s.length
      · rw [mkNet_dem_src hvs, abs_neg, abs_of_pos (h.s_pos _ (getD_mem_of_lt hvs))]
        have := List.single_le_sum (fun x hx => (h.s_pos x hx).le) _ (getD_mem_of_lt hvs)
        omega
      · rw [mkNet_n] at hv
        have hlt : v - s.length < t.length := by omega
        rw [mkNet_dem_snk (by omega), abs_of_pos (h.t_pos _ (getD_mem_of_lt hlt))]
        have := List.single_le_sum (fun x hx => (h.t_pos x hx).le) _ (getD_mem_of_lt hlt)
        omega
  · intro v hv
    rw [sum_split, sum_eq_zero (fun k hk => by rw [hreal k (mem_range.1 hk), zero_mul]), zero_add]
    have e1 : ∀ c ∈ range (mkNet s t costs caps).n, (initState s t costs caps).flow ((mkNet s t costs caps).e + c) * incid (mkNet s t costs caps) ((mkNet s t costs caps).e + c) v =
        if c = v then -(mkNet s t costs caps).dem v else 0 := by
      intro c hc
      rw [incid_art hN (mem_range.1 hc) hv, hart c (mem_range.1 hc)]
      by_cases hcv : c = v
      · subst hcv
        rw [if_pos rfl, if_pos rfl]
        by_cases hd : 0 < (mkNet s t costs caps).dem c
        · rw [if_pos hd, abs_of_pos hd]; ring
        · rw [if_neg hd, abs_of_nonpos (by omega)]; ring
      · rw [if_neg hcv, if_neg hcv, mul_zero]
    rw [sum_congr rfl e1, sum_ite_eq' _ v, if_pos (mem_range.2 hv)]
  · intro k hk hout
    by_cases hr : k < (mkNet s t costs caps).e
    · exact Or.inl (hreal k hr)
    · obtain ⟨v, hv, rfl⟩ := NetOK.art_form _ hk hr
      exact absurd (by rw [hedge]) (hout v hv)
  · intro v hv k u hk hu
    rw [hedge] at hk
    obtain rfl := Option.some.inj hk
    refine ⟨fun _ => ?_, fun hr => by omega⟩
    rw [hart v hv]
    apply abs_pos.2
    rcases dem_ne hN hv with h | h <;> omega

end

end Amd
