import Verif.Proof.NetFlow

/-!
# The cycle of an entering edge and the leaving edge
-/

set_option linter.unusedSectionVars false

namespace Amd

open Finset

/-- The cycle closed by the entering edge `i` from `p` to `q`: the branches `Yp`, `Yq` of `p` and `q` below their common ancestor `w`. -/
structure CycleOf (N : Net) (st : NState) (L : List ℕ) (path : ℕ → List ℕ) (i p q w : ℕ) (Yp Yq : List ℕ) : Prop where
  ent : Ent N st i p q
  bp : Branch path L p w Yp
  bq : Branch path L q w Yq
  disj : ∀ x ∈ Yp, x ∉ path q
  disj' : ∀ x ∈ Yq, x ∉ path p

/-- The list of edges and starting nodes of the cycle. -/
def cycList (st : NState) (i p : ℕ) (Yp Yq : List ℕ) : List (ℕ × ℕ) := downPairs st Yp ++ (i, p) :: upPairs st Yq

section
variable {N : Net} {M C : ℤ} {st : NState} {L : List ℕ} {path : ℕ → List ℕ} {i p q w : ℕ} {Yp Yq : List ℕ}

theorem mem_down {x : ℕ × ℕ} : x ∈ downPairs st Yp ↔ ∃ c ∈ Yp, x = (edgeOf st c, parOf st c) := by
  unfold downPairs
  simp [eq_comm]

theorem mem_up {x : ℕ × ℕ} : x ∈ upPairs st Yq ↔ ∃ c ∈ Yq, x = (edgeOf st c, c) := by
  unfold upPairs
  simp [eq_comm]

theorem mem_cycList {x : ℕ × ℕ} : x ∈ cycList st i p Yp Yq ↔
    (∃ c ∈ Yp, x = (edgeOf st c, parOf st c)) ∨ x = (i, p) ∨ ∃ c ∈ Yq, x = (edgeOf st c, c) := by
  unfold cycList
  rw [List.mem_append, List.mem_cons, mem_down, mem_up]

theorem Branch.lt (I : Inv N st L path) (b : Branch path L p w Yp) {c : ℕ} (hc : c ∈ Yp) : c < N.n :=
  I.lt_of_mem (b.sub I.rep c hc).1 (b.sub I.rep c hc).2.1

theorem Branch.mem_path (b : Branch path L p w Yp) {c : ℕ} (hc : c ∈ Yp) : c ∈ path p := by
  rw [b.eq]
  simp [hc]

/-- A branch that ends at the root has a last node below the root. -/
theorem Branch.top (I : Inv N st L path) : ∀ (Y : List ℕ) (p : ℕ), Branch path L p N.n Y → p ≠ N.n → ∃ c ∈ Y, parOf st c = N.n := by
  intro Y
  induction Y with
  | nil =>
    intro p b hp
    exact absurd (b.nil I.rep) hp
  | cons y Y ih =>
    intro p b hp
    obtain ⟨rfl, hpn, u, hu, hpu, b'⟩ := b.cons I.rep
    by_cases hun : u = N.n
    · exact ⟨y, by simp, by simp [parOf, hpu, hun]⟩
    · obtain ⟨c, hc, h⟩ := ih u b' hun
      exact ⟨c, by simp [hc], h⟩

theorem Branch.root_of_top (I : Inv N st L path) (b : Branch path L p w Yp) {c : ℕ} (hc : c ∈ Yp) (h : parOf st c = N.n) : w = N.n := by
  obtain ⟨-, -, h1, h2⟩ := b.sub I.rep c hc
  have hlt := b.lt I hc
  have h3 := (I.parent_path hlt (I.edgeOf_spec hlt).2.1).2
  rw [h, I.rep.rootPath] at h3
  rw [h3] at h1
  simp at h1
  rcases h1 with h1 | h1
  · exact absurd h1.symm h2
  · exact h1

namespace CycleOf

theorem edge_ne (hN : NetOK N M C) (I : Inv N st L path) (K : CycleOf N st L path i p q w Yp Yq) {v : ℕ} (hv : v < N.n) : edgeOf st v ≠ i := by
  intro h
  have := (K.ent.facts hN I).2.2.2.2.1 v hv
  rw [(I.edgeOf_spec hv).1, h] at this
  exact this rfl

theorem not_both (K : CycleOf N st L path i p q w Yp Yq) {c : ℕ} (h : c ∈ Yp) (h' : c ∈ Yq) : False :=
  K.disj c h (K.bq.mem_path h')

theorem fst_nodup (hN : NetOK N M C) (I : Inv N st L path) (K : CycleOf N st L path i p q w Yp Yq) :
    ((cycList st i p Yp Yq).map Prod.fst).Nodup := by
  have h1 := branch_nodup I K.bp
  have h2 := branch_nodup I K.bq
  unfold cycList downPairs upPairs
  rw [List.map_append, List.map_cons, List.map_map, List.map_map]
  have e1 : (Yp.reverse.map (Prod.fst ∘ fun c => (edgeOf st c, parOf st c))) = (Yp.map (edgeOf st)).reverse := by
    rw [← List.map_reverse]
    rfl
  have e2 : (Yq.map (Prod.fst ∘ fun c => (edgeOf st c, c))) = Yq.map (edgeOf st) := rfl
  rw [e1, e2, List.nodup_append]
  refine ⟨by simpa using h1, ?_, ?_⟩
  · rw [List.nodup_cons]
    refine ⟨?_, h2⟩
    intro h
    obtain ⟨c, hc, h⟩ := List.mem_map.1 h
    exact K.edge_ne hN I (K.bq.lt I hc) h
  · intro a ha b hb
    rintro rfl
    rw [List.mem_reverse] at ha
    obtain ⟨c, hc, rfl⟩ := List.mem_map.1 ha
    rcases List.mem_cons.1 hb with h | h
    · exact K.edge_ne hN I (K.bp.lt I hc) h
    · obtain ⟨c', hc', h⟩ := List.mem_map.1 h
      have := I.edgeOf_inj (K.bq.lt I hc') (K.bp.lt I hc) h
      subst this
      exact K.not_both hc hc'

theorem fst_lt (I : Inv N st L path) (K : CycleOf N st L path i p q w Yp Yq) : ∀ x ∈ cycList st i p Yp Yq, x.1 < N.e + N.n := by
  intro x hx
  rcases mem_cycList.1 hx with ⟨c, hc, rfl⟩ | rfl | ⟨c, hc, rfl⟩
  · exact (I.edgeOf_spec (K.bp.lt I hc)).2.2.1
  · have := K.ent.lt
    simp only
    omega
  · exact (I.edgeOf_spec (K.bq.lt I hc)).2.2.1

theorem snd_unique (hN : NetOK N M C) (I : Inv N st L path) (K : CycleOf N st L path i p q w Yp Yq) {k s s' : ℕ}
    (h : (k, s) ∈ cycList st i p Yp Yq) (h' : (k, s') ∈ cycList st i p Yp Yq) : s = s' := by
  have := List.inj_on_of_nodup_map (K.fst_nodup hN I) h h' rfl
  exact (Prod.mk.inj this).2

theorem res_nonneg (I : Inv N st L path) (K : CycleOf N st L path i p q w Yp Yq) : ∀ x ∈ cycList st i p Yp Yq, 0 ≤ resCap N st x.1 x.2 := by
  intro x hx
  have := I.flow x.1 (K.fst_lt I x hx)
  unfold resCap
  split_ifs <;> omega

/-- In a star both ends of the entering edge are at the root. -/
theorem star_source (hN : NetOK N M C) (I : Inv N st L path) (K : CycleOf N st L path i p q w Yp Yq) (h : realFlow N st = 0) :
    p < N.ns ∧ (∀ c ∈ Yp, c = p) ∧ (∀ c ∈ Yq, c = q) := by
  have hs := star_of_zero hN I h
  obtain ⟨hp, hq, -, -, -, -, -, hsrc⟩ := K.ent.facts hN I
  have hpath : ∀ v < N.n, path v = [v, N.n] := by
    intro v hv
    have := (I.parent_path hv (I.edgeOf_spec hv).2.1).2
    rwa [hs v hv, I.rep.rootPath] at this
  refine ⟨hsrc ?_, ?_, ?_⟩
  · have h0 : ∀ k ∈ range N.e, st.flow k = 0 :=
      (sum_eq_zero_iff_of_nonneg fun k hk => (I.flow k (by have := mem_range.1 hk; omega)).1).1 h
    exact h0 i (mem_range.2 K.ent.lt)
  · intro c hc
    have h1 := K.bp.mem_path hc
    have h2 := K.bp.lt I hc
    rw [hpath p hp] at h1
    simp at h1
    omega
  · intro c hc
    have h1 := K.bq.mem_path hc
    have h2 := K.bq.lt I hc
    rw [hpath q hq] at h1
    simp at h1
    omega

/-- Flow can be pushed down along the branch of `p`: the tree is strongly feasible. -/
theorem down_pos (hN : NetOK N M C) (I : Inv N st L path) (K : CycleOf N st L path i p q w Yp Yq) {c : ℕ} (hc : c ∈ Yp) :
    0 < resCap N st (edgeOf st c) (parOf st c) := by
  have hlt := K.bp.lt I hc
  obtain ⟨he, hpar, hk, hj, -, -, hne⟩ := I.edgeOf_spec hlt
  obtain ⟨s1, s2⟩ := I.sf c hlt _ _ he hpar
  unfold resCap
  by_cases ht : N.tail (edgeOf st c) = parOf st c
  · rw [if_pos ht]
    by_cases hr : edgeOf st c < N.e
    · have := s2 hr ht
      omega
    · have hpn : parOf st c = N.n := by
        rw [I.art_iff hN hlt] at hr
        simpa using hr
      have hE := I.art_edge hN hlt hpn
      have hd : 0 < N.dem c := by
        by_contra hd
        have h1 := hN.tail_art c hlt
        rw [if_neg hd, ← hE, ht] at h1
        omega
      rw [hE, hN.cap_art c hlt]
      have hsnk : N.ns ≤ c := by
        rcases dem_ne hN hlt with h | h
        · omega
        · exact h.1
      have hF : 0 < realFlow N st := by
        rcases (realFlow_nonneg I).eq_or_lt with h | h
        · obtain ⟨h1, h2, -⟩ := K.star_source hN I h.symm
          have := h2 c hc
          omega
        · exact h
      have := sink_art_lt hN I hF hlt hsnk
      omega
  · rw [if_neg ht]
    rcases hj with ⟨a, b⟩ | ⟨a, b⟩
    · exact s1 a
    · exact absurd a ht

/-- The signed cost of the cycle is the reduced cost of the entering edge, so it is impossible to pass the root from a source to a sink. -/
theorem no_two_forward (hN : NetOK N M C) (I : Inv N st L path) (K : CycleOf N st L path i p q w Yp Yq) {c c' : ℕ} (hc : c ∈ Yp) (hc' : c' ∈ Yq)
    (h1 : parOf st c = N.n) (h2 : parOf st c' = N.n) (d1 : 0 < N.dem c) (d2 : ¬0 < N.dem c') : False := by
  obtain ⟨hp, hq, -, -, -, -, hrc, -⟩ := K.ent.facts hN I
  have hlt := K.bp.lt I hc
  have hlt' := K.bq.lt I hc'
  have a1 := pi_near hN I hp hlt (K.bp.mem_path hc)
  have a2 := pi_near hN I hq hlt' (K.bq.mem_path hc')
  have b1 := pi_top hN I hlt h1
  have b2 := pi_top hN I hlt' h2
  rw [if_pos d1] at b1
  rw [if_neg d2] at b2
  have hneg := K.ent.neg
  have hcl := cost_le_sum hN K.ent.lt
  have hc0 := hN.cost_nonneg i K.ent.lt
  have hM : 3 * costSum N ≤ M := hN.cost_le
  have hMp := hN.M_pos
  rw [abs_le] at a1 a2
  rw [← hrc] at hneg
  unfold sgn at hneg
  split_ifs at hneg <;> linarith

/-- The edges at the root in a cycle: the leaving edge is never one of them traversed from its tail. -/
theorem leaving_art (hN : NetOK N M C) (I : Inv N st L path) (K : CycleOf N st L path i p q w Yp Yq) {X Y : List (ℕ × ℕ)} {x : ℕ × ℕ}
    (hsplit : cycList st i p Yp Yq = X ++ x :: Y) (hX : ∀ y ∈ X, resCap N st x.1 x.2 < resCap N st y.1 y.2)
    (hY : ∀ y ∈ Y, resCap N st x.1 x.2 ≤ resCap N st y.1 y.2) (hart : ¬x.1 < N.e) : N.tail x.1 ≠ x.2 := by
  intro ht
  have hx : x ∈ cycList st i p Yp Yq := by rw [hsplit]; simp
  have hmin : ∀ y ∈ cycList st i p Yp Yq, resCap N st x.1 x.2 ≤ resCap N st y.1 y.2 := by
    intro y hy
    rw [hsplit] at hy
    rcases List.mem_append.1 hy with h | h
    · exact (hX y h).le
    · rcases List.mem_cons.1 h with h | h
      · rw [h]
      · exact hY y h
  obtain ⟨hp, hq, -⟩ := K.ent.facts hN I
  rcases mem_cycList.1 hx with ⟨c, hc, rfl⟩ | rfl | ⟨c, hc, rfl⟩
  · -- going down from the root to a sink
    simp only at ht hart hmin
    have hlt := K.bp.lt I hc
    have hpn : parOf st c = N.n := by
      rw [I.art_iff hN hlt] at hart
      simpa using hart
    have hE := I.art_edge hN hlt hpn
    have hd : 0 < N.dem c := by
      by_contra hd
      have h1 := hN.tail_art c hlt
      rw [if_neg hd, ← hE, ht] at h1
      omega
    have hw := K.bp.root_of_top I hc hpn
    subst hw
    obtain ⟨c', hc', hpn'⟩ := K.bq.top I Yq q (by omega)
    have hlt' := K.bq.lt I hc'
    by_cases hd' : 0 < N.dem c'
    · have hF : 0 < realFlow N st := by
        rcases (realFlow_nonneg I).eq_or_lt with h | h
        · obtain ⟨h1, h2, -⟩ := K.star_source hN I h.symm
          have h3 := h2 c hc
          have h4 := hN.src c (by omega)
          omega
        · exact h
      have hE' := I.art_edge hN hlt' hpn'
      have hne : c ≠ c' := by
        rintro rfl
        exact K.not_both hc hc'
      have s1 : N.ns ≤ c := by rcases dem_ne hN hlt with h | h <;> omega
      have s2 : N.ns ≤ c' := by rcases dem_ne hN hlt' with h | h <;> omega
      have h1 := sink_pair_lt hN I hF hlt s1 hlt' s2 hne
      have h2 := hmin (edgeOf st c', c') (mem_cycList.2 (Or.inr (Or.inr ⟨c', hc', rfl⟩)))
      have t' := hN.tail_art c' hlt'
      rw [if_pos hd', ← hE'] at t'
      simp only [resCap] at h2
      rw [if_pos ht, if_neg (by omega), hE, hE', hN.cap_art c hlt] at h2
      omega
    · exact K.no_two_forward hN I hc hc' hpn hpn' hd hd'
  · exact hart K.ent.lt
  · -- going up from a source to the root
    simp only at ht hart hmin hX
    have hlt := K.bq.lt I hc
    have hpn : parOf st c = N.n := by
      rw [I.art_iff hN hlt] at hart
      simpa using hart
    have hE := I.art_edge hN hlt hpn
    have hd : ¬0 < N.dem c := by
      intro hd
      have h1 := hN.tail_art c hlt
      rw [if_pos hd, ← hE, ht] at h1
      omega
    have hw := K.bq.root_of_top I hc hpn
    subst hw
    obtain ⟨c', hc', hpn'⟩ := K.bp.top I Yp p (by omega)
    have hlt' := K.bp.lt I hc'
    by_cases hd' : 0 < N.dem c'
    · exact K.no_two_forward hN I hc' hc hpn' hpn hd' hd
    · have hE' := I.art_edge hN hlt' hpn'
      have hne : c' ≠ c := by
        rintro rfl
        exact K.not_both hc' hc
      have s1 : c < N.ns := by rcases dem_ne hN hlt with h | h <;> omega
      have s2 : c' < N.ns := by rcases dem_ne hN hlt' with h | h <;> omega
      have h1 := source_pair_le hN I hlt' s2 hlt s1 hne
      have hxD : (edgeOf st c, c) ∉ downPairs st Yp := by
        intro h
        obtain ⟨b, hb, h⟩ := mem_down.1 h
        have := I.edgeOf_inj hlt (K.bp.lt I hb) (Prod.mk.inj h).1
        subst this
        exact K.not_both hb hc
      have hDX : ∀ y ∈ downPairs st Yp, y ∈ X := by
        unfold cycList at hsplit
        rw [List.append_eq_append_iff] at hsplit
        rcases hsplit with ⟨a, ha, -⟩ | ⟨a, ha, hb⟩
        · intro y hy
          rw [ha]
          simp [hy]
        · cases a with
          | nil =>
            intro y hy
            rw [ha] at hy
            simpa using hy
          | cons z a =>
            simp only [List.cons_append, List.cons.injEq] at hb
            exact absurd (by rw [ha, hb.1]; simp) hxD
      have h2 := hX (edgeOf st c', parOf st c') (hDX _ (mem_down.2 ⟨c', hc', rfl⟩))
      have t' := hN.tail_art c' hlt'
      rw [if_neg hd', ← hE'] at t'
      simp only [resCap] at h2
      rw [if_pos ht, if_neg (by omega), hE, hE', hN.cap_art c hlt] at h2
      omega

end CycleOf

end

end Amd
