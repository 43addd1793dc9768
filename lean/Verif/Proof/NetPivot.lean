import Verif.Proof.NetSwap

/-!
# One pivot keeps the invariant and makes progress
-/

set_option linter.unusedSectionVars false

namespace Amd

open Finset

section
variable {N : Net} {M C : ℤ} {st : NState} {L : List ℕ} {path : ℕ → List ℕ} {i p q w : ℕ} {Yp Yq : List ℕ}

/-- Total cost of the flows, with the edges at the root. -/
def totalCost (N : Net) (st : NState) : ℤ := ∑ k ∈ range (N.e + N.n), st.flow k * N.cost k

/-- Sum of the potentials. -/
def potSum (N : Net) (st : NState) : ℤ := ∑ v ∈ range N.n, st.pot v

theorem parOf_eq {v u : ℕ} (h : st.parent v = some u) : parOf st v = u := by simp [parOf, h]

theorem edgeOf_eq {v k : ℕ} (h : st.edge v = some k) : edgeOf st v = k := by simp [edgeOf, h]

/-- The invariant after an exchange, from conditions on the new flows. -/
theorem inv_swap (hN : NetOK N M C) (I : Inv N st L path) (f' : ℕ → ℤ) {c p q i : ℕ} (hi : i < N.e) (hc : c < N.n) (hp : p < N.n) (hq : q < N.n)
    (hcq : c ∈ path q) (hcp : c ∉ path p) (hj : Joins N i p q)
    (hb : ∀ k < N.e + N.n, 0 ≤ f' k ∧ f' k ≤ N.cap k) (hcons : ∀ v < N.n, ∑ k ∈ range (N.e + N.n), f' k * incid N k v = -N.dem v)
    (hleave : f' (edgeOf st c) = 0 ∨ (edgeOf st c < N.e ∧ f' (edgeOf st c) = N.cap (edgeOf st c)))
    (hsame : ∀ k, k ≠ i → (∀ v < N.n, st.edge v ≠ some k) → f' k = st.flow k)
    (s1 : SFat N f' i q p) (s2 : ∀ v < N.n, v ≠ c → ¬(v ∈ path q ∧ c ∈ path v) → SFat N f' (edgeOf st v) v (parOf st v))
    (s3 : ∀ u < N.n, u ∈ path q → c ∈ path u → u ≠ c → SFat N f' (edgeOf st u) (parOf st u) u) :
    ∃ st' L' path' d, (do
        let a ← removeEdge N (parOf st c) c { st with flow := f' }
        let a ← makeRoot N q a
        let a ← addEdge N i p q a
        updatePotentials N i p q a) = .ok st' ∧ Inv N st' L' path' ∧ st'.flow = f' ∧
      d = -(sgn N i p * N.cost i - piOf N st p + piOf N st q) ∧ (0 < d → potSum N st < potSum N st') := by
  obtain ⟨st', L', path', d, hok, hflow, hrep, hnodes, hd, hpot, hpq, heq, hch, hkeep⟩ := swap_tree I f' (i := i) hc hp hq hcq hcp
  have hreal := hN.real_lt hi
  have hhd := NetOK.hd_real hi
  have hd' : d = -(sgn N i p * N.cost i - piOf N st p + piOf N st q) := by
    rw [hd, piOf_of_lt hp, piOf_of_lt hq]
    unfold sgn
    rw [hhd] at hreal
    rcases hj with ⟨a, b⟩ | ⟨a, b⟩
    · rw [hhd] at b
      rw [if_pos b.symm, if_pos a]
      ring
    · rw [hhd] at b
      rw [if_neg (by omega), if_neg (by omega)]
      ring
  have hpi : ∀ v ≤ N.n, piOf N st' v = if c ∈ path v then piOf N st v + d else piOf N st v := by
    intro v hv
    by_cases hvn : v = N.n
    · subst hvn
      have hcn : c ∉ path N.n := fun h => by
        have := I.rep.path_root_of h
        omega
      rw [if_neg hcn]
      simp [piOf]
    · rw [piOf_of_lt (by omega), piOf_of_lt (by omega)]
      exact hpot v (by omega)
  -- edges of the old tree
  have hrcold : ∀ u < N.n, u ≠ c → rcOf N st' (edgeOf st u) = 0 := by
    intro u hu huc
    obtain ⟨-, hpar, hk, hjo, hrc, hle, hne⟩ := I.edgeOf_spec hu
    have hpu := (I.parent_path hu hpar).2
    have hcc : c ∈ path u ↔ c ∈ path (parOf st u) := by
      rw [hpu]
      simp [Ne.symm huc]
    unfold rcOf at hrc ⊢
    rcases hjo with ⟨a, b⟩ | ⟨a, b⟩
    · rw [a, b] at hrc ⊢
      rw [hpi u hu.le, hpi _ hle]
      by_cases h : c ∈ path u
      · rw [if_pos h, if_pos (hcc.1 h)]; linarith
      · rw [if_neg h, if_neg (fun hh => h (hcc.2 hh))]; linarith
    · rw [a, b] at hrc ⊢
      rw [hpi u hu.le, hpi _ hle]
      by_cases h : c ∈ path u
      · rw [if_pos h, if_pos (hcc.1 h)]; linarith
      · rw [if_neg h, if_neg (fun hh => h (hcc.2 hh))]; linarith
  have hrci : rcOf N st' i = 0 := by
    have e1 := hpi p hp.le
    have e2 := hpi q hq.le
    rw [if_neg hcp] at e1
    rw [if_pos hcq] at e2
    unfold rcOf
    unfold sgn at hd'
    rcases hj with ⟨a, b⟩ | ⟨a, b⟩
    · rw [if_pos a] at hd'
      rw [a, b, e1, e2]
      linarith
    · rw [if_neg (by omega)] at hd'
      rw [a, b, e1, e2]
      linarith
  refine ⟨st', L', path', d, hok, ⟨hrep, hnodes, ?_, ?_, ?_, ?_, ?_⟩, hflow, hd', ?_⟩
  · intro v hv
    by_cases hvq : v = q
    · subst hvq
      exact ⟨i, p, heq, hpq, by omega, hj.symm, hrci⟩
    · rcases hch v hv hvq with ⟨a1, a2, a3, a4⟩ | ⟨u, hu, a1, a2, a3, a4, a5, a6⟩
      · obtain ⟨he, hpar, hk, hjo, -, -, -⟩ := I.edgeOf_spec hv
        exact ⟨edgeOf st v, parOf st v, a2.trans he, a1.trans hpar, hk, hjo, hrcold v hv a3⟩
      · obtain ⟨he, hpar, hk, hjo, -, -, -⟩ := I.edgeOf_spec hu
        rw [parOf_eq a4] at hjo
        exact ⟨edgeOf st u, u, a6.trans he, a5, hk, hjo.symm, hrcold u hu a3⟩
  · rw [hflow]; exact hb
  · rw [hflow]; exact hcons
  · rw [hflow]
    intro k hk hout
    have hki : k ≠ i := by
      rintro rfl
      exact hout q hq heq
    by_cases hold : ∀ v < N.n, st.edge v ≠ some k
    · rw [hsame k hki hold]
      exact I.out k hk hold
    · push Not at hold
      obtain ⟨u, hu, hue⟩ := hold
      by_cases huc : u = c
      · subst huc
        rw [← edgeOf_eq hue]
        exact hleave
      · obtain ⟨v, hv, -, hve⟩ := hkeep u hu huc
        exact absurd (hve.trans hue) (hout v hv)
  · rw [hflow]
    intro v hv k u hvk hvu
    change SFat N f' k v u
    by_cases hvq : v = q
    · subst hvq
      rw [heq] at hvk
      rw [hpq] at hvu
      obtain rfl := Option.some.inj hvk
      obtain rfl := Option.some.inj hvu
      exact s1
    · rcases hch v hv hvq with ⟨a1, a2, a3, a4⟩ | ⟨x, hx, a1, a2, a3, a4, a5, a6⟩
      · obtain ⟨he, hpar, -⟩ := I.edgeOf_spec hv
        rw [a2, he] at hvk
        rw [a1, hpar] at hvu
        obtain rfl := Option.some.inj hvk
        obtain rfl := Option.some.inj hvu
        exact s2 v hv a3 a4
      · obtain ⟨he, -⟩ := I.edgeOf_spec hx
        rw [a6, he] at hvk
        rw [a5] at hvu
        obtain rfl := Option.some.inj hvk
        obtain rfl := Option.some.inj hvu
        have := s3 x hx a1 a2 a3
        rwa [parOf_eq a4] at this
  · intro hdpos
    unfold potSum
    apply sum_lt_sum
    · intro v hv
      rw [hpot v (mem_range.1 hv)]
      split_ifs <;> omega
    · refine ⟨q, mem_range.2 hq, ?_⟩
      rw [hpot q hq, if_pos hcq]
      omega

theorem Branch.split (I : Inv N st L path) (b : Branch path L p w Yp) {Y1 Y2 : List ℕ} {c : ℕ} (hY : Yp = Y1 ++ c :: Y2) {u : ℕ} (hu : u ∈ path p) (hcu : c ∈ path u) :
    u ∈ Y1 ∨ u = c := by
  have hcY : c ∈ Yp := by rw [hY]; simp
  have hcL := (b.sub I.rep c hcY).1
  have huL := I.rep.path_sub p b.mem u hu
  by_contra hh
  push Not at hh
  have huc : u ∈ path c := by
    rcases I.rep.comparable b.mem hu (b.mem_path hcY) with h | h
    · exact h
    · -- `u` is on the path of `p` after `c`
      obtain ⟨Z, hZ⟩ := I.rep.path_suffix p b.mem c (b.mem_path hcY)
      have hnd := I.rep.path_nodup p b.mem
      have hcp : ∃ R, path c = c :: R := by
        obtain ⟨v, -, -, h⟩ := I.rep.step c hcL (b.sub I.rep c hcY).2.1
        exact ⟨_, h⟩
      obtain ⟨R, hR⟩ := hcp
      have e1 : path p = Y1 ++ c :: (Y2 ++ path w) := by rw [b.eq, hY]; simp
      have e2 : Z ++ c :: R = Y1 ++ c :: (Y2 ++ path w) := by rw [← e1, ← hZ, hR]
      obtain ⟨-, e3⟩ := nodup_split e2 (by rw [e2, ← e1]; exact hnd)
      rw [hR, e3]
      rw [e1] at hu
      simp only [List.mem_append, List.mem_cons] at hu ⊢
      rcases hu with h1 | h1
      · exact absurd h1 hh.1
      · exact h1
  exact hh.2 (I.rep.antisymm huL hcL huc hcu)

theorem Branch.mem_of_split (I : Inv N st L path) (b : Branch path L p w Yp) {Y1 Y2 : List ℕ} {c : ℕ} (hY : Yp = Y1 ++ c :: Y2) {u : ℕ} (hu : u ∈ Y1) :
    c ∈ path u := by
  have hcY : c ∈ Yp := by rw [hY]; simp
  have huY : u ∈ Yp := by rw [hY]; simp [hu]
  rcases I.rep.comparable b.mem (b.mem_path huY) (b.mem_path hcY) with h | h
  · exfalso
    obtain ⟨Z, hZ⟩ := I.rep.path_suffix p b.mem c (b.mem_path hcY)
    have hnd := I.rep.path_nodup p b.mem
    have hcL := (b.sub I.rep c hcY).1
    obtain ⟨v, -, -, hv⟩ := I.rep.step c hcL (b.sub I.rep c hcY).2.1
    have e1 : path p = Y1 ++ c :: (Y2 ++ path w) := by rw [b.eq, hY]; simp
    have e2 : Z ++ c :: path v = Y1 ++ c :: (Y2 ++ path w) := by rw [← e1, ← hZ, hv]
    obtain ⟨e3, -⟩ := nodup_split e2 (by rw [e2, ← e1]; exact hnd)
    rw [← hZ, List.nodup_append] at hnd
    exact hnd.2.2 u (by rw [e3]; exact hu) u h rfl
  · exact h

/-- One pivot: it succeeds, keeps the invariant, and either the cost goes down or the cost stays and the potentials grow. -/
theorem pivot_step (hN : NetOK N M C) (I : Inv N st L path) (E : Ent N st i p q) :
    ∃ st' L' path', pivot N i p q st = .ok st' ∧ Inv N st' L' path' ∧
      (totalCost N st' < totalCost N st ∨ (totalCost N st' = totalCost N st ∧ potSum N st < potSum N st')) := by
  obtain ⟨hp, hq, hpq, hji, htree, hres, hrc, -⟩ := E.facts hN I
  obtain ⟨cy, w, Yp, Yq, hfc, bp, bq, d1, d2, hedges, hzip⟩ := findCycle_eq I hp.le hq.le htree
  have K : CycleOf N st L path i p q w Yp Yq := ⟨E, bp, bq, d1, d2⟩
  obtain ⟨j, s, t, hfl, hmem, hδ0, hmin, hart, hlv⟩ := K.leaving hN I
  have hzip' : cy.2.zip cy.1 = cycList st i p Yp Yq := hzip
  have hbounds : ∀ k < N.e + N.n, _ := fun k hk => K.aug_bounds hN I hδ0 hmin hk
  have hcons : ∀ v < N.n, _ := fun v hv => K.aug_cons hN I (resCap N st j s) hv
  have hcost := K.aug_cost hN I (resCap N st j s)
  have hlz := K.aug_leaving hN I hmem hart
  have hneg := E.neg
  have hsame : ∀ k, k ≠ i → (∀ v < N.n, st.edge v ≠ some k) → augFlow N (resCap N st j s) (cycList st i p Yp Yq) st.flow k = st.flow k := by
    intro k hki hk
    apply augFlow_not_mem
    intro h
    obtain ⟨x, hx, rfl⟩ := List.mem_map.1 h
    rcases mem_cycList.1 hx with ⟨c, hc, rfl⟩ | rfl | ⟨c, hc, rfl⟩
    · exact hk c (bp.lt I hc) (I.edgeOf_spec (bp.lt I hc)).1
    · exact hki rfl
    · exact hk c (bq.lt I hc) (I.edgeOf_spec (bq.lt I hc)).1
  have hcost_lt : ∀ st' : NState, st'.flow = augFlow N (resCap N st j s) (cycList st i p Yp Yq) st.flow → 0 < resCap N st j s → totalCost N st' < totalCost N st := by
    intro st' hst' hpos
    unfold totalCost
    rw [hst', hcost]
    nlinarith
  have hpiv : pivot N i p q st = (if i = j then .ok { st with flow := augFlow N (resCap N st j s) (cycList st i p Yp Yq) st.flow } else do
      let a ← removeEdge N (if st.parent t ≠ some s then t else s) (if st.parent t ≠ some s then s else t)
        { st with flow := augFlow N (resCap N st j s) (cycList st i p Yp Yq) st.flow }
      let a ← makeRoot N (if leavesFirst i j cy.2 then p else q) a
      let a ← addEdge N i (if leavesFirst i j cy.2 then q else p) (if leavesFirst i j cy.2 then p else q) a
      updatePotentials N i (if leavesFirst i j cy.2 then q else p) (if leavesFirst i j cy.2 then p else q) a) := by
    unfold pivot
    rw [hfc]
    simp only [bind, Except.bind]
    rw [hzip', hfl, augment_eq]
  generalize hδ : resCap N st j s = δ at *
  generalize hf' : augFlow N δ (cycList st i p Yp Yq) st.flow = f' at *
  have hfm : ∀ {k s}, (k, s) ∈ cycList st i p Yp Yq → f' k = st.flow k + sgn N k s * δ := fun h => by rw [← hf']; exact K.aug_mem hN I δ h
  have hsfk : ∀ v < N.n, (v ∈ Yp → δ < resCap N st (edgeOf st v) (parOf st v)) → SFat N f' (edgeOf st v) v (parOf st v) :=
    fun v hv h => by rw [← hf']; exact K.aug_sf hN I hδ0 hv h
  have hres0 : ∀ k < N.e + N.n, ∀ x, 0 ≤ resF N st.flow k x := by
    intro k hk x
    have := I.flow k hk
    unfold resF
    split_ifs <;> omega
  have him : (i, p) ∈ cycList st i p Yp Yq := mem_cycList.2 (Or.inr (Or.inl rfl))
  rw [hpiv]
  cases hlv with
  | self t hpos hstrict =>
    rw [if_pos rfl]
    refine ⟨_, L, path, rfl, ⟨?_, I.nodes, I.edge, hbounds, hcons, ?_, ?_⟩, Or.inl (hcost_lt _ rfl hpos)⟩
    · exact I.rep.frame (fun _ _ => rfl) (fun _ _ => rfl) (fun _ _ => rfl) (fun _ _ => rfl) (fun _ _ => rfl)
    · intro k hk hout
      by_cases hki : k = i
      · subst hki; exact hlz
      · change f' k = 0 ∨ _ ∧ f' k = _
        rw [hsame k hki hout]
        exact I.out k hk hout
    · intro v hv k u hvk hvu
      change SFat N f' k v u
      rw [← edgeOf_eq hvk, ← parOf_eq hvu]
      exact hsfk v hv fun h => hstrict v h
  | down Y1 _ Y2 hY hpos h2 =>
    have hcY : t ∈ Yp := by rw [hY]; simp
    have hclt := bp.lt I hcY
    obtain ⟨hce, hcpar, -, -, -, -, hcne⟩ := I.edgeOf_spec hclt
    rw [if_neg (K.edge_ne hN I hclt).symm]
    have hpp : ¬(st.parent t ≠ some (parOf st t)) := by simp [hcpar]
    have hlf : leavesFirst i (edgeOf st t) cy.2 = true := by
      rw [hedges, hY]
      have e1 : (((Y1 ++ t :: Y2).map (edgeOf st)).reverse ++ i :: Yq.map (edgeOf st)) =
          (Y2.map (edgeOf st)).reverse ++ edgeOf st t :: ((Y1.map (edgeOf st)).reverse ++ i :: Yq.map (edgeOf st)) := by simp
      rw [e1]
      apply leavesFirst_true
      intro h
      rw [List.mem_reverse] at h
      obtain ⟨y, hy, hyi⟩ := List.mem_map.1 h
      exact K.edge_ne hN I (bp.lt I (by rw [hY]; simp [hy])) hyi
    simp only [hpp, if_false, hlf, if_true]
    obtain ⟨st', L', path', d, hok, hI', hflow', -, -⟩ := inv_swap hN I f' (c := t) (p := q) (q := p) (i := i) E.lt hclt hq hp
      (bp.mem_path hcY) (d1 t hcY) hji.symm hbounds hcons hlz hsame
      (by
        apply SFat_of_res hpq.symm
        rw [(res_after hpq hji (hfm him)).2]
        have := hres0 i (by have := E.lt; omega) q
        omega)
      (by
        intro v hv hvc hnot
        apply hsfk v hv
        intro hvp
        rw [hY] at hvp
        simp only [List.mem_append, List.mem_cons] at hvp
        rcases hvp with h | h | h
        · exact absurd ⟨bp.mem_path (by rw [hY]; simp [h]), bp.mem_of_split I hY h⟩ hnot
        · exact absurd h hvc
        · exact h2 v h)
      (by
        intro u hu hup hcu huc
        obtain ⟨-, -, hk, hjo, -, -, hne⟩ := I.edgeOf_spec hu
        have huY : u ∈ Yp := by
          rcases bp.split I hY hup hcu with h | h
          · rw [hY]; simp [h]
          · exact absurd h huc
        have hm : (edgeOf st u, parOf st u) ∈ cycList st i p Yp Yq := mem_cycList.2 (Or.inl ⟨u, huY, rfl⟩)
        apply SFat_of_res hne.symm
        rw [(res_after hne hjo.symm (hfm hm)).2]
        have := hres0 _ hk u
        omega)
    exact ⟨st', L', path', hok, hI', Or.inl (hcost_lt st' hflow' hpos)⟩
  | up Y1 _ Y2 hY hstrict hi h1 =>
    have hcY : s ∈ Yq := by rw [hY]; simp
    have hclt := bq.lt I hcY
    obtain ⟨hce, hcpar, -, -, -, hcle, hcne⟩ := I.edgeOf_spec hclt
    rw [if_neg (K.edge_ne hN I hclt).symm]
    have hpp : st.parent (parOf st s) ≠ some s := by
      intro h
      have h1 := (I.parent_path hclt hcpar).2
      have hlt : parOf st s < N.n := by
        rcases Nat.lt_or_ge (parOf st s) N.n with h2 | h2
        · exact h2
        · have : parOf st s = N.n := by omega
          rw [this, I.rep.rootParent] at h
          cases h
      have h2 := (I.parent_path hlt h).2
      rw [h2] at h1
      have := congrArg List.length h1
      simp at this
      omega
    have hlf : leavesFirst i (edgeOf st s) cy.2 = false := by
      rw [hedges]
      apply leavesFirst_false (K.edge_ne hN I hclt).symm
      intro h
      rw [List.mem_reverse] at h
      obtain ⟨y, hy, hyi⟩ := List.mem_map.1 h
      have := I.edgeOf_inj (bp.lt I hy) hclt hyi
      subst this
      exact K.not_both hy hcY
    rw [if_pos hpp, if_pos hpp]
    simp only [hlf, Bool.false_eq_true, if_false]
    obtain ⟨st', L', path', d, hok, hI', hflow', hd, hgrow⟩ := inv_swap hN I f' (c := s) (p := p) (q := q) (i := i) E.lt hclt hp hq
      (bq.mem_path hcY) (d2 s hcY) hji hbounds hcons hlz hsame
      (by
        apply SFat_of_res hpq
        rw [(res_after hpq hji (hfm him)).1]
        unfold resCap at hi
        unfold resF
        omega)
      (by
        intro v hv hvc hnot
        exact hsfk v hv fun h => hstrict v h)
      (by
        intro u hu huq hcu huc
        obtain ⟨-, -, hk, hjo, -, -, hne⟩ := I.edgeOf_spec hu
        have huY : u ∈ Y1 := by
          rcases bq.split I hY huq hcu with h | h
          · exact h
          · exact absurd h huc
        have hm : (edgeOf st u, u) ∈ cycList st i p Yp Yq := mem_cycList.2 (Or.inr (Or.inr ⟨u, by rw [hY]; simp [huY], rfl⟩))
        apply SFat_of_res hne.symm
        rw [(res_after hne.symm hjo (hfm hm)).1]
        have := h1 u huY
        unfold resCap at this
        unfold resF
        omega)
    refine ⟨st', L', path', hok, hI', ?_⟩
    rcases hδ0.eq_or_lt with h0 | h0
    · right
      constructor
      · unfold totalCost
        rw [hflow', hcost, ← h0, zero_mul, add_zero]
      · apply hgrow
        rw [hd, hrc]
        omega
    · exact Or.inl (hcost_lt st' hflow' h0)

end

end Amd
