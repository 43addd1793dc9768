import Verif.Proof.NetAug

/-!
# Exchanging an edge of the spanning tree
-/

set_option linter.unusedSectionVars false

namespace Amd

section
variable {N : Net} {M C : ℤ} {st : NState} {L : List ℕ} {path : ℕ → List ℕ}

/-- An ancestor is the parent of a node on the way. -/
theorem Rep.exists_child {r : ℕ} (h : Rep st r L path) {v : ℕ} : ∀ q ∈ L, v ∈ path q → v ≠ q → ∃ u ∈ path q, st.parent u = some v := by
  refine h.induct (P := fun q => v ∈ path q → v ≠ q → ∃ u ∈ path q, st.parent u = some v) ?_ ?_
  · intro hv hne
    exact absurd (h.path_root_of hv) hne
  · intro q hq _ u _ hpu hp ih hv hne
    by_cases hvu : v = u
    · exact ⟨q, h.self_mem hq, by rw [hpu, hvu]⟩
    · rw [hp] at hv
      obtain ⟨x, hx, hpx⟩ := ih (by simpa [hne] using hv) hvu
      exact ⟨x, by rw [hp]; simp [hx], hpx⟩

theorem mem_cutPath {r : ℕ} (h : Rep st r L path) {c s q : ℕ} (hc : c ∈ L) (hs : path c = c :: path s) (hq : q ∈ L) (hcq : c ∈ path q) {x : ℕ} :
    x ∈ cutPath path (path s).length q ↔ x ∈ path q ∧ c ∈ path x := by
  obtain ⟨Z, hZ⟩ := h.path_suffix q hq c hcq
  have hcut : cutPath path (path s).length q = Z ++ [c] := by
    unfold cutPath
    rw [← hZ, hs]
    have : (Z ++ c :: path s).length - (path s).length = (Z ++ [c]).length := by simp; omega
    rw [this, show Z ++ c :: path s = (Z ++ [c]) ++ path s by simp, List.take_left]
  rw [hcut]
  constructor
  · intro hx
    rcases List.mem_append.1 hx with hx | hx
    · have hxq : x ∈ path q := by rw [← hZ]; simp [hx]
      refine ⟨hxq, ?_⟩
      rcases h.comparable hq hxq hcq with h1 | h1
      · exfalso
        have := h.path_nodup q hq
        rw [← hZ, List.nodup_append] at this
        exact this.2.2 x hx x h1 rfl
      · exact h1
    · simp at hx
      subst hx
      exact ⟨hcq, h.self_mem hc⟩
  · rintro ⟨hx, hcx⟩
    rw [← hZ] at hx
    rcases List.mem_append.1 hx with hx | hx
    · simp [hx]
    · have := h.antisymm hc (h.path_sub c hc x hx) hcx hx
      simp [this]

/-- What the exchange of the edge above `c` for the edge `i` between `p` and `q` does. -/
theorem swap_tree (I : Inv N st L path) (f' : ℕ → ℤ) {c p q i : ℕ} (hc : c < N.n) (hp : p < N.n) (hq : q < N.n)
    (hcq : c ∈ path q) (hcp : c ∉ path p) :
    ∃ st' L' path' d, (do
        let a ← removeEdge N (parOf st c) c { st with flow := f' }
        let a ← makeRoot N q a
        let a ← addEdge N i p q a
        updatePotentials N i p q a) = .ok st' ∧ st'.flow = f' ∧ Rep st' N.n L' path' ∧ (∀ v, v ∈ L' ↔ v ≤ N.n) ∧
      d = (if q = N.head i then st.pot p - N.cost i - st.pot q else st.pot p + N.cost i - st.pot q) ∧
      (∀ v < N.n, st'.pot v = if c ∈ path v then st.pot v + d else st.pot v) ∧ st'.parent q = some p ∧ st'.edge q = some i ∧
      (∀ v < N.n, v ≠ q →
        (st'.parent v = st.parent v ∧ st'.edge v = st.edge v ∧ v ≠ c ∧ ¬(v ∈ path q ∧ c ∈ path v)) ∨
        (∃ u < N.n, u ∈ path q ∧ c ∈ path u ∧ u ≠ c ∧ st.parent u = some v ∧ st'.parent v = some u ∧ st'.edge v = st.edge u)) ∧
      (∀ u < N.n, u ≠ c → ∃ v < N.n, v ≠ q ∧ st'.edge v = st.edge u) := by
  have hR := I.rep
  obtain ⟨-, hpar, -, -, -, hple, -⟩ := I.edgeOf_spec hc
  have hcL := I.mem_of_lt hc
  have hqL := I.mem_of_lt hq
  have hpL := I.mem_of_lt hp
  have hcpath := (I.parent_path hc hpar).2
  have hfuel := I.fuel_ok
  have slotc : N.slot c = c := slot_of_ne N (by omega)
  have slotq : N.slot q = q := slot_of_ne N (by omega)
  have slotp : N.slot p = p := slot_of_ne N (by omega)
  -- removing the edge
  have hR1 : Rep { st with flow := f' } N.n L path := hR.frame (fun _ _ => rfl) (fun _ _ => rfl) (fun _ _ => rfl) (fun _ _ => rfl) (fun _ _ => rfl)
  have hrm := remove_ok (N := N) hR1 hcL (by exact hpar) hfuel
  obtain ⟨hA, hB⟩ := remove_rep (N := N) hR1 hcL (by exact hpar) rfl
  generalize hst2 : ({ st with
      flow := f', parent := put st.parent c none, edge := put st.edge (N.slot c) none,
      next := put (put st.next (st.prev c) (st.next (st.last c))) (st.last c) c,
      prev := put (put st.prev (st.next (st.last c)) (st.prev c)) c (st.last c),
      size := fun x => if x ∈ path (parOf st c) then st.size x - st.size c else st.size x,
      last := fun x => if x ∈ path (parOf st c) ∧ st.last x = st.last c then st.prev c else st.last x } : NState) = st2 at hrm hA hB
  have hpar2 : st2.parent = put st.parent c none := by rw [← hst2]
  have hedge2 : st2.edge = put st.edge c none := by rw [← hst2, slotc]
  have hflow2 : st2.flow = f' := by rw [← hst2]
  have hpot2 : st2.pot = st.pot := by rw [← hst2]
  have hmemA : ∀ x, x ∈ L.filter (fun w => !decide (c ∈ path w)) ↔ x ≤ N.n ∧ c ∉ path x := by
    intro x
    simp [I.nodes]
  have hmemS : ∀ x, x ∈ desc L path c ↔ x < N.n ∧ c ∈ path x := by
    intro x
    rw [mem_desc, I.nodes]
    constructor
    · rintro ⟨h1, h2⟩
      refine ⟨?_, h2⟩
      by_contra hh
      have : x = N.n := by omega
      subst this
      have := hR.path_root_of h2
      omega
    · rintro ⟨h1, h2⟩
      exact ⟨h1.le, h2⟩
  have hcut : ∀ x, x ∈ cutPath path (path (parOf st c)).length q ↔ x ∈ path q ∧ c ∈ path x := fun x => mem_cutPath hR hcL hcpath hqL hcq
  have hqS : q ∈ desc L path c := (hmemS q).2 ⟨hq, hcq⟩
  have hnS : N.n ∉ desc L path c := fun h => by have := ((hmemS _).1 h).1; omega
  have hlenS : (desc L path c).length ≤ innerFuel N := (List.length_filter_le _ _).trans hfuel
  -- rerooting
  obtain ⟨st3, S', path3, hmk, hR3, hperm, hout, hch⟩ := makeRoot_rep hB hqS hnS hlenS
  have hdisj : ∀ x ∈ L.filter (fun w => !decide (c ∈ path w)), x ∉ desc L path c := by
    intro x hx hx'
    exact ((hmemA x).1 hx).2 ((hmemS x).1 hx').2
  have hA3 : Rep st3 N.n (L.filter fun w => !decide (c ∈ path w)) path :=
    hA.frame (fun v hv => hout.parent v (hdisj v hv)) (fun v hv => hout.size v (hdisj v hv)) (fun v hv => hout.next v (hdisj v hv))
      (fun v hv => hout.prev v (hdisj v hv)) (fun v hv => hout.last v (hdisj v hv))
  have hdisj3 : ∀ x ∈ L.filter (fun w => !decide (c ∈ path w)), x ∉ S' := fun x hx hx' => hdisj x hx (hperm.mem_iff.1 hx')
  have hpA : p ∈ L.filter (fun w => !decide (c ∈ path w)) := (hmemA p).2 ⟨hp.le, hcp⟩
  -- adding the edge
  have hadd := add_ok (N := N) hA3 hR3 hdisj3 hpA i ((List.length_filter_le _ _).trans hfuel)
  obtain ⟨A, C', hAC, hR4, -⟩ := add_rep (N := N) hA3 hR3 hdisj3 hpA i rfl
  generalize hst4 : ({ st3 with
      parent := put st3.parent q (some p), edge := put st3.edge (N.slot q) (some i),
      next := put (put st3.next (st3.last p) q) (st3.last q) (st3.next (st3.last p)),
      prev := put (put st3.prev q (st3.last p)) (st3.next (st3.last p)) (st3.last q),
      size := fun x => if x ∈ path p then st3.size x + st3.size q else st3.size x,
      last := fun x => if x ∈ path p ∧ st3.last x = st3.last p then st3.last q else st3.last x } : NState) = st4 at hadd hR4
  have hpar4 : st4.parent = put st3.parent q (some p) := by rw [← hst4]
  have hedge4 : st4.edge = put st3.edge q (some i) := by rw [← hst4, slotq]
  have hflow4 : st4.flow = f' := by rw [← hst4]; exact hout.flow.trans hflow2
  have hpot4 : st4.pot = st.pot := by rw [← hst4]; exact hout.pot.trans hpot2
  have hmem4 : ∀ v, v ∈ A ++ S' ++ C' ↔ v ≤ N.n := by
    intro v
    have h1 : v ∈ A ++ C' ↔ v ≤ N.n ∧ c ∉ path v := by rw [← hAC]; exact hmemA v
    have h2 : v ∈ S' ↔ v < N.n ∧ c ∈ path v := by rw [hperm.mem_iff]; exact hmemS v
    simp only [List.mem_append] at h1 ⊢
    constructor
    · rintro ((h | h) | h)
      · exact (h1.1 (Or.inl h)).1
      · exact (h2.1 h).1.le
      · exact (h1.1 (Or.inr h)).1
    · intro hv
      by_cases hcv : c ∈ path v
      · have hvS : v ∈ desc L path c := mem_desc.2 ⟨(I.nodes v).2 hv, hcv⟩
        exact Or.inl (Or.inr (hperm.mem_iff.2 hvS))
      · rcases h1.2 ⟨hv, hcv⟩ with h | h
        · exact Or.inl (Or.inl h)
        · exact Or.inr h
  have hlen4 : (A ++ S' ++ C').length ≤ innerFuel N := by
    have : (A ++ S' ++ C').Subperm (List.range (N.n + 1)) := hR4.nodup.subperm fun x hx => by
      rw [hmem4] at hx
      simp
      omega
    have := this.length_le
    unfold innerFuel
    simp at this ⊢
    omega
  have hdesc4 : ∀ x, x ∈ desc (A ++ S' ++ C') (joinPath path path3 S' p) q ↔ x < N.n ∧ c ∈ path x := by
    intro x
    rw [mem_desc, hmem4]
    unfold joinPath
    by_cases hxS : x ∈ S'
    · rw [if_pos hxS]
      have h2 := (hmemS x).1 (hperm.mem_iff.1 hxS)
      exact ⟨fun _ => h2, fun _ => ⟨h2.1.le, by simp [hR3.root_mem_path x hxS]⟩⟩
    · rw [if_neg hxS]
      constructor
      · rintro ⟨h1, h2⟩
        exfalso
        have h3 : x ∈ L.filter (fun w => !decide (c ∈ path w)) := by
          rw [hmemA]
          refine ⟨h1, fun h => hxS ?_⟩
          rw [hperm.mem_iff, mem_desc, I.nodes]
          exact ⟨h1, h⟩
        have h4 := hA.path_sub x h3 q h2
        exact ((hmemA q).1 h4).2 hcq
      · intro h
        exact absurd (hperm.mem_iff.2 ((hmemS x).2 h)) hxS
  have hn4 : N.n ∉ desc (A ++ S' ++ C') (joinPath path path3 S' p) q := fun h => by have := ((hdesc4 _).1 h).1; omega
  have hq4 : q ∈ A ++ S' ++ C' := (hmem4 q).2 hq.le
  have hup := updatePotentials_eq (N := N) hR4 (i := i) (p := p) hq4 hn4 hlen4 rfl
  rw [slotp, slotq, hpot4] at hup
  generalize hd : (if q = N.head i then st.pot p - N.cost i - st.pot q else st.pot p + N.cost i - st.pot q) = d at hup
  generalize hg : (fun x => if x ∈ desc (A ++ S' ++ C') (joinPath path path3 S' p) q then st.pot x + d else st.pot x) = g at hup
  have hpot5 : ∀ x, g x = if x ∈ desc (A ++ S' ++ C') (joinPath path path3 S' p) q then st.pot x + d else st.pot x := fun x => by rw [← hg]
  have hR5 : Rep { st4 with pot := g } N.n (A ++ S' ++ C') (joinPath path path3 S' p) :=
    hR4.frame (fun _ _ => rfl) (fun _ _ => rfl) (fun _ _ => rfl) (fun _ _ => rfl) (fun _ _ => rfl)
  refine ⟨{ st4 with pot := g }, A ++ S' ++ C', joinPath path path3 S' p, d, ?_, ?_, ?_, hmem4, rfl, ?_, ?_, ?_, ?_, ?_⟩
  · rw [hrm]
    simp only [bind, Except.bind]
    rw [hmk]
    simp only []
    rw [hadd]
    simp only []
    exact hup
  · exact hflow4
  · exact hR5
  · intro v hv
    simp only
    rw [hpot5]
    by_cases h : c ∈ path v
    · rw [if_pos ((hdesc4 v).2 ⟨hv, h⟩), if_pos h]
    · rw [if_neg (fun hh => h ((hdesc4 v).1 hh).2), if_neg h]
  · rw [hpar4, put_same]
  · rw [hedge4, put_same]
  · intro v hv hvq
    rw [hpar4, hedge4, put_ne _ _ hvq, put_ne _ _ hvq]
    by_cases hcv : c ∈ path v
    · have hvS := (hmemS v).2 ⟨hv, hcv⟩
      obtain ⟨k1, k2⟩ := hch v hvS hvq
      by_cases hvp : v ∈ path q
      · right
        obtain ⟨u, hu, hpu⟩ := hB.exists_child q hqS ((hcut v).2 ⟨hvp, hcv⟩) hvq
        have huc : u ≠ c := by
          rintro rfl
          rw [hpar2, put_same] at hpu
          cases hpu
        obtain ⟨e1, e2⟩ := k2 u hu hpu
        rw [hpar2, put_ne _ _ huc] at hpu
        rw [hedge2, put_ne _ _ huc] at e2
        obtain ⟨hu1, hu2⟩ := (hcut u).1 hu
        have hun : u < N.n := by
          have huL := hR.path_sub q hqL u hu1
          exact ((hmemS u).1 (mem_desc.2 ⟨huL, hu2⟩)).1
        exact ⟨u, hun, hu1, hu2, huc, hpu, e1, e2⟩
      · left
        have hvc : v ≠ c := by
          rintro rfl
          exact hvp hcq
        obtain ⟨e1, e2⟩ := k1 fun h => hvp ((hcut v).1 h).1
        rw [hpar2, put_ne _ _ hvc] at e1
        rw [hedge2, put_ne _ _ hvc] at e2
        exact ⟨e1, e2, hvc, fun h => hvp h.1⟩
    · left
      have hvS : v ∉ desc L path c := fun h => hcv ((hmemS v).1 h).2
      have hvc : v ≠ c := by
        rintro rfl
        exact hcv (hR.self_mem hcL)
      refine ⟨?_, ?_, hvc, fun h => hcv h.2⟩
      · rw [hout.parent v hvS, hpar2, put_ne _ _ hvc]
      · rw [hout.edge v hvS, hedge2, put_ne _ _ hvc]
  · intro u hu huc
    rw [hedge4]
    by_cases hcu : c ∈ path u
    · have huS := (hmemS u).2 ⟨hu, hcu⟩
      by_cases hup' : u ∈ path q
      · -- the parent of `u` gets the edge
        obtain ⟨-, hparu, -, -, -, hle, -⟩ := I.edgeOf_spec hu
        have hpu := (I.parent_path hu hparu).2
        have hcv : c ∈ path (parOf st u) := by
          rw [hpu] at hcu
          rcases List.mem_cons.1 hcu with h | h
          · exact absurd h.symm huc
          · exact h
        have hvS : parOf st u ∈ desc L path c := mem_desc.2 ⟨(I.nodes _).2 hle, hcv⟩
        have hvn := ((hmemS _).1 hvS).1
        have hvq : parOf st u ≠ q := by
          intro h
          have h1 : q ∈ path u := by
            rw [hpu, h]
            exact List.mem_cons_of_mem _ (hR.self_mem hqL)
          have := hR.antisymm (I.mem_of_lt hu) hqL hup' h1
          subst this
          rw [h] at hpu
          have := congrArg List.length hpu
          simp at this
        obtain ⟨k1, k2⟩ := hch _ hvS hvq
        obtain ⟨e1, e2⟩ := k2 u ((hcut u).2 ⟨hup', hcu⟩) (by rw [hpar2, put_ne _ _ huc]; exact hparu)
        refine ⟨parOf st u, hvn, hvq, ?_⟩
        rw [put_ne _ _ hvq, e2, hedge2, put_ne _ _ huc]
      · have huq : u ≠ q := by
          rintro rfl
          exact hup' (hR.self_mem hqL)
        obtain ⟨k1, -⟩ := hch u huS huq
        obtain ⟨-, e2⟩ := k1 fun h => hup' ((hcut u).1 h).1
        refine ⟨u, hu, huq, ?_⟩
        rw [put_ne _ _ huq, e2, hedge2, put_ne _ _ huc]
    · have huq : u ≠ q := by
        rintro rfl
        exact hcu hcq
      have huS : u ∉ desc L path c := fun h => hcu ((hmemS u).1 h).2
      refine ⟨u, hu, huq, ?_⟩
      rw [put_ne _ _ huq, hout.edge u huS, hedge2, put_ne _ _ huc]

end

end Amd
