import Verif.Proof.ThreadOps

/-!
# Re-rooting, potentials, apex and paths
-/

set_option linter.unusedSectionVars false

namespace Amd

theorem cyc_next_mem {next prev : ℕ → ℕ} {L : List ℕ} (h : Cyc next prev L) {x : ℕ} (hx : x ∈ L) : next x ∈ L ∧ prev x ∈ L := by
  cases L with
  | nil => simp at hx
  | cons r L =>
    unfold Cyc at h
    simp only [List.head?_cons, Option.toList_some] at h
    rw [List.isChain_iff_forall_rel_of_append_cons_cons] at h
    constructor
    · obtain ⟨X, Y, hXY⟩ := List.append_of_mem hx
      cases Y with
      | nil =>
        have := h (a := x) (b := r) (l₁ := X) (l₂ := []) (by rw [hXY]; simp)
        rw [this.1]; simp
      | cons y Y =>
        have := h (a := x) (b := y) (l₁ := X) (l₂ := Y ++ [r]) (by rw [hXY]; simp)
        rw [this.1, hXY]; simp
    · rcases List.mem_cons.1 hx with rfl | hx
      · obtain ⟨l, z, hz⟩ : ∃ l z, x :: L = l ++ [z] := by
          rcases List.eq_nil_or_concat (x :: L) with h | ⟨l, z, h⟩
          · cases h
          · exact ⟨l, z, by simpa using h⟩
        have := h (a := z) (b := x) (l₁ := l) (l₂ := []) (by rw [hz]; simp)
        rw [this.2, hz]; simp
      · obtain ⟨X, Y, rfl⟩ := List.append_of_mem hx
        obtain ⟨l, z, hz⟩ : ∃ l z, r :: X = l ++ [z] := by
          rcases List.eq_nil_or_concat (r :: X) with h | ⟨l, z, h⟩
          · cases h
          · exact ⟨l, z, by simpa using h⟩
        have := h (a := z) (b := x) (l₁ := l) (l₂ := Y ++ [r]) (by
          rw [← List.cons_append, hz]
          simp)
        rw [this.2, ← List.cons_append, hz]
        simp

/-- `st'` differs from `st` only in the tree arrays at the nodes of `L`. -/
structure SameOutside (L : List ℕ) (st st' : NState) : Prop where
  flow : st'.flow = st.flow
  pot : st'.pot = st.pot
  parent : ∀ x, x ∉ L → st'.parent x = st.parent x
  size : ∀ x, x ∉ L → st'.size x = st.size x
  next : ∀ x, x ∉ L → st'.next x = st.next x
  prev : ∀ x, x ∉ L → st'.prev x = st.prev x
  last : ∀ x, x ∉ L → st'.last x = st.last x
  edge : ∀ x, x ∉ L → st'.edge x = st.edge x

theorem SameOutside.refl (L : List ℕ) (st : NState) : SameOutside L st st :=
  ⟨rfl, rfl, fun _ _ => rfl, fun _ _ => rfl, fun _ _ => rfl, fun _ _ => rfl, fun _ _ => rfl, fun _ _ => rfl⟩

theorem SameOutside.trans {L : List ℕ} {a b c : NState} (h : SameOutside L a b) (h' : SameOutside L b c) : SameOutside L a c :=
  ⟨h'.flow.trans h.flow, h'.pot.trans h.pot, fun x hx => (h'.parent x hx).trans (h.parent x hx),
    fun x hx => (h'.size x hx).trans (h.size x hx), fun x hx => (h'.next x hx).trans (h.next x hx),
    fun x hx => (h'.prev x hx).trans (h.prev x hx), fun x hx => (h'.last x hx).trans (h.last x hx),
    fun x hx => (h'.edge x hx).trans (h.edge x hx)⟩

theorem SameOutside.mono {L L' : List ℕ} {a b : NState} (h : SameOutside L a b) (hs : ∀ x ∈ L, x ∈ L') : SameOutside L' a b :=
  ⟨h.flow, h.pot, fun x hx => h.parent x fun hh => hx (hs x hh), fun x hx => h.size x fun hh => hx (hs x hh),
    fun x hx => h.next x fun hh => hx (hs x hh), fun x hx => h.prev x fun hh => hx (hs x hh),
    fun x hx => h.last x fun hh => hx (hs x hh), fun x hx => h.edge x fun hh => hx (hs x hh)⟩

theorem slot_of_ne (N : Net) {v : ℕ} (h : v ≠ N.n) : N.slot v = v := by simp [Net.slot, h]

section
variable {N : Net} {st : NState} {t : ℕ} {L : List ℕ} {path : ℕ → List ℕ}

theorem rotate_outside (h : Rep st t L path) {q : ℕ} (hq : q ∈ L) (hn : N.n ∉ L) : SameOutside L st (rotate N t q st) := by
  have ht := h.root_mem
  have hlq : st.last q ∈ L := (mem_desc.1 (h.last_mem hq)).1
  have hlt : st.last t ∈ L := (mem_desc.1 (h.last_mem ht)).1
  have hpq := (cyc_next_mem h.cyc hq).2
  have hnl := (cyc_next_mem h.cyc hlq).1
  have hm : (if st.last t = st.last q then st.prev q else st.last t) ∈ L := by split_ifs <;> assumption
  have ne : ∀ {x y : ℕ}, x ∉ L → y ∈ L → x ≠ y := fun h1 h2 h3 => h1 (h3 ▸ h2)
  have st' : N.slot t = t := slot_of_ne N fun h => hn (h ▸ ht)
  have sq' : N.slot q = q := slot_of_ne N fun h => hn (h ▸ hq)
  refine ⟨rfl, rfl, ?_, ?_, ?_, ?_, ?_, ?_⟩ <;> intro x hx
  · show put (put _ _ _) _ _ x = _
    rw [put_ne _ _ (ne hx hq), put_ne _ _ (ne hx ht)]
  · show put (put _ _ _) _ _ x = _
    rw [put_ne _ _ (ne hx hq), put_ne _ _ (ne hx ht)]
  · show put (put (put (put _ _ _) _ _) _ _) (if st.last t = st.last q then st.prev q else st.last t) _ x = _
    rw [put_ne _ _ (ne hx hm), put_ne _ _ (ne hx hlq), put_ne _ _ (ne hx hlq), put_ne _ _ (ne hx hpq)]
  · show put (put (put (put _ _ _) _ _) _ _) q _ x = _
    rw [put_ne _ _ (ne hx hq), put_ne _ _ (ne hx ht), put_ne _ _ (ne hx hq), put_ne _ _ (ne hx hnl)]
  · show put (if _ then put _ _ _ else _) q _ x = _
    rw [put_ne _ _ (ne hx hq)]
    split_ifs
    · exact put_ne _ _ (ne hx ht)
    · rfl
  · show put (put _ _ _) _ _ x = _
    rw [st', sq', put_ne _ _ (ne hx hq), put_ne _ _ (ne hx ht)]

/-- Re-rooting at `q` reverses the path from `q` and keeps everything else. -/
theorem rotateAll_rep : ∀ (l : List ℕ) (st : NState) (t : ℕ) (L : List ℕ) (path : ℕ → List ℕ) (q : ℕ), Rep st t L path → q ∈ L →
    N.n ∉ L → (path q).reverse = l → ∃ L' path', Rep (rotateAll N l st) q L' path' ∧ L'.Perm L ∧ SameOutside L st (rotateAll N l st) ∧
      ∀ v ∈ L, v ≠ q →
        (v ∉ path q → (rotateAll N l st).parent v = st.parent v ∧ (rotateAll N l st).edge v = st.edge v) ∧
        (∀ u ∈ path q, st.parent u = some v → (rotateAll N l st).parent v = some u ∧ (rotateAll N l st).edge v = st.edge u) := by
  intro l
  induction l with
  | nil =>
    intro st t L path q h hq hn hl
    have := h.self_mem hq
    rw [List.reverse_eq_nil_iff] at hl
    rw [hl] at this
    simp at this
  | cons a l ih =>
    intro st t L path q h hq hn hl
    have hpq : path q = l.reverse ++ [a] := by rw [← List.reverse_reverse (path q), hl]; simp
    have hat : a = t := by
      have := h.path_getLast q hq
      rw [hpq] at this
      simpa using this
    subst hat
    cases l with
    | nil =>
      have hqa : q = a := by
        have := h.self_mem hq
        rw [hpq] at this
        simpa using this
      subst hqa
      refine ⟨L, path, ?_, List.Perm.refl _, ?_, ?_⟩
      · simpa [rotateAll] using h
      · simpa [rotateAll] using SameOutside.refl L st
      · intro v hv hvq
        refine ⟨fun _ => by simp [rotateAll], ?_⟩
        intro u hu hpu
        rw [hpq] at hu
        simp at hu
        subst hu
        rw [h.rootParent] at hpu
        cases hpu
    | cons b l =>
      have hb : b ∈ path q := by rw [hpq]; simp
      have hbL : b ∈ L := h.path_sub q hq b hb
      have hnd := h.path_nodup q hq
      have hab : a ≠ b := by
        rintro rfl
        rw [hpq] at hnd
        simp [List.nodup_append] at hnd
      obtain ⟨u, hu, hpu, hpb⟩ := h.step b hbL (Ne.symm hab)
      have hu' : path u = [a] := by
        obtain ⟨Z, hZ⟩ := h.path_suffix q hq b hb
        rw [hpb] at hZ
        have h1 : Z ++ b :: path u = l.reverse ++ b :: [a] := by rw [hZ, hpq]; simp
        exact (nodup_split h1 (by rw [hZ]; exact hnd)).2
      have hua : u = a := by
        have := h.self_mem hu
        rw [hu'] at this
        simpa using this
      rw [hua] at hpu
      have hrot := rotate_rep (N := N) h hbL hpu
      have hperm : (desc L path b ++ L.filter fun w => !decide (b ∈ path w)).Perm L := List.filter_append_perm _ _
      have hqa : q ≠ a := by
        rintro rfl
        rw [h.rootPath] at hb
        simp at hb
        exact hab hb.symm
      have hpath1 : rotPath path b q = (path q).dropLast := by
        unfold rotPath
        rw [if_pos hb]
      have hpath1' : rotPath path b q = l.reverse ++ [b] := by
        rw [hpath1, hpq]
        simp
      obtain ⟨L', path', h1, h2, h3, h4⟩ := ih (rotate N a b st) b _ _ q hrot (hperm.mem_iff.2 hq)
        (fun hh => hn (hperm.mem_iff.1 hh)) (by rw [hpath1']; simp)
      have hsame : SameOutside L st (rotateAll N (a :: b :: l) st) := by
        rw [rotateAll]
        exact (rotate_outside h hbL hn).trans (h3.mono fun x hx => hperm.mem_iff.1 hx)
      have sa : N.slot a = a := slot_of_ne N fun hh => hn (hh ▸ h.root_mem)
      have sb : N.slot b = b := slot_of_ne N fun hh => hn (hh ▸ hbL)
      have hpar : ∀ v, v ≠ a → v ≠ b → (rotate N a b st).parent v = st.parent v ∧ (rotate N a b st).edge v = st.edge v := by
        intro v h1 h2
        constructor
        · show put (put _ _ _) _ _ v = _
          rw [put_ne _ _ h2, put_ne _ _ h1]
        · show put (put _ _ _) _ _ v = _
          rw [sa, sb, put_ne _ _ h2, put_ne _ _ h1]
      have ha1 : (rotate N a b st).parent a = some b ∧ (rotate N a b st).edge a = st.edge b := by
        constructor
        · show put (put _ _ _) _ _ a = _
          rw [put_ne _ _ hab, put_same]
        · show put (put _ _ _) _ _ a = _
          rw [sa, sb, put_ne _ _ hab, put_same]
      have hanotin : a ∉ rotPath path b q := by
        rw [hpath1']
        rw [hpq, List.nodup_append] at hnd
        intro hh
        exact hnd.2.2 a (by simp at hh ⊢; tauto) a (by simp) rfl
      refine ⟨L', path', by rw [rotateAll]; exact h1, h2.trans hperm, hsame, ?_⟩
      intro v hv hvq
      obtain ⟨h5, h6⟩ := h4 v (hperm.mem_iff.2 hv) hvq
      rw [rotateAll]
      constructor
      · intro hvp
        have hva : v ≠ a := by rintro rfl; exact hvp (h.root_mem_path q hq)
        have hvb : v ≠ b := by rintro rfl; exact hvp hb
        have := h5 (by rw [hpath1]; exact fun hh => hvp (List.dropLast_subset _ hh))
        rw [this.1, this.2]
        exact hpar v hva hvb
      · intro u hu' hpu'
        have hua : u ≠ a := by
          rintro rfl
          rw [h.rootParent] at hpu'
          cases hpu'
        by_cases hub : u = b
        · subst hub
          rw [hpu] at hpu'
          obtain rfl := Option.some.inj hpu'
          have := h5 hanotin
          rw [this.1, this.2]
          exact ha1
        · have hup := hpar u hua hub
          have := h6 u (by
            rw [hpath1']
            rw [hpq] at hu'
            simp at hu' ⊢
            tauto) (by rw [hup.1]; exact hpu')
          rw [this.1, this.2]
          exact ⟨rfl, hup.2⟩

theorem makeRoot_rep (h : Rep st t L path) {q : ℕ} (hq : q ∈ L) (hn : N.n ∉ L) (hf : L.length ≤ innerFuel N) :
    ∃ st' L' path', makeRoot N q st = .ok st' ∧ Rep st' q L' path' ∧ L'.Perm L ∧ SameOutside L st st' ∧
      ∀ v ∈ L, v ≠ q → (v ∉ path q → st'.parent v = st.parent v ∧ st'.edge v = st.edge v) ∧
        (∀ u ∈ path q, st.parent u = some v → st'.parent v = some u ∧ st'.edge v = st.edge u) := by
  obtain ⟨L', path', h1, h2, h3, h4⟩ := rotateAll_rep (N := N) _ st t L path q h hq hn rfl
  refine ⟨_, L', path', ?_, h1, h2, h3, h4⟩
  unfold makeRoot
  rw [ancestors_eq st (path q) _ _ _ (h.follows q hq) ((h.path_length_le hq).trans hf)]
  simp only [List.append_nil]
  rfl

/-- The loop of `_update_potentials` adds `d` at each node of a segment of the thread except the first. -/
theorem potLoop_eq (d : ℤ) (z : ℕ) {next prev : ℕ → ℕ} : ∀ (l : List ℕ) (q : ℕ) (fuel : ℕ) (pot : ℕ → ℤ), (q :: l).IsChain (Link next prev) →
    (q :: l).Nodup → (q :: l).getLast? = some z → N.n ∉ l → l.length < fuel →
      potLoop N d z next fuel q pot = .ok fun x => if x ∈ l then pot x + d else pot x := by
  intro l
  induction l with
  | nil =>
    intro q fuel pot _ _ hz _ hf
    cases fuel with
    | zero => simp at hf
    | succ fuel =>
      simp at hz
      rw [potLoop, if_pos hz]
      simp
  | cons y l ih =>
    intro q fuel pot hc hnd hz hn hf
    cases fuel with
    | zero => simp at hf
    | succ fuel =>
      have hqz : q ≠ z := by
        rintro rfl
        have h1 : (y :: l).getLast? = some q := by simpa using hz
        exact (List.nodup_cons.1 hnd).1 (mem_of_getLast? h1)
      rw [List.isChain_cons_cons] at hc
      rw [potLoop, if_neg hqz, hc.1.1]
      have hys : N.slot y = y := slot_of_ne N (by rintro rfl; simp at hn)
      rw [hys]
      refine (ih y fuel _ hc.2 (List.nodup_cons.1 hnd).2 (by simpa using hz) (by simp at hn; exact hn.2) (by simpa using hf)).trans ?_
      congr 1
      funext x
      have hyl := (List.nodup_cons.1 (List.nodup_cons.1 hnd).2).1
      by_cases hxy : x = y
      · subst hxy
        simp [hyl, put]
      · simp [hxy, put]

theorem updatePotentials_eq (h : Rep st t L path) {i p q : ℕ} (hq : q ∈ L) (hn : N.n ∉ desc L path q)
    (hf : L.length ≤ innerFuel N) {d : ℤ}
    (hd : d = if q = N.head i then st.pot (N.slot p) - N.cost i - st.pot (N.slot q) else st.pot (N.slot p) + N.cost i - st.pot (N.slot q)) :
    updatePotentials N i p q st = .ok { st with pot := fun x => if x ∈ desc L path q then st.pot x + d else st.pot x } := by
  unfold updatePotentials
  rw [← hd]
  obtain ⟨A, C, hL⟩ := h.seg q hq
  have hfirst := h.first q hq
  obtain ⟨l, hl⟩ : ∃ l, desc L path q = q :: l := by
    cases hdl : desc L path q with
    | nil => rw [hdl] at hfirst; simp at hfirst
    | cons b l =>
      rw [hdl] at hfirst
      simp at hfirst
      exact ⟨l, by rw [hfirst]⟩
  have hch : (q :: l).IsChain (Link st.next st.prev) := by
    have := h.cyc
    unfold Cyc at this
    have h1 := this.left_of_append
    rw [hL] at h1
    have := h1.left_of_append.right_of_append
    rwa [hl] at this
  have hsq : N.slot q = q := slot_of_ne N (by rintro rfl; exact hn (by rw [hl]; simp))
  have hnd := h.desc_nodup q
  have hlen : (desc L path q).length ≤ L.length := List.length_filter_le _ _
  rw [hl] at hnd hn hlen
  have hlast := h.last q hq
  rw [hl] at hlast
  simp only
  rw [potLoop_eq d (st.last q) l q _ _ hch hnd hlast (by simp at hn; exact hn.2) (by simp at hlen; omega)]
  simp only [bind, Except.bind]
  congr 2
  funext x
  rw [hl, hsq]
  have hql := (List.nodup_cons.1 hnd).1
  by_cases hxq : x = q
  · subst hxq
    simp [hql, put]
  · simp [hxq, put]

/-! ### Apex and paths -/

theorem size_inj_root (h : Rep st t L path) {p q : ℕ} (_hp : p ∈ L) (hq : q ∈ L) (hs : st.size p ≤ st.size q) (hne : p ≠ q) : p ≠ t := by
  rintro rfl
  have := h.size_lt hq (h.root_mem_path q hq) hne
  omega

theorem findApex_eq (h : Rep st t L path) : ∀ (fuel p q : ℕ), p ∈ L → q ∈ L → (path p).length + (path q).length ≤ fuel →
    ∃ w, findApex st fuel p q = .ok w ∧ w ∈ path p ∧ w ∈ path q ∧ ∀ x ∈ path p, x ∈ path q → x ∈ path w := by
  intro fuel
  induction fuel with
  | zero =>
    intro p q hp hq hf
    have := h.self_mem hp
    have h0 : path p = [] := List.length_eq_zero_iff.1 (by omega)
    rw [h0] at this
    simp at this
  | succ fuel ih =>
    intro p q hp hq hf
    rw [findApex]
    by_cases h1 : st.size p < st.size q
    · rw [if_pos h1]
      have hpt := size_inj_root h hp hq h1.le (by rintro rfl; omega)
      obtain ⟨u, hu, hpu, hpp⟩ := h.step p hp hpt
      obtain ⟨w, hw, hw1, hw2, hw3⟩ := ih u q hu hq (by rw [hpp] at hf; simp at hf; omega)
      refine ⟨w, ?_, by rw [hpp]; simp [hw1], hw2, ?_⟩
      · simp only [parentE, hpu, bind, Except.bind]
        exact hw
      · intro x hx hxq
        rw [hpp] at hx
        rcases List.mem_cons.1 hx with rfl | hx
        · exfalso
          by_cases hxq' : x = q
          · subst hxq'; omega
          · have := h.size_lt hq hxq hxq'
            omega
        · exact hw3 x hx hxq
    · rw [if_neg h1]
      by_cases h2 : st.size q < st.size p
      · rw [if_pos h2]
        have hqt := size_inj_root h hq hp h2.le (by rintro rfl; omega)
        obtain ⟨u, hu, hpu, hpq⟩ := h.step q hq hqt
        obtain ⟨w, hw, hw1, hw2, hw3⟩ := ih p u hp hu (by rw [hpq] at hf; simp at hf; omega)
        refine ⟨w, ?_, hw1, by rw [hpq]; simp [hw2], ?_⟩
        · simp only [parentE, hpu, bind, Except.bind]
          exact hw
        · intro x hx hxq
          rw [hpq] at hxq
          rcases List.mem_cons.1 hxq with rfl | hxq
          · exfalso
            by_cases hxp' : x = p
            · subst hxp'; omega
            · have := h.size_lt hp hx hxp'
              omega
          · exact hw3 x hx hxq
      · rw [if_neg h2]
        by_cases h3 : p = q
        · subst h3
          rw [if_neg (by simp)]
          exact ⟨p, rfl, h.self_mem hp, h.self_mem hp, fun x hx _ => hx⟩
        · rw [if_pos h3]
          have heq : st.size p = st.size q := by omega
          have hpt := size_inj_root h hp hq heq.le h3
          have hqt := size_inj_root h hq hp heq.ge (Ne.symm h3)
          obtain ⟨u, hu, hpu, hpp⟩ := h.step p hp hpt
          obtain ⟨u', hu', hpu', hpq⟩ := h.step q hq hqt
          obtain ⟨w, hw, hw1, hw2, hw3⟩ := ih u u' hu hu' (by rw [hpp, hpq] at hf; simp at hf; omega)
          refine ⟨w, ?_, by rw [hpp]; simp [hw1], by rw [hpq]; simp [hw2], ?_⟩
          · simp only [parentE, hpu, hpu', bind, Except.bind]
            exact hw
          · intro x hx hxq
            have hxp' : x ≠ p := by
              rintro rfl
              have := h.size_lt hq hxq h3
              omega
            have hxq' : x ≠ q := by
              rintro rfl
              have := h.size_lt hp hx (Ne.symm h3)
              omega
            rw [hpp] at hx
            rw [hpq] at hxq
            rcases List.mem_cons.1 hx with hx | hx
            · exact absurd hx hxp'
            rcases List.mem_cons.1 hxq with hxq | hxq
            · exact absurd hxq hxq'
            exact hw3 x hx hxq

/-- The edge above a node (0 if there is none). -/
def edgeOf (st : NState) (v : ℕ) : ℕ := (st.edge v).getD 0

/-- The parent of a node (0 if there is none). -/
def parOf (st : NState) (v : ℕ) : ℕ := (st.parent v).getD 0

theorem tracePath_eq (h : Rep st N.n L path) (he : ∀ v ∈ L, v ≠ N.n → ∃ k, st.edge v = some k) {w : ℕ} : ∀ (Y : List ℕ) (fuel p : ℕ),
    p ∈ L → w ∈ path p → path p = Y ++ path w → Y.length < fuel →
      tracePath N st fuel p w = .ok (Y ++ [w], Y.map (edgeOf st)) := by
  intro Y
  induction Y with
  | nil =>
    intro fuel p hp hw hY hf
    cases fuel with
    | zero => simp at hf
    | succ fuel =>
      have hwL := h.path_sub p hp w hw
      have hpw : p = w := by
        have h1 := h.self_mem hp
        rw [hY, List.nil_append] at h1
        exact h.antisymm hp hwL h1 hw
      rw [tracePath, if_pos hpw, hpw]
      rfl
  | cons y Y ih =>
    intro fuel p hp hw hY hf
    cases fuel with
    | zero => simp at hf
    | succ fuel =>
      have hpw : p ≠ w := by
        rintro rfl
        have := congrArg List.length hY
        simp at this
        omega
      have hpn : p ≠ N.n := by
        rintro rfl
        exact hpw (h.path_root_of hw).symm
      obtain ⟨u, hu, hpu, hpp⟩ := h.step p hp hpn
      obtain ⟨k, hk⟩ := he p hp hpn
      rw [hpp] at hY
      simp only [List.cons_append, List.cons.injEq] at hY
      obtain ⟨rfl, hY⟩ := hY
      have hwu : w ∈ path u := by
        rw [hpp] at hw
        rcases List.mem_cons.1 hw with hw | hw
        · exact absurd hw.symm hpw
        · exact hw
      rw [tracePath, if_neg hpw]
      simp only [edgeE, slot_of_ne N hpn, hk, parentE, hpu, bind, Except.bind]
      rw [ih fuel u hu hwu hY (by simpa using hf)]
      simp [edgeOf, hk]

end

end Amd
