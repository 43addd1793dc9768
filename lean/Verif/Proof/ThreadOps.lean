import Verif.Proof.Thread
import Mathlib.Tactic.Tauto
import Mathlib.Tactic.Linarith

/-!
# Cutting, re-rooting and joining threaded trees
-/

set_option linter.unusedSectionVars false

namespace Amd

/-- A list without duplicates splits at an element in one way. -/
theorem nodup_split {A C A' C' : List ℕ} {x : ℕ} (h : A ++ x :: C = A' ++ x :: C') (hn : (A ++ x :: C).Nodup) : A = A' ∧ C = C' := by
  have h1 : x ∉ A := by
    intro hx
    rw [List.nodup_append] at hn
    exact hn.2.2 x hx x (by simp) rfl
  have h2 : x ∉ A' := by
    intro hx
    rw [h, List.nodup_append] at hn
    exact hn.2.2 x hx x (by simp) rfl
  induction A generalizing A' with
  | nil =>
    cases A' with
    | nil => simpa using h
    | cons y A' =>
      simp at h h2
      exact absurd h.1 h2.1
  | cons y A ih =>
    cases A' with
    | nil =>
      simp at h h1
      exact absurd h.1.symm h1.1
    | cons y' A' =>
      simp only [List.cons_append, List.cons.injEq] at h
      obtain ⟨rfl, h⟩ := h
      obtain ⟨rfl, rfl⟩ := ih h (List.nodup_cons.1 hn).2 (by simp at h1; exact h1.2) (by simp at h2; exact h2.2)
      exact ⟨rfl, rfl⟩

theorem exists_dropLast {l : List ℕ} {a : ℕ} (h : l.getLast? = some a) : ∃ l', l = l' ++ [a] :=
  ⟨l.dropLast, (List.dropLast_append_getLast? a h).symm⟩

theorem getLast?_filter_of_last {P : ℕ → Bool} {l : List ℕ} {a : ℕ} (h : l.getLast? = some a) (ha : P a = true) :
    (l.filter P).getLast? = some a := by
  obtain ⟨l', rfl⟩ := exists_dropLast h
  simp [ha]

theorem head?_filter_of_head {P : ℕ → Bool} {l : List ℕ} {a : ℕ} (h : l.head? = some a) (ha : P a = true) :
    (l.filter P).head? = some a := by
  cases l with
  | nil => simp at h
  | cons b l =>
    simp at h
    subst h
    simp [ha]

/-- Two segments of a list without duplicates: if a segment `D` contains the segment `S` then the last element of `D` is the last of
`S`, or is outside `S`. -/
theorem seg_last {A S C A' D C' : List ℕ} {y z : ℕ} (h : A ++ S ++ C = A' ++ D ++ C') (hn : (A ++ S ++ C).Nodup) (hS : S.getLast? = some z)
    (hD : D.getLast? = some y) (hsub : S ⊆ D) : y = z ∧ C = C' ∨ y ≠ z ∧ y ∉ S := by
  obtain ⟨S0, rfl⟩ := exists_dropLast hS
  obtain ⟨D0, rfl⟩ := exists_dropLast hD
  by_cases hyz : y = z
  · subst hyz
    left
    refine ⟨rfl, ?_⟩
    have h1 : (A ++ S0) ++ y :: C = (A' ++ D0) ++ y :: C' := by simpa using h
    exact (nodup_split h1 (by simpa using hn)).2
  · right
    refine ⟨hyz, fun hy => ?_⟩
    have hy0 : y ∈ S0 := by simpa [hyz] using hy
    obtain ⟨S1, S2, rfl⟩ := List.append_of_mem hy0
    have h1 : (A ++ S1) ++ y :: (S2 ++ z :: C) = (A' ++ D0) ++ y :: C' := by simpa using h
    have h2 := (nodup_split h1 (by simpa using hn)).2
    have hz : z ∈ C' := by rw [← h2]; simp
    have hz' : z ∈ D0 ++ [y] := hsub (by simp)
    rw [h, List.nodup_append] at hn
    exact hn.2.2 z (by simp at hz' ⊢; tauto) z hz rfl

/-- The part of a path below the ancestor `t`, with `t`; `k` is the length of the path of the parent of `t`. -/
def cutPath (path : ℕ → List ℕ) (k : ℕ) (w : ℕ) : List ℕ := (path w).take ((path w).length - k)

section remove
variable {N : Net} {st : NState} {r : ℕ} {L : List ℕ} {path : ℕ → List ℕ}

theorem remove_ok (h : Rep st r L path) {s t : ℕ} (ht : t ∈ L) (hs : st.parent t = some s)
    (hf : L.length ≤ innerFuel N) :
    removeEdge N s t st = .ok { st with
      parent := put st.parent t none, edge := put st.edge (N.slot t) none,
      next := put (put st.next (st.prev t) (st.next (st.last t))) (st.last t) t,
      prev := put (put st.prev (st.next (st.last t)) (st.prev t)) t (st.last t),
      size := fun x => if x ∈ path s then st.size x - st.size t else st.size x,
      last := fun x => if x ∈ path s ∧ st.last x = st.last t then st.prev t else st.last x } := by
  have htr : t ≠ r := by
    rintro rfl
    rw [h.rootParent] at hs
    cases hs
  obtain ⟨u, hu, hpu, hp⟩ := h.step t ht htr
  rw [hs] at hpu
  obtain rfl := Option.some.inj hpu
  have hts : t ∉ path s := by
    have := h.path_nodup t ht
    rw [hp, List.nodup_cons] at this
    exact this.1
  unfold removeEdge
  refine (shrinkLoop_eq _ _ _ (path s) _ (some s) _ ?_ (h.path_nodup s hu) ((h.path_length_le hu).trans hf)).trans rfl
  refine follows_congr _ _ (h.follows s hu) ?_
  intro x hx
  exact put_ne _ _ fun hxt => hts (hxt ▸ hx)

/-- After the removal of the edge above `t` the nodes not below `t` form a tree with the old root, those below `t` one with root `t`. -/
theorem remove_rep (h : Rep st r L path) {s t : ℕ} (ht : t ∈ L) (hs : st.parent t = some s) {st' : NState}
    (hst : st' = { st with
      parent := put st.parent t none, edge := put st.edge (N.slot t) none,
      next := put (put st.next (st.prev t) (st.next (st.last t))) (st.last t) t,
      prev := put (put st.prev (st.next (st.last t)) (st.prev t)) t (st.last t),
      size := fun x => if x ∈ path s then st.size x - st.size t else st.size x,
      last := fun x => if x ∈ path s ∧ st.last x = st.last t then st.prev t else st.last x }) :
    Rep st' r (L.filter fun w => !decide (t ∈ path w)) path ∧ Rep st' t (desc L path t) (cutPath path (path s).length) := by
  have htr : t ≠ r := by
    rintro rfl
    rw [h.rootParent] at hs
    cases hs
  obtain ⟨u, hu, hpu, hp⟩ := h.step t ht htr
  rw [hs] at hpu
  obtain rfl := Option.some.inj hpu
  have hts : t ∉ path s := by
    have := h.path_nodup t ht
    rw [hp, List.nodup_cons] at this
    exact this.1
  obtain ⟨A, C, hL⟩ := h.seg t ht
  have hSz := h.last t ht
  have hSt := h.first t ht
  obtain ⟨hPA, hPC⟩ := filter_seg h.nodup hL
  have hPS : ∀ x ∈ desc L path t, decide (t ∈ path x) = true := fun x hx => by simpa using (mem_desc.1 hx).2
  have hF : (L.filter fun w => !decide (t ∈ path w)) = A ++ C := by
    have e1 : A.filter (fun w => !decide (t ∈ path w)) = A := filter_eq_self_of fun x hx => by rw [hPA x hx]; rfl
    have e2 : C.filter (fun w => !decide (t ∈ path w)) = C := filter_eq_self_of fun x hx => by rw [hPC x hx]; rfl
    have e3 : (desc L path t).filter (fun w => !decide (t ∈ path w)) = [] := filter_eq_nil_of fun x hx => by rw [hPS x hx]; rfl
    have : (L.filter fun w => !decide (t ∈ path w)) = (A ++ desc L path t ++ C).filter fun w => !decide (t ∈ path w) := by rw [← hL]
    rw [this, List.filter_append, List.filter_append, e1, e2, e3, List.append_nil]
  have hAne : A ≠ [] := by
    rintro rfl
    have := h.head
    rw [hL] at this
    simp [List.head?_append, hSt] at this
    exact htr this
  obtain ⟨a, hAa⟩ : ∃ a, A.getLast? = some a := ⟨A.getLast hAne, List.getLast?_eq_some_getLast hAne⟩
  have hAr : A.head? = some r := by
    have := h.head
    rw [hL] at this
    cases A with
    | nil => exact absurd rfl hAne
    | cons b A => simpa using this
  have hnd := h.nodup
  rw [hL] at hnd
  have hcyc := h.cyc
  rw [hL] at hcyc
  obtain ⟨-, -, -, hlink, -, -⟩ := cyc_parts hAr hAa hSt hSz hcyc
  have hprev : st.prev t = a := hlink.2
  obtain ⟨hc1, hc2⟩ := cyc_remove hnd hAr hAa hSt hSz hcyc
  rw [hprev] at hst
  have hparent : ∀ v, v ≠ t → st'.parent v = st.parent v := by
    intro v hv
    rw [hst]
    exact put_ne _ _ hv
  have hst_t : t ∈ desc L path t := h.self_mem_desc ht
  -- the element `s` and its ancestors are exactly the proper ancestors of `t`
  have hanc : ∀ v, v ∈ path t ↔ v = t ∨ v ∈ path s := fun v => by rw [hp]; simp
  constructor
  · have hmem : ∀ v, v ∈ (L.filter fun w => !decide (t ∈ path w)) ↔ v ∈ L ∧ t ∉ path v := by
      intro v; simp
    have hD : ∀ v, desc (L.filter fun w => !decide (t ∈ path w)) path v = (desc L path v).filter fun w => !decide (t ∈ path w) := by
      intro v
      unfold desc
      rw [List.filter_filter, List.filter_filter]
      congr 1
      funext w
      exact Bool.and_comm _ _
    -- the part of the subtree of `v` that is removed
    have hdis : ∀ v, v ∈ L → t ∉ path v → v ∉ path s → (desc L path v).filter (fun w => !decide (t ∈ path w)) = desc L path v := by
      intro v hv htv hvs
      apply filter_eq_self_of
      intro w hw
      rw [mem_desc] at hw
      by_contra hcon
      have htw : t ∈ path w := by simpa using hcon
      rcases h.comparable hw.1 hw.2 htw with h1 | h1
      · rcases (hanc v).1 h1 with h1 | h1
        · subst h1; exact htv (h.self_mem hv)
        · exact hvs h1
      · exact htv h1
    have hsup : ∀ v, v ∈ path s → desc L path t ⊆ desc L path v := by
      intro v hv w hw
      rw [mem_desc] at hw ⊢
      exact ⟨hw.1, h.trans hw.1 hw.2 ((hanc v).2 (Or.inr hv))⟩
    refine ⟨h.nodup.filter _, ?_, h.rootPath, ?_, ?_, ?_, ?_, ?_, ?_, ?_⟩
    · apply head?_filter_of_head h.head
      simp [h.rootPath, htr]
    · rw [hparent r htr.symm]; exact h.rootParent
    · intro v hv hvr
      rw [hmem] at hv
      obtain ⟨u, hu', hpu', hp'⟩ := h.step v hv.1 hvr
      have hvt : v ≠ t := by
        rintro rfl
        exact hv.2 (h.self_mem ht)
      refine ⟨u, ?_, ?_, hp'⟩
      · rw [hmem]
        refine ⟨hu', fun htu => hv.2 ?_⟩
        rw [hp']; simp [htu]
      · rw [hparent v hvt]; exact hpu'
    · intro v hv
      rw [hmem] at hv
      obtain ⟨A', C', hL'⟩ := h.seg v hv.1
      refine ⟨A'.filter fun w => !decide (t ∈ path w), C'.filter fun w => !decide (t ∈ path w), ?_⟩
      rw [hD]
      conv_lhs => rw [hL']
      rw [List.filter_append, List.filter_append]
    · intro v hv
      rw [hmem] at hv
      rw [hD]
      exact head?_filter_of_head (h.first v hv.1) (by simpa using hv.2)
    · intro v hv
      rw [hmem] at hv
      rw [hD, hst]
      show (if v ∈ path s then st.size v - st.size t else st.size v) = _
      by_cases hvs : v ∈ path s
      · rw [if_pos hvs, h.size v hv.1, h.size t ht]
        have e1 : (desc L path v).filter (fun w => decide (t ∈ path w)) = desc L path t := by
          unfold desc
          rw [List.filter_filter]
          apply List.filter_congr
          intro w hw
          by_cases htw : t ∈ path w
          · simp [htw, h.trans hw htw ((hanc v).2 (Or.inr hvs))]
          · simp [htw]
        have e2 := List.length_eq_length_filter_add (l := desc L path v) (fun w => decide (t ∈ path w))
        rw [e1] at e2
        omega
      · rw [if_neg hvs, hdis v hv.1 hv.2 hvs]
        exact h.size v hv.1
    · intro v hv
      rw [hmem] at hv
      rw [hD, hst]
      show _ = some (if v ∈ path s ∧ st.last v = st.last t then a else st.last v)
      by_cases hvs : v ∈ path s
      · obtain ⟨A', C', hL'⟩ := h.seg v hv.1
        have hLL : A ++ desc L path t ++ C = A' ++ desc L path v ++ C' := by rw [← hL, ← hL']
        rcases seg_last hLL hnd hSz (h.last v hv.1) (hsup v hvs) with ⟨h1, h2⟩ | ⟨h1, h2⟩
        · rw [if_pos ⟨hvs, h1⟩]
          rw [h2] at hLL
          have h3 := List.append_cancel_right hLL
          have h4 := congrArg (List.filter fun w => !decide (t ∈ path w)) h3
          rw [List.filter_append, List.filter_append] at h4
          have e1 : A.filter (fun w => !decide (t ∈ path w)) = A := filter_eq_self_of fun x hx => by rw [hPA x hx]; rfl
          have e3 : (desc L path t).filter (fun w => !decide (t ∈ path w)) = [] := filter_eq_nil_of fun x hx => by rw [hPS x hx]; rfl
          rw [e1, e3, List.append_nil] at h4
          have hne : (desc L path v).filter (fun w => !decide (t ∈ path w)) ≠ [] := by
            intro hnil
            have : v ∈ (desc L path v).filter (fun w => !decide (t ∈ path w)) := by
              simp [h.self_mem_desc hv.1, hv.2]
            rw [hnil] at this
            simp at this
          rw [h4, List.getLast?_append_of_ne_nil _ hne] at hAa
          exact hAa
        · rw [if_neg (fun hh => h1 hh.2)]
          apply getLast?_filter_of_last (h.last v hv.1)
          have h3 := h.last_mem hv.1
          have h4 : st.last v ∈ L := (mem_desc.1 h3).1
          have h5 : t ∉ path (st.last v) := fun hh => h2 (mem_desc.2 ⟨h4, hh⟩)
          simpa using h5
      · rw [if_neg (fun hh => hvs hh.1), hdis v hv.1 hv.2 hvs]
        exact h.last v hv.1
    · rw [hF, hst]
      exact hc1
  · -- the subtree
    have hcut : ∀ w ∈ desc L path t, ∃ Y, path w = Y ++ t :: path s ∧ cutPath path (path s).length w = Y ++ [t] := by
      intro w hw
      rw [mem_desc] at hw
      obtain ⟨Y, hY⟩ := h.path_suffix w hw.1 t hw.2
      rw [hp] at hY
      refine ⟨Y, hY.symm, ?_⟩
      unfold cutPath
      rw [← hY]
      have : (Y ++ t :: path s) = (Y ++ [t]) ++ path s := by simp
      rw [this, List.length_append, Nat.add_sub_cancel, List.take_left]
    have hmemcut : ∀ v ∈ desc L path t, ∀ w ∈ desc L path t, (v ∈ cutPath path (path s).length w ↔ v ∈ path w) := by
      intro v hv w hw
      obtain ⟨Y, hY, hY'⟩ := hcut w hw
      rw [hY, hY']
      simp only [List.mem_append, List.mem_cons, List.not_mem_nil, or_false]
      constructor
      · tauto
      · rintro (h1 | h1 | h1)
        · exact Or.inl h1
        · exact Or.inr h1
        · exfalso
          rw [mem_desc] at hv
          exact hts ((h.path_suffix s hu v h1).subset hv.2)
    have hDS : ∀ v ∈ desc L path t, desc (desc L path t) (cutPath path (path s).length) v = desc L path v := by
      intro v hv
      have e1 : desc (desc L path t) (cutPath path (path s).length) v = (desc L path t).filter fun w => decide (v ∈ path w) := by
        unfold desc
        apply List.filter_congr
        intro w hw
        have := hmemcut v hv w hw
        simp [this]
      rw [e1]
      unfold desc
      rw [List.filter_filter]
      apply List.filter_congr
      intro w hw
      rw [mem_desc] at hv
      by_cases hvw : v ∈ path w
      · simp [hvw, h.trans hw hvw hv.2]
      · simp [hvw]
    have hpath_t : cutPath path (path s).length t = [t] := by
      unfold cutPath
      rw [hp]
      simp
    have hsdesc : ∀ v ∈ desc L path t, v ∉ path s := by
      intro v hv hvs
      rw [mem_desc] at hv
      exact hts ((h.path_suffix s hu v hvs).subset hv.2)
    refine ⟨h.desc_nodup t, hSt, hpath_t, ?_, ?_, ?_, ?_, ?_, ?_, ?_⟩
    · rw [hst]; exact put_same _ _ _
    · intro w hw hwt
      have hw' := mem_desc.1 hw
      have hwr : w ≠ r := by
        rintro rfl
        exact htr (h.path_root_of hw'.2)
      obtain ⟨u, hu', hpu', hp'⟩ := h.step w hw'.1 hwr
      have htu : t ∈ path u := by
        have := hw'.2
        rw [hp'] at this
        rcases List.mem_cons.1 this with h1 | h1
        · exact absurd h1.symm hwt
        · exact h1
      refine ⟨u, mem_desc.2 ⟨hu', htu⟩, ?_, ?_⟩
      · rw [hparent w hwt]; exact hpu'
      · unfold cutPath
        have hle : (path s).length + 1 ≤ (path u).length := by
          have := (h.path_suffix u hu' t htu).length_le
          rw [hp] at this
          simpa using this
        rw [hp', List.length_cons]
        have : (path u).length + 1 - (path s).length = ((path u).length - (path s).length) + 1 := by omega
        rw [this, List.take_succ_cons]
    · intro v hv
      rw [hDS v hv]
      obtain ⟨A', C', hL'⟩ := h.seg v (mem_desc.1 hv).1
      refine ⟨A'.filter fun w => decide (t ∈ path w), C'.filter fun w => decide (t ∈ path w), ?_⟩
      conv_lhs => unfold desc; rw [hL']
      rw [List.filter_append, List.filter_append]
      congr 2
      apply filter_eq_self_of
      intro w hw
      rw [mem_desc] at hw
      rw [mem_desc] at hv
      simpa using h.trans hw.1 hw.2 hv.2
    · intro v hv
      rw [hDS v hv]
      exact h.first v (mem_desc.1 hv).1
    · intro v hv
      rw [hDS v hv, hst]
      show (if v ∈ path s then st.size v - st.size t else st.size v) = _
      rw [if_neg (hsdesc v hv)]
      exact h.size v (mem_desc.1 hv).1
    · intro v hv
      rw [hDS v hv, hst]
      show _ = some (if v ∈ path s ∧ st.last v = st.last t then a else st.last v)
      rw [if_neg (fun hh => hsdesc v hv hh.1)]
      exact h.last v (mem_desc.1 hv).1
    · rw [hst]
      exact hc2

end remove

section rotate
variable {N : Net} {st : NState} {p : ℕ} {L : List ℕ} {path : ℕ → List ℕ}

/-- The paths after `q`, a child of the root `p`, has become the root. -/
def rotPath (path : ℕ → List ℕ) (q w : ℕ) : List ℕ := if q ∈ path w then (path w).dropLast else path w ++ [q]

theorem rotate_rep (h : Rep st p L path) {q : ℕ} (hq : q ∈ L) (hs : st.parent q = some p) :
    Rep (rotate N p q st) q (desc L path q ++ L.filter fun w => !decide (q ∈ path w)) (rotPath path q) := by
  have hqp : q ≠ p := by
    rintro rfl
    rw [h.rootParent] at hs
    cases hs
  obtain ⟨u, hu, hpu, hpq⟩ := h.step q hq hqp
  rw [hs] at hpu
  obtain rfl := Option.some.inj hpu
  rw [h.rootPath] at hpq
  obtain ⟨A, C, hL⟩ := h.seg q hq
  have hSz := h.last q hq
  have hSt := h.first q hq
  obtain ⟨hPA, hPC⟩ := filter_seg h.nodup hL
  have hPS : ∀ x ∈ desc L path q, decide (q ∈ path x) = true := fun x hx => by simpa using (mem_desc.1 hx).2
  have hF : (L.filter fun w => !decide (q ∈ path w)) = A ++ C := by
    have e1 : A.filter (fun w => !decide (q ∈ path w)) = A := filter_eq_self_of fun x hx => by rw [hPA x hx]; rfl
    have e2 : C.filter (fun w => !decide (q ∈ path w)) = C := filter_eq_self_of fun x hx => by rw [hPC x hx]; rfl
    have e3 : (desc L path q).filter (fun w => !decide (q ∈ path w)) = [] := filter_eq_nil_of fun x hx => by rw [hPS x hx]; rfl
    have : (L.filter fun w => !decide (q ∈ path w)) = (A ++ desc L path q ++ C).filter fun w => !decide (q ∈ path w) := by rw [← hL]
    rw [this, List.filter_append, List.filter_append, e1, e2, e3, List.append_nil]
  have hAne : A ≠ [] := by
    rintro rfl
    have := h.head
    rw [hL] at this
    simp [List.head?_append, hSt] at this
    exact hqp this
  obtain ⟨a, hAa⟩ : ∃ a, A.getLast? = some a := ⟨A.getLast hAne, List.getLast?_eq_some_getLast hAne⟩
  have hAr : A.head? = some p := by
    have := h.head
    rw [hL] at this
    cases A with
    | nil => exact absurd rfl hAne
    | cons b A => simpa using this
  have hnd := h.nodup
  rw [hL] at hnd
  have hcyc := h.cyc
  rw [hL] at hcyc
  obtain ⟨-, -, -, hlink, -, -⟩ := cyc_parts hAr hAa hSt hSz hcyc
  have hprev : st.prev q = a := hlink.2
  have hlastP : L.getLast? = some (st.last p) := by
    have := h.last p hu
    rwa [h.desc_root] at this
  -- the last node of the rest
  obtain ⟨m, hm, hmdef⟩ : ∃ m, (A ++ C).getLast? = some m ∧ (if st.last p = st.last q then a else st.last p) = m := by
    rw [hL] at hlastP
    by_cases hC : C = []
    · subst hC
      rw [List.append_nil, List.getLast?_append_of_ne_nil _ (fun hn => by rw [hn] at hSz; simp at hSz), hSz] at hlastP
      refine ⟨a, by simpa using hAa, ?_⟩
      rw [if_pos (Option.some.inj hlastP).symm]
    · rw [List.getLast?_append_of_ne_nil _ hC] at hlastP
      refine ⟨st.last p, by rw [List.getLast?_append_of_ne_nil _ hC]; exact hlastP, ?_⟩
      rw [if_neg]
      intro heq
      have h1 := mem_of_getLast? hlastP
      have h2 := mem_of_getLast? hSz
      rw [List.nodup_append] at hnd
      exact hnd.2.2 (st.last q) (by simp [h2]) (st.last p) h1 heq.symm
  have hrot := cyc_rotate hnd hAr hAa hSt hSz hm hcyc
  have hparent : ∀ v, v ≠ q → v ≠ p → (rotate N p q st).parent v = st.parent v := by
    intro v hv1 hv2
    show put (put st.parent p (some q)) q none v = _
    rw [put_ne _ _ hv1, put_ne _ _ hv2]
  have hmem : ∀ v, v ∈ (desc L path q ++ L.filter fun w => !decide (q ∈ path w)) ↔ v ∈ L := by
    intro v
    simp only [List.mem_append, mem_desc, List.mem_filter, Bool.not_eq_true', decide_eq_false_iff_not]
    tauto
  have hpathlast : ∀ w ∈ L, ∃ Y, path w = Y ++ [p] ∧ p ∉ Y := by
    intro w hw
    obtain ⟨Y, hY⟩ := exists_dropLast (h.path_getLast w hw)
    refine ⟨Y, hY, fun hp => ?_⟩
    have := h.path_nodup w hw
    rw [hY, List.nodup_append] at this
    exact this.2.2 p hp p (by simp) rfl
  have hrotmem : ∀ v, v ≠ p → v ≠ q → ∀ w ∈ L, (v ∈ rotPath path q w ↔ v ∈ path w) := by
    intro v hvp hvq w hw
    unfold rotPath
    by_cases hqw : q ∈ path w
    · rw [if_pos hqw]
      obtain ⟨Y, hY, -⟩ := hpathlast w hw
      rw [hY]
      simp [hvp]
    · rw [if_neg hqw]
      simp [hvq]
  have hrotq : ∀ w ∈ L, q ∈ rotPath path q w := by
    intro w hw
    unfold rotPath
    by_cases hqw : q ∈ path w
    · rw [if_pos hqw]
      obtain ⟨Y, hY, -⟩ := hpathlast w hw
      rw [hY] at hqw ⊢
      simpa [hqp] using hqw
    · rw [if_neg hqw]
      simp
  have hrotp : ∀ w ∈ L, (p ∈ rotPath path q w ↔ q ∉ path w) := by
    intro w hw
    unfold rotPath
    by_cases hqw : q ∈ path w
    · rw [if_pos hqw]
      obtain ⟨Y, hY, hpY⟩ := hpathlast w hw
      rw [hY] at hqw ⊢
      simp at hqw
      simp [hpY, hqw]
    · rw [if_neg hqw]
      simp [hqw, h.root_mem_path w hw]
  have hDq : desc (desc L path q ++ L.filter fun w => !decide (q ∈ path w)) (rotPath path q) q = (desc L path q ++ L.filter fun w => !decide (q ∈ path w)) := by
    conv_lhs => rw [desc]
    apply filter_eq_self_of
    intro w hw
    simpa using hrotq w ((hmem w).1 hw)
  have hDp : desc (desc L path q ++ L.filter fun w => !decide (q ∈ path w)) (rotPath path q) p = L.filter fun w => !decide (q ∈ path w) := by
    conv_lhs => rw [desc]
    rw [List.filter_append, filter_eq_nil_of, filter_eq_self_of, List.nil_append]
    · intro w hw
      rw [List.mem_filter] at hw
      simpa [hrotp w hw.1] using hw.2
    · intro w hw
      rw [mem_desc] at hw
      simp [hrotp w hw.1, hw.2]
  -- other subtrees are inside or outside the subtree of `q`
  have hDv : ∀ v ∈ L, v ≠ p → v ≠ q →
      (desc (desc L path q ++ L.filter fun w => !decide (q ∈ path w)) (rotPath path q) v = desc L path v) ∧
      (((desc L path v).filter (fun w => decide (q ∈ path w)) = desc L path v ∧ (∀ w ∈ desc L path v, q ∈ path w)) ∨
       ((desc L path v).filter (fun w => !decide (q ∈ path w)) = desc L path v ∧ (∀ w ∈ desc L path v, q ∉ path w))) := by
    intro v hv hvp hvq
    have hcase : (∀ w ∈ desc L path v, q ∈ path w) ∨ (∀ w ∈ desc L path v, q ∉ path w) := by
      by_cases hqv : q ∈ path v
      · left
        intro w hw
        rw [mem_desc] at hw
        exact h.trans hw.1 hw.2 hqv
      · right
        intro w hw hqw
        rw [mem_desc] at hw
        rcases h.comparable hw.1 hqw hw.2 with h1 | h1
        · exact hqv h1
        · rw [hpq] at h1
          simp [hvp, hvq] at h1
    have e0 : desc (desc L path q ++ L.filter fun w => !decide (q ∈ path w)) (rotPath path q) v =
        (desc L path v).filter (fun w => decide (q ∈ path w)) ++ (desc L path v).filter (fun w => !decide (q ∈ path w)) := by
      have e1 : desc (desc L path q ++ L.filter fun w => !decide (q ∈ path w)) (rotPath path q) v =
          (desc L path q ++ L.filter fun w => !decide (q ∈ path w)).filter fun w => decide (v ∈ path w) := by
        conv_lhs => rw [desc]
        apply List.filter_congr
        intro w hw
        have := hrotmem v hvp hvq w ((hmem w).1 hw)
        simp [this]
      rw [e1, List.filter_append]
      unfold desc
      simp only [List.filter_filter]
      congr 1 <;> (congr 1; funext w; exact Bool.and_comm _ _)
    rcases hcase with hc | hc
    · have e1 : (desc L path v).filter (fun w => decide (q ∈ path w)) = desc L path v := filter_eq_self_of fun w hw => by simpa using hc w hw
      have e2 : (desc L path v).filter (fun w => !decide (q ∈ path w)) = [] := filter_eq_nil_of fun w hw => by simpa using hc w hw
      exact ⟨by rw [e0, e1, e2, List.append_nil], Or.inl ⟨e1, hc⟩⟩
    · have e1 : (desc L path v).filter (fun w => decide (q ∈ path w)) = [] := filter_eq_nil_of fun w hw => by simpa using hc w hw
      have e2 : (desc L path v).filter (fun w => !decide (q ∈ path w)) = desc L path v := filter_eq_self_of fun w hw => by simpa using hc w hw
      exact ⟨by rw [e0, e1, e2, List.nil_append], Or.inr ⟨e2, hc⟩⟩
  have hlen : (desc L path q).length + (L.filter fun w => !decide (q ∈ path w)).length = L.length :=
    (List.length_eq_length_filter_add (l := L) (fun w => decide (q ∈ path w))).symm
  have hsz : ∀ v, (rotate N p q st).size v = put (put st.size p (st.size p - st.size q)) q (st.size p) v := fun v => rfl
  have hla : ∀ v, (rotate N p q st).last v = put (if st.last p = st.last q then put st.last p a else st.last) q m v := by
    intro v
    show put (if st.last p = st.last q then put st.last p (st.prev q) else st.last) q (if st.last p = st.last q then st.prev q else st.last p) v = _
    rw [hprev, hmdef]
  have hlast' : (L.filter fun w => !decide (q ∈ path w)).getLast? = some m := by rw [hF]; exact hm
  have hfne : (L.filter fun w => !decide (q ∈ path w)) ≠ [] := by
    intro hn
    rw [hn] at hlast'
    simp at hlast'
  refine ⟨?_, ?_, ?_, ?_, ?_, ?_, ?_, ?_, ?_, ?_⟩
  · rw [List.nodup_append]
    refine ⟨h.desc_nodup q, h.nodup.filter _, ?_⟩
    rintro x hx y hy rfl
    rw [mem_desc] at hx
    rw [List.mem_filter] at hy
    simp [hx.2] at hy
  · rw [List.head?_append, hSt]; rfl
  · unfold rotPath
    rw [hpq]
    simp
  · show put (put st.parent p (some q)) q none q = none
    exact put_same _ _ _
  · intro v hv hvq
    rw [hmem] at hv
    by_cases hvp : v = p
    · subst hvp
      refine ⟨q, (hmem q).2 hq, ?_, ?_⟩
      · show put (put st.parent v (some q)) q none v = some q
        rw [put_ne _ _ hvq, put_same]
      · unfold rotPath
        rw [h.rootPath, hpq]
        simp [hqp]
    · obtain ⟨u, hu', hpu', hp'⟩ := h.step v hv hvp
      refine ⟨u, (hmem u).2 hu', ?_, ?_⟩
      · rw [hparent v hvq hvp]; exact hpu'
      · unfold rotPath
        rw [hp']
        have hne : path u ≠ [] := by
          intro hn
          have := h.self_mem hu'
          rw [hn] at this
          simp at this
        by_cases hqu : q ∈ path u
        · rw [if_pos (by simp [hqu]), if_pos hqu, List.dropLast_cons_of_ne_nil hne]
        · rw [if_neg (by simp [hqu]; exact fun hh => hvq hh.symm), if_neg hqu]
          rfl
  · intro v hv
    rw [hmem] at hv
    by_cases hvq : v = q
    · subst hvq
      exact ⟨[], [], by rw [hDq]; simp⟩
    by_cases hvp : v = p
    · subst hvp
      exact ⟨desc L path q, [], by rw [hDp]; simp⟩
    obtain ⟨hd, hc⟩ := hDv v hv hvp hvq
    rw [hd]
    obtain ⟨A', C', hL'⟩ := h.seg v hv
    rcases hc with ⟨hc, -⟩ | ⟨hc, -⟩
    · refine ⟨A'.filter fun w => decide (q ∈ path w), (C'.filter fun w => decide (q ∈ path w)) ++ L.filter fun w => !decide (q ∈ path w), ?_⟩
      have : desc L path q = (A'.filter fun w => decide (q ∈ path w)) ++ desc L path v ++ C'.filter fun w => decide (q ∈ path w) := by
        conv_lhs => unfold desc; rw [hL']
        rw [List.filter_append, List.filter_append, hc]
      rw [this]
      simp only [List.append_assoc]
    · refine ⟨desc L path q ++ A'.filter fun w => !decide (q ∈ path w), C'.filter fun w => !decide (q ∈ path w), ?_⟩
      have : (L.filter fun w => !decide (q ∈ path w)) = (A'.filter fun w => !decide (q ∈ path w)) ++ desc L path v ++ C'.filter fun w => !decide (q ∈ path w) := by
        conv_lhs => rw [hL']
        rw [List.filter_append, List.filter_append, hc]
      rw [this]
      simp only [List.append_assoc]
  · intro v hv
    rw [hmem] at hv
    by_cases hvq : v = q
    · subst hvq
      rw [hDq, List.head?_append, hSt]; rfl
    by_cases hvp : v = p
    · subst hvp
      rw [hDp, hF, List.head?_append, hAr]; rfl
    rw [(hDv v hv hvp hvq).1]
    exact h.first v hv
  · intro v hv
    rw [hmem] at hv
    rw [hsz]
    by_cases hvq : v = q
    · subst hvq
      rw [hDq, put_same, h.size p hu, h.desc_root, List.length_append, hlen]
    rw [put_ne _ _ hvq]
    by_cases hvp : v = p
    · subst hvp
      rw [hDp, put_same, h.size v hu, h.desc_root, h.size q hq]
      omega
    rw [put_ne _ _ hvp, (hDv v hv hvp hvq).1]
    exact h.size v hv
  · intro v hv
    rw [hmem] at hv
    rw [hla]
    by_cases hvq : v = q
    · subst hvq
      rw [hDq, put_same, List.getLast?_append_of_ne_nil _ hfne, hlast']
    rw [put_ne _ _ hvq]
    by_cases hvp : v = p
    · subst hvp
      rw [hDp, hlast', ← hmdef]
      split_ifs
      · rw [put_same]
      · rfl
    rw [(hDv v hv hvp hvq).1]
    have : (if st.last p = st.last q then put st.last p a else st.last) v = st.last v := by
      split_ifs
      · exact put_ne _ _ hvp
      · rfl
    rw [this]
    exact h.last v hv
  · rw [hF]
    have e1 : (rotate N p q st).next = put (put (put (put st.next a (st.next (st.last q))) (st.last q) q) (st.last q) p) m q := by
      show put (put (put (put st.next (st.prev q) (st.next (st.last q))) (st.last q) q) (st.last q) p)
        (if st.last p = st.last q then st.prev q else st.last p) q = _
      rw [hprev, hmdef]
    have e2 : (rotate N p q st).prev = put (put (put (put st.prev (st.next (st.last q)) a) q (st.last q)) p (st.last q)) q m := by
      show put (put (put (put st.prev (st.next (st.last q)) (st.prev q)) q (st.last q)) p (st.last q)) q
        (if st.last p = st.last q then st.prev q else st.last p) = _
      rw [hprev, hmdef]
    rw [e1, e2]
    exact hrot

end rotate

section add
variable {N : Net} {st : NState} {r q : ℕ} {L S : List ℕ} {path path' : ℕ → List ℕ}

/-- The paths after the tree with nodes `S` has been hung below `p`. -/
def joinPath (path path' : ℕ → List ℕ) (S : List ℕ) (p w : ℕ) : List ℕ := if w ∈ S then path' w ++ path p else path w

theorem add_ok (h : Rep st r L path) (h' : Rep st q S path') (hdis : ∀ x ∈ L, x ∉ S) {p : ℕ} (hp : p ∈ L) (i : ℕ)
    (hf : L.length ≤ innerFuel N) :
    addEdge N i p q st = .ok { st with
      parent := put st.parent q (some p), edge := put st.edge (N.slot q) (some i),
      next := put (put st.next (st.last p) q) (st.last q) (st.next (st.last p)),
      prev := put (put st.prev q (st.last p)) (st.next (st.last p)) (st.last q),
      size := fun x => if x ∈ path p then st.size x + st.size q else st.size x,
      last := fun x => if x ∈ path p ∧ st.last x = st.last p then st.last q else st.last x } := by
  unfold addEdge
  refine (growLoop_eq _ _ _ (path p) _ (some p) _ ?_ (h.path_nodup p hp) ((h.path_length_le hp).trans hf)).trans rfl
  refine follows_congr _ _ (h.follows p hp) ?_
  intro x hx
  exact put_ne _ _ fun hxq => hdis x (h.path_sub p hp x hx) (hxq ▸ h'.root_mem)

theorem add_rep (h : Rep st r L path) (h' : Rep st q S path') (hdis : ∀ x ∈ L, x ∉ S) {p : ℕ} (hp : p ∈ L) (i : ℕ) {st' : NState}
    (hst : st' = { st with
      parent := put st.parent q (some p), edge := put st.edge (N.slot q) (some i),
      next := put (put st.next (st.last p) q) (st.last q) (st.next (st.last p)),
      prev := put (put st.prev q (st.last p)) (st.next (st.last p)) (st.last q),
      size := fun x => if x ∈ path p then st.size x + st.size q else st.size x,
      last := fun x => if x ∈ path p ∧ st.last x = st.last p then st.last q else st.last x }) :
    ∃ A C, L = A ++ C ∧ Rep st' r (A ++ S ++ C) (joinPath path path' S p) ∧ A.getLast? = some (st.last p) := by
  obtain ⟨A', C, hL'⟩ := h.seg p hp
  have hDa := h.last p hp
  obtain ⟨A, hA⟩ : ∃ A, A = A' ++ desc L path p := ⟨_, rfl⟩
  have hL : L = A ++ C := by rw [hA]; exact hL'
  have hDne : desc L path p ≠ [] := by
    intro hn
    rw [hn] at hDa
    simp at hDa
  have hAa : A.getLast? = some (st.last p) := by rw [hA, List.getLast?_append_of_ne_nil _ hDne]; exact hDa
  have hAne : A ≠ [] := by rintro rfl; simp at hAa
  have hAr : A.head? = some r := by
    have := h.head
    rw [hL] at this
    cases A with
    | nil => exact absurd rfl hAne
    | cons b A => simpa using this
  have hSz : S.getLast? = some (st.last q) := by
    have := h'.last q h'.root_mem
    rwa [h'.desc_root] at this
  have hnd : (A ++ S ++ C).Nodup := by
    have h1 := h.nodup
    rw [hL, List.nodup_append] at h1
    rw [List.nodup_append, List.nodup_append]
    refine ⟨⟨h1.1, h'.nodup, ?_⟩, h1.2.1, ?_⟩
    · rintro x hx y hy rfl
      exact hdis x (by rw [hL]; simp [hx]) hy
    · rintro x hx y hy rfl
      rcases List.mem_append.1 hx with hx | hx
      · exact h1.2.2 x hx x hy rfl
      · exact hdis x (by rw [hL]; simp [hy]) hx
  have hndL := h.nodup
  rw [hL] at hndL
  have hndL' := List.nodup_append.1 hndL
  have haL : st.last p ∈ L := (mem_desc.1 (h.last_mem hp)).1
  have hpa : p ∈ path (st.last p) := (mem_desc.1 (h.last_mem hp)).2
  have hcyc := h.cyc
  rw [hL] at hcyc
  have hScyc := h'.cyc
  unfold Cyc at hScyc
  have hSch := hScyc.left_of_append
  have hadd := cyc_add hnd hAr hAa h'.head hSz hcyc hSch
  refine ⟨A, C, hL, ?_, hAa⟩
  have hmem : ∀ v, v ∈ A ++ S ++ C ↔ v ∈ L ∨ v ∈ S := by
    intro v
    rw [hL]
    simp only [List.mem_append]
    tauto
  have hSL : ∀ x ∈ S, x ∉ L := fun x hx hxL => hdis x hxL hx
  have jL : ∀ w ∈ L, joinPath path path' S p w = path w := fun w hw => by unfold joinPath; rw [if_neg (hdis w hw)]
  have jS : ∀ w ∈ S, joinPath path path' S p w = path' w ++ path p := fun w hw => by unfold joinPath; rw [if_pos hw]
  have hparent : ∀ v, v ≠ q → st'.parent v = st.parent v := by
    intro v hv
    rw [hst]
    exact put_ne _ _ hv
  have hqS := h'.root_mem
  -- subtrees in `S`
  have dS : ∀ v ∈ S, desc (A ++ S ++ C) (joinPath path path' S p) v = desc S path' v := by
    intro v hv
    conv_lhs => rw [desc]
    rw [List.filter_append, List.filter_append]
    have e1 : A.filter (fun w => decide (v ∈ joinPath path path' S p w)) = [] := by
      apply filter_eq_nil_of
      intro w hw
      have hwL : w ∈ L := by rw [hL]; simp [hw]
      rw [jL w hwL]
      simpa using fun hh => hSL v hv (h.path_sub w hwL v hh)
    have e2 : C.filter (fun w => decide (v ∈ joinPath path path' S p w)) = [] := by
      apply filter_eq_nil_of
      intro w hw
      have hwL : w ∈ L := by rw [hL]; simp [hw]
      rw [jL w hwL]
      simpa using fun hh => hSL v hv (h.path_sub w hwL v hh)
    rw [e1, e2, List.append_nil, List.nil_append]
    unfold desc
    apply List.filter_congr
    intro w hw
    rw [jS w hw]
    have : v ∉ path p := fun hh => hSL v hv (h.path_sub p hp v hh)
    simp [this]
  have dL : ∀ v ∈ L, desc (A ++ S ++ C) (joinPath path path' S p) v =
      A.filter (fun w => decide (v ∈ path w)) ++ (if v ∈ path p then S else []) ++ C.filter (fun w => decide (v ∈ path w)) := by
    intro v hv
    conv_lhs => rw [desc]
    rw [List.filter_append, List.filter_append]
    have e1 : A.filter (fun w => decide (v ∈ joinPath path path' S p w)) = A.filter (fun w => decide (v ∈ path w)) := by
      apply List.filter_congr
      intro w hw
      rw [jL w (by rw [hL]; simp [hw])]
    have e2 : C.filter (fun w => decide (v ∈ joinPath path path' S p w)) = C.filter (fun w => decide (v ∈ path w)) := by
      apply List.filter_congr
      intro w hw
      rw [jL w (by rw [hL]; simp [hw])]
    rw [e1, e2]
    congr 2
    have key : ∀ w ∈ S, (v ∈ joinPath path path' S p w ↔ v ∈ path p) := by
      intro w hw
      rw [jS w hw, List.mem_append]
      have : v ∉ path' w := fun hh => hdis v hv (h'.path_sub w hw v hh)
      tauto
    by_cases hvp : v ∈ path p
    · rw [if_pos hvp]
      apply filter_eq_self_of
      intro w hw
      simpa using (key w hw).2 hvp
    · rw [if_neg hvp]
      apply filter_eq_nil_of
      intro w hw
      simpa using fun hh => hvp ((key w hw).1 hh)
  -- how the subtree of `v` lies with respect to the cut
  have split : ∀ v ∈ L, ∃ X E F Y, desc L path v = E ++ F ∧ A.filter (fun w => decide (v ∈ path w)) = E ∧
      C.filter (fun w => decide (v ∈ path w)) = F ∧ ((v ∈ path p ∧ E ≠ [] ∧ A = X ++ E ∧ C = F ++ Y) ∨
        (v ∉ path p ∧ ((F = [] ∧ ∃ X', A = X ++ E ++ X') ∨ (E = [] ∧ ∃ Y', C = Y ++ F ++ Y')))) := by
    intro v hv
    obtain ⟨X, Y, hXY⟩ := h.seg v hv
    obtain ⟨hX, hY⟩ := filter_seg h.nodup hXY
    have hDself : ∀ w ∈ desc L path v, decide (v ∈ path w) = true := fun w hw => by simpa using (mem_desc.1 hw).2
    have hfilt : desc L path v = A.filter (fun w => decide (v ∈ path w)) ++ C.filter (fun w => decide (v ∈ path w)) := by
      rw [← List.filter_append, ← hL]; rfl
    have hE : X ++ (desc L path v ++ Y) = A ++ C := by rw [← List.append_assoc, ← hXY, hL]
    have hDn := h.self_mem_desc hv
    rcases List.append_eq_append_iff.1 hE with ⟨E, hA1, hD1⟩ | ⟨E, hX1, hC1⟩
    · -- A = X ++ E, desc ++ Y = E ++ C
      rcases List.append_eq_append_iff.1 hD1 with ⟨G, hE1, hY1⟩ | ⟨F, hd, hC1⟩
      · -- E = desc ++ G, Y = G ++ C
        have hfC : C.filter (fun w => decide (v ∈ path w)) = [] := filter_eq_nil_of fun w hw => hY w (by rw [hY1]; simp [hw])
        have hfA : A.filter (fun w => decide (v ∈ path w)) = desc L path v := by
          rw [hfC, List.append_nil] at hfilt
          exact hfilt.symm
        by_cases hvp : v ∈ path p
        · have hG : G = [] := by
            by_contra hG
            have h1 : A.getLast? = G.getLast? := by
              rw [hA1, hE1, List.getLast?_append_of_ne_nil _ (by simp [hG]), List.getLast?_append_of_ne_nil _ hG]
            rw [hAa] at h1
            have h2 := mem_of_getLast? h1.symm
            have h3 := hY (st.last p) (by rw [hY1]; simp [h2])
            have h4 : v ∈ path (st.last p) := h.trans haL hpa hvp
            simp [h4] at h3
          subst hG
          refine ⟨X, desc L path v, [], C, by simp, hfA, hfC, Or.inl ⟨hvp, ?_, ?_, by simp⟩⟩
          · intro hn; rw [hn] at hDn; simp at hDn
          · rw [hA1, hE1, List.append_nil]
        · exact ⟨X, desc L path v, [], Y, by simp, hfA, hfC, Or.inr ⟨hvp, Or.inl ⟨rfl, G, by rw [hA1, hE1]; simp⟩⟩⟩
      · -- desc = E ++ F, C = F ++ Y
        have hEs : ∀ w ∈ E, decide (v ∈ path w) = true := fun w hw => hDself w (by rw [hd]; simp [hw])
        have hFs : ∀ w ∈ F, decide (v ∈ path w) = true := fun w hw => hDself w (by rw [hd]; simp [hw])
        have hfA : A.filter (fun w => decide (v ∈ path w)) = E := by
          rw [hA1, List.filter_append, filter_eq_nil_of hX, filter_eq_self_of hEs, List.nil_append]
        have hfC : C.filter (fun w => decide (v ∈ path w)) = F := by
          rw [hC1, List.filter_append, filter_eq_nil_of hY, filter_eq_self_of hFs, List.append_nil]
        by_cases hvp : v ∈ path p
        · refine ⟨X, E, F, Y, hd, hfA, hfC, Or.inl ⟨hvp, ?_, hA1, hC1⟩⟩
          rintro rfl
          rw [List.append_nil] at hA1
          have h3 := hX (st.last p) (by rw [← hA1]; exact mem_of_getLast? hAa)
          have h4 : v ∈ path (st.last p) := h.trans haL hpa hvp
          simp [h4] at h3
        · by_cases hEn : E = []
          · exact ⟨X, E, F, [], hd, hfA, hfC, Or.inr ⟨hvp, Or.inr ⟨hEn, Y, by rw [hC1]; simp⟩⟩⟩
          by_cases hFn : F = []
          · exact ⟨X, E, F, Y, hd, hfA, hfC, Or.inr ⟨hvp, Or.inl ⟨hFn, [], by rw [hA1]; simp⟩⟩⟩
          exfalso
          have h1 : A.getLast? = E.getLast? := by rw [hA1, List.getLast?_append_of_ne_nil _ hEn]
          rw [hAa] at h1
          have h2 := hEs _ (mem_of_getLast? h1.symm)
          have h3 : v ∈ path (st.last p) := by simpa using h2
          rcases h.comparable haL h3 hpa with h4 | h4
          · exact hvp h4
          · -- the subtree of `v` is inside that of `p`
            obtain ⟨f, hf⟩ := List.exists_mem_of_ne_nil F hFn
            have hfL : f ∈ L := by rw [hL, hC1]; simp [hf]
            have h5 : v ∈ path f := by simpa using hFs f hf
            have h6 : p ∈ path f := h.trans hfL h5 h4
            have h7 : f ∈ A := by rw [hA]; simp [mem_desc.2 ⟨hfL, h6⟩]
            exact hndL'.2.2 f h7 f (by rw [hC1]; simp [hf]) rfl
    · -- X = A ++ E, C = E ++ (desc ++ Y)
      have hfA : A.filter (fun w => decide (v ∈ path w)) = [] := filter_eq_nil_of fun w hw => hX w (by rw [hX1]; simp [hw])
      have hfC : C.filter (fun w => decide (v ∈ path w)) = desc L path v := by
        rw [hfA, List.nil_append] at hfilt
        exact hfilt.symm
      have hvp : v ∉ path p := by
        intro hvp
        have h3 := hX (st.last p) (by rw [hX1]; simp [mem_of_getLast? hAa])
        have h4 : v ∈ path (st.last p) := h.trans haL hpa hvp
        simp [h4] at h3
      exact ⟨X, [], desc L path v, E, by simp, hfA, hfC, Or.inr ⟨hvp, Or.inr ⟨rfl, Y, by rw [hC1]; simp⟩⟩⟩
  have hsz : ∀ v, st'.size v = if v ∈ path p then st.size v + st.size q else st.size v := fun v => by rw [hst]
  have hla : ∀ v, st'.last v = if v ∈ path p ∧ st.last v = st.last p then st.last q else st.last v := fun v => by rw [hst]
  have hSp : ∀ v ∈ S, v ∉ path p := fun v hv hh => hSL v hv (h.path_sub p hp v hh)
  have hSne : S ≠ [] := by
    intro hn; rw [hn] at hSz; simp at hSz
  refine ⟨hnd, ?_, ?_, ?_, ?_, ?_, ?_, ?_, ?_, ?_⟩
  · rw [List.append_assoc, List.head?_append, hAr]; rfl
  · rw [jL r h.root_mem]; exact h.rootPath
  · rw [hparent r (fun hh => hdis r h.root_mem (hh ▸ hqS))]
    exact h.rootParent
  · intro v hv hvr
    rcases (hmem v).1 hv with hvL | hvS
    · obtain ⟨u, hu, hpu, hp'⟩ := h.step v hvL hvr
      refine ⟨u, (hmem u).2 (Or.inl hu), ?_, ?_⟩
      · rw [hparent v (fun hh => hdis v hvL (hh ▸ hqS))]; exact hpu
      · rw [jL v hvL, jL u hu]; exact hp'
    · by_cases hvq : v = q
      · subst hvq
        refine ⟨p, (hmem p).2 (Or.inl hp), ?_, ?_⟩
        · rw [hst]; exact put_same _ _ _
        · rw [jS v hqS, jL p hp, h'.rootPath]; rfl
      · obtain ⟨u, hu, hpu, hp'⟩ := h'.step v hvS hvq
        refine ⟨u, (hmem u).2 (Or.inr hu), ?_, ?_⟩
        · rw [hparent v hvq]; exact hpu
        · rw [jS v hvS, jS u hu, hp']; rfl
  · intro v hv
    rcases (hmem v).1 hv with hvL | hvS
    · rw [dL v hvL]
      obtain ⟨X, E, F, Y, hd, hfA, hfC, ⟨hvp, -, hA1, hC1⟩ | ⟨hvp, ⟨hF, X', hA1⟩ | ⟨hE, Y', hC1⟩⟩⟩ := split v hvL
      · rw [if_pos hvp, hfA, hfC]
        exact ⟨X, Y, by rw [hA1, hC1]; simp⟩
      · rw [if_neg hvp, hfA, hfC, hF]
        exact ⟨X, X' ++ S ++ C, by rw [hA1]; simp⟩
      · rw [if_neg hvp, hfA, hfC, hE]
        exact ⟨A ++ S ++ Y, Y', by rw [hC1]; simp⟩
    · rw [dS v hvS]
      obtain ⟨X, Y, hXY⟩ := h'.seg v hvS
      refine ⟨A ++ X, Y ++ C, ?_⟩
      conv_lhs => rw [hXY]
      simp only [List.append_assoc]
  · intro v hv
    rcases (hmem v).1 hv with hvL | hvS
    · rw [dL v hvL]
      have hfirst := h.first v hvL
      obtain ⟨X, E, F, Y, hd, hfA, hfC, ⟨hvp, hE, hA1, hC1⟩ | ⟨hvp, -⟩⟩ := split v hvL
      · rw [if_pos hvp, hfA, hfC, List.append_assoc, List.head?_append_of_ne_nil _ hE]
        rw [hd, List.head?_append_of_ne_nil _ hE] at hfirst
        exact hfirst
      · rw [if_neg hvp, hfA, hfC, List.append_nil, ← hd]
        exact hfirst
    · rw [dS v hvS]
      exact h'.first v hvS
  · intro v hv
    rw [hsz]
    rcases (hmem v).1 hv with hvL | hvS
    · rw [dL v hvL]
      have hsize := h.size v hvL
      obtain ⟨X, E, F, Y, hd, hfA, hfC, -⟩ := split v hvL
      rw [hfA, hfC, hsize, hd]
      by_cases hvp : v ∈ path p
      · rw [if_pos hvp, if_pos hvp, h'.size q hqS, h'.desc_root]
        simp only [List.length_append]
        push_cast
        ring
      · rw [if_neg hvp, if_neg hvp, List.append_nil]
    · rw [dS v hvS, if_neg (hSp v hvS)]
      exact h'.size v hvS
  · intro v hv
    rw [hla]
    rcases (hmem v).1 hv with hvL | hvS
    · rw [dL v hvL]
      have hlast := h.last v hvL
      obtain ⟨X, E, F, Y, hd, hfA, hfC, ⟨hvp, hE, hA1, hC1⟩ | ⟨hvp, -⟩⟩ := split v hvL
      · rw [if_pos hvp, hfA, hfC]
        rw [hd] at hlast
        by_cases hF : F = []
        · subst hF
          rw [List.append_nil] at hlast
          have h1 : A.getLast? = E.getLast? := by rw [hA1, List.getLast?_append_of_ne_nil _ hE]
          rw [h1, hlast] at hAa
          rw [if_pos ⟨hvp, Option.some.inj hAa⟩, List.append_nil, List.getLast?_append_of_ne_nil _ hSne]
          exact hSz
        · rw [List.getLast?_append_of_ne_nil _ hF] at hlast
          rw [List.getLast?_append_of_ne_nil _ hF, hlast, if_neg]
          rintro ⟨-, h1⟩
          have h2 := mem_of_getLast? hlast
          rw [h1] at h2
          exact hndL'.2.2 (st.last p) (mem_of_getLast? hAa) (st.last p) (by rw [hC1]; simp [h2]) rfl
      · rw [if_neg hvp, hfA, hfC, List.append_nil, ← hd, if_neg (fun hh => hvp hh.1)]
        exact hlast
    · rw [dS v hvS, if_neg (fun hh => hSp v hvS hh.1)]
      exact h'.last v hvS
  · rw [hst]
    exact hadd

end add

end Amd
