import Verif.Proof.ThreadLists

/-!
# The threaded tree

`Rep st r L path`: the arrays of `st` describe a tree with root `r`; `L` lists its nodes in the order of the thread and `path v` lists
the ancestors of `v` from `v` to `r`. The operations `removeEdge`, `rotate`, `addEdge` keep this.
-/

set_option linter.unusedSectionVars false

namespace Amd

/-- Nodes below `v` (including `v`) in thread order. -/
def desc (L : List ℕ) (path : ℕ → List ℕ) (v : ℕ) : List ℕ := L.filter fun w => decide (v ∈ path w)

structure Rep (st : NState) (r : ℕ) (L : List ℕ) (path : ℕ → List ℕ) : Prop where
  nodup : L.Nodup
  head : L.head? = some r
  rootPath : path r = [r]
  rootParent : st.parent r = none
  step : ∀ v ∈ L, v ≠ r → ∃ u ∈ L, st.parent v = some u ∧ path v = v :: path u
  seg : ∀ v ∈ L, ∃ A C, L = A ++ desc L path v ++ C
  first : ∀ v ∈ L, (desc L path v).head? = some v
  size : ∀ v ∈ L, st.size v = (desc L path v).length
  last : ∀ v ∈ L, (desc L path v).getLast? = some (st.last v)
  cyc : Cyc st.next st.prev L

theorem mem_desc {L : List ℕ} {path : ℕ → List ℕ} {v w : ℕ} : w ∈ desc L path v ↔ w ∈ L ∧ v ∈ path w := by
  simp [desc]

/-- A filter that is a segment: nothing outside it passes the test. -/
theorem filter_seg {P : ℕ → Bool} {L A C : List ℕ} (hL : L.Nodup) (h : L = A ++ L.filter P ++ C) :
    (∀ x ∈ A, P x = false) ∧ (∀ x ∈ C, P x = false) := by
  have h1 : ∀ x ∈ L, P x = true → x ∈ L.filter P := fun x hx hp => List.mem_filter.2 ⟨hx, hp⟩
  generalize hS : L.filter P = S at *
  subst h
  rw [List.nodup_append, List.nodup_append] at hL
  constructor
  · intro x hx
    by_contra hp
    exact hL.1.2.2 x hx x (h1 x (by simp [hx]) (by simpa using hp)) rfl
  · intro x hx
    by_contra hp
    exact hL.2.2 x (by simp [h1 x (by simp [hx]) (by simpa using hp)]) x hx rfl

theorem filter_eq_nil_of {P : ℕ → Bool} {A : List ℕ} (h : ∀ x ∈ A, P x = false) : A.filter P = [] := by
  rw [List.filter_eq_nil_iff]
  intro x hx
  simp [h x hx]

theorem filter_eq_self_of {P : ℕ → Bool} {A : List ℕ} (h : ∀ x ∈ A, P x = true) : A.filter P = A :=
  List.filter_eq_self.2 h

namespace Rep

variable {st : NState} {r : ℕ} {L : List ℕ} {path : ℕ → List ℕ}

theorem root_mem (h : Rep st r L path) : r ∈ L := List.mem_of_head? h.head

theorem self_mem (h : Rep st r L path) {v : ℕ} (hv : v ∈ L) : v ∈ path v := by
  by_cases hr : v = r
  · subst hr; rw [h.rootPath]; simp
  · obtain ⟨u, -, -, hp⟩ := h.step v hv hr
    rw [hp]; simp

theorem induct (h : Rep st r L path) {P : ℕ → Prop} (h0 : P r)
    (hs : ∀ v ∈ L, v ≠ r → ∀ u ∈ L, st.parent v = some u → path v = v :: path u → P u → P v) : ∀ v ∈ L, P v := by
  suffices ∀ n, ∀ v ∈ L, (path v).length = n → P v from fun v hv => this _ v hv rfl
  intro n
  induction n with
  | zero =>
    intro v hv hn
    have := h.self_mem hv
    rw [List.length_eq_zero_iff] at hn
    simp [hn] at this
  | succ n ih =>
    intro v hv hn
    by_cases hr : v = r
    · exact hr ▸ h0
    · obtain ⟨u, hu, hpu, hp⟩ := h.step v hv hr
      refine hs v hv hr u hu hpu hp (ih u hu ?_)
      rw [hp] at hn
      simpa using hn

theorem path_sub (h : Rep st r L path) : ∀ v ∈ L, ∀ u ∈ path v, u ∈ L := by
  refine h.induct (P := fun v => ∀ u ∈ path v, u ∈ L) ?_ ?_
  · rw [h.rootPath]; simpa using h.root_mem
  · intro v hv _ u _ _ hp ih x hx
    rw [hp] at hx
    rcases List.mem_cons.1 hx with rfl | hx
    · exact hv
    · exact ih x hx

theorem path_suffix (h : Rep st r L path) : ∀ v ∈ L, ∀ u ∈ path v, path u <:+ path v := by
  refine h.induct (P := fun v => ∀ u ∈ path v, path u <:+ path v) ?_ ?_
  · intro u hu
    rw [h.rootPath] at hu
    simp at hu
    subst hu
    exact List.suffix_refl _
  · intro v hv _ u _ _ hp ih x hx
    by_cases hxv : x = v
    · subst hxv; exact List.suffix_refl _
    · rw [hp] at hx ⊢
      rcases List.mem_cons.1 hx with hx | hx
      · exact absurd hx hxv
      · exact (ih x hx).trans (List.suffix_cons _ _)

theorem trans (h : Rep st r L path) {u v w : ℕ} (hw : w ∈ L) (h1 : v ∈ path w) (h2 : u ∈ path v) : u ∈ path w :=
  (h.path_suffix w hw v h1).subset h2

theorem root_mem_path (h : Rep st r L path) : ∀ v ∈ L, r ∈ path v := by
  refine h.induct (P := fun v => r ∈ path v) ?_ ?_
  · rw [h.rootPath]; simp
  · intro v _ _ u _ _ hp ih
    rw [hp]; simp [ih]

theorem path_nodup (h : Rep st r L path) : ∀ v ∈ L, (path v).Nodup := by
  refine h.induct (P := fun v => (path v).Nodup) ?_ ?_
  · rw [h.rootPath]; simp
  · intro v hv _ u hu _ hp ih
    rw [hp, List.nodup_cons]
    refine ⟨fun hvu => ?_, ih⟩
    have := (h.path_suffix u hu v hvu).length_le
    rw [hp] at this
    simp at this

theorem path_getLast (h : Rep st r L path) : ∀ v ∈ L, (path v).getLast? = some r := by
  refine h.induct (P := fun v => (path v).getLast? = some r) ?_ ?_
  · rw [h.rootPath]; simp
  · intro v hv _ u hu _ hp ih
    rw [hp, List.getLast?_cons, ih]
    simp

/-- Two ancestors of a node are comparable. -/
theorem comparable (h : Rep st r L path) {u v w : ℕ} (hw : w ∈ L) (hu : u ∈ path w) (hv : v ∈ path w) :
    u ∈ path v ∨ v ∈ path u := by
  have huL := h.path_sub w hw u hu
  have hvL := h.path_sub w hw v hv
  rcases List.suffix_or_suffix_of_suffix (h.path_suffix w hw u hu) (h.path_suffix w hw v hv) with h1 | h1
  · exact Or.inl (h1.subset (h.self_mem huL))
  · exact Or.inr (h1.subset (h.self_mem hvL))

theorem antisymm (h : Rep st r L path) {u v : ℕ} (hu : u ∈ L) (hv : v ∈ L) (h1 : u ∈ path v) (h2 : v ∈ path u) : u = v := by
  have h3 := h.path_suffix v hv u h1
  have h4 := h.path_suffix u hu v h2
  have h5 : path u = path v := h3.eq_of_length (le_antisymm h3.length_le h4.length_le)
  have head : ∀ x ∈ L, (path x).head? = some x := by
    intro x hx
    by_cases hr : x = r
    · subst hr; rw [h.rootPath]; rfl
    · obtain ⟨y, -, -, hp⟩ := h.step x hx hr
      rw [hp]; rfl
  have := head u hu
  rw [h5, head v hv] at this
  exact (Option.some.inj this).symm

theorem path_root_of (h : Rep st r L path) {v : ℕ} (hv : v ∈ path r) : v = r := by
  rw [h.rootPath] at hv
  simpa using hv

theorem desc_root (h : Rep st r L path) : desc L path r = L := by
  unfold desc
  apply filter_eq_self_of
  intro x hx
  simpa using h.root_mem_path x hx

theorem self_mem_desc (h : Rep st r L path) {v : ℕ} (hv : v ∈ L) : v ∈ desc L path v :=
  mem_desc.2 ⟨hv, h.self_mem hv⟩

theorem desc_nodup (h : Rep st r L path) (v : ℕ) : (desc L path v).Nodup := h.nodup.filter _

theorem last_mem (h : Rep st r L path) {v : ℕ} (hv : v ∈ L) : st.last v ∈ desc L path v := List.mem_of_getLast? (h.last v hv)

theorem path_length_le (h : Rep st r L path) {v : ℕ} (hv : v ∈ L) : (path v).length ≤ L.length :=
  ((h.path_nodup v hv).subperm fun x hx => h.path_sub v hv x hx).length_le

/-- Subtrees of descendants are smaller. -/
theorem size_lt (h : Rep st r L path) {u v : ℕ} (hv : v ∈ L) (hu : u ∈ path v) (hne : u ≠ v) : st.size v < st.size u := by
  have huL := h.path_sub v hv u hu
  rw [h.size v hv, h.size u huL]
  have hsub : u :: desc L path v ⊆ desc L path u := by
    intro x hx
    rcases List.mem_cons.1 hx with rfl | hx
    · exact h.self_mem_desc huL
    · rw [mem_desc] at hx ⊢
      exact ⟨hx.1, h.trans hx.1 hx.2 hu⟩
  have hnd : (u :: desc L path v).Nodup := by
    rw [List.nodup_cons]
    refine ⟨fun hm => ?_, h.desc_nodup v⟩
    rw [mem_desc] at hm
    exact hne (h.antisymm huL hv hu hm.2)
  have := (hnd.subperm hsub).length_le
  simp at this
  exact_mod_cast this

/-- The representation only depends on the entries of its nodes. -/
theorem frame (h : Rep st r L path) {st' : NState} (h1 : ∀ v ∈ L, st'.parent v = st.parent v)
    (h2 : ∀ v ∈ L, st'.size v = st.size v) (h3 : ∀ v ∈ L, st'.next v = st.next v) (h4 : ∀ v ∈ L, st'.prev v = st.prev v)
    (h5 : ∀ v ∈ L, st'.last v = st.last v) : Rep st' r L path where
  nodup := h.nodup
  head := h.head
  rootPath := h.rootPath
  rootParent := by rw [h1 r h.root_mem]; exact h.rootParent
  step v hv hr := by
    obtain ⟨u, hu, hpu, hp⟩ := h.step v hv hr
    exact ⟨u, hu, by rw [h1 v hv]; exact hpu, hp⟩
  seg := h.seg
  first := h.first
  size v hv := by rw [h2 v hv]; exact h.size v hv
  last v hv := by rw [h5 v hv]; exact h.last v hv
  cyc := cyc_congr h.cyc h3 h4

end Rep

/-! ### Loops along ancestors -/

/-- `l` is the list of nodes obtained by following `parent`. -/
def Follows (parent : ℕ → Option ℕ) : Option ℕ → List ℕ → Prop
  | none, l => l = []
  | some _, [] => False
  | some s, x :: l => s = x ∧ Follows parent (parent s) l

theorem Rep.follows {st : NState} {r : ℕ} {L : List ℕ} {path : ℕ → List ℕ} (h : Rep st r L path) :
    ∀ v ∈ L, Follows st.parent (some v) (path v) := by
  refine h.induct (P := fun v => Follows st.parent (some v) (path v)) ?_ ?_
  · rw [h.rootPath]
    exact ⟨rfl, by rw [h.rootParent]; rfl⟩
  · intro v _ _ u _ hpu hp ih
    rw [hp]
    exact ⟨rfl, by rw [hpu]; exact ih⟩

theorem follows_congr {p p' : ℕ → Option ℕ} : ∀ (l : List ℕ) (o : Option ℕ), Follows p o l → (∀ x ∈ l, p' x = p x) → Follows p' o l := by
  intro l
  induction l with
  | nil =>
    intro o h _
    cases o <;> exact h
  | cons x l ih =>
    intro o h hc
    cases o with
    | none => exact h
    | some s =>
      obtain ⟨rfl, h2⟩ := h
      refine ⟨rfl, ?_⟩
      rw [hc s (by simp)]
      exact ih _ h2 fun x hx => hc x (by simp [hx])

theorem shrinkLoop_eq (sizeT : ℤ) (lastT prevT : ℕ) : ∀ (l : List ℕ) (fuel : ℕ) (o : Option ℕ) (st : NState),
    Follows st.parent o l → l.Nodup → l.length ≤ fuel →
      shrinkLoop sizeT lastT prevT fuel o st = .ok { st with size := fun x => if x ∈ l then st.size x - sizeT else st.size x, last := fun x => if x ∈ l ∧ st.last x = lastT then prevT else st.last x } := by
  intro l
  induction l with
  | nil =>
    intro fuel o st h _ _
    cases o with
    | none => rw [shrinkLoop]; simp
    | some s => exact absurd h (by simp [Follows])
  | cons x l ih =>
    intro fuel o st h hnd hf
    cases o with
    | none => exact absurd h (by simp [Follows])
    | some s =>
      obtain ⟨rfl, h2⟩ := h
      cases fuel with
      | zero => simp at hf
      | succ fuel =>
        rw [shrinkLoop]
        have hx := (List.nodup_cons.1 hnd).1
        refine (ih fuel (st.parent s) _ (by exact h2) (List.nodup_cons.1 hnd).2 (by simpa using hf)).trans ?_
        congr 2
        · funext y
          by_cases hy : y = s
          · subst hy; simp [hx, put]
          · simp [hy, put]
        · funext y
          by_cases hl : st.last s = lastT
          · by_cases hy : y = s
            · subst hy; simp [hl, put, hx]
            · simp [hy, put, hl]
          · by_cases hy : y = s
            · subst hy; simp [hl, hx]
            · simp [hy, hl]

theorem growLoop_eq (sizeQ : ℤ) (lastP lastQ : ℕ) : ∀ (l : List ℕ) (fuel : ℕ) (o : Option ℕ) (st : NState),
    Follows st.parent o l → l.Nodup → l.length ≤ fuel →
      growLoop sizeQ lastP lastQ fuel o st = .ok { st with size := fun x => if x ∈ l then st.size x + sizeQ else st.size x, last := fun x => if x ∈ l ∧ st.last x = lastP then lastQ else st.last x } := by
  intro l
  induction l with
  | nil =>
    intro fuel o st h _ _
    cases o with
    | none => rw [growLoop]; simp
    | some s => exact absurd h (by simp [Follows])
  | cons x l ih =>
    intro fuel o st h hnd hf
    cases o with
    | none => exact absurd h (by simp [Follows])
    | some s =>
      obtain ⟨rfl, h2⟩ := h
      cases fuel with
      | zero => simp at hf
      | succ fuel =>
        rw [growLoop]
        have hx := (List.nodup_cons.1 hnd).1
        refine (ih fuel (st.parent s) _ (by exact h2) (List.nodup_cons.1 hnd).2 (by simpa using hf)).trans ?_
        congr 2
        · funext y
          by_cases hy : y = s
          · subst hy; simp [hx, put]
          · simp [hy, put]
        · funext y
          by_cases hl : st.last s = lastP
          · by_cases hy : y = s
            · subst hy; simp [hl, put, hx]
            · simp [hy, put, hl]
          · by_cases hy : y = s
            · subst hy; simp [hl, hx]
            · simp [hy, hl]

theorem ancestors_eq (st : NState) : ∀ (l : List ℕ) (fuel : ℕ) (o : Option ℕ) (acc : List ℕ),
    Follows st.parent o l → l.length ≤ fuel → ancestors st fuel o acc = .ok (l.reverse ++ acc) := by
  intro l
  induction l with
  | nil =>
    intro fuel o acc h _
    cases o with
    | none => rw [ancestors]; simp
    | some s => exact absurd h (by simp [Follows])
  | cons x l ih =>
    intro fuel o acc h hf
    cases o with
    | none => exact absurd h (by simp [Follows])
    | some s =>
      obtain ⟨rfl, h2⟩ := h
      cases fuel with
      | zero => simp at hf
      | succ fuel =>
        rw [ancestors, ih fuel (st.parent s) _ h2 (by simpa using hf)]
        simp

end Amd
