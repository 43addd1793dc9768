import Verif.Model.Threads
import Verif.Props.Cache

/-! Iterator objects: what one thread alone does. -/

namespace Amd

variable {α β : Type}

theorem Prog.run_bind (p : Prog α) (c : α → Prog β) (h : Heap) : (p.bind c).run h = match p.run h with | (some a, h') => (c a).run h' | (none, h') => (none, h') := by
  induction p generalizing h with
  | ret a => rfl
  | raise e => rfl
  | act f k ih => exact ih h (f h)

theorem run_next {p : Prog α} {c : α → Prog β} {h h' : Heap} {a : α} (e : p.run h = (some a, h')) : (p.bind c).run h = (c a).run h' := by
  rw [Prog.run_bind, e]

/-- Objects are as they should be. -/
structure Objects (h : Heap) : Prop where
  bufs : ∀ (b g : ℕ) (buf : List (List (List ℤ))), h.bufs[b]? = some (g, buf) → ∃ o : GenObj, h.gens[g]? = some o ∧ o.pos = buf.length ∧ buf = (List.range buf.length).map (layerRows o.dims)
  source : ∀ (b b' g : ℕ) (buf buf' : List (List (List ℤ))), h.bufs[b]? = some (g, buf) → h.bufs[b']? = some (g, buf') → b = b'
  tees : ∀ (t b p : ℕ), h.tees[t]? = some (b, p) → ∃ (g : ℕ) (buf : List (List (List ℤ))), h.bufs[b]? = some (g, buf) ∧ p ≤ buf.length

/-- No generator is running. -/
def Quiet (h : Heap) : Prop := ∀ (g : ℕ) (o : GenObj), h.gens[g]? = some o → o.running = false

/-- Object `t` is about to yield layer `pos` of dimension `dims`. -/
def TeeAt (h : Heap) (t dims pos : ℕ) : Prop := ∃ (b g : ℕ) (buf : List (List (List ℤ))) (o : GenObj), h.tees[t]? = some (b, pos) ∧ h.bufs[b]? = some (g, buf) ∧ h.gens[g]? = some o ∧ o.dims = dims

/-- The three dictionaries are the same. -/
structure SameCaches (h h' : Heap) : Prop where
  gen : h'.gen = h.gen
  batch : h'.batch = h.batch
  npoints : h'.npoints = h.npoints

theorem TeeAt.lt {h : Heap} {t dims pos : ℕ} (ha : TeeAt h t dims pos) : t < h.tees.length := by
  obtain ⟨b, g, buf, o, h1, -⟩ := ha
  exact (List.getElem?_eq_some_iff.1 h1).1

/-- What object `t` meets, and what the buffer has. -/
theorem tee_cases {h : Heap} (ho : Objects h) {t dims pos : ℕ} (ha : TeeAt h t dims pos) : ∃ (b g : ℕ) (buf : List (List (List ℤ))) (o : GenObj), h.tees[t]? = some (b, pos) ∧ h.bufs[b]? = some (g, buf) ∧
    h.gens[g]? = some o ∧ o.dims = dims ∧ o.pos = buf.length ∧ buf = (List.range buf.length).map (layerRows dims) ∧
    (pos < buf.length ∧ buf[pos]? = some (layerRows dims pos) ∨ pos = buf.length ∧ buf[pos]? = none) := by
  obtain ⟨b, g, buf, o, h1, h2, h3, h4⟩ := ha
  obtain ⟨o', h5, h6, h7⟩ := ho.bufs b g buf h2
  rw [h3] at h5
  obtain rfl := Option.some.inj h5
  obtain ⟨g', buf', h8, h9⟩ := ho.tees t b pos h1
  rw [h2] at h8
  obtain ⟨rfl, rfl⟩ := Prod.mk.inj (Option.some.inj h8)
  subst h4
  refine ⟨b, g, buf, o, h1, h2, h3, rfl, h6, h7, ?_⟩
  rcases h9.lt_or_eq with hlt | heq
  · left
    refine ⟨hlt, ?_⟩
    rw [h7]
    simp [hlt]
  · right
    exact ⟨heq, by rw [heq]; simp⟩

theorem set_at {h : Heap} {l : List (ℕ × ℕ)} {t t' b p : ℕ} {e : ℕ × ℕ} (hl : l = h.tees.set t e) (hne : t' ≠ t) (ht : h.tees[t']? = some (b, p)) : l[t']? = some (b, p) := by
  rw [hl, List.getElem?_set_ne (Ne.symm hne), ht]

/-- The heap after `next` of `t` has taken a layer from the buffer. -/
theorem taken_objects {h : Heap} (ho : Objects h) {t b pos g : ℕ} {buf : List (List (List ℤ))} (h2 : h.bufs[b]? = some (g, buf)) (hp : pos < buf.length) :
    Objects { h with tees := h.tees.set t (b, pos + 1) } where
  bufs := ho.bufs
  source := ho.source
  tees := by
    intro t' b' p' ht
    by_cases he : t' = t
    · subst he
      have hlt : t' < h.tees.length := by
        have := (List.getElem?_eq_some_iff.1 ht).1
        simpa using this
      rw [List.getElem?_set_self hlt] at ht
      obtain ⟨rfl, rfl⟩ := Prod.mk.inj (Option.some.inj ht)
      exact ⟨g, buf, h2, hp⟩
    · rw [List.getElem?_set_ne (Ne.symm he)] at ht
      exact ho.tees t' b' p' ht

/-- The heap after the generator has yielded. -/
theorem yielded_objects {h : Heap} (ho : Objects h) {t b g : ℕ} {buf : List (List (List ℤ))} {o : GenObj} (h2 : h.bufs[b]? = some (g, buf))
    (h3 : h.gens[g]? = some o) (h4 : o.pos = buf.length) :
    Objects { h with gens := h.gens.set g ⟨o.dims, o.pos + 1, false⟩, bufs := h.bufs.set b (g, buf ++ [layerRows o.dims o.pos]), tees := h.tees.set t (b, o.pos + 1) } := by
  have hg : g < h.gens.length := (List.getElem?_eq_some_iff.1 h3).1
  have hb : b < h.bufs.length := (List.getElem?_eq_some_iff.1 h2).1
  obtain ⟨o', e1, e2, e3⟩ := ho.bufs b g buf h2
  rw [h3] at e1
  obtain rfl := Option.some.inj e1
  refine ⟨?_, ?_, ?_⟩
  · intro b' g' buf' hb'
    by_cases he : b' = b
    · subst he
      rw [List.getElem?_set_self hb] at hb'
      obtain ⟨rfl, rfl⟩ := Prod.mk.inj (Option.some.inj hb')
      refine ⟨⟨o.dims, o.pos + 1, false⟩, List.getElem?_set_self hg, by simp [h4], ?_⟩
      rw [List.length_append, List.length_singleton, List.range_succ, List.map_append, ← e3, List.map_singleton, h4]
    · rw [List.getElem?_set_ne (Ne.symm he)] at hb'
      have hgg : g' ≠ g := by
        rintro rfl
        exact he (ho.source b' b g' buf' buf hb' h2)
      obtain ⟨o', f1, f2, f3⟩ := ho.bufs b' g' buf' hb'
      exact ⟨o', by rw [List.getElem?_set_ne (Ne.symm hgg)]; exact f1, f2, f3⟩
  · intro b1 b2 g' buf1 buf2 f1 f2
    have key : ∀ (b1 : ℕ) (buf1 : List (List (List ℤ))), (h.bufs.set b (g, buf ++ [layerRows o.dims o.pos]))[b1]? = some (g', buf1) → ∃ buf' : List (List (List ℤ)), h.bufs[b1]? = some (g', buf') := by
      intro b1 buf1 f1
      by_cases he : b1 = b
      · subst he
        rw [List.getElem?_set_self hb] at f1
        obtain ⟨rfl, rfl⟩ := Prod.mk.inj (Option.some.inj f1)
        exact ⟨buf, h2⟩
      · rw [List.getElem?_set_ne (Ne.symm he)] at f1
        exact ⟨_, f1⟩
    obtain ⟨_, f1⟩ := key b1 buf1 f1
    obtain ⟨_, f2⟩ := key b2 buf2 f2
    exact ho.source _ _ _ _ _ f1 f2
  · intro t' b' p' ht
    have key : ∀ (b' p' : ℕ), (∃ (g' : ℕ) (buf' : List (List (List ℤ))), h.bufs[b']? = some (g', buf') ∧ p' ≤ buf'.length) →
        ∃ (g' : ℕ) (buf' : List (List (List ℤ))), (h.bufs.set b (g, buf ++ [layerRows o.dims o.pos]))[b']? = some (g', buf') ∧ p' ≤ buf'.length := by
      rintro b' p' ⟨g', buf', f1, f2⟩
      by_cases he : b' = b
      · subst he
        rw [h2] at f1
        obtain ⟨rfl, rfl⟩ := Prod.mk.inj (Option.some.inj f1)
        exact ⟨_, _, List.getElem?_set_self hb, by simp; omega⟩
      · exact ⟨g', buf', by rw [List.getElem?_set_ne (Ne.symm he)]; exact f1, f2⟩
    by_cases he : t' = t
    · subst he
      have hlt : t' < h.tees.length := by
        have := (List.getElem?_eq_some_iff.1 ht).1
        simpa using this
      rw [List.getElem?_set_self hlt] at ht
      obtain ⟨rfl, rfl⟩ := Prod.mk.inj (Option.some.inj ht)
      exact ⟨g, _, List.getElem?_set_self hb, by simp [h4]⟩
    · rw [List.getElem?_set_ne (Ne.symm he)] at ht
      exact key _ _ (ho.tees t' b' p' ht)

/-- Objects other than `t` are where they were when a generator has yielded. -/
theorem yielded_at {h : Heap} {t b g n : ℕ} {buf : List (List (List ℤ))} {o o₁ : GenObj} {e : ℕ × ℕ} (h2 : h.bufs[b]? = some (g, buf)) (h3 : h.gens[g]? = some o) (h4 : o₁.dims = o.dims)
    {l : List (List (List ℤ))} {t' d p : ℕ} (hne : t' ≠ t) (ha : TeeAt h t' d p) (hn : n = t) :
    TeeAt { h with gens := h.gens.set g o₁, bufs := h.bufs.set b (g, l), tees := h.tees.set n e } t' d p := by
  subst hn
  have hg : g < h.gens.length := (List.getElem?_eq_some_iff.1 h3).1
  have hb : b < h.bufs.length := (List.getElem?_eq_some_iff.1 h2).1
  obtain ⟨b', g', buf', o', f1, f2, f3, f4⟩ := ha
  have e1 : ∃ o₂ : GenObj, (h.gens.set g o₁)[g']? = some o₂ ∧ o₂.dims = d := by
    by_cases he : g' = g
    · subst he
      rw [h3] at f3
      obtain rfl := Option.some.inj f3
      exact ⟨o₁, List.getElem?_set_self hg, by rw [h4, f4]⟩
    · exact ⟨o', by rw [List.getElem?_set_ne (Ne.symm he)]; exact f3, f4⟩
  obtain ⟨o₂, e1, e2⟩ := e1
  have e3 : ∃ l', (h.bufs.set b (g, l))[b']? = some (g', l') := by
    by_cases he : b' = b
    · subst he
      rw [h2] at f2
      obtain ⟨rfl, rfl⟩ := Prod.mk.inj (Option.some.inj f2)
      exact ⟨l, List.getElem?_set_self hb⟩
    · exact ⟨buf', by rw [List.getElem?_set_ne (Ne.symm he)]; exact f2⟩
  obtain ⟨l', e3⟩ := e3
  exact ⟨b', g', l', o₂, by rw [List.getElem?_set_ne (Ne.symm hne)]; exact f1, e3, e1, e2⟩

section Peek

variable {h : Heap} {t b pos g : ℕ} {buf : List (List (List ℤ))} {o : GenObj} (h1 : h.tees[t]? = some (b, pos)) (h2 : h.bufs[b]? = some (g, buf))

include h1 h2

theorem peek_buffered {rows : List (List ℤ)} (h3 : buf[pos]? = some rows) : h.peekTee t = .buffered rows ∧ h.begins t = { h with tees := h.tees.set t (b, pos + 1) } := by
  constructor
  · unfold Heap.peekTee; simp only [h1, h2, h3]
  · unfold Heap.begins; simp only [h1, h2, h3]

theorem peek_busy (h3 : buf[pos]? = none) (h4 : h.gens[g]? = some o) (h5 : o.running = true) : h.peekTee t = .busy ∧ h.begins t = h := by
  constructor
  · unfold Heap.peekTee; simp only [h1, h2, h3, h4, h5, if_true]
  · unfold Heap.begins; simp only [h1, h2, h3, h4, h5, if_true]

theorem peek_idle (h3 : buf[pos]? = none) (h4 : h.gens[g]? = some o) (h5 : o.running = false) :
    h.peekTee t = .idle o.dims o.pos ∧ h.begins t = { h with gens := h.gens.set g { o with running := true } } := by
  constructor
  · unfold Heap.peekTee; simp only [h1, h2, h3, h4, h5]; rfl
  · unfold Heap.begins; simp only [h1, h2, h3, h4, h5]; rfl

theorem finishes_eq (h4 : h.gens[g]? = some o) : h.finishes t =
    { h with gens := h.gens.set g ⟨o.dims, o.pos + 1, false⟩, bufs := h.bufs.set b (g, buf ++ [layerRows o.dims o.pos]), tees := h.tees.set t (b, pos + 1) } := by
  unfold Heap.finishes; simp only [h1, h2, h4]

end Peek

/-- Generators are those there were, and have not gone back. -/
def GensFrom (h h' : Heap) : Prop := ∀ (g : ℕ) (o' : GenObj), h'.gens[g]? = some o' → ∃ o : GenObj, h.gens[g]? = some o ∧ o.dims = o'.dims ∧ o.pos ≤ o'.pos

/-- `next` when no other thread interferes. -/
theorem next_run {h : Heap} (ho : Objects h) (hq : Quiet h) {t dims pos : ℕ} (ha : TeeAt h t dims pos) :
    ∃ h', (nextP t).run h = (some (layerRows dims pos), h') ∧ Objects h' ∧ Quiet h' ∧ TeeAt h' t dims (pos + 1) ∧ (∀ t' d p, t' ≠ t → TeeAt h t' d p → TeeAt h' t' d p) ∧
      SameCaches h h' ∧ h'.tees.length = h.tees.length ∧ GensFrom h h' := by
  obtain ⟨b, g, buf, o, h1, h2, h3, rfl, h4, h5, hc⟩ := tee_cases ho ha
  have ht : t < h.tees.length := (List.getElem?_eq_some_iff.1 h1).1
  have hg : g < h.gens.length := (List.getElem?_eq_some_iff.1 h3).1
  have hb : b < h.bufs.length := (List.getElem?_eq_some_iff.1 h2).1
  rcases hc with ⟨hp, he⟩ | ⟨hp, he⟩
  · refine ⟨{ h with tees := h.tees.set t (b, pos + 1) }, ?_, taken_objects ho h2 hp, hq, ⟨b, g, buf, o, List.getElem?_set_self ht, h2, h3, rfl⟩, ?_, ⟨rfl, rfl, rfl⟩, by simp, fun g o hg => ⟨o, hg, rfl, le_refl _⟩⟩
    · obtain ⟨e1, e2⟩ := peek_buffered h1 h2 he
      unfold nextP
      simp only [Prog.run, e1, e2]
    · rintro t' d p hne ⟨b', g', buf', o', f1, f2, f3, f4⟩
      exact ⟨b', g', buf', o', by rw [List.getElem?_set_ne (Ne.symm hne)]; exact f1, f2, f3, f4⟩
  · have hr := hq g o h3
    rw [hp, ← h4]
    refine ⟨_, ?_, yielded_objects (t := t) ho h2 h3 h4, ?_, ⟨b, g, _, ⟨o.dims, o.pos + 1, false⟩, List.getElem?_set_self ht, List.getElem?_set_self hb, List.getElem?_set_self hg, rfl⟩,
      fun t' d p hne hat => yielded_at (o₁ := ⟨o.dims, o.pos + 1, false⟩) h2 h3 rfl hne hat rfl, ⟨rfl, rfl, rfl⟩, by simp, ?_⟩
    · obtain ⟨e1, e2⟩ := peek_idle h1 h2 he h3 hr
      unfold nextP
      simp only [Prog.run, e1, e2]
      rw [finishes_eq (h := { h with gens := h.gens.set g { o with running := true } }) (b := b) (pos := pos) (g := g) (buf := buf) (o := { o with running := true }) h1 h2 (List.getElem?_set_self hg)]
      simp only [List.set_set, hp, h4]
    · intro g' o' hg'
      by_cases hgg : g' = g
      · subst hgg
        rw [List.getElem?_set_self hg] at hg'
        rw [← Option.some.inj hg']
      · rw [List.getElem?_set_ne (Ne.symm hgg)] at hg'
        exact hq g' o' hg'
    · intro g' o' hg'
      by_cases hgg : g' = g
      · subst hgg
        simp only [List.getElem?_set_self hg] at hg'
        obtain rfl := Option.some.inj hg'
        exact ⟨o, h3, rfl, by simp⟩
      · simp only [List.getElem?_set_ne (Ne.symm hgg)] at hg'
        exact ⟨o', hg', rfl, le_refl _⟩

/-- `tee` of an object made by `tee`. -/
theorem copied {h : Heap} (ho : Objects h) {t dims pos : ℕ} (ha : TeeAt h t dims pos) :
    Objects (h.teed (.tee t)) ∧ TeeAt (h.teed (.tee t)) h.tees.length dims pos ∧ (∀ t' d p, TeeAt h t' d p → TeeAt (h.teed (.tee t)) t' d p) ∧
      SameCaches h (h.teed (.tee t)) ∧ (h.teed (.tee t)).tees.length = h.tees.length + 1 ∧ (h.teed (.tee t)).gens = h.gens ∧ (h.teed (.tee t)).bufs = h.bufs ∧
      ∀ t' < h.tees.length, (h.teed (.tee t)).tees[t']? = h.tees[t']? := by
  obtain ⟨b, g, buf, o, h1, h2, h3, h4⟩ := ha
  have e : h.teed (.tee t) = { h with tees := h.tees ++ [(b, pos)] } := by simp [Heap.teed, h1]
  have hk : ∀ {t' : ℕ} {v : ℕ × ℕ}, h.tees[t']? = some v → (h.tees ++ [(b, pos)])[t']? = some v := by
    intro t' v hv
    rw [List.getElem?_append_left (List.getElem?_eq_some_iff.1 hv).1, hv]
  rw [e]
  refine ⟨⟨ho.bufs, ho.source, ?_⟩, ⟨b, g, buf, o, by simp, h2, h3, h4⟩, ?_, ⟨rfl, rfl, rfl⟩, by simp, rfl, rfl, fun t' ht' => List.getElem?_append_left ht'⟩
  · intro t' b' p' ht
    rcases Nat.lt_or_ge t' h.tees.length with hlt | hge
    · rw [List.getElem?_append_left hlt] at ht
      exact ho.tees t' b' p' ht
    · have : t' = h.tees.length := by
        have := (List.getElem?_eq_some_iff.1 ht).1
        simp at this
        omega
      subst this
      simp at ht
      obtain ⟨rfl, rfl⟩ := ht
      exact ho.tees t b pos h1
  · rintro t' d p ⟨b', g', buf', o', f1, f2, f3, f4⟩
    exact ⟨b', g', buf', o', hk f1, f2, f3, f4⟩

/-- What holds between calls when calls are made one after the other. -/
structure Good (h : Heap) : Prop where
  objects : Objects h
  quiet : Quiet h
  gen : ∀ (dims : ℕ) (r : IterRef), h.gen dims = some r → ∃ t, r = .tee t ∧ TeeAt h t dims 0
  batch : ∀ (dims n : ℕ) (rows : List (List ℤ)) (r : IterRef), h.batch (dims, n) = some (rows, r) →
    ∃ t, r = .tee t ∧ TeeAt h t dims n ∧ rows = (layersUpTo dims n).map List.ofFn ∧ n ≤ ((h.npoints dims).getD []).length
  npoints : ∀ (dims : ℕ) (l : List ℕ), h.npoints dims = some l → l = (List.range l.length).map fun t => (layersUpTo dims (t + 1)).length
  known : ∀ (g : ℕ) (o : GenObj), h.gens[g]? = some o → h.gen o.dims ≠ none
  one : ∀ (g g' : ℕ) (o o' : GenObj), h.gens[g]? = some o → h.gens[g']? = some o' → o.dims = o'.dims → g = g'

/-- An object no cache refers to. -/
structure FreeTee (h : Heap) (t : ℕ) : Prop where
  gen : ∀ dims, h.gen dims ≠ some (.tee t)
  batch : ∀ key rows, h.batch key ≠ some (rows, .tee t)

/-- The generator of `dims` has yielded at least `n` layers. -/
def Reaches (h : Heap) (dims n : ℕ) : Prop := h.gen dims ≠ none ∧ ∀ (g : ℕ) (o : GenObj), h.gens[g]? = some o → o.dims = dims → n ≤ o.pos

/-- What a call leaves as it was: free objects other than those the caller advances, and what was computed. -/
structure Later (h h' : Heap) : Prop where
  free : ∀ t d p, FreeTee h t → TeeAt h t d p → FreeTee h' t ∧ ∃ p', TeeAt h' t d p'
  batch : ∀ key, h.batch key ≠ none → h'.batch key ≠ none
  reaches : ∀ d n, Reaches h d n → Reaches h' d n

theorem Later.refl (h : Heap) : Later h h := ⟨fun _ _ p hf ha => ⟨hf, p, ha⟩, fun _ hk => hk, fun _ _ hr => hr⟩

theorem Later.trans {h h' h'' : Heap} (a : Later h h') (b : Later h' h'') : Later h h'' := by
  refine ⟨?_, fun key hk => b.batch key (a.batch key hk), fun d n hr => b.reaches d n (a.reaches d n hr)⟩
  intro t d p hf ha
  obtain ⟨hf', p', ha'⟩ := a.free t d p hf ha
  exact b.free t d p' hf' ha'

theorem good_empty : Good {} := by
  refine ⟨⟨?_, ?_, ?_⟩, ?_, ?_, ?_, ?_, ?_, ?_⟩
  · intro b g buf hb; simp at hb
  · intro b b' g buf buf' hb; simp at hb
  · intro t b p hb; simp at hb
  · intro g o hb; simp at hb
  · intro dims r hb; simp at hb
  · intro dims n rows r hb; simp at hb
  · intro dims l hb; simp at hb
  · intro g o hb; simp at hb
  · intro g g' o o' hb; simp at hb

theorem TeeAt.reach {h : Heap} (hg : Good h) {t dims pos : ℕ} (ha : TeeAt h t dims pos) : Reaches h dims pos := by
  obtain ⟨b, g, buf, o, h1, h2, h3, rfl, h4, h5, hc⟩ := tee_cases hg.objects ha
  refine ⟨hg.known g o h3, ?_⟩
  intro g' o' hg' hd
  have := hg.one g' g o' o hg' h3 hd
  subst this
  rw [h3] at hg'
  obtain rfl := Option.some.inj hg'
  rcases hc with ⟨hp, -⟩ | ⟨hp, -⟩ <;> omega

theorem next_good {h : Heap} (hg : Good h) {t dims pos : ℕ} (hf : FreeTee h t) (ha : TeeAt h t dims pos) :
    ∃ h', (nextP t).run h = (some (layerRows dims pos), h') ∧ Good h' ∧ Later h h' ∧ FreeTee h' t ∧ TeeAt h' t dims (pos + 1) ∧ SameCaches h h' := by
  obtain ⟨h', h1, h2, h3, h4, h5, h6, h7, h8⟩ := next_run hg.objects hg.quiet ha
  have hf' : ∀ {t'}, FreeTee h t' → FreeTee h' t' := fun hf => ⟨by rw [h6.gen]; exact hf.gen, by rw [h6.batch]; exact hf.batch⟩
  refine ⟨h', h1, ⟨h2, h3, ?_, ?_, ?_, ?_, ?_⟩, ⟨?_, ?_, ?_⟩, hf' hf, h4, h6⟩
  · intro d r hr
    rw [h6.gen] at hr
    obtain ⟨t', rfl, ha'⟩ := hg.gen d r hr
    exact ⟨t', rfl, h5 t' d 0 (by rintro rfl; exact hf.gen _ hr) ha'⟩
  · intro d n rows r hr
    rw [h6.batch] at hr
    obtain ⟨t', rfl, ha', e1, e2⟩ := hg.batch d n rows r hr
    exact ⟨t', rfl, h5 t' d n (by rintro rfl; exact hf.batch _ _ hr) ha', e1, by rw [h6.npoints]; exact e2⟩
  · rw [h6.npoints]; exact hg.npoints
  · intro g o' ho'
    obtain ⟨o, ho, hd, -⟩ := h8 g o' ho'
    rw [h6.gen, ← hd]
    exact hg.known g o ho
  · intro g g' o o' ho ho' hd
    obtain ⟨o₁, e1, e2, -⟩ := h8 g o ho
    obtain ⟨o₂, f1, f2, -⟩ := h8 g' o' ho'
    exact hg.one g g' o₁ o₂ e1 f1 (by rw [e2, f2, hd])
  · intro t' d p hf₁ ha₁
    by_cases he : t' = t
    · subst he
      obtain ⟨b, g, buf, o, a1, a2, a3, a4⟩ := ha
      obtain ⟨b', g', buf', o', b1, b2, b3, b4⟩ := ha₁
      rw [a1] at b1
      obtain ⟨rfl, rfl⟩ := Prod.mk.inj (Option.some.inj b1)
      rw [a2] at b2
      obtain ⟨rfl, rfl⟩ := Prod.mk.inj (Option.some.inj b2)
      rw [a3] at b3
      obtain rfl := Option.some.inj b3
      have : d = dims := by rw [← b4, ← a4]
      subst this
      exact ⟨hf' hf₁, _, h4⟩
    · exact ⟨hf' hf₁, p, h5 t' d p he ha₁⟩
  · intro key hk
    rw [h6.batch]; exact hk
  · rintro d n ⟨e1, e2⟩
    refine ⟨by rw [h6.gen]; exact e1, ?_⟩
    intro g o' ho' hd
    obtain ⟨o, ho, hd', hp⟩ := h8 g o' ho'
    exact (e2 g o ho (hd'.trans hd)).trans hp

/-- `tee` of what a cache holds. -/
theorem tee_good {h : Heap} (hg : Good h) {t dims pos : ℕ} (ha : TeeAt h t dims pos) :
    Good (h.teed (.tee t)) ∧ Later h (h.teed (.tee t)) ∧ FreeTee (h.teed (.tee t)) h.tees.length ∧ TeeAt (h.teed (.tee t)) h.tees.length dims pos ∧ SameCaches h (h.teed (.tee t)) := by
  obtain ⟨h1, h2, h3, h4, h5, h6, h7, h8⟩ := copied hg.objects ha
  have hf' : ∀ {t'}, FreeTee h t' → FreeTee (h.teed (.tee t)) t' := fun hf => ⟨by rw [h4.gen]; exact hf.gen, by rw [h4.batch]; exact hf.batch⟩
  have hnew : FreeTee h h.tees.length := by
    constructor
    · intro d hd
      obtain ⟨t', e, ha'⟩ := hg.gen d _ hd
      injection e with e
      have := ha'.lt
      omega
    · rintro ⟨d, n⟩ rows hd
      obtain ⟨t', e, ha', -⟩ := hg.batch d n rows _ hd
      injection e with e
      have := ha'.lt
      omega
  refine ⟨⟨h1, by unfold Quiet; rw [h6]; exact hg.quiet, ?_, ?_, by rw [h4.npoints]; exact hg.npoints, by rw [h6, h4.gen]; exact hg.known, by rw [h6]; exact hg.one⟩,
    ⟨fun t' d p hf ha' => ⟨hf' hf, p, h3 t' d p ha'⟩, fun key hk => by rw [h4.batch]; exact hk, ?_⟩, hf' hnew, h2, h4⟩
  · intro d r hr
    rw [h4.gen] at hr
    obtain ⟨t', rfl, ha'⟩ := hg.gen d r hr
    exact ⟨t', rfl, h3 t' d 0 ha'⟩
  · intro d n rows r hr
    rw [h4.batch] at hr
    obtain ⟨t', rfl, ha', e1, e2⟩ := hg.batch d n rows r hr
    exact ⟨t', rfl, h3 t' d n ha', e1, by rw [h4.npoints]; exact e2⟩
  · intro d n hr
    unfold Reaches
    rw [h4.gen, h6]
    exact hr

/-- A dictionary entry is set to what it is. -/
theorem setGen_same {h : Heap} {dims : ℕ} {r : IterRef} (e : h.gen dims = some r) : h.setGen dims r = h := by
  unfold Heap.setGen
  rw [← e, Function.update_eq_self]

theorem setIter_same {h : Heap} {key : ℕ × ℕ} {rows : List (List ℤ)} {r : IterRef} (e : h.batch key = some (rows, r)) : h.setIter key r = h := by
  unfold Heap.setIter
  rw [show (h.batch key).map (fun v => (v.1, r)) = h.batch key by rw [e]; rfl, Function.update_eq_self]

/-- The heap after a generator has been made and tee'd for the first time. -/
theorem first_generator {h : Heap} (hg : Good h) {dims : ℕ} (hn : h.gen dims = none) :
    let h₁ := ((h.newGen dims).teed (.gen h.gens.length)).setGen dims (.tee h.tees.length)
    Good h₁ ∧ Later h h₁ ∧ FreeTee h₁ (h.tees.length + 1) ∧ TeeAt h₁ (h.tees.length + 1) dims 0 := by
  intro h₁
  have eg : h₁.gens = h.gens ++ [⟨dims, 0, false⟩] := rfl
  have eb : h₁.bufs = h.bufs ++ [(h.gens.length, [])] := rfl
  have et : h₁.tees = h.tees ++ [(h.bufs.length, 0), (h.bufs.length, 0)] := rfl
  have ec : h₁.gen = Function.update h.gen dims (some (.tee h.tees.length)) := by
    show Function.update (Function.update _ _ _) _ _ = _
    rw [Function.update_idem]
  have hgens : ∀ {g : ℕ} {o : GenObj}, h.gens[g]? = some o → h₁.gens[g]? = some o := by
    intro g o ho
    rw [eg, List.getElem?_append_left (List.getElem?_eq_some_iff.1 ho).1, ho]
  have hbufs : ∀ {b : ℕ} {v : ℕ × List (List (List ℤ))}, h.bufs[b]? = some v → h₁.bufs[b]? = some v := by
    intro b v hv
    rw [eb, List.getElem?_append_left (List.getElem?_eq_some_iff.1 hv).1, hv]
  have hat : ∀ {t d p : ℕ}, TeeAt h t d p → TeeAt h₁ t d p := by
    rintro t d p ⟨b, g, buf, o, a1, a2, a3, a4⟩
    refine ⟨b, g, buf, o, ?_, hbufs a2, hgens a3, a4⟩
    rw [et, List.getElem?_append_left (List.getElem?_eq_some_iff.1 a1).1, a1]
  have oldgen : ∀ {g : ℕ} {o : GenObj}, h₁.gens[g]? = some o → h.gens[g]? = some o ∨ g = h.gens.length ∧ o = ⟨dims, 0, false⟩ := by
    intro g o ho
    rw [eg, List.getElem?_append] at ho
    split_ifs at ho with hlt
    · exact .inl ho
    · right
      obtain ⟨e1, e2⟩ := List.getElem?_eq_some_iff.1 ho
      simp at e1
      have : g = h.gens.length := by omega
      subst this
      simp at e2
      exact ⟨rfl, e2.symm⟩
  have oldbuf : ∀ {b g : ℕ} {buf : List (List (List ℤ))}, h₁.bufs[b]? = some (g, buf) → h.bufs[b]? = some (g, buf) ∨ b = h.bufs.length ∧ g = h.gens.length ∧ buf = [] := by
    intro b g buf ho
    rw [eb, List.getElem?_append] at ho
    split_ifs at ho with hlt
    · exact .inl ho
    · right
      obtain ⟨e1, e2⟩ := List.getElem?_eq_some_iff.1 ho
      simp at e1
      have : b = h.bufs.length := by omega
      subst this
      simp at e2
      exact ⟨rfl, e2.1.symm, e2.2⟩
  have hnew : h₁.gens[h.gens.length]? = some ⟨dims, 0, false⟩ := by rw [eg]; simp
  have hnewb : h₁.bufs[h.bufs.length]? = some (h.gens.length, []) := by rw [eb]; simp
  have at0 : TeeAt h₁ h.tees.length dims 0 := ⟨_, _, _, _, by rw [et]; simp, hnewb, hnew, rfl⟩
  have at1 : TeeAt h₁ (h.tees.length + 1) dims 0 := ⟨_, _, _, _, by rw [et]; simp, hnewb, hnew, rfl⟩
  have notold : ∀ {t d p : ℕ}, TeeAt h t d p → t < h.tees.length := fun ha => ha.lt
  refine ⟨⟨⟨?_, ?_, ?_⟩, ?_, ?_, ?_, hg.npoints, ?_, ?_⟩, ⟨?_, fun _ hk => hk, ?_⟩, ⟨?_, ?_⟩, at1⟩
  · intro b g buf hb
    rcases oldbuf hb with hb | ⟨rfl, rfl, rfl⟩
    · obtain ⟨o, e1, e2, e3⟩ := hg.objects.bufs b g buf hb
      exact ⟨o, hgens e1, e2, e3⟩
    · exact ⟨_, hnew, rfl, rfl⟩
  · intro b b' g buf buf' hb hb'
    have hlt : ∀ {b g : ℕ} {buf : List (List (List ℤ))}, h.bufs[b]? = some (g, buf) → g < h.gens.length := by
      intro b g buf hb
      obtain ⟨o, e1, -⟩ := hg.objects.bufs b g buf hb
      exact (List.getElem?_eq_some_iff.1 e1).1
    rcases oldbuf hb with hb | ⟨rfl, rfl, rfl⟩ <;> rcases oldbuf hb' with hb' | ⟨rfl, e, -⟩
    · exact hg.objects.source b b' g buf buf' hb hb'
    · have := hlt hb; omega
    · have := hlt hb'; omega
    · rfl
  · intro t b p ht
    rw [et, List.getElem?_append] at ht
    split_ifs at ht with hlt
    · obtain ⟨g, buf, e1, e2⟩ := hg.objects.tees t b p ht
      exact ⟨g, buf, hbufs e1, e2⟩
    · have hv := List.mem_of_getElem? ht
      simp at hv
      obtain ⟨rfl, rfl⟩ := hv
      exact ⟨_, _, hnewb, by simp⟩
  · intro g o ho
    rcases oldgen ho with ho | ⟨-, rfl⟩
    · exact hg.quiet g o ho
    · rfl
  · intro d r hr
    rw [ec, Function.update_apply] at hr
    split_ifs at hr with hd
    · subst hd
      exact ⟨_, (Option.some.inj hr).symm, at0⟩
    · obtain ⟨t, rfl, ha⟩ := hg.gen d r hr
      exact ⟨t, rfl, hat ha⟩
  · intro d n rows r hr
    obtain ⟨t, rfl, ha, e1, e2⟩ := hg.batch d n rows r hr
    exact ⟨t, rfl, hat ha, e1, e2⟩
  · intro g o ho
    rw [ec, Function.update_apply]
    split_ifs with hd
    · simp
    · rcases oldgen ho with ho | ⟨-, rfl⟩
      · exact hg.known g o ho
      · exact absurd rfl hd
  · intro g g' o o' ho ho' hd
    rcases oldgen ho with ho | ⟨rfl, rfl⟩ <;> rcases oldgen ho' with ho' | ⟨rfl, rfl⟩
    · exact hg.one g g' o o' ho ho' hd
    · exact absurd (hd ▸ hn) (hg.known g o ho)
    · exact absurd (hd ▸ hn) (hg.known g' o' ho')
    · rfl
  · intro t d p hf ha
    refine ⟨⟨?_, hf.batch⟩, p, hat ha⟩
    intro d'
    rw [ec, Function.update_apply]
    split_ifs
    · have := ha.lt
      intro e
      injection e with e
      injection e with e
      omega
    · exact hf.gen d'
  · rintro d n ⟨e1, e2⟩
    have hne : d ≠ dims := by rintro rfl; exact e1 hn
    refine ⟨by rw [ec, Function.update_of_ne hne]; exact e1, ?_⟩
    intro g o ho hd
    rcases oldgen ho with ho | ⟨-, rfl⟩
    · exact e2 g o ho hd
    · exact absurd hd.symm hne
  · intro d
    rw [ec, Function.update_apply]
    split_ifs
    · intro e
      injection e with e
      injection e with e
      omega
    · intro e
      obtain ⟨t, e', ha⟩ := hg.gen d _ e
      injection e' with e'
      have := ha.lt
      omega
  · rintro ⟨d, n⟩ rows e
    obtain ⟨t, e', ha, -⟩ := hg.batch d n rows _ e
    injection e' with e'
    have := ha.lt
    omega

theorem generator_run {h : Heap} (hg : Good h) (dims : ℕ) :
    ∃ t h', (generatorP dims).run h = (some t, h') ∧ Good h' ∧ Later h h' ∧ FreeTee h' t ∧ TeeAt h' t dims 0 ∧ h'.batch = h.batch ∧ h'.npoints = h.npoints ∧ h.tees.length ≤ t := by
  cases hc : h.gen dims with
  | some r =>
    obtain ⟨t, rfl, ha⟩ := hg.gen dims r hc
    obtain ⟨h1, h2, h3, h4, h5⟩ := tee_good hg ha
    refine ⟨h.tees.length, h.teed (.tee t), ?_, h1, h2, h3, h4, h5.batch, h5.npoints, le_refl _⟩
    simp only [generatorP, readP, writeP, teeP, Prog.bind, Prog.run, hc, id, Heap.teeResult]
    rw [setGen_same (h5.gen ▸ hc)]
  | none =>
    obtain ⟨h1, h2, h3, h4⟩ := first_generator hg hc
    refine ⟨h.tees.length + 1, _, ?_, h1, h2, h3, h4, rfl, rfl, by omega⟩
    simp only [generatorP, readP, writeP, teeP, Prog.bind, Prog.run, hc, id, Heap.newGen, Function.update_self, Heap.teeResult]

end Amd
