import Verif.Proof.ThreadsRun

/-! Iterator objects: several threads, when what they need is in the caches. -/

namespace Amd

variable {α β : Type}

/-- What a thread has for itself: nothing, an object made by `tee`, or such an object and a generator it is running. -/
inductive Claim
  | nothing
  | owns (t dims pos : ℕ)
  | runs (t dims pos b g : ℕ)

/-- The object. -/
def Claim.tee? : Claim → Option ℕ
  | .nothing => none
  | .owns t _ _ => some t
  | .runs t _ _ _ _ => some t

/-- The generator. -/
def Claim.gen? : Claim → Option ℕ
  | .nothing => none
  | .owns _ _ _ => none
  | .runs _ _ _ _ g => some g

/-- The claim is true of the heap. Objects below `base` belong to nobody. -/
def Claim.Holds (base : ℕ) (h : Heap) : Claim → Prop
  | .nothing => True
  | .owns t dims pos => base ≤ t ∧ TeeAt h t dims pos
  | .runs t dims pos b g => base ≤ t ∧ h.tees[t]? = some (b, pos) ∧ (∃ buf : List (List (List ℤ)), h.bufs[b]? = some (g, buf) ∧ buf.length = pos) ∧ h.gens[g]? = some ⟨dims, pos, true⟩

/-- Two threads do not claim the same. -/
structure Claim.Disj (c c' : Claim) : Prop where
  tee : ∀ t, c.tee? = some t → c'.tee? ≠ some t
  gen : ∀ g, c.gen? = some g → c'.gen? ≠ some g

theorem Claim.Disj.symm {c c' : Claim} (hd : c.Disj c') : c'.Disj c := ⟨fun t h1 h2 => hd.tee t h2 h1, fun g h1 h2 => hd.gen g h2 h1⟩

theorem Claim.Holds.lt {base : ℕ} {h : Heap} {c : Claim} (hc : c.Holds base h) {t : ℕ} (ht : c.tee? = some t) : base ≤ t ∧ t < h.tees.length := by
  cases c with
  | nothing => cases ht
  | owns t' d p =>
    cases ht
    exact ⟨hc.1, hc.2.lt⟩
  | runs t' d p b g =>
    cases ht
    exact ⟨hc.1, (List.getElem?_eq_some_iff.1 hc.2.1).1⟩

theorem Claim.Holds.running {base : ℕ} {h : Heap} {c : Claim} (hc : c.Holds base h) {g : ℕ} (hg : c.gen? = some g) : ∃ o : GenObj, h.gens[g]? = some o ∧ o.running = true := by
  cases c with
  | nothing => cases hg
  | owns t' d p => cases hg
  | runs t' d p b g => cases hg; exact ⟨_, hc.2.2.2, rfl⟩

/-- What holds while threads run that need only what the caches of `h₀` have. -/
structure Warm (h₀ h : Heap) : Prop where
  caches : SameCaches h₀ h
  objects : Objects h
  len : h₀.tees.length ≤ h.tees.length
  old : ∀ t d p, t < h₀.tees.length → TeeAt h₀ t d p → TeeAt h t d p
  gens : GensFrom h₀ h

/-- Whatever a thread does, other threads keep what they claim. -/
def Keeps (base : ℕ) (h h' : Heap) (c c' : Claim) : Prop := ∀ d : Claim, d.Holds base h → c.Disj d → d.Holds base h' ∧ c'.Disj d

/-- The thread keeps what holds, and returns only what `Q` allows. It raises only `reentered`, and only if `A`. -/
def Safe (h₀ : Heap) (A : Prop) (Q : α → Claim → Prop) : Claim → Prog α → Prop
  | c, .ret a => Q a c
  | _, .raise e => e = .reentered ∧ A
  | c, .act f k => ∀ h, Warm h₀ h → c.Holds h₀.tees.length h → ∃ c', Warm h₀ (f h) ∧ c'.Holds h₀.tees.length (f h) ∧ Keeps h₀.tees.length h (f h) c c' ∧ Safe h₀ A Q c' (k h)

variable {h₀ : Heap} {A : Prop}

theorem safe_bind {R : α → Claim → Prop} {Q : β → Claim → Prop} {p : Prog α} {q : α → Prog β} {c : Claim} (hp : Safe h₀ A R c p) (hq : ∀ a c', R a c' → Safe h₀ A Q c' (q a)) :
    Safe h₀ A Q c (p.bind q) := by
  induction p generalizing c with
  | ret a => exact hq a c hp
  | raise e => exact hp
  | act f k ih =>
    intro h hw hc
    obtain ⟨c', h1, h2, h3, h4⟩ := hp h hw hc
    exact ⟨c', h1, h2, h3, ih h h4⟩

theorem Keeps.refl (base : ℕ) (h : Heap) (c : Claim) : Keeps base h h c c := fun _ hd hj => ⟨hd, hj⟩

theorem safe_read {Q : α → Claim → Prop} {g : Heap → α} {c : Claim} (hq : ∀ h, Warm h₀ h → Q (g h) c) : Safe h₀ A Q c (readP g) :=
  fun h hw hc => ⟨c, hw, hc, .refl _ _ _, hq h hw⟩

theorem started_objects {h : Heap} (ho : Objects h) {g : ℕ} {o o₁ : GenObj} (h3 : h.gens[g]? = some o) (h4 : o₁.dims = o.dims) (h5 : o₁.pos = o.pos) :
    Objects { h with gens := h.gens.set g o₁ } := by
  have hg : g < h.gens.length := (List.getElem?_eq_some_iff.1 h3).1
  refine ⟨?_, ho.source, ho.tees⟩
  intro b' g' buf' hb'
  obtain ⟨o', f1, f2, f3⟩ := ho.bufs b' g' buf' hb'
  by_cases he : g' = g
  · subst he
    rw [h3] at f1
    obtain rfl := Option.some.inj f1
    exact ⟨o₁, List.getElem?_set_self hg, by rw [h5, f2], by rw [h4]; exact f3⟩
  · exact ⟨o', by rw [List.getElem?_set_ne (Ne.symm he)]; exact f1, f2, f3⟩

theorem started_at {h : Heap} {g : ℕ} {o o₁ : GenObj} (h3 : h.gens[g]? = some o) (h4 : o₁.dims = o.dims) {t d p : ℕ} (ha : TeeAt h t d p) :
    TeeAt { h with gens := h.gens.set g o₁ } t d p := by
  have hg : g < h.gens.length := (List.getElem?_eq_some_iff.1 h3).1
  obtain ⟨b', g', buf', o', f1, f2, f3, f4⟩ := ha
  by_cases he : g' = g
  · subst he
    rw [h3] at f3
    obtain rfl := Option.some.inj f3
    exact ⟨b', g', buf', o₁, f1, f2, List.getElem?_set_self hg, by rw [h4, f4]⟩
  · exact ⟨b', g', buf', o', f1, f2, by rw [List.getElem?_set_ne (Ne.symm he)]; exact f3, f4⟩

theorem taken_at {h : Heap} {t : ℕ} {e : ℕ × ℕ} {t' d p : ℕ} (hne : t' ≠ t) (ha : TeeAt h t' d p) : TeeAt { h with tees := h.tees.set t e } t' d p := by
  obtain ⟨b', g', buf', o', f1, f2, f3, f4⟩ := ha
  exact ⟨b', g', buf', o', by rw [List.getElem?_set_ne (Ne.symm hne)]; exact f1, f2, f3, f4⟩

theorem GensFrom.trans {h h' h'' : Heap} (a : GensFrom h h') (b : GensFrom h' h'') : GensFrom h h'' := by
  intro g o ho
  obtain ⟨o₁, e1, e2, e3⟩ := b g o ho
  obtain ⟨o₂, f1, f2, f3⟩ := a g o₁ e1
  exact ⟨o₂, f1, f2.trans e2, f3.trans e3⟩

theorem gensFrom_set {h h' : Heap} {g : ℕ} {o o₁ : GenObj} (h3 : h.gens[g]? = some o) (h4 : o.dims = o₁.dims) (h5 : o.pos ≤ o₁.pos) (e : h'.gens = h.gens.set g o₁) : GensFrom h h' := by
  intro g' o' ho
  rw [e] at ho
  by_cases hg : g' = g
  · subst hg
    rw [List.getElem?_set_self (List.getElem?_eq_some_iff.1 h3).1] at ho
    obtain rfl := Option.some.inj ho
    exact ⟨o, h3, h4, h5⟩
  · rw [List.getElem?_set_ne (Ne.symm hg)] at ho
    exact ⟨o', ho, rfl, le_refl _⟩

theorem safe_finish {t d p b g : ℕ} : Safe h₀ A (fun rows c' => rows = layerRows d p ∧ c' = Claim.owns t d (p + 1)) (.runs t d p b g)
    (.act (fun h => h.finishes t) fun _ => .ret (layerRows d p)) := by
  intro h hw ⟨hb, h1, ⟨buf, h2, h5⟩, h3⟩
  have ht : t < h.tees.length := (List.getElem?_eq_some_iff.1 h1).1
  have hg : g < h.gens.length := (List.getElem?_eq_some_iff.1 h3).1
  have hbl : b < h.bufs.length := (List.getElem?_eq_some_iff.1 h2).1
  have e := finishes_eq h1 h2 h3
  simp only [e]
  refine ⟨.owns t d (p + 1), ⟨⟨hw.caches.gen, hw.caches.batch, hw.caches.npoints⟩, yielded_objects (t := t) hw.objects h2 h3 h5.symm, by simpa using hw.len, ?_, ?_⟩, ⟨hb, ?_⟩, ?_, rfl, rfl⟩
  · intro t' d' p' hlt ha
    exact yielded_at (o₁ := ⟨d, p + 1, false⟩) h2 h3 rfl (by omega) (hw.old t' d' p' hlt ha) rfl
  · exact hw.gens.trans (gensFrom_set (o₁ := ⟨d, p + 1, false⟩) h3 rfl (by simp) rfl)
  · exact ⟨b, g, _, ⟨d, p + 1, false⟩, List.getElem?_set_self ht, List.getElem?_set_self hbl, List.getElem?_set_self hg, rfl⟩
  · intro c hc hj
    refine ⟨?_, ⟨fun t' e1 => hj.tee t' e1, fun g' e1 => by cases e1⟩⟩
    cases c with
    | nothing => trivial
    | owns t' d' p' =>
      have hne : t' ≠ t := fun e' => hj.tee t rfl (by rw [e']; rfl)
      exact ⟨hc.1, yielded_at (o₁ := ⟨d, p + 1, false⟩) h2 h3 rfl hne hc.2 rfl⟩
    | runs t' d' p' b' g' =>
      have hne : t' ≠ t := fun e' => hj.tee t rfl (by rw [e']; rfl)
      have hgg : g' ≠ g := fun e' => hj.gen g rfl (by rw [e']; rfl)
      obtain ⟨c1, c2, ⟨buf', c3, c4⟩, c5⟩ := hc
      have hbb : b' ≠ b := by
        rintro rfl
        rw [h2] at c3
        exact hgg (Prod.mk.inj (Option.some.inj c3)).1.symm
      exact ⟨c1, by simp only [List.getElem?_set_ne (Ne.symm hne)]; exact c2, ⟨buf', by simp only [List.getElem?_set_ne (Ne.symm hbb)]; exact c3, c4⟩,
        by simp only [List.getElem?_set_ne (Ne.symm hgg)]; exact c5⟩

/-- `next` of one's own object yields the right layer, or raises if the buffer does not have it and the generator is running. -/
theorem safe_next {t d p : ℕ} (hA : A ∨ ∀ (g : ℕ) (o : GenObj), h₀.gens[g]? = some o → o.dims = d → p < o.pos) :
    Safe h₀ A (fun rows c' => rows = layerRows d p ∧ c' = Claim.owns t d (p + 1)) (.owns t d p) (nextP t) := by
  intro h hw ⟨hb, ha⟩
  obtain ⟨b, g, buf, o, h1, h2, h3, rfl, h4, h5, hc⟩ := tee_cases hw.objects ha
  have ht : t < h.tees.length := (List.getElem?_eq_some_iff.1 h1).1
  have hg : g < h.gens.length := (List.getElem?_eq_some_iff.1 h3).1
  rcases hc with ⟨hp, he⟩ | ⟨hp, he⟩
  · obtain ⟨e1, e2⟩ := peek_buffered h1 h2 he
    simp only [e1, e2]
    refine ⟨.owns t o.dims (p + 1), ⟨⟨hw.caches.gen, hw.caches.batch, hw.caches.npoints⟩, taken_objects hw.objects h2 hp, by simpa using hw.len, ?_, hw.gens⟩, ⟨hb, ⟨b, g, buf, o, List.getElem?_set_self ht, h2, h3, rfl⟩⟩, ?_, rfl, rfl⟩
    · intro t' d' p' hlt ha'
      exact taken_at (by omega) (hw.old t' d' p' hlt ha')
    · intro c hc hj
      refine ⟨?_, ⟨fun t' e1 => hj.tee t' e1, fun g' e1 => by cases e1⟩⟩
      cases c with
      | nothing => trivial
      | owns t' d' p' =>
        have hne : t' ≠ t := fun e' => hj.tee t rfl (by rw [e']; rfl)
        exact ⟨hc.1, taken_at hne hc.2⟩
      | runs t' d' p' b' g' =>
        have hne : t' ≠ t := fun e' => hj.tee t rfl (by rw [e']; rfl)
        obtain ⟨c1, c2, c3, c5⟩ := hc
        exact ⟨c1, by simp only [List.getElem?_set_ne (Ne.symm hne)]; exact c2, c3, c5⟩
  · cases hr : o.running with
    | true =>
      obtain ⟨e1, e2⟩ := peek_busy h1 h2 he h3 hr
      simp only [e1, e2]
      refine ⟨.owns t o.dims p, hw, ⟨hb, ha⟩, .refl _ _ _, rfl, ?_⟩
      rcases hA with hA | hA
      · exact hA
      · exfalso
        obtain ⟨o', f1, f2, f3⟩ := hw.gens g o h3
        have := hA g o' f1 f2
        omega
    | false =>
      obtain ⟨e1, e2⟩ := peek_idle h1 h2 he h3 hr
      have hpos : o.pos = p := by omega
      simp only [e1, e2]
      refine ⟨.runs t o.dims p b g, ⟨⟨hw.caches.gen, hw.caches.batch, hw.caches.npoints⟩, started_objects hw.objects h3 rfl rfl, hw.len, ?_, ?_⟩,
        ⟨hb, h1, ⟨buf, h2, hp.symm⟩, by simp only [List.getElem?_set_self hg, hpos]⟩, ?_, ?_⟩
      · intro t' d' p' hlt ha'
        exact started_at (o₁ := ⟨o.dims, o.pos, true⟩) h3 rfl (hw.old t' d' p' hlt ha')
      · exact hw.gens.trans (gensFrom_set (o₁ := ⟨o.dims, o.pos, true⟩) h3 rfl (le_refl _) rfl)
      · intro c hc hj
        refine ⟨?_, ⟨fun t' e1 => hj.tee t' e1, fun g' e1 e2 => ?_⟩⟩
        · cases c with
          | nothing => trivial
          | owns t' d' p' => exact ⟨hc.1, started_at (o₁ := ⟨o.dims, o.pos, true⟩) h3 rfl hc.2⟩
          | runs t' d' p' b' g' =>
            obtain ⟨c1, c2, c3, c5⟩ := hc
            have hgg : g' ≠ g := by
              rintro rfl
              rw [h3] at c5
              rw [Option.some.inj c5] at hr
              cases hr
            exact ⟨c1, c2, c3, by simp only [List.getElem?_set_ne (Ne.symm hgg)]; exact c5⟩
        · cases e1
          obtain ⟨o', f1, f2⟩ := hc.running e2
          rw [h3] at f1
          rw [← Option.some.inj f1, hr] at f2
          cases f2
      · rw [hpos]
        exact safe_finish

theorem safe_mono {Q R : α → Claim → Prop} {p : Prog α} {c : Claim} (hp : Safe h₀ A Q c p) (hq : ∀ a c', Q a c' → R a c') : Safe h₀ A R c p := by
  induction p generalizing c with
  | ret a => exact hq _ _ hp
  | raise e => exact hp
  | act f k ih =>
    intro h hw hc
    obtain ⟨c', h1, h2, h3, h4⟩ := hp h hw hc
    exact ⟨c', h1, h2, h3, ih h h4⟩

/-- `tee` of an object that was there. -/
theorem safe_tee {t d p : ℕ} (ht : t < h₀.tees.length) (ha₀ : TeeAt h₀ t d p) :
    Safe h₀ A (fun ab c' => ab.1 = IterRef.tee t ∧ c' = Claim.owns ab.2 d p) .nothing (teeP (.tee t)) := by
  intro h hw _
  obtain ⟨h1, h2, h3, h4, h5, h6, h7, h8⟩ := copied hw.objects (hw.old t d p ht ha₀)
  refine ⟨.owns h.tees.length d p, ⟨⟨h4.gen.trans hw.caches.gen, h4.batch.trans hw.caches.batch, h4.npoints.trans hw.caches.npoints⟩, h1, by rw [h5]; exact hw.len.trans (by omega),
    fun t' d' p' hlt ha => h3 t' d' p' (hw.old t' d' p' hlt ha), ?_⟩, ⟨hw.len, h2⟩, ?_, rfl, rfl⟩
  · intro g o ho
    rw [h6] at ho
    exact hw.gens g o ho
  · intro c hc _
    refine ⟨?_, ⟨?_, fun g' e1 => by cases e1⟩⟩
    · cases c with
      | nothing => trivial
      | owns t' d' p' => exact ⟨hc.1, h3 t' d' p' hc.2⟩
      | runs t' d' p' b' g' =>
        obtain ⟨c1, c2, c3, c5⟩ := hc
        exact ⟨c1, by rw [h8 t' (List.getElem?_eq_some_iff.1 c2).1]; exact c2, by rw [h7]; exact c3, by rw [h6]; exact c5⟩
    · intro t' e1 e2
      cases e1
      have := (hc.lt e2).2
      omega

theorem safe_fetch (hg : Good h₀) {dims n : ℕ} (hb : h₀.batch (dims, n) ≠ none) :
    Safe h₀ A (fun lt c' => lt.1 = (layersUpTo dims n).map List.ofFn ∧ c' = Claim.owns lt.2 dims n) .nothing (fetchP dims n) := by
  obtain ⟨⟨rows, r⟩, hv⟩ := Option.ne_none_iff_exists'.1 hb
  obtain ⟨t, rfl, ha, rfl, -⟩ := hg.batch dims n rows r hv
  unfold fetchP
  refine safe_bind (R := fun v c' => v = some ((layersUpTo dims n).map List.ofFn, IterRef.tee t) ∧ c' = .nothing) (safe_read fun h hw => ⟨by rw [hw.caches.batch, hv], rfl⟩) ?_
  rintro v c ⟨rfl, rfl⟩
  refine safe_bind (safe_tee ha.lt ha) ?_
  rintro ⟨a, b⟩ c ⟨h1, rfl⟩
  have h1' : a = IterRef.tee t := h1
  subst h1'
  refine safe_bind (R := fun _ c' => c' = Claim.owns b dims n) ?_ ?_
  · intro h hw hc
    have e : h.setIter (dims, n) (.tee t) = h := setIter_same (rows := (layersUpTo dims n).map List.ofFn) (by rw [hw.caches.batch, hv])
    simp only [e]
    exact ⟨_, hw, hc, .refl _ _ _, rfl⟩
  · rintro - c rfl
    exact ⟨rfl, rfl⟩

theorem safe_batches (hg : Good h₀) {dims m k : ℕ} (hD : 0 < dims) (hm : 0 < m) (hb : h₀.batch (dims, numLayers dims m k) ≠ none) :
    Safe h₀ A (fun lt c' => lt.1 = (layersUpTo dims (numLayers dims m k)).map List.ofFn ∧ c' = Claim.owns lt.2 dims (numLayers dims m k)) .nothing (batchesP dims m k) := by
  obtain ⟨⟨rows, r⟩, hv⟩ := Option.ne_none_iff_exists'.1 hb
  obtain ⟨t, -, -, -, hle⟩ := hg.batch dims _ rows r hv
  have hpos : 0 < numLayers dims m k := by
    obtain ⟨s, h1, h2, -⟩ := numLayers_spec (k := k) hD hm
    omega
  obtain ⟨l, hl⟩ : ∃ l, h₀.npoints dims = some l := by
    cases hn : h₀.npoints dims with
    | none => rw [hn] at hle; simp at hle; omega
    | some l => exact ⟨l, rfl⟩
  rw [hl] at hle
  simp only [Option.getD_some] at hle
  have hguess : guessLayers l m k = numLayers dims m k := by
    rw [guessLayers_spec (k := k) hD hm (hg.npoints dims l hl)]
    omega
  have hread : ∀ h, Warm h₀ h → h.npoints dims = some l := fun h hw => by rw [hw.caches.npoints, hl]
  unfold batchesP
  refine safe_bind (R := fun v c' => v = some l ∧ c' = .nothing) (safe_read fun h hw => ⟨hread h hw, rfl⟩) ?_
  rintro v c ⟨rfl, rfl⟩
  refine safe_bind (R := fun v c' => v = some l ∧ c' = .nothing) (safe_read fun h hw => ⟨hread h hw, rfl⟩) ?_
  rintro v c ⟨rfl, rfl⟩
  refine safe_bind (R := fun v c' => v = some (rows, r) ∧ c' = .nothing) (safe_read fun h hw => ⟨?_, rfl⟩) ?_
  · rw [Option.getD_some, hguess, hw.caches.batch, hv]
  rintro v c ⟨rfl, rfl⟩
  simp only [Prog.bind, Option.getD_some, hguess]
  exact safe_fetch hg hb

variable {D : ℕ}

theorem le_nnStop (motif : List (Pt D ℝ)) (cell : Fin D → Pt D ℝ) (x : List (Pt D ℝ)) (k : ℕ) (diamSq : ℝ) :
    ∀ (f d : ℕ) (rows : List (List ℝ)), d ≤ nnStop motif cell x k diamSq f d rows
  | 0, d, _ => le_refl d
  | f + 1, d, rows => by
    rw [nnStop]
    split
    · exact le_refl d
    · split_ifs
      · omega
      · omega
      · split
        · omega
        · exact (Nat.le_succ d).trans (le_nnStop motif cell x k diamSq f (d + 1) _)

theorem safe_nnLoop (motif : List (Pt D ℝ)) (cell : Fin D → Pt D ℝ) (x : List (Pt D ℝ)) (k : ℕ) (diamSq : ℝ) {t : ℕ} :
    ∀ (f d : ℕ) (rows : List (List ℝ)), (A ∨ ∀ (g : ℕ) (o : GenObj), h₀.gens[g]? = some o → o.dims = D → nnStop motif cell x k diamSq f d rows ≤ o.pos) →
      Safe h₀ A (fun r _ => r = nnLoop nearReal motif cell x k diamSq f d rows) (.owns t D d) (nnLoopP motif cell x k diamSq t f rows)
  | 0, _, _, _ => rfl
  | f + 1, d, rows, hA => by
    rw [nnLoopP, nnLoop]
    rw [nnStop] at hA
    cases hm : maxLast rows with
    | error e => rfl
    | ok a =>
      have e : matMul cell (layerRows D d) = (intLayer D d).map (latVec cell) := matMul_layerRows cell _
      simp only [hm] at hA
      simp only [bind, Except.bind]
      refine safe_bind (safe_next ?_) ?_
      · rcases hA with hA | hA
        · exact .inl hA
        · right
          intro g o ho hd
          have := hA g o ho hd
          split_ifs at this
          · omega
          · omega
          · split at this
            · omega
            · exact lt_of_lt_of_le (Nat.lt_succ_self d) ((le_nnStop motif cell x k diamSq f (d + 1) _).trans this)
      · rintro l c ⟨rfl, rfl⟩
        rw [e]
        split_ifs with h1 h2
        · rfl
        · rfl
        · rw [if_neg h1, if_neg h2] at hA
          cases hmr : mergeRows rows _ with
          | error e => rfl
          | ok rows' =>
            rw [hmr] at hA
            exact safe_nnLoop motif cell x k diamSq f (d + 1) rows' hA

theorem safe_nearestNeighbors (hg : Good h₀) (hD : 0 < D) {motif : List (Pt D ℝ)} (hm : motif ≠ []) (cell : Fin D → Pt D ℝ) (x : List (Pt D ℝ)) (k fuel : ℕ)
    (hb : h₀.batch (D, numLayers D motif.length k) ≠ none) (hA : A ∨ Reaches h₀ D (nnNeeds motif cell x k fuel)) :
    Safe h₀ A (fun r _ => r = nearestNeighbors motif cell x k fuel) .nothing (nearestNeighborsP motif cell x k fuel) := by
  unfold nearestNeighborsP nearestNeighbors nearestNeighborsSq
  unfold nnNeeds at hA
  refine safe_bind (safe_batches hg hD (List.length_pos_iff.mpr hm) hb) ?_
  rintro ⟨rows, t⟩ c ⟨h1, rfl⟩
  have h1' : rows = (layersUpTo D (numLayers D motif.length k)).map List.ofFn := h1
  subst h1'
  simp only [matMul_layerRows, bind, Except.bind]
  cases hx : maxE (List.flatMap (fun l : List ℝ => l.take motif.length)
      (cdistSq x (latticeToCloud motif ((layersUpTo D (numLayers D motif.length k)).map (latVec cell))))) with
  | error e => rfl
  | ok dsq =>
    rw [hx] at hA
    refine safe_bind (safe_nnLoop motif cell x k dsq fuel _ _ (hA.imp id fun hr => hr.2)) ?_
    rintro r c rfl
    rfl

theorem safe_amd (hg : Good h₀) (hD : 0 < D) {S : PeriodicSet D} (hm : S.motif ≠ []) (k fuel : ℕ) (hb : ∀ xm, asymPoints S = .ok xm → h₀.batch (D, numLayers D S.motif.length (k + 1)) ≠ none)
    (hA : A ∨ Ready h₀ S k fuel) : Safe h₀ A (fun r _ => r = AMD S k fuel) .nothing (amdP S k fuel) := by
  unfold amdP AMD
  unfold Ready at hA
  cases ha : asymPoints S with
  | error e => rfl
  | ok xm =>
    obtain ⟨x, mult⟩ := xm
    rw [ha] at hA
    refine safe_bind (safe_nearestNeighbors hg hD hm S.cell x (k + 1) fuel (hb _ ha) (hA.imp id fun hr => hr.2)) ?_
    rintro r c rfl
    rfl

theorem safe_pdd (hg : Good h₀) (hD : 0 < D) {S : PeriodicSet D} (hm : S.motif ≠ []) (k : ℕ) (lexsort collapse : Bool) (tol : ℝ) (fuel : ℕ)
    (hb : ∀ xm, asymPoints S = .ok xm → h₀.batch (D, numLayers D S.motif.length (k + 1)) ≠ none) (hA : A ∨ Ready h₀ S k fuel) :
    Safe h₀ A (fun r _ => r = PDD S k lexsort collapse tol fuel) .nothing (pddP S k lexsort collapse tol fuel) := by
  unfold pddP PDD
  unfold Ready at hA
  cases ha : asymPoints S with
  | error e => rfl
  | ok xm =>
    obtain ⟨x, mult⟩ := xm
    rw [ha] at hA
    refine safe_bind (safe_nearestNeighbors hg hD hm S.cell x (k + 1) fuel (hb _ ha) (hA.imp id fun hr => hr.2)) ?_
    rintro r c rfl
    rfl

/-- What holds of the threads at any time. -/
def AllSafe (h₀ : Heap) (A : ℕ → Prop) (Q : ℕ → Returned → Prop) (c : Threads) : Prop :=
  Warm h₀ c.heap ∧ ∃ claims : ℕ → Claim, (∀ i p, c.threads[i]? = some p → (claims i).Holds h₀.tees.length c.heap ∧ Safe h₀ (A i) (fun r _ => Q i r) (claims i) p) ∧
    ∀ i j, i < c.threads.length → j < c.threads.length → i ≠ j → (claims i).Disj (claims j)

theorem AllSafe.step {A : ℕ → Prop} {Q : ℕ → Returned → Prop} {c c' : Threads} (hs : AllSafe h₀ A Q c) (h : c.Step c') : AllSafe h₀ A Q c' := by
  obtain ⟨hw, claims, hc, hj⟩ := hs
  cases h with
  | step i f k hi =>
    obtain ⟨h1, h2⟩ := hc i _ hi
    obtain ⟨d, h3, h4, h5, h6⟩ := h2 c.heap hw h1
    have hlt : i < c.threads.length := (List.getElem?_eq_some_iff.1 hi).1
    refine ⟨h3, Function.update claims i d, ?_, ?_⟩
    · intro j p hp
      by_cases he : j = i
      · subst he
        simp only [List.getElem?_set_self hlt] at hp
        obtain rfl := Option.some.inj hp
        rw [Function.update_self]
        exact ⟨h4, h6⟩
      · simp only [List.getElem?_set_ne (Ne.symm he)] at hp
        rw [Function.update_of_ne he]
        obtain ⟨g1, g2⟩ := hc j p hp
        exact ⟨(h5 _ g1 (hj i j hlt (List.getElem?_eq_some_iff.1 hp).1 (Ne.symm he))).1, g2⟩
    · intro j j' hlj hlj' hne
      simp only [List.length_set] at hlj hlj'
      have key : ∀ j, j < c.threads.length → j ≠ i → d.Disj (claims j) := by
        intro j hlj hne
        exact (h5 _ (hc j _ (List.getElem?_eq_getElem hlj)).1 (hj i j hlt hlj (Ne.symm hne))).2
      by_cases he : j = i
      · subst he
        rw [Function.update_self, Function.update_of_ne (Ne.symm hne)]
        exact key j' hlj' (Ne.symm hne)
      · rw [Function.update_of_ne he]
        by_cases he' : j' = i
        · subst he'
          rw [Function.update_self]
          exact (key j hlj he).symm
        · rw [Function.update_of_ne he']
          exact hj j j' hlj hlj' hne

theorem AllSafe.runs {A : ℕ → Prop} {Q : ℕ → Returned → Prop} {c c' : Threads} (hs : AllSafe h₀ A Q c) (h : c.Runs c') : AllSafe h₀ A Q c' := by
  induction h with
  | refl => exact hs
  | tail _ h ih => exact ih.step h

end Amd
