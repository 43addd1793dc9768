import Verif.Model.Reader

/-!
# Lemmas about the readers
-/

set_option linter.unusedSectionVars false

namespace Amd

variable {ι α : Type} {w : World}

/-- The filters turn no warning into an exception. -/
def World.Calm (w : World) : Prop := ∀ x, w.action x ≠ .error

/-- Every warning is displayed. -/
def World.Open (w : World) : Prop := ∀ x, w.action x = .display

theorem World.Open.calm (h : w.Open) : w.Calm := fun x => by rw [h x]; decide

theorem World.ignoreAll_action (w : World) (x : Warning) : w.ignoreAll.action x = .ignore := by
  simp [World.ignoreAll, World.action]

theorem World.ignoreAll_calm (w : World) : w.ignoreAll.Calm := fun x => by rw [World.ignoreAll_action]; decide

theorem action_congr {w' : World} (h : w'.filters = w.filters) (x : Warning) : w'.action x = w.action x := by
  simp only [World.action, h]

theorem World.Calm.congr {w' : World} (h : w.Calm) (e : w'.filters = w.filters) : w'.Calm := fun x => by rw [action_congr e]; exact h x

theorem World.Open.congr {w' : World} (h : w.Open) (e : w'.filters = w.filters) : w'.Open := fun x => by rw [action_congr e]; exact h x

theorem record_calm (h : w.Calm) : ∀ ws, record w ws = .ok (ws.filter fun x => w.action x = .display)
  | [] => rfl
  | x :: xs => by
    rw [record]
    have := h x
    cases hx : w.action x with
    | ignore => simp [hx, record_calm h xs]
    | error => exact absurd hx this
    | display => simp [hx, record_calm h xs, Except.map]

/-- A warning with the name of the crystal in front. -/
def Warning.named (name : String) (x : Warning) : Warning := ⟨x.category, "(name=" ++ name ++ ") " ++ x.text⟩

theorem reissue_filters (name : String) : ∀ (ws : List Warning) (w : World), (reissue name w ws).1.filters = w.filters
  | [], _ => rfl
  | x :: xs, w => by
    rw [reissue]
    cases w.action ⟨x.category, "(name=" ++ name ++ ") " ++ x.text⟩ with
    | ignore => exact reissue_filters name xs w
    | error => rfl
    | display => exact reissue_filters name xs _

theorem reissue_calm (name : String) : ∀ (ws : List Warning) {w : World}, w.Calm →
    reissue name w ws = ({ w with shown := w.shown ++ (ws.map (Warning.named name)).filter fun x => w.action x = .display }, none)
  | [], w, _ => by simp [reissue]
  | x :: xs, w, h => by
    rw [reissue]
    have hx := h (x.named name)
    simp only [Warning.named] at hx
    cases e : w.action ⟨x.category, "(name=" ++ name ++ ") " ++ x.text⟩ with
    | ignore => simp only [reissue_calm name xs h, List.map_cons, Warning.named, List.filter_cons, e]; simp
    | error => exact absurd e hx
    | display =>
      simp only
      rw [reissue_calm name xs (w := { w with shown := w.shown ++ [⟨x.category, "(name=" ++ name ++ ") " ++ x.text⟩] }) (h.congr rfl)]
      have e' : ∀ l y, World.action { w with shown := l } y = w.action y := fun _ _ => rfl
      simp only [List.map_cons, Warning.named, List.filter_cons, e, e']
      simp

/-- What the next call does apart from warnings, if no filter raises. -/
def scan (converter : ι → Conversion α) : List (Event ι) → List (Event ι) × NextResult α
  | [] => ([], .stop)
  | .raise e :: es => (es, .raise e)
  | .warn _ :: es => scan converter es
  | .item i :: es =>
    match (converter i).2 with
    | .ok a => (es, .yield a)
    | .error (.parse _) => scan converter es
    | .error (.warning x) => (es, .raise (.warning x))
    | .error (.other t) => (es, .raise (.other t))

theorem convertItem_calm (h : w.Calm) (c : Conversion α) : convertItem w c = match c.2 with
    | .ok a => .done (c.1.filter fun x => w.action x = .display) a
    | .error (.parse _) => .skip
    | .error (.warning x) => .raise (.warning x)
    | .error (.other t) => .raise (.other t) := by
  rw [convertItem, record_calm h]
  rcases c with ⟨ws, e | a⟩
  · cases e with
    | parse t => simp [h ⟨"UserWarning", t⟩]
    | warning x => rfl
    | other t => rfl
  · rfl

theorem nextLoop_filters (converter : ι → Conversion α) (name : α → String) : ∀ (es : List (Event ι)) (w : World),
    (nextLoop converter name w es).1.filters = w.filters
  | [], _ => rfl
  | .raise _ :: _, _ => rfl
  | .warn x :: es, w => by
    rw [nextLoop]
    cases w.action x with
    | ignore => exact nextLoop_filters converter name es w
    | error => rfl
    | display => exact nextLoop_filters converter name es _
  | .item i :: es, w => by
    rw [nextLoop]
    cases convertItem w (converter i) with
    | skip => exact nextLoop_filters converter name es w
    | raise e => rfl
    | done ws a =>
      have := reissue_filters (name a) ws w
      simp only
      split
      · rename_i h; rw [h] at this; exact this
      · rename_i h; rw [h] at this; exact this

theorem nextLoop_calm (converter : ι → Conversion α) (name : α → String) : ∀ (es : List (Event ι)) {w : World}, w.Calm →
    (nextLoop converter name w es).2 = scan converter es
  | [], _, _ => rfl
  | .raise _ :: _, _, _ => rfl
  | .warn x :: es, w, h => by
    rw [nextLoop, scan]
    have hx := h x
    cases e : w.action x with
    | ignore => exact nextLoop_calm converter name es h
    | error => exact absurd e hx
    | display => exact nextLoop_calm converter name es (h.congr rfl)
  | .item i :: es, w, h => by
    rw [nextLoop, scan, convertItem_calm h]
    rcases e : (converter i).2 with (t | x | t) | a
    · exact nextLoop_calm converter name es h
    · rfl
    · rfl
    · simp only [reissue_calm (name a) _ h]

/-- What is displayed by the next call, if every warning is displayed. -/
def scanShown (converter : ι → Conversion α) (name : α → String) : List (Event ι) → List Warning
  | [] => []
  | .raise _ :: _ => []
  | .warn x :: es => x :: scanShown converter name es
  | .item i :: es =>
    match (converter i).2 with
    | .ok a => (converter i).1.map (Warning.named (name a))
    | .error (.parse _) => scanShown converter name es
    | .error (.warning _) => []
    | .error (.other _) => []

theorem nextLoop_open (converter : ι → Conversion α) (name : α → String) : ∀ (es : List (Event ι)) {w : World}, w.Open →
    (nextLoop converter name w es).1.shown = w.shown ++ scanShown converter name es
  | [], _, _ => by simp [nextLoop, scanShown]
  | .raise _ :: _, _, _ => by simp [nextLoop, scanShown]
  | .warn x :: es, w, h => by
    rw [nextLoop, scanShown, h x]
    simp only
    rw [nextLoop_open converter name es (w := { w with shown := w.shown ++ [x] }) (h.congr rfl)]
    simp
  | .item i :: es, w, h => by
    rw [nextLoop, scanShown, convertItem_calm h.calm]
    rcases e : (converter i).2 with (t | x | t) | a
    · exact nextLoop_open converter name es h
    · simp
    · simp
    · simp only [reissue_calm (name a) _ h.calm]
      simp [h _]

theorem nextLoop_silent (converter : ι → Conversion α) (name : α → String) : ∀ (es : List (Event ι)) {w : World}, (∀ x, w.action x = .ignore) →
    (nextLoop converter name w es).1.shown = w.shown
  | [], _, _ => rfl
  | .raise _ :: _, _, _ => rfl
  | .warn x :: es, w, h => by
    rw [nextLoop, h x]
    exact nextLoop_silent converter name es h
  | .item i :: es, w, h => by
    have hc : w.Calm := fun x => by rw [h x]; decide
    rw [nextLoop, convertItem_calm hc]
    rcases e : (converter i).2 with (t | x | t) | a
    · exact nextLoop_silent converter name es h
    · rfl
    · rfl
    · simp only [reissue_calm (name a) _ hc]
      simp [h _]

/-! ### Next and list -/

/-- The world in which the loop of `next` runs. -/
def Reader.enter (r : Reader ι α) (w : World) : World := if r.showWarnings then w else w.ignoreAll

theorem Reader.enter_shown (r : Reader ι α) (w : World) : (r.enter w).shown = w.shown := by
  rw [Reader.enter]; split <;> rfl

theorem Reader.next_eq (r : Reader ι α) (w : World) : r.next w = ((nextLoop r.converter r.name (r.enter w) r.events).1,
    { r with events := (nextLoop r.converter r.name (r.enter w) r.events).2.1 }, (nextLoop r.converter r.name (r.enter w) r.events).2.2) := rfl

/-- No filter raises while the reader works. -/
def Reader.Quiet (r : Reader ι α) (w : World) : Prop := r.showWarnings = true → w.Calm

theorem Reader.Quiet.enter {r : Reader ι α} (h : r.Quiet w) : (r.enter w).Calm := by
  rw [Reader.enter]
  split
  · rename_i e; exact h e
  · exact w.ignoreAll_calm

theorem Reader.next_calm {r : Reader ι α} (h : r.Quiet w) :
    (r.next w).2 = ({ r with events := (scan r.converter r.events).1 }, (scan r.converter r.events).2) := by
  rw [Reader.next_eq, nextLoop_calm _ _ _ h.enter]

theorem Reader.Quiet.next {r r' : Reader ι α} (h : r.Quiet w) (e : r'.showWarnings = r.showWarnings) : r'.Quiet (r.next w).1 := by
  intro hs
  have hs' : r.showWarnings = true := by rw [← e]; exact hs
  refine (h hs').congr ?_
  rw [Reader.next_eq]
  simp only
  rw [nextLoop_filters, Reader.enter, if_pos hs']

/-- The events are items that are converted or skipped, and warnings. -/
def Clean (converter : ι → Conversion α) (es : List (Event ι)) : Prop :=
  ∀ e ∈ es, (∃ x, e = .warn x) ∨ ∃ i, e = .item i ∧ ((∃ a, (converter i).2 = .ok a) ∨ ∃ t, (converter i).2 = .error (.parse t))

/-- The results of the items that can be converted, in order. -/
def validItems (converter : ι → Conversion α) (es : List (Event ι)) : List α :=
  es.filterMap fun
    | .item i => (converter i).2.toOption
    | _ => none

theorem scan_clean {converter : ι → Conversion α} : ∀ {es : List (Event ι)}, Clean converter es →
    (validItems converter es = [] ∧ (scan converter es).2 = .stop) ∨
    ∃ a, (scan converter es).2 = .yield a ∧ validItems converter es = a :: validItems converter (scan converter es).1 ∧
      Clean converter (scan converter es).1 ∧ (scan converter es).1.length < es.length
  | [], _ => Or.inl ⟨rfl, rfl⟩
  | e :: es, h => by
    have hes : Clean converter es := fun e' he => h e' (List.mem_cons_of_mem _ he)
    have key : scan converter (e :: es) = scan converter es → validItems converter (e :: es) = validItems converter es →
        (validItems converter (e :: es) = [] ∧ (scan converter (e :: es)).2 = .stop) ∨
        ∃ a, (scan converter (e :: es)).2 = .yield a ∧ validItems converter (e :: es) = a :: validItems converter (scan converter (e :: es)).1 ∧
          Clean converter (scan converter (e :: es)).1 ∧ (scan converter (e :: es)).1.length < (e :: es).length := by
      intro e1 e2
      rw [e1, e2]
      rcases scan_clean hes with h | ⟨a, h1, h2, h3, h4⟩
      · exact Or.inl h
      · exact Or.inr ⟨a, h1, h2, h3, by simp; omega⟩
    rcases h e (by simp) with ⟨x, rfl⟩ | ⟨i, rfl, ⟨a, ha⟩ | ⟨t, ht⟩⟩
    · exact key rfl rfl
    · right
      refine ⟨a, ?_⟩
      rw [scan, ha]
      exact ⟨rfl, by simp [validItems, ha, Except.toOption], hes, by simp⟩
    · refine key ?_ ?_
      · rw [scan, ht]
      · simp [validItems, ht, Except.toOption]

theorem collect_clean : ∀ (n : ℕ) {r : Reader ι α} {w : World}, r.Quiet w → Clean r.converter r.events → r.events.length < n →
    (r.collect n w).2 = .ok (validItems r.converter r.events)
  | 0, _, _, _, _, h => by omega
  | n + 1, r, w, hq, hc, hn => by
    rw [Reader.collect]
    have h1 := Reader.next_calm hq
    have h2 := hq.next (r' := { r with events := (scan r.converter r.events).1 }) rfl
    rcases scan_clean hc with ⟨e1, e2⟩ | ⟨a, e1, e2, e3, e4⟩
    · rw [e2] at h1
      generalize r.next w = nx at h1
      obtain ⟨w', r', x⟩ := nx
      simp only [Prod.mk.injEq] at h1
      rw [h1.2, e1]
    · rw [e1] at h1
      generalize hx : r.next w = nx at h1 h2
      obtain ⟨w', r', x⟩ := nx
      simp only [Prod.mk.injEq] at h1
      obtain ⟨rfl, rfl⟩ := h1
      have := collect_clean n h2 e3 (by show (scan r.converter r.events).1.length < n; omega)
      rw [e2]
      simp only
      rw [this]
      rfl

/-- A prefix of clean events does not matter to what is raised later. -/
theorem scan_append {converter : ι → Conversion α} {post : List (Event ι)} : ∀ {pre : List (Event ι)}, Clean converter pre →
    (validItems converter pre = [] ∧ scan converter (pre ++ post) = scan converter post) ∨
    ∃ a pre', (scan converter (pre ++ post)) = (pre' ++ post, .yield a) ∧ validItems converter pre = a :: validItems converter pre' ∧
      Clean converter pre' ∧ pre'.length < pre.length
  | [], _ => Or.inl ⟨rfl, rfl⟩
  | e :: es, h => by
    have hes : Clean converter es := fun e' he => h e' (List.mem_cons_of_mem _ he)
    have key : scan converter (e :: es ++ post) = scan converter (es ++ post) → validItems converter (e :: es) = validItems converter es →
        (validItems converter (e :: es) = [] ∧ scan converter (e :: es ++ post) = scan converter post) ∨
        ∃ a pre', (scan converter (e :: es ++ post)) = (pre' ++ post, .yield a) ∧ validItems converter (e :: es) = a :: validItems converter pre' ∧
          Clean converter pre' ∧ pre'.length < (e :: es).length := by
      intro e1 e2
      rw [e1, e2]
      rcases scan_append (post := post) hes with h | ⟨a, pre', h1, h2, h3, h4⟩
      · exact Or.inl h
      · exact Or.inr ⟨a, pre', h1, h2, h3, by simp; omega⟩
    rcases h e (by simp) with ⟨x, rfl⟩ | ⟨i, rfl, ⟨a, ha⟩ | ⟨t, ht⟩⟩
    · exact key rfl rfl
    · right
      refine ⟨a, es, ?_⟩
      rw [List.cons_append, scan, ha]
      exact ⟨rfl, by simp [validItems, ha, Except.toOption], hes, by simp⟩
    · refine key ?_ ?_
      · rw [List.cons_append, scan, ht]
      · simp [validItems, ht, Except.toOption]

theorem collect_raise {post : List (Event ι)} {e : Exc} : ∀ (n : ℕ) {pre : List (Event ι)} {r : Reader ι α} {w : World}, r.Quiet w →
    r.events = pre ++ post → Clean r.converter pre → (scan r.converter post).2 = .raise e → pre.length < n → (r.collect n w).2 = .error e
  | 0, _, _, _, _, _, _, _, h => by omega
  | n + 1, pre, r, w, hq, he, hc, hp, hn => by
    rw [Reader.collect]
    have h1 := Reader.next_calm hq
    have h2 := fun es => hq.next (r' := { r with events := es }) rfl
    rw [he] at h1
    rcases scan_append (post := post) hc with ⟨-, e2⟩ | ⟨a, pre', e1, -, e3, e4⟩
    · rw [e2, hp] at h1
      generalize r.next w = nx at h1
      obtain ⟨w', r', x⟩ := nx
      simp only [Prod.mk.injEq] at h1
      rw [h1.2]
    · rw [e1] at h1
      generalize hx : r.next w = nx at h1 h2
      obtain ⟨w', r', x⟩ := nx
      simp only [Prod.mk.injEq] at h1
      obtain ⟨rfl, rfl⟩ := h1
      have := collect_raise n (h2 (pre' ++ post)) rfl e3 hp (by omega)
      simp only
      rw [this]
      rfl

theorem collect_shown : ∀ (n : ℕ) {r : Reader ι α} {w : World}, r.showWarnings = true → w.Open → Clean r.converter r.events → r.events.length < n →
    (r.collect n w).1.shown = w.shown ++ r.events.flatMap fun
      | .warn x => [x]
      | .item i => match (r.converter i).2 with
        | .ok a => (r.converter i).1.map (Warning.named (r.name a))
        | .error _ => []
      | .raise _ => []
  | 0, _, _, _, _, _, h => by omega
  | n + 1, r, w, hs, ho, hc, hn => by
    have hen : r.enter w = w := by rw [Reader.enter, if_pos hs]
    have hsh := nextLoop_open r.converter r.name r.events ho
    have hfi := nextLoop_filters r.converter r.name r.events w
    have h1 := nextLoop_calm r.converter r.name r.events ho.calm
    rw [Reader.collect, Reader.next_eq, hen]
    -- what is left after one call
    have key : ∀ {es : List (Event ι)}, Clean r.converter es → es.flatMap (fun
        | .warn x => [x]
        | .item i => match (r.converter i).2 with
          | .ok a => (r.converter i).1.map (Warning.named (r.name a))
          | .error _ => []
        | .raise _ => []) = scanShown r.converter r.name es ++ (scan r.converter es).1.flatMap (fun
        | .warn x => [x]
        | .item i => match (r.converter i).2 with
          | .ok a => (r.converter i).1.map (Warning.named (r.name a))
          | .error _ => []
        | .raise _ => []) := by
      intro es
      induction es with
      | nil => intro _; rfl
      | cons e es ih =>
        intro hc
        have hes : Clean r.converter es := fun e' he => hc e' (List.mem_cons_of_mem _ he)
        rcases hc e (by simp) with ⟨x, rfl⟩ | ⟨i, rfl, ⟨a, ha⟩ | ⟨t, ht⟩⟩
        · rw [List.flatMap_cons, scanShown, scan, ih hes]
          simp
        · rw [List.flatMap_cons, scanShown, scan]
          simp [ha]
        · rw [List.flatMap_cons, scanShown, scan]
          simp only [ht, List.nil_append]
          exact ih hes
    rw [key hc]
    generalize nextLoop r.converter r.name w r.events = nx at h1 hsh hfi
    obtain ⟨w', es', x⟩ := nx
    simp only at h1 hsh hfi ⊢
    rcases scan_clean hc with ⟨e1, e2⟩ | ⟨a, e1, e2, e3, e4⟩
    · have hend : ∀ {es : List (Event ι)}, Clean r.converter es → (scan r.converter es).2 = .stop → (scan r.converter es).1 = [] := by
        intro es
        induction es with
        | nil => intro _ _; rfl
        | cons e es ih =>
          intro hc he
          have hes : Clean r.converter es := fun e' he => hc e' (List.mem_cons_of_mem _ he)
          rcases hc e (by simp) with ⟨x, rfl⟩ | ⟨i, rfl, ⟨a, ha⟩ | ⟨t, ht⟩⟩
          · rw [scan] at he ⊢
            exact ih hes he
          · rw [scan, ha] at he
            cases he
          · rw [scan, ht] at he ⊢
            exact ih hes he
      have hend := hend hc e2
      have hx : x = .stop := by rw [← e2, ← h1]
      subst hx
      simp only
      rw [hsh, hend]
      simp
    · have hx : x = .yield a := by rw [← e1, ← h1]
      have he : es' = (scan r.converter r.events).1 := by rw [← h1]
      subst hx he
      simp only
      rw [collect_shown n (r := { r with events := (scan r.converter r.events).1 }) (w := w') hs (ho.congr hfi) e3
        (by show (scan r.converter r.events).1.length < n; omega)]
      rw [hsh, List.append_assoc]

theorem next_silent {r : Reader ι α} (w : World) (h : r.showWarnings = false ∨ ∀ x, w.action x = .ignore) :
    (r.next w).1.shown = w.shown ∧ ∀ x, (r.next w).1.action x = .ignore := by
  have hen : ∀ x, (r.enter w).action x = .ignore := by
    intro x
    rw [Reader.enter]
    rcases h with h | h
    · rw [h]; exact w.ignoreAll_action x
    · split
      · exact h x
      · exact w.ignoreAll_action x
  rw [Reader.next_eq]
  refine ⟨(nextLoop_silent _ _ _ hen).trans (r.enter_shown w), fun x => ?_⟩
  rw [action_congr (nextLoop_filters _ _ _ _)]
  exact hen x

theorem collect_silent : ∀ (n : ℕ) {r : Reader ι α} {w : World}, (r.showWarnings = false ∨ ∀ x, w.action x = .ignore) →
    (r.collect n w).1.shown = w.shown
  | 0, _, _, _ => rfl
  | n + 1, r, w, h => by
    rw [Reader.collect]
    have h1 := next_silent w h
    generalize r.next w = nx at h1
    obtain ⟨w', r', x⟩ := nx
    cases x with
    | stop => exact h1.1
    | raise e => exact h1.1
    | yield a => exact (collect_silent n (Or.inr h1.2)).trans h1.1

end Amd
