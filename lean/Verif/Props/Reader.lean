import Verif.Proof.Reader
import Verif.Spec.Reader
import Mathlib.Data.List.Basic
import Mathlib.Data.List.Nodup
import Mathlib.Data.List.TakeWhile

/-!
# The readers: C41, C42, C53, C58, C59
-/

namespace Amd

variable {ι α : Type} {r : Reader ι α} {w : World}

/-! ### C41 -/

/-- **C41** Iterating over a reader gives the conversions of the valid items in order, if each item can be converted or raises ParseError and the
user has no filter that turns warnings into exceptions. (Such a filter does not matter if `show_warnings=False`.) -/
theorem C41_list (items : List ι) (he : r.events = items.map Event.item) (hw : r.showWarnings = true → ∀ x, w.action x ≠ .error)
    (hc : ∀ i ∈ items, (∃ a, (r.converter i).2 = .ok a) ∨ ∃ t, (r.converter i).2 = .error (.parse t)) :
    (r.toList w).2 = .ok (items.filterMap fun i => (r.converter i).2.toOption) := by
  have hcl : Clean r.converter r.events := by
    intro e h
    rw [he] at h
    obtain ⟨i, hi, rfl⟩ := List.mem_map.1 h
    exact Or.inr ⟨i, rfl, hc i hi⟩
  rw [Reader.toList, collect_clean _ hw hcl (by omega), he, validItems, List.filterMap_map]
  rfl

/-- **C41** The same with warnings of the iterator between the items, as for directories. -/
theorem C41_list_events (hw : r.showWarnings = true → ∀ x, w.action x ≠ .error)
    (hc : ∀ e ∈ r.events, (∃ x, e = .warn x) ∨ ∃ i, e = .item i ∧ ((∃ a, (r.converter i).2 = .ok a) ∨ ∃ t, (r.converter i).2 = .error (.parse t))) :
    (r.toList w).2 = .ok (r.events.filterMap fun
      | .item i => (r.converter i).2.toOption
      | _ => none) :=
  collect_clean _ hw hc (by omega)

/-- **C41** `read` returns one crystal iff exactly one item is valid, else the list of all. -/
theorem C41_read {l : List α} (h : (r.toList w).2 = .ok l) : (∀ a, (r.read w).2 = .ok (.one a) ↔ l = [a]) ∧
    ((r.read w).2 = .ok (.many l) ↔ l.length ≠ 1) := by
  have e : (r.read w).2 = .ok (ReadResult.of l) := by
    rw [Reader.read]
    generalize r.toList w = q at h
    obtain ⟨w', l'⟩ := q
    simp only at h
    rw [h]
    rfl
  rw [e]
  rcases l with _ | ⟨a, _ | ⟨b, l⟩⟩
  · exact ⟨fun a => ⟨fun h => by simp [ReadResult.of] at h, fun h => by cases h⟩, by simp [ReadResult.of]⟩
  · exact ⟨fun a => by simp [ReadResult.of], by simp [ReadResult.of]⟩
  · exact ⟨fun a => by simp [ReadResult.of], by simp [ReadResult.of]⟩

/-- **C41** One call of `next`: the items before the first valid one are skipped, and the reader goes on after it. -/
theorem C41_next {pre : List (Event ι)} {i : ι} {post : List (Event ι)} {a : α} (he : r.events = pre ++ Event.item i :: post)
    (hw : r.showWarnings = true → ∀ x, w.action x ≠ .error)
    (hpre : ∀ e ∈ pre, (∃ x, e = .warn x) ∨ ∃ j t, e = .item j ∧ (r.converter j).2 = .error (.parse t)) (hi : (r.converter i).2 = .ok a) :
    (r.next w).2 = ({ r with events := post }, .yield a) := by
  rw [Reader.next_calm hw, he]
  have : scan r.converter (pre ++ Event.item i :: post) = (post, .yield a) := by
    clear he
    induction pre with
    | nil => rw [List.nil_append, scan, hi]
    | cons e pre ih =>
      have ih := ih fun e h => hpre e (List.mem_cons_of_mem _ h)
      rcases hpre e (by simp) with ⟨x, rfl⟩ | ⟨j, t, rfl, hj⟩
      · exact ih
      · rw [List.cons_append, scan, hj]
        exact ih
  rw [this]

/-- **C41** If there is no valid item left, StopIteration is raised, now and at each further call. -/
theorem C41_next_stop (hw : r.showWarnings = true → ∀ x, w.action x ≠ .error)
    (h : ∀ e ∈ r.events, (∃ x, e = .warn x) ∨ ∃ j t, e = .item j ∧ (r.converter j).2 = .error (.parse t)) :
    (r.next w).2 = ({ r with events := [] }, .stop) ∧ ∀ w' : World, ({ r with events := [] } : Reader ι α).next w' =
      (if r.showWarnings then w' else w'.ignoreAll, { r with events := [] }, .stop) := by
  refine ⟨?_, fun w' => rfl⟩
  rw [Reader.next_calm hw]
  have : ∀ es : List (Event ι), (∀ e ∈ es, (∃ x, e = .warn x) ∨ ∃ j t, e = .item j ∧ (r.converter j).2 = .error (.parse t)) →
      scan r.converter es = ([], .stop) := by
    intro es
    induction es with
    | nil => intro _; rfl
    | cons e es ih =>
      intro h
      have ih := ih fun e h' => h e (List.mem_cons_of_mem _ h')
      rcases h e (by simp) with ⟨x, rfl⟩ | ⟨j, t, rfl, hj⟩
      · exact ih
      · rw [scan, hj]
        exact ih
  rw [this _ h]

/-- **C41** Exceptions that are not ParseError are not hidden: the first one is raised. -/
theorem C41_raises {pre : List ι} {i : ι} {post : List ι} {t : String} (he : r.events = (pre ++ i :: post).map Event.item)
    (hw : r.showWarnings = true → ∀ x, w.action x ≠ .error)
    (hpre : ∀ j ∈ pre, (∃ a, (r.converter j).2 = .ok a) ∨ ∃ t, (r.converter j).2 = .error (.parse t)) (hi : (r.converter i).2 = .error (.other t)) :
    (r.toList w).2 = .error (.other t) := by
  rw [List.map_append] at he
  refine collect_raise _ hw he (fun e h => ?_) (by rw [List.map_cons, scan, hi]) (by rw [he]; simp)
  obtain ⟨j, hj, rfl⟩ := List.mem_map.1 h
  exact Or.inr ⟨j, rfl, hpre j hj⟩

/-! ### C42 -/

/-- The warnings a user should see for an item that is converted: those issued in the conversion, each with the name of the crystal. -/
def expectedWarnings (r : Reader ι α) : Event ι → List Warning
  | .warn x => [x]
  | .item i => match (r.converter i).2 with
    | .ok a => (r.converter i).1.map fun x => ⟨x.category, "(name=" ++ r.name a ++ ") " ++ x.text⟩
    | .error _ => []
  | .raise _ => []

/-- **C42** With `show_warnings=True` and no filters, all warnings about crystals that are read are shown, in order and with the name. Missing: the
reason why a crystal is skipped, see `C42_false_skipped`. -/
theorem C42_shown_partial (hs : r.showWarnings = true) (hw : ∀ x, w.action x = .display)
    (hc : ∀ e ∈ r.events, (∃ x, e = .warn x) ∨ ∃ i, e = .item i ∧ ((∃ a, (r.converter i).2 = .ok a) ∨ ∃ t, (r.converter i).2 = .error (.parse t))) :
    (r.toList w).1.shown = w.shown ++ r.events.flatMap (expectedWarnings r) := by
  rw [Reader.toList, collect_shown _ hs hw hc (by omega)]
  congr 2

/-- **C42** With `show_warnings=False`, the reader shows nothing. -/
theorem C42_silent (hs : r.showWarnings = false) (w : World) : (r.next w).1.shown = w.shown ∧ (r.toList w).1.shown = w.shown :=
  ⟨(next_silent w (Or.inl hs)).1, collect_silent _ (Or.inl hs)⟩

/-- **C42** With `show_warnings=True`, the reader leaves the filters of the process as they are. -/
theorem C42_filters_partial (hs : r.showWarnings = true) (w : World) : (r.next w).1.filters = w.filters := by
  rw [Reader.next_eq]
  simp only
  rw [nextLoop_filters, Reader.enter, if_pos hs]

/-- **C42** If all readers of a program have `show_warnings=True`, they never change the filters. -/
theorem C42_history_partial : ∀ (is : List ℕ) (rs : List (Reader ι α)) (w : World), (∀ r ∈ rs, r.showWarnings = true) → (runHistory w rs is).1.filters = w.filters
  | [], _, _, _ => rfl
  | i :: is, rs, w, h => by
    rw [runHistory]
    cases hi : rs[i]? with
    | none => exact C42_history_partial is rs w h
    | some r =>
      have hr : r ∈ rs := List.mem_of_getElem? hi
      have e1 := C42_filters_partial (h r hr) w
      have e2 : (r.next w).2.1.showWarnings = r.showWarnings := rfl
      change (runHistory (r.next w).1 (rs.set i (r.next w).2.1) is).1.filters = _
      rw [C42_history_partial is (rs.set i (r.next w).2.1) (r.next w).1 ?_, e1]
      intro s hs
      rcases List.mem_or_eq_of_mem_set hs with hs | rfl
      · exact h s hs
      · rw [e2]; exact h r hr

/-- **C42 does not hold** for skipped crystals: whatever the options and filters, as long as the iterator only meets items that raise ParseError, nothing
is shown, so no warning says why they were skipped. -/
theorem C42_false_skipped (w : World) (items : List ι) (he : r.events = items.map Event.item)
    (h : ∀ i ∈ items, ∃ t, (r.converter i).2 = .error (.parse t)) : (r.toList w).1.shown = w.shown := by
  rw [Reader.toList, Reader.collect]
  have key : ∀ (items : List ι), (∀ i ∈ items, ∃ t, (r.converter i).2 = .error (.parse t)) → ∀ w : World,
      (nextLoop r.converter r.name w (items.map Event.item)).1.shown = w.shown ∧
      ∀ a, (nextLoop r.converter r.name w (items.map Event.item)).2.2 ≠ .yield a := by
    intro items
    induction items with
    | nil => intro _ w; exact ⟨rfl, fun a h => by cases h⟩
    | cons i items ih =>
      intro h w
      obtain ⟨t, ht⟩ := h i (by simp)
      rw [List.map_cons, nextLoop, convertItem, ht]
      cases record w (r.converter i).1 with
      | error e => exact ⟨rfl, fun a h => by cases h⟩
      | ok ws =>
        simp only
        by_cases hx : w.action ⟨"UserWarning", t⟩ = .error
        · rw [if_pos hx]; exact ⟨rfl, fun a h => by cases h⟩
        · rw [if_neg hx]; exact ih (fun i hi => h i (List.mem_cons_of_mem _ hi)) w
  have := key items h (r.enter w)
  rw [Reader.next_eq, he]
  generalize nextLoop r.converter r.name (r.enter w) (items.map Event.item) = nx at this
  obtain ⟨w', es, x⟩ := nx
  cases x with
  | stop => exact this.1.trans (r.enter_shown w)
  | raise e => exact this.1.trans (r.enter_shown w)
  | yield a => exact absurd rfl (this.2 a)

/-- **C42 does not hold** for other readers: after one call of `next` on a reader with `show_warnings=False`, no warning of any reader is shown for
the rest of the program, whatever their options. -/
theorem C42_false_global {rs : List (Reader ι α)} {i : ℕ} (hi : rs[i]? = some r) (hs : r.showWarnings = false) (is : List ℕ) (w : World) :
    (runHistory w rs (i :: is)).1.shown = w.shown := by
  have key : ∀ (is : List ℕ) (rs : List (Reader ι α)) (w : World), (∀ x, w.action x = .ignore) → (runHistory w rs is).1.shown = w.shown := by
    intro is
    induction is with
    | nil => intro _ _ _; rfl
    | cons j is ih =>
      intro rs w hw
      rw [runHistory]
      cases rs[j]? with
      | none => exact ih rs w hw
      | some r =>
        have := next_silent (r := r) w (Or.inr hw)
        exact (ih (rs.set j (r.next w).2.1) _ this.2).trans this.1
  rw [runHistory, hi]
  have := next_silent (r := r) w (Or.inl hs)
  exact (key is (rs.set i (r.next w).2.1) _ this.2).trans this.1

/-! ### Directories, C58 -/

theorem takeWhile_dot {stem e : List Char} (h : '.' ∉ e) : ((stem ++ '.' :: e).reverse.takeWhile (· ≠ '.')).reverse = e := by
  rw [List.reverse_append, List.reverse_cons, List.append_assoc]
  rw [List.takeWhile_append_of_pos (fun c hc => by
    have : c ≠ '.' := fun hx => h (by rw [← hx]; simpa using hc)
    simpa using this)]
  simp

theorem suffixOf_eq {name ext : String} (hext : ext ≠ "") : lower (suffixOf name) = ext ↔ HasExtension name ext := by
  rw [suffixOf]
  constructor
  · intro h
    split at h
    · rename_i h'
      set e := (name.toList.reverse.takeWhile (· ≠ '.')).reverse with he
      have hsplit := List.takeWhile_append_dropWhile (p := fun c => decide (c ≠ '.')) (l := name.toList.reverse)
      set d := name.toList.reverse.dropWhile (· ≠ '.') with hd
      have hlen : name.toList.length = e.length + d.length := by
        have := congrArg List.length hsplit
        rw [List.length_append, List.length_reverse] at this
        rw [he, List.length_reverse]
        exact this.symm
      rcases hd' : d with _ | ⟨c, rest⟩
      · rw [hd'] at hlen; simp at hlen; omega
      · have hc : c = '.' := by
          have := List.head_dropWhile_not (p := fun c => decide (c ≠ '.')) (l := name.toList.reverse) (by rw [← hd, hd']; simp)
          simp only [← hd, hd', List.head_cons] at this
          simpa using this
        subst hc
        refine ⟨rest.reverse, e, ?_, ?_, ?_, h⟩
        · intro hr
          rw [List.reverse_eq_nil_iff] at hr
          rw [hd', hr] at hlen
          simp at hlen
          omega
        · have := congrArg List.reverse hsplit
          rw [List.reverse_append, List.reverse_reverse, hd', List.reverse_cons, List.append_assoc, ← he] at this
          exact this.symm
        · rw [he, List.mem_reverse]
          intro hm
          have := List.mem_takeWhile_imp hm
          simp at this
    · exact absurd h.symm (by intro hx; apply hext; rw [hx]; rfl)
  · rintro ⟨stem, e, h1, h2, h3, h4⟩
    simp only [h2, takeWhile_dot h3]
    rw [if_pos]
    · exact h4
    · constructor
      · have := List.length_pos_iff.2 h1
        simp
        omega
      · rcases e with _ | ⟨c, e⟩
        · exact absurd h4.symm hext
        · simp

/-- **C58** Reading a directory: the items come from the files with an accepted extension, in the order of the listing. A file that cannot be parsed
contributes the items before the failure, a warning with its path, and does not stop the others. Subdirectories are not read. -/
theorem C58_directory {extensions : List String} (hext : "" ∉ extensions) (fs : List (DirEntry ι)) :
    ∃ kept : List (DirEntry ι), kept.Sublist fs ∧ (∀ f ∈ fs, f ∈ kept ↔ f.isFile = true ∧ ∃ ext ∈ extensions, HasExtension f.name ext) ∧
      dirEvents extensions fs = kept.flatMap fun f => f.items.map Event.item ++
        (f.failure.toList.map fun e => Event.warn ⟨"UserWarning", "Error parsing \"" ++ f.path ++ "\", skipping file. Exception: " ++ e⟩) := by
  have hiff : ∀ f : DirEntry ι, lower (suffixOf f.name) ∈ extensions ↔ ∃ ext ∈ extensions, HasExtension f.name ext := by
    intro f
    constructor
    · intro h
      exact ⟨_, h, (suffixOf_eq (fun hx => hext (by rw [← hx]; exact h))).1 rfl⟩
    · rintro ⟨ext, h1, h2⟩
      rw [(suffixOf_eq (fun hx => hext (by rw [← hx]; exact h1))).2 h2]
      exact h1
  refine ⟨fs.filter fun f => f.isFile && decide (lower (suffixOf f.name) ∈ extensions), List.filter_sublist, fun f hf => ?_, ?_⟩
  · rw [List.mem_filter, Bool.and_eq_true, decide_eq_true_iff, hiff]
    exact ⟨fun h => h.2, fun h => ⟨hf, h⟩⟩
  · induction fs with
    | nil => rfl
    | cons f fs ih =>
      rw [dirEvents]
      cases h1 : f.isFile with
      | false => simp [h1, ih]
      | true =>
        by_cases h2 : lower (suffixOf f.name) ∈ extensions
        · rw [if_neg (by simp), if_neg (by simpa using h2), ih, List.filter_cons]
          simp only [h1, h2, decide_true, Bool.and_self, if_true, List.flatMap_cons]
          cases f.failure <;> simp
        · rw [if_neg (by simp), if_pos h2, ih, List.filter_cons]
          simp [h2]

/-- **C58** `CifReader` on a directory with the default backend reads the `.cif` files in this way; on a file it reads what the parser gives. -/
theorem C58_path {env : ReaderEnv ι α} {path : String} {showWarnings : Bool} :
    (∀ fs, env.path "gemmi" path = .dir fs → ∃ r, cifReaderInit env path (showWarnings := showWarnings) = .ok r ∧ r.events = dirEvents ["cif"] fs ∧
      r.converter = env.converter "gemmi" false "skip" false false ∧ r.showWarnings = showWarnings) ∧
    (∀ es, env.path "gemmi" path = .file (.ok es) → ∃ r, cifReaderInit env path (showWarnings := showWarnings) = .ok r ∧ r.events = es ∧
      r.converter = env.converter "gemmi" false "skip" false false ∧ r.showWarnings = showWarnings) := by
  have hd : ("skip" : String) ∈ ["skip", "ordered_sites", "all_sites"] := by decide
  constructor
  · intro fs h
    refine ⟨⟨dirEvents ["cif"] fs, env.converter "gemmi" false "skip" false false, env.name, showWarnings⟩, ?_, rfl, rfl, rfl⟩
    simp [cifReaderInit, backendExtensions, h, bind, Except.bind]
  · intro es h
    refine ⟨⟨es, env.converter "gemmi" false "skip" false false, env.name, showWarnings⟩, ?_, rfl, rfl, rfl⟩
    simp [cifReaderInit, backendExtensions, h, bind, Except.bind]

/-! ### Options of `CifReader`, C59 -/

/-- **C59** The options are checked before anything is read: a wrong `disorder` or `reader` is a ValueError, options for csd-python-api with other
backends are a NotImplementedError, a missing path a FileNotFoundError, csd-python-api not installed an ImportError. -/
theorem C59_rejected {env : ReaderEnv ι α} {path reader disorder : String} {rh heaviest centres sw : Bool} :
    (disorder ∉ ["skip", "ordered_sites", "all_sites"] → cifReaderInit env path reader rh disorder heaviest centres sw = .error (.other "ValueError")) ∧
    (disorder ∈ ["skip", "ordered_sites", "all_sites"] → reader ≠ "ccdc" → (heaviest = true ∨ centres = true) →
      cifReaderInit env path reader rh disorder heaviest centres sw = .error (.other "NotImplementedError")) ∧
    (disorder ∈ ["skip", "ordered_sites", "all_sites"] → reader ∉ ["gemmi", "ase", "pycodcif", "pymatgen", "ccdc"] → heaviest = false → centres = false →
      cifReaderInit env path reader rh disorder heaviest centres sw = .error (.other "ValueError")) ∧
    (disorder ∈ ["skip", "ordered_sites", "all_sites"] → env.ccdc = none →
      cifReaderInit env path "ccdc" rh disorder heaviest centres sw = .error (.other "ImportError")) ∧
    (disorder ∈ ["skip", "ordered_sites", "all_sites"] → reader ∈ ["gemmi", "ase", "pycodcif", "pymatgen"] → heaviest = false → centres = false →
      env.path reader path = .missing → cifReaderInit env path reader rh disorder heaviest centres sw = .error (.other "FileNotFoundError")) := by
  refine ⟨fun h => by rw [cifReaderInit, if_pos h], fun h h1 h2 => ?_, fun h h1 h2 h3 => ?_, fun h h1 => ?_, fun h h1 h2 h3 h4 => ?_⟩
  · rw [cifReaderInit, if_neg (not_not.2 h)]
    rcases h2 with rfl | rfl
    · rw [if_pos ⟨h1, rfl⟩]
    · cases heaviest with
      | true => rw [if_pos ⟨h1, rfl⟩]
      | false => rw [if_neg (by simp), if_pos ⟨h1, rfl⟩]
  · simp only [List.mem_cons, List.not_mem_nil, or_false, not_or] at h1
    rw [cifReaderInit, if_neg (not_not.2 h), if_neg (by simp [h2]), if_neg (by simp [h3]), backendExtensions, if_neg h1.1,
      if_neg (by rintro (h | h); exacts [h1.2.1 h, h1.2.2.1 h]), if_neg h1.2.2.2.1, if_neg h1.2.2.2.2]
    rfl
  · rw [cifReaderInit, if_neg (not_not.2 h), if_neg (by simp), if_neg (by simp)]
    have : backendExtensions env "ccdc" = .error (.other "ImportError") := by
      rw [backendExtensions, if_neg (by decide), if_neg (by decide), if_neg (by decide), if_pos rfl, h1]
    rw [this]
    rfl
  · have : backendExtensions env reader = .ok ["cif"] := by
      simp only [List.mem_cons, List.not_mem_nil, or_false] at h1
      rcases h1 with rfl | rfl | rfl | rfl
      · rw [backendExtensions, if_pos rfl]
      · rw [backendExtensions, if_neg (by decide), if_pos (Or.inl rfl)]
      · rw [backendExtensions, if_neg (by decide), if_pos (Or.inr rfl)]
      · rw [backendExtensions, if_neg (by decide), if_neg (by decide), if_pos rfl]
    rw [cifReaderInit, if_neg (not_not.2 h), if_neg (by simp [h2]), if_neg (by simp [h3]), this]
    simp only [h4]
    rfl

/-! ### Refcode families, C53 -/

theorem dedupLoop_spec {full : List String} : ∀ (xs pre acc seen : List String), full = pre ++ xs → (∀ x, x ∈ seen ↔ x ∈ acc) → (∀ x, x ∈ acc ↔ x ∈ pre) →
    acc.Pairwise (fun x y => full.idxOf x < full.idxOf y) →
    (dedupLoop acc seen xs).Pairwise (fun x y => full.idxOf x < full.idxOf y) ∧ ∀ x, x ∈ dedupLoop acc seen xs ↔ x ∈ full
  | [], pre, acc, seen, hf, _, h2, h3 => by
    rw [dedupLoop]
    refine ⟨h3, fun x => ?_⟩
    rw [h2, hf, List.append_nil]
  | x :: xs, pre, acc, seen, hf, h1, h2, h3 => by
    rw [dedupLoop]
    split
    · rename_i hx
      have hxp : x ∉ pre := by rw [← h2, ← h1]; exact hx
      have hix : full.idxOf x = pre.length := by rw [hf, List.idxOf_append_of_notMem hxp]; simp
      refine dedupLoop_spec xs (pre ++ [x]) _ _ (by rw [hf]; simp) (fun y => ?_) (fun y => ?_) ?_
      · rw [List.mem_cons, List.mem_append, h1, List.mem_singleton, or_comm]
      · rw [List.mem_append, List.mem_append, h2]
      · rw [List.pairwise_append]
        refine ⟨h3, List.pairwise_singleton _ _, fun y hy z hz => ?_⟩
        rw [List.mem_singleton.1 hz, hix, hf, List.idxOf_append_of_mem ((h2 y).1 hy)]
        exact List.idxOf_lt_length_of_mem ((h2 y).1 hy)
    · rename_i hx
      have hxp : x ∈ pre := by rw [← h2, ← h1]; simpa using hx
      refine dedupLoop_spec xs (pre ++ [x]) _ _ (by rw [hf]; simp) h1 (fun y => ?_) h3
      rw [List.mem_append, h2, List.mem_singleton]
      exact ⟨Or.inl, fun h => h.elim id fun h => h ▸ hxp⟩

/-- **C53** With `refcode_families`, the refcodes read are exactly the hits of the families, each once, in order of first appearance. -/
theorem C53_families (search : String → List String) (families : List String) :
    ∃ refcodes, csdRefcodes search (.list (families.map some)) true = .ok (some refcodes) ∧ refcodes.Nodup ∧
      (∀ x, x ∈ refcodes ↔ ∃ f ∈ families, x ∈ search f) ∧
      refcodes.Pairwise fun x y => (families.flatMap search).idxOf x < (families.flatMap search).idxOf y := by
  have h := dedupLoop_spec (full := families.flatMap search) (families.flatMap search) [] [] [] rfl (fun x => Iff.rfl) (fun x => Iff.rfl) List.Pairwise.nil
  refine ⟨dedupLoop [] [] (families.flatMap search), ?_, ?_, fun x => ?_, h.1⟩
  · have e : (families.map some).all Option.isSome = true := by simp
    have e' : (families.map some).filterMap id = families := by rw [List.filterMap_map]; simp
    rw [csdRefcodes, normRefcodes, if_pos e, e']
    rfl
  · exact h.1.imp fun hlt he => by rw [he] at hlt; omega
  · rw [h.2 x, List.mem_flatMap]

/-- **C53** A string is a list of one refcode, but `'CSD'` in any case and None stand for the whole database; without `refcode_families` the refcodes
are read as given; anything but strings is a ValueError. -/
theorem C53_arguments (search : String → List String) (families : Bool) :
    csdRefcodes search .none families = .ok none ∧ (∀ s, lower s = "csd" → csdRefcodes search (.str s) families = .ok none) ∧
    (∀ s, lower s ≠ "csd" → csdRefcodes search (.str s) families = csdRefcodes search (.list [some s]) families) ∧
    (∀ l, csdRefcodes search (.list (l.map some)) false = .ok (some l)) ∧
    (∀ l, none ∈ l → csdRefcodes search (.list l) families = .error (.other "ValueError")) ∧
    csdRefcodes search .other families = .error (.other "ValueError") := by
  refine ⟨rfl, fun s h => ?_, fun s h => ?_, fun l => ?_, fun l h => ?_, rfl⟩
  · rw [csdRefcodes, normRefcodes, if_pos h]; rfl
  · rw [csdRefcodes, normRefcodes, if_neg h]; rfl
  · have e : (l.map some).all Option.isSome = true := by simp
    have e' : (l.map some).filterMap id = l := by rw [List.filterMap_map]; simp
    rw [csdRefcodes, normRefcodes, if_pos e, e']; rfl
  · have e : ¬l.all Option.isSome = true := by
      rw [List.all_eq_true]
      intro h'
      have := h' none h
      cases this
    rw [csdRefcodes, normRefcodes, if_neg e]; rfl

/-! ### Concrete cases -/

/-- Numbers are items: even ones are converted, with a warning for multiples of 4, odd ones raise ParseError, 99 raises something else. -/
def exampleConverter (n : ℕ) : Conversion ℕ :=
  if n = 99 then ([], .error (.other "TypeError"))
  else if n % 2 = 1 then ([], .error (.parse "odd"))
  else (if n % 4 = 0 then [⟨"UserWarning", "has equivalent sites"⟩] else [], .ok (n + 100))

/-- A reader of such items. -/
def exampleReader (sw : Bool) (items : List ℕ) : Reader ℕ ℕ :=
  { events := items.map Event.item, converter := exampleConverter, name := fun n => toString n, showWarnings := sw }

/-- Nothing shown yet, no filters. -/
def freshWorld : World := { filters := [], shown := [] }

theorem freshWorld_open (x : Warning) : freshWorld.action x = .display := rfl

theorem exampleConverter_ok {n : ℕ} (h : n ≠ 99) : (∃ a, (exampleConverter n).2 = .ok a) ∨ ∃ t, (exampleConverter n).2 = .error (.parse t) := by
  rw [exampleConverter, if_neg h]
  split
  · exact Or.inr ⟨_, rfl⟩
  · exact Or.inl ⟨_, rfl⟩

example : ((exampleReader true [1, 2, 3, 4, 5]).toList freshWorld).2 = .ok [102, 104] :=
  C41_list [1, 2, 3, 4, 5] rfl (fun _ x => by rw [freshWorld_open]; decide)
    (fun i hi => exampleConverter_ok (by rintro rfl; revert hi; decide))

example : ((exampleReader true [1, 2, 3]).read freshWorld).2 = .ok (.one 102) :=
  ((C41_read (l := [102]) (C41_list (w := freshWorld) (r := exampleReader true [1, 2, 3]) [1, 2, 3] rfl (fun _ x => by rw [freshWorld_open]; decide)
    (fun i hi => exampleConverter_ok (by rintro rfl; revert hi; decide)))).1 102).2 rfl

example : ((exampleReader true [1, 2, 99, 4]).toList freshWorld).2 = .error (.other "TypeError") :=
  C41_raises (pre := [1, 2]) (post := [4]) rfl (fun _ x => by rw [freshWorld_open]; decide)
    (fun i hi => exampleConverter_ok (by rintro rfl; revert hi; decide)) rfl

example : ((exampleReader true [1, 2, 3, 4]).next freshWorld).2 = (exampleReader true [3, 4], .yield 102) :=
  C41_next (pre := [.item 1]) (i := 2) rfl (fun _ x => by rw [freshWorld_open]; decide)
    (fun e he => by rw [List.mem_singleton.1 he]; exact Or.inr ⟨1, "odd", rfl, rfl⟩) rfl

example : ((exampleReader true [1, 2, 3, 4]).toList freshWorld).1.shown = [⟨"UserWarning", "(name=104) has equivalent sites"⟩] := by
  rw [C42_shown_partial rfl freshWorld_open (fun e he => by
    obtain ⟨i, hi, rfl⟩ := List.mem_map.1 he
    exact Or.inr ⟨i, rfl, exampleConverter_ok (by rintro rfl; revert hi; decide)⟩)]
  decide +kernel

example : ((exampleReader true [1, 3]).toList freshWorld).1.shown = [] :=
  C42_false_skipped freshWorld [1, 3] rfl (fun i hi => by
    simp only [List.mem_cons, List.not_mem_nil, or_false] at hi
    rcases hi with rfl | rfl <;> exact ⟨_, rfl⟩)

/-- The second reader has `show_warnings=True` and issues a warning, which is not shown because of the first. -/
example : (runHistory freshWorld [exampleReader false [2], exampleReader true [4]] [0, 1]).1.shown = [] ∧
    (runHistory freshWorld [exampleReader false [2], exampleReader true [4]] [1, 0]).1.shown ≠ [] :=
  ⟨C42_false_global (r := exampleReader false [2]) rfl rfl [1] freshWorld, by decide +kernel⟩

example : HasExtension "a.b.CIF" "cif" := ⟨"a.b".toList, "CIF".toList, by decide, by decide, by decide, by decide⟩

example : ∃ refcodes, csdRefcodes (fun f => [f ++ "01", f ++ "02", "X"]) (.list ([("A" : String), "B", "A"].map some)) true = .ok (some refcodes) ∧ refcodes.Nodup :=
  let ⟨l, h⟩ := C53_families (fun f => [f ++ "01", f ++ "02", "X"]) ["A", "B", "A"]
  ⟨l, h.1, h.2.1⟩

end Amd
