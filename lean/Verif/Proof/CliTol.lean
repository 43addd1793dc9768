import Verif.Model.CliTol
import Verif.Spec.CommandLineTol
import Verif.Proof.CliParse
import Verif.Proof.CompareTol

/-! # Lemmas on the command with any float as the collapse tolerance -/

namespace Amd

theorem lower_not_ws {w : List Char} {c : Char} (h : ∃ l ∈ [['n', 'a', 'n'], ['i', 'n', 'f'], ['i', 'n', 'f', 'i', 'n', 'i', 't', 'y']], w.map Char.toLower = l) (hc : c ∈ w) :
    isWs c = false ∧ c ≠ '+' ∧ c ≠ '-' := by
  obtain ⟨l, hl, h⟩ := h
  have h1 : c.toLower ∈ l := h ▸ List.mem_map_of_mem hc
  have h2 : ∀ l ∈ [['n', 'a', 'n'], ['i', 'n', 'f'], ['i', 'n', 'f', 'i', 'n', 'i', 't', 'y']], ∀ d ∈ l, isWs d = false ∧ d ≠ '+' ∧ d ≠ '-' := by decide
  have h3 := h2 l hl _ h1
  have key : ∀ d ∈ [' ', '\t', '\n', '\r', '\x0b', '\x0c', '+', '-'], c ≠ d := by
    rintro d hd rfl
    have h4 : ∀ d ∈ [' ', '\t', '\n', '\r', '\x0b', '\x0c', '+', '-'], ¬ (isWs d.toLower = false ∧ d.toLower ≠ '+' ∧ d.toLower ≠ '-') := by decide
    exact h4 c hd h3
  refine ⟨?_, key _ (by simp), key _ (by simp)⟩
  simp [isWs, key]

theorem strip_plain {l : List Char} (h : ∀ c ∈ l, isWs c = false) : strip l = l := by
  have e : ∀ l : List Char, (∀ c ∈ l, isWs c = false) → l.dropWhile isWs = l := by
    intro l h
    cases l with
    | nil => rfl
    | cons c l => rw [List.dropWhile_cons, h c (by simp)]; rfl
  rw [strip, e l h, e _ (fun c hc => h c (List.mem_reverse.1 hc)), List.reverse_reverse]

theorem takeSign_plain {w : List Char} (h : ∀ c ∈ w, c ≠ '+' ∧ c ≠ '-') : takeSign w = (false, w) := by
  rw [takeSign.eq_def]
  split
  · exact absurd rfl (h '+' (by simp)).1
  · exact absurd rfl (h '-' (by simp)).2
  · rfl

theorem sign_word {sign : Sign} {w : List Char} (h : ∃ l ∈ [['n', 'a', 'n'], ['i', 'n', 'f'], ['i', 'n', 'f', 'i', 'n', 'i', 't', 'y']], w.map Char.toLower = l) :
    takeSign (strip (sign.text ++ w)) = (decide (sign = .minus), w) := by
  have hs : ∀ c ∈ sign.text ++ w, isWs c = false := by
    intro c hc
    rcases List.mem_append.1 hc with hc | hc
    · cases sign <;> simp [Sign.text] at hc <;> subst hc <;> decide
    · exact (lower_not_ws h hc).1
  rw [strip_plain hs]
  cases sign with
  | none => exact takeSign_plain fun c hc => (lower_not_ws h hc).2
  | plus => rfl
  | minus => rfl

/-- The float that stands for a special tolerance. -/
def specialFloat : Tolerance → PyFloat
  | .num _ => .num 0
  | .inf => .inf false
  | .negInf => .inf true
  | .nan => .nan

theorem pyFloat_special {v : String} {t : Tolerance} (h : SpecialFloat v t) : pyFloat v.toList = some (specialFloat t) ∧ (specialFloat t).tolerance = t := by
  cases h with
  | nan sign w h =>
    refine ⟨?_, rfl⟩
    rw [String.toList_ofList, pyFloat, sign_word ⟨_, by simp, h⟩]
    simp [h, specialFloat]
  | inf sign w hs h =>
    refine ⟨?_, rfl⟩
    rw [String.toList_ofList, pyFloat, sign_word (by rcases h with h | h <;> exact ⟨_, by simp, h⟩)]
    simp only [h, if_true, hs, decide_false, specialFloat]
  | negInf w h =>
    refine ⟨?_, rfl⟩
    have := sign_word (sign := .minus) (w := w) (by rcases h with h | h <;> exact ⟨_, by simp, h⟩)
    rw [String.toList_ofList, pyFloat, show '-' :: w = Sign.minus.text ++ w from rfl, this]
    simp only [h, if_true, decide_true, specialFloat]

/-- A special tolerance sets its key. -/
theorem special_consume {t : Tolerance} {v : String} {l : List String} (ht : SpecialFloat v t) (h : Spelling "--collapse_tol" none (some v) l) :
    ∃ ts, l.mapM classify = some ts ∧ .separator ∉ ts ∧ ∀ rest st, consumeToks (ts ++ rest) st = consumeToks rest { st.close with ns := ("collapse_tol", .float (specialFloat t)) :: st.ns } := by
  obtain ⟨o, -, h1, h2, -, h3, h4⟩ := names_facts ("--collapse_tol", "collapse_tol", [], .float) (by simp)
  have hf : o.kind ≠ .flag := by rw [h3]; simp
  have hh : o.kind ≠ .help := by rw [h3]; simp
  have hst : ∀ ns, storeValue o v ns = .ok (("collapse_tol", .float (specialFloat t)) :: ns) := by
    intro ns
    have ha : o.allows (.float (specialFloat t)) = true := by
      rw [OptDecl.allows, h4]
      rfl
    rw [storeValue, h3]
    simp only [readValue, (pyFloat_special ht).1, Option.map_some, ha, if_true, h2]
  rcases spelling_toks h1 (by simp) h with ⟨h', -⟩ | ⟨t', h', hl⟩
  · simp at h'
  · simp only [Option.some.injEq] at h'
    subst h'
    rcases hl with hl | ⟨hd, hl⟩
    · exact ⟨_, hl, by simp, fun rest st => by rw [List.cons_append, List.singleton_append, (consume_value hf hh rest st).2, hst]⟩
    · exact ⟨_, hl, by simp, fun rest st => by rw [List.singleton_append, (consume_value hf hh rest st).1 hd, hst]⟩

/-- The entry of the namespace for an option. -/
def anyEntry : Setting ⊕ Tolerance → String × CliVal
  | .inl s => (s.key, s.val)
  | .inr t => ("collapse_tol", .float (specialFloat t))

/-- The namespace after options. -/
def pushAny (ss : List (Setting ⊕ Tolerance)) (ns : CliNamespace) : CliNamespace := ss.foldl (fun ns s => anyEntry s :: ns) ns

theorem optionsTol_consume {ss : List (Setting ⊕ Tolerance)} {l : List String} (h : OptionsTol ss l) : ∃ ts, l.mapM classify = some ts ∧ .separator ∉ ts ∧ ∀ rest st,
    consumeToks (ts ++ rest) st = consumeToks rest { (if ss = [] then st else st.close) with ns := pushAny ss st.ns } := by
  have step : ∀ {s : Setting ⊕ Tolerance} {ss : List (Setting ⊕ Tolerance)} {l l' : List String},
      (∃ ts, l.mapM classify = some ts ∧ .separator ∉ ts ∧ ∀ rest st, consumeToks (ts ++ rest) st = consumeToks rest { st.close with ns := anyEntry s :: st.ns }) →
      (∃ ts, l'.mapM classify = some ts ∧ .separator ∉ ts ∧ ∀ rest st, consumeToks (ts ++ rest) st = consumeToks rest { (if ss = [] then st else st.close) with ns := pushAny ss st.ns }) →
      ∃ ts, (l ++ l').mapM classify = some ts ∧ .separator ∉ ts ∧ ∀ rest st,
        consumeToks (ts ++ rest) st = consumeToks rest { (if s :: ss = [] then st else st.close) with ns := pushAny (s :: ss) st.ns } := by
    rintro s ss l l' ⟨ts, e1, n1, e2⟩ ⟨ts', e3, n2, e4⟩
    refine ⟨ts ++ ts', mapM_append_some e1 e3, by simp [n1, n2], fun rest st => ?_⟩
    rw [List.append_assoc, e2, e4]
    congr 1
    rw [if_neg (List.cons_ne_nil _ _)]
    by_cases hss : ss = []
    · simp [hss, pushAny]
    · rw [if_neg hss]
      simp [pushAny, ParseState.close]
  induction h with
  | nil => exact ⟨[], rfl, by simp, fun rest st => by simp [pushAny]⟩
  | plain ht hs h ih => exact step (spelling_consume ht hs) ih
  | tol ht hs h ih => exact step (special_consume ht hs) ih

theorem writtenTol_parses {ss : List (Setting ⊕ Tolerance)} {paths argv : List String} (h : WrittenTol ss paths argv) : parseArgs argv = .ok (paths, pushAny ss cliDefaults) := by
  rcases h with ⟨s, s', l, l', rfl, h1, h2, h3, h4, rfl⟩ | ⟨l, ps, qs, h1, h2, rfl, h4, rfl⟩
  · obtain ⟨ts, e1, n1, e2⟩ := optionsTol_consume h1
    obtain ⟨ts', e3, n3, e4⟩ := optionsTol_consume h2
    obtain ⟨e5, e6⟩ := paths_consume h3
    have hm : tokens (l ++ paths ++ l') = some (ts ++ paths.map .arg ++ (ts' ++ [])) := by
      rw [List.append_nil]
      exact tokens_all (mapM_append_some (mapM_append_some e1 e5) e3) (by simp [n1, n3])
    rw [parseArgs, hm]
    simp only [List.append_assoc, e2, e4, e6, consumeToks]
    by_cases hs : s = [] <;> by_cases hs' : s' = [] <;> simp [hs, hs', h4, pushAny, ParseState.close]
  · obtain ⟨ts, e1, n1, e2⟩ := optionsTol_consume h1
    obtain ⟨e5, e6⟩ := paths_consume h2
    have hm : tokens (l ++ ps ++ "--" :: qs) = some (ts ++ ps.map .arg ++ .separator :: (qs.map .arg ++ [])) := by
      rw [tokens_append (mapM_append_some e1 e5) (by simp [n1]), tokens_separator, List.append_nil]
      rfl
    rw [parseArgs, hm]
    simp only [List.append_assoc, e2, e6, consumeToks, operands_consume]
    by_cases hs : ss = [] <;> simp_all [pushAny, ParseState.close]

/-- All options but the tolerance have these values. -/
def HoldsBut (ns : CliNamespace) (a : CliArgs) : Prop := Holds (("collapse_tol", .float (.num 0)) :: ns) { a with collapseTol := 0 }

theorem Holds.but {ns : CliNamespace} {a : CliArgs} (h : Holds ns a) : HoldsBut ns a := by
  obtain ⟨h1, h2, h3, ⟨z, h4, h4'⟩, h5, h6, h7, h8, h9, h10, h11, h12, h13, ⟨q, h14, h14'⟩, h15, h16, h17, h18, h19⟩ := h
  constructor <;> simp [List.lookup_cons, *]

theorem HoldsBut.apply {ns : CliNamespace} {a : CliArgs} (h : HoldsBut ns a) (s : Setting) : HoldsBut ((s.key, s.val) :: ns) (s.apply a) := by
  obtain ⟨h1, h2, h3, ⟨z, h4, h4'⟩, h5, h6, h7, h8, h9, h10, h11, h12, h13, ⟨q, h14, h14'⟩, h15, h16, h17, h18, h19⟩ := h
  simp [List.lookup_cons] at h1 h2 h3 h4 h5 h6 h7 h8 h9 h10 h11 h12 h13 h15 h16 h17 h18 h19
  cases s <;> constructor <;> simp [Setting.key, Setting.val, Setting.apply, List.lookup_cons, *]

theorem HoldsBut.special {ns : CliNamespace} {a : CliArgs} (h : HoldsBut ns a) (x : CliVal) : HoldsBut (("collapse_tol", x) :: ns) a := by
  obtain ⟨h1, h2, h3, ⟨z, h4, h4'⟩, h5, h6, h7, h8, h9, h10, h11, h12, h13, ⟨q, h14, h14'⟩, h15, h16, h17, h18, h19⟩ := h
  simp [List.lookup_cons] at h1 h2 h3 h4 h5 h6 h7 h8 h9 h10 h11 h12 h13 h15 h16 h17 h18 h19
  constructor <;> simp [List.lookup_cons, *]

theorem holdsBut_all (ss : List (Setting ⊕ Tolerance)) {ns : CliNamespace} {a : CliArgs} (h : HoldsBut ns a) : HoldsBut (pushAny ss ns) ((plainSettings ss).foldl (fun a s => s.apply a) a) := by
  induction ss generalizing ns a with
  | nil => exact h
  | cons s ss ih =>
    cases s with
    | inl s => exact ih (h.apply s)
    | inr t => exact ih (h.special _)

theorem any_k (ss : List (Setting ⊕ Tolerance)) {ns : CliNamespace} {z : ℤ} (h : ns.lookup "k" = some (.int z)) :
    (pushAny ss ns).lookup "k" = some (.int ((plainSettings ss).foldl (fun z s => match s with | .k n => n | _ => z) z)) := by
  induction ss generalizing ns z with
  | nil => exact h
  | cons s ss ih =>
    cases s with
    | inl s =>
      refine ih ?_
      cases s <;> simp [anyEntry, Setting.key, Setting.val, List.lookup_cons, h]
    | inr t =>
      refine ih ?_
      simp [anyEntry, List.lookup_cons, h]

theorem any_tolerance {ss : List (Setting ⊕ Tolerance)} {l : List String} (ho : OptionsTol ss l) {ns : CliNamespace} {t : Tolerance} (h : ns.tolerance = .ok t) :
    (pushAny ss ns).tolerance = .ok (ss.foldl nextTolerance t) := by
  induction ho generalizing ns t with
  | nil => exact h
  | plain ht hs ho ih =>
    rename_i s _ _ _ _
    refine ih ?_
    cases s with
    | collapseTol x => rfl
    | _ => simpa [CliNamespace.tolerance, anyEntry, Setting.key, Setting.val, List.lookup_cons, nextTolerance] using h
  | tol ht hs ho ih =>
    refine ih ?_
    simp [CliNamespace.tolerance, anyEntry, nextTolerance, (pyFloat_special ht).2]

theorem pushAny_append (s s' : List (Setting ⊕ Tolerance)) (ns : CliNamespace) : pushAny (s ++ s') ns = pushAny s' (pushAny s ns) := List.foldl_append

end Amd
