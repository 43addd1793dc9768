import Verif.Proof.CliParse
import Verif.Props.Keywords
import Verif.Props.IntegerK
import Verif.Props.CifCompare
import Verif.Props.AllSitesCompare

/-!
# The command line, from arguments to the file that is written: C95

`Spec/CommandLine.lean` says what a command line means: options (in any order, with long, abbreviated or short names), paths, more options.
-/

namespace Amd

open Classical

variable {ss : List Setting} {paths argv : List String} {env : Env} {formats : String → Bool} {fuel : ℕ}

/-- **C95** A command line that consists of options, paths and options (or of options and paths with `--`) is accepted, and the values of all options are those that are given (the last one, if an
option is given more than once), or the defaults. So the order of different options, where they stand, and how they are written does not matter. -/
theorem C95_parses (h : Written ss paths argv) : ∃ ns, parseArgs argv = .ok (paths, ns) ∧ cliArgs paths ns = .ok (settingsArgs ss paths) ∧ ns.int "k" = .ok (settingsK ss) := by
  refine ⟨pushSettings ss cliDefaults, ?_, ?_, ?_⟩
  · have e : ∀ (s : List Setting) (st : ParseState), st.paths = [] → st.closed = false → st.extras = false → (if s = [] then st else st.close).paths = [] ∧
        (if s = [] then st else st.close).closed = false ∧ (if s = [] then st else st.close).extras = false := by
      intro s st a b c
      by_cases hs : s = [] <;> simp [hs, ParseState.close, a, b, c]
    rcases h with ⟨s, s', l, l', rfl, h1, h2, h3, h4, rfl⟩ | ⟨l, ps, qs, h1, h2, rfl, h4, rfl⟩
    · obtain ⟨ts, e1, n1, e2⟩ := options_consume h1
      obtain ⟨ts', e3, n3, e4⟩ := options_consume h2
      obtain ⟨e5, e6⟩ := paths_consume h3
      have hm : tokens (l ++ paths ++ l') = some (ts ++ paths.map .arg ++ (ts' ++ [])) := by
        rw [List.append_nil]
        exact tokens_all (mapM_append_some (mapM_append_some e1 e5) e3) (by simp [n1, n3])
      rw [parseArgs, hm]
      simp only [List.append_assoc, e2, e4, e6, consumeToks]
      obtain ⟨a, b, c⟩ := e s ⟨cliDefaults, [], false, false⟩ rfl rfl rfl
      by_cases hs' : s' = [] <;> simp [hs', h4, pushSettings, ParseState.close]
    · obtain ⟨ts, e1, n1, e2⟩ := options_consume h1
      obtain ⟨e5, e6⟩ := paths_consume h2
      have hm : tokens (l ++ ps ++ "--" :: qs) = some (ts ++ ps.map .arg ++ .separator :: (qs.map .arg ++ [])) := by
        rw [tokens_append (mapM_append_some e1 e5) (by simp [n1]), tokens_separator, List.append_nil]
        rfl
      rw [parseArgs, hm]
      simp only [List.append_assoc, e2, e6, consumeToks, operands_consume]
      by_cases hs : ss = [] <;> simp_all [pushSettings, ParseState.close]
  · have := (holds_settings ss (holds_defaults paths)).args
    rw [settings_paths] at this
    exact this
  · rw [CliNamespace.int, settings_k ss (defaults_lookup ("k", .int 100) (by simp))]
    rfl

theorem compareInt_natural {inp : Input} {inp' : Option Input} {args : CompareArgs} {kwargs : Kwargs} : compareInt env inp inp' args args.k kwargs fuel = compare env inp inp' args kwargs fuel := by
  rw [compareInt, if_pos (by omega)]
  rfl

theorem cliMainInt_natural (a : CliArgs) : cliMainInt env formats a a.k fuel = cliMain env formats a fuel := by
  have e : ∀ inp inp', compareInt env inp inp' a.named a.k a.kwargs fuel = compare env inp inp' a.named a.kwargs fuel := fun inp inp' => compareInt_natural (args := a.named)
  have eo : a.outputInt a.k = a.output := rfl
  rw [cliMainInt, cliMain, eo]
  simp only [e]
  rfl

/-- **C95** So the command does what `main` does with these values. -/
theorem C95_runs (h : CommandLine ss paths argv) : (∀ x, cliMain env formats (settingsArgs ss paths) fuel = .ok x → cliRun env formats argv fuel = .ok x) ∧
    ∀ e, cliMain env formats (settingsArgs ss paths) fuel = .error e → cliRun env formats argv fuel = .error (.raised e) := by
  obtain ⟨h, hk⟩ := h
  obtain ⟨ns, h1, h2, h3⟩ := C95_parses h
  have hk' : ((settingsArgs ss paths).k : ℤ) = settingsK ss := by
    rw [settingsArgs, settings_toNat ss (z := 100) rfl]
    exact Int.toNat_of_nonneg hk
  rw [← cliMainInt_natural, hk']
  constructor <;> intro x hx <;> simp [cliRun, h1, h2, h3, hx, bind, Except.bind]

/-- **C95** With one path, or two, the file that is written has what `compare` returns for the paths with the values of the options. Missing: `--nearest` (see `C40_false`). -/
theorem C95_writes_partial {p q : String} {f : Frame} (hf : formats (settingsArgs ss paths).format = true) (h : CommandLine ss paths argv) {a : CliArgs} (ha : a = settingsArgs ss paths) :
    (paths = [p] → compare env (.one (.str p)) none { by_ := a.by_, k := a.k, csdRefcodes := a.csdRefcodes, verbose := a.verbose } a.kwargs fuel = .ok f →
      cliRun env formats argv fuel = .ok { frame := f, path := a.output, format := a.format }) ∧
    (paths = [p, q] → compare env (.one (.str p)) (some (.one (.str q))) { by_ := a.by_, k := a.k, csdRefcodes := a.csdRefcodes, verbose := a.verbose } a.kwargs fuel = .ok f →
      cliRun env formats argv fuel = .ok { frame := f, path := a.output, format := a.format }) := by
  subst ha
  have hp : (settingsArgs ss paths).paths = paths := settings_paths ss _
  have e : ∀ a : CliArgs, a.named = { by_ := a.by_, k := a.k, csdRefcodes := a.csdRefcodes, verbose := a.verbose } := fun _ => rfl
  constructor <;> rintro rfl hc <;> refine (C95_runs h).1 _ ?_ <;> rw [cliMain, hp] <;> simp only [e, hc, bind, Except.bind, hf, if_true]

/-! ### Command lines that are refused -/

theorem cliRun_exit (h : parseArgs argv = .error .exit) : cliRun env formats argv fuel = .error .exit := by
  simp [cliRun, h, bind, Except.bind]

/-- **C95** Without paths the command exits. -/
theorem C95_no_paths {l : List String} (h : Options ss l) : cliRun env formats l fuel = .error .exit := by
  obtain ⟨ts, e1, n1, e2⟩ := options_consume h
  have := e2 [] ⟨cliDefaults, [], false, false⟩
  rw [List.append_nil, consumeToks] at this
  have hp : parseArgs l = .error .exit := by
    rw [parseArgs, tokens_all e1 n1]
    simp only [this]
    by_cases hs : ss = [] <;> simp [hs, ParseState.close]
  exact cliRun_exit hp

/-- **C95** Also `--` has to stand with the paths: with an option between a path and `--` the command exits, whether or not something follows. And an option does not take `--` as its value. -/
theorem C95_separator {s s' : List Setting} {l l' ps qs : List String} (h : Options s l) (h' : Options s' l') (hp : ∀ p ∈ ps, Operand p) (h0 : ps ≠ []) (hs : s' ≠ []) :
    cliRun env formats (l ++ ps ++ l' ++ "--" :: qs) fuel = .error .exit ∧
      ∀ t : Setting, (∃ v, t.Text (some v)) → cliRun env formats (l ++ ps ++ t.long :: "--" :: qs) fuel = .error .exit := by
  obtain ⟨ts, e1, n1, e2⟩ := options_consume h
  obtain ⟨ts', e3, n3, e4⟩ := options_consume h'
  obtain ⟨f1, f2⟩ := paths_consume hp
  constructor
  · have hm : tokens (l ++ ps ++ l' ++ "--" :: qs) = some (ts ++ ps.map .arg ++ ts' ++ .separator :: (qs.map .arg ++ [])) := by
      rw [tokens_append (mapM_append_some (mapM_append_some e1 f1) e3) (by simp [n1, n3]), tokens_separator, List.append_nil]
      rfl
    refine cliRun_exit ?_
    rw [parseArgs, hm]
    simp only [List.append_assoc, e2, f2, e4, consumeToks, operands_consume]
    by_cases h1 : s = [] <;> simp [h1, hs, h0, ParseState.close]
  · rintro t ⟨v, hv⟩
    obtain ⟨o, g1, -, g3⟩ := setting_facts t
    rcases g3 _ hv with ⟨h, -⟩ | ⟨-, -, hf, hh, -⟩
    · cases h
    · have hm : tokens (l ++ ps ++ t.long :: "--" :: qs) = some (ts ++ (ps.map .arg ++ .opt o none :: .separator :: qs.map .arg)) := by
        rw [tokens_append (mapM_append_some e1 f1) (by simp [n1]), tokens, classify_name g1, tokens_separator]
        simp
      refine cliRun_exit ?_
      rw [parseArgs, hm]
      simp only [e2, f2]
      rw [consumeToks.eq_def]
      rcases hk : o.kind with _ | _ | _ | _ | _ <;> simp_all

/-- **C95** Paths have to stand together: with an option between two paths the command exits. -/
theorem C95_separated {s s' s'' : List Setting} {l l' l'' ps ps' : List String} (h : Options s l) (h' : Options s' l') (h'' : Options s'' l'') (hp : ∀ p ∈ ps, Operand p)
    (hp' : ∀ p ∈ ps', Operand p) (h0 : ps ≠ []) (h0' : ps' ≠ []) (hs : s' ≠ []) : cliRun env formats (l ++ ps ++ l' ++ ps' ++ l'') fuel = .error .exit := by
  obtain ⟨ts, e1, n1, e2⟩ := options_consume h
  obtain ⟨ts', e3, n3, e4⟩ := options_consume h'
  obtain ⟨ts'', e5, n5, e6⟩ := options_consume h''
  obtain ⟨f1, f2⟩ := paths_consume hp
  obtain ⟨f3, f4⟩ := paths_consume hp'
  have hm : tokens (l ++ ps ++ l' ++ ps' ++ l'') = some (ts ++ ps.map .arg ++ ts' ++ ps'.map .arg ++ (ts'' ++ [])) := by
    rw [List.append_nil]
    exact tokens_all (mapM_append_some (mapM_append_some (mapM_append_some (mapM_append_some e1 f1) e3) f3) e5) (by simp [n1, n3, n5])
  have hx : parseArgs (l ++ ps ++ l' ++ ps' ++ l'') = .error .exit := by
    rw [parseArgs, hm]
    simp only [List.append_assoc, e2, f2, e4, f4, e6, consumeToks]
    by_cases h1 : s = [] <;> by_cases h2 : s'' = [] <;> simp [h1, h2, hs, h0, h0', ParseState.close]
  exact cliRun_exit hx

theorem digitPart_bad {c : Char} (h1 : c.isDigit = false) (h2 : c ≠ '_') : ∀ (l : List Char) (b : Bool) (acc : List ℕ), c ∈ l → digitPart b acc l = none
  | [], _, _, h => by simp at h
  | d :: l, b, acc, h => by
    rcases List.mem_cons.1 h with rfl | h
    · simp [digitPart, h1, h2]
    · rw [digitPart]
      split_ifs
      · exact digitPart_bad h1 h2 l _ _ h
      · exact digitPart_bad h1 h2 l _ _ h
      · rfl

theorem mem_dropWhile {p : Char → Bool} {c : Char} (hc : p c = false) : ∀ {l : List Char}, c ∈ l → c ∈ l.dropWhile p
  | a :: l, h => by
    rw [List.dropWhile_cons]
    split_ifs with ha
    · rcases List.mem_cons.1 h with rfl | h
      · rw [hc] at ha; simp at ha
      · exact mem_dropWhile hc h
    · exact h

theorem pyInt_bad {l : List Char} {c : Char} (hc : c ∈ l) (h : ¬ (c.isDigit ∨ c ∈ ['+', '-', '_', ' ', '\t', '\n', '\r', '\x0b', '\x0c'])) : pyInt l = none := by
  simp only [List.mem_cons, List.not_mem_nil, or_false, not_or, Bool.not_eq_true] at h
  obtain ⟨h1, h2, h3, h4, h5⟩ := h
  have hw : isWs c = false := by simpa [isWs] using h5
  have hs : c ∈ strip l := by
    rw [strip, List.mem_reverse]
    exact mem_dropWhile hw (List.mem_reverse.2 (mem_dropWhile hw hc))
  have ht : c ∈ (takeSign (strip l)).2 := by
    unfold takeSign
    split
    · rename_i cs h
      rw [h] at hs
      exact (List.mem_cons.1 hs).resolve_left h2
    · rename_i cs h
      rw [h] at hs
      exact (List.mem_cons.1 hs).resolve_left h3
    · exact hs
  rw [pyInt, digitPart_bad h1 h4 _ _ _ ht]
  rfl

/-- An option that does not take the value. -/
theorem refused_store {long v : String} (h : Refused long v) : ∃ o, (long, o) ∈ optionNames ∧ (∀ t, shortOf long = some t → (t, o) ∈ optionNames ∧ t.toList.length = 2) ∧ o.kind ≠ .flag ∧ o.kind ≠ .help ∧
    ∀ ns, storeValue o v ns = .error .exit := by
  have key : ∀ {long key : String} {shorts : List String} {kind : ValueKind} {ch : Option (List String)}, (∃ o ∈ cliOptions, (long, o) ∈ optionNames ∧ o.dest = key ∧
      (∀ s ∈ shorts, (s, o) ∈ optionNames ∧ s.toList.length = 2) ∧ o.kind = kind ∧ o.choices = ch) → (∀ t, shortOf long = some t → t ∈ shorts) → kind ≠ .flag → kind ≠ .help →
      (readValue kind v = none ∨ kind = .str ∧ ∃ l, ch = some l ∧ v ∉ l) →
      ∃ o, (long, o) ∈ optionNames ∧ (∀ t, shortOf long = some t → (t, o) ∈ optionNames ∧ t.toList.length = 2) ∧ o.kind ≠ .flag ∧ o.kind ≠ .help ∧ ∀ ns, storeValue o v ns = .error .exit := by
    rintro long key shorts kind ch ⟨o, ho, h1, -, h2, rfl, rfl⟩ hs hf hh hr
    refine ⟨o, h1, fun t ht => h2 t (hs t ht), hf, hh, fun ns => ?_⟩
    rcases hr with hr | ⟨hk, l, hl, hv⟩
    · rw [storeValue, hr]
    · rw [storeValue, hk]
      have : o.allows (.str v) = false := by
        rw [OptDecl.allows, hl]
        simp only [List.any_eq_false, decide_eq_true_eq, CliVal.str.injEq]
        rintro x hx rfl
        exact hv hx
      simp [readValue, this]
  rcases h with ⟨rfl, h⟩ | ⟨rfl, h⟩ | ⟨rfl, h⟩ | ⟨hl, c, hc, h⟩
  · exact key (names_facts ("--by", "by", ["-b"], .str) (by simp)) (by simp [shortOf]) (by simp) (by simp) (Or.inr ⟨rfl, _, if_pos rfl, h⟩)
  · exact key (names_facts ("--reader", "reader", ["-r"], .str) (by simp)) (by simp [shortOf]) (by simp) (by simp) (Or.inr ⟨rfl, _, (if_neg (by decide)).trans (if_pos rfl), h⟩)
  · exact key (names_facts ("--disorder", "disorder", [], .str) (by simp)) (by simp [shortOf]) (by simp) (by simp)
      (Or.inr ⟨rfl, _, (if_neg (by decide)).trans ((if_neg (by decide)).trans (if_pos rfl)), h⟩)
  · have hr : readValue .int v = none := by simp [readValue, pyInt_bad hc h]
    simp only [List.mem_cons, List.not_mem_nil, or_false] at hl
    rcases hl with rfl | rfl | rfl
    · exact key (names_facts ("--k", "k", ["-k"], .int) (by simp)) (by simp [shortOf]) (by simp) (by simp) (Or.inl hr)
    · exact key (names_facts ("--nearest", "nearest", ["-n"], .int) (by simp)) (by simp [shortOf]) (by simp) (by simp) (Or.inl hr)
    · exact key (names_facts ("--n_jobs", "n_jobs", [], .int) (by simp)) (by simp [shortOf]) (by simp) (by simp) (Or.inl hr)

/-- **C95** A value that is not one of the choices, or not an integer where one is needed, makes the command exit, whatever follows. -/
theorem C95_refused {l ps bad rest : List String} {long v : String} (h : Options ss l) (hp : ∀ p ∈ ps, Operand p) (hb : Refused long v) (hl : Spelling long (shortOf long) (some v) bad) :
    cliRun env formats (l ++ ps ++ bad ++ rest) fuel = .error .exit := by
  obtain ⟨ts, e1, n1, e2⟩ := options_consume h
  obtain ⟨f1, f2⟩ := paths_consume hp
  obtain ⟨o, h1, h2, hf, hh, hst⟩ := refused_store hb
  have hx : parseArgs (l ++ ps ++ bad ++ rest) = .error .exit := by
    obtain ⟨tb, hb1, nb, hb2⟩ : ∃ tb, bad.mapM classify = some tb ∧ .separator ∉ tb ∧ ∀ rest st, consumeToks (tb ++ rest) st = .error .exit := by
      rcases spelling_toks h1 h2 hl with ⟨h', -⟩ | ⟨t, h', hl⟩
      · simp at h'
      · simp only [Option.some.injEq] at h'
        subst h'
        rcases hl with hl | ⟨hd, hl⟩
        · exact ⟨_, hl, by simp, fun rest st => by rw [List.cons_append, List.singleton_append, (consume_value hf hh rest st).2, hst]⟩
        · exact ⟨_, hl, by simp, fun rest st => by rw [List.singleton_append, (consume_value hf hh rest st).1 hd, hst]⟩
    rw [parseArgs, tokens_append (mapM_append_some (mapM_append_some e1 f1) hb1) (by simp [n1, nb])]
    rcases tokens rest with _ | tr
    · rfl
    · simp only [Option.map_some, List.append_assoc, e2, f2, hb2]
  exact cliRun_exit hx

theorem storeValue_error {o : OptDecl} {v : String} {ns : CliNamespace} {e : CliErr} (h : storeValue o v ns = .error e) : e = .exit := by
  rw [storeValue] at h
  split at h
  · simpa using h.symm
  · split_ifs at h
    simpa using h.symm

theorem extras_stay (ts : List CliTok) (st : ParseState) (h : st.extras = true ∨ .unknown ∈ ts) (hs : ∀ o, .opt o (some "--") ∉ ts) :
    consumeToks ts st = .error .exit ∨ ∃ st', consumeToks ts st = .ok st' ∧ st'.extras = true := by
  fun_induction consumeToks ts st
  case case1 st => exact Or.inr ⟨st, rfl, by simpa using h⟩
  case case2 l st ih =>
    refine ih ?_ fun o ho => hs o (by simp [ho])
    rcases h with h | h
    · exact Or.inl (by split_ifs <;> simp [h])
    · exact Or.inr (by simpa using h)
  case case3 s l st ih =>
    refine ih ?_ fun o ho => hs o (by simp [ho])
    rcases h with h | h
    · exact Or.inl (by split_ifs <;> simp [h])
    · exact Or.inr (by simpa using h)
  case case4 ih => exact ih (Or.inl rfl) fun o ho => hs o (by simp [ho])
  case case5 => exact Or.inl rfl
  case case6 => exact Or.inl rfl
  case case7 o l st _ _ => exact absurd (by simp) (hs o)
  case case8 he _ _ => exact Or.inl (by rw [storeValue_error he])
  case case9 ih => exact ih (by simpa [ParseState.close] using h) fun o ho => hs o (by simp [ho])
  case case10 => exact Or.inl rfl
  case case11 ih => exact ih (by simpa [ParseState.close] using h) fun o ho => hs o (by simp [ho])
  case case12 he _ _ => exact Or.inl (by rw [storeValue_error he])
  case case13 ih => exact ih (by simpa [ParseState.close] using h) fun o ho => hs o (by simp [ho])
  case case14 => exact Or.inl rfl

theorem mapM_mem {ts : List CliTok} : ∀ {l : List String}, l.mapM classify = some ts → (∀ s ∈ l, ∃ t ∈ ts, classify s = some t) ∧ ∀ t ∈ ts, ∃ s ∈ l, classify s = some t := by
  intro l
  induction l generalizing ts with
  | nil => intro h; simp only [List.mapM_nil, Option.pure_def, Option.some.injEq] at h; subst h; simp
  | cons s l ih =>
    intro h
    simp only [List.mapM_cons, Option.pure_def, Option.bind_eq_bind, Option.bind_eq_some_iff, Option.some.injEq] at h
    obtain ⟨t, ht, ts, hts, rfl⟩ := h
    obtain ⟨h1, h2⟩ := ih hts
    constructor
    · intro x hx
      rcases List.mem_cons.1 hx with rfl | hx
      · exact ⟨t, by simp, ht⟩
      · obtain ⟨t', h3, h4⟩ := h1 x hx
        exact ⟨t', List.mem_cons_of_mem _ h3, h4⟩
    · intro x hx
      rcases List.mem_cons.1 hx with rfl | hx
      · exact ⟨s, by simp, ht⟩
      · obtain ⟨t', h3, h4⟩ := h2 x hx
        exact ⟨t', List.mem_cons_of_mem _ h3, h4⟩

theorem classify_separator {s : String} (h : classify s = some .separator) : s = "--" := by
  by_contra hs
  have hl : s.toList ≠ ['-', '-'] := fun h' => hs (String.toList_injective (h'.trans (by decide +kernel)))
  rw [classify] at h
  simp only [if_neg hl] at h
  split_ifs at h
  · simp at h
  all_goals (split at h; · simp at h)
  · simp at h
  all_goals
    split at h
    · simp at h
    · split at h <;> simp at h

theorem partitionEq_suffix {l v : List Char} (h : (partitionEq l).2 = some v) : v <:+ l := by
  rw [partitionEq] at h
  split at h
  · simp at h
  · rename_i c w e
    simp only [Option.some.injEq] at h
    subst h
    exact (List.suffix_cons c w).trans (e ▸ List.dropWhile_suffix _)

/-- The value that is joined to a name is the end of the argument. -/
theorem classify_suffix {s v : String} {o : OptDecl} (h : classify s = some (.opt o (some v))) : v.toList <:+ s.toList := by
  have key : ∀ t, t ∈ optionTuples s.toList → ∀ w, t.2 = some w → w <:+ s.toList := by
    intro x hx w hw
    rw [optionTuples] at hx
    split_ifs at hx
    · obtain ⟨y, -, rfl⟩ := List.mem_map.1 hx
      exact partitionEq_suffix hw
    · obtain ⟨y, -, hy⟩ := List.mem_filterMap.1 hx
      split_ifs at hy
      · simp only [Option.some.injEq] at hy
        subst hy
        simp only [Option.some.injEq] at hw
        subst hw
        exact List.drop_suffix _ _
      · simp only [Option.some.injEq] at hy
        subst hy
        simp at hw
  rw [classify] at h
  by_cases c1 : s.toList = ['-', '-']
  · simp [c1] at h
  by_cases c2 : s.toList.head? ≠ some '-'
  · simp [c1, c2] at h
  simp only [c1, c2, if_false] at h
  split at h
  · cases h
  · by_cases c3 : s.toList.length = 1
    · simp [c3] at h
    simp only [c3, if_false] at h
    split at h
    · rename_i w o' e1 e2
      simp only [Option.some.injEq, CliTok.opt.injEq] at h
      obtain ⟨-, rfl⟩ := h
      simpa using partitionEq_suffix e1
    · split at h
      · rename_i x e
        simp only [Option.some.injEq, CliTok.opt.injEq, Option.map_eq_some_iff] at h
        obtain ⟨-, w, hw, rfl⟩ := h
        rw [String.toList_ofList]
        exact key x (by simp [e]) w hw
      · cases h
      · split_ifs at h <;> cases h

theorem tokens_mem {ts : List CliTok} : ∀ {l : List String}, tokens l = some ts → ∀ t ∈ ts, t = .separator ∨ (∃ s ∈ l, t = .arg s) ∨ ∃ s ∈ l, classify s = some t := by
  intro l
  induction l generalizing ts with
  | nil => intro h; simp only [tokens, Option.some.injEq] at h; subst h; simp
  | cons s l ih =>
    intro h t ht
    rw [tokens] at h
    split at h
    · cases h
    · simp only [Option.some.injEq] at h
      subst h
      rcases List.mem_cons.1 ht with rfl | ht
      · exact Or.inl rfl
      · obtain ⟨x, hx, rfl⟩ := List.mem_map.1 ht
        exact Or.inr (Or.inl ⟨x, by simp [hx], rfl⟩)
    · rename_i t' _ hc
      obtain ⟨ts', h1, rfl⟩ := Option.map_eq_some_iff.1 h
      rcases List.mem_cons.1 ht with rfl | ht
      · exact Or.inr (Or.inr ⟨s, by simp, hc⟩)
      · rcases ih h1 t ht with h | ⟨x, hx, h⟩ | ⟨x, hx, h⟩
        · exact Or.inl h
        · exact Or.inr (Or.inl ⟨x, by simp [hx], h⟩)
        · exact Or.inr (Or.inr ⟨x, by simp [hx], h⟩)

theorem tokens_unknown {s : String} (hu : UnknownOption s) {r : List String} : ∀ {l : List String} {ts : List CliTok}, "--" ∉ l → tokens (l ++ s :: r) = some ts → .unknown ∈ ts := by
  intro l
  induction l with
  | nil =>
    intro ts _ h
    rw [List.nil_append, tokens, classify_unknown hu] at h
    obtain ⟨ts', -, rfl⟩ := Option.map_eq_some_iff.1 h
    simp
  | cons x l ih =>
    intro ts hl h
    rw [List.cons_append, tokens] at h
    split at h
    · cases h
    · rename_i hc
      exact absurd (classify_separator hc ▸ (by simp : x ∈ x :: l)) hl
    · obtain ⟨ts', h1, rfl⟩ := Option.map_eq_some_iff.1 h
      exact List.mem_cons_of_mem _ (ih (fun hm => hl (by simp [hm])) h1)

/-- **C95** An unknown option (for example `--n_neighbors`) that does not stand behind `--` makes the command exit. Missing: command lines with a value `--` that is joined to the name of its option. -/
theorem C95_unknown_partial {s : String} {l r : List String} (hu : UnknownOption s) (hl : "--" ∉ l) (hv : ∀ t ∈ l ++ s :: r, "--".toList <:+ t.toList → t = "--") :
    cliRun env formats (l ++ s :: r) fuel = .error .exit := by
  refine cliRun_exit ?_
  rw [parseArgs]
  rcases hm : tokens (l ++ s :: r) with _ | ts
  · rfl
  · have hs : ∀ o, CliTok.opt o (some "--") ∉ ts := by
      intro o ho
      rcases tokens_mem hm _ ho with h | ⟨x, -, h⟩ | ⟨x, hx, h⟩
      · cases h
      · cases h
      · have := hv x hx (classify_suffix h)
        subst this
        have hc : classify "--" = some .separator := by decide +kernel
        rw [hc] at h
        cases h
    rcases extras_stay ts ⟨cliDefaults, [], false, false⟩ (Or.inr (tokens_unknown hu hl hm)) hs with h | ⟨st, h, he⟩
    · simp only [h]
    · simp only [h, he, or_true, if_true]

/-! ### A negative `k` -/

theorem compareInt_raises {inp : Input} {inp' : Option Input} {args : CompareArgs} {kwargs : Kwargs} {tol : ℝ} {k : ℤ} (hk : k < 0)
    (htol : (kwOr kwargs "collapse_tol" (.float (1 / 10000))).toFloat = .ok tol)
    (hv : ∀ cs, getCrystals env args.csdRefcodes (routeKwargs args.verbose kwargs) inp = .ok cs → ∀ c ∈ cs, c.Valid) :
    ∃ (e : CErr) (F : ℕ), ∀ fuel ≥ F, compareInt env inp inp' args k kwargs fuel = .error e := by
  by_cases hby : upper args.by_ = "AMD" ∨ upper args.by_ = "PDD"
  · rcases hg : getCrystals env args.csdRefcodes (routeKwargs args.verbose kwargs) inp with e | cs
    · refine ⟨e, 0, fun fuel _ => ?_⟩
      rw [compareInt, if_neg (by omega)]
      simp only [hg, bind, Except.bind]
      rw [if_neg (by tauto)]
    · by_cases hg' : ∀ i, inp' = some i → ∃ cs', getCrystals env args.csdRefcodes (routeKwargs args.verbose kwargs) i = .ok cs'
      · obtain ⟨F, hF⟩ := C101_compare hk hby htol (hv cs hg) hg hg'
        exact ⟨_, F, hF⟩
      · push Not at hg'
        obtain ⟨i, rfl, hi⟩ := hg'
        rcases hgi : getCrystals env args.csdRefcodes (routeKwargs args.verbose kwargs) i with e | cs'
        · refine ⟨e, 0, fun fuel _ => ?_⟩
          rw [compareInt, if_neg (by omega)]
          simp only [hg, hgi, bind, Except.bind, Except.map]
          rw [if_neg (by tauto)]
        · exact absurd hgi (hi cs')
  · refine ⟨.run .value, 0, fun fuel _ => ?_⟩
    rw [compareInt, if_neg (by omega)]
    simp only
    rw [if_pos (by tauto)]

/-- **C95** With a negative `k` no file is written: the command raises an exception, by AMD and by PDD, whatever the other options are. -/
theorem C95_negative (h : Written ss paths argv) (hk : settingsK ss < 0) {a : CliArgs} (ha : a = settingsArgs ss paths)
    (hv : ∀ p ∈ paths, ∀ cs, getCrystals env a.csdRefcodes (routeKwargs a.verbose a.kwargs) (.one (.str p)) = .ok cs → ∀ c ∈ cs, c.Valid) :
    ∃ (e : CErr) (F : ℕ), ∀ fuel ≥ F, cliRun env formats argv fuel = .error (.raised e) := by
  subst ha
  obtain ⟨ns, h1, h2, h3⟩ := C95_parses h
  have key : ∃ (e : CErr) (F : ℕ), ∀ fuel ≥ F, cliMainInt env formats (settingsArgs ss paths) (settingsK ss) fuel = .error e := by
    have hp : (settingsArgs ss paths).paths = paths := settings_paths ss _
    unfold cliMainInt
    rw [hp]
    rcases paths with _ | ⟨p, _ | ⟨q, _ | ⟨r, l⟩⟩⟩
    · exact ⟨_, 0, fun _ _ => rfl⟩
    · obtain ⟨e, F, hF⟩ := compareInt_raises (env := env) (args := (settingsArgs ss [p]).named) (kwargs := (settingsArgs ss [p]).kwargs) (inp := .one (.str p)) (inp' := none) hk rfl
        (hv p (by simp))
      exact ⟨e, F, fun fuel hf => by simp only [hF fuel hf, bind, Except.bind]⟩
    · obtain ⟨e, F, hF⟩ := compareInt_raises (env := env) (args := (settingsArgs ss [p, q]).named) (kwargs := (settingsArgs ss [p, q]).kwargs) (inp := .one (.str p))
        (inp' := some (.one (.str q))) hk rfl (hv p (by simp))
      exact ⟨e, F, fun fuel hf => by simp only [hF fuel hf, bind, Except.bind]⟩
    · exact ⟨_, 0, fun _ _ => rfl⟩
  obtain ⟨e, F, hF⟩ := key
  exact ⟨e, F, fun fuel hf => by simp [cliRun, h1, h2, h3, hF fuel hf, bind, Except.bind]⟩

/-! ### From files to the file that is written -/

/-- The options of the readers. -/
def CliArgs.readOptions (a : CliArgs) : ReadOptions := ⟨a.reader, a.removeHydrogens, a.disorder, a.heaviestComponent, a.molecularCentres, a.refcodeFamilies⟩

variable {B : CifBackends} {asString : String → String} {w : World} {ds ds' : List Described} {p q : String} {a : CliArgs}

/-- The readers are those of the package, warnings are not turned into exceptions, and the options are such that no point is listed twice. -/
structure RunsWith (env : Env) (B : CifBackends) (w : World) (a : CliArgs) : Prop where
  cifReader : env.cifReader = cifReader B w
  csdReader : env.csdReader = csdReader B w
  quiet : ∀ x, w.action x ≠ .error
  distinct : a.readOptions.Distinct

theorem RunsWith.reads (h : RunsWith env B w a) : ReadsInputs env B w a.kwargs a.readOptions :=
  ⟨h.cifReader, h.csdReader, h.quiet, ⟨rfl, rfl, rfl, rfl, rfl, rfl⟩, h.distinct⟩

theorem upper_AMD : upper "AMD" = "AMD" := by decide +kernel

theorem upper_PDD : upper "PDD" = "PDD" := by decide +kernel

/-- **C95** (partial) `amd p q` with any options for which AMDs are compared by the default metric: the file has the matrix that is labelled with the names of the blocks (or entries)
that are not passed over, whose entries are the Chebyshev distances of the AMDs of the infinite crystals; 0 for blocks that describe the same crystal.
Missing: cells that are too oblique for `k`, `--nearest`. -/
theorem C95_amd_two_partial (h : CommandLine ss [p, q] argv) (ha : a = settingsArgs ss [p, q]) (hr : RunsWith env B w a) (hby : a.by_ = "AMD") (hk : 0 < a.k) (hm : a.metric = "chebyshev")
    (hf : formats a.format = true) (hi : InputHolds B asString a.readOptions (.one (.str p)) ds a.csdRefcodes) (hi' : InputHolds B asString a.readOptions (.one (.str q)) ds' a.csdRefcodes)
    (he : ∀ e ∈ ds, e.Proper) (he' : ∀ e ∈ ds', e.Proper) (hne : ds ≠ []) (hne' : ds' ≠ []) :
    ∃ (M : List (List ℝ)) (f : ℕ → ℕ → ℝ) (F : ℕ), IsMatrix ds.length ds'.length f M ∧
      (∀ fuel ≥ F, cliRun env formats argv fuel = .ok { frame := .matrix (ds.map Described.name) (ds'.map Described.name) M, path := a.output, format := a.format }) ∧
      ∀ i j (hi : i < ds.length) (hj : j < ds'.length), ds[i].WellShaped a.k → ds'[j].WellShaped a.k →
        (∀ x y, ds[i].IsAMD a.k x → ds'[j].IsAMD a.k y → f i j = chebyshev x y) ∧ (DescribeSame ds[i] ds'[j] → f i j = 0) := by
  have hm' : kwOr a.kwargs "metric" (.str "chebyshev") = .str "chebyshev" := by
    rw [← hm]; rfl
  obtain ⟨M, f, F, h1, h2, h3⟩ := C83_amd_two_partial (args := a.named) hr.reads (by rw [show a.named.by_ = a.by_ from rfl, hby, upper_AMD]) rfl hk hm' hi hi' he he' hne hne'
  exact ⟨M, f, F, h1, fun fuel hF => (C95_writes_partial (ha ▸ hf) h ha).2 rfl (h2 fuel hF), h3⟩

/-- **C95** (partial) The same for one path. -/
theorem C95_amd_partial (h : CommandLine ss [p] argv) (ha : a = settingsArgs ss [p]) (hr : RunsWith env B w a) (hby : a.by_ = "AMD") (hk : 0 < a.k) (hm : a.metric = "chebyshev")
    (hf : formats a.format = true) (hi : InputHolds B asString a.readOptions (.one (.str p)) ds a.csdRefcodes) (he : ∀ e ∈ ds, e.Proper) (hne : ds ≠ []) :
    ∃ (M : List (List ℝ)) (f : ℕ → ℕ → ℝ) (F : ℕ), IsMatrix ds.length ds.length f M ∧
      (∀ fuel ≥ F, cliRun env formats argv fuel = .ok { frame := .matrix (ds.map Described.name) (ds.map Described.name) M, path := a.output, format := a.format }) ∧
      ∀ i j (hi : i < ds.length) (hj : j < ds.length), ds[i].WellShaped a.k → ds[j].WellShaped a.k →
        (∀ x y, ds[i].IsAMD a.k x → ds[j].IsAMD a.k y → f i j = chebyshev x y) ∧ (DescribeSame ds[i] ds[j] → f i j = 0) := by
  have hm' : kwOr a.kwargs "metric" (.str "chebyshev") = .str "chebyshev" := by
    rw [← hm]; rfl
  obtain ⟨M, f, F, h1, h2, h3⟩ := C83_amd_partial (args := a.named) hr.reads (by rw [show a.named.by_ = a.by_ from rfl, hby, upper_AMD]) rfl hk hm' hi he hne
  exact ⟨M, f, F, h1, fun fuel hF => (C95_writes_partial (q := "") (ha ▸ hf) h ha).1 rfl (h2 fuel hF), h3⟩

theorem cli_pdd_options (hm : a.metric = "chebyshev") : PddOptions a.kwargs a.collapseTol (.named "chebyshev") := by
  refine ⟨rfl, ?_, ⟨_, rfl⟩, ⟨_, rfl⟩⟩
  rw [← hm]; rfl

/-- **C95** (partial) `amd p q --by PDD`: distances are those of the PDDs of the infinite crystals up to the rounding of weights and four times `--collapse_tol`. -/
theorem C95_pdd_two_partial (h : CommandLine ss [p, q] argv) (ha : a = settingsArgs ss [p, q]) (hr : RunsWith env B w a) (hs : env.sched.Complete) (hby : a.by_ = "PDD")
    (htol : 0 ≤ a.collapseTol) (hm : a.metric = "chebyshev") (hf : formats a.format = true) (hi : InputHolds B asString a.readOptions (.one (.str p)) ds a.csdRefcodes)
    (hi' : InputHolds B asString a.readOptions (.one (.str q)) ds' a.csdRefcodes) (he : ∀ e ∈ ds, e.Proper) (he' : ∀ e ∈ ds', e.Proper) (hne : ds ≠ []) (hne' : ds' ≠ []) :
    ∃ (M : List (List ℝ)) (f : ℕ → ℕ → ℝ) (F : ℕ), IsMatrix ds.length ds'.length f M ∧
      (∀ fuel ≥ F, cliRun env formats argv fuel = .ok { frame := .matrix (ds.map Described.name) (ds'.map Described.name) M, path := a.output, format := a.format }) ∧
      ∀ i j (hi : i < ds.length) (hj : j < ds'.length), ds[i].WellShaped a.k → ds'[j].WellShaped a.k →
        ∀ slack, slack = 4 * a.collapseTol + emdTol (max ds[i].size ds'[j].size) (a.k * max (ds[i].cell.a : ℝ) ds'[j].cell.a) →
          (∀ x y, ds[i].IsPDD a.k x → ds'[j].IsPDD a.k y → |f i j - exactEmd chebyshev x y| ≤ slack) ∧ (DescribeSame ds[i] ds'[j] → 0 ≤ f i j ∧ f i j ≤ slack) := by
  obtain ⟨M, f, F, h1, h2, h3⟩ := C83_pdd_two_partial (args := a.named) hr.reads hs (by rw [show a.named.by_ = a.by_ from rfl, hby, upper_PDD]) rfl htol (cli_pdd_options hm) hi hi' he he' hne hne'
    (collapse := true) rfl
  exact ⟨M, f, F, h1, fun fuel hF => (C95_writes_partial (ha ▸ hf) h ha).2 rfl (h2 fuel hF), h3⟩

/-- **C95** (partial) The same for one path. -/
theorem C95_pdd_partial (h : CommandLine ss [p] argv) (ha : a = settingsArgs ss [p]) (hr : RunsWith env B w a) (hs : env.sched.Complete) (hby : a.by_ = "PDD")
    (htol : 0 ≤ a.collapseTol) (hm : a.metric = "chebyshev") (hf : formats a.format = true) (hi : InputHolds B asString a.readOptions (.one (.str p)) ds a.csdRefcodes)
    (he : ∀ e ∈ ds, e.Proper) (hne : ds ≠ []) :
    ∃ (M : List (List ℝ)) (f : ℕ → ℕ → ℝ) (F : ℕ), IsMatrix ds.length ds.length f M ∧
      (∀ fuel ≥ F, cliRun env formats argv fuel = .ok { frame := .matrix (ds.map Described.name) (ds.map Described.name) M, path := a.output, format := a.format }) ∧
      ∀ i j (hi : i < ds.length) (hj : j < ds.length), ds[i].WellShaped a.k → ds[j].WellShaped a.k →
        ∀ slack, slack = 4 * a.collapseTol + emdTol (max ds[i].size ds[j].size) (a.k * max (ds[i].cell.a : ℝ) ds[j].cell.a) →
          (∀ x y, ds[i].IsPDD a.k x → ds[j].IsPDD a.k y → |f i j - exactEmd chebyshev x y| ≤ slack) ∧ (DescribeSame ds[i] ds[j] → 0 ≤ f i j ∧ f i j ≤ slack) := by
  obtain ⟨M, f, F, h1, h2, h3⟩ := C83_pdd_partial (args := a.named) hr.reads hs (by rw [show a.named.by_ = a.by_ from rfl, hby, upper_PDD]) rfl htol (cli_pdd_options hm) hi he hne
    (collapse := true) rfl
  exact ⟨M, f, F, h1, fun fuel hF => (C95_writes_partial (q := "") (ha ▸ hf) h ha).1 rfl (h2 fuel hF), h3⟩

end Amd
