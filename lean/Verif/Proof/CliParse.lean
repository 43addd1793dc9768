import Verif.Model.CliParse
import Verif.Spec.CommandLine
import Verif.Proof.CifText

/-! Lemmas about the parser of the command line. -/

namespace Amd

/-! ### Names -/

theorem names_ok : ∀ x ∈ optionNames, findOption x.1.toList = some x.2 ∧ '=' ∉ x.1.toList ∧ ' ' ∉ x.1.toList ∧ x.1.toList.head? = some '-' ∧ 1 < x.1.toList.length ∧
    (x.1.toList.length = 2 ∧ x.1.toList[1]? ≠ some '-' ∧ (∀ c ∈ x.1.toList[1]?, c.isDigit = false) ∨ 2 < x.1.toList.length ∧ x.1.toList[1]? = some '-' ∧ x.1 ∈ longNames) ∧
    optionNames.filter (fun y => y.1 = x.1) = [x] := by decide +kernel

theorem long_names : ∀ l ∈ longNames, ∃ x ∈ optionNames, x.1 = l := by decide +kernel

theorem findOption_some {l : List Char} {o : OptDecl} (h : findOption l = some o) : ∃ x ∈ optionNames, x.1.toList = l ∧ x.2 = o := by
  rw [findOption, Option.map_eq_some_iff] at h
  obtain ⟨x, hx, rfl⟩ := h
  exact ⟨x, List.mem_of_find?_eq_some hx, by simpa using List.find?_some hx, rfl⟩

theorem findOption_none {l : List Char} (h : ∀ x ∈ optionNames, x.1.toList ≠ l) : findOption l = none := by
  rcases h' : findOption l with _ | o
  · rfl
  · obtain ⟨x, hx, rfl, -⟩ := findOption_some h'
    exact absurd rfl (h x hx)

theorem dropWhile_all {p : Char → Bool} {l : List Char} (h : ∀ c ∈ l, p c = true) : l.dropWhile p = [] := by
  induction l with
  | nil => rfl
  | cons a l ih => rw [List.dropWhile_cons_of_pos (h a (by simp)), ih fun c hc => h c (by simp [hc])]

theorem partitionEq_none {l : List Char} (h : '=' ∉ l) : partitionEq l = (l, none) := by
  have : l.dropWhile (· ≠ '=') = [] := by
    refine dropWhile_all fun c hc => ?_
    simp only [ne_eq, decide_not, Bool.not_eq_eq_eq_not, Bool.not_true, decide_eq_false_iff_not]
    rintro rfl
    exact h hc
  rw [partitionEq, this]

theorem partitionEq_some {l v : List Char} (h : '=' ∉ l) : partitionEq (l ++ '=' :: v) = (l, some v) := by
  have h' : ∀ c ∈ l, decide (c ≠ '=') = true := fun c hc => by
    simp only [ne_eq, decide_not, Bool.not_eq_eq_eq_not, Bool.not_true, decide_eq_false_iff_not]
    rintro rfl
    exact h hc
  rw [partitionEq, List.dropWhile_append_of_pos h', List.takeWhile_append_of_pos h']
  simp

/-! ### Arguments -/

theorem classify_name {x : String × OptDecl} (hx : x ∈ optionNames) : classify x.1 = some (.opt x.2 none) := by
  obtain ⟨h1, h2, h3, h4, h5, h6, -⟩ := names_ok x hx
  have h0 : x.1.toList ≠ ['-', '-'] := by
    rintro h
    rw [h] at h6
    simp at h6
  simp [classify, h0, h4, h1]

theorem classify_name_eq {x : String × OptDecl} (hx : x ∈ optionNames) (v : String) : classify (x.1 ++ "=" ++ v) = some (.opt x.2 (some v)) := by
  obtain ⟨h1, h2, h3, h4, h5, h6, -⟩ := names_ok x hx
  have e : (x.1 ++ "=" ++ v).toList = x.1.toList ++ '=' :: v.toList := by simp
  have h0 : x.1.toList ++ '=' :: v.toList ≠ ['-', '-'] := fun h => by
    have : '=' ∈ (['-', '-'] : List Char) := by rw [← h]; simp
    simp at this
  have hf : findOption (x.1.toList ++ '=' :: v.toList) = none := findOption_none fun y hy h => (names_ok y hy).2.1 (by rw [h]; simp)
  have hh : (x.1.toList ++ '=' :: v.toList).head? = some '-' := by rw [List.head?_append, h4]; rfl
  have hl : (x.1.toList ++ '=' :: v.toList).length ≠ 1 := by simp; omega
  simp only [classify, e, if_neg h0, hh, hf, if_neg hl, partitionEq_some h2, h1, ne_eq, not_true_eq_false, if_false, String.ofList_toList]

theorem tuples_unique {p : List Char} {x : String × OptDecl} (hx : x ∈ optionNames) (hp : p <+: x.1.toList) (h2 : 2 < p.length) (hu : ∀ l ∈ longNames, p <+: l.toList → l = x.1) :
    optionNames.filter (fun y => p.isPrefixOf y.1.toList) = [x] := by
  rw [← (names_ok x hx).2.2.2.2.2.2]
  refine List.filter_congr fun y hy => ?_
  rw [Bool.eq_iff_iff]
  simp only [List.isPrefixOf_iff_prefix, decide_eq_true_eq]
  constructor
  · intro h
    rcases (names_ok y hy).2.2.2.2.2.1 with ⟨h3, -⟩ | ⟨-, -, h3⟩
    · have := h.length_le
      omega
    · exact hu _ h3 h
  · rintro h
    rw [h]
    exact hp

/-- An abbreviation is the name itself or no name. -/
theorem abbreviation_name {p : String} {x y : String × OptDecl} (hp : Abbreviates p x.1) (hx : x ∈ optionNames) (hy : y ∈ optionNames) (h : y.1.toList = p.toList) : y = x := by
  obtain ⟨h2, -, hu⟩ := hp
  have hp := (names_ok y hy)
  have hl : y.1 ∈ longNames := by
    rcases hp.2.2.2.2.2.1 with ⟨h3, -⟩ | ⟨-, -, h3⟩
    · rw [h] at h3; omega
    · exact h3
  have he := hu _ hl (by rw [h])
  have : y ∈ optionNames.filter (fun z => z.1 = x.1) := by simp [hy, he]
  rw [(names_ok x hx).2.2.2.2.2.2] at this
  simpa using this

theorem prefix_second {p l : List Char} (h : p <+: l) (h2 : 2 < p.length) : p[1]? = l[1]? ∧ p.head? = l.head? := by
  obtain ⟨t, rfl⟩ := h
  rw [List.getElem?_append_left (by omega), List.head?_append_of_ne_nil]
  · exact ⟨rfl, rfl⟩
  · intro h
    simp [h] at h2

theorem prefix_not_mem {p l : List Char} {c : Char} (h : p <+: l) (hc : c ∉ l) : c ∉ p := fun h' => hc (h.subset h')

theorem classify_abbreviation {p : String} {x : String × OptDecl} (hx : x ∈ optionNames) (hp : Abbreviates p x.1) : classify p = some (.opt x.2 none) := by
  by_cases hn : ∃ y ∈ optionNames, y.1.toList = p.toList
  · obtain ⟨y, hy, h⟩ := hn
    rw [← String.toList_injective h, classify_name hy, abbreviation_name hp hx hy h]
  · push Not at hn
    obtain ⟨h2, hpre, hu⟩ := hp
    obtain ⟨-, heq, -, h4, h5, h6, -⟩ := names_ok x hx
    obtain ⟨e1, e2⟩ := prefix_second hpre h2
    have h6 : x.1.toList[1]? = some '-' := by
      rcases h6 with ⟨h3, -⟩ | ⟨-, h3, -⟩
      · have := hpre.length_le
        omega
      · exact h3
    have h0 : p.toList ≠ ['-', '-'] := fun h => by rw [h] at h2; simp at h2
    have hl : p.toList.length ≠ 1 := by omega
    have ht : optionTuples p.toList = [(x.2, none)] := by
      rw [optionTuples, if_pos (by rw [e1, h6]), partitionEq_none (prefix_not_mem hpre heq), tuples_unique hx hpre h2 hu]
      rfl
    simp only [classify, if_neg h0, e2, h4, findOption_none hn, if_neg hl, partitionEq_none (prefix_not_mem hpre heq), ht, ne_eq, not_true_eq_false, if_false, Option.map_none]

theorem classify_abbreviation_eq {p : String} {x : String × OptDecl} (hx : x ∈ optionNames) (hp : Abbreviates p x.1) (v : String) : classify (p ++ "=" ++ v) = some (.opt x.2 (some v)) := by
  by_cases hn : ∃ y ∈ optionNames, y.1.toList = p.toList
  · obtain ⟨y, hy, h⟩ := hn
    rw [← String.toList_injective h, classify_name_eq hy, abbreviation_name hp hx hy h]
  · push Not at hn
    obtain ⟨h2, hpre, hu⟩ := hp
    obtain ⟨-, heq, -, h4, h5, h6, -⟩ := names_ok x hx
    obtain ⟨e1, e2⟩ := prefix_second hpre h2
    have h6 : x.1.toList[1]? = some '-' := by
      rcases h6 with ⟨h3, -⟩ | ⟨-, h3, -⟩
      · have := hpre.length_le
        omega
      · exact h3
    have e : (p ++ "=" ++ v).toList = p.toList ++ '=' :: v.toList := by simp
    have h0 : p.toList ++ '=' :: v.toList ≠ ['-', '-'] := fun h => by
      have : '=' ∈ (['-', '-'] : List Char) := by rw [← h]; simp
      simp at this
    have hf : findOption (p.toList ++ '=' :: v.toList) = none := findOption_none fun y hy h => (names_ok y hy).2.1 (by rw [h]; simp)
    have hh : (p.toList ++ '=' :: v.toList).head? = some '-' := by
      rw [List.head?_append, e2, h4]; rfl
    have hs : (p.toList ++ '=' :: v.toList)[1]? = some '-' := by rw [List.getElem?_append_left (by omega), e1, h6]
    have hl : (p.toList ++ '=' :: v.toList).length ≠ 1 := by simp; omega
    have hpe := partitionEq_some (v := v.toList) (prefix_not_mem hpre heq)
    have ht : optionTuples (p.toList ++ '=' :: v.toList) = [(x.2, some v.toList)] := by
      rw [optionTuples, if_pos hs, hpe, tuples_unique hx hpre h2 hu]
      rfl
    simp only [classify, e, if_neg h0, hh, hf, if_neg hl, hpe, findOption_none hn, ht, ne_eq, not_true_eq_false, if_false, Option.map_some, String.ofList_toList]

theorem classify_short {x : String × OptDecl} (hx : x ∈ optionNames) (hs : x.1.toList.length = 2) {v : String} (h0 : v ≠ "") (h1 : v.toList.head? ≠ some '=') :
    classify (x.1 ++ v) = some (.opt x.2 (some v)) := by
  obtain ⟨hf, heq, -, h4, h5, h6, huniq⟩ := names_ok x hx
  obtain ⟨-, h6, -⟩ : x.1.toList.length = 2 ∧ x.1.toList[1]? ≠ some '-' ∧ _ := h6.resolve_right (by omega)
  obtain ⟨c, hc⟩ : ∃ c, x.1.toList = ['-', c] := by
    match hx1 : x.1.toList, hs with
    | [a, b], _ =>
      rw [hx1] at h4
      simp at h4
      exact ⟨b, by rw [h4]⟩
  obtain ⟨d, w, hv⟩ : ∃ d w, v.toList = d :: w := by
    rcases hv : v.toList with _ | ⟨d, w⟩
    · exact absurd (String.toList_eq_nil_iff.1 hv) h0
    · exact ⟨d, w, rfl⟩
  have hcd : c ≠ '-' := by rw [hc] at h6; simpa using h6
  have hce : c ≠ '=' := by rintro rfl; rw [hc] at heq; simp at heq
  have hde : d ≠ '=' := by rw [hv] at h1; simpa using h1
  have e : (x.1 ++ v).toList = '-' :: c :: d :: w := by simp [hc, hv]
  -- nothing that begins so, with more than two characters, begins a name
  have hno : ∀ y ∈ optionNames, ∀ t, y.1.toList = '-' :: c :: t → t = [] := by
    intro y hy t h
    rcases (names_ok y hy).2.2.2.2.2.1 with ⟨h3, -⟩ | ⟨-, h3, -⟩
    · rw [h] at h3
      simpa using h3
    · rw [h] at h3
      exact absurd (by simpa using h3) hcd
  have hfn : ∀ t, t ≠ [] → findOption ('-' :: c :: t) = none := fun t ht => findOption_none fun y hy h => ht (hno y hy t h)
  have hpart : ∃ t, t ≠ [] ∧ (partitionEq ('-' :: c :: d :: w)).1 = '-' :: c :: t := by
    rw [partitionEq]
    rcases h : List.dropWhile (· ≠ '=') ('-' :: c :: d :: w) with _ | ⟨a, l⟩
    · exact ⟨d :: w, by simp, rfl⟩
    · refine ⟨d :: w.takeWhile (· ≠ '='), by simp, ?_⟩
      simp [hce, hde]
  obtain ⟨t, ht, hp⟩ := hpart
  have htup : optionTuples ('-' :: c :: d :: w) = [(x.2, some (d :: w))] := by
    rw [optionTuples, if_neg (by simpa using hcd)]
    have : optionNames.filterMap (fun y => if y.1.toList = ['-', c] then some (y.2, some (d :: w)) else if ('-' :: c :: d :: w).isPrefixOf y.1.toList then some (y.2, none) else none) =
        (optionNames.filter fun y => y.1 = x.1).map fun y => (y.2, some (d :: w)) := by
      rw [← List.filterMap_eq_map, List.filterMap_filter]
      refine List.filterMap_congr fun y hy => ?_
      by_cases hxy : y.1 = x.1
      · simp [hxy, hc]
      · have h2 : y.1.toList ≠ ['-', c] := fun h => hxy (String.toList_injective (h.trans hc.symm))
        have h3 : ('-' :: c :: d :: w).isPrefixOf y.1.toList = false := by
          rw [Bool.eq_false_iff, ne_eq, List.isPrefixOf_iff_prefix]
          rintro ⟨t, ht⟩
          have := hno y hy (d :: w ++ t) (by rw [← ht]; simp)
          simp at this
        simp [hxy, h2, h3]
    simpa [huniq] using this
  simp only [classify, e, hfn _ (List.cons_ne_nil d w), hp, hfn t ht, htup]
  rw [if_neg (by simp)]
  simp [← hv]

theorem classify_operand {s : String} (h : Operand s) : classify s = some (.arg s) := by
  rcases h with h | ⟨ds, h0, rfl⟩
  · have h0 : s.toList ≠ ['-', '-'] := fun h' => h (by rw [h']; rfl)
    simp [classify, h0, h]
  · obtain ⟨d, ds, rfl⟩ := List.exists_cons_of_ne_nil h0
    have hd : (digitText d).isDigit = true := digitText_isDigit d
    have hall : ∀ c ∈ (d :: ds).map digitText, c.isDigit = true := by
      intro c hc
      obtain ⟨x, -, rfl⟩ := List.mem_map.1 hc
      exact digitText_isDigit x
    have hne : digitText d ≠ '-' := by rintro h; rw [h] at hd; exact absurd hd (by decide)
    have heq : '=' ∉ '-' :: (d :: ds).map digitText := by
      simp only [List.mem_cons, not_or]
      refine ⟨by decide, fun h => ?_⟩
      exact absurd (hall _ (by simpa using h)) (by decide)
    have hname : ∀ y ∈ optionNames, ∀ t, y.1.toList ≠ '-' :: digitText d :: t := by
      intro y hy t h
      rcases (names_ok y hy).2.2.2.2.2.1 with ⟨-, -, h3⟩ | ⟨-, h3, -⟩
      · have := h3 (digitText d) (by rw [h]; simp)
        rw [hd] at this
        simp at this
      · rw [h] at h3
        exact hne (by simpa using h3)
    have hfn : findOption ('-' :: (d :: ds).map digitText) = none := findOption_none fun y hy h => hname y hy _ h
    have htup : optionTuples ('-' :: (d :: ds).map digitText) = [] := by
      rw [optionTuples, if_neg (by simpa using hne), List.filterMap_eq_nil_iff]
      intro y hy
      have h1 : y.1.toList ≠ ('-' :: (d :: ds).map digitText).take 2 := by
        simpa using hname y hy []
      have h2 : ('-' :: (d :: ds).map digitText).isPrefixOf y.1.toList = false := by
        rw [Bool.eq_false_iff, ne_eq, List.isPrefixOf_iff_prefix]
        rintro ⟨t, ht⟩
        exact hname y hy (ds.map digitText ++ t) (by rw [← ht]; simp)
      rw [if_neg h1, h2]
      rfl
    have hneg : negativeNumber ('-' :: (d :: ds).map digitText) = true := by
      have : ((d :: ds).map digitText).dropWhile Char.isDigit = [] := dropWhile_all hall
      rw [negativeNumber]
      simp only [this]
      simp
    have h0 : '-' :: (d :: ds).map digitText ≠ ['-', '-'] := by
      simp [hne]
    simp only [classify, String.toList_ofList, if_neg h0, hfn, partitionEq_none heq, htup, hneg]
    simp

theorem classify_unknown {s : String} (h : UnknownOption s) : classify s = some .unknown := by
  obtain ⟨name, hd, hl, heq, hsp, hs, hno⟩ := h
  have hnames : ∀ y ∈ optionNames, ¬ name <+: y.1.toList := by
    intro y hy h
    rcases (names_ok y hy).2.2.2.2.2.1 with ⟨h3, -⟩ | ⟨-, -, h3⟩
    · have := h.length_le
      omega
    · exact hno _ h3 h
  have hfn : findOption name = none := findOption_none fun y hy h => hnames y hy (by rw [h])
  have hpre : name <+: s.toList := by
    rcases hs with h | ⟨v, h⟩ <;> rw [h]
    exact ⟨_, rfl⟩
  have hfs : findOption s.toList = none := findOption_none fun y hy h => hnames y hy (by rw [h]; exact hpre)
  have hp : (partitionEq s.toList).1 = name := by
    rcases hs with h | ⟨v, h⟩ <;> rw [h]
    · rw [partitionEq_none heq]
    · rw [partitionEq_some heq]
  obtain ⟨t, rfl⟩ := hd
  obtain ⟨u, hu⟩ := hpre
  have hsec : s.toList[1]? = some '-' := by rw [← hu]; rfl
  have hhead : s.toList.head? = some '-' := by rw [← hu]; rfl
  have htup : optionTuples s.toList = [] := by
    rw [optionTuples, if_pos hsec, hp, List.map_eq_nil_iff, List.filter_eq_nil_iff]
    intro y hy
    rw [List.isPrefixOf_iff_prefix]
    exact hnames y hy
  have h0 : s.toList ≠ ['-', '-'] := by
    rintro h
    rw [h] at hu
    have := congrArg List.length hu
    simp only [List.length_append, List.length_cons, List.length_nil] at this hl
    omega
  have hlen : s.toList.length ≠ 1 := by
    rw [← hu]; simp
  have hneg : negativeNumber s.toList = false := by
    rw [← hu]
    rfl
  simp only [classify, if_neg h0, hhead, hfs, if_neg hlen, hp, hfn, htup, hneg, if_neg hsp]
  simp

/-! ### Values -/

theorem pyInt_writes {s : String} {n : ℤ} (h : WritesInt s n) : pyInt s.toList = some n := by
  obtain ⟨sg, ds, h0, rfl, rfl⟩ := h
  obtain ⟨d, ds, rfl⟩ := List.exists_cons_of_ne_nil h0
  have hall : ∀ c ∈ (d :: ds).map digitText, c.isDigit = true := by
    intro c hc
    obtain ⟨x, -, rfl⟩ := List.mem_map.1 hc
    exact digitText_isDigit x
  have hws : ∀ c ∈ sg.text ++ (d :: ds).map digitText, isWs c = false := by
    intro c hc
    rcases List.mem_append.1 hc with hc | hc
    · cases sg <;> simp [Sign.text] at hc <;> subst hc <;> decide
    · have := hall c hc
      rcases h : isWs c with _ | _
      · rfl
      · simp only [isWs, decide_eq_true_eq] at h
        rcases h with rfl | rfl | rfl | rfl | rfl | rfl <;> exact absurd this (by decide)
  have hstrip : strip (sg.text ++ (d :: ds).map digitText) = sg.text ++ (d :: ds).map digitText := by
    have key : ∀ l : List Char, (∀ c ∈ l, isWs c = false) → l.dropWhile isWs = l := by
      intro l hl
      cases l with
      | nil => rfl
      | cons a l => rw [List.dropWhile_cons_of_neg (by simp [hl a (by simp)])]
    rw [strip, key _ hws, key _ (fun c hc => hws c (List.mem_reverse.1 hc)), List.reverse_reverse]
  have hd : digitPart false [] ((d :: ds).map digitText) = some ((d :: ds).map Fin.val) := by
    simpa using digitPart_digits (d :: ds) false [] (Or.inl (by simp))
  have h1 : digitText d ≠ '+' := fun h => absurd (h ▸ digitText_isDigit d) (by decide)
  have h2 : digitText d ≠ '-' := fun h => absurd (h ▸ digitText_isDigit d) (by decide)
  have hts : takeSign (sg.text ++ (d :: ds).map digitText) = (decide (sg = .minus), (d :: ds).map digitText) := by
    cases sg
    · simp only [Sign.text, List.nil_append, List.map_cons]
      unfold takeSign
      split
      · rename_i h
        simp only [List.cons.injEq] at h
        exact absurd h.1 h1
      · rename_i h
        simp only [List.cons.injEq] at h
        exact absurd h.1 h2
      · rfl
    · rfl
    · rfl
  rw [pyInt, String.toList_ofList, hstrip, hts, hd, Option.map_some, natOf_digits]
  cases sg <;> simp [Sign.value]

/-- The key of an option in the namespace. -/
def Setting.key : Setting → String
  | .outpath _ => "outpath"
  | .format _ => "format"
  | .by_ _ => "by"
  | .k _ => "k"
  | .nearest _ => "nearest"
  | .supressWarnings => "supress_warnings"
  | .reader _ => "reader"
  | .removeHydrogens => "remove_hydrogens"
  | .disorder _ => "disorder"
  | .heaviestComponent => "heaviest_component"
  | .molecularCentres => "molecular_centres"
  | .csdRefcodes => "csd_refcodes"
  | .refcodeFamilies => "refcode_families"
  | .collapseTol _ => "collapse_tol"
  | .metric _ => "metric"
  | .nJobs _ => "n_jobs"
  | .backend _ => "backend"
  | .verbose => "verbose"
  | .lowMemory => "low_memory"

/-- Its value in the namespace. -/
def Setting.val : Setting → CliVal
  | .outpath s => .str s
  | .format s => .str s
  | .by_ s => .str s
  | .k n => .int n
  | .nearest n => .int n
  | .reader s => .str s
  | .disorder s => .str s
  | .collapseTol x => .float (.num x)
  | .metric s => .str s
  | .nJobs n => .int n
  | .backend s => .str s
  | _ => .bool true

theorem names_facts : ∀ y ∈ [("--outpath", "outpath", ["-o"], ValueKind.str), ("--format", "format", ["-f"], .str), ("--by", "by", ["-b"], .str), ("--k", "k", ["-k"], .int),
    ("--nearest", "nearest", ["-n"], .int), ("--supress_warnings", "supress_warnings", [], .flag), ("--reader", "reader", ["-r"], .str),
    ("--remove_hydrogens", "remove_hydrogens", [], .flag), ("--disorder", "disorder", [], .str), ("--heaviest_component", "heaviest_component", [], .flag),
    ("--molecular_centres", "molecular_centres", [], .flag), ("--csd_refcodes", "csd_refcodes", [], .flag), ("--refcode_families", "refcode_families", [], .flag),
    ("--collapse_tol", "collapse_tol", [], .float), ("--metric", "metric", [], .str), ("--n_jobs", "n_jobs", [], .int), ("--backend", "backend", [], .str),
    ("--verbose", "verbose", [], .flag), ("--low_memory", "low_memory", [], .flag)],
    ∃ o ∈ cliOptions, (y.1, o) ∈ optionNames ∧ o.dest = y.2.1 ∧ (∀ s ∈ y.2.2.1, (s, o) ∈ optionNames ∧ s.toList.length = 2) ∧ o.kind = y.2.2.2 ∧
      o.choices = (if y.1 = "--by" then some ["AMD", "PDD"] else if y.1 = "--reader" then some ["gemmi", "pymatgen", "ase", "pycodcif", "ccdc"] else
        if y.1 = "--disorder" then some ["skip", "ordered_sites", "all_sites"] else none) := by decide +kernel

/-- What an option is and does. -/
theorem setting_facts (s : Setting) : ∃ o, (s.long, o) ∈ optionNames ∧ (∀ t, s.short = some t → (t, o) ∈ optionNames ∧ t.toList.length = 2) ∧
    ∀ v, s.Text v → (v = none ∧ o.kind = .flag ∧ o.dest = s.key ∧ s.val = .bool true) ∨
      ∃ t, v = some t ∧ o.kind ≠ .flag ∧ o.kind ≠ .help ∧ ∀ ns, storeValue o t ns = .ok ((s.key, s.val) :: ns) := by
  have key := names_facts
  have plain : ∀ {long key : String} {shorts : List String} {kind : ValueKind} {ch : Option (List String)}, (∃ o ∈ cliOptions, (long, o) ∈ optionNames ∧ o.dest = key ∧
      (∀ s ∈ shorts, (s, o) ∈ optionNames ∧ s.toList.length = 2) ∧ o.kind = kind ∧ o.choices = ch) → s.long = long → (∀ t, s.short = some t → t ∈ shorts) → s.key = key →
      (∀ v, s.Text v → (v = none ∧ kind = .flag ∧ s.val = .bool true) ∨ ∃ t, v = some t ∧ kind ≠ .flag ∧ kind ≠ .help ∧ readValue kind t = some s.val ∧
        (∀ l, ch = some l → ∃ x ∈ l, s.val = .str x)) →
      ∃ o, (s.long, o) ∈ optionNames ∧ (∀ t, s.short = some t → (t, o) ∈ optionNames ∧ t.toList.length = 2) ∧
        ∀ v, s.Text v → (v = none ∧ o.kind = .flag ∧ o.dest = s.key ∧ s.val = .bool true) ∨
          ∃ t, v = some t ∧ o.kind ≠ .flag ∧ o.kind ≠ .help ∧ ∀ ns, storeValue o t ns = .ok ((s.key, s.val) :: ns) := by
    rintro long key shorts kind ch ⟨o, -, h1, h2, h3, rfl, rfl⟩ rfl hs rfl hv
    refine ⟨o, h1, fun t ht => h3 t (hs t ht), fun v ht => ?_⟩
    rcases hv v ht with ⟨rfl, h4, h5⟩ | ⟨t, rfl, h4, h5, h6, h7⟩
    · exact Or.inl ⟨rfl, h4, h2, h5⟩
    · refine Or.inr ⟨t, rfl, h4, h5, fun ns => ?_⟩
      have ha : o.allows s.val = true := by
        rcases hc : o.choices with _ | l
        · rw [OptDecl.allows, hc]
        · obtain ⟨x, hx, hxv⟩ := h7 l hc
          rw [OptDecl.allows, hc]
          simp only [List.any_eq_true, decide_eq_true_eq]
          exact ⟨x, hx, hxv⟩
      rw [storeValue, h6]
      simp only [ha, if_true, h2]
  cases s with
  | outpath s =>
    refine plain (key ("--outpath", "outpath", ["-o"], .str) (by simp)) rfl (by simp [Setting.short]) rfl fun v hv => Or.inr ⟨s, hv, by simp, by simp, rfl, by simp⟩
  | format s =>
    refine plain (key ("--format", "format", ["-f"], .str) (by simp)) rfl (by simp [Setting.short]) rfl fun v hv => Or.inr ⟨s, hv, by simp, by simp, rfl, by simp⟩
  | by_ s =>
    refine plain (key ("--by", "by", ["-b"], .str) (by simp)) rfl (by simp [Setting.short]) rfl fun v hv => Or.inr ⟨s, hv.1, by simp, by simp, rfl, ?_⟩
    rintro l hl
    rw [if_pos rfl, Option.some.injEq] at hl
    exact ⟨s, hl ▸ hv.2, rfl⟩
  | k n =>
    refine plain (key ("--k", "k", ["-k"], .int) (by simp)) rfl (by simp [Setting.short]) rfl fun v hv => ?_
    obtain ⟨t, rfl, ht⟩ := hv
    exact Or.inr ⟨t, rfl, by simp, by simp, by simp [readValue, pyInt_writes ht, Setting.val], by simp⟩
  | nearest n =>
    refine plain (key ("--nearest", "nearest", ["-n"], .int) (by simp)) rfl (by simp [Setting.short]) rfl fun v hv => ?_
    obtain ⟨t, rfl, ht⟩ := hv
    exact Or.inr ⟨t, rfl, by simp, by simp, by simp [readValue, pyInt_writes ht, Setting.val], by simp⟩
  | supressWarnings =>
    exact plain (key ("--supress_warnings", "supress_warnings", [], .flag) (by simp)) rfl (by simp [Setting.short]) rfl fun v hv => Or.inl ⟨hv, rfl, rfl⟩
  | reader s =>
    refine plain (key ("--reader", "reader", ["-r"], .str) (by simp)) rfl (by simp [Setting.short]) rfl fun v hv => Or.inr ⟨s, hv.1, by simp, by simp, rfl, ?_⟩
    rintro l hl
    rw [if_neg (by decide), if_pos rfl, Option.some.injEq] at hl
    exact ⟨s, hl ▸ hv.2, rfl⟩
  | removeHydrogens =>
    exact plain (key ("--remove_hydrogens", "remove_hydrogens", [], .flag) (by simp)) rfl (by simp [Setting.short]) rfl fun v hv => Or.inl ⟨hv, rfl, rfl⟩
  | disorder s =>
    refine plain (key ("--disorder", "disorder", [], .str) (by simp)) rfl (by simp [Setting.short]) rfl fun v hv => Or.inr ⟨s, hv.1, by simp, by simp, rfl, ?_⟩
    rintro l hl
    rw [if_neg (by decide), if_neg (by decide), if_pos rfl, Option.some.injEq] at hl
    exact ⟨s, hl ▸ hv.2, rfl⟩
  | heaviestComponent =>
    exact plain (key ("--heaviest_component", "heaviest_component", [], .flag) (by simp)) rfl (by simp [Setting.short]) rfl fun v hv => Or.inl ⟨hv, rfl, rfl⟩
  | molecularCentres =>
    exact plain (key ("--molecular_centres", "molecular_centres", [], .flag) (by simp)) rfl (by simp [Setting.short]) rfl fun v hv => Or.inl ⟨hv, rfl, rfl⟩
  | csdRefcodes =>
    exact plain (key ("--csd_refcodes", "csd_refcodes", [], .flag) (by simp)) rfl (by simp [Setting.short]) rfl fun v hv => Or.inl ⟨hv, rfl, rfl⟩
  | refcodeFamilies =>
    exact plain (key ("--refcode_families", "refcode_families", [], .flag) (by simp)) rfl (by simp [Setting.short]) rfl fun v hv => Or.inl ⟨hv, rfl, rfl⟩
  | collapseTol x =>
    refine plain (key ("--collapse_tol", "collapse_tol", [], .float) (by simp)) rfl (by simp [Setting.short]) rfl fun v hv => ?_
    obtain ⟨n, hn, rfl, rfl⟩ := hv
    exact Or.inr ⟨_, rfl, by simp, by simp, by simp [readValue, pyFloat_numeral hn, Setting.val], by simp⟩
  | metric s =>
    refine plain (key ("--metric", "metric", [], .str) (by simp)) rfl (by simp [Setting.short]) rfl fun v hv => Or.inr ⟨s, hv, by simp, by simp, rfl, by simp⟩
  | nJobs n =>
    refine plain (key ("--n_jobs", "n_jobs", [], .int) (by simp)) rfl (by simp [Setting.short]) rfl fun v hv => ?_
    obtain ⟨t, rfl, ht⟩ := hv
    exact Or.inr ⟨t, rfl, by simp, by simp, by simp [readValue, pyInt_writes ht, Setting.val], by simp⟩
  | backend s =>
    refine plain (key ("--backend", "backend", [], .str) (by simp)) rfl (by simp [Setting.short]) rfl fun v hv => Or.inr ⟨s, hv, by simp, by simp, rfl, by simp⟩
  | verbose =>
    exact plain (key ("--verbose", "verbose", [], .flag) (by simp)) rfl (by simp [Setting.short]) rfl fun v hv => Or.inl ⟨hv, rfl, rfl⟩
  | lowMemory =>
    exact plain (key ("--low_memory", "low_memory", [], .flag) (by simp)) rfl (by simp [Setting.short]) rfl fun v hv => Or.inl ⟨hv, rfl, rfl⟩

/-! ### The loop -/

/-- The arguments of an option with a value are one token with the value, or the option and the value. -/
theorem spelling_toks {long : String} {short : Option String} {o : OptDecl} (h1 : (long, o) ∈ optionNames) (h2 : ∀ t, short = some t → (t, o) ∈ optionNames ∧ t.toList.length = 2)
    {v : Option String} {l : List String} (h : Spelling long short v l) :
    (v = none ∧ l.mapM classify = some [.opt o none]) ∨ ∃ t, v = some t ∧ (l.mapM classify = some [.opt o none, .arg t] ∨ t ≠ "--" ∧ l.mapM classify = some [.opt o (some t)]) := by
  cases h with
  | flag p h => exact Or.inl ⟨rfl, by simp [classify_abbreviation h1 h]⟩
  | separate p v h hv => exact Or.inr ⟨v, rfl, Or.inl (by simp [classify_abbreviation h1 h, classify_operand hv])⟩
  | joined p v h hd => exact Or.inr ⟨v, rfl, Or.inr ⟨hd, (by simp [classify_abbreviation_eq h1 h])⟩⟩
  | shortSeparate s v h hv => exact Or.inr ⟨v, rfl, Or.inl (by simp [classify_name (h2 s h).1, classify_operand hv])⟩
  | shortEquals s v h hd => exact Or.inr ⟨v, rfl, Or.inr ⟨hd, (by simp [classify_name_eq (h2 s h).1])⟩⟩
  | shortJoined s v h h0 h1' hd => exact Or.inr ⟨v, rfl, Or.inr ⟨hd, (by simp [classify_short (h2 s h).1 (h2 s h).2 h0 h1'])⟩⟩

theorem consume_value {o : OptDecl} {t : String} (hf : o.kind ≠ .flag) (hh : o.kind ≠ .help) (rest : List CliTok) (st : ParseState) :
    (t ≠ "--" → consumeToks (.opt o (some t) :: rest) st = (match storeValue o t st.ns with
      | .error e => .error e
      | .ok ns => consumeToks rest { st.close with ns := ns })) ∧
    consumeToks (.opt o none :: .arg t :: rest) st = (match storeValue o t st.ns with
      | .error e => .error e
      | .ok ns => consumeToks rest { st.close with ns := ns }) := by
  rcases hk : o.kind with _ | _ | _ | _ | _
  · refine ⟨fun hd => ?_, ?_⟩
    · rw [consumeToks]; simp only [hk, if_neg hd]; cases storeValue o t st.ns <;> rfl
    · rw [consumeToks]; simp only [hk]; cases storeValue o t st.ns <;> rfl
  · refine ⟨fun hd => ?_, ?_⟩
    · rw [consumeToks]; simp only [hk, if_neg hd]; cases storeValue o t st.ns <;> rfl
    · rw [consumeToks]; simp only [hk]; cases storeValue o t st.ns <;> rfl
  · refine ⟨fun hd => ?_, ?_⟩
    · rw [consumeToks]; simp only [hk, if_neg hd]; cases storeValue o t st.ns <;> rfl
    · rw [consumeToks]; simp only [hk]; cases storeValue o t st.ns <;> rfl
  · exact absurd hk hf
  · exact absurd hk hh

/-- An option sets its key and completes the run of operands. -/
theorem spelling_consume {s : Setting} {v : Option String} {l : List String} (ht : s.Text v) (h : Spelling s.long s.short v l) :
    ∃ ts, l.mapM classify = some ts ∧ .separator ∉ ts ∧ ∀ rest st, consumeToks (ts ++ rest) st = consumeToks rest { st.close with ns := (s.key, s.val) :: st.ns } := by
  obtain ⟨o, h1, h2, h3⟩ := setting_facts s
  rcases spelling_toks h1 h2 h with ⟨rfl, hl⟩ | ⟨t, rfl, hl⟩
  · rcases h3 _ ht with ⟨-, hk, hd, hval⟩ | ⟨t, h', -⟩
    · refine ⟨_, hl, by simp, fun rest st => ?_⟩
      rw [List.singleton_append, consumeToks.eq_def]
      simp only [hk, hd, hval]
    · simp at h'
  · rcases h3 _ ht with ⟨h', -⟩ | ⟨t', h', hf, hh, hst⟩
    · simp at h'
    · simp only [Option.some.injEq] at h'
      subst h'
      rcases hl with hl | ⟨hd, hl⟩
      · exact ⟨_, hl, by simp, fun rest st => by rw [List.cons_append, List.singleton_append, (consume_value hf hh rest st).2, hst]⟩
      · exact ⟨_, hl, by simp, fun rest st => by rw [List.singleton_append, (consume_value hf hh rest st).1 hd, hst]⟩

/-- The namespace after options. -/
def pushSettings (ss : List Setting) (ns : CliNamespace) : CliNamespace := ss.foldl (fun ns s => (s.key, s.val) :: ns) ns

theorem mapM_append_some {α β : Type} {f : α → Option β} {l l' : List α} {a b : List β} (h : l.mapM f = some a) (h' : l'.mapM f = some b) : (l ++ l').mapM f = some (a ++ b) := by
  rw [List.mapM_append, h, h']
  rfl

theorem options_consume {ss : List Setting} {l : List String} (h : Options ss l) : ∃ ts, l.mapM classify = some ts ∧ .separator ∉ ts ∧ ∀ rest st,
    consumeToks (ts ++ rest) st = consumeToks rest { (if ss = [] then st else st.close) with ns := pushSettings ss st.ns } := by
  induction h with
  | nil => exact ⟨[], rfl, by simp, fun rest st => by simp [pushSettings]⟩
  | cons ht hs h ih =>
    rename_i s v l l' ss
    obtain ⟨ts, e1, n1, e2⟩ := spelling_consume ht hs
    obtain ⟨ts', e3, n2, e4⟩ := ih
    refine ⟨ts ++ ts', mapM_append_some e1 e3, by simp [n1, n2], fun rest st => ?_⟩
    rw [List.append_assoc, e2, e4]
    congr 1
    rw [if_neg (List.cons_ne_nil _ _)]
    by_cases hss : ss = []
    · simp [hss, pushSettings]
    · rw [if_neg hss]
      simp [pushSettings, ParseState.close]

theorem paths_consume {ps : List String} (h : ∀ p ∈ ps, Operand p) : ps.mapM classify = some (ps.map .arg) ∧ ∀ rest st,
    consumeToks (ps.map .arg ++ rest) st = consumeToks rest (if st.closed then { st with extras := st.extras || !ps.isEmpty } else { st with paths := st.paths ++ ps }) := by
  induction ps with
  | nil => exact ⟨rfl, fun rest st => by simp⟩
  | cons p ps ih =>
    obtain ⟨e1, e2⟩ := ih fun q hq => h q (by simp [hq])
    refine ⟨by rw [List.mapM_cons, classify_operand (h p (by simp)), e1]; rfl, fun rest st => ?_⟩
    rw [List.map_cons, List.cons_append, consumeToks, e2]
    congr 1
    by_cases hc : st.closed = true <;> simp [hc]

/-- Arguments before the first `--` are classified one by one. -/
theorem tokens_append {l : List String} {ts : List CliTok} (h : l.mapM classify = some ts) (hs : .separator ∉ ts) (r : List String) : tokens (l ++ r) = (tokens r).map (ts ++ ·) := by
  induction l generalizing ts with
  | nil =>
    simp only [List.mapM_nil, Option.pure_def, Option.some.injEq] at h
    subst h
    simp
  | cons s l ih =>
    simp only [List.mapM_cons, Option.pure_def, Option.bind_eq_bind, Option.bind_eq_some_iff, Option.some.injEq] at h
    obtain ⟨t, ht, ts, hts, rfl⟩ := h
    simp only [List.mem_cons, not_or] at hs
    have ih := ih hts hs.2
    rw [List.cons_append, tokens, ht]
    cases t with
    | separator => exact absurd rfl hs.1
    | _ => simp only [ih, Option.map_map]; rfl

theorem tokens_all {l : List String} {ts : List CliTok} (h : l.mapM classify = some ts) (hs : .separator ∉ ts) : tokens l = some ts := by
  have := tokens_append h hs []
  rw [List.append_nil] at this
  rw [this]
  simp [tokens]

theorem tokens_separator (r : List String) : tokens ("--" :: r) = some (.separator :: r.map .arg) := by
  have h : classify "--" = some .separator := by decide +kernel
  rw [tokens, h]

/-- What follows `--`. -/
theorem operands_consume (ps : List String) (st : ParseState) (rest : List CliTok) :
    consumeToks (ps.map .arg ++ rest) st = consumeToks rest (if st.closed then { st with extras := st.extras || !ps.isEmpty } else { st with paths := st.paths ++ ps }) := by
  induction ps generalizing st with
  | nil => simp
  | cons p ps ih =>
    rw [List.map_cons, List.cons_append, consumeToks, ih]
    congr 1
    by_cases hc : st.closed = true <;> simp [hc]

/-! ### The namespace -/

/-- The namespace has these values. -/
structure Holds (ns : CliNamespace) (a : CliArgs) : Prop where
  outpath : ns.lookup "outpath" = some (match a.outpath with | some s => .str s | none => .none)
  format : ns.lookup "format" = some (.str a.format)
  by_ : ns.lookup "by" = some (.str a.by_)
  k : ∃ z : ℤ, ns.lookup "k" = some (.int z) ∧ z.toNat = a.k
  nearest : ns.lookup "nearest" = some (match a.nearest with | some n => .int n | none => .none)
  supressWarnings : ns.lookup "supress_warnings" = some (.bool a.supressWarnings)
  reader : ns.lookup "reader" = some (.str a.reader)
  removeHydrogens : ns.lookup "remove_hydrogens" = some (.bool a.removeHydrogens)
  disorder : ns.lookup "disorder" = some (.str a.disorder)
  heaviestComponent : ns.lookup "heaviest_component" = some (.bool a.heaviestComponent)
  molecularCentres : ns.lookup "molecular_centres" = some (.bool a.molecularCentres)
  csdRefcodes : ns.lookup "csd_refcodes" = some (.bool a.csdRefcodes)
  refcodeFamilies : ns.lookup "refcode_families" = some (.bool a.refcodeFamilies)
  collapseTol : ∃ q : ℚ, ns.lookup "collapse_tol" = some (.float (.num q)) ∧ (q : ℝ) = a.collapseTol
  metric : ns.lookup "metric" = some (.str a.metric)
  nJobs : ns.lookup "n_jobs" = some (.int a.nJobs)
  backend : ns.lookup "backend" = some (.str a.backend)
  verbose : ns.lookup "verbose" = some (.bool a.verbose)
  lowMemory : ns.lookup "low_memory" = some (.bool a.lowMemory)

theorem defaults_lookup : ∀ x ∈ [("outpath", CliVal.none), ("format", .str "csv"), ("by", .str "AMD"), ("k", .int 100), ("nearest", .none), ("supress_warnings", .bool false),
    ("reader", .str "gemmi"), ("remove_hydrogens", .bool false), ("disorder", .str "skip"), ("heaviest_component", .bool false), ("molecular_centres", .bool false),
    ("csd_refcodes", .bool false), ("refcode_families", .bool false), ("collapse_tol", .float (.num (1 / 10000))), ("metric", .str "chebyshev"), ("n_jobs", .int 1),
    ("backend", .str "multiprocessing"), ("verbose", .bool false), ("low_memory", .bool false)], cliDefaults.lookup x.1 = some x.2 := by decide +kernel

theorem holds_defaults (paths : List String) : Holds cliDefaults { paths := paths } where
  outpath := defaults_lookup ("outpath", .none) (by simp)
  format := defaults_lookup ("format", .str "csv") (by simp)
  by_ := defaults_lookup ("by", .str "AMD") (by simp)
  k := ⟨_, defaults_lookup ("k", .int 100) (by simp), rfl⟩
  nearest := defaults_lookup ("nearest", .none) (by simp)
  supressWarnings := defaults_lookup ("supress_warnings", .bool false) (by simp)
  reader := defaults_lookup ("reader", .str "gemmi") (by simp)
  removeHydrogens := defaults_lookup ("remove_hydrogens", .bool false) (by simp)
  disorder := defaults_lookup ("disorder", .str "skip") (by simp)
  heaviestComponent := defaults_lookup ("heaviest_component", .bool false) (by simp)
  molecularCentres := defaults_lookup ("molecular_centres", .bool false) (by simp)
  csdRefcodes := defaults_lookup ("csd_refcodes", .bool false) (by simp)
  refcodeFamilies := defaults_lookup ("refcode_families", .bool false) (by simp)
  collapseTol := ⟨_, defaults_lookup ("collapse_tol", .float (.num (1 / 10000))) (by simp), by norm_num⟩
  metric := defaults_lookup ("metric", .str "chebyshev") (by simp)
  nJobs := defaults_lookup ("n_jobs", .int 1) (by simp)
  backend := defaults_lookup ("backend", .str "multiprocessing") (by simp)
  verbose := defaults_lookup ("verbose", .bool false) (by simp)
  lowMemory := defaults_lookup ("low_memory", .bool false) (by simp)

theorem Holds.apply {ns : CliNamespace} {a : CliArgs} (h : Holds ns a) (s : Setting) : Holds ((s.key, s.val) :: ns) (s.apply a) := by
  obtain ⟨h1, h2, h3, ⟨z, h4, h4'⟩, h5, h6, h7, h8, h9, h10, h11, h12, h13, ⟨q, h14, h14'⟩, h15, h16, h17, h18, h19⟩ := h
  cases s <;> constructor <;> simp [Setting.key, Setting.val, Setting.apply, List.lookup_cons, *]

theorem holds_settings (ss : List Setting) {ns : CliNamespace} {a : CliArgs} (h : Holds ns a) : Holds (pushSettings ss ns) (ss.foldl (fun a s => s.apply a) a) := by
  induction ss generalizing ns a with
  | nil => exact h
  | cons s ss ih => exact ih (h.apply s)

theorem apply_paths (s : Setting) (a : CliArgs) : (s.apply a).paths = a.paths := by cases s <;> rfl

theorem settings_paths (ss : List Setting) (a : CliArgs) : (ss.foldl (fun a s => s.apply a) a).paths = a.paths := by
  induction ss generalizing a with
  | nil => rfl
  | cons s ss ih => rw [List.foldl_cons, ih, apply_paths]

theorem Holds.args {ns : CliNamespace} {a : CliArgs} (h : Holds ns a) : cliArgs a.paths ns = .ok a := by
  obtain ⟨h1, h2, h3, ⟨z, h4, h4'⟩, h5, h6, h7, h8, h9, h10, h11, h12, h13, ⟨q, h14, h14'⟩, h15, h16, h17, h18, h19⟩ := h
  obtain ⟨paths, outpath, format, by_, k, nearest, sw, reader, rh, disorder, hc, mc, cr, rf, tol, metric, nj, backend, verbose, lm⟩ := a
  simp only at *
  subst h14' h4'
  rcases outpath with _ | o <;> rcases nearest with _ | n <;>
    simp [cliArgs, CliNamespace.str, CliNamespace.flag, CliNamespace.int, CliNamespace.rat, *] <;> rfl

theorem settings_k (ss : List Setting) {ns : CliNamespace} {z : ℤ} (h : ns.lookup "k" = some (.int z)) :
    (pushSettings ss ns).lookup "k" = some (.int (ss.foldl (fun z s => match s with | .k n => n | _ => z) z)) := by
  induction ss generalizing ns z with
  | nil => exact h
  | cons s ss ih =>
    refine ih ?_
    cases s <;> simp [Setting.key, Setting.val, List.lookup_cons, h]

theorem settings_toNat (ss : List Setting) {a : CliArgs} {z : ℤ} (h : a.k = z.toNat) :
    (ss.foldl (fun a s => s.apply a) a).k = (ss.foldl (fun z s => match s with | .k n => n | _ => z) z).toNat := by
  induction ss generalizing a z with
  | nil => exact h
  | cons s ss ih =>
    refine ih ?_
    cases s <;> simp [Setting.apply, h]

end Amd
