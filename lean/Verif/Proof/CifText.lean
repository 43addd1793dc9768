import Verif.Model.CifText
import Verif.Spec.CifText
import Mathlib.Tactic.Ring
import Mathlib.Tactic.FieldSimp
import Mathlib.Tactic.Linarith
import Mathlib.Algebra.BigOperators.Group.List.Basic

/-!
# Lemmas about numerals and symmetry operations
-/

set_option linter.unusedSectionVars false

namespace Amd

/-! ### Characters -/

theorem digitText_isDigit : ∀ d : Fin 10, (digitText d).isDigit = true := by decide

theorem digitText_toNat : ∀ d : Fin 10, (digitText d).toNat - 48 = d.val := by decide

/-- The characters of unsigned numerals. -/
def numChar (c : Char) : Bool := c.isDigit || c == '.'

theorem digitText_ne {c : Char} (hc : c.isDigit = false) (d : Fin 10) : digitText d ≠ c := fun h => by
  have := digitText_isDigit d
  rw [h, hc] at this
  cases this

theorem mem_digits {ds : List (Fin 10)} {c : Char} (h : c ∈ ds.map digitText) : c.isDigit = true := by
  obtain ⟨d, -, rfl⟩ := List.mem_map.1 h
  exact digitText_isDigit d

theorem not_mem_digits {ds : List (Fin 10)} {c : Char} (hc : c.isDigit = false) : c ∉ ds.map digitText := fun h => by
  rw [mem_digits h] at hc; cases hc

theorem Decimal.mem_text {d : Decimal} {c : Char} (h : c ∈ d.text) : c.isDigit = true ∨ c = '.' := by
  rw [Decimal.text, List.mem_append] at h
  rcases h with h | h
  · exact Or.inl (mem_digits h)
  · rcases hd : d.frac with _ | f
    · rw [hd] at h; cases h
    · rw [hd, fracText] at h
      rcases List.mem_cons.1 h with h | h
      · exact Or.inr h
      · exact Or.inl (mem_digits h)

theorem Decimal.WF.text_ne {d : Decimal} (h : d.WF) : d.text ≠ [] := by
  rw [Decimal.text]
  rcases h with h | ⟨f, h, -⟩
  · simp [h]
  · simp [h, fracText]

/-! ### Values of digits -/

theorem natOf_append (a : List ℕ) (d : ℕ) : natOf (a ++ [d]) = 10 * natOf a + d := by simp [natOf]

theorem natOf_digits (ds : List (Fin 10)) : natOf (ds.map Fin.val) = digitsValue ds := by
  induction ds using List.reverseRecOn with
  | nil => rfl
  | append_singleton ds d ih =>
    rw [List.map_append, List.map_singleton, natOf_append, ih, digitsValue, digitsValue, List.reverse_append]
    simp only [List.reverse_singleton, List.singleton_append, List.map_cons, Nat.ofDigits_cons]
    omega

theorem natOf_append_list (a b : List ℕ) : natOf (a ++ b) = natOf a * 10 ^ b.length + natOf b := by
  induction b using List.reverseRecOn with
  | nil => simp [natOf]
  | append_singleton b d ih =>
    rw [← List.append_assoc, natOf_append, ih, natOf_append, List.length_append, List.length_singleton, pow_succ]
    ring

theorem digitPart_digits : ∀ (ds : List (Fin 10)) (b : Bool) (acc : List ℕ), ds ≠ [] ∨ b = true →
    digitPart b acc (ds.map digitText) = some (acc ++ ds.map Fin.val)
  | [], b, acc, h => by
    have : b = true := h.resolve_left (by simp)
    simp [digitPart, this]
  | d :: ds, b, acc, _ => by
    rw [List.map_cons, digitPart, if_pos (digitText_isDigit d), digitPart_digits ds true _ (Or.inr rfl), digitText_toNat]
    simp

theorem takeWhile_ne {c : Char} {a b : List Char} (h : c ∉ a) : (a ++ c :: b).takeWhile (· ≠ c) = a ∧ (a ++ c :: b).dropWhile (· ≠ c) = c :: b := by
  induction a with
  | nil => simp
  | cons x a ih =>
    have hx : x ≠ c := fun hx => h (by simp [hx])
    have := ih fun hc => h (List.mem_cons_of_mem _ hc)
    simp [hx]
    simpa using this

theorem dropWhile_none {p : Char → Bool} {a : List Char} (h : ∀ c ∈ a, p c = true) : a.dropWhile p = [] ∧ a.takeWhile p = a := by
  induction a with
  | nil => simp
  | cons x a ih =>
    have := ih fun c hc => h c (List.mem_cons_of_mem _ hc)
    simp [h x (by simp), this]

theorem mantissa_text {d : Decimal} (h : d.WF) : ∃ a b, mantissa d.text = some (a, b) ∧ ((natOf (a ++ b) : ℕ) : ℚ) / 10 ^ b.length = d.value := by
  have hdot : '.' ∉ d.int.map digitText := not_mem_digits (by decide)
  rcases hf : d.frac with _ | f
  · have ht : d.text = d.int.map digitText := by rw [Decimal.text, hf, fracText]; simp
    have hi : d.int ≠ [] := by
      rcases h with h | ⟨f, h, -⟩
      · exact h
      · rw [hf] at h; cases h
    refine ⟨d.int.map Fin.val, [], ?_, ?_⟩
    · rw [mantissa, ht, (dropWhile_none (fun c hc => ?_)).1, digitPart_digits _ _ _ (Or.inl hi)]
      · rfl
      · have : c ≠ '.' := fun hx => hdot (hx ▸ hc)
        simpa using this
    · rw [List.append_nil, natOf_digits, Decimal.value, hf, fracValue]
      simp
  · have ht : d.text = d.int.map digitText ++ '.' :: f.map digitText := by rw [Decimal.text, hf, fracText]
    obtain ⟨e1, e2⟩ := takeWhile_ne (b := f.map digitText) hdot
    have hval : ∀ a b, a = d.int.map Fin.val → b = f.map Fin.val → ((natOf (a ++ b) : ℕ) : ℚ) / 10 ^ b.length = d.value := by
      rintro a b rfl rfl
      rw [natOf_append_list, natOf_digits, natOf_digits, Decimal.value, hf, fracValue, List.length_map]
      push_cast
      field_simp
    by_cases hi : d.int = []
    · have hfn : f ≠ [] := by
        rcases h with h | ⟨f', h, h'⟩
        · exact absurd hi h
        · rw [hf] at h; cases h; exact h'
      refine ⟨[], f.map Fin.val, ?_, hval _ _ (by simp [hi]) rfl⟩
      rw [mantissa, ht, e2]
      simp only [e1]
      rw [if_pos (by simp [hi]), digitPart_digits _ _ _ (Or.inl hfn)]
      rfl
    · by_cases hfn : f = []
      · refine ⟨d.int.map Fin.val, [], ?_, hval _ _ rfl (by simp [hfn])⟩
        rw [mantissa, ht, e2]
        simp only [e1]
        rw [if_neg (by simp [hi]), if_pos (by simp [hfn]), digitPart_digits _ _ _ (Or.inl hi)]
        rfl
      · refine ⟨d.int.map Fin.val, f.map Fin.val, ?_, hval _ _ rfl rfl⟩
        rw [mantissa, ht, e2]
        simp only [e1]
        rw [if_neg (by simp [hi]), if_neg (by simp [hfn]), digitPart_digits _ _ _ (Or.inl hi), digitPart_digits _ _ _ (Or.inl hfn)]
        rfl

theorem takeSign_text (s : Sign) {l : List Char} (h : ∀ c, l.head? = some c → c ≠ '+' ∧ c ≠ '-') : takeSign (s.text ++ l) = (decide (s = .minus), l) := by
  cases s with
  | none =>
    rcases l with _ | ⟨c, l⟩
    · rfl
    · obtain ⟨h1, h2⟩ := h c rfl
      show takeSign (c :: l) = _
      rw [takeSign]
      · rfl
      · intro cs h; exact h1 (by injection h)
      · intro cs h; exact h2 (by injection h)
  | plus => rfl
  | minus => rfl

theorem exponent_text {e : Exponent} (h : e.digits ≠ []) : exponent (e.sign.text ++ e.digits.map digitText) = some e.value := by
  have hs : takeSign (e.sign.text ++ e.digits.map digitText) = (decide (e.sign = .minus), e.digits.map digitText) := by
    refine takeSign_text _ fun c hc => ?_
    have : c.isDigit = true := mem_digits (List.mem_of_mem_head? hc)
    constructor <;> rintro rfl <;> revert this <;> decide
  rw [exponent, hs, digitPart_digits _ _ _ (Or.inl h), Option.map_some, List.nil_append, natOf_digits, Exponent.value]
  cases e.sign <;> simp [Sign.value]

theorem unsignedFloat_text {d : Decimal} (hd : d.WF) {ex : Option Exponent} (he : ∀ e, ex = some e → e.digits ≠ []) :
    unsignedFloat (d.text ++ exponentText ex) = some (d.value * exponentFactor ex) := by
  have hp : ∀ c ∈ d.text, (decide (c ≠ 'e' ∧ c ≠ 'E')) = true := by
    intro c hc
    have : c ≠ 'e' ∧ c ≠ 'E' := by
      rcases Decimal.mem_text hc with h | rfl
      · constructor <;> rintro rfl <;> revert h <;> decide
      · decide
    simpa using this
  obtain ⟨a, b, h1, h2⟩ := mantissa_text hd
  cases ex with
  | none =>
    rw [exponentText, exponentFactor, List.append_nil, unsignedFloat]
    simp only [(dropWhile_none hp).1, (dropWhile_none hp).2, h1, h2, mul_one]
  | some e =>
    have hx : ∃ x, e.text = x :: (e.sign.text ++ e.digits.map digitText) ∧ decide (x ≠ 'e' ∧ x ≠ 'E') = false := by
      refine ⟨_, rfl, ?_⟩
      cases e.capital <;> decide
    obtain ⟨x, hx1, hx2⟩ := hx
    have e1 : (d.text ++ e.text).takeWhile (fun c => decide (c ≠ 'e' ∧ c ≠ 'E')) = d.text := by
      rw [List.takeWhile_append_of_pos hp, hx1, List.takeWhile_cons]
      simp [hx2]
    have e2 : (d.text ++ e.text).dropWhile (fun c => decide (c ≠ 'e' ∧ c ≠ 'E')) = e.text := by
      rw [List.dropWhile_append_of_pos hp, hx1, List.dropWhile_cons]
      simp [hx2]
    simp only [exponentText, exponentFactor, unsignedFloat, e1, e2, h1, h2]
    rw [hx1]
    simp only [exponent_text (he e rfl), Option.map_some]

theorem strip_of_no_ws {l : List Char} (h : ∀ c ∈ l, isWs c = false) : strip l = l := by
  have key : ∀ l : List Char, (∀ c ∈ l, isWs c = false) → l.dropWhile isWs = l := by
    intro l h
    rcases l with _ | ⟨c, l⟩
    · rfl
    · rw [List.dropWhile_cons, h c (by simp)]; simp
  rw [strip, key l h, key _ (fun c hc => h c (by simpa using hc)), List.reverse_reverse]

theorem Decimal.WF.head {d : Decimal} (h : d.WF) (l : List Char) : ∃ c cs, d.text ++ l = c :: cs ∧ (c.isDigit = true ∨ c = '.') := by
  rcases e : d.text with _ | ⟨c, cs⟩
  · exact absurd e h.text_ne
  · exact ⟨c, cs ++ l, rfl, Decimal.mem_text (by rw [e]; simp)⟩

theorem lower_digit : ∀ c : Char, c.isDigit = true ∨ c = '.' → c.toLower = c := by
  rintro c (h | rfl)
  · have : ¬('A' ≤ c ∧ c ≤ 'Z') := by
      rintro ⟨h1, -⟩
      simp only [Char.isDigit, Bool.and_eq_true, decide_eq_true_eq] at h
      have h2 : c.val ≤ '9'.val := h.2
      have h3 : 'A'.val ≤ c.val := h1
      have := UInt32.le_trans h3 h2
      revert this
      decide
    rw [Char.toLower]
    split
    · rename_i h'
      exact absurd ⟨h'.1, h'.2⟩ this
    · rfl
  · decide

theorem pyFloat_numeral {n : Numeral} (h : n.WF) : pyFloat n.text = some (.num n.value) := by
  obtain ⟨hd, he⟩ := h
  have hws : ∀ c ∈ n.text, isWs c = false := by
    intro c hc
    have : c.isDigit = true ∨ c = '.' ∨ c = '+' ∨ c = '-' ∨ c = 'e' ∨ c = 'E' := by
      have hsign : ∀ s : Sign, c ∈ s.text → c = '+' ∨ c = '-' := by intro s hs; cases s <;> simp [Sign.text] at hs <;> simp [hs]
      rw [Numeral.text, List.mem_append, List.mem_append] at hc
      rcases hc with (hc | hc) | hc
      · have := hsign _ hc; tauto
      · have := Decimal.mem_text hc; tauto
      · rcases hx : n.exponent with _ | e
        · rw [hx] at hc; cases hc
        · rw [hx, exponentText] at hc
          simp only [Exponent.text, List.mem_cons, List.mem_append] at hc
          rcases hc with hc | hc | hc
          · cases e.capital <;> simp [hc]
          · have := hsign _ hc; tauto
          · exact Or.inl (mem_digits hc)
    rcases this with h | rfl | rfl | rfl | rfl | rfl
    · rw [isWs]
      simp only [decide_eq_false_iff_not, not_or]
      refine ⟨?_, ?_, ?_, ?_, ?_, ?_⟩ <;> rintro rfl <;> revert h <;> decide
    all_goals decide
  obtain ⟨c, cs, hc1, hc2⟩ := hd.head (exponentText n.exponent)
  have hs : takeSign n.text = (decide (n.sign = .minus), c :: cs) := by
    rw [Numeral.text, List.append_assoc, ← hc1]
    refine takeSign_text _ fun x hx => ?_
    rw [hc1] at hx
    cases hx
    rcases hc2 with h | rfl
    · constructor <;> rintro rfl <;> revert h <;> decide
    · decide
  have hne : ∀ x y : Char, ∀ l l', x.isDigit = false → x ≠ '.' → (c :: cs).map Char.toLower = l' → l' = x :: l → False := by
    intro x y l l' h1 h2 h3 h4
    rw [← h3, List.map_cons, lower_digit c hc2] at h4
    injection h4 with h4
    rcases hc2 with h | h
    · rw [h4, h1] at h; cases h
    · exact h2 (h4 ▸ h)
  rw [pyFloat, strip_of_no_ws hws, hs]
  simp only
  rw [if_neg, if_neg, ← hc1, unsignedFloat_text hd he, Option.map_some, Numeral.value]
  · cases n.sign <;> simp [Sign.value]
  · exact fun h => hne 'n' 'n' _ _ (by decide) (by decide) rfl h
  · rintro (h | h)
    · exact hne 'i' 'i' _ _ (by decide) (by decide) rfl h
    · exact hne 'i' 'i' _ _ (by decide) (by decide) rfl h

/-! ### Brackets -/

theorem removeBrackets_cons {c : Char} (h : c ≠ '(') (cs : List Char) : removeBrackets (c :: cs) = c :: removeBrackets cs := by
  rw [removeBrackets]
  intro hc
  exact h hc

theorem removeBrackets_append {t : List Char} (h : '(' ∉ t) (l : List Char) : removeBrackets (t ++ l) = t ++ removeBrackets l := by
  induction t with
  | nil => rfl
  | cons c t ih =>
    rw [List.cons_append, removeBrackets_cons (fun hc => h (by simp [hc])), ih fun hc => h (List.mem_cons_of_mem _ hc), List.cons_append]

theorem removeBrackets_bracket {e : List Char} (h : '\n' ∉ e) (hne : e ≠ []) : removeBrackets ('(' :: e) = [] := by
  rw [removeBrackets, if_neg]
  · rw [(dropWhile_none (fun c hc => ?_)).1, removeBrackets]
    have : c ≠ '\n' := fun hx => h (hx ▸ hc)
    simpa using this
  · rintro (h' | h')
    · exact hne h'
    · exact h (List.mem_of_mem_head? h')

theorem removeBrackets_self {t : List Char} (h : '(' ∉ t) : removeBrackets t = t := by
  have := removeBrackets_append h []
  rwa [List.append_nil, removeBrackets, List.append_nil] at this

theorem Numeral.not_mem_text {n : Numeral} {c : Char} (h1 : c.isDigit = false) (h2 : c ∉ ['.', '+', '-', 'e', 'E']) : c ∉ n.text := by
  intro hc
  simp only [List.mem_cons, List.not_mem_nil, or_false, not_or] at h2
  have hsign : ∀ s : Sign, c ∈ s.text → c = '+' ∨ c = '-' := by intro s hs; cases s <;> simp [Sign.text] at hs <;> simp [hs]
  rw [Numeral.text, List.mem_append, List.mem_append] at hc
  rcases hc with (hc | hc) | hc
  · have := hsign _ hc; tauto
  · rcases Decimal.mem_text hc with h | h
    · rw [h1] at h; cases h
    · tauto
  · rcases hx : n.exponent with _ | e
    · rw [hx] at hc; cases hc
    · rw [hx, exponentText] at hc
      simp only [Exponent.text, List.mem_cons, List.mem_append] at hc
      rcases hc with hc | hc | hc
      · cases he : e.capital <;> simp [he] at hc <;> tauto
      · have := hsign _ hc; tauto
      · exact not_mem_digits h1 hc

theorem str2float_numeral {n : Numeral} (h : n.WF) : str2float (String.ofList n.text) = .ok (.num n.value) := by
  rw [str2float, String.toList_ofList, removeBrackets_self (Numeral.not_mem_text (by decide) (by decide)), pyFloat_numeral h]

theorem str2float_bracket {n : Numeral} (h : n.WF) {e : List Char} (he : '\n' ∉ e) :
    str2float (String.ofList (n.text ++ '(' :: (e ++ [')']))) = .ok (.num n.value) := by
  rw [str2float, String.toList_ofList, removeBrackets_append (Numeral.not_mem_text (by decide) (by decide)),
    removeBrackets_bracket (by simp [he]) (by simp), List.append_nil, pyFloat_numeral h]

/-! ### Symmetry operations -/

theorem joinFloat_decimal {d : Decimal} (h : d.WF) : joinFloat d.text = .ok d.value := by
  have := pyFloat_numeral (n := ⟨.none, d, none⟩) ⟨h, fun e he => by cases he⟩
  rw [Numeral.text, Numeral.value] at this
  simp only [Sign.text, exponentText, exponentFactor, List.nil_append, List.append_nil, Sign.value, Int.cast_one, one_mul, mul_one] at this
  rw [joinFloat, this]

theorem axisOf_num {c : Char} (h : c.isDigit = true ∨ c = '.') : axisOf c = none := by
  rw [axisOf, if_neg, if_neg, if_neg]
  all_goals
    rintro rfl
    revert h
    decide

/-- The effect of a number on the state. -/
theorem foldl_num : ∀ {l : List Char} (s : SymState), (∀ c ∈ l, c.isDigit = true ∨ c = '.') → l ≠ [] ∨ s.sign.isSome →
    l.foldl SymState.step s = if s.fraction then { s with sign := some (s.sign.getD s.positive), snd := s.snd ++ l }
      else { s with sign := some (s.sign.getD s.positive), fst := s.fst ++ l }
  | [], s, _, h => by
    obtain ⟨b, hb⟩ := Option.isSome_iff_exists.1 (h.resolve_left (by simp))
    obtain ⟨p, f, sg, a, b', r⟩ := s
    simp only at hb
    subst hb
    cases f <;> simp
  | c :: l, s, hl, _ => by
    have hc := hl c (by simp)
    have e : s.step c = if s.fraction then { s with sign := some (s.sign.getD s.positive), snd := s.snd ++ [c] }
        else { s with sign := some (s.sign.getD s.positive), fst := s.fst ++ [c] } := by
      have n1 : c ≠ '+' := by rintro rfl; revert hc; decide
      have n2 : c ≠ '-' := by rintro rfl; revert hc; decide
      have n3 : c ≠ '/' := by rintro rfl; revert hc; decide
      rw [SymState.step, if_neg n1, if_neg n2, if_neg n3, axisOf_num hc]
      simp only
      rw [if_pos hc]
      cases s.sign <;> rfl
    rw [List.foldl_cons, e]
    have hl' : ∀ c ∈ l, c.isDigit = true ∨ c = '.' := fun c h => hl c (List.mem_cons_of_mem _ h)
    cases hf : s.fraction with
    | true =>
      simp only [if_true]
      rw [foldl_num _ hl' (Or.inr rfl)]
      simp
    | false =>
      simp only [if_false, Bool.false_eq_true]
      rw [foldl_num _ hl' (Or.inr rfl)]
      simp

theorem step_sign (s : SymState) (sg : Sign) : sg.text.foldl SymState.step s =
    { s with positive := match sg with | .none => s.positive | .plus => true | .minus => false } := by
  cases sg with
  | none => rfl
  | plus => rfl
  | minus => rfl

theorem step_axis (s : SymState) (a : Fin 3) : (TermBody.axis a).text.foldl SymState.step s =
    { s with row := fun b => if b = a then (if s.positive then 1 else -1) else s.row b } := by
  fin_cases a <;> rfl

/-- What the state after some terms must be. -/
structure SymInv (ts : List Term) (s : SymState) : Prop where
  start : ts = [] → s.positive = true
  row : ∀ a, s.row a = elementCoefficient ts a
  none : (∀ t ∈ ts, t.isTranslation = false) → s.fraction = false ∧ s.sign = Option.none ∧ s.fst = [] ∧ s.snd = []
  translation : s.translation = .ok (elementTranslation ts)

theorem step_space (s : SymState) {c : Char} (h : c = ' ' ∨ c = '\t') : s.step c = s := by
  rcases h with rfl | rfl <;> rfl

theorem foldl_spaces (l : List Char) (s : SymState) :
    (l.map Char.toLower).foldl SymState.step s = ((l.filter fun c => c ≠ ' ' ∧ c ≠ '\t').map Char.toLower).foldl SymState.step s := by
  induction l generalizing s with
  | nil => rfl
  | cons c l ih =>
    rw [List.map_cons, List.foldl_cons, List.filter_cons]
    by_cases h : c ≠ ' ' ∧ c ≠ '\t'
    · rw [if_pos (by simpa using h), List.map_cons, List.foldl_cons, ih]
    · rw [if_neg (by simpa using h)]
      have h' : c = ' ' ∨ c = '\t' := by by_contra hx; exact h (not_or.1 hx)
      have : s.step c.toLower = s := by rcases h' with rfl | rfl <;> rfl
      rw [this, ih]

theorem symInv_terms : ∀ {ts : List Term}, ElementWF ts → SymInv ts ((ts.flatMap Term.text).foldl SymState.step SymState.init) := by
  intro ts
  induction ts using List.reverseRecOn with
  | nil =>
    intro _
    exact ⟨fun _ => rfl, fun a => rfl, fun _ => ⟨rfl, rfl, rfl, rfl⟩, rfl⟩
  | append_singleton ts t ih =>
    intro h
    have h' : ElementWF ts := by
      refine ⟨fun t ht => h.terms t (by simp [ht]), fun t ht => h.signs t ?_, fun a => ?_, ?_⟩
      · rcases ts with _ | ⟨x, ts⟩
        · cases ht
        · simp only [List.tail_cons] at ht
          simp [ht]
      · have := h.axes a
        rw [List.map_append, List.countP_append] at this
        omega
      · have := h.numbers
        rw [List.countP_append] at this
        omega
    have inv := ih h'
    rw [List.flatMap_append, List.foldl_append]
    generalize (ts.flatMap Term.text).foldl SymState.step SymState.init = s at inv
    rw [List.flatMap_singleton, Term.text, List.foldl_append, step_sign]
    have hpos : (match t.sign with | .none => s.positive | .plus => true | .minus => false) = decide (t.sign ≠ .minus) := by
      cases hts : t.sign with
      | none =>
        have : ts = [] := by
          by_contra hne
          have := h.signs t (by
            rcases ts with _ | ⟨x, ts⟩
            · exact absurd rfl hne
            · simp)
          exact this hts
        simp [inv.start this]
      | plus => rfl
      | minus => rfl
    rw [hpos]
    have hwf := h.terms t (by simp)
    have hnum : t.isTranslation = true → ∀ x ∈ ts, x.isTranslation = false := by
      intro ht
      have := h.numbers
      rw [List.countP_append, List.countP_singleton, if_pos ht] at this
      have h0 : ts.countP Term.isTranslation = 0 := by omega
      rw [List.countP_eq_zero] at h0
      intro x hx
      simpa using h0 x hx
    have htr0 : (∀ x ∈ ts, x.isTranslation = false) → elementTranslation ts = 0 := by
      intro hx
      rw [elementTranslation]
      refine List.sum_eq_zero fun y hy => ?_
      obtain ⟨x, hx', rfl⟩ := List.mem_map.1 hy
      have := hx x hx'
      rw [Term.isTranslation] at this
      rw [Term.translation]
      split
      · rfl
      · rename_i hb; rw [hb] at this; cases this
      · rename_i hb; rw [hb] at this; cases this
    have hsv : (t.sign.value : ℚ) = if t.sign ≠ .minus then 1 else -1 := by cases t.sign <;> simp [Sign.value]
    cases hb : t.body with
    | axis a =>
      rw [step_axis]
      have ht : t.isTranslation = false := by rw [Term.isTranslation, hb]
      refine ⟨fun hx => by simp at hx, fun b => ?_, fun hx => ?_, ?_⟩
      · rw [elementCoefficient, List.map_append, List.sum_append, List.map_singleton, List.sum_singleton, Term.coefficient, hb]
        have hrow := inv.row b
        rw [elementCoefficient] at hrow
        by_cases hba : b = a
        · subst hba
          simp only [if_true]
          have hc : t.coefficient b ≠ 0 := by
            rw [Term.coefficient, hb]
            cases t.sign <;> simp [Sign.value]
          have := h.axes b
          rw [List.map_append, List.countP_append, List.map_singleton, List.countP_singleton, if_pos (by simpa using hc)] at this
          have h0 : (ts.map fun t => t.coefficient b).countP (· ≠ 0) = 0 := by omega
          rw [List.countP_eq_zero] at h0
          have hz : (ts.map fun t => t.coefficient b).sum = 0 := List.sum_eq_zero fun y hy => by simpa using h0 y hy
          rw [hz]
          cases t.sign <;> simp [Sign.value]
        · simp only [hba, if_false, Ne.symm hba]
          rw [hrow]
          simp
      · exact inv.none fun x hx' => hx x (by simp [hx'])
      · have e1 : elementTranslation (ts ++ [t]) = elementTranslation ts := by
          simp [elementTranslation, Term.translation, hb]
        rw [e1]
        exact inv.translation
    | number d =>
      have ht : t.isTranslation = true := by rw [Term.isTranslation, hb]
      rw [Term.WF, hb] at hwf
      obtain ⟨n1, n2, n3, n4⟩ := inv.none (hnum ht)
      rw [TermBody.text, foldl_num _ (fun c hc => Decimal.mem_text hc) (Or.inl hwf.text_ne)]
      simp only [n1, n2, n3, n4, Bool.false_eq_true, if_false, List.nil_append, Option.getD_none]
      refine ⟨fun hx => by simp at hx, fun b => ?_, fun hx => ?_, ?_⟩
      · rw [elementCoefficient, List.map_append, List.sum_append, List.map_singleton, List.sum_singleton, Term.coefficient, hb]
        have := inv.row b
        rw [elementCoefficient] at this
        simp [this]
      · have := hx t (by simp)
        rw [ht] at this; cases this
      · have e1 : elementTranslation (ts ++ [t]) = t.sign.value * d.value := by
          have := htr0 (hnum ht)
          rw [elementTranslation] at this
          simp [elementTranslation, Term.translation, hb, this]
        rw [e1, hsv, SymState.translation]
        simp only [if_neg hwf.text_ne, joinFloat_decimal hwf, Except.map, bind, Except.bind]
        by_cases hm : t.sign = .minus <;> simp [hm]
    | fraction n d =>
      have ht : t.isTranslation = true := by rw [Term.isTranslation, hb]
      rw [Term.WF, hb] at hwf
      obtain ⟨w1, w2, w3⟩ := hwf
      obtain ⟨n1, n2, n3, n4⟩ := inv.none (hnum ht)
      rw [TermBody.text, List.foldl_append, List.foldl_cons, foldl_num _ (fun c hc => Decimal.mem_text hc) (Or.inl w1.text_ne)]
      simp only [n1, n2, n3, n4, Bool.false_eq_true, if_false, List.nil_append, Option.getD_none]
      have hslash : ∀ s : SymState, s.step '/' = { s with fraction := true } := fun s => rfl
      rw [hslash, foldl_num _ (fun c hc => Decimal.mem_text hc) (Or.inl w2.text_ne)]
      simp only [if_true, List.nil_append, Option.getD_some]
      refine ⟨fun hx => by simp at hx, fun b => ?_, fun hx => ?_, ?_⟩
      · rw [elementCoefficient, List.map_append, List.sum_append, List.map_singleton, List.sum_singleton, Term.coefficient, hb]
        have := inv.row b
        rw [elementCoefficient] at this
        simp [this]
      · have := hx t (by simp)
        rw [ht] at this; cases this
      · have e1 : elementTranslation (ts ++ [t]) = t.sign.value * (n.value / d.value) := by
          have := htr0 (hnum ht)
          rw [elementTranslation] at this
          simp [elementTranslation, Term.translation, hb, this]
        rw [e1, hsv, SymState.translation]
        simp only [if_neg w1.text_ne, joinFloat_decimal w1, joinFloat_decimal w2, Except.map, bind, Except.bind, if_true, if_neg w3]
        by_cases hm : t.sign = .minus
        · simp [hm, neg_div]
        · simp [hm]

theorem parseElement_writes {ts : List Term} (h : ElementWF ts) {l : List Char} (hl : Writes ts l) :
    (parseElement l).1 = elementCoefficient ts ∧ (parseElement l).2 = .ok (elementTranslation ts) := by
  have := symInv_terms h
  rw [← hl] at this
  rw [parseElement, foldl_spaces]
  exact ⟨funext this.row, this.translation⟩

theorem Writes.no_comma {ts : List Term} {l : List Char} (hl : Writes ts l) : ',' ∉ l := by
  intro hc
  have h1 : ',' ∈ (l.filter fun c => c ≠ ' ' ∧ c ≠ '\t').map Char.toLower :=
    List.mem_map.2 ⟨',', List.mem_filter.2 ⟨hc, by decide⟩, by decide⟩
  rw [hl, List.mem_flatMap] at h1
  obtain ⟨t, -, h1⟩ := h1
  rw [Term.text, List.mem_append] at h1
  have hd : ∀ d : Decimal, ',' ∉ d.text := fun d hm => by
    rcases Decimal.mem_text hm with h | h <;> revert h <;> decide
  rcases h1 with h1 | h1
  · cases ht : t.sign <;> rw [ht] at h1 <;> revert h1 <;> decide
  · cases hb : t.body with
    | axis a => rw [hb] at h1; revert h1; fin_cases a <;> decide
    | number d => rw [hb] at h1; exact hd d h1
    | fraction n d =>
      rw [hb, TermBody.text, List.mem_append, List.mem_cons] at h1
      rcases h1 with h1 | h1 | h1
      · exact hd n h1
      · revert h1; decide
      · exact hd d h1

end Amd
