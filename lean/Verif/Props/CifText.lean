import Verif.Proof.CifText
import Mathlib.Tactic.NormNum

/-!
# Numbers and symmetry operations: C43, C49
-/

namespace Amd

/-! ### C49 -/

/-- **C49** A numeral followed by any uncertainty in brackets is read as the value of the numeral. -/
theorem C49_uncertainty_partial {n : Numeral} (h : n.WF) (e : String) (he : '\n' ∉ e.toList) :
    str2float (String.ofList n.text ++ "(" ++ e ++ ")") = .ok (.num n.value) := by
  have : String.ofList n.text ++ "(" ++ e ++ ")" = String.ofList (n.text ++ '(' :: (e.toList ++ [')'])) := by
    rw [← String.toList_inj]
    simp
  rw [this]
  exact str2float_bracket h he

/-- **C49** A numeral without uncertainty is read as its value. -/
theorem C49_plain_partial {n : Numeral} (h : n.WF) : str2float (String.ofList n.text) = .ok (.num n.value) := str2float_numeral h

/-- **C49 does not hold** for missing values: `?` and `.` are read as the number 0, as `0` is. -/
theorem C49_false : str2float "?" = .ok (.num 0) ∧ str2float "." = .ok (.num 0) ∧ str2float "0" = .ok (.num 0) := by decide +kernel

/-- -12.5 with uncertainty 3 in the last digit. -/
example : str2float "-12.50(3)" = .ok (.num (-25 / 2)) := by
  have := C49_uncertainty_partial (n := ⟨.minus, ⟨[1, 2], some [5, 0]⟩, none⟩) ⟨Or.inl (by simp), fun e he => by cases he⟩ "3" (by decide)
  have hv : Numeral.value ⟨.minus, ⟨[1, 2], some [5, 0]⟩, none⟩ = -25 / 2 := by
    norm_num [Numeral.value, Sign.value, Decimal.value, exponentFactor, fracValue, digitsValue, Nat.ofDigits]
  rw [hv] at this
  exact this

/-! ### C43 -/

theorem parseSitesym_three {a b c : List Char} (ha : ',' ∉ a) (hb : ',' ∉ b) (hc : ',' ∉ c) {ra rb rc : Fin 3 → ℤ} {ta tb tc : ℚ}
    (h1 : parseElement a = (ra, .ok ta)) (h2 : parseElement b = (rb, .ok tb)) (h3 : parseElement c = (rc, .ok tc)) :
    parseSitesym (String.ofList (a ++ ',' :: (b ++ ',' :: c))) = .ok { rot := ![ra, rb, rc], trans := ![ta, tb, tc] } := by
  rw [parseSitesym, String.toList_ofList, List.splitOn_append_cons_self_of_not_mem ha, List.splitOn_append_cons_self_of_not_mem hb,
    List.splitOn_eq_singleton hc]
  simp only [parseElements, h1, h2, h3]
  simp only [Nat.ofNat_pos, dif_pos, show (0 + 1 : ℕ) < 3 by omega, show (0 + 1 + 1 : ℕ) < 3 by omega]
  congr 1
  simp only [SymOp.set, SymOp.mk.injEq]
  constructor
  · funext j
    fin_cases j <;> rfl
  · funext j
    fin_cases j <;> rfl

/-- **C43** Three well formed elements, written in any order of their terms, in upper or lower case, with any spaces, with fractions or decimals: the
result is the rotation and the translation they denote. -/
theorem C43_parse {t₁ t₂ t₃ : List Term} (h₁ : ElementWF t₁) (h₂ : ElementWF t₂) (h₃ : ElementWF t₃) {s₁ s₂ s₃ : String}
    (w₁ : Writes t₁ s₁.toList) (w₂ : Writes t₂ s₂.toList) (w₃ : Writes t₃ s₃.toList) :
    parseSitesym (s₁ ++ "," ++ s₂ ++ "," ++ s₃) = .ok (SymOp.mk ![elementCoefficient t₁, elementCoefficient t₂, elementCoefficient t₃]
      ![elementTranslation t₁, elementTranslation t₂, elementTranslation t₃]) := by
  have : s₁ ++ "," ++ s₂ ++ "," ++ s₃ = String.ofList (s₁.toList ++ ',' :: (s₂.toList ++ ',' :: s₃.toList)) := by
    rw [← String.toList_inj]
    simp
  rw [this]
  exact parseSitesym_three w₁.no_comma w₂.no_comma w₃.no_comma (Prod.ext (parseElement_writes h₁ w₁).1 (parseElement_writes h₁ w₁).2)
    (Prod.ext (parseElement_writes h₂ w₂).1 (parseElement_writes h₂ w₂).2) (Prod.ext (parseElement_writes h₃ w₃).1 (parseElement_writes h₃ w₃).2)

/-- A cache whose entries are results of the function. -/
def CacheOK {β : Type} (f : String → Except Exc β) (cache : List (String × β)) : Prop := ∀ s b, cache.lookup s = some b → f s = .ok b

theorem memoCall_ok {β : Type} {f : String → Except Exc β} {cache : List (String × β)} (h : CacheOK f cache) (s : String) :
    CacheOK f (memoCall f cache s).1 ∧ (memoCall f cache s).2 = f s := by
  rw [memoCall]
  cases hc : cache.lookup s with
  | some b => exact ⟨h, (h s b hc).symm⟩
  | none =>
    cases hf : f s with
    | error e => exact ⟨h, rfl⟩
    | ok b =>
      refine ⟨fun s' b' h' => ?_, rfl⟩
      simp only [List.lookup_cons] at h'
      by_cases hs : s' = s
      · subst hs
        simp at h'
        rw [← h']
        exact hf
      · have : (s' == s) = false := by simpa using hs
        rw [this] at h'
        exact h s' b' h'

/-- **C43** The cache does not change results: after any calls from the empty cache, in any order, each call returns what the parser returns, so the
list of operations is the list of the results for each string. -/
theorem C43_cache (history : List (List String)) (syms : List String) :
    (parseSitesyms (history.foldl (fun cache l => (parseSitesyms cache l).1) []) syms).2 = syms.mapM parseSitesym := by
  have key : ∀ (l : List String) (cache : List (String × SymOp)), CacheOK parseSitesym cache →
      CacheOK parseSitesym (parseSitesyms cache l).1 ∧ (parseSitesyms cache l).2 = l.mapM parseSitesym := by
    intro l
    induction l with
    | nil => intro cache h; exact ⟨h, rfl⟩
    | cons s l ih =>
      intro cache h
      have h1 := memoCall_ok h s
      rw [parseSitesyms, List.mapM_cons]
      generalize memoCall parseSitesym cache s = q at h1
      obtain ⟨cache', r⟩ := q
      simp only at h1
      rw [← h1.2]
      cases r with
      | error e => exact ⟨h1.1, rfl⟩
      | ok o =>
        have h2 := ih cache' h1.1
        simp only
        refine ⟨h2.1, ?_⟩
        rw [h2.2]
        cases l.mapM parseSitesym <;> rfl
  have hc : ∀ (history : List (List String)) (cache : List (String × SymOp)), CacheOK parseSitesym cache →
      CacheOK parseSitesym (history.foldl (fun cache l => (parseSitesyms cache l).1) cache) := by
    intro history
    induction history with
    | nil => intro cache h; exact h
    | cons l history ih => intro cache h; exact ih _ (key l cache h).1
  exact (key syms _ (hc history [] fun s b h => by cases h)).2

/-- `-X + 1/2`. -/
def exampleTerms : List Term := [⟨.minus, .axis 0⟩, ⟨.plus, .fraction ⟨[1], none⟩ ⟨[2], none⟩⟩]

theorem exampleTerms_wf : ElementWF exampleTerms := by
  refine ⟨fun t ht => ?_, fun t ht => ?_, fun a => ?_, by decide⟩
  · simp only [exampleTerms, List.mem_cons, List.not_mem_nil, or_false] at ht
    rcases ht with rfl | rfl
    · trivial
    · refine ⟨Or.inl (by simp), Or.inl (by simp), ?_⟩
      norm_num [Decimal.value, fracValue, digitsValue, Nat.ofDigits]
  · simp only [exampleTerms, List.tail_cons, List.mem_cons, List.not_mem_nil, or_false] at ht
    rw [ht]
    decide
  · fin_cases a <;> decide

/-- `0.25 - Z+y`. -/
def exampleTerms' : List Term := [⟨.none, .number ⟨[0], some [2, 5]⟩⟩, ⟨.minus, .axis 2⟩, ⟨.plus, .axis 1⟩]

theorem exampleTerms_wf' : ElementWF exampleTerms' := by
  refine ⟨fun t ht => ?_, fun t ht => ?_, fun a => ?_, by decide⟩
  · simp only [exampleTerms', List.mem_cons, List.not_mem_nil, or_false] at ht
    rcases ht with rfl | rfl | rfl
    · exact Or.inl (by simp)
    · trivial
    · trivial
  · simp only [exampleTerms', List.tail_cons, List.mem_cons, List.not_mem_nil, or_false] at ht
    rcases ht with rfl | rfl <;> decide
  · fin_cases a <;> decide

example : parseSitesym ("-X + 1/2" ++ "," ++ " 0.25 - Z+y" ++ "," ++ "-x+1/2") =
    .ok (SymOp.mk ![elementCoefficient exampleTerms, elementCoefficient exampleTerms', elementCoefficient exampleTerms]
      ![elementTranslation exampleTerms, elementTranslation exampleTerms', elementTranslation exampleTerms]) :=
  C43_parse (s₁ := "-X + 1/2") (s₂ := " 0.25 - Z+y") (s₃ := "-x+1/2") exampleTerms_wf exampleTerms_wf' exampleTerms_wf (by rw [Writes]; decide) (by rw [Writes]; decide) (by rw [Writes]; decide)

example : elementCoefficient exampleTerms' = ![0, 1, -1] ∧ elementTranslation exampleTerms' = 1 / 4 ∧ elementTranslation exampleTerms = 1 / 2 := by
  refine ⟨?_, ?_, ?_⟩
  · funext a
    fin_cases a <;> decide
  · norm_num [elementTranslation, exampleTerms', Term.translation, Sign.value, Decimal.value, fracValue, digitsValue, Nat.ofDigits]
  · norm_num [elementTranslation, exampleTerms, Term.translation, Sign.value, Decimal.value, fracValue, digitsValue, Nat.ofDigits]

end Amd
