import Verif.Props.Pymatgen
import Verif.Spec.Ccdc

/-!
# ccdc Crystal objects, the atoms that are used: C70, C72, C74, C75
-/

namespace Amd

variable {env : CcdcEnv} {crystal c' : CcdcCrystal} {rh heaviest centres : Bool} {d : String} {ws : List Warning} {s : FullSet}

/-! ### Helpers -/

theorem disordered_iff (a : CcdcAtom) : a.disordered = true ↔ a.Disordered := by
  have h : decide (a.label.toList.getLast? = some '?') = true ↔ ∃ l, a.label.toList = l ++ ['?'] := by
    rw [decide_eq_true_iff]
    constructor
    · intro h
      exact ⟨_, (List.dropLast_append_getLast? '?' h).symm⟩
    · rintro ⟨l, h⟩
      rw [h, List.getLast?_concat]
  simp only [CcdcAtom.disordered, CcdcAtom.Disordered, hasDisorder, PyFloat.ltOne, Bool.or_eq_true, h]
  refine or_congr_left ?_
  cases a.occupancy with
  | none => simp
  | some o => simp

theorem isHydrogen_of (a : CcdcAtom) (h : a.Hydrogen) : a.isHydrogen = true := by
  rcases h with h | h <;> rw [CcdcAtom.isHydrogen, h] <;> decide

theorem isHydrogen_iff (a : CcdcAtom) (h1 : a.symbol ≠ "") (h2 : a.symbol ≠ "HD") : a.isHydrogen = true ↔ a.Hydrogen := by
  refine ⟨fun h => ?_, isHydrogen_of a⟩
  rw [CcdcAtom.isHydrogen, decide_eq_true_iff] at h
  have hsub := List.infix_iff_prefix_suffix.1 h
  have key : ∀ l : List Char, l <:+: ['H', 'D'] → l = [] ∨ l = ['H'] ∨ l = ['D'] ∨ l = ['H', 'D'] := by
    rintro l ⟨x, y, e⟩
    rcases x with _ | ⟨x, _ | ⟨x', _ | ⟨x'', x⟩⟩⟩ <;> rcases l with _ | ⟨a, _ | ⟨b, _ | ⟨c, l⟩⟩⟩ <;> simp at e ⊢
    all_goals (obtain ⟨rfl, rfl, -⟩ := e; simp)
  rcases key _ h with e | e | e | e
  · exact absurd (String.toList_injective e) h1
  · exact Or.inl (String.toList_injective e)
  · exact Or.inr (String.toList_injective e)
  · exact absurd (String.toList_injective e) h2

open Classical in
theorem ccdcSelect_ok (hskip : d = "skip" → crystal.hasDisorder = false ∧ ∀ a ∈ crystal.disorderedMolecule, ¬a.Disordered)
    (hsym : ∀ a ∈ crystal.disorderedMolecule, a.symbol ≠ "" ∧ a.symbol ≠ "HD") :
    (ccdcSelect env crystal rh d heaviest).2 =
      if heaviest = true ∧ 1 < (env.components (crystal.disorderedMolecule.filter fun a => decide (a.Used rh d))).length
      then heaviestComponent env (crystal.disorderedMolecule.filter fun a => decide (a.Used rh d))
      else .ok (crystal.disorderedMolecule.filter fun a => decide (a.Used rh d)) := by
  have h0 : ¬(d = "skip" ∧ (crystal.hasDisorder || crystal.disorderedMolecule.any CcdcAtom.disordered) = true) := by
    rintro ⟨hd, h⟩
    obtain ⟨h1, h2⟩ := hskip hd
    rw [h1, Bool.false_or, List.any_eq_true] at h
    obtain ⟨a, ha, h⟩ := h
    exact h2 a ha ((disordered_iff a).1 h)
  have hm : ∀ l : List CcdcAtom, (if (l.any fun a => a.coords.isNone) = true then l.filter fun a => !a.coords.isNone else l) = l.filter fun a => !a.coords.isNone := by
    intro l
    split
    · rfl
    · rename_i h
      rw [Bool.not_eq_true, List.any_eq_false] at h
      exact (List.filter_eq_self.2 fun a ha => by rw [Bool.not_eq_true'] ; exact Bool.not_eq_true _ ▸ h a ha).symm
  have e : ((if rh = true then (if d = "ordered_sites" then crystal.disorderedMolecule.filter fun a => !a.disordered else crystal.disorderedMolecule).filter fun a => !a.isHydrogen
        else (if d = "ordered_sites" then crystal.disorderedMolecule.filter fun a => !a.disordered else crystal.disorderedMolecule)).filter fun a => !a.coords.isNone)
      = crystal.disorderedMolecule.filter fun a => decide (a.Used rh d) := by
    have hu : ∀ a ∈ crystal.disorderedMolecule, decide (a.Used rh d) =
        ((!decide (d = "ordered_sites") || !a.disordered) && (!rh || !a.isHydrogen) && !a.coords.isNone) := by
      intro a ha
      rw [Bool.eq_iff_iff, decide_eq_true_iff]
      have h1 := disordered_iff a
      have h2 := isHydrogen_iff a (hsym a ha).1 (hsym a ha).2
      have h3 : a.coords.isNone = false ↔ ∃ p, a.coords = some p := by cases a.coords <;> simp
      simp only [Bool.and_eq_true, Bool.or_eq_true, Bool.not_eq_true', decide_eq_false_iff_not, h3]
      rw [← Bool.not_eq_true a.disordered, ← Bool.not_eq_true a.isHydrogen, h1, h2]
      constructor
      · rintro ⟨u1, u2, u3⟩
        refine ⟨⟨?_, ?_⟩, u3⟩
        · by_cases hd : d = "ordered_sites"
          · exact Or.inr (u1 hd)
          · exact Or.inl hd
        · cases rh with
          | false => exact Or.inl rfl
          | true => exact Or.inr (u2 rfl)
      · rintro ⟨⟨u1, u2⟩, u3⟩
        exact ⟨fun hd => u1.resolve_left (fun h => h hd), fun hr => u2.resolve_left (by rw [hr]; simp), u3⟩
    rw [List.filter_congr hu]
    cases rh <;> by_cases hd : d = "ordered_sites" <;> simp [hd, List.filter_filter, Bool.and_comm]
  rw [ccdcSelect, if_neg h0]
  simp only [hm]
  simp only [e]
  split <;> rfl

theorem ccdc_select {molecule : List CcdcAtom} (h : (ccdcSelect env crystal rh d heaviest).2 = .ok molecule) :
    (ccdcConvert env crystal rh d heaviest centres).1 = env.setMolecule crystal molecule := by
  rw [ccdcConvert]
  simp only [h]
  split
  · rfl
  · split
    · split <;> rfl
    · split
      · rfl
      · split <;> rfl

/-! ### C74 -/

/-- **C74** With `disorder='skip'`, a crystal that is marked as disordered, or has an atom that shows disorder, raises a ParseError, and is not changed. -/
theorem C74_skip (h : crystal.hasDisorder = true ∨ ∃ a ∈ crystal.disorderedMolecule, a.Disordered) :
    ∃ text, ccdcConvert env crystal rh "skip" heaviest centres = (crystal, [], .error (.parse text)) := by
  have h0 : (crystal.hasDisorder || crystal.disorderedMolecule.any CcdcAtom.disordered) = true := by
    rw [Bool.or_eq_true, List.any_eq_true]
    exact h.imp id fun ⟨a, ha, h⟩ => ⟨a, ha, (disordered_iff a).2 h⟩
  refine ⟨crystal.identifier ++ " has disorder, pass disorder='ordered_sites' or 'all_sites' to remove/ignore disorder", ?_⟩
  rw [ccdcConvert, ccdcSelect, if_pos ⟨rfl, h0⟩]

open Classical in
/-- **C74** (partial) Otherwise the atoms that are used, those that the molecule of the crystal is set to, are the ones with coordinates that do not show disorder
(for `'ordered_sites'`) and are not hydrogen or deuterium (for `remove_hydrogens`), in the same order. Missing: atoms with the symbol `''` (`C72_ccdc_false`); the
documented ParseError for atoms without coordinates (`C74_coordinates_false`). -/
theorem C74_atoms_partial (hskip : d = "skip" → crystal.hasDisorder = false ∧ ∀ a ∈ crystal.disorderedMolecule, ¬a.Disordered)
    (hsym : ∀ a ∈ crystal.disorderedMolecule, a.symbol ≠ "" ∧ a.symbol ≠ "HD") :
    (ccdcConvert env crystal rh d false centres).1 = env.setMolecule crystal (crystal.disorderedMolecule.filter fun a => decide (a.Used rh d)) := by
  refine ccdc_select ?_
  rw [ccdcSelect_ok hskip hsym]
  simp

/-- **C74** If the crystal has an entry with no 3D structure, or, for `'skip'`, with disorder, a ParseError is raised. -/
theorem C74_entry {entry : CcdcEntry} (h : entry.has3d = false ∨ (d = "skip" ∧ (entry.hasDisorder = true ∨ entry.crystal.hasDisorder = true ∨
    ∃ a ∈ entry.crystal.disorderedMolecule, a.Disordered))) :
    ∃ text, ccdcEntryConvert env entry rh d heaviest centres = (entry, [], .error (.parse text)) := by
  rw [ccdcEntryConvert]
  split
  · exact ⟨_, rfl⟩
  · rename_i h3
    rcases h with h | ⟨rfl, h⟩
    · exact absurd h h3
    · split
      · exact ⟨_, rfl⟩
      · rename_i hd
        rcases h with h | h
        · exact absurd ⟨rfl, h⟩ hd
        · obtain ⟨t, e⟩ := C74_skip (env := env) (rh := rh) (heaviest := heaviest) (centres := centres) h
          exact ⟨t, by rw [e]⟩

/-! ### C75 -/

theorem argmaxFrom_spec : ∀ (l pre : List ℚ) (best : ℚ) (at_ i : ℕ), pre.length = i → (∃ h : at_ < pre.length, pre[at_] = best) →
    (∀ j (h : j < pre.length), pre[j] ≤ best ∧ (j < at_ → pre[j] < best)) →
    ∃ h : argmaxFrom best at_ i l < (pre ++ l).length, ∀ j (hj : j < (pre ++ l).length),
      (pre ++ l)[j] ≤ (pre ++ l)[argmaxFrom best at_ i l] ∧ (j < argmaxFrom best at_ i l → (pre ++ l)[j] < (pre ++ l)[argmaxFrom best at_ i l])
  | [], pre, best, at_, i, _, ⟨h, e⟩, hm => by
    simp only [List.append_nil, argmaxFrom]
    exact ⟨h, fun j hj => by rw [e]; exact hm j hj⟩
  | x :: l, pre, best, at_, i, hi, ⟨h, e⟩, hm => by
    have e' : pre ++ x :: l = (pre ++ [x]) ++ l := by simp
    simp only [e', argmaxFrom]
    split
    · rename_i hx
      refine argmaxFrom_spec l (pre ++ [x]) x i (i + 1) (by simp [hi]) ⟨by simp [hi], by simp [← hi]⟩ fun j hj => ?_
      rcases Nat.lt_or_ge j pre.length with hj' | hj'
      · rw [List.getElem_append_left hj']
        have := lt_of_le_of_lt (hm j hj').1 hx
        exact ⟨this.le, fun _ => this⟩
      · have : j = pre.length := by simp at hj; omega
        subst this
        simp [hi]
    · rename_i hx
      refine argmaxFrom_spec l (pre ++ [x]) best at_ (i + 1) (by simp [hi]) ⟨by simp; omega, by rw [List.getElem_append_left h]; exact e⟩ fun j hj => ?_
      rcases Nat.lt_or_ge j pre.length with hj' | hj'
      · rw [List.getElem_append_left hj']
        exact hm j hj'
      · have : j = pre.length := by simp at hj; omega
        subst this
        simp only [List.getElem_concat_length]
        exact ⟨not_lt.1 hx, fun hlt => by omega⟩

theorem componentWeight_ok {l : List CcdcAtom} (h : ∀ a ∈ l, a.weight ≠ none) : componentWeight l = .ok (totalWeight l) := by
  have : l.mapM CcdcAtom.mass = .ok (l.map fun a => a.weight.getD 0 * a.occupancy.getD 1) := by
    induction l with
    | nil => rfl
    | cons a l ih =>
      rw [List.mapM_cons, ih fun b hb => h b (by simp [hb])]
      obtain ⟨w, hw⟩ := Option.ne_none_iff_exists'.1 (h a (by simp))
      simp [CcdcAtom.mass, hw, bind, Except.bind, pure, Except.pure]
  rw [componentWeight, this]
  rfl

theorem heaviestComponent_ok {m : List CcdcAtom} (hne : env.components m ≠ []) (hw : ∀ l ∈ env.components m, ∀ a ∈ l, a.weight ≠ none) :
    ∃ i, ∃ h : i < (env.components m).length, heaviestComponent env m = .ok (env.components m)[i] ∧
      ∀ j (hj : j < (env.components m).length), totalWeight (env.components m)[j] ≤ totalWeight (env.components m)[i] ∧
        (j < i → totalWeight (env.components m)[j] < totalWeight (env.components m)[i]) := by
  have hW : (env.components m).mapM componentWeight = .ok ((env.components m).map totalWeight) := by
    revert hw
    generalize env.components m = cs
    intro hw
    induction cs with
    | nil => rfl
    | cons l cs ih =>
      rw [List.mapM_cons, ih fun b hb => hw b (by simp [hb]), componentWeight_ok (hw l (by simp))]
      rfl
  obtain ⟨l, cs, hc⟩ := List.exists_cons_of_ne_nil hne
  rw [heaviestComponent, hW, hc]
  simp only [List.map_cons]
  obtain ⟨h, hs⟩ := argmaxFrom_spec (cs.map totalWeight) [totalWeight l] (totalWeight l) 0 1 rfl ⟨by simp, rfl⟩ (by
    intro j hj
    have : j = 0 := by simpa using hj
    subst this
    simp)
  have h' : argmaxFrom (totalWeight l) 0 1 (cs.map totalWeight) < (l :: cs).length := by simpa using h
  refine ⟨_, h', by rw [List.getD_eq_getElem _ _ h'], fun j hj => ?_⟩
  have := hs j (by simpa using hj)
  have e : ∀ i (h : i < (l :: cs).length), ([totalWeight l] ++ cs.map totalWeight)[i]'(by simpa using h) = totalWeight (l :: cs)[i] := by
    intro i h
    have : ([totalWeight l] ++ cs.map totalWeight) = (l :: cs).map totalWeight := rfl
    simp only [this, List.getElem_map]
  rw [e _ hj, e _ h'] at this
  exact this

open Classical in
/-- **C75** (partial) With `heaviest_component`, if what is left of the molecule has more than one component, the one that is used is the heaviest, the first
of these if there are several. Missing: atoms without a weight (`C75_false`), and those of `C74_atoms_partial`. -/
theorem C75_heaviest_partial (hskip : d = "skip" → crystal.hasDisorder = false ∧ ∀ a ∈ crystal.disorderedMolecule, ¬a.Disordered)
    (hsym : ∀ a ∈ crystal.disorderedMolecule, a.symbol ≠ "" ∧ a.symbol ≠ "HD") {comps : List (List CcdcAtom)}
    (hc : env.components (crystal.disorderedMolecule.filter fun a => decide (a.Used rh d)) = comps) (h2 : 2 ≤ comps.length)
    (hw : ∀ l ∈ comps, ∀ a ∈ l, a.weight ≠ none) :
    ∃ i, ∃ h : i < comps.length, (ccdcConvert env crystal rh d true centres).1 = env.setMolecule crystal comps[i] ∧
      ∀ j (hj : j < comps.length), totalWeight comps[j] ≤ totalWeight comps[i] ∧ (j < i → totalWeight comps[j] < totalWeight comps[i]) := by
  subst hc
  obtain ⟨i, h, e, hs⟩ := heaviestComponent_ok (env := env) (by intro e; rw [e] at h2; simp at h2) hw
  refine ⟨i, h, ccdc_select ?_, hs⟩
  rw [ccdcSelect_ok hskip hsym, if_pos ⟨rfl, by omega⟩, e]

open Classical in
/-- **C75** A molecule with one component, or none, is used as it is. -/
theorem C75_single (hskip : d = "skip" → crystal.hasDisorder = false ∧ ∀ a ∈ crystal.disorderedMolecule, ¬a.Disordered)
    (hsym : ∀ a ∈ crystal.disorderedMolecule, a.symbol ≠ "" ∧ a.symbol ≠ "HD")
    (h1 : (env.components (crystal.disorderedMolecule.filter fun a => decide (a.Used rh d))).length ≤ 1) :
    (ccdcConvert env crystal rh d true centres).1 = (ccdcConvert env crystal rh d false centres).1 := by
  rw [C74_atoms_partial hskip hsym]
  refine ccdc_select ?_
  rw [ccdcSelect_ok hskip hsym, if_neg (by omega)]

/-! ### Examples and counterexamples -/

/-- An atom with a known weight, fully occupied. -/
def plainAtom (symbol : String) (number : ℕ) (weight : ℚ) (p : Pt 3 ℝ) : CcdcAtom := ⟨symbol ++ "1", symbol, number, some weight, some 1, some p⟩

/-- A crystal in the unit cube without symmetry. -/
def cubeCrystal (m : List CcdcAtom) : CcdcCrystal := ⟨"CUBE", false, m, m, [some 1, some 1, some 1, some 90, some 90, some 90], ["x,y,z"]⟩

/-- A package in which each atom is a component and molecules can be assigned. -/
def atomsEnv : CcdcEnv := ⟨fun c m => { c with molecule := m }, fun m => m.map fun a => [a], fun c => c.molecule, fun c => c.molecule.map fun a => [a]⟩

theorem cube_numbers : cellOfNumbers [1, 1, 1, 90, 90, 90] = .ok cubeCell := by
  have e : (0 : ℝ) < angleEps := by norm_num [angleEps]
  simp only [cellOfNumbers, cellparToCell, snapCos, snapSin]
  norm_num [e, cubeCell]

theorem cubeCrystal_cell (m m' : List CcdcAtom) : ccdcCell { cubeCrystal m with molecule := m' } = .ok cubeCell := by
  have : (cubeCrystal m).cellpar.mapM id = some [1, 1, 1, 90, 90, 90] := rfl
  simp only [ccdcCell, this]
  exact cube_numbers

theorem plain_not_disordered {sym : String} {n : ℕ} {w : ℚ} {p : Pt 3 ℝ} : ¬(plainAtom sym n w p).Disordered := by
  rintro (⟨o, h, ho⟩ | ⟨l, h⟩)
  · simp only [plainAtom, Option.some.injEq] at h
    rw [← h] at ho
    exact lt_irrefl _ ho
  · simp only [plainAtom, String.toList_append] at h
    have := congrArg List.getLast? h
    simp at this

/-- The hypotheses of C74 and C75 are met by carbon, oxygen and hydrogen, and the heaviest component is the oxygen. -/
example : let crystal := cubeCrystal [plainAtom "C" 6 12 (quarter 0), plainAtom "O" 8 16 (quarter 1), plainAtom "H" 1 1 (quarter 2)]
    (crystal.hasDisorder = false ∧ ∀ a ∈ crystal.disorderedMolecule, ¬a.Disordered) ∧ (∀ a ∈ crystal.disorderedMolecule, a.symbol ≠ "" ∧ a.symbol ≠ "HD") ∧
    (∀ a ∈ crystal.disorderedMolecule, a.weight ≠ none) ∧ 2 ≤ (atomsEnv.components crystal.disorderedMolecule).length := by
  refine ⟨⟨rfl, ?_⟩, ?_, ?_, by simp [cubeCrystal, atomsEnv]⟩
  · simp only [cubeCrystal, List.mem_cons, List.not_mem_nil, or_false]
    rintro a (rfl | rfl | rfl) <;> exact plain_not_disordered
  · simp [cubeCrystal, plainAtom]
  · simp [cubeCrystal, plainAtom]

/-- **C72** (partial) With `remove_hydrogens`, if a set is returned, the molecule it was made from has only atoms of the crystal, and none is hydrogen or deuterium.
Which others are left is `C74_atoms_partial`. -/
theorem C72_ccdc_partial (h : ccdcConvert env crystal true d false centres = (c', ws, .ok s)) :
    ∃ molecule, c' = env.setMolecule crystal molecule ∧ ∀ a ∈ molecule, a ∈ crystal.disorderedMolecule ∧ ¬a.Hydrogen := by
  cases hm : (ccdcSelect env crystal true d false).2 with
  | error e => rw [ccdcConvert, hm] at h; cases h
  | ok molecule =>
    refine ⟨molecule, by rw [← ccdc_select (centres := centres) hm, h], ?_⟩
    rw [ccdcSelect] at hm
    split at hm
    · cases hm
    · simp only [if_true, Bool.false_eq_true, false_and, if_false] at hm
      cases hm
      intro a ha
      have key : ∀ l : List CcdcAtom, (∀ a ∈ l, a ∈ crystal.disorderedMolecule) → a ∈ l.filter (fun a => !a.isHydrogen) →
          a ∈ crystal.disorderedMolecule ∧ ¬a.Hydrogen := by
        intro l hl h1
        obtain ⟨h1, h2⟩ := List.mem_filter.1 h1
        refine ⟨hl a h1, fun hh => ?_⟩
        rw [isHydrogen_of a hh] at h2
        cases h2
      split at ha
      · refine key (crystal.disorderedMolecule.filter fun a => !a.disordered) (fun b hb => (List.mem_filter.1 hb).1) ?_
        split at ha
        · exact (List.mem_filter.1 ha).1
        · exact ha
      · refine key crystal.disorderedMolecule (fun b hb => hb) ?_
        split at ha
        · exact (List.mem_filter.1 ha).1
        · exact ha

/-- **C72** is false: an atom without a symbol is removed with the hydrogens, as `''` is a substring of `'HD'`. -/
theorem C72_ccdc_false : ∃ (crystal : CcdcCrystal) (a : CcdcAtom), crystal.disorderedMolecule = [a] ∧ ¬a.Hydrogen ∧
    (ccdcConvert atomsEnv crystal false "all_sites" false false).1.molecule = [a] ∧ (ccdcConvert atomsEnv crystal true "all_sites" false false).1.molecule = [] := by
  refine ⟨cubeCrystal [plainAtom "" 0 0 (quarter 0)], plainAtom "" 0 0 (quarter 0), by simp [cubeCrystal], by simp [CcdcAtom.Hydrogen, plainAtom], ?_, ?_⟩
  · rw [ccdc_select (molecule := [plainAtom "" 0 0 (quarter 0)]) (by simp [ccdcSelect, cubeCrystal, plainAtom])]
    rfl
  · rw [ccdc_select (molecule := []) (by simp [ccdcSelect, cubeCrystal, plainAtom, CcdcAtom.isHydrogen])]
    rfl

/-- **C74** is false: an atom without coordinates does not raise a ParseError, as documented; it is removed with a warning, and a set of the remaining points is
returned. (Here of the molecular centres.) -/
theorem C74_coordinates_false : ∃ (crystal : CcdcCrystal) (a b : CcdcAtom), crystal.disorderedMolecule = [a, b] ∧ a.coords = none ∧
    ∃ c' s, c'.molecule = [b] ∧
      ccdcConvert atomsEnv crystal false "skip" false true = (c', [⟨"UserWarning", "atoms without sites or missing data will be removed"⟩], .ok s) := by
  let crystal := cubeCrystal [⟨"C1", "C", 6, some 12, some 1, none⟩, plainAtom "O" 8 16 (quarter 0)]
  have h1 : crystal.disorderedMolecule.any CcdcAtom.disordered = false := by
    simp [crystal, cubeCrystal, plainAtom, CcdcAtom.disordered, hasDisorder, PyFloat.ltOne]
  have hsel : ccdcSelect atomsEnv crystal false "skip" false =
      ([⟨"UserWarning", "atoms without sites or missing data will be removed"⟩], .ok [plainAtom "O" 8 16 (quarter 0)]) := by
    rw [ccdcSelect, if_neg (by rw [h1]; simp [crystal, cubeCrystal])]
    simp [crystal, cubeCrystal, plainAtom]
  have hcell : ccdcCell (atomsEnv.setMolecule crystal [plainAtom "O" 8 16 (quarter 0)]) = .ok cubeCell := cubeCrystal_cell _ _
  have hm : ∃ pts, molecularCentres (atomsEnv.packing (atomsEnv.setMolecule crystal [plainAtom "O" 8 16 (quarter 0)])) eqSiteTol = .ok pts := by
    have h1 : (atomsEnv.packing (atomsEnv.setMolecule crystal [plainAtom "O" 8 16 (quarter 0)])).mapM (fun c => c.mapM CcdcAtom.coords) = some [[quarter 0]] := rfl
    simp only [molecularCentres, h1]
    rw [if_neg (by simp)]
    exact ⟨_, rfl⟩
  obtain ⟨pts, hp⟩ := hm
  refine ⟨crystal, _, _, rfl, rfl, atomsEnv.setMolecule crystal [plainAtom "O" 8 16 (quarter 0)], ?_⟩
  simp only [ccdcConvert, hsel, hcell, hp, if_true]
  exact ⟨_, rfl, rfl⟩

/-- **C75** is false: if the weight of an atom is not known, an exception other than ParseError is raised. -/
theorem C75_false : ∃ crystal : CcdcCrystal, (∀ a ∈ crystal.disorderedMolecule, a.coords ≠ none) ∧
    (ccdcConvert atomsEnv crystal false "all_sites" true false).2 = ([], .error (.other "TypeError")) := by
  refine ⟨cubeCrystal [plainAtom "C" 6 12 (quarter 0), ⟨"X1", "X", 0, none, some 1, some (quarter 1)⟩], by simp [cubeCrystal, plainAtom], ?_⟩
  simp [ccdcConvert, ccdcSelect, cubeCrystal, plainAtom, atomsEnv, heaviestComponent, componentWeight, CcdcAtom.mass, bind, Except.bind, Except.map, pure, Except.pure]

/-- **C70** is false: the molecule of the crystal that was passed is replaced. -/
theorem C70_ccdc_false : ∃ crystal : CcdcCrystal, (ccdcConvert atomsEnv crystal true "all_sites" false false).1 ≠ crystal := by
  have hH : (plainAtom "H" 1 1 (quarter 0)).isHydrogen = true := isHydrogen_of _ (Or.inl rfl)
  refine ⟨cubeCrystal [plainAtom "H" 1 1 (quarter 0)], fun h => ?_⟩
  rw [ccdc_select (molecule := []) (by simp [ccdcSelect, cubeCrystal, hH])] at h
  have := congrArg CcdcCrystal.molecule h
  simp [atomsEnv, cubeCrystal] at this

end Amd
