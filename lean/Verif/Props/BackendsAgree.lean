import Verif.Props.CifCompare
import Verif.Props.CifCompareExample

/-!
# Invariants do not depend on the backend: C87

The backends of the readers may choose different cells, orders of atoms and asymmetric units. The invariants of what they read are the same.
-/

namespace Amd

open Classical

variable {asString : String → String} {rh : Bool} {d : String} {e : CifEntry} {r r' : Except Exc ReadSet} {s s' : ReadSet}

theorem same_facts (he : (e.described asString rh d).Proper) (hd : d ≠ "all_sites") (h : ReadAsWritten asString rh d e r) (hs : r = .ok s) :
    ReadFacts (e.described asString rh d) s.set := by
  have hk : ¬ e.Skipped asString rh d := fun hk => by
    obtain ⟨t, ht⟩ := h.skips hk
    rw [hs] at ht
    cases ht
  obtain ⟨t, ht, S, hS, hf⟩ := h.facts he hd hk
  obtain rfl : t = s := Except.ok.inj (ht.symm.trans hs)
  have e : t.set = S := by
    rw [ReadSet.toCrystal] at hS
    injection hS with _ _ h
  rwa [e]

theorem same_isometric (he : (e.described asString rh d).Proper) (hd : d ≠ "all_sites") (h : ReadAsWritten asString rh d e r) (h' : ReadAsWritten asString rh d e r')
    (hs : r = .ok s) (hs' : r' = .ok s') : Isometric s.set s'.set := by
  have hf := same_facts he hd h hs
  exact hf.isometric (same_facts he hd h' hs') ⟨s.set.cell, s.set.cell, hf.cell, hf.cell, id, fun _ _ => rfl, by rw [Set.image_id]⟩

/-- **C87** (partial) The AMD does not depend on the backend that reads the entry. Missing: cells that are too oblique for `k`. -/
theorem C87_amd_partial (he : (e.described asString rh d).Proper) (hd : d ≠ "all_sites") (h : ReadAsWritten asString rh d e r) (h' : ReadAsWritten asString rh d e r')
    (hs : r = .ok s) (hs' : r' = .ok s') {k : ℕ} (hw : (e.described asString rh d).WellShaped k) {fuel fuel' : ℕ} {a a' : List ℝ} (ha : AMD s.set k fuel = .ok a)
    (ha' : AMD s'.set k fuel' = .ok a') : a = a' := by
  have hf := same_facts he hd h hs
  have hf' := same_facts he hd h' hs'
  obtain ⟨_, _, hdesc⟩ := hf.desc
  obtain ⟨_, _, hdesc'⟩ := hf'.desc
  exact C66_amd_of_searchable (by norm_num) hdesc hdesc' (same_isometric he hd h h' hs hs') (hf.searchable hw) (hf'.searchable hw) ha ha'

/-- **C87** (partial) The PDD without collapsing does not depend on the backend: each row of distances has the same weight. Missing: cells that are too oblique for `k`. -/
theorem C87_pdd_partial (he : (e.described asString rh d).Proper) (hd : d ≠ "all_sites") (h : ReadAsWritten asString rh d e r) (h' : ReadAsWritten asString rh d e r')
    (hs : r = .ok s) (hs' : r' = .ok s') {k : ℕ} (hw : (e.described asString rh d).WellShaped k) {lexsort lexsort' : Bool} {tol tol' : ℝ} {fuel fuel' : ℕ} {p p' : List (PRow ℝ)}
    (hp : PDD s.set k lexsort false tol fuel = .ok p) (hp' : PDD s'.set k lexsort' false tol' fuel' = .ok p') (x : List ℝ) :
    weightAt p x = weightAt p' x := by
  have hf := same_facts he hd h hs
  have hf' := same_facts he hd h' hs'
  obtain ⟨_, _, hdesc⟩ := hf.desc
  obtain ⟨_, _, hdesc'⟩ := hf'.desc
  exact C66_pdd_of_searchable (by norm_num) hdesc hdesc' (same_isometric he hd h h' hs hs') (hf.searchable hw) (hf'.searchable hw) hp hp' x

/-- **C87** (partial) For each entry there is one `k₀` so that for `k ≥ k₀` the AMD and the PDD do not depend on the backend, however oblique the cell is. -/
theorem C87_large_k_partial (he : (e.described asString rh d).Proper) (hd : d ≠ "all_sites") : ∃ k₀, ∀ k ≥ k₀, ∀ r r' s s', ReadAsWritten asString rh d e r →
    ReadAsWritten asString rh d e r' → r = .ok s → r' = .ok s' →
      (∀ fuel fuel' a a', AMD s.set k fuel = .ok a → AMD s'.set k fuel' = .ok a' → a = a') ∧
      ∀ lexsort lexsort' tol tol' fuel fuel' p p', PDD s.set k lexsort false tol fuel = .ok p → PDD s'.set k lexsort' false tol' fuel' = .ok p' →
        ∀ x, weightAt p x = weightAt p' x := by
  obtain ⟨k₀, h0⟩ := good_all [e.described asString rh d] (by simpa using he)
  replace h0 := fun k hk => h0 k hk _ List.mem_cons_self
  refine ⟨k₀, fun k hk r r' s s' h h' hs hs' => ?_⟩
  have hf := same_facts he hd h hs
  have hf' := same_facts he hd h' hs'
  have hiso := same_isometric he hd h h' hs hs'
  obtain ⟨_, _, hdesc⟩ := hf.desc
  obtain ⟨_, _, hdesc'⟩ := hf'.desc
  exact ⟨fun _ _ _ _ ha ha' => C66_amd_of_searchable (by norm_num) hdesc hdesc' hiso (h0 k hk _ hf) (h0 k hk _ hf') ha ha',
    fun _ _ _ _ _ _ _ _ hp hp' x => C66_pdd_of_searchable (by norm_num) hdesc hdesc' hiso (h0 k hk _ hf) (h0 k hk _ hf') hp hp' x⟩

/-- The screw crystal as read by gemmi, by ase with the number of a space group, and by pymatgen with the symbol of a space group has one AMD for every `k`. -/
example : ∃ s s' s'', (gemmiConvert exampleGemmi (screwGemmi "screw" screwRows) true "skip").2 = .ok s ∧
    (aseConvert aseGroups (screwAse "screw" screwRows aseNumbered) true "skip").2 = .ok s' ∧
    (pymatgenConvert pmgGroups (screwPmg "screw" screwRows pmgNamed) true "skip").2 = .ok s'' ∧
    ∀ k fuel fuel' fuel'' a a' a'', AMD s.set k fuel = .ok a → AMD s'.set k fuel' = .ok a' → AMD s''.set k fuel'' = .ok a'' → a = a' ∧ a' = a'' := by
  have ho : screwEntry.OrderedHydrogens id true "skip" := screw_orderedH
  have hp : (screwEntry.described id true "skip").Proper := by rw [screw_described]; exact screw_proper
  have hw : WordRows screwRows = true := by decide +kernel
  have h1 : ReadAsWritten id true "skip" screwEntry _ := C87_gemmi screw_isWritten (screwGemmi_holds exampleGemmi rfl "screw" screwRows)
  have h2 : ReadAsWritten id true "skip" screwEntry _ := C87_ase_partial screw_isWritten (screwAse_holds screw_lengths screw_numbers hw (screwAse_numbered _ _)) ho
  have h3 : ReadAsWritten id true "skip" screwEntry _ := C87_pymatgen_partial screw_isWritten (screwPmg_holds screw_lengths (screwPmg_named _ _)) ho
  obtain ⟨s, e1⟩ := h1.accepted screw_kept
  obtain ⟨s', e2⟩ := h2.accepted screw_kept
  obtain ⟨s'', e3⟩ := h3.accepted screw_kept
  exact ⟨s, s', s'', e1, e2, e3, fun k _ _ _ _ _ _ ha ha' ha'' => ⟨C87_amd_partial hp (by decide) h1 h2 e1 e2 (screw_shaped rfl k) ha ha',
    C87_amd_partial hp (by decide) h2 h3 e2 e3 (screw_shaped rfl k) ha' ha''⟩⟩

end Amd
