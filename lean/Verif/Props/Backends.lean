import Verif.Proof.Backends
import Verif.Proof.SameCell

/-!
# Each backend reads the crystal that is written in the file: C87
-/

namespace Amd

open Classical

variable {asString : String → String} {rh : Bool} {d : String} {e : CifEntry}

/-- **C87** With gemmi, the crystal that is read is the one that is written. -/
theorem C87_gemmi {env : GemmiEnv} {b : GemmiBlock} (hw : e.Written) (h : GemmiHolds env asString b e) :
    ReadAsWritten asString rh d e (gemmiConvert env b rh d).2 := by
  have := written_reading (rh := rh) (d := d) (h.written hw)
  rw [h.eq, h.unquote, h.name] at this
  exact this

/-- **C87** (partial) With ase, the crystal that is read is the one that is written. Missing: with `remove_hydrogens` and `disorder='skip'`, entries whose hydrogens are
disordered (`C87_false_ase`). -/
theorem C87_ase_partial {env : AseEnv} {a : AseBlock} (hw : e.Written) (h : AseHolds env asString a e) (hh : e.OrderedHydrogens asString rh d) :
    ReadAsWritten asString rh d e (aseConvert env a rh d).2 := ase_reading hw h hh

/-- **C87** With ase and `remove_hydrogens=True`, the crystal that is read is what is written without the hydrogens, disordered or not. -/
theorem C87_ase_removed {env : AseEnv} {a : AseBlock} (hw : e.Written) (h : AseHolds env asString a e) :
    ReadAsWritten asString false d (e.withoutHydrogens asString) (aseConvert env a true d).2 := ase_removed hw h

/-- **C87** (partial) With pymatgen, the crystal that is read is the one that is written. Missing: with `remove_hydrogens` and `disorder='skip'`, entries whose hydrogens
are disordered (`C87_false_pymatgen`). -/
theorem C87_pymatgen_partial {env : PmgEnv} {b : PmgBlock} (hw : e.Written) (h : PmgHolds env asString b e) (hh : e.OrderedHydrogens asString rh d) :
    ReadAsWritten asString rh d e (pymatgenConvert env b rh d).2 := pmg_reading hw h hh

/-- **C87** With pymatgen and `remove_hydrogens=True`, the crystal that is read is what is written without the hydrogens, disordered or not. -/
theorem C87_pymatgen_removed {env : PmgEnv} {b : PmgBlock} (hw : e.Written) (h : PmgHolds env asString b e) :
    ReadAsWritten asString false d (e.withoutHydrogens asString) (pymatgenConvert env b true d).2 := pmg_removed hw h

/-- **C87** Backends that read the entry as it is written raise the same exceptions, and give sets with the same name and the same points up to isometry, however
each of them finds the symmetry operations. -/
theorem C87_agree {r r' : Except Exc ReadSet} (h : ReadAsWritten asString rh d e r) (h' : ReadAsWritten asString rh d e r') :
    (∀ x, r = .error x ↔ r' = .error x) ∧ ∀ s s', r = .ok s → r' = .ok s' → s.name = s'.name ∧
      (NonSingular s.set.cell → IsSpaceGroup s.set.cell e.ops → ExactSites (1 / 1000) e.ops (e.sites asString rh d) →
        ∃ T : Pt 3 ℝ → Pt 3 ℝ, (∀ p q, eucl (T p) (T q) = eucl p q) ∧
          periodicPoints s'.set.motif s'.set.cell = T '' periodicPoints s.set.motif s.set.cell) := by
  refine ⟨fun x => ?_, fun s s' hs hs' => ⟨by rw [h.name s hs, h'.name s' hs'], fun hc hG hx => ?_⟩⟩
  · by_cases h1 : d = "skip" ∧ ∃ r ∈ e.rows, WrittenDisordered asString e.tags r
    · rw [h.disordered h1.1 h1.2, h'.disordered h1.1 h1.2]
    · by_cases h2 : e.sites asString rh d = ∅
      · have h3 : d = "skip" → ∀ r ∈ e.rows, ¬ WrittenDisordered asString e.tags r := fun hd r hr hx => h1 ⟨hd, r, hr, hx⟩
        rw [h.empty h3 h2, h'.empty h3 h2]
      · have h3 : ¬ e.Skipped asString rh d := fun hx => hx.elim h1 h2
        obtain ⟨s, hs⟩ := h.accepted h3
        obtain ⟨s', hs'⟩ := h'.accepted h3
        rw [hs, hs']
        exact ⟨(fun hx => by cases hx), (fun hx => by cases hx)⟩
  · have hg := gram_of_cellpar (h.cell s hs) (h'.cell s' hs')
    rw [h.points s hs hG hx, h'.points s' hs' (isSpaceGroup_congr hg hG) hx]
    exact crystalPoints_congr hg hc e.ops _

end Amd
