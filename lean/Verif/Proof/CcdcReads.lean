import Verif.Proof.Described
import Verif.Props.CcdcWritten
import Verif.Spec.CifCompare

/-! Entries of the CSD are converted to what they describe. -/

namespace Amd

open Classical

/-- The result of a converter is a reading (in the sense of `reads`) of what is described; what is passed over raises a ParseError. -/
def ReadsAs {α δ : Type} (proper : δ → Prop) (reads : δ → Crystal → Prop) (toCrystal : α → Crystal) (res : Except Exc α) : Option δ → Prop
  | none => ∃ t, res = .error (.parse t)
  | some c => proper c → ∃ s, res = .ok s ∧ reads c (toCrystal s)

variable {env : CcdcEnv} {rh heaviest centres : Bool} {d : String} {x : CcdcEntry} {c : CcdcCrystal} {p : CellNumbers} {G : Set (FracOp 3)} {r : Option Described}

theorem selected_ok (h : CcdcSelected env rh d heaviest x c) : ∃ m, (ccdcSelect env x.crystal rh d heaviest).2 = .ok m ∧ c = env.setMolecule x.crystal m := by
  obtain ⟨m, hm, rfl⟩ := h.left
  refine ⟨m, ?_, rfl⟩
  have hskip : d = "skip" → x.crystal.hasDisorder = false ∧ ∀ a ∈ x.crystal.disorderedMolecule, ¬ a.Disordered := by
    intro hd
    have h0 := h.ordered hd
    constructor
    · by_contra h1
      exact h0 (Or.inr (Or.inl (by simpa using h1)))
    · exact fun a ha h1 => h0 (Or.inr (Or.inr ⟨a, ha, h1⟩))
  rw [ccdcSelect_ok hskip h.symbols]
  cases hm with
  | all h1 =>
    rw [if_neg]
    · rfl
    · rintro ⟨h2, h3⟩
      have := h1 h2
      unfold CcdcCrystal.usedAtoms at this
      omega
  | heaviest hh comps hc h2 hw i hi hmax =>
    subst hc
    unfold CcdcCrystal.usedAtoms at hw hmax hi h2 ⊢
    obtain ⟨j, hj, e, hs⟩ := heaviestComponent_ok (env := env) (by intro e; rw [e] at h2; simp at h2) hw
    rw [if_pos ⟨hh, by omega⟩, e]
    have : j = i := by
      rcases lt_trichotomy j i with hji | hji | hji
      · exact absurd (hs i hi).1 (not_le.2 ((hmax j hj).2 hji))
      · exact hji
      · exact absurd (hmax j hj).1 (not_le.2 ((hs i hi).2 hji))
    subst this
    rfl

theorem entry_convert (h : CcdcSelected env rh d heaviest x c) :
    (ccdcEntryConvert env x rh d heaviest centres).2 = (ccdcConvert env x.crystal rh d heaviest centres).2 := by
  rw [ccdcEntryConvert, if_neg (by rw [h.has3d]; simp), if_neg fun hd => h.ordered hd.1 (Or.inl hd.2)]

theorem atoms_finite (c : CcdcCrystal) : (env.sites c).Finite := by
  rw [← sites_eq]
  exact List.finite_toSet _

theorem centres_sites (cell : Fin 3 → Pt 3 ℝ) (comps : List (List CcdcAtom)) :
    centrePoints cell comps = crystalPoints cell {(fun i j => if i = j then 1 else 0, fun _ => 0)} {q | ∃ l ∈ comps, IsCentre l q} := by
  have e1 : ∀ q : Pt 3 ℝ, opPoint ((fun i j => if i = j then 1 else 0, fun _ => 0) : FracOp 3) q = q := by
    intro q
    funext i
    simp [opPoint]
  ext y
  constructor
  · rintro ⟨l, hl, q, hq, n, rfl⟩
    exact ⟨q, ⟨l, hl, hq⟩, _, rfl, n, by rw [e1]⟩
  · rintro ⟨q, ⟨l, hl, hq⟩, g, rfl, n, rfl⟩
    exact ⟨l, hl, q, hq, n, by rw [e1]⟩

theorem packing_coords {comps : List (List CcdcAtom)} (h : ∀ l ∈ comps, ∃ q, IsCentre l q) :
    ∃ Ps, (comps.mapM fun c => c.mapM CcdcAtom.coords) = some Ps ∧ Ps.length = comps.length ∧ [] ∉ Ps := by
  induction comps with
  | nil => exact ⟨[], rfl, rfl, by simp⟩
  | cons l comps ih =>
    obtain ⟨Ps, h1, h2, h3⟩ := ih fun l hl => h l (by simp [hl])
    obtain ⟨q, P, hP, hne, -⟩ := h l (by simp)
    refine ⟨P :: Ps, ?_, by simp [h2], ?_⟩
    · rw [List.mapM_cons, (mapM_coords l P).2 hP, h1]
      rfl
    · rw [List.mem_cons]
      rintro (e | e)
      · exact hne e.symm
      · exact h3 e

/-- The centres are accepted; they are within one cell. -/
theorem centres_accepted {comps : List (List CcdcAtom)} (h : ∀ l ∈ comps, ∃ q, IsCentre l q) (hne : comps ≠ []) :
    ∃ pts, molecularCentres comps eqSiteTol = .ok pts ∧ pts ≠ [] ∧ ∀ q ∈ pts, ∀ i, 0 ≤ q i ∧ q i < 1 := by
  obtain ⟨Ps, h1, h2, h3⟩ := packing_coords h
  have h0 : Ps ≠ [] := by
    intro e
    rw [e] at h2
    exact hne (List.length_eq_zero_iff.1 h2.symm)
  refine ⟨_, by rw [molecularCentres, h1]; simp only; rw [if_neg (by simp [h0, h3])], ?_, ?_⟩
  · rw [select_uniqueSites]
    exact kept_ne_nil (by simpa using h0)
  · rw [select_uniqueSites]
    intro q hq i
    obtain ⟨P, -, rfl⟩ := List.mem_map.1 ((kept_sublist _).subset hq)
    exact ⟨Int.fract_nonneg _, Int.fract_lt_one _⟩

theorem ccdc_readsAs (h : CcdcDescribes env rh d heaviest centres x r) (hd : d ≠ "all_sites" ∨ centres = true) :
    ReadsAs Described.Proper Reads FullSet.toCrystal (ccdcEntryConvert env x rh d heaviest centres).2.2 r := by
  cases h with
  | flat h =>
    obtain ⟨t, ht⟩ := C74_entry (env := env) (rh := rh) (d := d) (heaviest := heaviest) (centres := centres) (Or.inl h)
    exact ⟨t, by rw [ht]⟩
  | disordered hd h =>
    obtain ⟨t, ht⟩ := C74_entry (env := env) (rh := rh) (d := d) (heaviest := heaviest) (centres := centres) (Or.inr ⟨hd, h⟩)
    exact ⟨t, by rw [ht]⟩
  | noCell c hs h =>
    obtain ⟨m, hm, rfl⟩ := selected_ok hs
    rw [entry_convert hs]
    exact convert_missing hm h
  | empty c p hs hp hc h =>
    subst hc
    obtain ⟨m, hm, rfl⟩ := selected_ok hs
    rw [entry_convert hs]
    exact convert_empty hm hp h
  | atoms c p G hs hp hG hc hne h =>
    subst hc
    obtain ⟨m, hm, rfl⟩ := selected_ok hs
    rw [entry_convert hs]
    intro hpr
    obtain ⟨s, hs'⟩ := convert_accepted hm hp hG hne h
    have hr : ccdcConvert env x.crystal rh d heaviest false = (env.setMolecule x.crystal m, (ccdcConvert env x.crystal rh d heaviest false).2.1, .ok s) := by
      rw [← ccdc_select (centres := false) hm, ← hs']
    have hcell := C77_cell hr hp
    obtain ⟨cell, hc, hns, hgr⟩ := hpr.group
    have hg := gram_of_cellpar hc hcell
    have hns' := nonSingular_congr hg hns
    have hgr' := isSpaceGroup_congr hg hgr
    have hpts := C77_points hr hG hgr' hpr.exact
    obtain ⟨⟨inds, mult, hdesc⟩, hfit⟩ := C77_description hr (hd.resolve_right (by simp)) hG hns' hgr' hpr.exact
    have hname : s.name = some (env.setMolecule x.crystal m).identifier := by
      obtain ⟨_, _, _, _, _, hh⟩ := ccdc_ok hr
      rw [if_neg (by simp)] at hh
      obtain ⟨_, _, _, _, r, hf, rfl⟩ := hh
      obtain ⟨_, _, e, _⟩ := finishSites_ok hf
      simp only [e]
    refine ⟨s, hs', s.set, by rw [FullSet.toCrystal, hname]; rfl, hcell, ⟨inds, mult, hdesc⟩, hfit, ?_, hpts⟩
    exact motif_le_size hpr.finiteOps hpr.finiteSites hdesc.once hpts
  | centres c p hs hp hc hne h =>
    subst hc
    obtain ⟨m, hm, rfl⟩ := selected_ok hs
    rw [entry_convert hs]
    intro hpr
    obtain ⟨cell, hcell, hcp⟩ := ccdc_cell hp
    obtain ⟨pts, hpts, hp0, hin⟩ := centres_accepted h hne
    have hr : ccdcConvert env x.crystal rh d heaviest true = (env.setMolecule x.crystal m, (ccdcSelect env x.crystal rh d heaviest).1,
        .ok { name := some (env.setMolecule x.crystal m).identifier, set := { motif := pts.map (toCartesian cell), cell := cell } }) := by
      rw [ccdcConvert, hm]
      simp only [hcell, if_true, hpts]
    have e1 : ∀ q : Pt 3 ℝ, opPoint ((fun i j => if i = j then 1 else 0, fun _ => 0) : FracOp 3) q = q := by
      intro q
      funext i
      simp [opPoint]
    obtain ⟨-, -, hpp, hinj⟩ := C76_centres hr (by
      intro l hl l' hl' q q' hq hq' hs
      have := hpr.exact q ⟨l, hl, hq⟩ q' ⟨l', hl', hq'⟩ _ rfl _ rfl
      rw [e1, e1] at this
      choose n hn using this hs
      exact ⟨n, fun i => by rw [← hn i]; ring⟩)
    obtain ⟨cell', hc', hns, -⟩ := hpr.group
    have hns' : NonSingular cell := nonSingular_congr (gram_of_cellpar hc' hcp) hns
    have hinj := hinj hns'
    rw [centres_sites] at hpp
    refine ⟨_, by rw [hr], { motif := pts.map (toCartesian cell), cell := cell }, rfl, hcp, ⟨List.finRange _, List.replicate _ 1, hns', by simpa using hp0, hinj, Or.inr ⟨Or.inl rfl, rfl, rfl⟩, isAsymUnit_full _ _, ?_⟩, ?_,
      motif_le_size hpr.finiteOps hpr.finiteSites hinj hpp, hpp⟩
    · intro n hn
      rw [List.eq_of_mem_replicate hn]
      norm_num
    · refine ⟨0, fun q hq => ?_⟩
      obtain ⟨u, hu, rfl⟩ := List.mem_map.1 hq
      exact ⟨u, hin u hu, by funext j; simp [toCartesian]⟩

end Amd
