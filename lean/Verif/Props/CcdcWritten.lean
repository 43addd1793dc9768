import Verif.Props.Written

/-!
# A ccdc Crystal is converted to the crystal it represents: C77, and the cell of C76

The cell and the symmetry operations are those that the attributes of the crystal denote (`Spec/Written.lean`), not what a parser makes of them.
-/

namespace Amd

variable {env : CcdcEnv} {crystal c' : CcdcCrystal} {rh heaviest centres : Bool} {d : String} {ws : List Warning} {s : FullSet} {p : CellNumbers} {G : Set (FracOp 3)}

/-! ### Helpers -/

theorem sites_eq (c : CcdcCrystal) : {x | x ∈ atomCoords (env.asymAtoms c)} = env.sites c := by
  ext x
  simp [atomCoords, CcdcEnv.sites]

theorem identity_parse : ∃ ops, parseOps ["x,y,z"] = .ok ops ∧ opSet ops = {(fun i j => if i = j then 1 else 0, fun _ => 0)} := by
  have h1 : (match parseSitesym "x,y,z" with
    | .ok o => decide ((∀ i j, o.rot i j = if i = j then 1 else 0) ∧ ∀ i, o.trans i = 0) | .error _ => false) = true := by decide +kernel
  split at h1
  · rename_i o ho
    rw [decide_eq_true_iff] at h1
    refine ⟨[o.affine], by rw [parseOps, List.mapM_cons, ho]; rfl, ?_⟩
    have e : ((o.affine.rot, o.affine.trans) : FracOp 3) = (fun i j => if i = j then 1 else 0, fun _ => 0) := by
      refine Prod.ext (funext fun i => funext fun j => ?_) (funext fun i => ?_)
      · simp only [SymOp.affine]; rw [h1.1 i j]; split <;> simp
      · simp only [SymOp.affine]; rw [h1.2 i]; simp
    ext g
    simp only [opSet, List.mem_singleton, exists_eq_left, Set.mem_ofPred_eq, Set.mem_singleton_iff, e]
  · cases h1

theorem ccdc_ops (h : OperatorsDenote c'.symmetryOperators G) : ∃ ops, (ccdcSymmetry c').2 = .ok ops ∧ opSet ops = G := by
  rcases h with ⟨h, rfl⟩ | ⟨h, h1, h2⟩
  · obtain ⟨ops, ho, hs⟩ := identity_parse
    exact ⟨ops, by rw [ccdcSymmetry, if_pos h]; exact ho, hs⟩
  · obtain ⟨ops, ho, hs⟩ := mapM_written fun s hs => (h1 s hs).imp fun g hg => hg.2
    refine ⟨ops.map SymOp.affine, ?_, ?_⟩
    · rw [ccdcSymmetry, if_neg h, parseOps, ho]
      rfl
    · ext g
      refine (hs g).trans ⟨?_, h2 g⟩
      rintro ⟨s, hs', hg⟩
      obtain ⟨g', hg', hw⟩ := h1 s hs'
      obtain ⟨o, e1, rfl⟩ := parse_written hg
      obtain ⟨o', e2, rfl⟩ := parse_written hw
      rw [e1] at e2
      rw [Except.ok.inj e2]
      exact hg'

theorem ccdc_cell (h : CellDenotes c'.cellpar p) : ∃ cell, ccdcCell c' = .ok cell ∧ HasCellpar cell p.a p.b p.c p.α p.β p.γ := by
  obtain ⟨h, hv⟩ := h
  obtain ⟨cell, hc, hp⟩ := numbers_cell hv
  refine ⟨cell, ?_, hp⟩
  have : c'.cellpar.mapM id = some [p.a, p.b, p.c, p.α, p.β, p.γ] := by rw [h]; rfl
  rw [ccdcCell, this]
  exact hc

theorem missing_mapM {l : List (Option ℚ)} (hn : none ∈ l) : l.mapM id = none := by
  induction l with
  | nil => cases hn
  | cons x l ih =>
    rw [List.mapM_cons]
    rcases x with _ | x
    · rfl
    · rw [ih (by simpa using hn)]
      rfl

theorem pick_ok (hw : heaviest = true → ∀ m, ∀ l ∈ env.components m, ∀ a ∈ l, a.weight ≠ none) (ws : List Warning) (m : List CcdcAtom) :
    ∃ m', (if heaviest = true ∧ 1 < (env.components m).length then (ws, heaviestComponent env m) else (ws, .ok m)).2 = .ok m' := by
  split
  · rename_i hh
    obtain ⟨i, hi, e', -⟩ := heaviestComponent_ok (env := env) (m := m) (by intro e'; rw [e'] at hh; simp at hh) (hw hh.1 _)
    exact ⟨_, e'⟩
  · exact ⟨_, rfl⟩

/-- If all weights are known, the selection of atoms raises nothing but the ParseError for disorder. -/
theorem select_error (hw : heaviest = true → ∀ m, ∀ l ∈ env.components m, ∀ a ∈ l, a.weight ≠ none) {e : Exc}
    (h : (ccdcSelect env crystal rh d heaviest).2 = .error e) : ∃ text, e = .parse text := by
  rw [ccdcSelect] at h
  by_cases h0 : d = "skip" ∧ (crystal.hasDisorder || crystal.disorderedMolecule.any CcdcAtom.disordered) = true
  · rw [if_pos h0] at h
    exact ⟨_, (Except.error.inj h).symm⟩
  · rw [if_neg h0] at h
    simp only at h
    obtain ⟨m', hm⟩ := pick_ok hw _ _
    rw [hm] at h
    cases h

/-- If all weights are known and disorder does not matter, atoms are selected. -/
theorem select_ok (hw : heaviest = true → ∀ m, ∀ l ∈ env.components m, ∀ a ∈ l, a.weight ≠ none)
    (hskip : d = "skip" → crystal.hasDisorder = false ∧ ∀ a ∈ crystal.disorderedMolecule, ¬a.Disordered) :
    ∃ m, (ccdcSelect env crystal rh d heaviest).2 = .ok m := by
  rw [ccdcSelect, if_neg ?_]
  · exact pick_ok hw _ _
  · rintro ⟨hd, h⟩
    obtain ⟨h1, h2⟩ := hskip hd
    rw [h1, Bool.false_or, List.any_eq_true] at h
    obtain ⟨a, ha, h⟩ := h
    exact h2 a ha ((disordered_iff a).1 h)

theorem mapM_all_coords {l : List CcdcAtom} (h : ∀ a ∈ l, a.coords ≠ none) : ∃ P, l.mapM CcdcAtom.coords = some P ∧ P.length = l.length := by
  induction l with
  | nil => exact ⟨[], rfl, rfl⟩
  | cons a l ih =>
    obtain ⟨P, hP, hl⟩ := ih fun b hb => h b (by simp [hb])
    obtain ⟨q, hq⟩ := Option.ne_none_iff_exists'.1 (h a (by simp))
    exact ⟨q :: P, by rw [List.mapM_cons, hq, hP]; rfl, by simp [hl]⟩

theorem selectMask_length_eq {α β : Type} : ∀ {l : List α} {l' : List β} {m : List Bool}, l.length = l'.length → (selectMask l m).length = (selectMask l' m).length
  | [], [], _, _ => by simp [selectMask]
  | _ :: _, _ :: _, [], _ => by simp [selectMask]
  | a :: l, b :: l', x :: m, h => by
    have := selectMask_length_eq (m := m) (l := l) (l' := l') (by simpa using h)
    cases x <;> simp [selectMask, this]
  | [], _ :: _, _, h => by simp at h
  | _ :: _, [], _, h => by simp at h

/-- Without all cell parameters, a ParseError. -/
theorem convert_missing {m : List CcdcAtom} (hm : (ccdcSelect env crystal rh d heaviest).2 = .ok m) (hn : none ∈ (env.setMolecule crystal m).cellpar) :
    ∃ text, (ccdcConvert env crystal rh d heaviest centres).2.2 = .error (.parse text) := by
  rw [ccdcConvert, hm]
  simp only [ccdcCell, missing_mapM hn]
  exact ⟨_, rfl⟩

/-- Without atoms, a ParseError. -/
theorem convert_empty {m : List CcdcAtom} (hm : (ccdcSelect env crystal rh d heaviest).2 = .ok m) (hcell : CellDenotes (env.setMolecule crystal m).cellpar p)
    (he : env.asymAtoms (env.setMolecule crystal m) = []) : ∃ text, (ccdcConvert env crystal rh d heaviest false).2.2 = .error (.parse text) := by
  obtain ⟨cell, hcell, -⟩ := ccdc_cell hcell
  rw [ccdcConvert, hm]
  simp [hcell, he]

/-- With atoms, a set. -/
theorem convert_accepted {m : List CcdcAtom} (hm : (ccdcSelect env crystal rh d heaviest).2 = .ok m) (hcell : CellDenotes (env.setMolecule crystal m).cellpar p)
    (hops : OperatorsDenote (env.setMolecule crystal m).symmetryOperators G) (hne : env.asymAtoms (env.setMolecule crystal m) ≠ [])
    (hco : ∀ a ∈ env.asymAtoms (env.setMolecule crystal m), a.coords ≠ none) : ∃ s, (ccdcConvert env crystal rh d heaviest false).2.2 = .ok s := by
  obtain ⟨cell, hcell, -⟩ := ccdc_cell hcell
  obtain ⟨ops, ho, -⟩ := ccdc_ops hops
  obtain ⟨P, hP, hl⟩ := mapM_all_coords hco
  have hP0 : P.length ≠ 0 := by rw [hl]; simpa using hne
  rw [ccdcConvert, hm]
  simp only [hcell, hP, if_neg hP0, Bool.false_eq_true, if_false]
  have key : ∃ r', (finishSites (env.setMolecule crystal m).identifier cell d ccdcOverlapText (P.map fractPt)
      ((env.asymAtoms (env.setMolecule crystal m)).map CcdcAtom.number) (ccdcSymmetry (env.setMolecule crystal m))).2 = .ok r' := by
    simp only [finishSites, ho]
    rw [if_neg]
    · exact ⟨_, rfl⟩
    · intro hany
      rw [List.any_eq_true] at hany
      obtain ⟨i, hi, hlt⟩ := hany
      obtain ⟨t, ht, rfl⟩ := List.mem_iff_getElem.1 hi
      rw [decide_eq_true_iff] at hlt
      by_cases hd : d = "all_sites"
      · simp only [hd, ne_eq, not_true_eq_false, if_false, List.length_map] at hlt ht
        obtain ⟨i1, i2⟩ := C44_images (P.map fractPt) ops eqSiteTol (decide False)
        obtain ⟨hi, -⟩ := i2 t (by rw [← i1]; exact ht) ht
        simp only [List.length_map] at hi
        omega
      · simp only [hd, ne_eq, not_false_eq_true, if_true] at hlt ht
        obtain ⟨i1, i2⟩ := C44_images (selectMask (P.map fractPt) (uniqueSites eqSiteTol (P.map fractPt))) ops eqSiteTol (decide True)
        obtain ⟨hi, -⟩ := i2 t (by rw [← i1]; exact ht) ht
        rw [selectMask_length_eq (by simp [hl] : (P.map fractPt).length = ((env.asymAtoms (env.setMolecule crystal m)).map CcdcAtom.number).length)] at hi
        omega
  obtain ⟨r', hr'⟩ := key
  rw [hr']
  exact ⟨_, rfl⟩

/-! ### C77 -/

/-- **C77** A crystal of which a cell parameter is missing raises a ParseError. All atomic weights are known, if the heaviest component is wanted. -/
theorem C77_missing_cell (hw : heaviest = true → ∀ m, ∀ l ∈ env.components m, ∀ a ∈ l, a.weight ≠ none) {r : Except Exc FullSet}
    (h : ccdcConvert env crystal rh d heaviest centres = (c', ws, r)) (hn : none ∈ c'.cellpar) : ∃ text, r = .error (.parse text) := by
  cases hm : (ccdcSelect env crystal rh d heaviest).2 with
  | error e =>
    obtain ⟨text, rfl⟩ := select_error hw hm
    rw [ccdcConvert, hm] at h
    cases h
    exact ⟨_, rfl⟩
  | ok m =>
    have hc : c' = env.setMolecule crystal m := by rw [← ccdc_select (centres := centres) hm, h]
    subst hc
    have := convert_missing (centres := centres) hm hn
    rwa [h] at this

/-- **C77** If the asymmetric unit of what is left of the crystal has no atom, a ParseError is raised. -/
theorem C77_empty (hw : heaviest = true → ∀ m, ∀ l ∈ env.components m, ∀ a ∈ l, a.weight ≠ none) {r : Except Exc FullSet}
    (h : ccdcConvert env crystal rh d heaviest false = (c', ws, r)) (hcell : CellDenotes c'.cellpar p) (he : env.asymAtoms c' = []) :
    ∃ text, r = .error (.parse text) := by
  cases hm : (ccdcSelect env crystal rh d heaviest).2 with
  | error e =>
    obtain ⟨text, rfl⟩ := select_error hw hm
    rw [ccdcConvert, hm] at h
    cases h
    exact ⟨_, rfl⟩
  | ok m =>
    have hc : c' = env.setMolecule crystal m := by rw [← ccdc_select (centres := false) hm, h]
    subst hc
    have := convert_empty hm hcell he
    rwa [h] at this

/-- **C77** Otherwise a set is returned: the cell parameters are those of a cell, the symmetry operations can be read, and the asymmetric unit has atoms,
all with coordinates. With `disorder='skip'` there is no disorder. -/
theorem C77_accepted (hw : heaviest = true → ∀ m, ∀ l ∈ env.components m, ∀ a ∈ l, a.weight ≠ none)
    (hskip : d = "skip" → crystal.hasDisorder = false ∧ ∀ a ∈ crystal.disorderedMolecule, ¬a.Disordered) {r : Except Exc FullSet}
    (h : ccdcConvert env crystal rh d heaviest false = (c', ws, r)) (hcell : CellDenotes c'.cellpar p) (hops : OperatorsDenote c'.symmetryOperators G)
    (hne : env.asymAtoms c' ≠ []) (hco : ∀ a ∈ env.asymAtoms c', a.coords ≠ none) : ∃ s, r = .ok s := by
  obtain ⟨m, hm⟩ := select_ok (rh := rh) hw hskip
  have hc : c' = env.setMolecule crystal m := by rw [← ccdc_select (centres := false) hm, h]
  subst hc
  obtain ⟨s, hs⟩ := convert_accepted hm hcell hops hne hco
  rw [h] at hs
  exact ⟨s, hs⟩

/-- **C77** The cell of the set has the lengths and angles of the crystal. -/
theorem C77_cell (h : ccdcConvert env crystal rh d heaviest centres = (c', ws, .ok s)) (hcell : CellDenotes c'.cellpar p) :
    HasCellpar s.set.cell p.a p.b p.c p.α p.β p.γ := by
  obtain ⟨m, cell, -, -, hc, hh⟩ := ccdc_ok h
  obtain ⟨cell', hc', hp⟩ := ccdc_cell hcell
  rw [hc] at hc'
  obtain rfl := Except.ok.inj hc'
  split at hh
  · obtain ⟨pts, -, rfl⟩ := hh
    exact hp
  · obtain ⟨asym, -, -, ws', r, hf, rfl⟩ := hh
    obtain ⟨ops, -, -, hs, -⟩ := finishSites_ok hf
    simp only [hs]
    exact hp

/-- **C77** The points of the set are the images of the atoms of the asymmetric unit under the symmetry operations, and their lattice translates. The operations
form a space group of the cell, and different images of atoms are not within the tolerance 0.001 of each other. -/
theorem C77_points (h : ccdcConvert env crystal rh d heaviest false = (c', ws, .ok s)) (hops : OperatorsDenote c'.symmetryOperators G)
    (hG : IsSpaceGroup s.set.cell G) (hx : ExactSites (1 / 1000) G (env.sites c')) :
    periodicPoints s.set.motif s.set.cell = crystalPoints s.set.cell G (env.sites c') := by
  obtain ⟨ops, ho, rfl⟩ := ccdc_ops hops
  rw [← sites_eq] at hx ⊢
  exact (ccdc_points h ho hG hx).2

/-- **C77** No point is listed twice and the asymmetric unit and multiplicities are those of symmetries of the crystal, except with `disorder='all_sites'`. -/
theorem C77_description (h : ccdcConvert env crystal rh d heaviest false = (c', ws, .ok s)) (hd : d ≠ "all_sites") (hops : OperatorsDenote c'.symmetryOperators G)
    (hcell : NonSingular s.set.cell) (hG : IsSpaceGroup s.set.cell G) (hx : ExactSites (1 / 1000) G (env.sites c')) :
    (∃ inds mult, IsDescription s.set inds mult) ∧ FitsInCell s.set.motif s.set.cell := by
  obtain ⟨ops, ho, rfl⟩ := ccdc_ops hops
  rw [← sites_eq] at hx
  exact ccdc_description h hd ho hcell hG hx

/-- **C77** (partial) The AMD of the set is that of any other description of the crystal. Missing as for C01: the search may miss neighbours if there are fewer than
`Covered` asks for. -/
theorem C77_amd_partial (h : ccdcConvert env crystal rh d heaviest false = (c', ws, .ok s)) (hd : d ≠ "all_sites") (hops : OperatorsDenote c'.symmetryOperators G)
    (hcell : NonSingular s.set.cell) (hG : IsSpaceGroup s.set.cell G) (hx : ExactSites (1 / 1000) G (env.sites c'))
    {S' : PeriodicSet 3} {inds' : List (Fin S'.motif.length)} {mult' : List ℕ} (h' : IsDescription S' inds' mult')
    (hP : periodicPoints S'.motif S'.cell = crystalPoints s.set.cell G (env.sites c')) {k fuel fuel' : ℕ}
    (hk : Covered s.set.motif s.set.cell (k + 1)) (hk' : Covered S'.motif S'.cell (k + 1)) {r r' : List ℝ}
    (hr : AMD s.set k fuel = .ok r) (hr' : AMD S' k fuel' = .ok r') : r = r' := by
  obtain ⟨⟨inds, mult, hdes⟩, -⟩ := C77_description h hd hops hcell hG hx
  exact C66_amd_explicit_partial (by decide) hdes h' ⟨id, fun _ _ => rfl, by rw [Set.image_id, hP, C77_points h hops hG hx]⟩ hk hk' hr hr'

/-- **C77** The types of the set: the i-th is the atomic number of an atom of the asymmetric unit that a symmetry operation maps to the i-th point of the motif. -/
theorem C77_types (h : ccdcConvert env crystal rh d heaviest false = (c', ws, .ok s)) (hops : OperatorsDenote c'.symmetryOperators G)
    (hG : IsSpaceGroup s.set.cell G) :
    ∃ types, s.types = some types ∧ types.length = s.set.motif.length ∧ ∀ i (h1 : i < types.length) (h2 : i < s.set.motif.length),
      ∃ a ∈ env.asymAtoms c', a.number = types[i] ∧ ∃ p, a.coords = some p ∧ s.set.motif[i] ∈ crystalPoints s.set.cell G {p} := by
  obtain ⟨ops, ho, rfl⟩ := ccdc_ops hops
  exact ccdc_types h ho hG

end Amd
