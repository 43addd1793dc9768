import Verif.Props.Crystal
import Verif.Props.Isometry

/-!
# From the file to the PDD: C65, C66

The set made of a CIF block is a description of the crystal in the sense of `Spec/Isometric.lean`, so that everything said of descriptions holds for it.
-/

namespace Amd

variable {env : GemmiEnv} {b : GemmiBlock} {tags : List String} {rows : List (List String)} {rh : Bool} {d : String}

/-- **C65** The set that the reader makes of a block is a description of the crystal: no point is listed twice and its asymmetric unit and multiplicities are
those of symmetries of the crystal. -/
theorem C65_description (ht : AtomTable tags rows) (hr : Readable tags rows) (hd : d ≠ "all_sites") {ws ws' : List Warning} {s : ReadSet} {ops : List (AffineOp 3)}
    (h : gemmiConvert env (b.withRows tags rows) rh d = (ws, .ok s)) (hsym : blockSymmetry env b = (ws', .ok ops)) (hcell : NonSingular s.set.cell)
    (hG : IsSpaceGroup s.set.cell (opSet ops)) (hx : ExactSites (1 / 1000) (opSet ops) (cifSites env tags rows rh d)) :
    ∃ inds mult, s.set.asymUnit = some (inds.map Fin.val) ∧ s.set.multiplicities = some mult ∧ IsDescription s.set inds mult := by
  obtain ⟨asym, F, orbit, mult, -, e, hE, hm, ha, hmu, ho, -⟩ := convert_expandsTo ht hr h hsym hG hx
  obtain ⟨inds, mult', h1, h2, hu⟩ := C65_asym_unit ht hr h hsym hcell hG hx
  rw [h2] at hmu
  obtain rfl := Option.some.inj hmu
  refine ⟨inds, mult', h1, h2, hcell, (convert_ne_nil ht hr h hsym hG hx).1, C65_once ht hr hd h hsym hcell hG hx, Or.inl ⟨h1, h2, ?_⟩, hu, ho.pos⟩
  obtain ⟨orb, hm, -⟩ := hu
  simp [hm]

/-- **C65** (partial) The PDD, without collapsing, of the set that the reader makes of a block is the PDD of any other description of any crystal isometric
to the one of the block. Missing: cells that are too oblique (`C07_false`). -/
theorem C65_pdd_partial (ht : AtomTable tags rows) (hr : Readable tags rows) (hd : d ≠ "all_sites") {ws ws' : List Warning} {s : ReadSet} {ops : List (AffineOp 3)}
    (h : gemmiConvert env (b.withRows tags rows) rh d = (ws, .ok s)) (hsym : blockSymmetry env b = (ws', .ok ops)) (hcell : NonSingular s.set.cell)
    (hG : IsSpaceGroup s.set.cell (opSet ops)) (hx : ExactSites (1 / 1000) (opSet ops) (cifSites env tags rows rh d)) (hdom : HalfDominant s.set.cell)
    {S' : PeriodicSet 3} {inds' : List (Fin S'.motif.length)} {mult' : List ℕ} (h' : IsDescription S' inds' mult')
    (hdom' : HalfDominant S'.cell) (hfit' : FitsInCell S'.motif S'.cell) {T : Pt 3 ℝ → Pt 3 ℝ} (hT : ∀ p q, eucl (T p) (T q) = eucl p q)
    (hP : periodicPoints S'.motif S'.cell = T '' crystalPoints s.set.cell (opSet ops) (cifSites env tags rows rh d))
    {k : ℕ} {lexsort lexsort' : Bool} {tol tol' : ℝ} {fuel fuel' : ℕ} {p p' : List (PRow ℝ)} (hp : PDD s.set k lexsort false tol fuel = .ok p)
    (hp' : PDD S' k lexsort' false tol' fuel' = .ok p') (x : List ℝ) : weightAt p x = weightAt p' x := by
  obtain ⟨inds, mult, -, -, hdes⟩ := C65_description ht hr hd h hsym hcell hG hx
  exact C66_pdd_partial (by decide) (by decide) hdes h' ⟨T, hT, by rw [hP, C65_points ht hr h hsym hG hx]⟩ hdom
    (convert_ne_nil ht hr h hsym hG hx).2 hdom' hfit' hp hp' x

/-- **C65** (partial) The same for all cells and sufficiently large `k`. -/
theorem C65_pdd_large_k_partial (ht : AtomTable tags rows) (hr : Readable tags rows) (hd : d ≠ "all_sites") {ws ws' : List Warning} {s : ReadSet} {ops : List (AffineOp 3)}
    (h : gemmiConvert env (b.withRows tags rows) rh d = (ws, .ok s)) (hsym : blockSymmetry env b = (ws', .ok ops)) (hcell : NonSingular s.set.cell)
    (hG : IsSpaceGroup s.set.cell (opSet ops)) (hx : ExactSites (1 / 1000) (opSet ops) (cifSites env tags rows rh d))
    {S' : PeriodicSet 3} {inds' : List (Fin S'.motif.length)} {mult' : List ℕ} (h' : IsDescription S' inds' mult')
    {T : Pt 3 ℝ → Pt 3 ℝ} (hT : ∀ p q, eucl (T p) (T q) = eucl p q)
    (hP : periodicPoints S'.motif S'.cell = T '' crystalPoints s.set.cell (opSet ops) (cifSites env tags rows rh d)) :
    ∃ k₀, ∀ k, k₀ ≤ k → ∀ lexsort lexsort' tol tol' fuel fuel' p p', PDD s.set k lexsort false tol fuel = .ok p →
      PDD S' k lexsort' false tol' fuel' = .ok p' → ∀ x, weightAt p x = weightAt p' x := by
  obtain ⟨inds, mult, -, -, hdes⟩ := C65_description ht hr hd h hsym hcell hG hx
  exact C66_pdd_large_k_partial (by decide) hdes h' ⟨T, hT, by rw [hP, C65_points ht hr h hsym hG hx]⟩

/-- The hypotheses of C65 for the PDD are met by the cube with a centre of symmetry: the PDD computed with its asymmetric unit is that of the whole motif. -/
example : ∃ ws s, gemmiConvert exampleGemmi (centredBlock.withRows exampleTags centredRows) false "skip" = (ws, .ok s) ∧
    ∀ k fuel fuel' p p', PDD s.set k true false 0 fuel = .ok p → PDD { motif := s.set.motif, cell := s.set.cell } k true false 0 fuel' = .ok p' →
      ∀ x, weightAt p x = weightAt p' x := by
  obtain ⟨ws, s, h, hsc⟩ := centred_converts
  have hns : NonSingular s.set.cell := by rw [hsc]; exact cube_cell
  have hdom : HalfDominant s.set.cell := by rw [hsc]; exact cube_dominant
  have hne := convert_ne_nil centred_table centred_readable h centred_symmetry (centred_group _) centred_exact
  have hpts := C65_points centred_table centred_readable h centred_symmetry (centred_group _) centred_exact
  have hinj := C65_once centred_table centred_readable (by decide) h centred_symmetry hns (centred_group _) centred_exact
  exact ⟨ws, s, h, fun k fuel fuel' p p' hp hp' => C65_pdd_partial centred_table centred_readable (by decide) h centred_symmetry hns (centred_group _) centred_exact hdom
    (isDescription_full hns hne.1 hinj) hdom hne.2 (T := id) (fun _ _ => rfl) (by rw [Set.image_id]; exact hpts) hp hp'⟩

end Amd
