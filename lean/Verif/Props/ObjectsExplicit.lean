import Verif.Props.Explicit
import Verif.Props.Pymatgen

/-!
# AMD and PDD of converted objects, with the explicit condition on the number of neighbours: C68, C73
-/

namespace Amd

section ase
variable {basis : AseAtoms → Except Exc (List (Pt 3 ℝ))} {atoms a' : AseAtoms} {rh : Bool} {ws : List Warning} {s : FullSet}

/-- **C68** (partial) The AMD of the set is that of any description of the crystal of the atoms; and so is the PDD without collapsing. Missing: what is missing in
`C68_points_partial` and in C01. -/
theorem C68_explicit_partial (h : aseAtomsConvert basis atoms rh = (a', ws, .ok s)) {ops : List (AffineOp 3)} (hops : ops = atoms.spacegroup.getD [identityOp])
    (hcell : NonSingular atoms.cell) (hG : IsSpaceGroup atoms.cell (opSet ops)) (hinv : InvariantUnder (opSet ops) (keptAtoms rh atoms.atoms))
    (hb : ∀ asym, basis { atoms with atoms := keptAtoms rh atoms.atoms } = .ok asym → IsBasis (opSet ops) ((keptAtoms rh atoms.atoms).map Prod.snd) asym)
    (hx : ExactSites (1 / 1000) (opSet ops) {p | p ∈ (keptAtoms rh atoms.atoms).map Prod.snd})
    {S' : PeriodicSet 3} {inds' : List (Fin S'.motif.length)} {mult' : List ℕ} (h' : IsDescription S' inds' mult')
    (hP : periodicPoints S'.motif S'.cell = atomPoints atoms.cell ((keptAtoms rh atoms.atoms).map Prod.snd)) {k : ℕ}
    (hk : Covered s.set.motif s.set.cell (k + 1)) (hk' : Covered S'.motif S'.cell (k + 1)) :
    (∀ fuel fuel' r r', AMD s.set k fuel = .ok r → AMD S' k fuel' = .ok r' → r = r') ∧
    ∀ lexsort lexsort' tol tol' fuel fuel' p p', PDD s.set k lexsort false tol fuel = .ok p → PDD S' k lexsort' false tol' fuel' = .ok p' →
      ∀ x, weightAt p x = weightAt p' x := by
  obtain ⟨inds, mult, hd⟩ := C68_description_partial h hops hcell hG hb hx
  have hi : Isometric s.set S' := ⟨id, fun _ _ => rfl, by rw [hP, (C68_points_partial h hops hinv hb hx).2, Set.image_id]⟩
  exact ⟨fun _ _ _ _ hr hr' => C66_amd_explicit_partial (by decide) hd h' hi hk hk' hr hr',
    fun _ _ _ _ _ _ _ _ hp hp' x => C66_pdd_explicit_partial (by decide) hd h' hi hk hk' hp hp' x⟩

end ase

section pymatgen
variable {conv : PmgStructure → Except Exc PmgStructure} {st st' c : PmgStructure} {rh : Bool} {d : String} {ws : List Warning} {s : FullSet}

/-- **C73** (partial) If the symmetry analysis returns an isometric crystal, the AMD of the set is that of the crystal of the structure (without the sites that
were removed), given in any way; and so is the PDD without collapsing. Missing as for C01. -/
theorem C73_explicit_partial (h : pmgStructureConvert conv st rh d = (st', ws, .ok s)) (hc : conv st' = .ok c) (hcell : NonSingular c.cell)
    (hne : c.sites ≠ []) (hdist : Distinct c.positions) (hsame : SameCrystal st'.cell st'.positions c.cell c.positions)
    {S' : PeriodicSet 3} {inds' : List (Fin S'.motif.length)} {mult' : List ℕ} (h' : IsDescription S' inds' mult')
    (hP : periodicPoints S'.motif S'.cell = atomPoints st'.cell st'.positions) {k : ℕ}
    (hk : Covered s.set.motif s.set.cell (k + 1)) (hk' : Covered S'.motif S'.cell (k + 1)) :
    (∀ fuel fuel' r r', AMD S' k fuel' = .ok r' → AMD s.set k fuel = .ok r → r' = r) ∧
    ∀ lexsort lexsort' tol tol' fuel fuel' p p', PDD S' k lexsort' false tol' fuel' = .ok p' → PDD s.set k lexsort false tol fuel = .ok p →
      ∀ x, weightAt p' x = weightAt p x := by
  obtain ⟨inds, mult, hd, hp⟩ := C73_description h hc hcell hne hdist
  obtain ⟨T, hT, e⟩ := hsame
  have hi : Isometric S' s.set := ⟨T, hT, by rw [hp, hP, e]⟩
  exact ⟨fun _ _ _ _ hr' hr => C66_amd_explicit_partial (by decide) h' hd hi hk' hk hr' hr,
    fun _ _ _ _ _ _ _ _ hp' hp x => C66_pdd_explicit_partial (by decide) h' hd hi hk' hk hp' hp x⟩

end pymatgen

end Amd
