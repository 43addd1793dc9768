import Verif.Props.CrystalPdd
import Verif.Proof.Objects

/-! The set made of an asymmetric unit and symmetry operations describes the crystal of the images. -/

namespace Amd

/-- The set made at the end of the converters, `io.py:1134-1147`. -/
noncomputable def expandedSet (cell : Fin 3 → Pt 3 ℝ) (asym : List (Pt 3 ℝ)) (ops : List (AffineOp 3)) (u : Bool) : PeriodicSet 3 :=
  let r := expandAsymUnit asym ops eqSiteTol u
  { motif := r.1.map (toCartesian cell), cell := cell, asymUnit := some (asymInds (uniqueCounts r.2.1)), multiplicities := some (uniqueCounts r.2.1) }

variable {cell : Fin 3 → Pt 3 ℝ} {asym : List (Pt 3 ℝ)} {ops : List (AffineOp 3)} {u : Bool}

theorem eqSiteTol_nonneg : (0 : ℝ) ≤ eqSiteTol := by rw [eqSiteTol]; norm_num

theorem eqSiteTol_lt : eqSiteTol < 1 := by rw [eqSiteTol]; norm_num

theorem expandedSet_points (hx : ExactSites eqSiteTol (opSet ops) {p | p ∈ asym}) :
    periodicPoints (expandedSet cell asym ops u).motif cell = crystalPoints cell (opSet ops) {p | p ∈ asym} :=
  (expandsTo eqSiteTol_nonneg eqSiteTol_lt asym ops u hx).points

theorem expandedSet_fits (hx : ExactSites eqSiteTol (opSet ops) {p | p ∈ asym}) : FitsInCell (expandedSet cell asym ops u).motif cell :=
  (expandsTo eqSiteTol_nonneg eqSiteTol_lt asym ops u hx).fits

theorem expandedSet_ne_nil (hG : IsSpaceGroup cell (opSet ops)) (hx : ExactSites eqSiteTol (opSet ops) {p | p ∈ asym}) (hne : asym ≠ []) :
    (expandedSet cell asym ops u).motif ≠ [] := by
  have hE := expandsTo eqSiteTol_nonneg eqSiteTol_lt asym ops u hx
  obtain ⟨p, l, rfl⟩ := List.exists_cons_of_ne_nil hne
  obtain ⟨g, hg, -⟩ := hG.one
  obtain ⟨q, hq, e'⟩ := exists_fract (opPoint g p)
  have := hE.all p (by simp) g hg q (isImage_intEq.2 ⟨hq, e'⟩)
  intro h
  simp only [expandedSet, List.map_eq_nil_iff] at h
  rw [h] at this
  cases this

theorem expandedSet_description (hcell : NonSingular cell) (hG : IsSpaceGroup cell (opSet ops)) (hx : ExactSites eqSiteTol (opSet ops) {p | p ∈ asym})
    (hne : asym ≠ []) : ∃ inds mult, IsDescription (expandedSet cell asym ops true) inds mult := by
  have hE := expandsTo eqSiteTol_nonneg eqSiteTol_lt asym ops true hx
  have ho := orbits_of_sorted _ _ le_rfl (expand_reduction asym ops eqSiteTol true).sorted
  obtain ⟨inds, h1, hu⟩ := hE.asymUnit hcell hG ho
  have hl : inds.length = (uniqueCounts (expandAsymUnit asym ops eqSiteTol true).2.1).length := by
    obtain ⟨orb, hm, -⟩ := hu
    simp [hm]
  exact ⟨inds, _, hcell, expandedSet_ne_nil hG hx hne, hE.injective hcell (expand_nodup eqSiteTol_nonneg eqSiteTol_lt asym ops),
    Or.inl ⟨congrArg some h1.symm, rfl, hl⟩, hu, ho.pos⟩

end Amd
