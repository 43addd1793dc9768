import Verif.Proof.PointRows
import Verif.Props.Neighbours

/-! # Invariance of AMD and PDD: C03, C04, C05, C06, C07, C18, C51 -/

namespace Amd

variable {D : ℕ}

/-! ### C03 -/

/-- **C03** Shifting all motif points by `v` changes nothing: same results, same failures, same fuel. -/
theorem C03_amd_translation (S : PeriodicSet D) (v : Pt D ℝ) (k fuel : ℕ) :
    AMD { S with motif := S.motif.map (· + v) } k fuel = AMD S k fuel := by
  have h := AMD_image S LinearMap.id v 1 one_pos (by simp) k fuel
  have e : S.image LinearMap.id v = { S with motif := S.motif.map (· + v) } := rfl
  rw [e] at h
  rw [h]
  cases AMD S k fuel <;> simp [Except.map]

theorem scale_one_rows (a : List (PRow ℝ)) : a.map (PRow.scale 1) = a := by
  conv_rhs => rw [← List.map_id a]
  apply List.map_congr_left
  intro r _
  simp [PRow.scale]

/-- **C03** for `PDD`, with all options and groups. -/
theorem C03_pdd_translation (S : PeriodicSet D) (v : Pt D ℝ) (k : ℕ) (lexsort collapse : Bool) (tol : ℝ) (fuel : ℕ) :
    PDD { S with motif := S.motif.map (· + v) } k lexsort collapse tol fuel = PDD S k lexsort collapse tol fuel := by
  have h := PDD_image S LinearMap.id v 1 one_pos (by simp) k lexsort collapse tol fuel
  have e : S.image LinearMap.id v = { S with motif := S.motif.map (· + v) } := rfl
  rw [e, one_mul] at h
  rw [h]
  cases PDD S k lexsort collapse tol fuel <;> simp [Except.map, scale_one_rows]

example : ∃ fuel a, AMD { exampleSet with motif := exampleSet.motif.map (· + ![5, -7]) } 3 fuel = .ok a := by
  obtain ⟨a, _, F, h⟩ := C10_terminates (by decide) exampleSet_units exampleSet_units_ne exampleSet_nonSingular 3 true true 0
  exact ⟨F, a, (C03_amd_translation _ _ _ _).trans (h F le_rfl).1⟩

/-! ### C04 -/

/-- **C04** Applying a linear isometry `R` (rotation or reflection) to motif and cell changes nothing. -/
theorem C04_amd_orthogonal (S : PeriodicSet D) (R : Pt D ℝ →ₗ[ℝ] Pt D ℝ)
    (hR : ∀ p, ∑ j, R p j ^ 2 = ∑ j, p j ^ 2) (k fuel : ℕ) :
    AMD { S with motif := S.motif.map R, cell := fun i => R (S.cell i) } k fuel = AMD S k fuel := by
  have h := AMD_image S R 0 1 one_pos (by simpa using hR) k fuel
  have e : S.image R 0 = { S with motif := S.motif.map R, cell := fun i => R (S.cell i) } := by
    simp [PeriodicSet.image]
  rw [e] at h
  rw [h]
  cases AMD S k fuel <;> simp [Except.map]

/-- **C04** for `PDD`. -/
theorem C04_pdd_orthogonal (S : PeriodicSet D) (R : Pt D ℝ →ₗ[ℝ] Pt D ℝ)
    (hR : ∀ p, ∑ j, R p j ^ 2 = ∑ j, p j ^ 2) (k : ℕ) (lexsort collapse : Bool) (tol : ℝ) (fuel : ℕ) :
    PDD { S with motif := S.motif.map R, cell := fun i => R (S.cell i) } k lexsort collapse tol fuel =
      PDD S k lexsort collapse tol fuel := by
  have h := PDD_image S R 0 1 one_pos (by simpa using hR) k lexsort collapse tol fuel
  have e : S.image R 0 = { S with motif := S.motif.map R, cell := fun i => R (S.cell i) } := by
    simp [PeriodicSet.image]
  rw [e, one_mul] at h
  rw [h]
  cases PDD S k lexsort collapse tol fuel <;> simp [Except.map, scale_one_rows]

/-- The hypothesis of C04 is met by the quarter turn of the plane. -/
example : ∃ R : Pt 2 ℝ →ₗ[ℝ] Pt 2 ℝ, (∀ p, ∑ j, R p j ^ 2 = ∑ j, p j ^ 2) ∧ R ![1, 0] = ![0, 1] := by
  refine ⟨{ toFun := fun p => ![-p 1, p 0], map_add' := ?_, map_smul' := ?_ }, ?_, ?_⟩
  · intro p q
    funext i
    fin_cases i
    · simp only [Fin.zero_eta, Pi.add_apply, Matrix.cons_val_zero]; ring
    · simp
  · intro c p; funext i; fin_cases i <;> simp
  · intro p; simp [Fin.sum_univ_two, add_comm]
  · funext i; fin_cases i <;> simp

/-! ### C05 -/

/-- **C05** Scaling motif and cell by `c > 0` multiplies `AMD` by `c`. -/
theorem C05_amd_scaling (S : PeriodicSet D) {c : ℝ} (hc : 0 < c) (k fuel : ℕ) :
    AMD { S with motif := S.motif.map (fun p => c • p), cell := fun i => c • S.cell i } k fuel =
      (AMD S k fuel).map fun a => a.map fun t : ℝ => c * t := by
  have h := AMD_image S (c • LinearMap.id) 0 c hc (by
    intro p; simp [mul_pow, Finset.mul_sum]) k fuel
  have e : S.image (c • LinearMap.id) 0 =
      { S with motif := S.motif.map (fun p => c • p), cell := fun i => c • S.cell i } := by
    simp [PeriodicSet.image]
  rwa [e] at h

/-- **C05** for `PDD`: distances are multiplied by `c`, weights and groups unchanged, if the tolerance is scaled too (and whatever
the tolerance, without collapsing: `C05_pdd_scaling_uncollapsed`). -/
theorem C05_pdd_scaling (S : PeriodicSet D) {c : ℝ} (hc : 0 < c) (k : ℕ) (lexsort collapse : Bool) (tol : ℝ) (fuel : ℕ) :
    PDD { S with motif := S.motif.map (fun p => c • p), cell := fun i => c • S.cell i } k lexsort collapse (c * tol) fuel =
      (PDD S k lexsort collapse tol fuel).map fun a => a.map fun r : PRow ℝ =>
        { weight := r.weight, dists := r.dists.map fun t : ℝ => c * t, group := r.group } := by
  have h := PDD_image S (c • LinearMap.id) 0 c hc (by
    intro p; simp [mul_pow, Finset.mul_sum]) k lexsort collapse tol fuel
  have e : S.image (c • LinearMap.id) 0 =
      { S with motif := S.motif.map (fun p => c • p), cell := fun i => c • S.cell i } := by
    simp [PeriodicSet.image]
  rw [e] at h
  exact h

theorem PDD_tol_irrelevant (S : PeriodicSet D) (k : ℕ) (lexsort : Bool) (tol tol' : ℝ) (fuel : ℕ) :
    PDD S k lexsort false tol fuel = PDD S k lexsort false tol' fuel := by
  simp [PDD, collapseRows]

theorem C05_pdd_scaling_uncollapsed (S : PeriodicSet D) {c : ℝ} (hc : 0 < c) (k : ℕ) (lexsort : Bool) (tol tol' : ℝ)
    (fuel : ℕ) :
    PDD { S with motif := S.motif.map (fun p => c • p), cell := fun i => c • S.cell i } k lexsort false tol' fuel =
      (PDD S k lexsort false tol fuel).map fun a => a.map fun r : PRow ℝ =>
        { weight := r.weight, dists := r.dists.map fun t : ℝ => c * t, group := r.group } := by
  rw [PDD_tol_irrelevant _ _ _ tol' (c * tol)]
  exact C05_pdd_scaling S hc k lexsort false tol fuel

example : ∃ fuel a, AMD { exampleSet with motif := exampleSet.motif.map (fun p => (3 : ℝ) • p), cell := fun i => (3 : ℝ) • exampleSet.cell i } 3 fuel = .ok a := by
  obtain ⟨a, _, F, h⟩ := C10_terminates (by decide) exampleSet_units exampleSet_units_ne exampleSet_nonSingular 3 true true 0
  refine ⟨F, a.map fun t : ℝ => 3 * t, ?_⟩
  rw [C05_amd_scaling _ (by norm_num), (h F le_rfl).1]
  rfl

/-! ### C06 -/

/-- **C06** Reordering the motif does not change `AMD`. -/
theorem C06_amd_perm (hD : 0 < D) {motif motif' : List (Pt D ℝ)} (hm : motif.Perm motif') (hne : motif ≠ [])
    (cell : Fin D → Pt D ℝ) (k fuel : ℕ) :
    AMD { motif := motif, cell := cell } k fuel = AMD { motif := motif', cell := cell } k fuel := by
  obtain ⟨r, h1, h2⟩ := nearestNeighbors_perm hm hm cell hD hne (k + 1) fuel
  simp only [AMD, asymPoints, bind, Except.bind, h1, h2]
  cases r with
  | error e => rfl
  | ok u =>
    simp only [Except.map, List.map_replicate]
    have := averageColumns_perm (((1 : ℕ) : ℝ)) (hm.map u) (k + 1)
    simpa using this

/-- **C06** Reordering the motif only reorders the rows of the uncollapsed `PDD`; with `lexsort` it changes nothing. -/
theorem C06_pdd_perm (hD : 0 < D) {motif motif' : List (Pt D ℝ)} (hm : motif.Perm motif') (hne : motif ≠ [])
    (cell : Fin D → Pt D ℝ) (k : ℕ) (lexsort : Bool) (tol : ℝ) (fuel : ℕ) {p : List (PRow ℝ)}
    (h : PDD { motif := motif, cell := cell } k lexsort false tol fuel = .ok p) :
    ∃ p', PDD { motif := motif', cell := cell } k lexsort false tol fuel = .ok p' ∧
      (p.map fun r => (r.weight, r.dists)).Perm (p'.map fun r => (r.weight, r.dists)) ∧
      (lexsort = true → (p.map fun r => (r.weight, r.dists)) = p'.map fun r => (r.weight, r.dists)) := by
  obtain ⟨r, h1, h2⟩ := nearestNeighbors_perm hm hm cell hD hne (k + 1) fuel
  simp only [PDD, asymPoints, bind, Except.bind, h1, h2] at h ⊢
  cases r with
  | error e => simp [Except.map] at h
  | ok u =>
    simp only [Except.map, List.map_replicate, List.length_map, List.length_replicate, ne_eq,
      not_true_eq_false, if_false] at h ⊢
    injection h with h
    subst h
    refine ⟨_, rfl, ?_⟩
    -- unsorted rows
    have hrow : ∀ (l : List (Pt D ℝ)), (collapseRows k false tol ((l.map u).map (·.drop 1))
        (List.replicate l.length (((1 : ℕ) : ℝ) / (l.length : ℝ)))).map (fun r => (r.weight, r.dists)) =
        l.map fun q => (((1 : ℕ) : ℝ) / (l.length : ℝ), (u q).drop 1) := by
      intro l
      rw [collapseRows_false]
      apply List.ext_getElem
      · simp
      · intro i h1 h2
        have hi : i < l.length := by simpa using h2
        simp [hi]
    have hperm : ((collapseRows k false tol ((motif.map u).map (·.drop 1))
        (List.replicate motif.length (((1 : ℕ) : ℝ) / (motif.length : ℝ)))).map (fun r => (r.weight, r.dists))).Perm
        ((collapseRows k false tol ((motif'.map u).map (·.drop 1))
        (List.replicate motif'.length (((1 : ℕ) : ℝ) / (motif'.length : ℝ)))).map (fun r => (r.weight, r.dists))) := by
      rw [hrow, hrow, hm.length_eq]
      exact hm.map _
    have hperm2 := (((lexsortRows_perm lexsort _).map (fun r : PRow ℝ => (r.weight, r.dists))).trans hperm).trans
      ((lexsortRows_perm lexsort _).map (fun r : PRow ℝ => (r.weight, r.dists))).symm
    refine ⟨hperm2, ?_⟩
    intro hl
    subst hl
    -- all weights are equal, so comparing distances is antisymmetric
    apply List.Perm.eq_of_pairwise (le := fun a b : ℝ × List ℝ => lexLe a.2 b.2 = true) _ _ _ hperm2
    · rintro ⟨w, a⟩ ⟨w', b⟩ hmem hmem' hab hba
      have hw : ∀ (l : List (Pt D ℝ)) (v : ℝ × List ℝ), v ∈ (lexsortRows true (collapseRows k false tol ((l.map u).map (·.drop 1))
          (List.replicate l.length (((1 : ℕ) : ℝ) / (l.length : ℝ))))).map (fun r => (r.weight, r.dists)) →
          v.1 = ((1 : ℕ) : ℝ) / (l.length : ℝ) := by
        intro l v hv
        have := ((lexsortRows_perm true _).map (fun r : PRow ℝ => (r.weight, r.dists))).subset hv
        rw [hrow] at this
        obtain ⟨q, _, rfl⟩ := List.mem_map.mp this
        rfl
      have e1 := hw motif _ hmem
      have e2 := hw motif' _ hmem'
      simp only at e1 e2
      have e3 : a = b := lexLe_antisymm hab hba
      rw [e1, e2, hm.length_eq, e3]
    · rw [List.pairwise_map]
      exact lexsortRows_sorted _
    · rw [List.pairwise_map]
      exact lexsortRows_sorted _

example : ([![0, 0], ![3 / 2, 1]] : List (Pt 2 ℝ)).Perm [![3 / 2, 1], ![0, 0]] := List.Perm.swap _ _ _

/-! ### C07 -/

/-- C07 whenever the searches are complete. -/
theorem C07_amd_cell_choice_of_searchable (hD : 0 < D) {motif motif' : List (Pt D ℝ)} {cell cell' : Fin D → Pt D ℝ}
    (hcell : NonSingular cell) (hcell' : NonSingular cell')
    (hinj : Function.Injective (sitePos motif cell)) (hinj' : Function.Injective (sitePos motif' cell'))
    (hP : periodicPoints motif cell = periodicPoints motif' cell') (hne : motif ≠ []) (hne' : motif' ≠ [])
    {k fuel fuel' : ℕ} (hs : Searchable motif cell (k + 1)) (hs' : Searchable motif' cell' (k + 1)) {a a' : List ℝ}
    (h : AMD { motif := motif, cell := cell } k fuel = .ok a)
    (h' : AMD { motif := motif', cell := cell' } k fuel' = .ok a') : a = a' := by
  choose R hR using fun i : Fin motif.length => exists_neighbourRow hD hcell i k
  choose R' hR' using fun i : Fin motif'.length => exists_neighbourRow hD hcell' i k
  rw [AMD_eq_mean (S := { motif := motif, cell := cell }) hD (Or.inl rfl) hne hs h hR,
    AMD_eq_mean (S := { motif := motif', cell := cell' }) hD (Or.inl rfl) hne' hs' h' hR']
  apply List.map_congr_left
  intro j _
  exact mean_rows_eq hinj hinj' hP hne hne' hR hR' j

/-- **C07** (partial) Two descriptions of the same periodic point set by not too oblique cells containing their motifs
have the same `AMD`. Missing: other cells (`C07_false`). -/
theorem C07_amd_cell_choice_partial (hD : 0 < D) (hD4 : D ≤ 4) {motif motif' : List (Pt D ℝ)}
    {cell cell' : Fin D → Pt D ℝ} (hcell : NonSingular cell) (hcell' : NonSingular cell')
    (hdom : HalfDominant cell) (hdom' : HalfDominant cell')
    (hfit : FitsInCell motif cell) (hfit' : FitsInCell motif' cell')
    (hinj : Function.Injective (sitePos motif cell)) (hinj' : Function.Injective (sitePos motif' cell'))
    (hP : periodicPoints motif cell = periodicPoints motif' cell') (hne : motif ≠ []) (hne' : motif' ≠ [])
    {k fuel fuel' : ℕ} {a a' : List ℝ}
    (h : AMD { motif := motif, cell := cell } k fuel = .ok a)
    (h' : AMD { motif := motif', cell := cell' } k fuel' = .ok a') : a = a' :=
  C07_amd_cell_choice_of_searchable hD hcell hcell' hinj hinj' hP hne hne'
    (searchable_of_halfDominant hD4 hdom hfit _) (searchable_of_halfDominant hD4 hdom' hfit' _) h h'

/-- **C07** (partial) For any two non-singular cells and motifs describing the same periodic point set, `AMD` is
the same for all sufficiently large `k`. -/
theorem C07_amd_cell_choice_large_k_partial (hD : 0 < D) {motif motif' : List (Pt D ℝ)}
    {cell cell' : Fin D → Pt D ℝ} (hcell : NonSingular cell) (hcell' : NonSingular cell')
    (hinj : Function.Injective (sitePos motif cell)) (hinj' : Function.Injective (sitePos motif' cell'))
    (hP : periodicPoints motif cell = periodicPoints motif' cell') (hne : motif ≠ []) (hne' : motif' ≠ []) :
    ∃ k₀, ∀ k, k₀ ≤ k → ∀ fuel fuel' a a',
      AMD { motif := motif, cell := cell } k fuel = .ok a →
      AMD { motif := motif', cell := cell' } k fuel' = .ok a' → a = a' := by
  obtain ⟨k₁, h₁⟩ := searchable_eventually hcell motif
  obtain ⟨k₂, h₂⟩ := searchable_eventually hcell' motif'
  exact ⟨max k₁ k₂, fun k hk _ _ _ _ h h' =>
    C07_amd_cell_choice_of_searchable hD hcell hcell' hinj hinj' hP hne hne'
      (h₁ _ (by omega)) (h₂ _ (by omega)) h h'⟩

/-- The rectangular cell of the lattice of `skewSet`. -/
noncomputable def straightSet : PeriodicSet 2 :=
  { motif := [castPt ![0, 0]], cell := fun i => castPt (![![10, 0], ![0, 1]] i) }

theorem straightSet_rows (fuel : ℕ) (hf : 20 ≤ fuel) :
    nearestNeighbors straightSet.motif straightSet.cell straightSet.motif 2 fuel = .ok [[0, 1]] := by
  have h : nearestNeighborsSq (K := ℤ) nearInt [![0, 0]] ![![10, 0], ![0, 1]] [![0, 0]] 2 20 = .ok [[0, 1]] := by
    decide
  have h2 := nearestNeighbors_cast _ _ _ _ _ h
  have e : ([[0, 1]] : List (List ℤ)).map (fun r => r.map fun a : ℤ => √(a : ℝ)) = [[0, 1]] := by simp
  rw [e] at h2
  exact nearestNeighbors_fuel hf h2

theorem AMD_single {S : PeriodicSet 2} (hu : S.asymUnit = none) {p : Pt 2 ℝ} (hm : S.motif = [p]) {fuel : ℕ} {b c : ℝ}
    (h : nearestNeighbors S.motif S.cell S.motif 2 fuel = .ok [[b, c]]) : AMD S 1 fuel = .ok [c] := by
  obtain ⟨m, cell, au, mu⟩ := S
  simp only at hu hm
  subst hu; subst hm
  simp only [AMD, asymPoints, bind, Except.bind, h]
  simp [averageColumnsExceptFirst, addRows, bind, Except.bind]

theorem skew_latVec (n : Fin 2 → ℤ) :
    latVec straightSet.cell ![n 0 - 3 * n 1, n 1] = latVec skewSet.cell n := by
  funext j
  fin_cases j
  · simp [latVec, skewSet, straightSet, castPt, Fin.sum_univ_two]
    ring
  · simp [latVec, skewSet, straightSet, castPt, Fin.sum_univ_two]

theorem skew_points : periodicPoints skewSet.motif skewSet.cell = periodicPoints straightSet.motif straightSet.cell := by
  ext q
  constructor
  · rintro ⟨s, rfl⟩
    refine ⟨(s.1, ![s.2 0 - 3 * s.2 1, s.2 1]), ?_⟩
    rw [sitePos_eq, sitePos_eq, skew_latVec]
    rfl
  · rintro ⟨s, rfl⟩
    refine ⟨(s.1, ![s.2 0 + 3 * s.2 1, s.2 1]), ?_⟩
    rw [sitePos_eq, sitePos_eq, ← skew_latVec]
    have : (![(![s.2 0 + 3 * s.2 1, s.2 1] : Fin 2 → ℤ) 0 - 3 * (![s.2 0 + 3 * s.2 1, s.2 1] : Fin 2 → ℤ) 1,
        (![s.2 0 + 3 * s.2 1, s.2 1] : Fin 2 → ℤ) 1] : Fin 2 → ℤ) = s.2 := by
      funext j
      fin_cases j <;> simp
    simp only [this]
    rfl

/-- **C07** is false in general: the same lattice of points, given by the cells (10,0), (-30,1) and (10,0), (0,1), gets
`AMD` 10 and 1 for `k = 1`. -/
theorem C07_false : ∃ S S' : PeriodicSet 2,
    periodicPoints S.motif S.cell = periodicPoints S'.motif S'.cell ∧ NonSingular S.cell ∧
    ∃ F, ∀ fuel, F ≤ fuel → AMD S 1 fuel = .ok [10] ∧ AMD S' 1 fuel = .ok [1] :=
  ⟨skewSet, straightSet, skew_points, skewSet_nonSingular, 20, fun fuel hf =>
    ⟨AMD_single rfl rfl (skewSet_rows fuel hf), AMD_single rfl rfl (straightSet_rows fuel hf)⟩⟩

/-- **C09** is false in general: for the same set, `AMD` with `k = 1` is 10, but the first entry of `AMD` with
large `k` is at most 1. -/
theorem C09_false : ∃ S : PeriodicSet 2, NonSingular S.cell ∧ ∃ k, 1 ≤ k ∧ ∃ F, ∀ fuel, F ≤ fuel →
    ∃ a, AMD S 1 fuel = .ok [10] ∧ AMD S k fuel = .ok a ∧ [10] ≠ a.take 1 := by
  refine ⟨skewSet, skewSet_nonSingular, ?_⟩
  have hu : skewSet.Units (List.finRange 1) [1] := Or.inr ⟨Or.inl rfl, rfl, rfl⟩
  have hne : (List.finRange 1 : List (Fin skewSet.motif.length)) ≠ [] := List.ne_nil_of_length_pos (by decide)
  obtain ⟨k₀, h₀⟩ := C02_amd_mean_large_k_partial (by decide) skewSet_nonSingular hu hne
  obtain ⟨a, _, F, hF⟩ := C10_terminates (by decide) hu hne skewSet_nonSingular (k₀ + 1) true true 0
  refine ⟨k₀ + 1, by omega, max F 20, fun fuel hf => ⟨a, AMD_single rfl rfl (skewSet_rows fuel (by omega)),
    (hF fuel (by omega)).1, ?_⟩⟩
  obtain ⟨rows, hrows, hl, hv⟩ := h₀ (k₀ + 1) (by omega) fuel a (hF fuel (by omega)).1
  -- the only row
  rw [show (List.finRange 1 : List (Fin skewSet.motif.length)) = [⟨0, by decide⟩] from rfl] at hrows
  cases hrows with
  | cons h1 h2 =>
    cases h2
    rename_i row
    have hv0 := hv 0 (by omega)
    simp only [List.zipWith_cons_cons, List.zipWith_nil_left, List.sum_cons, List.sum_nil, List.map_cons, List.map_nil,
      Nat.cast_one, one_mul, add_zero, div_one] at hv0
    have hrow : row.getD 0 0 ≤ 1 := by
      obtain ⟨hlen, idx, hnd, e, hsorted, hout⟩ := h1
      have h0 : 0 < row.length := by omega
      rw [List.getD_eq_getElem _ _ h0]
      let i₀ : Fin skewSet.motif.length := ⟨0, by decide⟩
      let s : Site skewSet.motif.length 2 := (i₀, ![3, 1])
      have hs : eucl skewSet.motif[i₀] (sitePos skewSet.motif skewSet.cell s) = 1 := by
        simp [eucl, sqDist, sitePos, s, i₀, skewSet, castPt, Fin.sum_univ_two]
        norm_num
      have hnes : s ≠ (i₀, 0) := by
        intro h
        have := congrFun (congrArg Prod.snd h) 0
        simp [s] at this
      by_cases hmem : (⟨s, hnes⟩ : {s : Site skewSet.motif.length 2 // s ≠ (i₀, 0)}) ∈ idx
      · have hin := List.mem_map_of_mem (f := fun s : {s : Site skewSet.motif.length 2 // s ≠ (i₀, 0)} =>
          eucl skewSet.motif[i₀] (sitePos skewSet.motif skewSet.cell s.1)) hmem
        simp only [hs] at hin
        have hin' : (1 : ℝ) ∈ row := by rw [e]; exact hin
        obtain ⟨b, hb, hb1⟩ := List.getElem_of_mem hin'
        rw [← hb1]
        rcases Nat.eq_zero_or_pos b with hb0 | hb0
        · subst hb0; exact le_refl _
        · exact List.pairwise_iff_getElem.mp hsorted 0 b h0 hb hb0
      · have h10 : row[0] ≤ eucl skewSet.motif[i₀] (sitePos skewSet.motif skewSet.cell s) :=
          hout _ hmem _ (List.getElem_mem _)
        rwa [hs] at h10
    rw [← hv0] at hrow
    intro heq
    have hl0 : 0 < a.length := by omega
    rw [List.getD_eq_getElem _ _ hl0] at hrow
    have := congrArg (fun l : List ℝ => l.getD 0 0) heq
    simp only [List.getD_cons_zero] at this
    rw [List.getD_eq_getElem _ _ (by rw [List.length_take]; omega), List.getElem_take] at this
    linarith

/-- Hypotheses of C07 are met by a lattice and its supercell. -/
example : periodicPoints ([![0], ![1]] : List (Pt 1 ℝ)) ![![2]] = periodicPoints [![0]] ![![1]] := by
  ext q
  constructor
  · rintro ⟨⟨i, n⟩, rfl⟩
    refine ⟨(0, ![(i : ℤ) + 2 * n 0]), ?_⟩
    funext j
    fin_cases j
    fin_cases i
    · simp [sitePos]; ring
    · simp [sitePos]; ring
  · rintro ⟨⟨i, n⟩, rfl⟩
    rcases Int.even_or_odd' (n 0) with ⟨c, hc | hc⟩
    · refine ⟨(0, ![c]), ?_⟩
      funext j
      fin_cases j
      fin_cases i
      simp [sitePos, hc]
      ring
    · refine ⟨(1, ![c]), ?_⟩
      funext j
      fin_cases j
      fin_cases i
      simp [sitePos, hc]
      ring

/-! ### C18 -/

/-- C18 whenever the search is complete. -/
theorem C18_asym_unit_of_searchable (hD : 0 < D) {motif : List (Pt D ℝ)} {cell : Fin D → Pt D ℝ}
    (hcell : NonSingular cell) (hinj : Function.Injective (sitePos motif cell))
    {inds : List (Fin motif.length)} {mult : List ℕ} (hne : motif ≠ []) (hne' : inds ≠ [])
    (hsym : IsAsymUnit motif cell inds mult) {k fuel fuel' : ℕ} (hs : Searchable motif cell (k + 1)) {a a' : List ℝ}
    (h : AMD { motif := motif, cell := cell, asymUnit := some (inds.map Fin.val), multiplicities := some mult } k fuel = .ok a)
    (h' : AMD { motif := motif, cell := cell } k fuel' = .ok a') : a = a' := by
  choose R hR using fun i : Fin motif.length => exists_neighbourRow hD hcell i k
  have hlen : inds.length = mult.length := by
    obtain ⟨orb, hm, -⟩ := hsym
    simp [hm]
  rw [AMD_eq_mean (S := { motif := motif, cell := cell }) hD (Or.inl rfl) hne hs h' hR,
    AMD_eq_rows (S := { motif := motif, cell := cell, asymUnit := some (inds.map Fin.val), multiplicities := some mult })
      hD (inds := inds) (mult := mult) (Or.inl ⟨rfl, rfl, hlen⟩) hne' hs h fun i _ => hR i]
  apply List.map_congr_left
  intro j _
  rw [isAsymUnit_sum hinj hsym hR j, isAsymUnit_mult hsym]

/-- **C18** (partial) Representatives of symmetry orbits with their multiplicities give the same `AMD` as the whole motif.
Missing: cells excluded as in C01. -/
theorem C18_asym_unit_partial (hD : 0 < D) (hD4 : D ≤ 4) {motif : List (Pt D ℝ)} {cell : Fin D → Pt D ℝ}
    (hcell : NonSingular cell) (hdom : HalfDominant cell) (hfit : FitsInCell motif cell)
    (hinj : Function.Injective (sitePos motif cell))
    {inds : List (Fin motif.length)} {mult : List ℕ} (hne : motif ≠ []) (hne' : inds ≠ [])
    (hsym : IsAsymUnit motif cell inds mult) {k fuel fuel' : ℕ} {a a' : List ℝ}
    (h : AMD { motif := motif, cell := cell, asymUnit := some (inds.map Fin.val), multiplicities := some mult } k fuel = .ok a)
    (h' : AMD { motif := motif, cell := cell } k fuel' = .ok a') : a = a' :=
  C18_asym_unit_of_searchable hD hcell hinj hne hne' hsym (searchable_of_halfDominant hD4 hdom hfit _) h h'

/-- **C18** (partial) The same for every non-singular cell and all sufficiently large `k`. -/
theorem C18_asym_unit_large_k_partial (hD : 0 < D) {motif : List (Pt D ℝ)} {cell : Fin D → Pt D ℝ}
    (hcell : NonSingular cell) (hinj : Function.Injective (sitePos motif cell))
    {inds : List (Fin motif.length)} {mult : List ℕ} (hne : motif ≠ []) (hne' : inds ≠ [])
    (hsym : IsAsymUnit motif cell inds mult) :
    ∃ k₀, ∀ k, k₀ ≤ k → ∀ fuel fuel' a a',
      AMD { motif := motif, cell := cell, asymUnit := some (inds.map Fin.val), multiplicities := some mult } k fuel = .ok a →
      AMD { motif := motif, cell := cell } k fuel' = .ok a' → a = a' := by
  obtain ⟨k₀, h₀⟩ := searchable_eventually hcell motif
  exact ⟨k₀, fun k hk _ _ _ _ h h' =>
    C18_asym_unit_of_searchable hD hcell hinj hne hne' hsym (h₀ _ (by omega)) h h'⟩

/-- Two points of the line exchanged by a translation: one of them with multiplicity 2 is an asymmetric unit. -/
example : IsAsymUnit ([![0], ![1]] : List (Pt 1 ℝ)) ![![2]] [⟨0, by decide⟩] [2] := by
  refine ⟨fun _ => 0, ?_, ?_⟩
  · rfl
  · have hper : ∀ n : ℤ, (![(n : ℝ)] : Pt 1 ℝ) ∈ periods (periodicPoints ([![0], ![1]] : List (Pt 1 ℝ)) ![![2]]) := by
      have hone : ∀ q : Pt 1 ℝ, q ∈ periodicPoints ([![0], ![1]] : List (Pt 1 ℝ)) ![![2]] ↔ ∃ n : ℤ, q 0 = n := by
        intro q
        constructor
        · rintro ⟨⟨i, n⟩, rfl⟩
          refine ⟨(i : ℤ) + n 0 * 2, ?_⟩
          fin_cases i <;> simp [sitePos]
        · rintro ⟨n, hn⟩
          rcases Int.even_or_odd' n with ⟨c, hc | hc⟩
          · refine ⟨(0, ![c]), ?_⟩
            funext j
            fin_cases j
            simp [sitePos, hn, hc]; ring
          · refine ⟨(1, ![c]), ?_⟩
            funext j
            fin_cases j
            simp [sitePos, hn, hc]; ring
      intro n q
      rw [hone, hone]
      constructor
      · rintro ⟨a, ha⟩
        exact ⟨a + n, by simp [ha]⟩
      · rintro ⟨a, ha⟩
        refine ⟨a - n, ?_⟩
        simp at ha
        push_cast
        linarith
    intro i
    fin_cases i
    · exact ⟨_, isSymmetry_of_period (hper 0), by funext j; fin_cases j; simp⟩
    · exact ⟨_, isSymmetry_of_period (hper (-1)), by funext j; fin_cases j; simp⟩

/-! ### C51 -/

/-- C51 whenever the searches are complete. -/
theorem C51_continuity_of_searchable (hD : 0 < D) {motif motif' : List (Pt D ℝ)} {cell : Fin D → Pt D ℝ}
    (hcell : NonSingular cell) (hne : motif ≠ []) {ε : ℝ}
    (hε : List.Forall₂ (fun p q => eucl p q ≤ ε) motif motif')
    {k fuel fuel' : ℕ} (hs : Searchable motif cell (k + 1)) (hs' : Searchable motif' cell (k + 1)) {a a' : List ℝ}
    (h : AMD { motif := motif, cell := cell } k fuel = .ok a)
    (h' : AMD { motif := motif', cell := cell } k fuel' = .ok a') :
    ∀ j < k, |a.getD j 0 - a'.getD j 0| ≤ 2 * ε := by
  have hl := hε.length_eq
  have hne' : motif' ≠ [] := by
    intro hc
    rw [hc] at hl
    exact hne (List.length_eq_zero_iff.mp hl)
  have hm : (0 : ℝ) < motif.length := by exact_mod_cast List.length_pos_iff.mpr hne
  have hε' : ∀ i : Fin motif.length, eucl motif[i] motif'[Fin.cast hl i] ≤ ε := by
    rw [List.forall₂_iff_get] at hε
    intro i
    exact hε.2 i i.2 (hl ▸ i.2)
  choose R hR using fun i : Fin motif.length => exists_neighbourRow hD hcell i k
  choose R' hR' using fun i : Fin motif'.length => exists_neighbourRow hD hcell i k
  rw [AMD_eq_mean (S := { motif := motif, cell := cell }) hD (Or.inl rfl) hne hs h hR,
    AMD_eq_mean (S := { motif := motif', cell := cell }) hD (Or.inl rfl) hne' hs' h' hR']
  intro j hj
  rw [List.getD_eq_getElem _ _ (by simpa using hj), List.getD_eq_getElem _ _ (by simpa using hj)]
  simp only [List.getElem_map, List.getElem_range]
  have e : (∑ i, (R' i).getD j 0) = ∑ i : Fin motif.length, (R' (Fin.cast hl i)).getD j 0 :=
    (Equiv.sum_comp (finCongr hl) fun i => (R' i).getD j 0).symm
  have hlr : (motif'.length : ℝ) = motif.length := by rw [hl]
  rw [e, hlr, ← sub_div, ← Finset.sum_sub_distrib, abs_div, abs_of_pos hm, div_le_iff₀ hm]
  refine (Finset.abs_sum_le_sum_abs _ _).trans ?_
  refine (Finset.sum_le_card_nsmul Finset.univ _ (2 * ε) ?_).trans ?_
  · intro i _
    exact neighbourRow_perturb hl hε' (hR i) (hR' _) j hj
  · simp [mul_comm]

/-- **C51** (partial) If every motif point moves by at most `ε`, no entry of `AMD` changes by more than `2 ε`. Missing: cells
excluded as in C01. -/
theorem C51_continuity_partial (hD : 0 < D) (hD4 : D ≤ 4) {motif motif' : List (Pt D ℝ)} {cell : Fin D → Pt D ℝ}
    (hcell : NonSingular cell) (hdom : HalfDominant cell) (hfit : FitsInCell motif cell)
    (hfit' : FitsInCell motif' cell) (hne : motif ≠ []) {ε : ℝ}
    (hε : List.Forall₂ (fun p q => eucl p q ≤ ε) motif motif') {k fuel fuel' : ℕ} {a a' : List ℝ}
    (h : AMD { motif := motif, cell := cell } k fuel = .ok a)
    (h' : AMD { motif := motif', cell := cell } k fuel' = .ok a') :
    ∀ j < k, |a.getD j 0 - a'.getD j 0| ≤ 2 * ε :=
  C51_continuity_of_searchable hD hcell hne hε (searchable_of_halfDominant hD4 hdom hfit _)
    (searchable_of_halfDominant hD4 hdom hfit' _) h h'

/-- **C51** (partial) For every non-singular cell and motifs, this holds for all sufficiently large `k`. -/
theorem C51_continuity_large_k_partial (hD : 0 < D) {motif motif' : List (Pt D ℝ)} {cell : Fin D → Pt D ℝ}
    (hcell : NonSingular cell) (hne : motif ≠ []) {ε : ℝ}
    (hε : List.Forall₂ (fun p q => eucl p q ≤ ε) motif motif') :
    ∃ k₀, ∀ k, k₀ ≤ k → ∀ fuel fuel' a a', AMD { motif := motif, cell := cell } k fuel = .ok a →
      AMD { motif := motif', cell := cell } k fuel' = .ok a' → ∀ j < k, |a.getD j 0 - a'.getD j 0| ≤ 2 * ε := by
  obtain ⟨k₁, h₁⟩ := searchable_eventually hcell motif
  obtain ⟨k₂, h₂⟩ := searchable_eventually hcell motif'
  exact ⟨max k₁ k₂, fun k hk _ _ _ _ h h' =>
    C51_continuity_of_searchable hD hcell hne hε (h₁ _ (by omega)) (h₂ _ (by omega)) h h'⟩

example : List.Forall₂ (fun p q : Pt 1 ℝ => eucl p q ≤ 1 / 2) [![0], ![5]] [![1 / 4], ![5]] := by
  refine List.Forall₂.cons ?_ (List.Forall₂.cons ?_ List.Forall₂.nil)
  · simp only [eucl, sqDist, Fin.sum_univ_one, Matrix.cons_val_zero]
    rw [Real.sqrt_sq_eq_abs]
    norm_num [abs_le]
  · simp [eucl, sqDist]

end Amd
