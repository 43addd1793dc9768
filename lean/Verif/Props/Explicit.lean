import Verif.Proof.Reduced
import Verif.Props.Isometry
import Verif.Props.Crystal

/-!
# The properties that need complete searches, under explicit conditions: C01, C02, C07, C09, C18, C51, C65, C66

`Covered` includes cells that are not too oblique for all `k`, reduced cells of three dimensions if there are as many neighbours as motif points, and all cells for all `k` above a number that is given in terms of the size of the motif, the lengths
of the cell vectors and the singular values of the cell. What is missing in each of these theorems: cells that are too oblique for the number of neighbours (`C01_false`).
-/

namespace Amd

variable {D : ℕ}

theorem motif_ne {S : PeriodicSet D} {inds : List (Fin S.motif.length)} (h : inds ≠ []) : S.motif ≠ [] := by
  obtain ⟨i, -⟩ := List.exists_mem_of_ne_nil inds h
  intro e
  exact absurd i.2 (by simp [List.length_eq_zero_iff.2 e])

/-- **C01** (partial) Every row of the PDD lists the distances to the `k` nearest neighbours. Missing: cells that are too oblique for the number of neighbours. -/
theorem C01_pdd_rows_explicit_partial {S : PeriodicSet D} {inds : List (Fin S.motif.length)} {mult : List ℕ} (hD : 0 < D)
    (hu : S.Units inds mult) (hne : inds ≠ []) {k : ℕ} (hs : Covered S.motif S.cell (k + 1)) {lexsort : Bool} {tol : ℝ} {fuel : ℕ}
    {pdd : List (PRow ℝ)} (h : PDD S k lexsort false tol fuel = .ok pdd) :
    ∃ rows : List (PRow ℝ), pdd.Perm rows ∧ (lexsort = false → pdd = rows) ∧
      List.Forall₂ (fun (u : Fin S.motif.length × ℕ) (r : PRow ℝ) =>
        r.weight = (u.2 : ℝ) / S.motif.length ∧ IsNeighbourRow S.motif S.cell u.1 k r.dists) (inds.zip mult) rows :=
  C01_pdd_rows_of_searchable hD hu hne (hs.searchable (motif_ne hne)) h

/-- **C02** (partial) The AMD is the weighted mean of these rows. Missing as for C01. -/
theorem C02_amd_mean_explicit_partial {S : PeriodicSet D} {inds : List (Fin S.motif.length)} {mult : List ℕ} (hD : 0 < D)
    (hu : S.Units inds mult) (hne : inds ≠ []) {k fuel : ℕ} (hs : Covered S.motif S.cell (k + 1)) {a : List ℝ} (h : AMD S k fuel = .ok a) :
    ∃ rows : List (List ℝ), List.Forall₂ (fun i row => IsNeighbourRow S.motif S.cell i k row) inds rows ∧
      a.length = k ∧ ∀ j < k, a.getD j 0 =
        (List.zipWith (fun (n : ℕ) row => (n : ℝ) * row.getD j 0) mult rows).sum / (mult.map fun n : ℕ => (n : ℝ)).sum :=
  C02_amd_mean_of_searchable hD hu hne (hs.searchable (motif_ne hne)) h

/-- **C07** (partial) The AMD does not depend on the cell and motif chosen for a periodic set. Missing as for C01. -/
theorem C07_amd_cell_choice_explicit_partial (hD : 0 < D) {motif motif' : List (Pt D ℝ)} {cell cell' : Fin D → Pt D ℝ}
    (hcell : NonSingular cell) (hcell' : NonSingular cell')
    (hinj : Function.Injective (sitePos motif cell)) (hinj' : Function.Injective (sitePos motif' cell'))
    (hP : periodicPoints motif cell = periodicPoints motif' cell') (hne : motif ≠ []) (hne' : motif' ≠ [])
    {k fuel fuel' : ℕ} (hs : Covered motif cell (k + 1)) (hs' : Covered motif' cell' (k + 1)) {a a' : List ℝ}
    (h : AMD { motif := motif, cell := cell } k fuel = .ok a)
    (h' : AMD { motif := motif', cell := cell' } k fuel' = .ok a') : a = a' :=
  C07_amd_cell_choice_of_searchable hD hcell hcell' hinj hinj' hP hne hne' (hs.searchable hne) (hs'.searchable hne') h h'

/-- **C09** (partial) The AMD for a smaller `k` is an initial part of that for a larger. Missing as for C01. -/
theorem C09_amd_prefix_explicit_partial {S : PeriodicSet D} {inds : List (Fin S.motif.length)} {mult : List ℕ} (hD : 0 < D)
    (hu : S.Units inds mult) (hne : inds ≠ []) {k k' fuel fuel' : ℕ} (hk : k' ≤ k) (hs : Covered S.motif S.cell (k' + 1)) {a a' : List ℝ}
    (h : AMD S k fuel = .ok a) (h' : AMD S k' fuel' = .ok a') : a' = a.take k' :=
  C09_amd_prefix_of_searchable hD hu hne hk (hs.searchable (motif_ne hne)) h h'

/-- **C18** (partial) The AMD computed from an asymmetric unit is that of the whole motif. Missing as for C01. -/
theorem C18_asym_unit_explicit_partial (hD : 0 < D) {motif : List (Pt D ℝ)} {cell : Fin D → Pt D ℝ}
    (hcell : NonSingular cell) (hinj : Function.Injective (sitePos motif cell))
    {inds : List (Fin motif.length)} {mult : List ℕ} (hne : motif ≠ []) (hne' : inds ≠ [])
    (hsym : IsAsymUnit motif cell inds mult) {k fuel fuel' : ℕ} (hs : Covered motif cell (k + 1)) {a a' : List ℝ}
    (h : AMD { motif := motif, cell := cell, asymUnit := some (inds.map Fin.val), multiplicities := some mult } k fuel = .ok a)
    (h' : AMD { motif := motif, cell := cell } k fuel' = .ok a') : a = a' :=
  C18_asym_unit_of_searchable hD hcell hinj hne hne' hsym (hs.searchable hne) h h'

/-- **C51** (partial) Moving each motif point by at most `ε` changes each entry of the AMD by at most `2 ε`. Missing as for C01. -/
theorem C51_continuity_explicit_partial (hD : 0 < D) {motif motif' : List (Pt D ℝ)} {cell : Fin D → Pt D ℝ}
    (hcell : NonSingular cell) (hne : motif ≠ []) {ε : ℝ} (hε : List.Forall₂ (fun p q => eucl p q ≤ ε) motif motif')
    {k fuel fuel' : ℕ} (hs : Covered motif cell (k + 1)) (hs' : Covered motif' cell (k + 1)) {a a' : List ℝ}
    (h : AMD { motif := motif, cell := cell } k fuel = .ok a)
    (h' : AMD { motif := motif', cell := cell } k fuel' = .ok a') :
    ∀ j < k, |a.getD j 0 - a'.getD j 0| ≤ 2 * ε := by
  refine C51_continuity_of_searchable hD hcell hne hε (hs.searchable hne) (hs'.searchable ?_) h h'
  rintro rfl
  cases hε
  exact hne rfl

section
variable {S S' : PeriodicSet D} {inds : List (Fin S.motif.length)} {mult : List ℕ} {inds' : List (Fin S'.motif.length)} {mult' : List ℕ} {k : ℕ}

/-- **C66** (partial) Isometric periodic sets, however described, have the same AMD. Missing as for C01. -/
theorem C66_amd_explicit_partial (hD : 0 < D) (h : IsDescription S inds mult) (h' : IsDescription S' inds' mult') (hiso : Isometric S S')
    (hs : Covered S.motif S.cell (k + 1)) (hs' : Covered S'.motif S'.cell (k + 1)) {fuel fuel' : ℕ} {a a' : List ℝ}
    (ha : AMD S k fuel = .ok a) (ha' : AMD S' k fuel' = .ok a') : a = a' :=
  C66_amd_of_searchable hD h h' hiso (hs.searchable h.nonempty) (hs'.searchable h'.nonempty) ha ha'

/-- **C66** (partial) They have the same PDD without collapsing: every row of distances has the same total weight in both. Missing as for C01. -/
theorem C66_pdd_explicit_partial (hD : 0 < D) (h : IsDescription S inds mult) (h' : IsDescription S' inds' mult') (hiso : Isometric S S')
    (hs : Covered S.motif S.cell (k + 1)) (hs' : Covered S'.motif S'.cell (k + 1)) {lexsort lexsort' : Bool} {tol tol' : ℝ} {fuel fuel' : ℕ}
    {p p' : List (PRow ℝ)} (hp : PDD S k lexsort false tol fuel = .ok p) (hp' : PDD S' k lexsort' false tol' fuel' = .ok p') (x : List ℝ) :
    weightAt p x = weightAt p' x :=
  C66_pdd_of_searchable hD h h' hiso (hs.searchable h.nonempty) (hs'.searchable h'.nonempty) hp hp' x

/-- **C66** (partial) The EMD of their PDDs is zero up to the error of collapsing and rounding. Missing as for C01. -/
theorem C66_emd_explicit_partial (hD : 0 < D) (h : IsDescription S inds mult) (h' : IsDescription S' inds' mult') (hiso : Isometric S S')
    (hs : Covered S.motif S.cell (k + 1)) (hs' : Covered S'.motif S'.cell (k + 1)) (hl : S.motif.length ≤ 100000000) (hl' : S'.motif.length ≤ 100000000)
    {lexsort lexsort' collapse : Bool} {tol : ℝ} (htol : 0 ≤ tol) {fuel fuel' fuel'' : ℕ} {p p' : List (PRow ℝ)} (hp : PDD S k lexsort collapse tol fuel = .ok p)
    (hp' : PDD S' k lexsort' collapse tol fuel' = .ok p') {C : ℝ} (hC : ∀ r ∈ p, ∀ s ∈ p', chebyshev r.dists s.dists ≤ C)
    {d : ℝ} {plan : List (List ℝ)} (hd : emd chebyshev p p' fuel'' = .ok (d, plan)) :
    0 ≤ d ∧ d ≤ 2 * collapseError collapse tol + emdTol (max p.length p'.length) C :=
  C66_emd_of_searchable hD h h' hiso (hs.searchable h.nonempty) (hs'.searchable h'.nonempty) hl hl' htol hp hp' hC hd

end

/-- **C65** (partial) The AMD of the set that the reader makes of a block is the AMD of any other description of the crystal. Missing as for C01. -/
theorem C65_amd_explicit_partial {env : GemmiEnv} {b : GemmiBlock} {tags : List String} {rows : List (List String)} {rh : Bool} {d : String}
    (ht : AtomTable tags rows) (hr : Readable tags rows) (hd : d ≠ "all_sites") {ws ws' : List Warning} {s : ReadSet}
    {ops : List (AffineOp 3)} (h : gemmiConvert env (b.withRows tags rows) rh d = (ws, .ok s)) (hsym : blockSymmetry env b = (ws', .ok ops))
    (hcell : NonSingular s.set.cell) (hG : IsSpaceGroup s.set.cell (opSet ops)) (hx : ExactSites (1 / 1000) (opSet ops) (cifSites env tags rows rh d))
    {motif : List (Pt 3 ℝ)} {cell : Fin 3 → Pt 3 ℝ} (hcell' : NonSingular cell) (hinj : Function.Injective (sitePos motif cell)) (hne : motif ≠ [])
    (hP : periodicPoints motif cell = crystalPoints s.set.cell (opSet ops) (cifSites env tags rows rh d))
    {k fuel fuel' : ℕ} (hs : Covered s.set.motif s.set.cell (k + 1)) (hs' : Covered motif cell (k + 1)) {a a' : List ℝ}
    (ha : AMD s.set k fuel = .ok a) (ha' : AMD { motif := motif, cell := cell } k fuel' = .ok a') : a = a' :=
  C65_amd_of_searchable ht hr hd h hsym hcell hG hx hcell' hinj hne hP (hs.searchable (convert_ne_nil ht hr h hsym hG hx).1) (hs'.searchable hne) ha ha'

/-! ### An example that is not `HalfDominant`: the primitive cell of diamond -/

/-- Diamond in its primitive, face-centred cell. -/
noncomputable def diamond : PeriodicSet 3 :=
  { motif := [![0, 0, 0], ![1 / 2, 1 / 2, 1 / 2]], cell := ![![0, 1, 1], ![1, 0, 1], ![1, 1, 0]] }

/-- The search is complete for the primitive cell of diamond for two or more neighbours (the point itself included), although the cell is not `HalfDominant`. -/
theorem diamond_covered {k : ℕ} (hk : 2 ≤ k) : Covered diamond.motif diamond.cell k ∧ ¬HalfDominant diamond.cell := by
  have h0 : (Finset.univ : Finset (Fin 3)).erase 0 = {1, 2} := by decide
  constructor
  · refine Or.inr (Or.inr ⟨1, √2, 1, 3, one_pos, ?_, ?_, ?_, ?_, by simpa [diamond] using hk⟩)
    · intro v
      simp [diamond, Fin.sum_univ_three]
      nlinarith [sq_nonneg (v 0 + v 1 + v 2)]
    · intro i
      rw [Real.sq_sqrt (by norm_num)]
      fin_cases i <;> simp [diamond, gram, Fin.sum_univ_three] <;> norm_num
    · simp only [diamond, List.mem_cons, List.not_mem_nil, or_false]
      rintro p (rfl | rfl) q (rfl | rfl) <;> refine Real.sqrt_le_one.2 ?_ <;> simp [sqDist, Fin.sum_univ_three] <;> norm_num
    · rw [Real.sq_sqrt (by norm_num)]
      have : √((3 : ℕ) : ℝ) ≤ 2 := by rw [Real.sqrt_le_left] <;> norm_num
      push_cast at this ⊢
      norm_num
      linarith
  · intro h
    have := h 0
    rw [h0] at this
    simp [diamond, gram, Fin.sum_univ_three] at this

/-- The same cell is reduced, so that every motif in it is searched completely for as many neighbours as it has points. -/
example {motif : List (Pt 3 ℝ)} (h : FitsInCell motif diamond.cell) {k : ℕ} (hk : motif.length ≤ k) : Covered motif diamond.cell k := by
  refine Or.inr (Or.inl ⟨rfl, reduced_of_niggli ?_ ?_ ?_ ?_ ?_ (Or.inl ⟨?_, ?_, ?_⟩), h, hk⟩) <;> simp [diamond, gram, Fin.sum_univ_three] <;> norm_num

end Amd
