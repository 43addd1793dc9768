import Verif.Proof.Repeated
import Verif.Props.Nearby

/-!
# C90: periodic sets that list points more than once

The invariants depend only on how often each point is listed, up to isometry, and change continuously.
-/

namespace Amd

variable {D : ℕ} {S S' : PeriodicSet D} {inds : List (Fin S.motif.length)} {mult : List ℕ} {inds' : List (Fin S'.motif.length)} {mult' : List ℕ} {k : ℕ} {δ : ℝ}

/-! ### What is new -/

/-- **C90** A description, in which points are listed once, is a listing. -/
theorem C90_description (h : IsDescription S inds mult) : IsListing S inds mult := by
  obtain ⟨orb, hm, hT⟩ := h.asym
  refine ⟨h.cell, h.nonempty, h.units, ⟨orb, hm, fun i => ?_⟩, h.pos⟩
  obtain ⟨T, hs, he⟩ := hT i
  exact ⟨T, carries_once h.once h.once hs.isometry hs.mem_iff, he⟩

/-- **C90** For points that are listed once, being isometric means what it did. -/
theorem C90_isometric (h : IsDescription S inds mult) (h' : IsDescription S' inds' mult') : IsometricListed S S' ↔ Isometric S S' := by
  classical
  constructor
  · rintro ⟨T, hT, ht⟩
    refine ⟨T, hT, ?_⟩
    have hiff : ∀ p, T p ∈ periodicPoints S'.motif S'.cell ↔ p ∈ periodicPoints S.motif S.cell := by
      intro p
      have := ht p
      rw [timesListed_once h.once, timesListed_once h'.once] at this
      by_contra hne
      rcases Classical.em (T p ∈ periodicPoints S'.motif S'.cell) with h1 | h1 <;> rcases Classical.em (p ∈ periodicPoints S.motif S.cell) with h2 | h2 <;>
        simp [h1, h2] at this hne
    ext q
    obtain ⟨p, rfl⟩ := isometry_surjective hT q
    rw [hiff]
    exact ⟨fun hp => ⟨p, hp, rfl⟩, fun ⟨p', hp', he⟩ => by rwa [← isometry_injective hT he]⟩
  · rintro ⟨T, hT, hP⟩
    refine ⟨T, carries_once h.once h'.once hT fun p => ?_⟩
    rw [hP]
    exact ⟨fun ⟨p', hp', he⟩ => by rwa [← isometry_injective hT he], fun hp => ⟨p, hp, rfl⟩⟩

/-- **C90** Isometric sets can be paired off with all distances the same. -/
theorem C90_paired (hD : 0 < D) (h : IsListing S inds mult) (h' : IsListing S' inds' mult') (hiso : IsometricListed S S') : AlmostIsometricListed 0 S S' :=
  hiso.almost hD h.cell h'.cell h.nonempty

/-! ### AMD -/

theorem AlmostIsometricListed.nonneg (h : AlmostIsometricListed δ S S') (hne : S.motif ≠ []) : 0 ≤ δ := by
  obtain ⟨φ, hδ⟩ := h
  let s : Site S.motif.length D := (⟨0, List.length_pos_iff.2 hne⟩, 0)
  exact (abs_nonneg _).trans (hδ s s)

/-- C90 for the AMD whenever the searches are complete. -/
theorem C90_amd_of_searchable (hD : 0 < D) (h : IsListing S inds mult) (h' : IsListing S' inds' mult') (hδ : AlmostIsometricListed δ S S')
    (hs : Searchable S.motif S.cell (k + 1)) (hs' : Searchable S'.motif S'.cell (k + 1)) {fuel fuel' : ℕ} {a a' : List ℝ}
    (ha : AMD S k fuel = .ok a) (ha' : AMD S' k fuel' = .ok a') : a.length = k ∧ a'.length = k ∧ ∀ j < k, |a.getD j 0 - a'.getD j 0| ≤ δ := by
  obtain ⟨φ, hφ⟩ := hδ
  choose R hR using fun i : Fin S.motif.length => exists_neighbourRow hD h.cell i k
  choose R' hR' using fun i : Fin S'.motif.length => exists_neighbourRow hD h'.cell i k
  obtain ⟨g, hg, hgd⟩ := site_plan hD h.cell h'.cell h.nonempty h'.nonempty φ hφ
  rw [AMD_eq_rows hD h.units h.inds_ne hs ha fun i _ => hR i, AMD_eq_rows hD h'.units h'.inds_ne hs' ha' fun i _ => hR' i]
  refine ⟨by simp, by simp, fun j hj => ?_⟩
  rw [List.getD_eq_getElem _ _ (by simpa using hj), List.getD_eq_getElem _ _ (by simpa using hj), List.getElem_map, List.getElem_map, List.getElem_range,
    zipWith_swap, zipWith_swap, h.sum_fun hD hR fun r => r.getD j 0, h'.sum_fun hD hR' fun r => r.getD j 0, h.sum_mult, h'.sum_mult]
  exact mean_of_plan (List.length_pos_iff.2 h.nonempty) hg fun i l hil => hgd i l hil k _ _ (hR i) (hR' l) j hj

/-- C90 for the AMD of isometric sets whenever the searches are complete. -/
theorem C90_amd_same_of_searchable (hD : 0 < D) (h : IsListing S inds mult) (h' : IsListing S' inds' mult') (hiso : IsometricListed S S')
    (hs : Searchable S.motif S.cell (k + 1)) (hs' : Searchable S'.motif S'.cell (k + 1)) {fuel fuel' : ℕ} {a a' : List ℝ}
    (ha : AMD S k fuel = .ok a) (ha' : AMD S' k fuel' = .ok a') : a = a' := by
  obtain ⟨h1, h2, h3⟩ := C90_amd_of_searchable hD h h' (C90_paired hD h h' hiso) hs hs' ha ha'
  refine List.ext_getElem (h1.trans h2.symm) fun j hj hj' => ?_
  have := h3 j (by omega)
  rw [List.getD_eq_getElem _ _ hj, List.getD_eq_getElem _ _ hj'] at this
  exact sub_eq_zero.1 (abs_eq_zero.1 (le_antisymm this (abs_nonneg _)))

/-- **C90** (partial) If two sets list the same points equally often, up to isometry, they have the same AMD, whatever motifs, cells and asymmetric units they have. Missing: cells that
are too oblique or do not contain the motif (`C66_false`), and dimensions above 4. -/
theorem C90_amd_partial (hD : 0 < D) (hD4 : D ≤ 4) (h : IsListing S inds mult) (h' : IsListing S' inds' mult') (hiso : IsometricListed S S')
    (hdom : HalfDominant S.cell) (hfit : FitsInCell S.motif S.cell) (hdom' : HalfDominant S'.cell) (hfit' : FitsInCell S'.motif S'.cell)
    {fuel fuel' : ℕ} {a a' : List ℝ} (ha : AMD S k fuel = .ok a) (ha' : AMD S' k fuel' = .ok a') : a = a' :=
  C90_amd_same_of_searchable hD h h' hiso (searchable_of_halfDominant hD4 hdom hfit _) (searchable_of_halfDominant hD4 hdom' hfit' _) ha ha'

/-- **C90** (partial) The same for cells that are not too oblique for `k`. -/
theorem C90_amd_explicit_partial (hD : 0 < D) (h : IsListing S inds mult) (h' : IsListing S' inds' mult') (hiso : IsometricListed S S')
    (hs : Covered S.motif S.cell (k + 1)) (hs' : Covered S'.motif S'.cell (k + 1)) {fuel fuel' : ℕ} {a a' : List ℝ} (ha : AMD S k fuel = .ok a)
    (ha' : AMD S' k fuel' = .ok a') : a = a' :=
  C90_amd_same_of_searchable hD h h' hiso (hs.searchable h.nonempty) (hs'.searchable h'.nonempty) ha ha'

/-- **C90** (partial) For all cells in all dimensions and sufficiently large `k`: if the sites of two sets can be paired off so that distances differ by at most `δ`, entries of their AMDs
differ by at most `δ`; if the sets are isometric, the AMDs are the same. -/
theorem C90_amd_large_k_partial (hD : 0 < D) (h : IsListing S inds mult) (h' : IsListing S' inds' mult') :
    ∃ k₀, ∀ k, k₀ ≤ k → ∀ fuel fuel' a a', AMD S k fuel = .ok a → AMD S' k fuel' = .ok a' →
      (∀ δ, AlmostIsometricListed δ S S' → a.length = k ∧ a'.length = k ∧ ∀ j < k, |a.getD j 0 - a'.getD j 0| ≤ δ) ∧ (IsometricListed S S' → a = a') := by
  obtain ⟨k₁, h₁⟩ := searchable_eventually h.cell S.motif
  obtain ⟨k₂, h₂⟩ := searchable_eventually h'.cell S'.motif
  exact ⟨max k₁ k₂, fun k hk _ _ _ _ ha ha' => ⟨fun δ hδ => C90_amd_of_searchable hD h h' hδ (h₁ _ (by omega)) (h₂ _ (by omega)) ha ha',
    fun hiso => C90_amd_same_of_searchable hD h h' hiso (h₁ _ (by omega)) (h₂ _ (by omega)) ha ha'⟩⟩

/-- **C90** (partial) If the sites of two sets can be paired off so that distances differ by at most `δ`, entries of their AMDs differ by at most `δ`. Missing: cells that are too oblique
for `k`. -/
theorem C90_amd_near_partial (hD : 0 < D) (h : IsListing S inds mult) (h' : IsListing S' inds' mult') (hδ : AlmostIsometricListed δ S S')
    (hs : Covered S.motif S.cell (k + 1)) (hs' : Covered S'.motif S'.cell (k + 1)) {fuel fuel' : ℕ} {a a' : List ℝ}
    (ha : AMD S k fuel = .ok a) (ha' : AMD S' k fuel' = .ok a') : a.length = k ∧ a'.length = k ∧ ∀ j < k, |a.getD j 0 - a'.getD j 0| ≤ δ :=
  C90_amd_of_searchable hD h h' hδ (hs.searchable h.nonempty) (hs'.searchable h'.nonempty) ha ha'

/-! ### PDD -/

theorem IsListing.weightAt_PDD (hD : 0 < D) (h : IsListing S inds mult) (hs : Searchable S.motif S.cell (k + 1)) {R : Fin S.motif.length → List ℝ}
    (hR : ∀ i, IsNeighbourRow S.motif S.cell i k (R i)) {lexsort : Bool} {tol : ℝ} {fuel : ℕ} {p : List (PRow ℝ)}
    (hp : PDD S k lexsort false tol fuel = .ok p) (x : List ℝ) :
    weightAt p x = (∑ i, (open Classical in if R i = x then (1 : ℝ) else 0)) / S.motif.length := by
  classical
  obtain ⟨rows, hperm, -, hf⟩ := C01_pdd_rows_of_searchable hD h.units h.inds_ne hs hp
  rw [weightAt_perm hperm, weightAt_rows (f := R) (m := (S.motif.length : ℝ)) x (hf.imp fun u r hu => ⟨hu.1, ?_⟩),
    h.sum_fun hD hR fun r => if r = x then (1 : ℝ) else 0]
  exact hu.2.2.unique (hR u.1).2 (hu.2.1.trans (hR u.1).1.symm)

/-- C90 for the PDD whenever the searches are complete. -/
theorem C90_pdd_of_searchable (hD : 0 < D) (h : IsListing S inds mult) (h' : IsListing S' inds' mult') (hiso : IsometricListed S S')
    (hs : Searchable S.motif S.cell (k + 1)) (hs' : Searchable S'.motif S'.cell (k + 1)) {lexsort lexsort' : Bool} {tol tol' : ℝ} {fuel fuel' : ℕ}
    {p p' : List (PRow ℝ)} (hp : PDD S k lexsort false tol fuel = .ok p) (hp' : PDD S' k lexsort' false tol' fuel' = .ok p') (x : List ℝ) :
    weightAt p x = weightAt p' x := by
  classical
  obtain ⟨φ, hφ⟩ := C90_paired hD h h' hiso
  choose R hR using fun i : Fin S.motif.length => exists_neighbourRow hD h.cell i k
  choose R' hR' using fun i : Fin S'.motif.length => exists_neighbourRow hD h'.cell i k
  obtain ⟨g, hg, hgd⟩ := site_plan hD h.cell h'.cell h.nonempty h'.nonempty φ hφ
  rw [h.weightAt_PDD hD hs hR hp, h'.weightAt_PDD hD hs' hR' hp']
  have := mean_of_plan (δ := 0) (x := fun i => if R i = x then (1 : ℝ) else 0) (y := fun i => if R' i = x then (1 : ℝ) else 0)
    (List.length_pos_iff.2 h.nonempty) hg fun i l hil => by
      have e : R i = R' l := by
        refine List.ext_getElem ((hR i).1.trans (hR' l).1.symm) fun n h1 h2 => ?_
        have h3 := hgd i l hil k _ _ (hR i) (hR' l) n (by rw [← (hR i).1]; exact h1)
        rw [List.getD_eq_getElem _ _ h1, List.getD_eq_getElem _ _ h2] at h3
        exact sub_eq_zero.1 (abs_eq_zero.1 (le_antisymm h3 (abs_nonneg _)))
      rw [e, sub_self, abs_zero]
  exact sub_eq_zero.1 (abs_eq_zero.1 (le_antisymm this (abs_nonneg _)))

/-- **C90** (partial) If two sets list the same points equally often, up to isometry, each row of distances has the same total weight in both PDDs without collapsing. Missing as for the
AMD. -/
theorem C90_pdd_partial (hD : 0 < D) (hD4 : D ≤ 4) (h : IsListing S inds mult) (h' : IsListing S' inds' mult') (hiso : IsometricListed S S')
    (hdom : HalfDominant S.cell) (hfit : FitsInCell S.motif S.cell) (hdom' : HalfDominant S'.cell) (hfit' : FitsInCell S'.motif S'.cell)
    {lexsort lexsort' : Bool} {tol tol' : ℝ} {fuel fuel' : ℕ}
    {p p' : List (PRow ℝ)} (hp : PDD S k lexsort false tol fuel = .ok p) (hp' : PDD S' k lexsort' false tol' fuel' = .ok p') (x : List ℝ) :
    weightAt p x = weightAt p' x :=
  C90_pdd_of_searchable hD h h' hiso (searchable_of_halfDominant hD4 hdom hfit _) (searchable_of_halfDominant hD4 hdom' hfit' _) hp hp' x

/-- **C90** (partial) The same for cells that are not too oblique for `k`. -/
theorem C90_pdd_explicit_partial (hD : 0 < D) (h : IsListing S inds mult) (h' : IsListing S' inds' mult') (hiso : IsometricListed S S')
    (hs : Covered S.motif S.cell (k + 1)) (hs' : Covered S'.motif S'.cell (k + 1)) {lexsort lexsort' : Bool} {tol tol' : ℝ} {fuel fuel' : ℕ}
    {p p' : List (PRow ℝ)} (hp : PDD S k lexsort false tol fuel = .ok p) (hp' : PDD S' k lexsort' false tol' fuel' = .ok p') (x : List ℝ) :
    weightAt p x = weightAt p' x :=
  C90_pdd_of_searchable hD h h' hiso (hs.searchable h.nonempty) (hs'.searchable h'.nonempty) hp hp' x

/-- **C90** (partial) The same for all cells in all dimensions and sufficiently large `k`. -/
theorem C90_pdd_large_k_partial (hD : 0 < D) (h : IsListing S inds mult) (h' : IsListing S' inds' mult') (hiso : IsometricListed S S') :
    ∃ k₀, ∀ k, k₀ ≤ k → ∀ lexsort lexsort' tol tol' fuel fuel' p p', PDD S k lexsort false tol fuel = .ok p →
      PDD S' k lexsort' false tol' fuel' = .ok p' → ∀ x, weightAt p x = weightAt p' x := by
  obtain ⟨k₁, h₁⟩ := searchable_eventually h.cell S.motif
  obtain ⟨k₂, h₂⟩ := searchable_eventually h'.cell S'.motif
  exact ⟨max k₁ k₂, fun k hk _ _ _ _ _ _ _ _ hp hp' => C90_pdd_of_searchable hD h h' hiso (h₁ _ (by omega)) (h₂ _ (by omega)) hp hp'⟩

/-! ### The distance between PDDs -/

theorem exactEmd_listed (hD : 0 < D) (h : IsListing S inds mult) (h' : IsListing S' inds' mult') (hδ : AlmostIsometricListed δ S S')
    (hs : Searchable S.motif S.cell (k + 1)) (hs' : Searchable S'.motif S'.cell (k + 1)) (hl : S.motif.length ≤ 100000000) (hl' : S'.motif.length ≤ 100000000)
    {lexsort lexsort' collapse : Bool} {tol : ℝ} (htol : 0 ≤ tol) {fuel fuel' : ℕ} {p p' : List (PRow ℝ)} (hp : PDD S k lexsort collapse tol fuel = .ok p)
    (hp' : PDD S' k lexsort' collapse tol fuel' = .ok p') :
    WeightedRows k p ∧ WeightedRows k p' ∧ exactEmd chebyshev p p' ≤ δ + 2 * collapseError collapse tol := by
  have hw := EMD_input_of_PDD hD h.units h.inds_ne h.pos h.sum hl hp
  have hw' := EMD_input_of_PDD hD h'.units h'.inds_ne h'.pos h'.sum hl' hp'
  refine ⟨hw, hw', ?_⟩
  have h0 := hδ.nonneg h.nonempty
  obtain ⟨φ, hφ⟩ := hδ
  choose R hR using fun i : Fin S.motif.length => exists_neighbourRow hD h.cell i k
  choose R' hR' using fun i : Fin S'.motif.length => exists_neighbourRow hD h'.cell i k
  obtain ⟨g, hg, hgd⟩ := site_plan hD h.cell h'.cell h.nonempty h'.nonempty φ hφ
  have key : ∀ {l l' : Bool} {t t' : ℝ} {f f' : ℕ} {b b' : List (PRow ℝ)}, PDD S k l false t f = .ok b → PDD S' k l' false t' f' = .ok b' →
      WeightedRows k b → WeightedRows k b' → exactEmd chebyshev b b' ≤ δ := fun hb hb' hwb hwb' =>
    exactEmd_of_plan (List.length_pos_iff.2 h.nonempty) (List.length_pos_iff.2 h'.nonempty) hl hl' (fun i => (hR i).1) (fun j => (hR' j).1) hg h0
      (fun i j hij => hgd i j hij k _ _ (hR i) (hR' j)) hwb hwb' (h.weightAt_PDD hD hs hR hb) (h'.weightAt_PDD hD hs' hR' hb')
  cases collapse with
  | false => simpa [collapseError] using key hp hp' hw hw'
  | true =>
    obtain ⟨rows, hr, -⟩ := PDD_rows hD h.units h.inds_ne hp
    obtain ⟨rows', hr', -⟩ := PDD_rows hD h'.units h'.inds_ne hp'
    obtain ⟨b, hb⟩ := PDD_ok_of hD h.units h.inds_ne k false false tol hr
    obtain ⟨b', hb'⟩ := PDD_ok_of hD h'.units h'.inds_ne k false false tol hr'
    have hwb := EMD_input_of_PDD hD h.units h.inds_ne h.pos h.sum hl hb
    have hwb' := EMD_input_of_PDD hD h'.units h'.inds_ne h'.pos h'.sum hl' hb'
    have h1 := exactEmd_collapse hD h.units h.inds_ne htol hp hb hw hwb
    have h2 := exactEmd_collapse hD h'.units h'.inds_ne htol hp' hb' hw' hwb'
    have h3 := key hb hb' hwb hwb'
    have t1 := exactEmd_triangle (EMD_default_metric k) hw hwb hw'
    have t2 := exactEmd_triangle (EMD_default_metric k) hwb hwb' hw'
    rw [exactEmd_symm (EMD_default_metric k) hwb hw] at t1
    simp only [collapseError, if_true]
    linarith

/-- C90 for the distance whenever the searches are complete. -/
theorem C90_emd_of_searchable (hD : 0 < D) (h : IsListing S inds mult) (h' : IsListing S' inds' mult') (hδ : AlmostIsometricListed δ S S')
    (hs : Searchable S.motif S.cell (k + 1)) (hs' : Searchable S'.motif S'.cell (k + 1)) (hl : S.motif.length ≤ 100000000) (hl' : S'.motif.length ≤ 100000000)
    {lexsort lexsort' collapse : Bool} {tol : ℝ} (htol : 0 ≤ tol) {fuel fuel' fuel'' : ℕ} {p p' : List (PRow ℝ)} (hp : PDD S k lexsort collapse tol fuel = .ok p)
    (hp' : PDD S' k lexsort' collapse tol fuel' = .ok p') {C : ℝ} (hC : ∀ r ∈ p, ∀ s ∈ p', chebyshev r.dists s.dists ≤ C)
    {d : ℝ} {plan : List (List ℝ)} (hd : emd chebyshev p p' fuel'' = .ok (d, plan)) :
    0 ≤ d ∧ d ≤ δ + 2 * collapseError collapse tol + emdTol (max p.length p'.length) C := by
  obtain ⟨hw, hw', he⟩ := exactEmd_listed hD h h' hδ hs hs' hl hl' htol hp hp'
  refine ⟨C29_nonneg hw hw' (EMD_default_metric k).nonneg hd, ?_⟩
  have := (abs_le.1 (emd_near hw hw' (EMD_default_metric k).nonneg hC hd)).2
  linarith

/-- **C90** (partial) If the sites of two sets can be paired off so that distances differ by at most `δ`, then the EMD of their PDDs is at most `δ`, up to the rounding of `EMD`, and four
times the tolerance if rows are collapsed. (`δ` is 0 for isometric sets, `C90_paired`.) Missing: cells that are too oblique for `k`. -/
theorem C90_emd_partial (hD : 0 < D) (h : IsListing S inds mult) (h' : IsListing S' inds' mult') (hδ : AlmostIsometricListed δ S S')
    (hs : Covered S.motif S.cell (k + 1)) (hs' : Covered S'.motif S'.cell (k + 1)) (hl : S.motif.length ≤ 100000000) (hl' : S'.motif.length ≤ 100000000)
    {lexsort lexsort' collapse : Bool} {tol : ℝ} (htol : 0 ≤ tol) {fuel fuel' fuel'' : ℕ} {p p' : List (PRow ℝ)} (hp : PDD S k lexsort collapse tol fuel = .ok p)
    (hp' : PDD S' k lexsort' collapse tol fuel' = .ok p') {C : ℝ} (hC : ∀ r ∈ p, ∀ s ∈ p', chebyshev r.dists s.dists ≤ C)
    {d : ℝ} {plan : List (List ℝ)} (hd : emd chebyshev p p' fuel'' = .ok (d, plan)) :
    0 ≤ d ∧ d ≤ δ + 2 * collapseError collapse tol + emdTol (max p.length p'.length) C :=
  C90_emd_of_searchable hD h h' hδ (hs.searchable h.nonempty) (hs'.searchable h'.nonempty) hl hl' htol hp hp' hC hd

/-- **C90** (partial) The same for all cells in all dimensions and sufficiently large `k`. -/
theorem C90_emd_large_k_partial (hD : 0 < D) (h : IsListing S inds mult) (h' : IsListing S' inds' mult') (hl : S.motif.length ≤ 100000000)
    (hl' : S'.motif.length ≤ 100000000) :
    ∃ k₀, ∀ k, k₀ ≤ k → ∀ δ, AlmostIsometricListed δ S S' → ∀ lexsort lexsort' collapse tol fuel fuel' fuel'' p p' C d plan, 0 ≤ tol → PDD S k lexsort collapse tol fuel = .ok p →
      PDD S' k lexsort' collapse tol fuel' = .ok p' → (∀ r ∈ p, ∀ s ∈ p', chebyshev r.dists s.dists ≤ C) → emd chebyshev p p' fuel'' = .ok (d, plan) →
      0 ≤ d ∧ d ≤ δ + 2 * collapseError collapse tol + emdTol (max p.length p'.length) C := by
  obtain ⟨k₁, h₁⟩ := searchable_eventually h.cell S.motif
  obtain ⟨k₂, h₂⟩ := searchable_eventually h'.cell S'.motif
  exact ⟨max k₁ k₂, fun k hk _ hδ _ _ _ _ _ _ _ _ _ _ _ _ ht hp hp' hC hd =>
    C90_emd_of_searchable hD h h' hδ (h₁ _ (by omega)) (h₂ _ (by omega)) hl hl' ht hp hp' hC hd⟩

end Amd
