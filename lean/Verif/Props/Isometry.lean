import Verif.Proof.Isometry
import Verif.Proof.CollapseEmd
import Verif.Props.Invariance
import Verif.Props.EMD
import Verif.Spec.Isometric

/-!
# Isometry invariance: C66, C67

The invariants depend only on the crystal up to isometry, not on the motif, cell, asymmetric unit or position used to describe it.
-/

namespace Amd

variable {D : ℕ} {S S' : PeriodicSet D} {inds : List (Fin S.motif.length)} {mult : List ℕ} {inds' : List (Fin S'.motif.length)} {mult' : List ℕ} {k : ℕ}

theorem IsDescription.inds_ne (h : IsDescription S inds mult) : inds ≠ [] := by
  rintro rfl
  obtain ⟨orb, -⟩ := h.asym
  exact (orb ⟨0, List.length_pos_iff.2 h.nonempty⟩).elim0

theorem IsDescription.sum (h : IsDescription S inds mult) : mult.sum = S.motif.length := by
  have e := isAsymUnit_mult h.asym
  have : ((mult.sum : ℕ) : ℝ) = (S.motif.length : ℕ) := by
    rw [← e]
    clear e h
    induction mult with
    | nil => simp
    | cons a l ih => simp [ih]
  exact_mod_cast this

/-- Without an asymmetric unit the conditions on symmetry are void. -/
theorem isDescription_full {motif : List (Pt D ℝ)} {cell : Fin D → Pt D ℝ} (hcell : NonSingular cell) (hne : motif ≠ [])
    (hinj : Function.Injective (sitePos motif cell)) :
    IsDescription { motif := motif, cell := cell } (List.finRange motif.length) (List.replicate motif.length 1) :=
  ⟨hcell, hne, hinj, Or.inr ⟨Or.inl rfl, rfl, rfl⟩, isAsymUnit_full motif cell, fun n hn => by rw [(List.mem_replicate.1 hn).2]; exact one_pos⟩

theorem zipWith_swap (f : ℕ → Fin S.motif.length → ℝ) : List.zipWith f mult inds = List.zipWith (fun i n => f n i) inds mult := by
  rw [List.zipWith_comm]

/-- C66 for the AMD whenever the searches are complete. -/
theorem C66_amd_of_searchable (hD : 0 < D) (h : IsDescription S inds mult) (h' : IsDescription S' inds' mult') (hiso : Isometric S S')
    (hs : Searchable S.motif S.cell (k + 1)) (hs' : Searchable S'.motif S'.cell (k + 1)) {fuel fuel' : ℕ} {a a' : List ℝ}
    (ha : AMD S k fuel = .ok a) (ha' : AMD S' k fuel' = .ok a') : a = a' := by
  obtain ⟨T, hT, hP⟩ := hiso
  choose R hR using fun i : Fin S.motif.length => exists_neighbourRow hD h.cell i k
  choose R' hR' using fun i : Fin S'.motif.length => exists_neighbourRow hD h'.cell i k
  rw [AMD_eq_rows hD h.units h.inds_ne hs ha fun i _ => hR i, AMD_eq_rows hD h'.units h'.inds_ne hs' ha' fun i _ => hR' i]
  refine List.map_congr_left fun j _ => ?_
  rw [zipWith_swap, zipWith_swap, isAsymUnit_sum_fun h.once h.asym hR fun r => r.getD j 0, isAsymUnit_sum_fun h'.once h'.asym hR' fun r => r.getD j 0,
    isAsymUnit_mult h.asym, isAsymUnit_mult h'.asym]
  exact mean_rows_isometry hT h.once h'.once hP h.nonempty h'.nonempty hR hR' fun r => r.getD j 0

/-- **C66** (partial) Isometric periodic sets have the same AMD, whatever motif, cell and asymmetric unit describe them. Missing: cells that are too
oblique or do not contain the motif (`C07_false`), and dimensions above 4. -/
theorem C66_amd_partial (hD : 0 < D) (hD4 : D ≤ 4) (h : IsDescription S inds mult) (h' : IsDescription S' inds' mult') (hiso : Isometric S S')
    (hdom : HalfDominant S.cell) (hfit : FitsInCell S.motif S.cell) (hdom' : HalfDominant S'.cell) (hfit' : FitsInCell S'.motif S'.cell)
    {fuel fuel' : ℕ} {a a' : List ℝ} (ha : AMD S k fuel = .ok a) (ha' : AMD S' k fuel' = .ok a') : a = a' :=
  C66_amd_of_searchable hD h h' hiso (searchable_of_halfDominant hD4 hdom hfit _) (searchable_of_halfDominant hD4 hdom' hfit' _) ha ha'

/-- **C66** (partial) The same for all cells in all dimensions and sufficiently large `k`. -/
theorem C66_amd_large_k_partial (hD : 0 < D) (h : IsDescription S inds mult) (h' : IsDescription S' inds' mult') (hiso : Isometric S S') :
    ∃ k₀, ∀ k, k₀ ≤ k → ∀ fuel fuel' a a', AMD S k fuel = .ok a → AMD S' k fuel' = .ok a' → a = a' := by
  obtain ⟨k₁, h₁⟩ := searchable_eventually h.cell S.motif
  obtain ⟨k₂, h₂⟩ := searchable_eventually h'.cell S'.motif
  exact ⟨max k₁ k₂, fun k hk _ _ _ _ ha ha' => C66_amd_of_searchable hD h h' hiso (h₁ _ (by omega)) (h₂ _ (by omega)) ha ha'⟩

theorem single_injective {motif : List (Pt D ℝ)} {cell : Fin D → Pt D ℝ} (hl : motif.length = 1) (hcell : NonSingular cell) :
    Function.Injective (sitePos motif cell) := by
  rintro ⟨i, n⟩ ⟨j, m⟩ h
  have hij : i = j := Fin.ext (by omega)
  subst hij
  have h0 : ∑ a, ((n a : ℝ) - m a) • cell a = 0 := by
    funext b
    have := congrFun h b
    simp only [sitePos, add_right_inj] at this
    simp only [Finset.sum_apply, Pi.smul_apply, smul_eq_mul, sub_mul, Finset.sum_sub_distrib, this, sub_self, Pi.zero_apply]
  have h1 := Fintype.linearIndependent_iff.1 hcell _ h0
  refine Prod.ext rfl (funext fun a => ?_)
  have := h1 a
  rw [sub_eq_zero] at this
  exact_mod_cast this

/-- **C66** is false in general, as C07 is: already for two cells of the same lattice. -/
theorem C66_false : ∃ (S S' : PeriodicSet 2) (inds : List (Fin S.motif.length)) (inds' : List (Fin S'.motif.length)) (mult mult' : List ℕ),
    IsDescription S inds mult ∧ IsDescription S' inds' mult' ∧ Isometric S S' ∧ ∃ F, ∀ fuel, F ≤ fuel → AMD S 1 fuel = .ok [10] ∧ AMD S' 1 fuel = .ok [1] := by
  have hs : NonSingular straightSet.cell := by
    have e : straightSet.cell = ![![10, 0], ![0, 1]] := by
      funext i j
      fin_cases i <;> fin_cases j <;> simp [straightSet, castPt]
    rw [e, NonSingular, LinearIndependent.pair_iff' (fun h => by simpa using congrFun h 0)]
    intro c h
    simpa using congrFun h 1
  refine ⟨skewSet, straightSet, List.finRange 1, List.finRange 1, [1], [1], isDescription_full skewSet_nonSingular (by simp) (single_injective rfl skewSet_nonSingular),
    isDescription_full hs (by simp) (single_injective rfl hs), ⟨id, fun _ _ => rfl, by rw [Set.image_id]; exact skew_points.symm⟩, 20, fun fuel hf =>
    ⟨AMD_single rfl rfl (skewSet_rows fuel hf), AMD_single rfl rfl (straightSet_rows fuel hf)⟩⟩

theorem weightAt_PDD (hD : 0 < D) (h : IsDescription S inds mult) (hs : Searchable S.motif S.cell (k + 1)) {R : Fin S.motif.length → List ℝ}
    (hR : ∀ i, IsNeighbourRow S.motif S.cell i k (R i)) {lexsort : Bool} {tol : ℝ} {fuel : ℕ} {p : List (PRow ℝ)}
    (hp : PDD S k lexsort false tol fuel = .ok p) (x : List ℝ) :
    weightAt p x = (∑ i, (open Classical in if R i = x then (1 : ℝ) else 0)) / S.motif.length := by
  classical
  obtain ⟨rows, hperm, -, hf⟩ := C01_pdd_rows_of_searchable hD h.units h.inds_ne hs hp
  rw [weightAt_perm hperm, weightAt_rows (f := R) (m := (S.motif.length : ℝ)) x (hf.imp fun u r hu => ⟨hu.1, ?_⟩),
    isAsymUnit_sum_fun h.once h.asym hR fun r => if r = x then (1 : ℝ) else 0]
  exact hu.2.2.unique (hR u.1).2 (hu.2.1.trans (hR u.1).1.symm)

/-- C66 for the PDD whenever the searches are complete. -/
theorem C66_pdd_of_searchable (hD : 0 < D) (h : IsDescription S inds mult) (h' : IsDescription S' inds' mult') (hiso : Isometric S S')
    (hs : Searchable S.motif S.cell (k + 1)) (hs' : Searchable S'.motif S'.cell (k + 1)) {lexsort lexsort' : Bool} {tol tol' : ℝ} {fuel fuel' : ℕ}
    {p p' : List (PRow ℝ)} (hp : PDD S k lexsort false tol fuel = .ok p) (hp' : PDD S' k lexsort' false tol' fuel' = .ok p') (x : List ℝ) :
    weightAt p x = weightAt p' x := by
  classical
  obtain ⟨T, hT, hP⟩ := hiso
  choose R hR using fun i : Fin S.motif.length => exists_neighbourRow hD h.cell i k
  choose R' hR' using fun i : Fin S'.motif.length => exists_neighbourRow hD h'.cell i k
  rw [weightAt_PDD hD h hs hR hp, weightAt_PDD hD h' hs' hR' hp']
  exact mean_rows_isometry hT h.once h'.once hP h.nonempty h'.nonempty hR hR' fun r => if r = x then (1 : ℝ) else 0

/-- **C66** (partial) Isometric periodic sets have the same PDD without collapsing: every row of distances has the same total weight in both. Missing as
for the AMD. -/
theorem C66_pdd_partial (hD : 0 < D) (hD4 : D ≤ 4) (h : IsDescription S inds mult) (h' : IsDescription S' inds' mult') (hiso : Isometric S S')
    (hdom : HalfDominant S.cell) (hfit : FitsInCell S.motif S.cell) (hdom' : HalfDominant S'.cell) (hfit' : FitsInCell S'.motif S'.cell)
    {lexsort lexsort' : Bool} {tol tol' : ℝ} {fuel fuel' : ℕ}
    {p p' : List (PRow ℝ)} (hp : PDD S k lexsort false tol fuel = .ok p) (hp' : PDD S' k lexsort' false tol' fuel' = .ok p') (x : List ℝ) :
    weightAt p x = weightAt p' x :=
  C66_pdd_of_searchable hD h h' hiso (searchable_of_halfDominant hD4 hdom hfit _) (searchable_of_halfDominant hD4 hdom' hfit' _) hp hp' x

/-- **C66** (partial) The same for all cells in all dimensions and sufficiently large `k`. -/
theorem C66_pdd_large_k_partial (hD : 0 < D) (h : IsDescription S inds mult) (h' : IsDescription S' inds' mult') (hiso : Isometric S S') :
    ∃ k₀, ∀ k, k₀ ≤ k → ∀ lexsort lexsort' tol tol' fuel fuel' p p', PDD S k lexsort false tol fuel = .ok p →
      PDD S' k lexsort' false tol' fuel' = .ok p' → ∀ x, weightAt p x = weightAt p' x := by
  obtain ⟨k₁, h₁⟩ := searchable_eventually h.cell S.motif
  obtain ⟨k₂, h₂⟩ := searchable_eventually h'.cell S'.motif
  exact ⟨max k₁ k₂, fun k hk _ _ _ _ _ _ _ _ hp hp' => C66_pdd_of_searchable hD h h' hiso (h₁ _ (by omega)) (h₂ _ (by omega)) hp hp'⟩

/-! ### The distance between PDDs of isometric sets -/

/-- What collapsing can contribute to a distance: twice the tolerance. -/
def collapseError (collapse : Bool) (tol : ℝ) : ℝ := if collapse then 2 * tol else 0

theorem exactEmd_isometric (hD : 0 < D) (h : IsDescription S inds mult) (h' : IsDescription S' inds' mult') (hiso : Isometric S S')
    (hs : Searchable S.motif S.cell (k + 1)) (hs' : Searchable S'.motif S'.cell (k + 1)) (hl : S.motif.length ≤ 100000000) (hl' : S'.motif.length ≤ 100000000)
    {lexsort lexsort' collapse : Bool} {tol : ℝ} (htol : 0 ≤ tol) {fuel fuel' : ℕ} {p p' : List (PRow ℝ)} (hp : PDD S k lexsort collapse tol fuel = .ok p)
    (hp' : PDD S' k lexsort' collapse tol fuel' = .ok p') :
    WeightedRows k p ∧ WeightedRows k p' ∧ exactEmd chebyshev p p' ≤ 2 * collapseError collapse tol := by
  have hw := EMD_input_of_PDD hD h.units h.inds_ne h.pos h.sum hl hp
  have hw' := EMD_input_of_PDD hD h'.units h'.inds_ne h'.pos h'.sum hl' hp'
  refine ⟨hw, hw', ?_⟩
  cases collapse with
  | false =>
    rw [exactEmd_zero (EMD_default_metric k) hw hw' (C66_pdd_of_searchable hD h h' hiso hs hs' hp hp')]
    simp [collapseError]
  | true =>
    obtain ⟨rows, hr, -⟩ := PDD_rows hD h.units h.inds_ne hp
    obtain ⟨rows', hr', -⟩ := PDD_rows hD h'.units h'.inds_ne hp'
    obtain ⟨b, hb⟩ := PDD_ok_of hD h.units h.inds_ne k false false tol hr
    obtain ⟨b', hb'⟩ := PDD_ok_of hD h'.units h'.inds_ne k false false tol hr'
    have hwb := EMD_input_of_PDD hD h.units h.inds_ne h.pos h.sum hl hb
    have hwb' := EMD_input_of_PDD hD h'.units h'.inds_ne h'.pos h'.sum hl' hb'
    have h1 := exactEmd_collapse hD h.units h.inds_ne htol hp hb hw hwb
    have h2 := exactEmd_collapse hD h'.units h'.inds_ne htol hp' hb' hw' hwb'
    have h3 := exactEmd_zero (EMD_default_metric k) hwb hwb' (C66_pdd_of_searchable hD h h' hiso hs hs' hb hb')
    have t1 := exactEmd_triangle (EMD_default_metric k) hw hwb hw'
    have t2 := exactEmd_triangle (EMD_default_metric k) hwb hwb' hw'
    rw [exactEmd_symm (EMD_default_metric k) hwb hw] at t1
    simp only [collapseError, if_true]
    linarith

theorem emd_third {δ : List ℝ → List ℝ → ℝ} (hδ : RowMetric k δ) {p p' q : List (PRow ℝ)} (hw : WeightedRows k p) (hw' : WeightedRows k p') (hq : WeightedRows k q) {e : ℝ}
    (he : exactEmd δ p p' ≤ e) {C : ℝ} {n : ℕ} (hpn : p.length ≤ n) (hpn' : p'.length ≤ n) (hqn : q.length ≤ n)
    (hC : ∀ r ∈ p ++ p', ∀ s ∈ q, δ r.dists s.dists ≤ C) {f f' : ℕ} {d d' : ℝ} {plan plan' : List (List ℝ)}
    (hd : emd δ p q f = .ok (d, plan)) (hd' : emd δ p' q f' = .ok (d', plan')) : |d - d'| ≤ e + 2 * emdTol n C := by
  have e1 := emd_near hw hq hδ.nonneg (fun x hx y hy => hC x (by simp [hx]) y hy) hd
  have e2 := emd_near hw' hq hδ.nonneg (fun x hx y hy => hC x (by simp [hx]) y hy) hd'
  have t1 := exactEmd_triangle hδ hw hw' hq
  have t2 := exactEmd_triangle hδ hw' hw hq
  rw [exactEmd_symm hδ hw hw'] at t2
  have hC0 : 0 ≤ C := by
    obtain ⟨x, hx⟩ := List.exists_mem_of_ne_nil _ hw.nonempty
    obtain ⟨y, hy⟩ := List.exists_mem_of_ne_nil _ hq.nonempty
    exact (hδ.nonneg _ _ (hw.width x hx) (hq.width y hy)).trans (hC x (by simp [hx]) y hy)
  have mono : ∀ m : ℕ, m ≤ n → emdTol m C ≤ emdTol n C := fun m hm => by
    unfold emdTol
    have : (m : ℝ) ≤ n := by exact_mod_cast hm
    apply div_le_div_of_nonneg_right _ (by norm_num)
    nlinarith
  have m1 := mono _ (max_le hpn hqn)
  have m2 := mono _ (max_le hpn' hqn)
  rw [abs_le] at *
  constructor <;> linarith [e1.1, e1.2, e2.1, e2.2]

/-- C66 for the distance whenever the searches are complete. -/
theorem C66_emd_of_searchable (hD : 0 < D) (h : IsDescription S inds mult) (h' : IsDescription S' inds' mult') (hiso : Isometric S S')
    (hs : Searchable S.motif S.cell (k + 1)) (hs' : Searchable S'.motif S'.cell (k + 1)) (hl : S.motif.length ≤ 100000000) (hl' : S'.motif.length ≤ 100000000)
    {lexsort lexsort' collapse : Bool} {tol : ℝ} (htol : 0 ≤ tol) {fuel fuel' fuel'' : ℕ} {p p' : List (PRow ℝ)} (hp : PDD S k lexsort collapse tol fuel = .ok p)
    (hp' : PDD S' k lexsort' collapse tol fuel' = .ok p') {C : ℝ} (hC : ∀ r ∈ p, ∀ s ∈ p', chebyshev r.dists s.dists ≤ C)
    {d : ℝ} {plan : List (List ℝ)} (hd : emd chebyshev p p' fuel'' = .ok (d, plan)) :
    0 ≤ d ∧ d ≤ 2 * collapseError collapse tol + emdTol (max p.length p'.length) C := by
  obtain ⟨hw, hw', he⟩ := exactEmd_isometric hD h h' hiso hs hs' hl hl' htol hp hp'
  refine ⟨C29_nonneg hw hw' (EMD_default_metric k).nonneg hd, ?_⟩
  have := (abs_le.1 (emd_near hw hw' (EMD_default_metric k).nonneg hC hd)).2
  linarith

/-- **C66** (partial) Two descriptions of isometric sets are at distance 0, up to the rounding of `EMD`, if rows are not collapsed; and at most four times the
tolerance if they are. Missing as for the AMD. -/
theorem C66_emd_partial (hD : 0 < D) (hD4 : D ≤ 4) (h : IsDescription S inds mult) (h' : IsDescription S' inds' mult') (hiso : Isometric S S')
    (hdom : HalfDominant S.cell) (hfit : FitsInCell S.motif S.cell) (hdom' : HalfDominant S'.cell) (hfit' : FitsInCell S'.motif S'.cell)
    (hl : S.motif.length ≤ 100000000) (hl' : S'.motif.length ≤ 100000000)
    {lexsort lexsort' collapse : Bool} {tol : ℝ} (htol : 0 ≤ tol) {fuel fuel' fuel'' : ℕ} {p p' : List (PRow ℝ)} (hp : PDD S k lexsort collapse tol fuel = .ok p)
    (hp' : PDD S' k lexsort' collapse tol fuel' = .ok p') {C : ℝ} (hC : ∀ r ∈ p, ∀ s ∈ p', chebyshev r.dists s.dists ≤ C)
    {d : ℝ} {plan : List (List ℝ)} (hd : emd chebyshev p p' fuel'' = .ok (d, plan)) :
    0 ≤ d ∧ d ≤ 2 * collapseError collapse tol + emdTol (max p.length p'.length) C :=
  C66_emd_of_searchable hD h h' hiso (searchable_of_halfDominant hD4 hdom hfit _) (searchable_of_halfDominant hD4 hdom' hfit' _) hl hl' htol hp hp' hC hd

/-- **C66** (partial) Distances to any third PDD are the same, with the same errors. -/
theorem C66_emd_third_partial (hD : 0 < D) (hD4 : D ≤ 4) (h : IsDescription S inds mult) (h' : IsDescription S' inds' mult') (hiso : Isometric S S')
    (hdom : HalfDominant S.cell) (hfit : FitsInCell S.motif S.cell) (hdom' : HalfDominant S'.cell) (hfit' : FitsInCell S'.motif S'.cell)
    (hl : S.motif.length ≤ 100000000) (hl' : S'.motif.length ≤ 100000000)
    {lexsort lexsort' collapse : Bool} {tol : ℝ} (htol : 0 ≤ tol) {fuel fuel' f f' : ℕ} {p p' q : List (PRow ℝ)} (hp : PDD S k lexsort collapse tol fuel = .ok p)
    (hp' : PDD S' k lexsort' collapse tol fuel' = .ok p') (hq : WeightedRows k q) {C : ℝ} {n : ℕ} (hpn : p.length ≤ n) (hpn' : p'.length ≤ n) (hqn : q.length ≤ n)
    (hC : ∀ r ∈ p ++ p', ∀ s ∈ q, chebyshev r.dists s.dists ≤ C) {d d' : ℝ} {plan plan' : List (List ℝ)}
    (hd : emd chebyshev p q f = .ok (d, plan)) (hd' : emd chebyshev p' q f' = .ok (d', plan')) :
    |d - d'| ≤ 2 * collapseError collapse tol + 2 * emdTol n C := by
  obtain ⟨hw, hw', he⟩ := exactEmd_isometric hD h h' hiso (searchable_of_halfDominant hD4 hdom hfit _) (searchable_of_halfDominant hD4 hdom' hfit' _) hl hl' htol hp hp'
  exact emd_third (EMD_default_metric k) hw hw' hq he hpn hpn' hqn hC hd hd'

/-! ### Collapsing: C67 -/

/-- **C67** Collapsing rows within a tolerance moves a PDD by at most twice the tolerance, up to the rounding of `EMD`. For all cells and all asymmetric units. -/
theorem C67_collapse (hD : 0 < D) (hu : S.Units inds mult) (hne : inds ≠ []) (hpos : ∀ n ∈ mult, 0 < n) (hsum : mult.sum = S.motif.length)
    (hl : S.motif.length ≤ 100000000) {lexsort lexsort' : Bool} {tol tol' : ℝ} (htol : 0 ≤ tol) {fuel fuel' : ℕ} {p q : List (PRow ℝ)}
    (hp : PDD S k lexsort false tol' fuel = .ok p) (hq : PDD S k lexsort' true tol fuel = .ok q) {C : ℝ} (hC : ∀ r ∈ p, ∀ s ∈ q, chebyshev r.dists s.dists ≤ C)
    {d : ℝ} {plan : List (List ℝ)} (hd : emd chebyshev p q fuel' = .ok (d, plan)) : 0 ≤ d ∧ d ≤ 2 * tol + emdTol (max p.length q.length) C := by
  have hw := EMD_input_of_PDD hD hu hne hpos hsum hl hp
  have hw' := EMD_input_of_PDD hD hu hne hpos hsum hl hq
  have he := exactEmd_collapse hD hu hne htol hq hp hw' hw
  refine ⟨C29_nonneg hw hw' (EMD_default_metric k).nonneg hd, ?_⟩
  have := (abs_le.1 (emd_near hw hw' (EMD_default_metric k).nonneg hC hd)).2
  linarith

/-- **C67** Distances of a collapsed PDD to a third one are those of the uncollapsed PDD, up to twice the tolerance and rounding. -/
theorem C67_collapse_third (hD : 0 < D) (hu : S.Units inds mult) (hne : inds ≠ []) (hpos : ∀ n ∈ mult, 0 < n) (hsum : mult.sum = S.motif.length)
    (hl : S.motif.length ≤ 100000000) {lexsort lexsort' : Bool} {tol tol' : ℝ} (htol : 0 ≤ tol) {fuel f f' : ℕ} {p q t : List (PRow ℝ)}
    (hp : PDD S k lexsort false tol' fuel = .ok p) (hq : PDD S k lexsort' true tol fuel = .ok q) (ht : WeightedRows k t) {C : ℝ} {n : ℕ} (hpn : p.length ≤ n)
    (hqn : q.length ≤ n) (htn : t.length ≤ n) (hC : ∀ r ∈ p ++ q, ∀ s ∈ t, chebyshev r.dists s.dists ≤ C)
    {d d' : ℝ} {plan plan' : List (List ℝ)} (hd : emd chebyshev p t f = .ok (d, plan)) (hd' : emd chebyshev q t f' = .ok (d', plan')) :
    |d - d'| ≤ 2 * tol + 2 * emdTol n C := by
  have hw := EMD_input_of_PDD hD hu hne hpos hsum hl hp
  have hw' := EMD_input_of_PDD hD hu hne hpos hsum hl hq
  exact emd_third (EMD_default_metric k) hw hw' ht (exactEmd_collapse hD hu hne htol hq hp hw' hw) hpn hqn htn hC hd hd'

/-- An uncollapsed and a collapsed PDD of the example, and their distance. -/
example : ∃ p q f d plan, PDD exampleSet 3 true false 0 f = .ok p ∧ PDD exampleSet 3 true true (1 / 10000) f = .ok q ∧ emd chebyshev p q f = .ok (d, plan) := by
  obtain ⟨_, p, F, h⟩ := C10_terminates (by decide) exampleSet_units exampleSet_units_ne exampleSet_nonSingular 3 true false 0
  obtain ⟨_, q, G, h'⟩ := C10_terminates (by decide) exampleSet_units exampleSet_units_ne exampleSet_nonSingular 3 true true (1 / 10000)
  have hw := EMD_input_of_PDD (by decide) exampleSet_units exampleSet_units_ne (by simp) (by simp [exampleSet]) (by simp [exampleSet]) (h F le_rfl).2
  have hw' := EMD_input_of_PDD (by decide) exampleSet_units exampleSet_units_ne (by simp) (by simp [exampleSet]) (by simp [exampleSet]) (h' G le_rfl).2
  obtain ⟨n, hn⟩ := C33_terminates hw hw' (EMD_default_metric 3).nonneg
  obtain ⟨⟨d, plan⟩, hd⟩ := hn (max n (max F G)) (le_max_left _ _)
  exact ⟨p, q, _, d, plan, (h _ (by omega)).2, (h' _ (by omega)).2, hd⟩

/-! ### An example: pairs of points on the line -/

/-- Pairs of points at distance 1, every 3 units. -/
def linePairs : PeriodicSet 1 := { motif := [![0], ![1]], cell := ![![3]] }

/-- Its mirror image, moved, described by a cell of twice the length and one point that stands for all four. -/
def lineMirror : PeriodicSet 1 := { motif := [![5], ![4], ![2], ![1]], cell := ![![6]], asymUnit := some [0], multiplicities := some [4] }

theorem line_pos (S : PeriodicSet 1) {c : ℝ} (hc : S.cell = ![![c]]) (i : Fin S.motif.length) (n : Fin 1 → ℤ) :
    sitePos S.motif S.cell (i, n) 0 = S.motif[i] 0 + n 0 * c := by
  simp [sitePos, hc]

theorem linePairs_mem (q : Pt 1 ℝ) : q ∈ periodicPoints linePairs.motif linePairs.cell ↔ ∃ n : ℤ, q 0 = 3 * n ∨ q 0 = 3 * n + 1 := by
  constructor
  · rintro ⟨⟨i, n⟩, rfl⟩
    refine ⟨n 0, ?_⟩
    rw [line_pos linePairs rfl]
    change Fin 2 at i
    fin_cases i
    · left; change (0 : ℝ) + _ = _; ring
    · right; change (1 : ℝ) + _ = _; ring
  · rintro ⟨n, hn | hn⟩
    · refine ⟨((0 : Fin 2), ![n]), ?_⟩
      funext j
      fin_cases j
      refine (line_pos linePairs rfl _ _).trans ?_
      change (0 : ℝ) + n * 3 = q 0
      rw [hn]; ring
    · refine ⟨((1 : Fin 2), ![n]), ?_⟩
      funext j
      fin_cases j
      refine (line_pos linePairs rfl _ _).trans ?_
      change (1 : ℝ) + n * 3 = q 0
      rw [hn]; ring

theorem lineMirror_mem (q : Pt 1 ℝ) : q ∈ periodicPoints lineMirror.motif lineMirror.cell ↔ ∃ n : ℤ, q 0 = 3 * n + 2 ∨ q 0 = 3 * n + 1 := by
  constructor
  · rintro ⟨⟨i, n⟩, rfl⟩
    rw [line_pos lineMirror rfl]
    change Fin 4 at i
    fin_cases i
    · refine ⟨2 * n 0 + 1, Or.inl ?_⟩; change (5 : ℝ) + _ = _; push_cast; ring
    · refine ⟨2 * n 0 + 1, Or.inr ?_⟩; change (4 : ℝ) + _ = _; push_cast; ring
    · refine ⟨2 * n 0, Or.inl ?_⟩; change (2 : ℝ) + _ = _; push_cast; ring
    · refine ⟨2 * n 0, Or.inr ?_⟩; change (1 : ℝ) + _ = _; push_cast; ring
  · rintro ⟨n, hn⟩
    have key : ∀ (i : Fin 4) (c : ℤ) (x : ℝ), (lineMirror.motif[i] : Pt 1 ℝ) 0 = x → x + c * 6 = q 0 → q ∈ periodicPoints lineMirror.motif lineMirror.cell := by
      intro i c x h1 h2
      refine ⟨(i, ![c]), ?_⟩
      funext j
      fin_cases j
      refine (line_pos lineMirror rfl _ _).trans ?_
      exact (congrArg (· + (c : ℝ) * 6) h1).trans h2
    rcases Int.even_or_odd' n with ⟨c, hc | hc⟩ <;> rcases hn with hn | hn
    · exact key 2 c 2 rfl (by rw [hn, hc]; push_cast; ring)
    · exact key 3 c 1 rfl (by rw [hn, hc]; push_cast; ring)
    · exact key 0 c 5 rfl (by rw [hn, hc]; push_cast; ring)
    · exact key 1 c 4 rfl (by rw [hn, hc]; push_cast; ring)

theorem nonSingular_line {c : ℝ} (hc : c ≠ 0) : NonSingular (![![c]] : Fin 1 → Pt 1 ℝ) :=
  LinearIndependent.of_subsingleton 0 fun h => hc (by simpa using congrFun h 0)

/-- Positions on the line determine the site if the points differ modulo the cell. -/
theorem injective_line {m : List (Pt 1 ℝ)} {c : ℤ} (z : Fin m.length → ℤ) (hz : ∀ i, m[i] 0 = z i) (hinj : ∀ i j, (∃ n : ℤ, z i - z j = n * c) → i = j) (hc : c ≠ 0) :
    Function.Injective (sitePos m (![![(c : ℝ)]] : Fin 1 → Pt 1 ℝ)) := by
  rintro ⟨i, n⟩ ⟨j, l⟩ h
  have h0 := congrFun h 0
  simp only [sitePos, Finset.univ_unique, Fin.default_eq_zero, Fin.isValue, Matrix.cons_val_fin_one, Finset.sum_singleton] at h0
  have e1 := hz i
  have e2 := hz j
  simp only [Fin.getElem_fin] at e1 e2 h0
  rw [e1, e2] at h0
  have h1 : z i + n 0 * c = z j + l 0 * c := by exact_mod_cast h0
  have hij := hinj i j ⟨l 0 - n 0, by linarith⟩
  subst hij
  have h2 : n 0 = l 0 := mul_right_cancel₀ hc (by linarith)
  refine Prod.ext rfl (funext fun a => ?_)
  fin_cases a
  exact h2

theorem eucl_line {T : Pt 1 ℝ → Pt 1 ℝ} {v : ℝ} (h : (∀ p, T p 0 = p 0 + v) ∨ ∀ p, T p 0 = v - p 0) (p q : Pt 1 ℝ) : eucl (T p) (T q) = eucl p q := by
  simp only [eucl, sqDist, Finset.univ_unique, Fin.default_eq_zero, Finset.sum_singleton]
  congr 1
  rcases h with h | h <;> rw [h, h] <;> ring

theorem linePairs_description : IsDescription linePairs (List.finRange 2) [1, 1] := by
  refine isDescription_full (nonSingular_line (by norm_num)) (by simp) ?_
  exact injective_line (c := 3) ![0, 1] (fun i => by fin_cases i <;> simp) (fun i j h => by
    fin_cases i <;> fin_cases j <;> first | rfl | (obtain ⟨n, hn⟩ := h; simp at hn; omega)) (by norm_num)

theorem lineMirror_symmetry {T : Pt 1 ℝ → Pt 1 ℝ} (z : ℤ) (h : (∀ p, T p 0 = p 0 + (3 * z : ℤ)) ∨ ∀ p, T p 0 = (3 * z : ℤ) - p 0) :
    IsSymmetry (periodicPoints lineMirror.motif lineMirror.cell) T := by
  refine ⟨eucl_line h, ?_, ?_⟩
  · intro q hq
    rw [lineMirror_mem] at *
    obtain ⟨n, hn⟩ := hq
    rcases h with h | h
    · refine ⟨n + z, ?_⟩
      rw [h]
      rcases hn with hn | hn <;> [left; right] <;> rw [hn] <;> push_cast <;> ring
    · refine ⟨z - n - 1, ?_⟩
      rw [h]
      rcases hn with hn | hn <;> [right; left] <;> rw [hn] <;> push_cast <;> ring
  · intro q hq
    rw [lineMirror_mem] at hq
    obtain ⟨n, hn⟩ := hq
    rcases h with h | h
    · refine ⟨![q 0 - (3 * z : ℤ)], ?_, ?_⟩
      · rw [lineMirror_mem]
        refine ⟨n - z, ?_⟩
        rcases hn with hn | hn <;> [left; right] <;> simp [hn] <;> ring
      · funext j; fin_cases j
        change T _ 0 = q 0
        rw [h]
        simp
    · refine ⟨![(3 * z : ℤ) - q 0], ?_, ?_⟩
      · rw [lineMirror_mem]
        refine ⟨z - n - 1, ?_⟩
        rcases hn with hn | hn <;> [right; left] <;> simp [hn] <;> ring
      · funext j; fin_cases j
        change T _ 0 = q 0
        rw [h]
        simp

theorem lineMirror_description : IsDescription lineMirror [(0 : Fin 4)] [4] := by
  refine ⟨nonSingular_line (by norm_num), by simp [lineMirror], ?_, Or.inl ⟨rfl, rfl, rfl⟩, ⟨fun _ => 0, ?_, fun i => ?_⟩, by simp⟩
  · exact injective_line (c := 6) ![5, 4, 2, 1] (fun i => by
      change Fin 4 at i
      fin_cases i
      · exact (Int.cast_ofNat 5).symm
      · exact (Int.cast_ofNat 4).symm
      · exact (Int.cast_ofNat 2).symm
      · exact Int.cast_one.symm) (fun i j h => by
      change Fin 4 at i j
      fin_cases i <;> fin_cases j <;> first | rfl | (obtain ⟨n, hn⟩ := h; simp at hn; omega)) (by norm_num)
  · rfl
  · change Fin 4 at i
    fin_cases i
    · exact ⟨fun p => ![p 0 + (3 * 0 : ℤ)], lineMirror_symmetry 0 (Or.inl fun p => rfl), by funext j; fin_cases j; change (5 : ℝ) + (3 * 0 : ℤ) = 5; norm_num⟩
    · exact ⟨fun p => ![(3 * 3 : ℤ) - p 0], lineMirror_symmetry 3 (Or.inr fun p => rfl), by funext j; fin_cases j; change (3 * 3 : ℤ) - (4 : ℝ) = 5; norm_num⟩
    · exact ⟨fun p => ![p 0 + (3 * 1 : ℤ)], lineMirror_symmetry 1 (Or.inl fun p => rfl), by funext j; fin_cases j; change (2 : ℝ) + (3 * 1 : ℤ) = 5; norm_num⟩
    · exact ⟨fun p => ![(3 * 2 : ℤ) - p 0], lineMirror_symmetry 2 (Or.inr fun p => rfl), by funext j; fin_cases j; change (3 * 2 : ℤ) - (1 : ℝ) = 5; norm_num⟩

theorem line_isometric : Isometric linePairs lineMirror := by
  refine ⟨fun p => ![5 - p 0], eucl_line (v := 5) (Or.inr fun p => rfl), ?_⟩
  ext q
  rw [lineMirror_mem]
  constructor
  · rintro ⟨n, hn⟩
    refine ⟨![5 - q 0], ?_, by funext j; fin_cases j; simp⟩
    rw [linePairs_mem]
    refine ⟨1 - n, ?_⟩
    rcases hn with hn | hn <;> [left; right] <;> simp [hn] <;> ring
  · rintro ⟨p, hp, rfl⟩
    rw [linePairs_mem] at hp
    obtain ⟨n, hn⟩ := hp
    refine ⟨1 - n, ?_⟩
    rcases hn with hn | hn <;> [left; right] <;> simp [hn] <;> ring

theorem line_halfDominant (c : ℝ) : HalfDominant (![![c]] : Fin 1 → Pt 1 ℝ) := by
  intro i
  have : (Finset.univ : Finset (Fin 1)).erase i = ∅ := by fin_cases i; decide
  rw [this]
  simp only [Finset.sum_empty, mul_zero, gram]
  exact Finset.sum_nonneg fun j _ => mul_self_nonneg _

theorem line_fits {c : ℝ} (hc : 0 < c) {m : List (Pt 1 ℝ)} (h : ∀ q ∈ m, 0 ≤ q 0 ∧ q 0 < c) : FitsInCell m (![![c]] : Fin 1 → Pt 1 ℝ) := by
  refine ⟨0, fun q hq => ⟨fun _ => q 0 / c, fun _ => ⟨div_nonneg (h q hq).1 hc.le, (div_lt_one hc).2 (h q hq).2⟩, ?_⟩⟩
  funext j
  fin_cases j
  simp [hc.ne']

/-- The hypotheses of C66 are met by a set and its mirror image with another cell and an asymmetric unit: their AMDs agree, and so do their PDDs. -/
example : ∃ F a p p', AMD linePairs 5 F = .ok a ∧ AMD lineMirror 5 F = .ok a ∧ PDD linePairs 5 true false 0 F = .ok p ∧ PDD lineMirror 5 true false 0 F = .ok p' ∧
    ∀ x, weightAt p x = weightAt p' x := by
  have hd := linePairs_description
  have hd' := lineMirror_description
  obtain ⟨a, p, F, h⟩ := C10_terminates (by decide) hd.units hd.inds_ne hd.cell 5 true false 0
  obtain ⟨a', p', F', h'⟩ := C10_terminates (by decide) hd'.units hd'.inds_ne hd'.cell 5 true false 0
  have h1 := h (max F F') (le_max_left _ _)
  have h2 := h' (max F F') (le_max_right _ _)
  have f1 : FitsInCell linePairs.motif linePairs.cell := line_fits (by norm_num) fun q hq => by
    simp only [linePairs, List.mem_cons, List.not_mem_nil, or_false] at hq
    rcases hq with rfl | rfl <;> norm_num
  have f2 : FitsInCell lineMirror.motif lineMirror.cell := line_fits (by norm_num) fun q hq => by
    simp only [lineMirror, List.mem_cons, List.not_mem_nil, or_false] at hq
    rcases hq with rfl | rfl | rfl | rfl <;> norm_num
  obtain rfl := C66_amd_partial (by decide) (by decide) hd hd' line_isometric (line_halfDominant 3) f1 (line_halfDominant 6) f2 h1.1 h2.1
  exact ⟨_, _, _, _, h1.1, h2.1, h1.2, h2.2,
    C66_pdd_partial (by decide) (by decide) hd hd' line_isometric (line_halfDominant 3) f1 (line_halfDominant 6) f2 h1.2 h2.2⟩

end Amd
