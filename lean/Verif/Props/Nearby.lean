import Verif.Proof.CouplingEmd
import Verif.Props.RoundingEmd
import Verif.Spec.Nearby

/-!
# C85: continuity of the invariants

Periodic sets that are almost the same have almost the same AMD and PDD, whatever motifs, cells and asymmetric units describe them, and even if no common cell exists.
-/

namespace Amd

variable {D : ℕ} {S S' : PeriodicSet D} {inds : List (Fin S.motif.length)} {mult : List ℕ} {inds' : List (Fin S'.motif.length)} {mult' : List ℕ} {k : ℕ} {δ : ℝ}

theorem AlmostIsometric.nonneg (h : AlmostIsometric δ S S') (hne : S.motif ≠ []) : 0 ≤ δ := by
  obtain ⟨f, -, hδ⟩ := h
  have hp : sitePos S.motif S.cell (⟨0, List.length_pos_iff.2 hne⟩, 0) ∈ periodicPoints S.motif S.cell := ⟨_, rfl⟩
  exact (abs_nonneg _).trans (hδ _ hp _ hp)

/-- **C85** Displacing each point by at most `ε`, not necessarily periodically, changes distances by at most `2 ε`. -/
theorem C85_displaced {ε : ℝ} (h : Displaced ε S S') : AlmostIsometric (2 * ε) S S' := by
  obtain ⟨T, f, hT, hf, hε⟩ := h
  refine ⟨f, hf, fun p hp q hq => ?_⟩
  have h1 := hε p hp
  have h2 := hε q hq
  have t1 := eucl_triangle (f p) (T p) (f q)
  have t2 := eucl_triangle (T p) (T q) (f q)
  have t3 := eucl_triangle (T p) (f p) (T q)
  have t4 := eucl_triangle (f p) (f q) (T q)
  rw [eucl_comm (f p) (T p)] at t1
  rw [eucl_comm (f q) (T q)] at t4
  rw [hT] at t2 t3
  rw [abs_le]
  constructor <;> linarith

/-- **C85** Isometric sets are almost isometric with `δ = 0`, so C85 contains C66. -/
theorem C85_isometric (h : Isometric S S') : AlmostIsometric 0 S S' := by
  obtain ⟨T, hT, hP⟩ := h
  have hinj : Function.Injective T := by
    intro p q hpq
    have h0 := hT p q
    rw [hpq] at h0
    have e : eucl (T q) (T q) = 0 := by simp [eucl, sqDist]
    rw [e] at h0
    have h1 : sqDist p q = 0 := by
      have := h0.symm
      unfold eucl at this
      exact (Real.sqrt_eq_zero (Finset.sum_nonneg fun j _ => by positivity)).1 this
    unfold sqDist at h1
    rw [Finset.sum_eq_zero_iff_of_nonneg (fun j _ => by positivity)] at h1
    funext j
    have := h1 j (Finset.mem_univ j)
    nlinarith
  refine ⟨T, ⟨fun p hp => ?_, hinj.injOn, fun q hq => ?_⟩, fun p _ q _ => by rw [hT, sub_self, abs_zero]⟩
  · rw [hP]; exact ⟨p, hp, rfl⟩
  · rw [hP] at hq; exact hq

/-- C85 for the AMD whenever the searches are complete. -/
theorem C85_amd_of_searchable (hD : 0 < D) (h : IsDescription S inds mult) (h' : IsDescription S' inds' mult') (hδ : AlmostIsometric δ S S')
    (hs : Searchable S.motif S.cell (k + 1)) (hs' : Searchable S'.motif S'.cell (k + 1)) {fuel fuel' : ℕ} {a a' : List ℝ}
    (ha : AMD S k fuel = .ok a) (ha' : AMD S' k fuel' = .ok a') : a.length = k ∧ a'.length = k ∧ ∀ j < k, |a.getD j 0 - a'.getD j 0| ≤ δ := by
  obtain ⟨f, hf, hd⟩ := hδ
  choose R hR using fun i : Fin S.motif.length => exists_neighbourRow hD h.cell i k
  choose R' hR' using fun i : Fin S'.motif.length => exists_neighbourRow hD h'.cell i k
  obtain ⟨g, hg, hgd⟩ := almost_plan hD h.cell h'.cell h.nonempty h'.nonempty h.once h'.once hf hd
  rw [AMD_eq_rows hD h.units h.inds_ne hs ha fun i _ => hR i, AMD_eq_rows hD h'.units h'.inds_ne hs' ha' fun i _ => hR' i]
  refine ⟨by simp, by simp, fun j hj => ?_⟩
  rw [List.getD_eq_getElem _ _ (by simpa using hj), List.getD_eq_getElem _ _ (by simpa using hj), List.getElem_map, List.getElem_map, List.getElem_range,
    zipWith_swap, zipWith_swap, isAsymUnit_sum_fun h.once h.asym hR fun r => r.getD j 0, isAsymUnit_sum_fun h'.once h'.asym hR' fun r => r.getD j 0,
    isAsymUnit_mult h.asym, isAsymUnit_mult h'.asym]
  exact mean_of_plan (List.length_pos_iff.2 h.nonempty) hg fun i l hil => hgd i l hil k _ _ (hR i) (hR' l) j hj

/-- **C85** (partial) If the points of two periodic sets can be paired off so that distances between points differ by at most `δ`, then the entries of the AMDs differ by at most `δ`.
Missing: cells that are too oblique or do not contain the motif, and dimensions above 4. -/
theorem C85_amd_partial (hD : 0 < D) (hD4 : D ≤ 4) (h : IsDescription S inds mult) (h' : IsDescription S' inds' mult') (hδ : AlmostIsometric δ S S')
    (hdom : HalfDominant S.cell) (hfit : FitsInCell S.motif S.cell) (hdom' : HalfDominant S'.cell) (hfit' : FitsInCell S'.motif S'.cell)
    {fuel fuel' : ℕ} {a a' : List ℝ} (ha : AMD S k fuel = .ok a) (ha' : AMD S' k fuel' = .ok a') : a.length = k ∧ a'.length = k ∧ ∀ j < k, |a.getD j 0 - a'.getD j 0| ≤ δ :=
  C85_amd_of_searchable hD h h' hδ (searchable_of_halfDominant hD4 hdom hfit _) (searchable_of_halfDominant hD4 hdom' hfit' _) ha ha'

/-- **C85** (partial) The same for cells that are not too oblique for `k`. -/
theorem C85_amd_explicit_partial (hD : 0 < D) (h : IsDescription S inds mult) (h' : IsDescription S' inds' mult') (hδ : AlmostIsometric δ S S')
    (hs : Covered S.motif S.cell (k + 1)) (hs' : Covered S'.motif S'.cell (k + 1)) {fuel fuel' : ℕ} {a a' : List ℝ}
    (ha : AMD S k fuel = .ok a) (ha' : AMD S' k fuel' = .ok a') : a.length = k ∧ a'.length = k ∧ ∀ j < k, |a.getD j 0 - a'.getD j 0| ≤ δ :=
  C85_amd_of_searchable hD h h' hδ (hs.searchable h.nonempty) (hs'.searchable h'.nonempty) ha ha'

/-- **C85** (partial) The same for all cells in all dimensions and sufficiently large `k`. -/
theorem C85_amd_large_k_partial (hD : 0 < D) (h : IsDescription S inds mult) (h' : IsDescription S' inds' mult') :
    ∃ k₀, ∀ k, k₀ ≤ k → ∀ δ, AlmostIsometric δ S S' → ∀ fuel fuel' a a', AMD S k fuel = .ok a → AMD S' k fuel' = .ok a' →
      a.length = k ∧ a'.length = k ∧ ∀ j < k, |a.getD j 0 - a'.getD j 0| ≤ δ := by
  obtain ⟨k₁, h₁⟩ := searchable_eventually h.cell S.motif
  obtain ⟨k₂, h₂⟩ := searchable_eventually h'.cell S'.motif
  exact ⟨max k₁ k₂, fun k hk _ hδ _ _ _ _ ha ha' => C85_amd_of_searchable hD h h' hδ (h₁ _ (by omega)) (h₂ _ (by omega)) ha ha'⟩

/-! ### The distance between PDDs -/

theorem exactEmd_almost (hD : 0 < D) (h : IsDescription S inds mult) (h' : IsDescription S' inds' mult') (hδ : AlmostIsometric δ S S')
    (hs : Searchable S.motif S.cell (k + 1)) (hs' : Searchable S'.motif S'.cell (k + 1)) (hl : S.motif.length ≤ 100000000) (hl' : S'.motif.length ≤ 100000000)
    {lexsort lexsort' collapse : Bool} {tol : ℝ} (htol : 0 ≤ tol) {fuel fuel' : ℕ} {p p' : List (PRow ℝ)} (hp : PDD S k lexsort collapse tol fuel = .ok p)
    (hp' : PDD S' k lexsort' collapse tol fuel' = .ok p') :
    WeightedRows k p ∧ WeightedRows k p' ∧ exactEmd chebyshev p p' ≤ δ + 2 * collapseError collapse tol := by
  have hw := EMD_input_of_PDD hD h.units h.inds_ne h.pos h.sum hl hp
  have hw' := EMD_input_of_PDD hD h'.units h'.inds_ne h'.pos h'.sum hl' hp'
  refine ⟨hw, hw', ?_⟩
  have h0 := hδ.nonneg h.nonempty
  obtain ⟨f, hf, hd⟩ := hδ
  choose R hR using fun i : Fin S.motif.length => exists_neighbourRow hD h.cell i k
  choose R' hR' using fun i : Fin S'.motif.length => exists_neighbourRow hD h'.cell i k
  obtain ⟨g, hg, hgd⟩ := almost_plan hD h.cell h'.cell h.nonempty h'.nonempty h.once h'.once hf hd
  have key : ∀ {l l' : Bool} {t t' : ℝ} {f f' : ℕ} {b b' : List (PRow ℝ)}, PDD S k l false t f = .ok b → PDD S' k l' false t' f' = .ok b' →
      WeightedRows k b → WeightedRows k b' → exactEmd chebyshev b b' ≤ δ := fun hb hb' hwb hwb' =>
    exactEmd_of_plan (List.length_pos_iff.2 h.nonempty) (List.length_pos_iff.2 h'.nonempty) hl hl' (fun i => (hR i).1) (fun j => (hR' j).1) hg h0
      (fun i j hij => hgd i j hij k _ _ (hR i) (hR' j)) hwb hwb' (weightAt_PDD hD h hs hR hb) (weightAt_PDD hD h' hs' hR' hb')
  cases collapse with
  | false => simpa [collapseError] using key hp hp' hw hw'
  | true =>
    obtain ⟨rows, hr, -⟩ := PDD_rows hD h.units h.inds_ne hp
    obtain ⟨rows', hr', -⟩ := PDD_rows hD h'.units h'.inds_ne hp'
    obtain ⟨b, hb⟩ := PDD_ok_of hD h.units h.inds_ne k false false tol hr
    obtain ⟨b', hb'⟩ := PDD_ok_of hD h'.units h'.inds_ne k false false tol hr'
    have hwb := EMD_input_of_PDD hD h.units h.inds_ne h.pos h.sum hl hb
    have hwb' := EMD_input_of_PDD hD h'.units h'.inds_ne h'.pos h'.sum hl' hb'
    have h1 := exactEmd_collapse hD h.units h.inds_ne htol hp hb hw hwb
    have h2 := exactEmd_collapse hD h'.units h'.inds_ne htol hp' hb' hw' hwb'
    have h3 := key hb hb' hwb hwb'
    have t1 := exactEmd_triangle (EMD_default_metric k) hw hwb hw'
    have t2 := exactEmd_triangle (EMD_default_metric k) hwb hwb' hw'
    rw [exactEmd_symm (EMD_default_metric k) hwb hw] at t1
    simp only [collapseError, if_true]
    linarith

/-- C85 for the distance whenever the searches are complete. -/
theorem C85_emd_of_searchable (hD : 0 < D) (h : IsDescription S inds mult) (h' : IsDescription S' inds' mult') (hδ : AlmostIsometric δ S S')
    (hs : Searchable S.motif S.cell (k + 1)) (hs' : Searchable S'.motif S'.cell (k + 1)) (hl : S.motif.length ≤ 100000000) (hl' : S'.motif.length ≤ 100000000)
    {lexsort lexsort' collapse : Bool} {tol : ℝ} (htol : 0 ≤ tol) {fuel fuel' fuel'' : ℕ} {p p' : List (PRow ℝ)} (hp : PDD S k lexsort collapse tol fuel = .ok p)
    (hp' : PDD S' k lexsort' collapse tol fuel' = .ok p') {C : ℝ} (hC : ∀ r ∈ p, ∀ s ∈ p', chebyshev r.dists s.dists ≤ C)
    {d : ℝ} {plan : List (List ℝ)} (hd : emd chebyshev p p' fuel'' = .ok (d, plan)) :
    0 ≤ d ∧ d ≤ δ + 2 * collapseError collapse tol + emdTol (max p.length p'.length) C := by
  obtain ⟨hw, hw', he⟩ := exactEmd_almost hD h h' hδ hs hs' hl hl' htol hp hp'
  refine ⟨C29_nonneg hw hw' (EMD_default_metric k).nonneg hd, ?_⟩
  have := (abs_le.1 (emd_near hw hw' (EMD_default_metric k).nonneg hC hd)).2
  linarith

/-- **C85** (partial) If the points of two periodic sets can be paired off so that distances between points differ by at most `δ`, then the EMD of their PDDs is at most `δ`, up to the
rounding of `EMD`, and four times the tolerance if rows are collapsed. Missing as for the AMD. -/
theorem C85_emd_partial (hD : 0 < D) (hD4 : D ≤ 4) (h : IsDescription S inds mult) (h' : IsDescription S' inds' mult') (hδ : AlmostIsometric δ S S')
    (hdom : HalfDominant S.cell) (hfit : FitsInCell S.motif S.cell) (hdom' : HalfDominant S'.cell) (hfit' : FitsInCell S'.motif S'.cell)
    (hl : S.motif.length ≤ 100000000) (hl' : S'.motif.length ≤ 100000000)
    {lexsort lexsort' collapse : Bool} {tol : ℝ} (htol : 0 ≤ tol) {fuel fuel' fuel'' : ℕ} {p p' : List (PRow ℝ)} (hp : PDD S k lexsort collapse tol fuel = .ok p)
    (hp' : PDD S' k lexsort' collapse tol fuel' = .ok p') {C : ℝ} (hC : ∀ r ∈ p, ∀ s ∈ p', chebyshev r.dists s.dists ≤ C)
    {d : ℝ} {plan : List (List ℝ)} (hd : emd chebyshev p p' fuel'' = .ok (d, plan)) :
    0 ≤ d ∧ d ≤ δ + 2 * collapseError collapse tol + emdTol (max p.length p'.length) C :=
  C85_emd_of_searchable hD h h' hδ (searchable_of_halfDominant hD4 hdom hfit _) (searchable_of_halfDominant hD4 hdom' hfit' _) hl hl' htol hp hp' hC hd

/-- **C85** (partial) The same for cells that are not too oblique for `k`. -/
theorem C85_emd_explicit_partial (hD : 0 < D) (h : IsDescription S inds mult) (h' : IsDescription S' inds' mult') (hδ : AlmostIsometric δ S S')
    (hs : Covered S.motif S.cell (k + 1)) (hs' : Covered S'.motif S'.cell (k + 1)) (hl : S.motif.length ≤ 100000000) (hl' : S'.motif.length ≤ 100000000)
    {lexsort lexsort' collapse : Bool} {tol : ℝ} (htol : 0 ≤ tol) {fuel fuel' fuel'' : ℕ} {p p' : List (PRow ℝ)} (hp : PDD S k lexsort collapse tol fuel = .ok p)
    (hp' : PDD S' k lexsort' collapse tol fuel' = .ok p') {C : ℝ} (hC : ∀ r ∈ p, ∀ s ∈ p', chebyshev r.dists s.dists ≤ C)
    {d : ℝ} {plan : List (List ℝ)} (hd : emd chebyshev p p' fuel'' = .ok (d, plan)) :
    0 ≤ d ∧ d ≤ δ + 2 * collapseError collapse tol + emdTol (max p.length p'.length) C :=
  C85_emd_of_searchable hD h h' hδ (hs.searchable h.nonempty) (hs'.searchable h'.nonempty) hl hl' htol hp hp' hC hd

/-- **C85** (partial) The same for all cells in all dimensions and sufficiently large `k`. -/
theorem C85_emd_large_k_partial (hD : 0 < D) (h : IsDescription S inds mult) (h' : IsDescription S' inds' mult') (hl : S.motif.length ≤ 100000000)
    (hl' : S'.motif.length ≤ 100000000) :
    ∃ k₀, ∀ k, k₀ ≤ k → ∀ δ, AlmostIsometric δ S S' → ∀ lexsort lexsort' collapse tol fuel fuel' fuel'' p p' C d plan, 0 ≤ tol → PDD S k lexsort collapse tol fuel = .ok p →
      PDD S' k lexsort' collapse tol fuel' = .ok p' → (∀ r ∈ p, ∀ s ∈ p', chebyshev r.dists s.dists ≤ C) → emd chebyshev p p' fuel'' = .ok (d, plan) →
      0 ≤ d ∧ d ≤ δ + 2 * collapseError collapse tol + emdTol (max p.length p'.length) C := by
  obtain ⟨k₁, h₁⟩ := searchable_eventually h.cell S.motif
  obtain ⟨k₂, h₂⟩ := searchable_eventually h'.cell S'.motif
  exact ⟨max k₁ k₂, fun k hk _ hδ _ _ _ _ _ _ _ _ _ _ _ _ ht hp hp' hC hd =>
    C85_emd_of_searchable hD h h' hδ (h₁ _ (by omega)) (h₂ _ (by omega)) hl hl' ht hp hp' hC hd⟩

/-! ### With rounded operations -/

section
variable {fl : ℝ → ℝ} {u κ κ' M M' : ℝ} {C : Computed S.motif.length D} {C' : Computed S'.motif.length D}

theorem exactEmd_truePDD_almost (hD : 0 < D) (hd : IsDescription S inds mult) (hd' : IsDescription S' inds' mult') (hδ : AlmostIsometric δ S S') (h : Workable S inds mult fl u κ M)
    (h' : Workable S' inds' mult' fl u κ' M') {P P' : List (PRow ℝ)} (hP : TruePDD S inds mult k P) (hP' : TruePDD S' inds' mult' k P') : exactEmd chebyshev P P' ≤ δ := by
  have h0 := hδ.nonneg hd.nonempty
  obtain ⟨f, hf, he⟩ := hδ
  choose R hR using fun i : Fin S.motif.length => exists_neighbourRow hD hd.cell i k
  choose R' hR' using fun i : Fin S'.motif.length => exists_neighbourRow hD hd'.cell i k
  obtain ⟨g, hg, hgd⟩ := almost_plan hD hd.cell hd'.cell hd.nonempty hd'.nonempty hd.once hd'.once hf he
  exact exactEmd_of_plan (List.length_pos_iff.2 hd.nonempty) (List.length_pos_iff.2 hd'.nonempty) (h.few.trans (by norm_num)) (h'.few.trans (by norm_num)) (fun i => (hR i).1)
    (fun j => (hR' j).1) hg h0 (fun i j hij => hgd i j hij k _ _ (hR i) (hR' j)) (hP.weighted h) (hP'.weighted h') (weightAt_truePDD hd hR hP) (weightAt_truePDD hd' hR' hP')

/-- **C85** (partial) The same when the PDDs and their `EMD` are computed with rounded operations: `δ` and the errors of C82. Missing: cells that are too oblique for the number of
neighbours. -/
theorem C85_rounded_partial (hD : 0 < D) (hd : IsDescription S inds mult) (hd' : IsDescription S' inds' mult') (hδ : AlmostIsometric δ S S') (hmono : Monotone fl)
    (h : Workable S inds mult fl u κ M) (h' : Workable S' inds' mult' fl u κ' M') {total total' : List ℝ → ℝ}
    (htotal : FloatSum fl total) (htotal' : FloatSum fl total') {dot : List (ℝ × ℝ) → ℝ} (hdot : FloatDot fl dot) (hs : Covered S.motif S.cell (k + 1))
    (hs' : Covered S'.motif S'.cell (k + 1)) (hC : FloatCall fl S.motif S.cell inds C) (hC' : FloatCall fl S'.motif S'.cell inds' C') {P P' : List (PRow ℝ)}
    (hP : TruePDD S inds mult k P) (hP' : TruePDD S' inds' mult' k P') {B : ℝ} (hB0 : 0 ≤ B) (hB : ∀ r ∈ P ++ P', ∀ x ∈ r.dists, x ≤ B) {lexsort lexsort' collapse collapse' : Bool}
    {tol tol' : ℝ} (htol : 0 ≤ tol) (htol' : 0 ≤ tol') {f f' : ℕ} {p p' : List (PRow ℝ)} (hp : pddR fl total S C k lexsort collapse tol f = .ok p)
    (hp' : pddR fl total' S' C' k lexsort' collapse' tol' f' = .ok p') {fuel : ℕ} {d : ℝ} {plan : List (List ℝ)} (hemd : emdR fl dot p p' fuel = .ok (d, plan)) :
    0 ≤ d ∧ d ≤ δ + (emdRounding u (max inds.length inds'.length) (inds.length * inds'.length) B
        (pddError inds.length u (precision D u κ) M B + pddError inds'.length u (precision D u κ') M' B)
      + (if collapse then mergeError u tol (precision D u κ) M B else 0) + (if collapse' then mergeError u tol' (precision D u κ') M' B else 0)) := by
  obtain ⟨h0, h1⟩ := C82_emd_partial hD hmono h h' htotal htotal' hdot hs hs' hC hC' hP hP' hB0 hB htol htol' hp hp' hemd
  have h2 := exactEmd_truePDD_almost hD hd hd' hδ h h' hP hP'
  have h3 := (abs_le.1 h1).2
  exact ⟨h0, by linarith⟩

/-- **C85** (partial) AMDs computed with rounded operations: they are close to lists `b` and `b'`, with the errors of C81, which differ by at most `δ` in each entry. Missing: cells that are
too oblique for the number of neighbours. -/
theorem C85_amd_rounded_partial (hD : 0 < D) (hS : IsDescription S inds mult) (hS' : IsDescription S' inds' mult') (hδ : AlmostIsometric δ S S')
    (hr : IsRounding fl u S.motif) (hκ : CancelsBy S.cell κ) (hM : SizeAtMost S.motif M) (hε : precision D u κ ≤ 1 / 16)
    (hr' : IsRounding fl u S'.motif) (hκ' : CancelsBy S'.cell κ') (hM' : SizeAtMost S'.motif M') (hε' : precision D u κ' ≤ 1 / 16)
    (hC : FloatCall fl S.motif S.cell inds C) (hC' : FloatCall fl S'.motif S'.cell inds' C')
    {mean mean' : List ℕ → List ℝ → ℝ} (hmean : FloatMean fl mean) (hmean' : FloatMean fl mean') {fuel fuel' : ℕ} (hs : Covered S.motif S.cell (k + 1))
    (hs' : Covered S'.motif S'.cell (k + 1)) {a a' : List ℝ} (h : AMDR S C mean k fuel = .ok a) (h' : AMDR S' C' mean' k fuel' = .ok a') :
    ∃ b b' : List ℝ, b.length = k ∧ b'.length = k ∧ a.length = k ∧ a'.length = k ∧ ∀ j < k, |b.getD j 0 - b'.getD j 0| ≤ δ ∧
      |a.getD j 0 - b.getD j 0| ≤ (7 * precision D u κ + 2 * ((1 + u) ^ (mult.length + 1) - 1)) * (b.getD j 0 + M) ∧
      |a'.getD j 0 - b'.getD j 0| ≤ (7 * precision D u κ' + 2 * ((1 + u) ^ (mult'.length + 1) - 1)) * (b'.getD j 0 + M') := by
  have hss := hs.searchable hS.nonempty
  have hss' := hs'.searchable hS'.nonempty
  choose R hR using fun i : Fin S.motif.length => exists_neighbourRow hD hS.cell i k
  choose R' hR' using fun i : Fin S'.motif.length => exists_neighbourRow hD hS'.cell i k
  obtain ⟨b, _, F, hF⟩ := C10_terminates hD hS.units hS.inds_ne hS.cell k false false 0
  obtain ⟨b', _, F', hF'⟩ := C10_terminates hD hS'.units hS'.inds_ne hS'.cell k false false 0
  have hb := (hF F le_rfl).1
  have hb' := (hF' F' le_rfl).1
  obtain ⟨m1, m2, e⟩ := C85_amd_of_searchable hD hS hS' hδ hss hss' hb hb'
  have e1 := AMD_eq_rows hD hS.units hS.inds_ne hss hb fun i _ => hR i
  have e2 := AMD_eq_rows hD hS'.units hS'.inds_ne hss' hb' fun i _ => hR' i
  obtain ⟨l1, d1⟩ := amdR_error hD hS.cell hS.units hS.inds_ne hS.pos hr hκ hM hε hC hmean hss h hR
  obtain ⟨l2, d2⟩ := amdR_error hD hS'.cell hS'.units hS'.inds_ne hS'.pos hr' hκ' hM' hε' hC' hmean' hss' h' hR'
  have hv : ∀ j < k, b.getD j 0 = weightedMean mult (inds.map fun i => (R i).getD j 0) := by
    intro j hj
    rw [e1, List.getD_eq_getElem _ _ (by simpa using hj)]
    simp only [List.getElem_map, List.getElem_range]
    unfold weightedMean
    rw [zipWith_map_right']
  have hv' : ∀ j < k, b'.getD j 0 = weightedMean mult' (inds'.map fun i => (R' i).getD j 0) := by
    intro j hj
    rw [e2, List.getD_eq_getElem _ _ (by simpa using hj)]
    simp only [List.getElem_map, List.getElem_range]
    unfold weightedMean
    rw [zipWith_map_right']
  refine ⟨b, b', m1, m2, l1, l2, fun j hj => ⟨e j hj, ?_, ?_⟩⟩
  · rw [hv j hj]; exact d1 j hj
  · rw [hv' j hj]; exact d2 j hj

end

/-- **C85** is false in general, as C07 is: already for two cells of the same lattice, which is isometric to itself. -/
theorem C85_false : ∃ (S S' : PeriodicSet 2) (inds : List (Fin S.motif.length)) (inds' : List (Fin S'.motif.length)) (mult mult' : List ℕ),
    IsDescription S inds mult ∧ IsDescription S' inds' mult' ∧ AlmostIsometric 0 S S' ∧ ∃ F, ∀ fuel, F ≤ fuel → AMD S 1 fuel = .ok [10] ∧ AMD S' 1 fuel = .ok [1] := by
  obtain ⟨S, S', inds, inds', mult, mult', h, h', hiso, hF⟩ := C66_false
  exact ⟨S, S', inds, inds', mult, mult', h, h', C85_isometric hiso, hF⟩

/-! ### An example: pairs of points on the line, every other pair being moved -/

/-- Pairs of points at distance 10, every 30 units. -/
def evenPairs : PeriodicSet 1 := { motif := [![0], ![10]], cell := ![![30]] }

/-- The same, where every other pair has been moved by 1. -/
def unevenPairs : PeriodicSet 1 := { motif := [![0], ![10], ![31], ![41]], cell := ![![60]] }

theorem line_mem {S : PeriodicSet 1} {c : ℝ} (hc : S.cell = ![![c]]) (q : Pt 1 ℝ) :
    q ∈ periodicPoints S.motif S.cell ↔ ∃ (i : Fin S.motif.length) (n : ℤ), q 0 = S.motif[i] 0 + n * c := by
  constructor
  · rintro ⟨⟨i, n⟩, rfl⟩
    exact ⟨i, n 0, line_pos S hc i n⟩
  · rintro ⟨i, n, h⟩
    refine ⟨(i, ![n]), ?_⟩
    funext j
    fin_cases j
    exact (line_pos S hc i ![n]).trans h.symm

theorem evenPairs_mem (q : Pt 1 ℝ) : q ∈ periodicPoints evenPairs.motif evenPairs.cell ↔ ∃ n : ℤ, q 0 = (30 * n : ℤ) ∨ q 0 = (30 * n + 10 : ℤ) := by
  rw [line_mem (c := 30) rfl]
  constructor
  · rintro ⟨i, n, h⟩
    refine ⟨n, ?_⟩
    change Fin 2 at i
    fin_cases i
    · left; rw [h]; change (0 : ℝ) + _ = _; push_cast; ring
    · right; rw [h]; change (10 : ℝ) + _ = _; push_cast; ring
  · rintro ⟨n, h | h⟩
    · refine ⟨(0 : Fin 2), n, ?_⟩; rw [h]; change _ = (0 : ℝ) + _; push_cast; ring
    · refine ⟨(1 : Fin 2), n, ?_⟩; rw [h]; change _ = (10 : ℝ) + _; push_cast; ring

theorem unevenPairs_mem (q : Pt 1 ℝ) : q ∈ periodicPoints unevenPairs.motif unevenPairs.cell ↔
    ∃ n : ℤ, (q 0 = (30 * n + n % 2 : ℤ) ∨ q 0 = (30 * n + 10 + n % 2 : ℤ)) := by
  rw [line_mem (c := 60) rfl]
  constructor
  · rintro ⟨i, n, h⟩
    change Fin 4 at i
    fin_cases i
    · refine ⟨2 * n, Or.inl ?_⟩; rw [h, show (2 * n) % 2 = 0 by omega]; change (0 : ℝ) + _ = _; push_cast; ring
    · refine ⟨2 * n, Or.inr ?_⟩; rw [h, show (2 * n) % 2 = 0 by omega]; change (10 : ℝ) + _ = _; push_cast; ring
    · refine ⟨2 * n + 1, Or.inl ?_⟩; rw [h, show (2 * n + 1) % 2 = 1 by omega]; change (31 : ℝ) + _ = _; push_cast; ring
    · refine ⟨2 * n + 1, Or.inr ?_⟩; rw [h, show (2 * n + 1) % 2 = 1 by omega]; change (41 : ℝ) + _ = _; push_cast; ring
  · rintro ⟨n, h⟩
    rcases Int.even_or_odd' n with ⟨c, rfl | rfl⟩
    · rw [show (2 * c) % 2 = 0 by omega] at h
      rcases h with h | h
      · refine ⟨(0 : Fin 4), c, ?_⟩; rw [h]; change _ = (0 : ℝ) + _; push_cast; ring
      · refine ⟨(1 : Fin 4), c, ?_⟩; rw [h]; change _ = (10 : ℝ) + _; push_cast; ring
    · rw [show (2 * c + 1) % 2 = 1 by omega] at h
      rcases h with h | h
      · refine ⟨(2 : Fin 4), c, ?_⟩; rw [h]; change _ = (31 : ℝ) + _; push_cast; ring
      · refine ⟨(3 : Fin 4), c, ?_⟩; rw [h]; change _ = (41 : ℝ) + _; push_cast; ring

theorem pairs_displaced : Displaced 1 evenPairs unevenPairs := by
  have key : ∀ z : ℤ, ∀ p : Pt 1 ℝ, p 0 = z → (![p 0 + ((⌊p 0⌋ / 30 % 2 : ℤ) : ℝ)] : Pt 1 ℝ) 0 = ((z + z / 30 % 2 : ℤ) : ℝ) := by
    intro z p hz
    simp only [Fin.isValue, Matrix.cons_val_fin_one, hz, Int.floor_intCast]
    push_cast
    ring
  refine ⟨id, fun p => ![p 0 + ((⌊p 0⌋ / 30 % 2 : ℤ) : ℝ)], fun _ _ => rfl, ⟨fun p hp => ?_, fun p hp q hq hpq => ?_, fun q hq => ?_⟩, fun p hp => ?_⟩
  · obtain ⟨n, hn⟩ := (evenPairs_mem p).1 hp
    refine (unevenPairs_mem _).2 ⟨n, ?_⟩
    rcases hn with hn | hn
    · exact Or.inl ((key _ p hn).trans (by congr 1; omega))
    · exact Or.inr ((key _ p hn).trans (by congr 1; omega))
  · have h0 := congrFun hpq 0
    have hz : ∀ r : Pt 1 ℝ, r ∈ periodicPoints evenPairs.motif evenPairs.cell → ∃ z : ℤ, r 0 = z ∧ (z % 30 = 0 ∨ z % 30 = 10) := by
      intro r hr
      obtain ⟨n, hn | hn⟩ := (evenPairs_mem r).1 hr
      · exact ⟨_, hn, by omega⟩
      · exact ⟨_, hn, by omega⟩
    obtain ⟨z, hz1, hz2⟩ := hz p hp
    obtain ⟨w, hw1, hw2⟩ := hz q hq
    have h1 := ((key z p hz1).symm.trans h0).trans (key w q hw1)
    have h2 : z + z / 30 % 2 = w + w / 30 % 2 := by exact_mod_cast h1
    have h3 : z = w := by omega
    funext j
    fin_cases j
    show p 0 = q 0
    rw [hz1, hw1, h3]
  · obtain ⟨n, hn⟩ := (unevenPairs_mem q).1 hq
    rcases hn with hn | hn
    · refine ⟨![((30 * n : ℤ) : ℝ)], (evenPairs_mem _).2 ⟨n, Or.inl rfl⟩, ?_⟩
      funext j
      fin_cases j
      exact (key (30 * n) _ rfl).trans ((by congr 1; omega : _ = _).trans hn.symm)
    · refine ⟨![((30 * n + 10 : ℤ) : ℝ)], (evenPairs_mem _).2 ⟨n, Or.inr rfl⟩, ?_⟩
      funext j
      fin_cases j
      exact (key (30 * n + 10) _ rfl).trans ((by congr 1; omega : _ = _).trans hn.symm)
  · have h1 : eucl p ![p 0 + ((⌊p 0⌋ / 30 % 2 : ℤ) : ℝ)] = |((⌊p 0⌋ / 30 % 2 : ℤ) : ℝ)| := by
      simp only [eucl, sqDist, Finset.univ_unique, Fin.default_eq_zero, Finset.sum_singleton]
      rw [← Real.sqrt_sq_eq_abs]
      congr 1
      simp
    show eucl p _ ≤ 1
    rw [h1]
    have : |⌊p 0⌋ / 30 % 2| ≤ 1 := by rw [abs_le]; omega
    exact_mod_cast this

theorem evenPairs_description : IsDescription evenPairs (List.finRange 2) [1, 1] := by
  refine isDescription_full (nonSingular_line (by norm_num)) (by simp) ?_
  exact injective_line (c := 30) ![0, 10] (fun i => by fin_cases i <;> simp) (fun i j h => by
    fin_cases i <;> fin_cases j <;> first | rfl | (obtain ⟨n, hn⟩ := h; simp at hn; omega)) (by norm_num)

theorem unevenPairs_description : IsDescription unevenPairs (List.finRange 4) [1, 1, 1, 1] := by
  refine isDescription_full (nonSingular_line (by norm_num)) (by simp) ?_
  exact injective_line (c := 60) ![0, 10, 31, 41] (fun i => by fin_cases i <;> simp) (fun i j h => by
    fin_cases i <;> fin_cases j <;> first | rfl | (obtain ⟨n, hn⟩ := h; simp at hn; omega)) (by norm_num)

theorem evenPairs_fits : FitsInCell evenPairs.motif evenPairs.cell := line_fits (by norm_num) fun q hq => by
  simp only [evenPairs, List.mem_cons, List.not_mem_nil, or_false] at hq
  rcases hq with rfl | rfl <;> norm_num

theorem unevenPairs_fits : FitsInCell unevenPairs.motif unevenPairs.cell := line_fits (by norm_num) fun q hq => by
  simp only [unevenPairs, List.mem_cons, List.not_mem_nil, or_false] at hq
  rcases hq with rfl | rfl | rfl | rfl <;> norm_num

/-- The hypotheses of C85 are met by a set and the set where every other pair of points has been moved, which has no cell as small as that of the first set. -/
example : ∃ F a a' p p' d plan, AMD evenPairs 5 F = .ok a ∧ AMD unevenPairs 5 F = .ok a' ∧ PDD evenPairs 5 true true (1 / 10000) F = .ok p ∧
    PDD unevenPairs 5 true true (1 / 10000) F = .ok p' ∧ emd chebyshev p p' F = .ok (d, plan) ∧ (∀ j < 5, |a.getD j 0 - a'.getD j 0| ≤ 2) ∧
    ∃ C, (∀ r ∈ p, ∀ s ∈ p', chebyshev r.dists s.dists ≤ C) ∧ d ≤ 2 + 4 / 10000 + emdTol (max p.length p'.length) C := by
  have hd := evenPairs_description
  have hd' := unevenPairs_description
  have hδ := C85_displaced pairs_displaced
  obtain ⟨a, p, F, h⟩ := C10_terminates (by decide) hd.units hd.inds_ne hd.cell 5 true true (1 / 10000)
  obtain ⟨a', p', F', h'⟩ := C10_terminates (by decide) hd'.units hd'.inds_ne hd'.cell 5 true true (1 / 10000)
  have hw := EMD_input_of_PDD (by decide) hd.units hd.inds_ne hd.pos hd.sum (show 2 ≤ 100000000 by norm_num) (h F le_rfl).2
  have hw' := EMD_input_of_PDD (by decide) hd'.units hd'.inds_ne hd'.pos hd'.sum (show 4 ≤ 100000000 by norm_num) (h' F' le_rfl).2
  obtain ⟨n, hn⟩ := C33_terminates hw hw' (EMD_default_metric 5).nonneg
  obtain ⟨⟨d, plan⟩, he⟩ := hn (max n (max F F')) (le_max_left _ _)
  have h1 := h (max n (max F F')) (by omega)
  have h2 := h' (max n (max F F')) (by omega)
  obtain ⟨C, hC⟩ : ∃ C : ℝ, ∀ r ∈ p, ∀ s ∈ p', chebyshev r.dists s.dists ≤ C := by
    obtain ⟨B, hB⟩ := ((p.flatMap fun r => p'.map fun s => chebyshev r.dists s.dists).toFinset : Finset ℝ).bddAbove
    exact ⟨B, fun r hr s hs => hB (by simp only [List.coe_toFinset, List.mem_flatMap, List.mem_map]; exact ⟨r, hr, s, hs, rfl⟩)⟩
  have g1 := C85_amd_partial (by decide) (by decide) hd hd' hδ (line_halfDominant 30) evenPairs_fits (line_halfDominant 60) unevenPairs_fits h1.1 h2.1
  have g2 := C85_emd_partial (by decide) (by decide) hd hd' hδ (line_halfDominant 30) evenPairs_fits (line_halfDominant 60) unevenPairs_fits (show 2 ≤ 100000000 by norm_num)
    (show 4 ≤ 100000000 by norm_num) (by norm_num) h1.2 h2.2 hC he
  refine ⟨_, _, _, _, _, d, plan, h1.1, h2.1, h1.2, h2.2, he, fun j hj => by simpa using g1.2.2 j hj, C, hC, g2.2.trans ?_⟩
  simp only [collapseError, if_true]
  norm_num

end Amd
