import Verif.Props.Continuous
import Verif.Proof.Strain
import Mathlib.Analysis.SpecialFunctions.Trigonometric.Bounds

/-!
# Crystals under strain: C93

The AMD and PDD change little if the cell is slightly deformed, for example by thermal expansion or an error in a measured length or angle. A strain of at most `η` changes the `j`-th
entry of the AMD by at most the fraction `η`, and the distances that `compare` finds are at most `η` times the last entry of the AMD. Displaced sites add what they add in C92.
-/

namespace Amd

open Classical

variable {B : CifBackends} {asString : String → String} {o : ReadOptions} {w : World} {env : Env} {kwargs : Kwargs} {args : CompareArgs} {inp inp' : Input} {η δ ε : ℝ} {k : ℕ}

/-! ### Periodic sets -/

section
variable {D : ℕ} {S S' : PeriodicSet D} {inds : List (Fin S.motif.length)} {mult : List ℕ} {inds' : List (Fin S'.motif.length)} {mult' : List ℕ}

theorem IsListing.AMD_means (hD : 0 < D) (h : IsListing S inds mult) (hs : Searchable S.motif S.cell (k + 1)) {R : Fin S.motif.length → List ℝ}
    (hR : ∀ i, IsNeighbourRow S.motif S.cell i k (R i)) {fuel : ℕ} {a : List ℝ} (ha : AMD S k fuel = .ok a) : a = rowMeans k R := by
  rw [AMD_eq_rows hD h.units h.inds_ne hs ha fun i _ => hR i]
  refine List.map_congr_left fun j _ => ?_
  rw [zipWith_swap, h.sum_fun hD hR fun r => r.getD j 0, h.sum_mult]

/-- C93 for the AMD whenever the searches are complete. -/
theorem C93_set_amd_of_searchable (hD : 0 < D) (h : IsListing S inds mult) (h' : IsListing S' inds' mult') (hη : η < 1) (hs : StrainedListed η δ S S')
    (hc : Searchable S.motif S.cell (k + 1)) (hc' : Searchable S'.motif S'.cell (k + 1)) {fuel fuel' : ℕ} {a a' : List ℝ} (ha : AMD S k fuel = .ok a)
    (ha' : AMD S' k fuel' = .ok a') : a.length = k ∧ a'.length = k ∧ ∀ j < k, |a.getD j 0 - a'.getD j 0| ≤ η * a.getD j 0 + δ := by
  choose R hR using fun i : Fin S.motif.length => exists_neighbourRow hD h.cell i k
  choose R' hR' using fun i : Fin S'.motif.length => exists_neighbourRow hD h'.cell i k
  rw [h.AMD_means hD hc hR ha, h'.AMD_means hD hc' hR' ha']
  exact ⟨by simp [rowMeans], by simp [rowMeans], fun j hj => strained_amd hD hη h.cell h'.cell h.nonempty h'.nonempty hs hR hR' hj⟩

/-- C93 for the distance of PDDs whenever the searches are complete. -/
theorem C93_set_emd_of_searchable (hD : 0 < D) (h : IsListing S inds mult) (h' : IsListing S' inds' mult') (hη : η < 1) (hs : StrainedListed η δ S S')
    (hc : Searchable S.motif S.cell (k + 1)) (hc' : Searchable S'.motif S'.cell (k + 1)) (hl : S.motif.length ≤ 100000000) (hl' : S'.motif.length ≤ 100000000)
    {lexsort lexsort' : Bool} {tol tol' : ℝ} {fuel fuel' fuel'' fuel₀ : ℕ} {a : List ℝ} (ha : AMD S k fuel₀ = .ok a) {p p' : List (PRow ℝ)}
    (hp : PDD S k lexsort false tol fuel = .ok p) (hp' : PDD S' k lexsort' false tol' fuel' = .ok p') {C : ℝ} (hC : ∀ r ∈ p, ∀ s ∈ p', chebyshev r.dists s.dists ≤ C)
    {d : ℝ} {plan : List (List ℝ)} (hd : emd chebyshev p p' fuel'' = .ok (d, plan)) : d ≤ η * a.getD (k - 1) 0 + δ + emdTol (max p.length p'.length) C := by
  choose R hR using fun i : Fin S.motif.length => exists_neighbourRow hD h.cell i k
  choose R' hR' using fun i : Fin S'.motif.length => exists_neighbourRow hD h'.cell i k
  have hw := EMD_input_of_PDD hD h.units h.inds_ne h.pos h.sum hl hp
  have hw' := EMD_input_of_PDD hD h'.units h'.inds_ne h'.pos h'.sum hl' hp'
  rw [h.AMD_means hD hc hR ha]
  have h1 := strained_pdd hD hη h.cell h'.cell h.nonempty h'.nonempty hs hR hR' hl hl' hw hw' (h.weightAt_PDD hD hc hR hp) (h'.weightAt_PDD hD hc' hR' hp')
  have h2 := (abs_le.1 (emd_near hw hw' (EMD_default_metric k).nonneg hC hd)).2
  linarith

/-- **C93** (partial) If sites of a periodic set, after a strain of at most `η`, can be paired off with those of another one so that distances differ by at most `δ`, the `j`-th entries
of the AMDs differ by at most `η` times that entry plus `δ`. Missing: cells that are too oblique for `k`. -/
theorem C93_set_amd_partial (hD : 0 < D) (h : IsListing S inds mult) (h' : IsListing S' inds' mult') (hη : η < 1) (hs : StrainedListed η δ S S')
    (hc : Covered S.motif S.cell (k + 1)) (hc' : Covered S'.motif S'.cell (k + 1)) {fuel fuel' : ℕ} {a a' : List ℝ} (ha : AMD S k fuel = .ok a)
    (ha' : AMD S' k fuel' = .ok a') : a.length = k ∧ a'.length = k ∧ ∀ j < k, |a.getD j 0 - a'.getD j 0| ≤ η * a.getD j 0 + δ :=
  C93_set_amd_of_searchable hD h h' hη hs (hc.searchable h.nonempty) (hc'.searchable h'.nonempty) ha ha'

/-- **C93** (partial) The EMD of their PDDs is at most `η` times the last entry of the AMD plus `δ`, up to the rounding of `EMD`. Missing: cells that are too oblique for `k`, and
collapsing (see the theorems on `compare`). -/
theorem C93_set_emd_partial (hD : 0 < D) (h : IsListing S inds mult) (h' : IsListing S' inds' mult') (hη : η < 1) (hs : StrainedListed η δ S S')
    (hc : Covered S.motif S.cell (k + 1)) (hc' : Covered S'.motif S'.cell (k + 1)) (hl : S.motif.length ≤ 100000000) (hl' : S'.motif.length ≤ 100000000)
    {lexsort lexsort' : Bool} {tol tol' : ℝ} {fuel fuel' fuel'' fuel₀ : ℕ} {a : List ℝ} (ha : AMD S k fuel₀ = .ok a) {p p' : List (PRow ℝ)}
    (hp : PDD S k lexsort false tol fuel = .ok p) (hp' : PDD S' k lexsort' false tol' fuel' = .ok p') {C : ℝ} (hC : ∀ r ∈ p, ∀ s ∈ p', chebyshev r.dists s.dists ≤ C)
    {d : ℝ} {plan : List (List ℝ)} (hd : emd chebyshev p p' fuel'' = .ok (d, plan)) : d ≤ η * a.getD (k - 1) 0 + δ + emdTol (max p.length p'.length) C :=
  C93_set_emd_of_searchable hD h h' hη hs (hc.searchable h.nonempty) (hc'.searchable h'.nonempty) hl hl' ha hp hp' hC hd

/-- **C93** (partial) Both hold for all cells in all dimensions and sufficiently large `k`. -/
theorem C93_set_large_k_partial (hD : 0 < D) (h : IsListing S inds mult) (h' : IsListing S' inds' mult') (hl : S.motif.length ≤ 100000000) (hl' : S'.motif.length ≤ 100000000) :
    ∃ k₀, ∀ k, k₀ ≤ k → ∀ η δ, η < 1 → StrainedListed η δ S S' → ∀ fuel fuel' a a', AMD S k fuel = .ok a → AMD S' k fuel' = .ok a' →
      (∀ j < k, |a.getD j 0 - a'.getD j 0| ≤ η * a.getD j 0 + δ) ∧
      ∀ lexsort lexsort' tol tol' f f' f'' p p' C d plan, PDD S k lexsort false tol f = .ok p → PDD S' k lexsort' false tol' f' = .ok p' →
        (∀ r ∈ p, ∀ s ∈ p', chebyshev r.dists s.dists ≤ C) → emd chebyshev p p' f'' = .ok (d, plan) → d ≤ η * a.getD (k - 1) 0 + δ + emdTol (max p.length p'.length) C := by
  obtain ⟨k₁, h₁⟩ := searchable_eventually h.cell S.motif
  obtain ⟨k₂, h₂⟩ := searchable_eventually h'.cell S'.motif
  exact ⟨max k₁ k₂, fun k hk _ _ hη hs _ _ _ _ ha ha' => ⟨(C93_set_amd_of_searchable hD h h' hη hs (h₁ _ (by omega)) (h₂ _ (by omega)) ha ha').2.2,
    fun _ _ _ _ _ _ _ _ _ _ _ _ hp hp' hC hd => C93_set_emd_of_searchable hD h h' hη hs (h₁ _ (by omega)) (h₂ _ (by omega)) hl hl' ha hp hp' hC hd⟩⟩

end

/-! ### The invariants of crystals -/

/-- **C93** AMDs of crystals whose points, after a strain of at most `η`, can be paired off changing no distance by more than `δ`. -/
theorem C93_amd {c c' : Described} (hc : c.Proper) (hc' : c'.Proper) (hη : η < 1) (h : DescribeStrained η δ c c') {a a' : List ℝ} (ha : c.IsAMD k a) (ha' : c'.IsAMD k a') :
    a.length = k ∧ a'.length = k ∧ (∀ j < k, |a.getD j 0 - a'.getD j 0| ≤ η * a.getD j 0 + δ) ∧ chebyshev a a' ≤ η * a.getD (k - 1) 0 + δ := by
  obtain ⟨S, hS⟩ := hc.reads
  obtain ⟨S', hS'⟩ := hc'.reads
  exact h.amd hS hS' hη ha ha'

/-- **C93** The Earth mover's distance of their PDDs. -/
theorem C93_pdd {c c' : Described} (hc : c.Proper) (hc' : c'.Proper) (hη : η < 1) (h : DescribeStrained η δ c c') {a : List ℝ} (ha : c.IsAMD k a) {p p' : List (PRow ℝ)}
    (hp : c.IsPDD k p) (hp' : c'.IsPDD k p') : exactEmd chebyshev p p' ≤ η * a.getD (k - 1) 0 + δ := by
  obtain ⟨S, hS⟩ := hc.reads
  obtain ⟨S', hS'⟩ := hc'.reads
  exact h.pdd hS hS' hc.size hc'.size hη ha hp hp'

/-- **C93** The same with overlapping sites, if listed points are paired off. -/
theorem C93_sites_amd {c c' : SitesDescribed} (hc : c.Comparable) (hc' : c'.Comparable) (hη : η < 1) (h : SitesStrained η δ c c') {a a' : List ℝ} (ha : c.IsAMD k a)
    (ha' : c'.IsAMD k a') :
    a.length = k ∧ a'.length = k ∧ (∀ j < k, |a.getD j 0 - a'.getD j 0| ≤ η * a.getD j 0 + δ) ∧ chebyshev a a' ≤ η * a.getD (k - 1) 0 + δ := by
  obtain ⟨S, hS⟩ := hc.reads
  obtain ⟨S', hS'⟩ := hc'.reads
  exact h.amd hS hS' hη ha ha'

/-- **C93** The same with overlapping sites, if listed points are paired off. -/
theorem C93_sites_pdd {c c' : SitesDescribed} (hc : c.Comparable) (hc' : c'.Comparable) (hη : η < 1) (h : SitesStrained η δ c c') {a : List ℝ} (ha : c.IsAMD k a)
    {p p' : List (PRow ℝ)} (hp : c.IsPDD k p) (hp' : c'.IsPDD k p') : exactEmd chebyshev p p' ≤ η * a.getD (k - 1) 0 + δ := by
  obtain ⟨S, hS⟩ := hc.reads
  obtain ⟨S', hS'⟩ := hc'.reads
  exact h.pdd hS hS' hc.size hc'.size hη ha hp hp'

/-! ### Crystals that are measured again -/

/-- **C93** A strain of the cell by at most `η` and displacements of sites by at most `ε`. -/
theorem C93_remeasured {c c' : Described} (hc : c.Proper) (hc' : c'.Proper) (h : Remeasured η ε c c') : DescribeStrained η (2 * ε) c c' := h.strained hc hc'

/-- **C93** The same with overlapping sites. -/
theorem C93_sites_remeasured {c c' : SitesDescribed} (hc : c.Proper) (hc' : c'.Proper) (h : SitesRemeasured η ε c c') : SitesStrained η (2 * ε) c c' := h.strained hc hc'

theorem length_close {x y x' y' u v τ : ℝ} (hx : 0 ≤ x) (hy : 0 ≤ y) (h1 : |x' - x| ≤ τ * x) (h2 : |y' - y| ≤ τ * y) (hτ : 0 ≤ τ) (hu : |u| ≤ 1) {κ : ℝ} (hv : |v - u| ≤ κ) :
    |x' * y' * v - x * y * u| ≤ ((1 + τ) ^ 2 * (1 + κ) - 1) * (x * y) := by
  have a1 : |x'| ≤ (1 + τ) * x := by
    have := abs_add_le (x' - x) x
    rw [sub_add_cancel, abs_of_nonneg hx] at this
    linarith
  have a2 : |y'| ≤ (1 + τ) * y := by
    have := abs_add_le (y' - y) y
    rw [sub_add_cancel, abs_of_nonneg hy] at this
    linarith
  have e : x' * y' * v - x * y * u = x' * y' * (v - u) + (x' * (y' - y) + (x' - x) * y) * u := by ring
  rw [e]
  have b1 : |x' * y' * (v - u)| ≤ (1 + τ) * x * ((1 + τ) * y) * κ := by
    rw [abs_mul, abs_mul]
    exact mul_le_mul (mul_le_mul a1 a2 (abs_nonneg _) (by positivity)) hv (abs_nonneg _) (by positivity)
  have b2 : |x' * (y' - y) + (x' - x) * y| ≤ (1 + τ) * x * (τ * y) + τ * x * y := by
    refine (abs_add_le _ _).trans (add_le_add ?_ ?_)
    · rw [abs_mul]
      exact mul_le_mul a1 h2 (abs_nonneg _) (by positivity)
    · rw [abs_mul, abs_of_nonneg hy]
      exact mul_le_mul_of_nonneg_right h1 hy
  have b3 : |(x' * (y' - y) + (x' - x) * y) * u| ≤ (1 + τ) * x * (τ * y) + τ * x * y := by
    rw [abs_mul]
    exact (mul_le_of_le_one_right (abs_nonneg _) hu).trans b2
  refine (abs_add_le _ _).trans ((add_le_add b1 b3).trans (le_of_eq ?_))
  ring

/-- **C93** Lengths that differ by at most the fraction `τ` and angles that differ by at most `κ` radians, for cells that are not too oblique, give a strain of at most
`6 ((1 + τ)² (1 + κ) - 1)`. -/
theorem C93_parameters {c c' : CellNumbers} {cell cell' : Fin 3 → Pt 3 ℝ} (hc : HasCellpar cell c.a c.b c.c c.α c.β c.γ) (hc' : HasCellpar cell' c'.a c'.b c'.c c'.α c'.β c'.γ)
    (hd : HalfDominant cell) {τ κ : ℝ} (hτ : 0 ≤ τ) (ha : |(c'.a : ℝ) - c.a| ≤ τ * c.a) (hb : |(c'.b : ℝ) - c.b| ≤ τ * c.b) (hcc : |(c'.c : ℝ) - c.c| ≤ τ * c.c)
    (hα : |(c'.α : ℝ) - c.α| * (Real.pi / 180) ≤ κ) (hβ : |(c'.β : ℝ) - c.β| * (Real.pi / 180) ≤ κ) (hγ : |(c'.γ : ℝ) - c.γ| * (Real.pi / 180) ≤ κ) :
    c.StrainedBy (6 * ((1 + τ) ^ 2 * (1 + κ) - 1)) c' := by
  obtain ⟨l0, l1, l2, a12, a02, a01⟩ := id hc
  obtain ⟨m0, m1, m2, b12, b02, b01⟩ := id hc'
  have hκ : 0 ≤ κ := (mul_nonneg (abs_nonneg _) (by positivity)).trans hα
  have hθ : 0 ≤ (1 + τ) ^ 2 * (1 + κ) - 1 := by nlinarith [mul_nonneg hτ hτ, mul_nonneg (mul_nonneg hτ hτ) hκ, mul_nonneg hτ hκ]
  have hcos : ∀ {x y : ℝ}, |y - x| * (Real.pi / 180) ≤ κ → |Real.cos (y * (Real.pi / 180)) - Real.cos (x * (Real.pi / 180))| ≤ κ := by
    intro x y h
    refine (Real.abs_cos_sub_cos_le _ _).trans (le_trans (le_of_eq ?_) h)
    rw [← sub_mul, abs_mul, abs_of_nonneg (by positivity : 0 ≤ Real.pi / 180)]
  have hsq : ∀ {b : Fin 3 → Pt 3 ℝ} {i : Fin 3} {l : ℝ}, HasLength (b i) l → gram b i i = l * l := by
    intro b i l h
    simp only [gram, ← sq]
    exact h.2
  have hsqrt : ∀ {b : Fin 3 → Pt 3 ℝ} {i : Fin 3} {l : ℝ}, HasLength (b i) l → √(gram b i i) = l := by
    intro b i l h
    rw [hsq h, Real.sqrt_mul_self h.1]
  have hdiag : ∀ {i : Fin 3} {l l' : ℝ}, HasLength (cell i) l → HasLength (cell' i) l' → |l' - l| ≤ τ * l →
      |gram cell' i i - gram cell i i| ≤ ((1 + τ) ^ 2 * (1 + κ) - 1) * (√(gram cell i i) * √(gram cell i i)) := by
    intro i l l' h h' hl
    rw [hsqrt h, hsq h, hsq h']
    have := length_close (u := 1) (v := 1) h.1 h.1 hl hl hτ (by norm_num) (κ := κ) (by simpa using hκ)
    simpa using this
  have hoff : ∀ {i j : Fin 3} {l l' n n' x y : ℝ}, HasLength (cell i) l → HasLength (cell' i) l' → |l' - l| ≤ τ * l → HasLength (cell j) n → HasLength (cell' j) n' →
      |n' - n| ≤ τ * n → HasAngle (cell i) (cell j) l n x → HasAngle (cell' i) (cell' j) l' n' y → |y - x| * (Real.pi / 180) ≤ κ →
      |gram cell' i j - gram cell i j| ≤ ((1 + τ) ^ 2 * (1 + κ) - 1) * (√(gram cell i i) * √(gram cell j j)) := by
    intro i j l l' n n' x y h h' hl k k' hk hx hy hxy
    have e1 : gram cell i j = l * n * Real.cos (x * (Real.pi / 180)) := hx.2.2
    have e2 : gram cell' i j = l' * n' * Real.cos (y * (Real.pi / 180)) := hy.2.2
    rw [hsqrt h, hsqrt k, e1, e2]
    exact length_close h.1 k.1 hl hk hτ (Real.abs_cos_le_one _) (hcos hxy)
  have hclose : EdgesClose ((1 + τ) ^ 2 * (1 + κ) - 1) cell cell' := by
    have hsym : ∀ {i j : Fin 3}, |gram cell' i j - gram cell i j| ≤ ((1 + τ) ^ 2 * (1 + κ) - 1) * (√(gram cell i i) * √(gram cell j j)) →
        |gram cell' j i - gram cell j i| ≤ ((1 + τ) ^ 2 * (1 + κ) - 1) * (√(gram cell j j) * √(gram cell i i)) := by
      intro i j h
      rw [gram_comm cell' j i, gram_comm cell j i, mul_comm √(gram cell j j)]
      exact h
    have c01 := hoff l0 m0 ha l1 m1 hb a01 b01 hγ
    have c02 := hoff l0 m0 ha l2 m2 hcc a02 b02 hβ
    have c12 := hoff l1 m1 hb l2 m2 hcc a12 b12 hα
    intro i j
    fin_cases i <;> fin_cases j
    exacts [hdiag l0 m0 ha, c01, c02, hsym c01, hdiag l1 m1 hb, c12, hsym c02, hsym c12, hdiag l2 m2 hcc]
  refine ⟨cell, cell', hc, hc', fun x => (cells_strained hθ hd hclose x).trans (le_of_eq ?_)⟩
  push_cast
  ring

/-! ### The size of the bound -/

theorem edge_of_par {cell : Fin 3 → Pt 3 ℝ} {a b c α β γ : ℝ} (h : HasCellpar cell a b c α β γ) : eucl (cell 0) 0 = a ∧ eucl (cell 1) 0 = b ∧ eucl (cell 2) 0 = c := by
  have key : ∀ {v : Pt 3 ℝ} {l : ℝ}, HasLength v l → eucl v 0 = l := by
    intro v l h
    have e : sqDist v 0 = l ^ 2 := by simpa [sqDist] using h.2
    rw [eucl, e, Real.sqrt_sq h.1]
  exact ⟨key h.1, key h.2.1, key h.2.2.1⟩

theorem rowMeans_le {motif : List (Pt 3 ℝ)} {cell : Fin 3 → Pt 3 ℝ} (hne : motif ≠ []) {R : Fin motif.length → List ℝ}
    (hR : ∀ i, IsNeighbourRow motif cell i k (R i)) (i : Fin 3) (j : ℕ) : (rowMeans k R).getD j 0 ≤ k * eucl (cell i) 0 := by
  have h0 : 0 ≤ (k : ℝ) * eucl (cell i) 0 := mul_nonneg (Nat.cast_nonneg k) (eucl_nonneg _ _)
  by_cases hj : j < k
  · rw [rowMeans_getD hj]
    have hm : (0 : ℝ) < motif.length := by exact_mod_cast List.length_pos_iff.2 hne
    rw [div_le_iff₀ hm]
    have : ∑ n, (R n).getD j 0 ≤ ∑ _n : Fin motif.length, (k : ℝ) * eucl (cell i) 0 := by
      refine Finset.sum_le_sum fun n _ => ?_
      have hl := (hR n).1
      rw [List.getD_eq_getElem _ _ (by omega)]
      exact (C82_range (hR n) i _ (List.getElem_mem _)).2
    refine this.trans (le_of_eq ?_)
    rw [Finset.sum_const, Finset.card_univ, Fintype.card_fin, nsmul_eq_mul, mul_comm]
  · rw [List.getD_eq_default _ _ (by simp [rowMeans]; omega)]
    exact h0

/-- **C93** Entries of the AMD are at most `k` times the length of any edge of the cell, so that all bounds below are bounds in terms of what is written in the file. -/
theorem C93_last {c : Described} (hc : c.Proper) {a : List ℝ} (ha : c.IsAMD k a) (j : ℕ) : 0 ≤ a.getD j 0 ∧ a.getD j 0 ≤ k * min (c.cell.a : ℝ) (min c.cell.b c.cell.c) := by
  obtain ⟨S, hS⟩ := hc.reads
  obtain ⟨_, _, hd⟩ := hS.desc
  obtain ⟨R, hR, hn⟩ := hd.motifRows (by norm_num) k
  rw [hS.amd_means hR ha]
  obtain ⟨e0, e1, e2⟩ := edge_of_par hS.cell
  refine ⟨rowMeans_nonneg hn j, ?_⟩
  rw [← e0, ← e1, ← e2]
  have h := fun i => rowMeans_le hd.nonempty hn i j
  rcases min_choice (eucl (S.cell 1) 0) (eucl (S.cell 2) 0) with e | e <;> rw [e] <;> [rcases min_choice (eucl (S.cell 0) 0) (eucl (S.cell 1) 0) with e | e;
    rcases min_choice (eucl (S.cell 0) 0) (eucl (S.cell 2) 0) with e | e] <;> rw [e] <;> exact h _

/-- **C93** The same with overlapping sites. -/
theorem C93_sites_last {c : SitesDescribed} (hc : c.Comparable) {a : List ℝ} (ha : c.IsAMD k a) (j : ℕ) :
    0 ≤ a.getD j 0 ∧ a.getD j 0 ≤ k * min (c.cell.a : ℝ) (min c.cell.b c.cell.c) := by
  obtain ⟨S, hS⟩ := hc.reads
  obtain ⟨_, _, hd⟩ := hS.listing
  obtain ⟨R, hR⟩ := hd.listedRows (by norm_num) k
  rw [hS.amd_means hR ha]
  obtain ⟨e0, e1, e2⟩ := edge_of_par hS.cell
  refine ⟨rowMeans_nonneg hR.rows j, ?_⟩
  rw [← e0, ← e1, ← e2]
  have h := fun i => rowMeans_le hd.nonempty hR.rows i j
  rcases min_choice (eucl (S.cell 1) 0) (eucl (S.cell 2) 0) with e | e <;> rw [e] <;> [rcases min_choice (eucl (S.cell 0) 0) (eucl (S.cell 1) 0) with e | e;
    rcases min_choice (eucl (S.cell 0) 0) (eucl (S.cell 2) 0) with e | e] <;> rw [e] <;> exact h _

/-! ### Comparing files and entries -/

section
variable {ds ds' : List Described}

/-- **C93** (partial) `compare` by AMD of two collections of CIF files or refcodes: an entry is at most `η` times the last entry of the AMD of the first crystal, plus `2ε`, if the
second one is the first one with a cell that is strained by at most `η` and sites that are displaced by at most `ε`. Missing: entries for cells that are too oblique for `k`. -/
theorem C93_compare_amd_partial (h : ReadsInputs env B w kwargs o) (hby : upper args.by_ = "AMD") (hnn : args.nNeighbors = none) (hk : 0 < args.k)
    (hm : kwOr kwargs "metric" (.str "chebyshev") = .str "chebyshev") (hi : InputHolds B asString o inp ds args.csdRefcodes) (hi' : InputHolds B asString o inp' ds' args.csdRefcodes)
    (he : ∀ e ∈ ds, e.Proper) (he' : ∀ e ∈ ds', e.Proper) (hne : ds ≠ []) (hne' : ds' ≠ []) :
    ∃ (M : List (List ℝ)) (f : ℕ → ℕ → ℝ) (F : ℕ), IsMatrix ds.length ds'.length f M ∧
      (∀ fuel ≥ F, compare env inp (some inp') args kwargs fuel = .ok (.matrix (ds.map Described.name) (ds'.map Described.name) M)) ∧
      ∀ i j (hi : i < ds.length) (hj : j < ds'.length), ds[i].WellShaped args.k → ds'[j].WellShaped args.k → ∀ a, ds[i].IsAMD args.k a → ∀ η < 1,
        (∀ δ, DescribeStrained η δ ds[i] ds'[j] → f i j ≤ η * a.getD (args.k - 1) 0 + δ) ∧
          ∀ ε, Remeasured η ε ds[i] ds'[j] → f i j ≤ η * a.getD (args.k - 1) 0 + 2 * ε := by
  obtain ⟨M, f, F, h1, h2, h3⟩ := C83_amd_two_partial h hby hnn hk hm hi hi' he he' hne hne'
  refine ⟨M, f, F, h1, h2, fun i j hi hj hw hw' a ha η hη => ?_⟩
  have p1 := he _ (List.getElem_mem hi)
  have p2 := he' _ (List.getElem_mem hj)
  obtain ⟨b, hb, -⟩ := C83_amd_unique p2 args.k
  rw [(h3 i j hi hj hw hw').1 a b ha hb]
  exact ⟨fun δ hn => (C93_amd p1 p2 hη hn ha hb).2.2.2, fun ε hn => (C93_amd p1 p2 hη (C93_remeasured p1 p2 hn) ha hb).2.2.2⟩

/-- **C93** (partial) `compare` by PDD: the same, up to the rounding of weights to multiples of `1e-8` and, if rows are collapsed, four times the tolerance. Missing: entries for cells
that are too oblique for `k`. -/
theorem C93_compare_pdd_partial (h : ReadsInputs env B w kwargs o) (hs : env.sched.Complete) (hby : upper args.by_ = "PDD") (hnn : args.nNeighbors = none) {tol : ℝ}
    (htol : 0 ≤ tol) (ho : PddOptions kwargs tol (.named "chebyshev")) (hi : InputHolds B asString o inp ds args.csdRefcodes) (hi' : InputHolds B asString o inp' ds' args.csdRefcodes)
    (he : ∀ e ∈ ds, e.Proper) (he' : ∀ e ∈ ds', e.Proper) (hne : ds ≠ []) (hne' : ds' ≠ []) {collapse : Bool} (hcol : (kwOr kwargs "collapse" (.bool true)).truthy = collapse) :
    ∃ (M : List (List ℝ)) (f : ℕ → ℕ → ℝ) (F : ℕ), IsMatrix ds.length ds'.length f M ∧
      (∀ fuel ≥ F, compare env inp (some inp') args kwargs fuel = .ok (.matrix (ds.map Described.name) (ds'.map Described.name) M)) ∧
      ∀ i j (hi : i < ds.length) (hj : j < ds'.length), ds[i].WellShaped args.k → ds'[j].WellShaped args.k →
        ∀ slack, slack = (if collapse then 4 * tol else 0) + emdTol (max ds[i].size ds'[j].size) (args.k * max (ds[i].cell.a : ℝ) ds'[j].cell.a) →
          ∀ a, ds[i].IsAMD args.k a → ∀ η < 1, (∀ δ, DescribeStrained η δ ds[i] ds'[j] → f i j ≤ η * a.getD (args.k - 1) 0 + δ + slack) ∧
            ∀ ε, Remeasured η ε ds[i] ds'[j] → f i j ≤ η * a.getD (args.k - 1) 0 + 2 * ε + slack := by
  obtain ⟨M, f, F, h1, h2, h3⟩ := C83_pdd_two_partial h hs hby hnn htol ho hi hi' he he' hne hne' hcol
  refine ⟨M, f, F, h1, h2, fun i j hi hj hw hw' slack hslack a ha η hη => ?_⟩
  have p1 := he _ (List.getElem_mem hi)
  have p2 := he' _ (List.getElem_mem hj)
  obtain ⟨p, hp⟩ := (C83_pdd_unique p1 args.k).1
  obtain ⟨q, hq⟩ := (C83_pdd_unique p2 args.k).1
  have h4 := (abs_le.1 ((h3 i j hi hj hw hw' slack hslack).1 p q hp hq)).2
  constructor
  · intro δ hn
    linarith [C93_pdd p1 p2 hη hn ha hp hq]
  · intro ε hn
    linarith [C93_pdd p1 p2 hη (C93_remeasured p1 p2 hn) ha hp hq]

/-- **C93** (partial) For given crystals and sufficiently large `k` the bound holds whatever the cells. -/
theorem C93_compare_amd_large_k_partial (he : ∀ e ∈ ds, e.Proper) (he' : ∀ e ∈ ds', e.Proper) (hne : ds ≠ []) (hne' : ds' ≠ []) :
    ∃ k₀, ∀ (env : Env) (B : CifBackends) (asString : String → String) (o : ReadOptions) (w : World) (inp inp' : Input) (args : CompareArgs)
      (kwargs : Kwargs), ReadsInputs env B w kwargs o → upper args.by_ = "AMD" → args.nNeighbors = none → k₀ ≤ args.k →
      kwOr kwargs "metric" (.str "chebyshev") = .str "chebyshev" → InputHolds B asString o inp ds args.csdRefcodes → InputHolds B asString o inp' ds' args.csdRefcodes →
      ∃ (M : List (List ℝ)) (f : ℕ → ℕ → ℝ) (F : ℕ), IsMatrix ds.length ds'.length f M ∧
        (∀ fuel ≥ F, compare env inp (some inp') args kwargs fuel = .ok (.matrix (ds.map Described.name) (ds'.map Described.name) M)) ∧
        ∀ i j (hi : i < ds.length) (hj : j < ds'.length), ∀ a, ds[i].IsAMD args.k a → ∀ η < 1,
          (∀ δ, DescribeStrained η δ ds[i] ds'[j] → f i j ≤ η * a.getD (args.k - 1) 0 + δ) ∧
            ∀ ε, Remeasured η ε ds[i] ds'[j] → f i j ≤ η * a.getD (args.k - 1) 0 + 2 * ε := by
  obtain ⟨k₀, h⟩ := C83_amd_large_k_partial he he' hne hne'
  refine ⟨k₀, fun env B asString o w inp inp' args kwargs h0 hby hnn hk hm hi hi' => ?_⟩
  obtain ⟨M, f, F, h1, h2, h3⟩ := h env B asString o w inp inp' args kwargs h0 hby hnn hk hm hi hi'
  refine ⟨M, f, F, h1, h2, fun i j hi hj a ha η hη => ?_⟩
  have p1 := he _ (List.getElem_mem hi)
  have p2 := he' _ (List.getElem_mem hj)
  obtain ⟨b, hb, -⟩ := C83_amd_unique p2 args.k
  rw [(h3 i j hi hj).1 a b ha hb]
  exact ⟨fun δ hn => (C93_amd p1 p2 hη hn ha hb).2.2.2, fun ε hn => (C93_amd p1 p2 hη (C93_remeasured p1 p2 hn) ha hb).2.2.2⟩

end

section
variable {ds ds' : List SitesDescribed}

/-- **C93** (partial) `compare` by AMD with `disorder='all_sites'`. Missing: entries for cells that are too oblique for `k`. -/
theorem C93_sites_compare_amd_partial (h : ReadsAllSites env B w kwargs o) (hby : upper args.by_ = "AMD") (hnn : args.nNeighbors = none) (hk : 0 < args.k)
    (hm : kwOr kwargs "metric" (.str "chebyshev") = .str "chebyshev") (hi : InputHoldsAll B asString o inp ds args.csdRefcodes)
    (hi' : InputHoldsAll B asString o inp' ds' args.csdRefcodes) (he : ∀ e ∈ ds, e.Comparable) (he' : ∀ e ∈ ds', e.Comparable) (hne : ds ≠ []) (hne' : ds' ≠ []) :
    ∃ (M : List (List ℝ)) (f : ℕ → ℕ → ℝ) (F : ℕ), IsMatrix ds.length ds'.length f M ∧
      (∀ fuel ≥ F, compare env inp (some inp') args kwargs fuel = .ok (.matrix (ds.map SitesDescribed.name) (ds'.map SitesDescribed.name) M)) ∧
      ∀ i j (hi : i < ds.length) (hj : j < ds'.length), ds[i].WellShaped args.k → ds'[j].WellShaped args.k → ∀ a, ds[i].IsAMD args.k a → ∀ η < 1,
        (∀ δ, SitesStrained η δ ds[i] ds'[j] → f i j ≤ η * a.getD (args.k - 1) 0 + δ) ∧
          ∀ ε, SitesRemeasured η ε ds[i] ds'[j] → f i j ≤ η * a.getD (args.k - 1) 0 + 2 * ε := by
  obtain ⟨M, f, F, h1, h2, h3⟩ := C91_amd_two_partial h hby hnn hk hm hi hi' he he' hne hne'
  refine ⟨M, f, F, h1, h2, fun i j hi hj hw hw' a ha η hη => ?_⟩
  have p1 := he _ (List.getElem_mem hi)
  have p2 := he' _ (List.getElem_mem hj)
  obtain ⟨b, hb, -⟩ := C91_amd_unique p2 args.k
  rw [(h3 i j hi hj hw hw').1 a b ha hb]
  exact ⟨fun δ hn => (C93_sites_amd p1 p2 hη hn ha hb).2.2.2, fun ε hn => (C93_sites_amd p1 p2 hη (C93_sites_remeasured p1.proper p2.proper hn) ha hb).2.2.2⟩

/-- **C93** (partial) `compare` by PDD with `disorder='all_sites'`. Missing: entries for cells that are too oblique for `k`. -/
theorem C93_sites_compare_pdd_partial (h : ReadsAllSites env B w kwargs o) (hs : env.sched.Complete) (hby : upper args.by_ = "PDD") (hnn : args.nNeighbors = none) {tol : ℝ}
    (htol : 0 ≤ tol) (ho : PddOptions kwargs tol (.named "chebyshev")) (hi : InputHoldsAll B asString o inp ds args.csdRefcodes)
    (hi' : InputHoldsAll B asString o inp' ds' args.csdRefcodes) (he : ∀ e ∈ ds, e.Comparable) (he' : ∀ e ∈ ds', e.Comparable) (hne : ds ≠ []) (hne' : ds' ≠ [])
    {collapse : Bool} (hcol : (kwOr kwargs "collapse" (.bool true)).truthy = collapse) :
    ∃ (M : List (List ℝ)) (f : ℕ → ℕ → ℝ) (F : ℕ), IsMatrix ds.length ds'.length f M ∧
      (∀ fuel ≥ F, compare env inp (some inp') args kwargs fuel = .ok (.matrix (ds.map SitesDescribed.name) (ds'.map SitesDescribed.name) M)) ∧
      ∀ i j (hi : i < ds.length) (hj : j < ds'.length), ds[i].WellShaped args.k → ds'[j].WellShaped args.k →
        ∀ slack, slack = (if collapse then 4 * tol else 0) + emdTol (max ds[i].size ds'[j].size) (args.k * max (ds[i].cell.a : ℝ) ds'[j].cell.a) →
          ∀ a, ds[i].IsAMD args.k a → ∀ η < 1, (∀ δ, SitesStrained η δ ds[i] ds'[j] → f i j ≤ η * a.getD (args.k - 1) 0 + δ + slack) ∧
            ∀ ε, SitesRemeasured η ε ds[i] ds'[j] → f i j ≤ η * a.getD (args.k - 1) 0 + 2 * ε + slack := by
  obtain ⟨M, f, F, h1, h2, h3⟩ := C91_pdd_two_partial h hs hby hnn htol ho hi hi' he he' hne hne' hcol
  refine ⟨M, f, F, h1, h2, fun i j hi hj hw hw' slack hslack a ha η hη => ?_⟩
  have p1 := he _ (List.getElem_mem hi)
  have p2 := he' _ (List.getElem_mem hj)
  obtain ⟨p, hp⟩ := (C91_pdd_unique p1 args.k).1
  obtain ⟨q, hq⟩ := (C91_pdd_unique p2 args.k).1
  have h4 := (abs_le.1 ((h3 i j hi hj hw hw' slack hslack).1 p q hp hq)).2
  constructor
  · intro δ hn
    linarith [C93_sites_pdd p1 p2 hη hn ha hp hq]
  · intro ε hn
    linarith [C93_sites_pdd p1 p2 hη (C93_sites_remeasured p1.proper p2.proper hn) ha hp hq]

end

end Amd
