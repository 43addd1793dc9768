import Verif.Proof.Asymptotics
import Verif.Proof.PddFacts
import Verif.Props.Invariance

/-! # The point packing coefficient: C22, C23, C54 -/

namespace Amd

open MeasureTheory Filter Topology

variable {D : ℕ}

/-! ### C22 -/

/-- **C22** In every dimension `D ≥ 1`: the `D`-th power of the PPC, times the volume of the unit ball, times the number of motif
points, is the volume of the unit cell. -/
theorem C22_volume (hD : 0 < D) {S : PeriodicSet D} (hne : S.motif ≠ []) :
    ENNReal.ofReal (PPC S) ^ D * volume {x : Pt D ℝ | ∑ j, x j ^ 2 ≤ 1} * (S.motif.length : ENNReal) =
      volume (closedCell S.cell) := by
  have hm : (0 : ℝ) < S.motif.length := by exact_mod_cast List.length_pos_iff.mpr hne
  have hV := sphereVol_pos D
  have e1 : {x : Pt D ℝ | ∑ j, x j ^ 2 ≤ 1} = euclBall D 1 := by simp [euclBall]
  have hP : 0 ≤ PPC S := Real.rpow_nonneg (by positivity) _
  have e2 : PPC S ^ D = |cellDet S.cell| / ((S.motif.length : ℝ) * sphereVol D) := by
    unfold PPC
    rw [← Real.rpow_natCast, ← Real.rpow_mul (by positivity), one_div_mul_cancel (by exact_mod_cast hD.ne'), Real.rpow_one]
  rw [e1, volume_euclBall hD zero_le_one, volume_closedCell, ← ENNReal.ofReal_natCast, ← ENNReal.ofReal_pow hP,
    ← ENNReal.ofReal_mul (by positivity), ← ENNReal.ofReal_mul (by positivity), e2]
  congr 1
  rw [one_pow]
  field_simp

/-- **C22** It is non-negative, so the equation determines it. -/
theorem C22_nonneg (S : PeriodicSet D) : 0 ≤ PPC S :=
  Real.rpow_nonneg (div_nonneg (abs_nonneg _) (mul_nonneg (Nat.cast_nonneg _) (sphereVol_pos D).le)) _

/-- **C22** It is positive for a non-singular cell. -/
theorem C22_pos {S : PeriodicSet D} (hne : S.motif ≠ []) (hcell : NonSingular S.cell) : 0 < PPC S := by
  have hm : (0 : ℝ) < S.motif.length := by exact_mod_cast List.length_pos_iff.mpr hne
  have := sphereVol_pos D
  have := abs_pos.mpr (cellDet_ne_zero hcell)
  exact Real.rpow_pos_of_pos (by positivity) _

/-- **C22** Scaling motif and cell by `c ≥ 0` scales the PPC by `c`. -/
theorem C22_scaling (hD : 0 < D) (S : PeriodicSet D) {c : ℝ} (hc : 0 ≤ c) :
    PPC { S with motif := S.motif.map (fun p => c • p), cell := fun i => c • S.cell i } = c * PPC S := by
  have hV := sphereVol_pos D
  have e : cellDet (fun i => c • S.cell i) = c ^ D * cellDet S.cell := by
    unfold cellDet
    have : Matrix.of (fun i => c • S.cell i) = c • Matrix.of S.cell := rfl
    rw [this, Matrix.det_smul, Fintype.card_fin]
  unfold PPC
  simp only [List.length_map]
  rw [e, abs_mul, abs_of_nonneg (pow_nonneg hc D), mul_div_assoc,
    Real.mul_rpow (pow_nonneg hc D) (by positivity), ← Real.rpow_natCast, ← Real.rpow_mul hc,
    mul_one_div_cancel (by exact_mod_cast hD.ne'), Real.rpow_one]

/-- **C22** Passing to a supercell: if the new cell vectors are integer combinations `N` of the old ones, and the motif has `|det N|`
times as many points, then the PPC is the same. With `det N = ±1`, another basis of the same lattice. -/
theorem C22_supercell {S S' : PeriodicSet D} (N : Matrix (Fin D) (Fin D) ℤ) (hN : N.det ≠ 0)
    (hcell : ∀ i, S'.cell i = fun j => ∑ l, (N i l : ℝ) * S.cell l j)
    (hmotif : S'.motif.length = N.det.natAbs * S.motif.length) : PPC S' = PPC S := by
  have e : cellDet S'.cell = (N.det : ℝ) * cellDet S.cell := by
    unfold cellDet
    have h1 : Matrix.of S'.cell = N.map (Int.cast : ℤ → ℝ) * Matrix.of S.cell := by
      ext i j
      simp only [Matrix.of_apply, hcell, Matrix.mul_apply, Matrix.map_apply]
    have h2 : (N.map (Int.cast : ℤ → ℝ)).det = (N.det : ℝ) := (Int.castRingHom ℝ).map_det N |>.symm
    rw [h1, Matrix.det_mul, h2]
  have hd : (0 : ℝ) < |(N.det : ℝ)| := abs_pos.mpr (by exact_mod_cast hN)
  unfold PPC
  rw [e, hmotif, abs_mul, Nat.cast_mul, Nat.cast_natAbs, Int.cast_abs, mul_assoc, mul_div_mul_left _ _ hd.ne']

example : PPC (D := 2) { motif := [0, ![1, 0]], cell := ![![2, 0], ![1, 1]] } = PPC (D := 2) { motif := [0], cell := ![![1, 0], ![0, 1]] } := by
  refine C22_supercell !![2, 0; 1, 1] (by decide) ?_ (by decide)
  intro i
  fin_cases i
  · funext j; fin_cases j <;> simp [Fin.sum_univ_two]
  · funext j; fin_cases j <;> simp [Fin.sum_univ_two]

/-! ### C23 -/

/-- **C23** `AMD_estimate(S, k)` has `k` entries, entry `i` (from 0) being the PPC times the `D`-th root of `i + 1`. -/
theorem C23_estimate (hD : 0 < D) (S : PeriodicSet D) (k : ℕ) :
    (amdEstimate S k).length = k ∧
      ∀ i < k, 0 ≤ (amdEstimate S k).getD i 0 ∧ (amdEstimate S k).getD i 0 ^ D = PPC S ^ D * ((i : ℝ) + 1) := by
  have hP := C22_nonneg S
  refine ⟨by simp [amdEstimate], fun i hi => ?_⟩
  have e : (amdEstimate S k).getD i 0 = PPC S * ((i + 1 : ℕ) : ℝ) ^ (1 / (D : ℝ)) := by
    unfold amdEstimate
    rw [List.getD_eq_getElem _ _ (by simpa using hi)]
    simp
  rw [e]
  refine ⟨by positivity, ?_⟩
  rw [mul_pow, ← Real.rpow_natCast (((i + 1 : ℕ) : ℝ) ^ (1 / (D : ℝ))), ← Real.rpow_mul (by positivity),
    one_div_mul_cancel (by exact_mod_cast hD.ne'), Real.rpow_one]
  push_cast
  rfl

/-- **C23** It is strictly increasing. -/
theorem C23_increasing (hD : 0 < D) {S : PeriodicSet D} (hne : S.motif ≠ []) (hcell : NonSingular S.cell) (k : ℕ) :
    (amdEstimate S k).Pairwise (· < ·) := by
  unfold amdEstimate
  rw [List.pairwise_map]
  refine List.pairwise_lt_range.imp ?_
  intro a b hab
  apply mul_lt_mul_of_pos_left _ (C22_pos hne hcell)
  have : (0 : ℝ) < D := by exact_mod_cast hD
  apply Real.rpow_lt_rpow (by positivity) _ (by positivity)
  exact_mod_cast Nat.add_lt_add_right hab 1

example : exampleSet.motif ≠ [] ∧ NonSingular exampleSet.cell := ⟨by simp [exampleSet], exampleSet_nonSingular⟩

/-! ### C54 -/

/-- **C54** The distance to the `k`-th nearest neighbour of any motif point, divided by the `D`-th root of `k`, tends to the PPC,
for every non-singular cell in every dimension. -/
theorem C54_neighbours (hD : 0 < D) {S : PeriodicSet D} (hcell : NonSingular S.cell) (i : Fin S.motif.length) (d : ℕ → ℝ)
    (hd : ∀ k, 0 < k → ∃ row, IsNeighbourRow S.motif S.cell i k row ∧ row.getLast? = some (d k)) :
    Tendsto (fun k : ℕ => d k / (k : ℝ) ^ (1 / (D : ℝ))) atTop (𝓝 (PPC S)) :=
  tendsto_neighbour hD hcell i (by filter_upwards [eventually_gt_atTop 0] with k hk; exact hd k hk)

theorem sum_pos_cast {mult : List ℕ} (h : 0 < mult.sum) : 0 < (mult.map fun n : ℕ => (n : ℝ)).sum := by
  rw [← Nat.cast_list_sum]
  exact_mod_cast h

/-- **C54** The last entry of `AMD(S, k)`, divided by the `D`-th root of `k`, tends to the PPC. -/
theorem C54_amd (hD : 0 < D) {S : PeriodicSet D} {inds : List (Fin S.motif.length)} {mult : List ℕ}
    (hcell : NonSingular S.cell) (hu : S.Units inds mult) (hmult : 0 < mult.sum) (a : ℕ → List ℝ)
    (ha : ∀ k, ∃ fuel, AMD S k fuel = .ok (a k)) :
    Tendsto (fun k : ℕ => (a k).getD (k - 1) 0 / (k : ℝ) ^ (1 / (D : ℝ))) atTop (𝓝 (PPC S)) := by
  have hne : inds ≠ [] := by
    rintro rfl
    have := units_length hu
    have : mult = [] := List.length_eq_zero_iff.mp (by simpa using this.symm)
    simp [this] at hmult
  obtain ⟨k₁, h₁⟩ := C02_amd_mean_large_k_partial hD hcell hu hne
  rw [Metric.tendsto_atTop]
  intro ε hε
  obtain ⟨k₀, h₀⟩ := rows_near_PPC hD hcell (half_pos hε)
  refine ⟨max 1 (max k₀ k₁), fun k hk => ?_⟩
  obtain ⟨fuel, hf⟩ := ha k
  obtain ⟨rows, hrows, _, hmean⟩ := h₁ k (by omega) fuel _ hf
  rw [hmean (k - 1) (by omega), Real.dist_eq]
  have hl : mult.length = rows.length := (units_length hu).symm.trans hrows.length_eq
  have e1 : List.zipWith (fun (n : ℕ) row => (n : ℝ) * row.getD (k - 1) 0) mult rows =
      (mult.zip rows).map fun u => (u.1 : ℝ) * u.2.getD (k - 1) 0 := by
    rw [List.zip_eq_zipWith, List.map_zipWith]
  have e2 : (mult.map fun n : ℕ => (n : ℝ)) = (mult.zip rows).map fun u => (u.1 : ℝ) := by
    conv_lhs => rw [← List.map_fst_zip (l₁ := mult) (l₂ := rows) hl.le, List.map_map]
    rfl
  have hs := sum_pos_cast hmult
  rw [e2] at hs
  rw [e1, e2]
  refine lt_of_le_of_lt (mean_near _ _ _ (fun u _ => Nat.cast_nonneg _) hs ?_) (half_lt_self hε)
  intro u hu'
  have hr : u.2 ∈ rows := (List.of_mem_zip hu').2
  obtain ⟨i, hi, hir⟩ : ∃ i, ∃ _ : i ∈ inds, IsNeighbourRow S.motif S.cell i k u.2 := by
    obtain ⟨n, hn, e⟩ := List.getElem_of_mem hr
    have := hrows.get (i := n) (by rw [hrows.length_eq]; exact hn) hn
    simp only [List.get_eq_getElem, e] at this
    exact ⟨_, List.getElem_mem _, this⟩
  exact h₀ k (by omega) i _ hir

/-- **C54** Every row of `PDD(S, k)`, with any options: its last entry divided by the `D`-th root of `k` tends to the PPC. The
row may be chosen anew for every `k`. -/
theorem C54_pdd (hD : 0 < D) {S : PeriodicSet D} {inds : List (Fin S.motif.length)} {mult : List ℕ}
    (hcell : NonSingular S.cell) (hu : S.Units inds mult) (hne : inds ≠ []) (r : ℕ → PRow ℝ)
    (hr : ∀ k, ∃ lexsort collapse tol fuel pdd, PDD S k lexsort collapse tol fuel = .ok pdd ∧ r k ∈ pdd) :
    Tendsto (fun k : ℕ => (r k).dists.getD (k - 1) 0 / (k : ℝ) ^ (1 / (D : ℝ))) atTop (𝓝 (PPC S)) := by
  obtain ⟨k₁, h₁⟩ := searchable_eventually hcell S.motif
  rw [Metric.tendsto_atTop]
  intro ε hε
  obtain ⟨k₀, h₀⟩ := rows_near_PPC hD hcell (half_pos hε)
  refine ⟨max 1 (max k₀ k₁), fun k hk => ?_⟩
  obtain ⟨lexsort, collapse, tol, fuel, pdd, hp, hmem⟩ := hr k
  obtain ⟨rows, hrows, rfl⟩ := PDD_rows hD hu hne hp
  have hf := nearestNeighbors_neighbourRow hD hne (h₁ (k + 1) (by omega)) hrows
  have hrow : ∀ x ∈ rows.map (·.drop 1), ∃ i, IsNeighbourRow S.motif S.cell i k x := by
    intro x hx
    obtain ⟨y, hy, rfl⟩ := List.mem_map.mp hx
    obtain ⟨n, hn, e⟩ := List.getElem_of_mem hy
    have := hf.get (i := n) (by rw [hf.length_eq]; exact hn) hn
    simp only [List.get_eq_getElem, e] at this
    exact ⟨_, this.2.2⟩
  have hlen : ∀ x ∈ rows.map (·.drop 1), x.length = k := fun x hx => by
    obtain ⟨i, hi⟩ := hrow x hx
    exact hi.1
  have hmem' : r k ∈ collapseRows k collapse tol (rows.map (·.drop 1)) (mult.map fun n : ℕ => (n : ℝ) / (S.motif.length : ℝ)) := by
    unfold lexsortRows at hmem
    split_ifs at hmem
    · exact (List.perm_insertionSort _ _).subset hmem
    · exact hmem
  rw [collapseRows_eq _ _ _ _ _ hlen] at hmem'
  obtain ⟨g, hg, e⟩ := List.mem_map.mp hmem'
  have hgne := rowGroups_nonempty _ _ _ g hg
  have e1 : (r k).dists.getD (k - 1) 0 =
      (g.map fun i => (1 : ℝ) * ((rows.map (·.drop 1)).getD i []).getD (k - 1) 0).sum / (g.map fun _ => (1 : ℝ)).sum := by
    rw [← e]
    unfold groupRow meanRows
    simp only
    rw [List.getD_eq_getElem _ _ (by simp; omega)]
    simp [Function.comp_def]
  rw [e1, Real.dist_eq]
  refine lt_of_le_of_lt (mean_near g _ _ (fun _ _ => zero_le_one) ?_ ?_) (half_lt_self hε)
  · simp only [List.map_const', List.sum_replicate, mul_one, nsmul_eq_mul]
    exact_mod_cast List.length_pos_iff.mpr hgne
  · intro j hj
    have hj' := rowGroups_lt hg hj
    rw [List.getD_eq_getElem _ _ hj']
    obtain ⟨i, hi⟩ := hrow _ (List.getElem_mem hj')
    exact h₀ k (by omega) i _ hi

/-- Sequences as in C54 exist. -/
example : ∃ a : ℕ → List ℝ, ∀ k, ∃ fuel, AMD exampleAsym k fuel = .ok (a k) := by
  have h : ∀ k, ∃ a fuel, AMD exampleAsym k fuel = .ok a := by
    intro k
    obtain ⟨a, _, F, h⟩ := C10_terminates (S := exampleAsym) (by decide) exampleAsym_units (by decide)
      exampleSet_nonSingular k true false 0
    exact ⟨a, F, (h F le_rfl).1⟩
  choose a ha using h
  exact ⟨a, ha⟩

/-- **C22** The PPC depends only on the set of points: two descriptions (without repeated points) of the same periodic set by
different cells and motifs have the same PPC. -/
theorem C22_same_set (hD : 0 < D) {S S' : PeriodicSet D} (hcell : NonSingular S.cell) (hcell' : NonSingular S'.cell)
    (hinj : Function.Injective (sitePos S.motif S.cell)) (hinj' : Function.Injective (sitePos S'.motif S'.cell))
    (hP : periodicPoints S.motif S.cell = periodicPoints S'.motif S'.cell) (hne : S.motif ≠ []) (hne' : S'.motif ≠ []) :
    PPC S = PPC S' := by
  have key : ∀ (T : PeriodicSet D) (_ : NonSingular T.cell) (_ : T.motif ≠ []) (R : ℕ → Fin T.motif.length → List ℝ)
      (_ : ∀ k i, IsNeighbourRow T.motif T.cell i k (R k i)),
      Tendsto (fun k : ℕ => ((∑ i, (R k i).getD (k - 1) 0) / T.motif.length) / (k : ℝ) ^ (1 / (D : ℝ))) atTop (𝓝 (PPC T)) := by
    intro T hT hTne R hR
    have hm : (0 : ℝ) < T.motif.length := by exact_mod_cast List.length_pos_iff.mpr hTne
    have h1 : Tendsto (fun k : ℕ => (∑ i, (R k i).getD (k - 1) 0 / (k : ℝ) ^ (1 / (D : ℝ))) / T.motif.length) atTop
        (𝓝 ((∑ _i : Fin T.motif.length, PPC T) / T.motif.length)) := by
      refine Tendsto.div_const (tendsto_finsetSum _ fun i _ => ?_) _
      exact C54_neighbours hD hT i _ fun k hk => ⟨R k i, hR k i, getLast?_row hk (hR k i).1⟩
    have e : (∑ _i : Fin T.motif.length, PPC T) / (T.motif.length : ℝ) = PPC T := by
      rw [Finset.sum_const, Finset.card_univ, Fintype.card_fin, nsmul_eq_mul]
      field_simp
    rw [e] at h1
    refine h1.congr fun k => ?_
    rw [← Finset.sum_div]
    ring
  choose R hR using fun k i => exists_neighbourRow (motif := S.motif) hD hcell i k
  choose R' hR' using fun k i => exists_neighbourRow (motif := S'.motif) hD hcell' i k
  refine tendsto_nhds_unique (key S hcell hne R hR) ((key S' hcell' hne' R' hR').congr fun k => ?_)
  rw [mean_rows_eq hinj hinj' hP hne hne' (hR k) (hR' k)]

end Amd
