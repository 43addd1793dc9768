import Verif.Proof.Volume
import Verif.Proof.Rows
import Verif.Proof.Searchable
import Mathlib.Analysis.BoxIntegral.UnitPartition
import Mathlib.Analysis.Convex.Measure
import Mathlib.Analysis.SpecialFunctions.Pow.Continuity

/-! Helper lemmas: counting lattice points, and the growth of neighbour distances. -/

set_option linter.unusedSectionVars false

namespace Amd

open MeasureTheory Filter Topology Pointwise

variable {D : ℕ}

theorem cellDet_ne_zero {cell : Fin D → Pt D ℝ} (h : NonSingular cell) : cellDet cell ≠ 0 := by
  intro h0
  have := (Matrix.linearIndependent_rows_iff_isUnit (A := Matrix.of cell)).mp h
  rw [Matrix.isUnit_iff_isUnit_det] at this
  exact this.ne_zero h0

theorem sumsq_convex : Convex ℝ (euclBall D 1) := by
  intro x hx y hy a b ha hb hab
  simp only [euclBall, Set.mem_ofPred_eq] at hx hy ⊢
  calc ∑ j, (a • x + b • y) j ^ 2 ≤ ∑ j, (a * x j ^ 2 + b * y j ^ 2) := by
        apply Finset.sum_le_sum
        intro j _
        simp only [Pi.add_apply, Pi.smul_apply, smul_eq_mul]
        have hb' : b = 1 - a := by linarith
        subst hb'
        nlinarith [mul_nonneg (mul_nonneg ha hb) (sq_nonneg (x j - y j))]
    _ = a * ∑ j, x j ^ 2 + b * ∑ j, y j ^ 2 := by rw [Finset.sum_add_distrib, Finset.mul_sum, Finset.mul_sum]
    _ ≤ a * 1 ^ 2 + b * 1 ^ 2 := by gcongr
    _ = 1 ^ 2 := by linarith

/-- Fractional coordinates of the unit ball. -/
def ellipsoid (cell : Fin D → Pt D ℝ) : Set (Pt D ℝ) := fracToCart cell ⁻¹' euclBall D 1

theorem measurableSet_ellipsoid (cell : Fin D → Pt D ℝ) : MeasurableSet (ellipsoid cell) := by
  have hc : Continuous (fracToCart cell) := (fracToCart cell).continuous_of_finiteDimensional
  have : IsClosed (ellipsoid cell) := by
    apply IsClosed.preimage hc
    apply isClosed_le
    · fun_prop
    · fun_prop
  exact this.measurableSet

theorem frontier_ellipsoid (cell : Fin D → Pt D ℝ) : volume (frontier (ellipsoid cell)) = 0 :=
  (sumsq_convex.linear_preimage (fracToCart cell)).addHaar_frontier volume

theorem bounded_ellipsoid {cell : Fin D → Pt D ℝ} (h : NonSingular cell) : Bornology.IsBounded (ellipsoid cell) := by
  have hdet : LinearMap.det (fracToCart cell) ≠ 0 := by rw [det_fracToCart]; exact cellDet_ne_zero h
  let e := LinearMap.equivOfDetNeZero (fracToCart cell) hdet
  have hb : Bornology.IsBounded (euclBall D 1) := by
    rw [isBounded_iff_forall_norm_le]
    refine ⟨1, fun x hx => ?_⟩
    rw [pi_norm_le_iff_of_nonneg zero_le_one]
    intro i
    rw [Real.norm_eq_abs, ← abs_one, ← sq_le_sq]
    exact (Finset.single_le_sum (f := fun j => x j ^ 2) (fun j _ => sq_nonneg _) (Finset.mem_univ i)).trans hx
  have e1 : ellipsoid cell = e.symm '' euclBall D 1 := by
    ext x
    constructor
    · intro hx; exact ⟨e x, hx, e.symm_apply_apply x⟩
    · rintro ⟨y, hy, rfl⟩
      change fracToCart cell (e.symm y) ∈ euclBall D 1
      have : fracToCart cell (e.symm y) = y := e.apply_symm_apply y
      rwa [this]
  rw [e1]
  exact (LinearMap.toContinuousLinearMap e.symm.toLinearMap).lipschitz.isBounded_image hb

theorem volume_ellipsoid (hD : 0 < D) {cell : Fin D → Pt D ℝ} (h : NonSingular cell) :
    volume.real (ellipsoid cell) = sphereVol D / |cellDet cell| := by
  have hdet : LinearMap.det (fracToCart cell) ≠ 0 := by rw [det_fracToCart]; exact cellDet_ne_zero h
  rw [measureReal_def, ellipsoid, Measure.addHaar_preimage_linearMap _ hdet, volume_euclBall hD zero_le_one, det_fracToCart,
    ← ENNReal.ofReal_mul (abs_nonneg _), ENNReal.toReal_ofReal (mul_nonneg (abs_nonneg _) (by have := sphereVol_pos D; positivity)),
    abs_inv]
  rw [one_pow, one_mul]
  field_simp

/-- The integer vectors whose lattice vector has length at most `c`. -/
def latBall (cell : Fin D → Pt D ℝ) (c : ℝ) : Set (Fin D → ℤ) := {n | ∑ j, latVec cell n j ^ 2 ≤ c ^ 2}

theorem fracToCart_int (cell : Fin D → Pt D ℝ) (n : Fin D → ℤ) : fracToCart cell (fun i => (n i : ℝ)) = latVec cell n := by
  funext j; exact fracToCart_apply cell _ j

theorem card_latBall (cell : Fin D → Pt D ℝ) {c : ℝ} (hc : 0 < c) :
    Nat.card ↑(ellipsoid cell ∩ c⁻¹ • (Submodule.span ℤ (Set.range (Pi.basisFun ℝ (Fin D))) : Set (Pt D ℝ))) =
      Nat.card (latBall cell c) := by
  symm
  have key : ∀ n : Fin D → ℤ, (c⁻¹ • (fun i => (n i : ℝ)) : Pt D ℝ) ∈ ellipsoid cell ↔ n ∈ latBall cell c := by
    intro n
    simp only [ellipsoid, Set.mem_preimage, map_smul, fracToCart_int, euclBall, latBall, Set.mem_ofPred_eq, Pi.smul_apply,
      smul_eq_mul, mul_pow, ← Finset.mul_sum]
    rw [inv_pow, inv_mul_le_iff₀ (by positivity)]
    simp
  have hspan : ∀ x : Pt D ℝ, x ∈ Submodule.span ℤ (Set.range (Pi.basisFun ℝ (Fin D))) ↔ ∃ n : Fin D → ℤ, x = fun i => (n i : ℝ) := by
    intro x
    rw [Module.Basis.mem_span_iff_repr_mem]
    constructor
    · intro h
      choose n hn using h
      exact ⟨n, by funext i; have := hn i; simpa using this.symm⟩
    · rintro ⟨n, rfl⟩ i
      exact ⟨n i, by simp⟩
  apply Nat.card_congr
  refine Equiv.ofBijective (fun n => ⟨c⁻¹ • (fun i => (n.1 i : ℝ)), (key n.1).mpr n.2, ?_⟩) ⟨?_, ?_⟩
  · exact Set.smul_mem_smul_set ((hspan _).mpr ⟨n.1, rfl⟩)
  · rintro ⟨n, hn⟩ ⟨n', hn'⟩ h
    have h' := smul_right_injective (Pt D ℝ) (inv_ne_zero hc.ne') (congrArg Subtype.val h)
    apply Subtype.ext
    funext i
    have := congrFun h' i
    exact_mod_cast this
  · rintro ⟨x, hx, hx'⟩
    obtain ⟨y, hy, rfl⟩ := hx'
    obtain ⟨n, rfl⟩ := (hspan y).mp hy
    exact ⟨⟨n, (key n).mp hx⟩, rfl⟩

theorem tendsto_latBall (hD : 0 < D) {cell : Fin D → Pt D ℝ} (h : NonSingular cell) :
    Tendsto (fun c : ℝ => (Nat.card (latBall cell c) : ℝ) / c ^ D) atTop (𝓝 (sphereVol D / |cellDet cell|)) := by
  rw [← volume_ellipsoid hD h]
  have := tendsto_card_div_pow_atTop_volume' (ellipsoid cell) (bounded_ellipsoid h) (measurableSet_ellipsoid cell)
    (frontier_ellipsoid cell) ?_
  · refine this.congr' ?_
    filter_upwards [eventually_gt_atTop 0] with c hc
    rw [card_latBall cell hc, Fintype.card_fin]
  · rintro x y hx hxy _ ⟨z, hz, rfl⟩
    refine ⟨(x / y) • z, ?_, ?_⟩
    · have hy : 0 < y := hx.trans_le hxy
      simp only [ellipsoid, Set.mem_preimage, map_smul, euclBall, Set.mem_ofPred_eq, Pi.smul_apply, smul_eq_mul, mul_pow,
        ← Finset.mul_sum] at hz ⊢
      have h1 : (x / y) ^ 2 ≤ 1 := by
        apply pow_le_one₀ (by positivity)
        rw [div_le_one hy]; exact hxy
      have h0 : 0 ≤ ∑ j, (fracToCart cell z j) ^ 2 := Finset.sum_nonneg fun _ _ => sq_nonneg _
      nlinarith
    · have hy : y ≠ 0 := (hx.trans_le hxy).ne'
      simp only [smul_smul]
      rw [mul_div_cancel₀ _ hy]

theorem finite_latBall {cell : Fin D → Pt D ℝ} (hD : 0 < D) (h : NonSingular cell) (c : ℝ) :
    (latBall cell c).Finite := by
  obtain ⟨a, ha0, ha⟩ := exists_lower_bound h
  obtain ⟨t, ht⟩ := exists_nat_gt (c ^ 2 / a)
  apply (List.finite_toSet (layersUpTo D (t + 1))).subset
  intro n hn
  rw [Set.mem_ofPred_eq, mem_layersUpTo hD]
  have h1 := (ha n).trans (show sqNorm (latVec cell n) ≤ c ^ 2 from hn)
  have h2 : (normSq n : ℝ) < t := by
    refine lt_of_le_of_lt ?_ ht
    rw [le_div_iff₀ ha0]; linarith
  have h3 : normSq n < (t : ℤ) := by exact_mod_cast h2
  nlinarith

theorem mem_latBall_iff {cell : Fin D → Pt D ℝ} {c : ℝ} (hc : 0 ≤ c) (q : Pt D ℝ) (n : Fin D → ℤ) :
    n ∈ latBall cell c ↔ eucl q (q + latVec cell n) ≤ c := by
  rw [eucl_comm, eucl, ← sqNorm_eq, Real.sqrt_le_iff]
  simp [latBall, sqNorm, hc]

/-- The sites within distance `r` of `p`. -/
def siteBall (motif : List (Pt D ℝ)) (cell : Fin D → Pt D ℝ) (p : Pt D ℝ) (r : ℝ) : Set (Site motif.length D) :=
  {s | eucl p (sitePos motif cell s) ≤ r}

theorem sitePos_eq_lat (motif : List (Pt D ℝ)) (cell : Fin D → Pt D ℝ) (s : Site motif.length D) :
    sitePos motif cell s = motif[s.1] + latVec cell s.2 := rfl

theorem siteBall_subset {motif : List (Pt D ℝ)} {cell : Fin D → Pt D ℝ} {p : Pt D ℝ} {r B : ℝ}
    (hB : ∀ q ∈ motif, eucl p q ≤ B) (hr : 0 ≤ r + B) :
    siteBall motif cell p r ⊆ Set.univ ×ˢ latBall cell (r + B) := by
  rintro s hs
  refine ⟨trivial, ?_⟩
  rw [mem_latBall_iff hr motif[s.1]]
  have h1 := eucl_triangle motif[s.1] p (motif[s.1] + latVec cell s.2)
  have h2 := hB motif[s.1] (List.getElem_mem _)
  rw [eucl_comm motif[s.1] p] at h1
  have h3 : eucl p (motif[s.1] + latVec cell s.2) ≤ r := hs
  linarith

theorem subset_siteBall {motif : List (Pt D ℝ)} {cell : Fin D → Pt D ℝ} {p : Pt D ℝ} {r B : ℝ}
    (hB : ∀ q ∈ motif, eucl p q ≤ B) (hr : 0 ≤ r - B) :
    Set.univ ×ˢ latBall cell (r - B) ⊆ siteBall motif cell p r := by
  rintro s ⟨_, hs⟩
  rw [mem_latBall_iff hr motif[s.1]] at hs
  have h1 := eucl_triangle p motif[s.1] (motif[s.1] + latVec cell s.2)
  have h2 := hB motif[s.1] (List.getElem_mem _)
  change eucl p (motif[s.1] + latVec cell s.2) ≤ r
  linarith

theorem exists_bound (motif : List (Pt D ℝ)) (p : Pt D ℝ) : ∃ B, 0 ≤ B ∧ ∀ q ∈ motif, eucl p q ≤ B := by
  refine ⟨((motif.map (eucl p)).foldr max 0), ?_, ?_⟩
  · generalize motif.map (eucl p) = l
    induction l with
    | nil => simp
    | cons a l ih => exact le_max_of_le_right ih
  · intro q hq
    have : ∀ l : List ℝ, ∀ a ∈ l, a ≤ l.foldr max 0 := by
      intro l
      induction l with
      | nil => simp
      | cons b l ih =>
        intro a ha
        rcases List.mem_cons.mp ha with rfl | ha
        · exact le_max_left _ _
        · exact le_max_of_le_right (ih a ha)
    exact this _ _ (List.mem_map.mpr ⟨q, hq, rfl⟩)

theorem siteBall_finite {motif : List (Pt D ℝ)} {cell : Fin D → Pt D ℝ} (hD : 0 < D) (h : NonSingular cell) (p : Pt D ℝ) (r : ℝ) :
    (siteBall motif cell p r).Finite := by
  obtain ⟨B, hB⟩ := exists_bound motif p
  have hsub : siteBall motif cell p r ⊆ siteBall motif cell p (max r 0) := fun s hs => le_trans (show eucl p (sitePos motif cell s) ≤ r from hs) (le_max_left _ _)
  refine Set.Finite.subset (Set.finite_univ.prod (finite_latBall hD h _)) (hsub.trans (siteBall_subset (B := B) hB.2 ?_))
  have := le_max_right r 0
  linarith [hB.1]

theorem ncard_siteBall_le {motif : List (Pt D ℝ)} {cell : Fin D → Pt D ℝ} (hD : 0 < D) (h : NonSingular cell) {p : Pt D ℝ}
    {r B : ℝ} (hB : ∀ q ∈ motif, eucl p q ≤ B) (hr : 0 ≤ r + B) :
    (siteBall motif cell p r).ncard ≤ motif.length * Nat.card (latBall cell (r + B)) := by
  refine (Set.ncard_le_ncard (siteBall_subset hB hr) (Set.finite_univ.prod (finite_latBall hD h _))).trans ?_
  rw [Set.ncard_prod, Set.ncard_univ, Nat.card_fin, Nat.card_coe_set_eq]

theorem le_ncard_siteBall {motif : List (Pt D ℝ)} {cell : Fin D → Pt D ℝ} (hD : 0 < D) (h : NonSingular cell) {p : Pt D ℝ}
    {r B : ℝ} (hB : ∀ q ∈ motif, eucl p q ≤ B) (hr : 0 ≤ r - B) :
    motif.length * Nat.card (latBall cell (r - B)) ≤ (siteBall motif cell p r).ncard := by
  refine le_trans ?_ (Set.ncard_le_ncard (subset_siteBall hB hr) (siteBall_finite hD h p r))
  rw [Set.ncard_prod, Set.ncard_univ, Nat.card_fin, Nat.card_coe_set_eq]

/-- Counting sites around a motif point with the distance of its `k`-th neighbour. -/
theorem neighbourRow_count {motif : List (Pt D ℝ)} {cell : Fin D → Pt D ℝ} (hD : 0 < D) (h : NonSingular cell)
    {i : Fin motif.length} {k : ℕ} {row : List ℝ} (hrow : IsNeighbourRow motif cell i k row) {d : ℝ}
    (hd : row.getLast? = some d) :
    k ≤ (siteBall motif cell motif[i] d).ncard ∧ ∀ r < d, (siteBall motif cell motif[i] r).ncard ≤ k + 1 := by
  obtain ⟨hlen, idx, hnd, he, hsort, hout⟩ := hrow
  have hdm : d ∈ row := List.mem_of_getLast? hd
  have hle := getLast?_ge hsort hd
  have hidx : idx.length = k := by rw [← hlen, he, List.length_map]
  have hnd' : (idx.map Subtype.val).Nodup := hnd.map Subtype.val_injective
  constructor
  · rw [← hidx, ← List.length_map (f := Subtype.val), ← List.toFinset_card_of_nodup hnd', ← Set.ncard_coe_finset]
    apply Set.ncard_le_ncard _ (siteBall_finite hD h _ _)
    intro s hs
    rw [Finset.mem_coe, List.mem_toFinset] at hs
    obtain ⟨t, ht, rfl⟩ := List.mem_map.mp hs
    exact hle _ (by rw [he]; exact List.mem_map.mpr ⟨t, ht, rfl⟩)
  · intro r hr
    have hsub : siteBall motif cell motif[i] r ⊆ (((i, 0) :: idx.map Subtype.val).toFinset : Set (Site motif.length D)) := by
      intro s hs
      rw [Finset.mem_coe, List.mem_toFinset]
      by_cases hs0 : s = (i, 0)
      · rw [hs0]; simp
      · by_contra hc
        have hni : (⟨s, hs0⟩ : {s : Site motif.length D // s ≠ (i, 0)}) ∉ idx := by
          intro hm
          exact hc (List.mem_cons_of_mem _ (List.mem_map.mpr ⟨_, hm, rfl⟩))
        have h1 := hout _ hni d hdm
        have h2 : eucl motif[i] (sitePos motif cell s) ≤ r := hs
        linarith
    refine (Set.ncard_le_ncard hsub (Finset.finite_toSet _)).trans ?_
    rw [Set.ncard_coe_finset]
    refine (List.toFinset_card_le _).trans ?_
    rw [List.length_cons, List.length_map, hidx]

theorem card_latBall_mono {cell : Fin D → Pt D ℝ} (hD : 0 < D) (h : NonSingular cell) {c c' : ℝ} (h0 : 0 ≤ c) (hc : c ≤ c') :
    Nat.card (latBall cell c) ≤ Nat.card (latBall cell c') := by
  rw [Nat.card_coe_set_eq, Nat.card_coe_set_eq]
  apply Set.ncard_le_ncard _ (finite_latBall hD h _)
  intro n hn
  exact le_trans (show ∑ j, latVec cell n j ^ 2 ≤ c ^ 2 from hn) (pow_le_pow_left₀ h0 hc 2)

theorem tendsto_shift_ratio (B : ℝ) {d : ℕ → ℝ} (hd : Tendsto d atTop atTop) :
    Tendsto (fun k => (d k + B) / d k) atTop (𝓝 1) := by
  have h1 : Tendsto (fun k => 1 + B / d k) atTop (𝓝 (1 + 0)) := tendsto_const_nhds.add (hd.const_div_atTop B)
  rw [add_zero] at h1
  refine h1.congr' ?_
  filter_upwards [hd.eventually_gt_atTop 0] with k hk
  rw [add_div, div_self hk.ne']

theorem tendsto_neighbour (hD : 0 < D) {motif : List (Pt D ℝ)} {cell : Fin D → Pt D ℝ} (h : NonSingular cell)
    (i : Fin motif.length) {d : ℕ → ℝ}
    (hd : ∀ᶠ k in atTop, ∃ row, IsNeighbourRow motif cell i k row ∧ row.getLast? = some (d k)) :
    Tendsto (fun k : ℕ => d k / (k : ℝ) ^ (1 / (D : ℝ))) atTop
      (𝓝 ((|cellDet cell| / ((motif.length : ℝ) * sphereVol D)) ^ (1 / (D : ℝ)))) := by
  obtain ⟨B, hB0, hB⟩ := exists_bound motif motif[i]
  have hm : 0 < motif.length := by have := i.2; omega
  have hmR : (0 : ℝ) < motif.length := by exact_mod_cast hm
  have hdet : 0 < |cellDet cell| := abs_pos.mpr (cellDet_ne_zero h)
  have hV := sphereVol_pos D
  set N : ℝ → ℝ := fun c => (Nat.card (latBall cell c) : ℝ) with hN
  set m : ℝ := (motif.length : ℝ) with hmdef
  -- the two counting bounds
  have hnn : ∀ᶠ k in atTop, 0 ≤ d k := by
    filter_upwards [hd] with k hk
    obtain ⟨row, hrow, hl⟩ := hk
    obtain ⟨_, idx, _, he, _, _⟩ := hrow
    have := List.mem_of_getLast? hl
    rw [he] at this
    obtain ⟨t, _, ht⟩ := List.mem_map.mp this
    rw [← ht]; exact eucl_nonneg _ _
  have hup : ∀ᶠ k : ℕ in atTop, (k : ℝ) ≤ m * N (d k + B) := by
    filter_upwards [hd, hnn] with k hk hk0
    obtain ⟨row, hrow, hl⟩ := hk
    have h1 := (neighbourRow_count hD h hrow hl).1.trans (ncard_siteBall_le hD h hB (by linarith))
    have : ((k : ℕ) : ℝ) ≤ ((motif.length * Nat.card (latBall cell (d k + B)) : ℕ) : ℝ) := by exact_mod_cast h1
    rwa [Nat.cast_mul] at this
  have hlo : ∀ᶠ k : ℕ in atTop, 0 ≤ d k + (-1 - B) → m * N (d k + (-1 - B)) ≤ (k : ℝ) + 1 := by
    filter_upwards [hd] with k hk h0
    obtain ⟨row, hrow, hl⟩ := hk
    have h1 := (le_ncard_siteBall hD h (r := d k - 1) hB (by linarith)).trans
      ((neighbourRow_count hD h hrow hl).2 (d k - 1) (by linarith))
    rw [show d k - 1 - B = d k + (-1 - B) by ring] at h1
    have : ((motif.length * Nat.card (latBall cell (d k + (-1 - B))) : ℕ) : ℝ) ≤ ((k + 1 : ℕ) : ℝ) := by exact_mod_cast h1
    rw [Nat.cast_mul] at this
    push_cast at this
    exact this
  have hdinf : Tendsto d atTop atTop := by
    rw [tendsto_atTop]
    intro R
    obtain ⟨K, hK⟩ := exists_nat_gt (m * N (max R 0 + B))
    filter_upwards [hup, hnn, eventually_ge_atTop K] with k h1 h2 h3
    by_contra hc
    rw [not_le] at hc
    have h4 : N (d k + B) ≤ N (max R 0 + B) := by
      simp only [hN]
      exact_mod_cast card_latBall_mono hD h (by linarith) (by linarith [le_max_left R 0])
    have h5 : (K : ℝ) ≤ k := by exact_mod_cast h3
    have h6 := mul_le_mul_of_nonneg_left h4 hmR.le
    linarith
  have hF := tendsto_latBall hD h
  have hshift : ∀ b : ℝ, Tendsto (fun k => m * (N (d k + b) / (d k + b) ^ D * ((d k + b) / d k) ^ D)) atTop
      (𝓝 (m * (sphereVol D / |cellDet cell| * 1 ^ D))) := by
    intro b
    apply Tendsto.const_mul
    apply Tendsto.mul
    · exact hF.comp (tendsto_atTop_add_const_right _ b hdinf)
    · exact (tendsto_shift_ratio b hdinf).pow D
  have hratio : Tendsto (fun k : ℕ => (k : ℝ) / d k ^ D) atTop (𝓝 (m * (sphereVol D / |cellDet cell|))) := by
    have e : m * (sphereVol D / |cellDet cell| * 1 ^ D) = m * (sphereVol D / |cellDet cell|) := by rw [one_pow, mul_one]
    have hlow : Tendsto (fun k => m * (N (d k + (-1 - B)) / (d k + (-1 - B)) ^ D * ((d k + (-1 - B)) / d k) ^ D) - 1 / d k ^ D) atTop
        (𝓝 (m * (sphereVol D / |cellDet cell|) - 0)) := by
      rw [← e]
      exact (hshift _).sub ((tendsto_pow_atTop hD.ne').comp hdinf |>.const_div_atTop 1)
    rw [sub_zero] at hlow
    refine tendsto_of_tendsto_of_tendsto_of_le_of_le' hlow (by rw [← e]; exact hshift B) ?_ ?_
    · filter_upwards [hlo, hdinf.eventually_gt_atTop (1 + B)] with k h1 h2
      have h3 : 0 < d k + (-1 - B) := by linarith
      have h4 : 0 < d k := by linarith
      have h5 := h1 h3.le
      have h6 : m * (N (d k + (-1 - B)) / (d k + (-1 - B)) ^ D * ((d k + (-1 - B)) / d k) ^ D) = m * N (d k + (-1 - B)) / d k ^ D := by
        rw [div_pow]; field_simp
      rw [h6, ← sub_div]
      apply div_le_div_of_nonneg_right _ (by positivity)
      linarith
    · filter_upwards [hup, hdinf.eventually_gt_atTop 0] with k h1 h2
      have h3 : 0 < d k + B := by linarith
      have h6 : m * (N (d k + B) / (d k + B) ^ D * ((d k + B) / d k) ^ D) = m * N (d k + B) / d k ^ D := by
        rw [div_pow]; field_simp
      rw [h6]
      exact div_le_div_of_nonneg_right h1 (by positivity)
  have hlim : m * (sphereVol D / |cellDet cell|) ≠ 0 := by positivity
  have hpow := hratio.rpow_const (p := -(1 / (D : ℝ))) (Or.inl hlim)
  have e2 : (m * (sphereVol D / |cellDet cell|)) ^ (-(1 / (D : ℝ))) = (|cellDet cell| / (m * sphereVol D)) ^ (1 / (D : ℝ)) := by
    rw [Real.rpow_neg (by positivity), ← Real.inv_rpow (by positivity)]
    congr 1
    rw [mul_div, inv_div]
  rw [e2] at hpow
  refine hpow.congr' ?_
  filter_upwards [hdinf.eventually_gt_atTop 0, eventually_gt_atTop 0] with k h1 h2
  have hk : (0 : ℝ) < k := by exact_mod_cast h2
  rw [Real.rpow_neg (by positivity), Real.div_rpow hk.le (by positivity), inv_div]
  congr 1
  rw [← Real.rpow_natCast, ← Real.rpow_mul h1.le, mul_one_div_cancel (by exact_mod_cast hD.ne'), Real.rpow_one]

theorem getLast?_row {row : List ℝ} {k : ℕ} (hk : 0 < k) (h : row.length = k) : row.getLast? = some (row.getD (k - 1) 0) := by
  rw [List.getLast?_eq_getElem?, h, List.getD_eq_getElem?_getD]
  rw [List.getElem?_eq_getElem (by omega)]
  rfl

/-- All rows at once. -/
theorem rows_near_PPC (hD : 0 < D) {S : PeriodicSet D} (h : NonSingular S.cell) {ε : ℝ} (hε : 0 < ε) :
    ∃ k₀, ∀ k, k₀ ≤ k → ∀ (i : Fin S.motif.length) (row : List ℝ), IsNeighbourRow S.motif S.cell i k row →
      |row.getD (k - 1) 0 / (k : ℝ) ^ (1 / (D : ℝ)) - PPC S| ≤ ε := by
  have h1 : ∀ i : Fin S.motif.length, ∀ᶠ k : ℕ in atTop, ∀ row, IsNeighbourRow S.motif S.cell i k row →
      |row.getD (k - 1) 0 / (k : ℝ) ^ (1 / (D : ℝ)) - PPC S| ≤ ε := by
    intro i
    choose R hR using fun k => exists_neighbourRow hD h i k
    have ht := tendsto_neighbour hD h i (d := fun k => (R k).getD (k - 1) 0) (by
      filter_upwards [eventually_gt_atTop 0] with k hk
      exact ⟨R k, hR k, getLast?_row hk (hR k).1⟩)
    rw [Metric.tendsto_nhds] at ht
    filter_upwards [ht ε hε] with k hk row hrow
    rw [hrow.unique (hR k)]
    rw [Real.dist_eq] at hk
    exact hk.le
  obtain ⟨k₀, hk₀⟩ := eventually_atTop.mp (eventually_all.mpr h1)
  exact ⟨k₀, fun k hk i => hk₀ k hk i⟩

/-- A mean of values near `L` is near `L`. -/
theorem mean_near {α : Type*} (l : List α) (w x : α → ℝ) {s L ε : ℝ} (hw : ∀ a ∈ l, 0 ≤ w a) (hs : 0 < (l.map w).sum)
    (hx : ∀ a ∈ l, |x a / s - L| ≤ ε) :
    |(l.map fun a => w a * x a).sum / (l.map w).sum / s - L| ≤ ε := by
  have e : (l.map fun a => w a * x a).sum / (l.map w).sum / s - L =
      (l.map fun a => w a * (x a / s - L)).sum / (l.map w).sum := by
    have : (l.map fun a => w a * (x a / s - L)).sum = (l.map fun a => w a * x a).sum / s - (l.map w).sum * L := by
      clear hw hs hx
      induction l with
      | nil => simp
      | cons a l ih => simp only [List.map_cons, List.sum_cons, ih]; ring
    rw [this]
    field_simp
  rw [e, abs_div, abs_of_pos hs, div_le_iff₀ hs]
  clear e hs
  induction l with
  | nil => simp
  | cons a l ih =>
    simp only [List.map_cons, List.sum_cons]
    have h1 := ih (fun b hb => hw b (List.mem_cons_of_mem _ hb)) (fun b hb => hx b (List.mem_cons_of_mem _ hb))
    have h2 := hx a (by simp)
    have h3 := hw a (by simp)
    refine (abs_add_le _ _).trans ?_
    rw [abs_mul, abs_of_nonneg h3, mul_add]
    nlinarith

end Amd
