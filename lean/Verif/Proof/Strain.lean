import Verif.Proof.DescribedNear
import Verif.Proof.RoundingBound
import Verif.Spec.Strain
import Mathlib.Algebra.Order.Chebyshev

/-! Invariants of crystals under strain. -/

namespace Amd

open Classical

/-! ### A plan between motifs -/

theorem exactEmd_of_plan_costs {m m' k : ℕ} {R : Fin m → List ℝ} {R' : Fin m' → List ℝ} (hm : 0 < m) (hm' : 0 < m') (hl : m ≤ 100000000) (hl' : m' ≤ 100000000)
    (hR : ∀ i, (R i).length = k) (hR' : ∀ j, (R' j).length = k) {g : Fin m → Fin m' → ℝ} (hg : IsPlan (fun _ => 1 / (m : ℝ)) (fun _ => 1 / (m' : ℝ)) g) {δ : Fin m → ℝ}
    (hδ : ∀ i, 0 ≤ δ i) (hc : ∀ i j, g i j ≠ 0 → ∀ t < k, |(R i).getD t 0 - (R' j).getD t 0| ≤ δ i) {p p' : List (PRow ℝ)} (hp : WeightedRows k p) (hp' : WeightedRows k p')
    (hw : ∀ x, weightAt p x = (∑ i, (if R i = x then (1 : ℝ) else 0)) / m)
    (hw' : ∀ x, weightAt p' x = (∑ i, (if R' i = x then (1 : ℝ) else 0)) / m') : exactEmd chebyshev p p' ≤ (∑ i, δ i) / m := by
  have hq := fullRows_weighted hm hl hR
  have hq' := fullRows_weighted hm' hl' hR'
  have M := chebyshev_metric k
  rw [exactEmd_congr M hp hq hp' fun x => by rw [hw, fullRows_weightAt], ← exactEmd_symm M hq hp',
    exactEmd_congr M hp' hq' hq fun x => by rw [hw', fullRows_weightAt], exactEmd_symm M hq hq']
  let e := finCongr (fullRows_length R)
  let e' := finCongr (fullRows_length R')
  have hplan : IsPlan (fun i : Fin (fullRows R).length => (fullRows R)[i].weight) (fun j : Fin (fullRows R').length => (fullRows R')[j].weight)
      (fun i j => g (e.symm i) (e'.symm j)) := by
    refine ⟨fun i j => hg.nonneg _ _, fun i => ?_, fun j => ?_⟩
    · obtain ⟨i, rfl⟩ := e.surjective i
      rw [Equiv.symm_apply_apply, Equiv.sum_comp e'.symm, hg.rows, fullRows_get]
    · obtain ⟨j, rfl⟩ := e'.surjective j
      rw [Equiv.symm_apply_apply, Equiv.sum_comp e.symm fun i => g i j, hg.cols, fullRows_get]
  refine (wasserstein_le (fun i j => M.nonneg _ _ (hq.len i) (hq'.len j)) hplan).trans ?_
  unfold planCost
  rw [← Equiv.sum_comp e]
  have : ∀ i, ∑ j : Fin (fullRows R').length, g (e.symm (e i)) (e'.symm j) * chebyshev (fullRows R)[e i].dists (fullRows R')[j].dists ≤ ∑ j, g i j * δ i := by
    intro i
    rw [← Equiv.sum_comp e']
    refine Finset.sum_le_sum fun j _ => ?_
    rw [Equiv.symm_apply_apply, Equiv.symm_apply_apply, fullRows_get, fullRows_get]
    by_cases h0 : g i j = 0
    · rw [h0, zero_mul, zero_mul]
    · refine mul_le_mul_of_nonneg_left ?_ (hg.nonneg i j)
      refine (chebyshev_le_iff ((hR i).trans (hR' j).symm)).2 ⟨hδ i, fun t ht => hc i j h0 t ?_⟩
      rw [hR i] at ht
      exact ht
  refine (Finset.sum_le_sum fun i _ => this i).trans ?_
  simp only [← Finset.sum_mul, hg.rows]
  rw [← Finset.mul_sum, one_div_mul_eq_div]

/-! ### Linear images of periodic sets -/

section
variable {D k : ℕ} {motif : List (Pt D ℝ)} {cell : Fin D → Pt D ℝ} {A : Pt D ℝ →ₗ[ℝ] Pt D ℝ} {η δ : ℝ}

theorem Strain.injective (h : Strain η A) (hη : η < 1) : Function.Injective A := by
  intro p q e
  have h1 := h p q
  rw [e, eucl_eq_zero.mpr rfl, zero_sub, abs_neg, abs_of_nonneg (eucl_nonneg p q)] at h1
  have h2 := eucl_nonneg p q
  exact eucl_eq_zero.1 (by nlinarith)

theorem Strain.nonneg (hD : 0 < D) (h : Strain η A) : 0 ≤ η := by
  have h1 := (abs_nonneg _).trans (h (Pi.single ⟨0, hD⟩ 1) 0)
  have h2 : 0 < eucl (Pi.single (⟨0, hD⟩ : Fin D) (1 : ℝ)) 0 := by
    refine lt_of_le_of_ne (eucl_nonneg _ _) fun e => ?_
    have := congrFun (eucl_eq_zero.1 e.symm) ⟨0, hD⟩
    simp at this
  exact nonneg_of_mul_nonneg_left h1 h2

/-- Indices of the motif. -/
def mapIndex (motif : List (Pt D ℝ)) (A : Pt D ℝ →ₗ[ℝ] Pt D ℝ) : Fin motif.length ≃ Fin (motif.map A).length := finCongr (by simp)

theorem mapIndex_get (i : Fin motif.length) : (motif.map A)[mapIndex motif A i] = A motif[i] := by
  simp [mapIndex]

/-- Sites of the image. -/
def mapSite (motif : List (Pt D ℝ)) (A : Pt D ℝ →ₗ[ℝ] Pt D ℝ) : Site motif.length D ≃ Site (motif.map A).length D := (mapIndex motif A).prodCongr (Equiv.refl _)

theorem sitePos_eq_add (s : Site motif.length D) : sitePos motif cell s = motif[s.1] + ∑ i, (s.2 i : ℝ) • cell i := by
  funext j
  simp [sitePos]

theorem sitePos_mapSite (s : Site motif.length D) : sitePos (motif.map A) (fun i => A (cell i)) (mapSite motif A s) = A (sitePos motif cell s) := by
  rw [sitePos_eq_add, sitePos_eq_add, map_add, map_sum]
  congr 1
  · exact mapIndex_get s.1
  · simp only [map_smul]
    rfl

theorem nonSingular_map (hc : NonSingular cell) (hA : Function.Injective A) : NonSingular fun i => A (cell i) :=
  hc.map' A (LinearMap.ker_eq_bot.2 hA)

/-- Rows of the image. -/
theorem strained_row {i : Fin motif.length} {r r' : List ℝ} (hA : Strain η A) (h0 : 0 ≤ η) (h1 : η < 1) (hr : IsNeighbourRow motif cell i k r)
    (hr' : IsNeighbourRow (motif.map A) (fun i => A (cell i)) (mapIndex motif A i) k r') {t : ℕ} (ht : t < k) : |r'.getD t 0 - r.getD t 0| ≤ η * r.getD t 0 := by
  have hk : IsKNearest (fun s : {s : Site motif.length D // s ≠ (i, 0)} => eucl (A motif[i]) (A (sitePos motif cell s))) r' := by
    refine hr'.2.equiv (((mapSite motif A).subtypeEquiv fun s => by
      rw [not_iff_not]
      exact (mapSite motif A).apply_eq_iff_eq (x := s) (y := (i, 0)) |>.symm).symm) ?_
    rintro ⟨s, hs⟩
    obtain ⟨s, rfl⟩ := (mapSite motif A).surjective s
    simp only [Equiv.subtypeEquiv_symm, Equiv.subtypeEquiv_apply, Equiv.symm_apply_apply]
    rw [sitePos_mapSite, mapIndex_get]
  have l1 : t < r.length := by rw [hr.1]; exact ht
  have l2 : t < r'.length := by rw [hr'.1]; exact ht
  have u := hr.2.getElem_le_map hk (φ := fun x => (1 + η) * x) (fun x y h => mul_le_mul_of_nonneg_left h (by linarith))
    (fun s => by have := (abs_le.1 (hA motif[i] (sitePos motif cell s))).2; linarith) t l1 l2
  have l := hr.2.le_getElem_map hk (φ := fun x => (1 - η) * x) (fun x y h => mul_le_mul_of_nonneg_left h (by linarith))
    (fun s => by have := (abs_le.1 (hA motif[i] (sitePos motif cell s))).1; linarith) t l1 l2
  rw [List.getD_eq_getElem _ _ l1, List.getD_eq_getElem _ _ l2, abs_le]
  constructor <;> linarith

end

/-! ### Periodic sets -/

section
variable {D k : ℕ} {S S' : PeriodicSet D} {R : Fin S.motif.length → List ℝ} {R' : Fin S'.motif.length → List ℝ} {η δ : ℝ}

theorem row_nonneg {motif : List (Pt D ℝ)} {cell : Fin D → Pt D ℝ} {i : Fin motif.length} {r : List ℝ} (h : IsNeighbourRow motif cell i k r) (t : ℕ) : 0 ≤ r.getD t 0 := by
  by_cases ht : t < r.length
  · rw [List.getD_eq_getElem _ _ ht]
    obtain ⟨-, idx, -, e, -, -⟩ := h
    subst e
    rw [List.getElem_map]
    exact eucl_nonneg _ _
  · rw [List.getD_eq_default _ _ (by omega)]

theorem row_mono {motif : List (Pt D ℝ)} {cell : Fin D → Pt D ℝ} {i : Fin motif.length} {r : List ℝ} (h : IsNeighbourRow motif cell i k r) {t u : ℕ} (htu : t ≤ u) (hu : u < k) :
    r.getD t 0 ≤ r.getD u 0 := by
  have hl := h.1
  obtain ⟨-, idx, -, -, hs, -⟩ := h
  rw [List.getD_eq_getElem _ _ (by omega), List.getD_eq_getElem _ _ (by omega)]
  rcases htu.lt_or_eq with h | rfl
  · exact List.pairwise_iff_getElem.1 hs t u _ _ h
  · exact le_rfl

/-- A plan between the motifs. -/
theorem strained_plan (hD : 0 < D) (hη : η < 1) (hc : NonSingular S.cell) (hc' : NonSingular S'.cell) (hne : S.motif ≠ []) (hne' : S'.motif ≠ []) (h : StrainedListed η δ S S')
    (hR : ∀ i, IsNeighbourRow S.motif S.cell i k (R i)) (hR' : ∀ i, IsNeighbourRow S'.motif S'.cell i k (R' i)) :
    0 ≤ η ∧ 0 ≤ δ ∧ ∃ g : Fin S.motif.length → Fin S'.motif.length → ℝ, IsPlan (fun _ => 1 / (S.motif.length : ℝ)) (fun _ => 1 / (S'.motif.length : ℝ)) g ∧
      ∀ i j, g i j ≠ 0 → ∀ t < k, |(R i).getD t 0 - (R' j).getD t 0| ≤ η * (R i).getD t 0 + δ := by
  obtain ⟨A, hA, φ, hφ⟩ := h
  have h0 := hA.nonneg hD
  have hd : 0 ≤ δ := (abs_nonneg _).trans (hφ (⟨0, List.length_pos_iff.2 hne⟩, 0) (⟨0, List.length_pos_iff.2 hne⟩, 0))
  refine ⟨h0, hd, ?_⟩
  have hcA := nonSingular_map hc (hA.injective hη)
  obtain ⟨g, hg, hgd⟩ := site_plan hD hcA hc' (motif := S.motif.map A) (by simpa using hne) hne' ((mapSite S.motif A).symm.trans φ) (δ := δ) (by
    intro s t
    obtain ⟨s, rfl⟩ := (mapSite S.motif A).surjective s
    obtain ⟨t, rfl⟩ := (mapSite S.motif A).surjective t
    rw [Equiv.trans_apply, Equiv.trans_apply, Equiv.symm_apply_apply, Equiv.symm_apply_apply, sitePos_mapSite, sitePos_mapSite]
    exact hφ s t)
  have hlen : (S.motif.map A).length = S.motif.length := by simp
  refine ⟨fun i j => g (mapIndex S.motif A i) j, ⟨fun i j => hg.nonneg _ _, fun i => ?_, fun j => ?_⟩, fun i j hij t ht => ?_⟩
  · rw [hg.rows, hlen]
  · rw [Equiv.sum_comp (mapIndex S.motif A) fun i => g i j, hg.cols]
  · obtain ⟨r, hr⟩ := exists_neighbourRow hD hcA (mapIndex S.motif A i) k
    have h1 := strained_row hA h0 hη (hR i) hr ht
    have h2 := hgd _ _ hij k _ _ hr (hR' j) t ht
    rw [abs_le] at h1 h2 ⊢
    constructor <;> linarith [h1.1, h1.2, h2.1, h2.2]

theorem rowMeans_getD {m : ℕ} {R : Fin m → List ℝ} {t : ℕ} (ht : t < k) : (rowMeans k R).getD t 0 = (∑ i, (R i).getD t 0) / m := by
  simp [rowMeans, ht]

theorem strained_amd (hD : 0 < D) (hη : η < 1) (hc : NonSingular S.cell) (hc' : NonSingular S'.cell) (hne : S.motif ≠ []) (hne' : S'.motif ≠ []) (h : StrainedListed η δ S S')
    (hR : ∀ i, IsNeighbourRow S.motif S.cell i k (R i)) (hR' : ∀ i, IsNeighbourRow S'.motif S'.cell i k (R' i)) {t : ℕ} (ht : t < k) :
    |(rowMeans k R).getD t 0 - (rowMeans k R').getD t 0| ≤ η * (rowMeans k R).getD t 0 + δ := by
  obtain ⟨h0, hd, g, hg, hgd⟩ := strained_plan hD hη hc hc' hne hne' h hR hR'
  have hm : (0 : ℝ) < S.motif.length := by exact_mod_cast List.length_pos_iff.2 hne
  rw [rowMeans_getD ht, rowMeans_getD ht]
  have e1 : (∑ i, (R i).getD t 0) / S.motif.length = ∑ i, ∑ j, g i j * (R i).getD t 0 := by
    rw [Finset.sum_div]
    refine Finset.sum_congr rfl fun i _ => ?_
    rw [← Finset.sum_mul, hg.rows]
    ring
  have e2 : (∑ j, (R' j).getD t 0) / S'.motif.length = ∑ i, ∑ j, g i j * (R' j).getD t 0 := by
    rw [Finset.sum_comm, Finset.sum_div]
    refine Finset.sum_congr rfl fun j _ => ?_
    rw [← Finset.sum_mul, hg.cols]
    ring
  have e3 : δ = ∑ i, ∑ j, g i j * δ := by
    simp only [← Finset.sum_mul, hg.rows, Finset.sum_const, Finset.card_univ, Fintype.card_fin, nsmul_eq_mul]
    rw [mul_one_div, div_self hm.ne', one_mul]
  rw [e1, e2, e3, Finset.mul_sum, ← Finset.sum_sub_distrib, ← Finset.sum_add_distrib]
  refine (Finset.abs_sum_le_sum_abs _ _).trans (Finset.sum_le_sum fun i _ => ?_)
  rw [← Finset.sum_sub_distrib, Finset.mul_sum, ← Finset.sum_add_distrib]
  refine (Finset.abs_sum_le_sum_abs _ _).trans (Finset.sum_le_sum fun j _ => ?_)
  rw [← mul_sub, abs_mul, abs_of_nonneg (hg.nonneg i j)]
  by_cases hij : g i j = 0
  · rw [hij]
    simp
  · have := mul_le_mul_of_nonneg_left (hgd i j hij t ht) (hg.nonneg i j)
    linarith

theorem rowMeans_nonneg {motif : List (Pt D ℝ)} {cell : Fin D → Pt D ℝ} {R : Fin motif.length → List ℝ} (hR : ∀ i, IsNeighbourRow motif cell i k (R i)) (t : ℕ) :
    0 ≤ (rowMeans k R).getD t 0 := by
  by_cases ht : t < k
  · rw [rowMeans_getD ht]
    exact div_nonneg (Finset.sum_nonneg fun i _ => row_nonneg (hR i) t) (Nat.cast_nonneg _)
  · rw [List.getD_eq_default _ _ (by simp [rowMeans]; omega)]

theorem rowMeans_mono {motif : List (Pt D ℝ)} {cell : Fin D → Pt D ℝ} {R : Fin motif.length → List ℝ} (hR : ∀ i, IsNeighbourRow motif cell i k (R i)) {t u : ℕ} (htu : t ≤ u)
    (hu : u < k) : (rowMeans k R).getD t 0 ≤ (rowMeans k R).getD u 0 := by
  rw [rowMeans_getD (htu.trans_lt hu), rowMeans_getD hu]
  exact div_le_div_of_nonneg_right (Finset.sum_le_sum fun i _ => row_mono (hR i) htu hu) (Nat.cast_nonneg _)

theorem strained_chebyshev (hD : 0 < D) (hη : η < 1) (hc : NonSingular S.cell) (hc' : NonSingular S'.cell) (hne : S.motif ≠ []) (hne' : S'.motif ≠ [])
    (h : StrainedListed η δ S S') (hR : ∀ i, IsNeighbourRow S.motif S.cell i k (R i)) (hR' : ∀ i, IsNeighbourRow S'.motif S'.cell i k (R' i)) :
    chebyshev (rowMeans k R) (rowMeans k R') ≤ η * (rowMeans k R).getD (k - 1) 0 + δ := by
  obtain ⟨h0, hd, -⟩ := strained_plan hD hη hc hc' hne hne' h hR hR'
  have hp := mul_nonneg h0 (rowMeans_nonneg hR (k - 1))
  refine (chebyshev_le_iff (by simp [rowMeans])).2 ⟨by linarith, fun t ht => ?_⟩
  have ht : t < k := by simpa [rowMeans] using ht
  have h1 := strained_amd hD hη hc hc' hne hne' h hR hR' ht
  have h2 := mul_le_mul_of_nonneg_left (rowMeans_mono hR (t := t) (u := k - 1) (by omega) (by omega)) h0
  linarith

theorem strained_pdd (hD : 0 < D) (hη : η < 1) (hc : NonSingular S.cell) (hc' : NonSingular S'.cell) (hne : S.motif ≠ []) (hne' : S'.motif ≠ []) (h : StrainedListed η δ S S')
    (hR : ∀ i, IsNeighbourRow S.motif S.cell i k (R i)) (hR' : ∀ i, IsNeighbourRow S'.motif S'.cell i k (R' i)) (hl : S.motif.length ≤ 100000000)
    (hl' : S'.motif.length ≤ 100000000) {p p' : List (PRow ℝ)} (hp : WeightedRows k p) (hp' : WeightedRows k p')
    (hw : ∀ x, weightAt p x = (∑ i, (if R i = x then (1 : ℝ) else 0)) / S.motif.length)
    (hw' : ∀ x, weightAt p' x = (∑ i, (if R' i = x then (1 : ℝ) else 0)) / S'.motif.length) :
    exactEmd chebyshev p p' ≤ η * (rowMeans k R).getD (k - 1) 0 + δ := by
  obtain ⟨h0, hd, g, hg, hgd⟩ := strained_plan hD hη hc hc' hne hne' h hR hR'
  have hm := List.length_pos_iff.2 hne
  have hmR : (S.motif.length : ℝ) ≠ 0 := by exact_mod_cast hm.ne'
  have := exactEmd_of_plan_costs hm (List.length_pos_iff.2 hne') hl hl' (fun i => (hR i).1) (fun j => (hR' j).1) hg (δ := fun i => η * (R i).getD (k - 1) 0 + δ)
    (fun i => add_nonneg (mul_nonneg h0 (row_nonneg (hR i) _)) hd)
    (fun i j hij t ht => (hgd i j hij t ht).trans (by
      have := mul_le_mul_of_nonneg_left (row_mono (hR i) (t := t) (u := k - 1) (by omega) (by omega)) h0
      linarith)) hp hp' hw hw'
  refine this.trans (le_of_eq ?_)
  rw [Finset.sum_add_distrib, ← Finset.mul_sum, Finset.sum_const, Finset.card_univ, Fintype.card_fin, nsmul_eq_mul, add_div, mul_div_assoc, mul_div_cancel_left₀ _ hmR]
  by_cases hk : k = 0
  · subst hk
    have hz : ∀ i, (R i).getD (0 - 1) 0 = 0 := fun i => by
      rw [List.length_eq_zero_iff.1 (hR i).1]
      rfl
    simp only [hz]
    simp [rowMeans]
  · rw [rowMeans_getD (by omega)]

end

/-! ### Descriptions -/

section
variable {D : ℕ} {cell cell' : Fin D → Pt D ℝ}

/-- A linear map that carries points of one cell to points of the other one with the same fractional coordinates. -/
theorem exists_cellMap (hc : NonSingular cell) (cell' : Fin D → Pt D ℝ) : ∃ A : Pt D ℝ →ₗ[ℝ] Pt D ℝ, ∀ x, A (cartesian cell x) = cartesian cell' x := by
  let L : (Fin D → Pt D ℝ) → (Pt D ℝ →ₗ[ℝ] Pt D ℝ) := fun b => (Matrix.of b).vecMulLinear
  let e := LinearEquiv.ofInjectiveEndo (L cell) (cartesian_injective hc)
  refine ⟨(L cell').comp e.symm.toLinearMap, fun x => ?_⟩
  have h : e.symm (cartesian cell x) = x := by
    rw [LinearEquiv.symm_apply_eq]
    rfl
  rw [LinearMap.comp_apply, LinearEquiv.coe_coe, h]
  rfl

theorem eucl_sub_zero (p q : Pt D ℝ) : eucl p q = eucl (p - q) 0 := by
  simp [eucl, sqDist]

theorem strain_of_cells (hc : NonSingular cell) {η : ℝ} (h : ∀ x, |eucl (cartesian cell' x) 0 - eucl (cartesian cell x) 0| ≤ η * eucl (cartesian cell x) 0) {A : Pt D ℝ →ₗ[ℝ] Pt D ℝ}
    (hA : ∀ x, A (cartesian cell x) = cartesian cell' x) : Strain η A := by
  intro p q
  obtain ⟨x, hx⟩ := cartesian_surjective hc (p - q)
  rw [eucl_sub_zero (A p), eucl_sub_zero p, ← map_sub, ← hx, hA]
  exact h x

theorem Strain.comp_isometry {A : Pt D ℝ →ₗ[ℝ] Pt D ℝ} {η : ℝ} (hA : Strain η A) {T : Pt D ℝ → Pt D ℝ} (hT : ∀ p q, eucl (T p) (T q) = eucl p q) :
    ∃ B : Pt D ℝ →ₗ[ℝ] Pt D ℝ, Strain η B ∧ ∀ p q, eucl (B p) (B q) = eucl (A (T p)) (A (T q)) := by
  obtain ⟨R, v, hR⟩ := isometry_affine hT
  have e : ∀ p q, eucl (A.comp R p) (A.comp R q) = eucl (A (T p)) (A (T q)) := by
    intro p q
    rw [hR, hR, map_add, map_add, eucl_add_right]
    rfl
  refine ⟨A.comp R, fun p q => ?_, e⟩
  rw [e, ← hT p q]
  exact hA _ _

/-- The lengths of vectors with the same coordinates in two cells with almost the same Gram matrix. -/
theorem cells_strained {θ : ℝ} (hθ : 0 ≤ θ) (hd : HalfDominant cell) (hc : EdgesClose θ cell cell') (x : Pt D ℝ) :
    |eucl (cartesian cell' x) 0 - eucl (cartesian cell x) 0| ≤ 2 * D * θ * eucl (cartesian cell x) 0 := by
  have hsq : ∀ b : Fin D → Pt D ℝ, eucl (cartesian b x) 0 ^ 2 = ∑ i, ∑ j, x i * x j * gram b i j := by
    intro b
    have h0 : 0 ≤ sqDist (cartesian b x) 0 := Finset.sum_nonneg fun _ _ => sq_nonneg _
    rw [eucl, Real.sq_sqrt h0]
    simp only [sqDist, cartesian, Pi.zero_apply, sub_zero, sq]
    rw [gram_bilin]
    refine Finset.sum_congr rfl fun i _ => ?_
    rw [Finset.mul_sum]
    refine Finset.sum_congr rfl fun j _ => ?_
    ring
  have g0 : ∀ i, 0 ≤ gram cell i i := fun i => Finset.sum_nonneg fun _ _ => mul_self_nonneg _
  have hlow : ∑ i, x i ^ 2 * gram cell i i ≤ 2 * eucl (cartesian cell x) 0 ^ 2 := by
    rw [hsq]
    let h : Fin D → Fin D → ℝ := fun i j => if j = i then 0 else |gram cell i j|
    have hsym : ∀ i j, h i j = h j i := by
      intro i j
      simp only [h, gram_comm cell i j, eq_comm]
    have hrow : ∀ i, 2 * ∑ j, h i j ≤ gram cell i i := by
      intro i
      have := hd i
      rw [← Finset.sum_erase_add _ _ (Finset.mem_univ i)]
      have e : ∑ j ∈ Finset.univ.erase i, h i j = ∑ j ∈ Finset.univ.erase i, |gram cell i j| :=
        Finset.sum_congr rfl fun j hj => if_neg (Finset.ne_of_mem_erase hj)
      simpa [e, h] using this
    have hterm : ∀ i j, (if j = i then x i ^ 2 * gram cell i i else 0) - (x i ^ 2 * h i j + x j ^ 2 * h i j) / 2 ≤ x i * x j * gram cell i j := by
      intro i j
      by_cases e : j = i
      · subst e
        simp only [h, if_true]
        linarith
      · simp only [h, if_neg e]
        have h1 := abs_nonneg (gram cell i j)
        have h2 := neg_abs_le (x i * x j * gram cell i j)
        rw [abs_mul, abs_mul] at h2
        have h3 : |x i| * |x j| ≤ (x i ^ 2 + x j ^ 2) / 2 := by
          have := sq_nonneg (|x i| - |x j|)
          have a1 := sq_abs (x i)
          have a2 := sq_abs (x j)
          nlinarith
        have := mul_le_mul_of_nonneg_right h3 h1
        linarith
    have hsum := Finset.sum_le_sum fun i (_ : i ∈ Finset.univ) => Finset.sum_le_sum fun j (_ : j ∈ Finset.univ) => hterm i j
    have e1 : ∑ i, ∑ j, x j ^ 2 * h i j = ∑ i, ∑ j, x i ^ 2 * h i j := by
      rw [Finset.sum_comm]
      exact Finset.sum_congr rfl fun i _ => Finset.sum_congr rfl fun j _ => by rw [hsym]
    have e2 : ∑ i, ∑ j, ((if j = i then x i ^ 2 * gram cell i i else 0) - (x i ^ 2 * h i j + x j ^ 2 * h i j) / 2) =
        ∑ i, x i ^ 2 * gram cell i i - ∑ i, x i ^ 2 * ∑ j, h i j := by
      simp only [Finset.sum_sub_distrib, Finset.sum_ite_eq', Finset.mem_univ, if_true, ← Finset.sum_div, Finset.sum_add_distrib, e1, Finset.mul_sum]
      ring
    rw [e2] at hsum
    have h4 : ∑ i, x i ^ 2 * (2 * ∑ j, h i j) ≤ ∑ i, x i ^ 2 * gram cell i i := Finset.sum_le_sum fun i _ => mul_le_mul_of_nonneg_left (hrow i) (sq_nonneg _)
    have h5 : ∑ i, x i ^ 2 * (2 * ∑ j, h i j) = 2 * ∑ i, x i ^ 2 * ∑ j, h i j := by
      rw [Finset.mul_sum]
      exact Finset.sum_congr rfl fun i _ => by ring
    linarith
  have hup : |eucl (cartesian cell' x) 0 ^ 2 - eucl (cartesian cell x) 0 ^ 2| ≤ θ * (D * ∑ i, x i ^ 2 * gram cell i i) := by
    rw [hsq, hsq, ← Finset.sum_sub_distrib]
    have h1 : (∑ i, |x i| * √(gram cell i i)) ^ 2 ≤ D * ∑ i, x i ^ 2 * gram cell i i := by
      have := sq_sum_le_card_mul_sum_sq (s := (Finset.univ : Finset (Fin D))) (f := fun i => |x i| * √(gram cell i i))
      simpa [mul_pow, Real.sq_sqrt (g0 _)] using this
    refine le_trans ?_ (mul_le_mul_of_nonneg_left h1 hθ)
    rw [sq, Finset.sum_mul_sum, Finset.mul_sum]
    refine (Finset.abs_sum_le_sum_abs _ _).trans (Finset.sum_le_sum fun i _ => ?_)
    rw [← Finset.sum_sub_distrib, Finset.mul_sum]
    refine (Finset.abs_sum_le_sum_abs _ _).trans (Finset.sum_le_sum fun j _ => ?_)
    rw [← mul_sub, abs_mul, abs_mul]
    have := mul_le_mul_of_nonneg_left (hc i j) (mul_nonneg (abs_nonneg (x i)) (abs_nonneg (x j)))
    linarith
  have hE := eucl_nonneg (cartesian cell' x) 0
  have hF := eucl_nonneg (cartesian cell x) 0
  have hD0 : (0 : ℝ) ≤ D := Nat.cast_nonneg D
  have h6 : |eucl (cartesian cell' x) 0 ^ 2 - eucl (cartesian cell x) 0 ^ 2| ≤ 2 * D * θ * eucl (cartesian cell x) 0 ^ 2 := by
    have := mul_le_mul_of_nonneg_left hlow (mul_nonneg hθ hD0)
    linarith
  generalize eucl (cartesian cell' x) 0 = E at hE h6 ⊢
  generalize eucl (cartesian cell x) 0 = F at hF h6 ⊢
  rcases hF.lt_or_eq with h0 | rfl
  · have e : E ^ 2 - F ^ 2 = (E - F) * (E + F) := by ring
    rw [e, abs_mul, abs_of_nonneg (by linarith : 0 ≤ E + F)] at h6
    have h7 : |E - F| * F ≤ |E - F| * (E + F) := mul_le_mul_of_nonneg_left (by linarith) (abs_nonneg _)
    have h8 : |E - F| * F ≤ 2 * D * θ * F * F := by linarith
    exact le_of_mul_le_mul_right h8 h0
  · have h7 : E ^ 2 ≤ 0 := by
      have := le_abs_self (E ^ 2 - 0 ^ 2)
      norm_num at h6
      rw [h6]
      norm_num
    have h8 : E = 0 := by nlinarith
    rw [h8]
    norm_num

end

section
variable {c c' : Described} {S S' : PeriodicSet 3} {k : ℕ} {η δ ε : ℝ}

theorem ReadFacts.strained (h : ReadFacts c S) (h' : ReadFacts c' S') (hn : DescribeStrained η δ c c') : StrainedListed η δ S S' := by
  obtain ⟨cell, cell', hc, hc', A, hA, f, hf, hd⟩ := hn
  obtain ⟨_, _, hdesc⟩ := h.desc
  obtain ⟨_, _, hdesc'⟩ := h'.desc
  have hg' := gram_of_cellpar hc' h'.cell
  obtain ⟨T1, h1, p1⟩ := crystalPoints_congr (gram_of_cellpar h.cell hc) hdesc.cell c.ops c.sites
  obtain ⟨T2, h2, p2⟩ := crystalPoints_congr hg' (nonSingular_congr (fun i j => (hg' i j).symm) hdesc'.cell) c'.ops c'.sites
  have b1 : Set.BijOn T1 (periodicPoints S.motif S.cell) (c.points cell) := bijOn_isometry h1 (by rw [h.points]; exact p1)
  have b2 : Set.BijOn T2 (c'.points cell') (periodicPoints S'.motif S'.cell) := bijOn_isometry h2 (by rw [h'.points]; exact p2)
  obtain ⟨φ, hφ⟩ := exists_sitePairing hdesc.once hdesc'.once (b2.comp (hf.comp b1))
  obtain ⟨B, hB, he⟩ := hA.comp_isometry h1
  refine ⟨B, hB, φ, fun s t => ?_⟩
  rw [hφ, hφ]
  simp only [Function.comp]
  rw [h2, he]
  exact hd _ (b1.mapsTo ⟨s, rfl⟩) _ (b1.mapsTo ⟨t, rfl⟩)

theorem DescribeStrained.amd (h : ReadFacts c S) (h' : ReadFacts c' S') (hη : η < 1) (hn : DescribeStrained η δ c c') {a a' : List ℝ} (ha : c.IsAMD k a) (ha' : c'.IsAMD k a') :
    a.length = k ∧ a'.length = k ∧ (∀ t < k, |a.getD t 0 - a'.getD t 0| ≤ η * a.getD t 0 + δ) ∧ chebyshev a a' ≤ η * a.getD (k - 1) 0 + δ := by
  obtain ⟨_, _, hd⟩ := h.desc
  obtain ⟨_, _, hd'⟩ := h'.desc
  obtain ⟨R, hR, hn1⟩ := hd.motifRows (by norm_num) k
  obtain ⟨R', hR', hn2⟩ := hd'.motifRows (by norm_num) k
  rw [h.amd_means hR ha, h'.amd_means hR' ha']
  exact ⟨by simp [rowMeans], by simp [rowMeans], fun t ht => strained_amd (by norm_num) hη hd.cell hd'.cell hd.nonempty hd'.nonempty (h.strained h' hn) hn1 hn2 ht,
    strained_chebyshev (by norm_num) hη hd.cell hd'.cell hd.nonempty hd'.nonempty (h.strained h' hn) hn1 hn2⟩

theorem DescribeStrained.pdd (h : ReadFacts c S) (h' : ReadFacts c' S') (hl : c.size ≤ 100000000) (hl' : c'.size ≤ 100000000) (hη : η < 1) (hn : DescribeStrained η δ c c')
    {a : List ℝ} (ha : c.IsAMD k a) {p p' : List (PRow ℝ)} (hp : c.IsPDD k p) (hp' : c'.IsPDD k p') : exactEmd chebyshev p p' ≤ η * a.getD (k - 1) 0 + δ := by
  obtain ⟨_, _, hd⟩ := h.desc
  obtain ⟨_, _, hd'⟩ := h'.desc
  obtain ⟨R, hR, hn1⟩ := hd.motifRows (by norm_num) k
  obtain ⟨R', hR', hn2⟩ := hd'.motifRows (by norm_num) k
  rw [h.amd_means hR ha]
  exact strained_pdd (by norm_num) hη hd.cell hd'.cell hd.nonempty hd'.nonempty (h.strained h' hn) hn1 hn2 (h.size.trans hl) (h'.size.trans hl')
    (by obtain ⟨_, _, hw, -⟩ := hp; exact hw) (by obtain ⟨_, _, hw, -⟩ := hp'; exact hw) (h.pdd_weights hR hp) (h'.pdd_weights hR' hp')

/-- Points with the same fractional coordinates in the other cell. -/
theorem crystalPoints_cells {cell cell' : Fin 3 → Pt 3 ℝ} (hc : NonSingular cell) (hc' : NonSingular cell') {A : Pt 3 ℝ →ₗ[ℝ] Pt 3 ℝ}
    (hA : ∀ x, A (cartesian cell x) = cartesian cell' x) (G : Set (FracOp 3)) (P : Set (Pt 3 ℝ)) : Set.BijOn A (crystalPoints cell G P) (crystalPoints cell' G P) := by
  refine ⟨?_, ?_, ?_⟩
  · rintro _ ⟨p, hp, g, hg, n, rfl⟩
    exact ⟨p, hp, g, hg, n, hA _⟩
  · intro p _ q _ e
    obtain ⟨x, rfl⟩ := cartesian_surjective hc p
    obtain ⟨y, rfl⟩ := cartesian_surjective hc q
    rw [hA, hA] at e
    rw [cartesian_injective hc' e]
  · rintro _ ⟨p, hp, g, hg, n, rfl⟩
    exact ⟨_, ⟨p, hp, g, hg, n, rfl⟩, hA _⟩

theorem Remeasured.strained (hp : c.Proper) (hp' : c'.Proper) (h : Remeasured η ε c c') : DescribeStrained η (2 * ε) c c' := by
  obtain ⟨⟨cell, cell', hc, hc', hx⟩, -, e2, τ, e3, hs, hε⟩ := h
  have hns : NonSingular cell := by
    obtain ⟨b, hb, hn, -⟩ := hp.group
    exact nonSingular_congr (gram_of_cellpar hb hc) hn
  obtain ⟨hns', hG⟩ : NonSingular cell' ∧ IsSpaceGroup cell' c.ops := by
    obtain ⟨b, hb, hn, hG⟩ := hp'.group
    rw [e2] at hG
    exact ⟨nonSingular_congr (gram_of_cellpar hb hc') hn, isSpaceGroup_congr (gram_of_cellpar hb hc') hG⟩
  obtain ⟨A, hA⟩ := exists_cellMap hns cell'
  obtain ⟨f, hf, hd⟩ := crystalPoints_moved hns' hG hs (hε cell' hc')
  have hb := crystalPoints_cells hns hns' hA c.ops c.sites
  refine ⟨cell, cell', hc, hc', A, strain_of_cells hns hx hA, f ∘ A, ?_, fun p hp q hq => two_moved (hd _ (hb.mapsTo hp)) (hd _ (hb.mapsTo hq))⟩
  rw [Described.points, Described.points, e2, e3]
  exact hf.comp hb

end

section
variable {c c' : SitesDescribed} {S S' : PeriodicSet 3} {k : ℕ} {η δ ε : ℝ}

theorem SitesFacts.strained (h : SitesFacts c S) (h' : SitesFacts c' S') (hn : SitesStrained η δ c c') : StrainedListed η δ S S' := by
  obtain ⟨cell, cell', hc, hc', A, hA, φ, hd⟩ := hn
  obtain ⟨T, hT, e, he⟩ := h.listed hc
  obtain ⟨T', hT', e', he'⟩ := h'.listed hc'
  obtain ⟨B, hB, hb⟩ := hA.comp_isometry hT
  refine ⟨B, hB, (e.trans φ).trans e'.symm, fun s t => ?_⟩
  have hp : ∀ u : c'.Listed cell', (u.2 : Pt 3 ℝ) = T' (sitePos S'.motif S'.cell (e'.symm u)) := by
    intro u
    obtain ⟨v, rfl⟩ := e'.surjective u
    rw [Equiv.symm_apply_apply]
    exact he' v
  have h3 := hd (e s) (e t)
  rw [hp, hp, he, he, hT', ← hb] at h3
  exact h3

theorem SitesStrained.amd (h : SitesFacts c S) (h' : SitesFacts c' S') (hη : η < 1) (hn : SitesStrained η δ c c') {a a' : List ℝ} (ha : c.IsAMD k a) (ha' : c'.IsAMD k a') :
    a.length = k ∧ a'.length = k ∧ (∀ t < k, |a.getD t 0 - a'.getD t 0| ≤ η * a.getD t 0 + δ) ∧ chebyshev a a' ≤ η * a.getD (k - 1) 0 + δ := by
  obtain ⟨_, _, hd⟩ := h.listing
  obtain ⟨_, _, hd'⟩ := h'.listing
  obtain ⟨R, hR⟩ := hd.listedRows (by norm_num) k
  obtain ⟨R', hR'⟩ := hd'.listedRows (by norm_num) k
  rw [h.amd_means hR ha, h'.amd_means hR' ha']
  exact ⟨by simp [rowMeans], by simp [rowMeans],
    fun t ht => strained_amd (by norm_num) hη hd.cell hd'.cell hd.nonempty hd'.nonempty (h.strained h' hn) hR.rows hR'.rows ht,
    strained_chebyshev (by norm_num) hη hd.cell hd'.cell hd.nonempty hd'.nonempty (h.strained h' hn) hR.rows hR'.rows⟩

theorem SitesStrained.pdd (h : SitesFacts c S) (h' : SitesFacts c' S') (hl : c.size ≤ 100000000) (hl' : c'.size ≤ 100000000) (hη : η < 1) (hn : SitesStrained η δ c c')
    {a : List ℝ} (ha : c.IsAMD k a) {p p' : List (PRow ℝ)} (hp : c.IsPDD k p) (hp' : c'.IsPDD k p') : exactEmd chebyshev p p' ≤ η * a.getD (k - 1) 0 + δ := by
  obtain ⟨_, _, hd⟩ := h.listing
  obtain ⟨_, _, hd'⟩ := h'.listing
  obtain ⟨R, hR⟩ := hd.listedRows (by norm_num) k
  obtain ⟨R', hR'⟩ := hd'.listedRows (by norm_num) k
  rw [h.amd_means hR ha]
  exact strained_pdd (by norm_num) hη hd.cell hd'.cell hd.nonempty hd'.nonempty (h.strained h' hn) hR.rows hR'.rows (h.size.trans hl) (h'.size.trans hl')
    (by obtain ⟨_, _, hw, -⟩ := hp; exact hw) (by obtain ⟨_, _, hw, -⟩ := hp'; exact hw) (h.pdd_weights hR hp) (h'.pdd_weights hR' hp')

theorem SitesRemeasured.strained (hp : c.Proper) (hp' : c'.Proper) (h : SitesRemeasured η ε c c') : SitesStrained η (2 * ε) c c' := by
  obtain ⟨⟨cell, cell', hc, hc', hx⟩, -, e2, hf⟩ := h
  have hns : NonSingular cell := by
    obtain ⟨b, hb, hn, -⟩ := hp.group
    exact nonSingular_congr (gram_of_cellpar hb hc) hn
  obtain ⟨hns', hG⟩ : NonSingular cell' ∧ IsSpaceGroup cell' c.ops := by
    obtain ⟨b, hb, hn, hG⟩ := hp'.group
    rw [e2] at hG
    exact ⟨nonSingular_congr (gram_of_cellpar hb hc') hn, isSpaceGroup_congr (gram_of_cellpar hb hc') hG⟩
  obtain ⟨A, hA⟩ := exists_cellMap hns cell'
  have hl : c.sites.length = c'.sites.length := hf.length_eq
  have hi : ∀ i : Fin c.sites.length, ∃ f : Pt 3 ℝ → Pt 3 ℝ,
      Set.BijOn f (crystalPoints cell' c.ops {c.sites[i]}) (crystalPoints cell' c'.ops {c'.sites[finCongr hl i]}) ∧ ∀ p ∈ crystalPoints cell' c.ops {c.sites[i]}, eucl p (f p) ≤ ε := by
    intro i
    have h0 := (List.forall₂_iff_get.1 hf).2 i i.2 (hl ▸ i.2)
    have := crystalPoints_moved (P := {c.sites[i]}) (τ := fun _ => c'.sites[finCongr hl i]) (ε := ε) hns' hG
      (by rintro p rfl q rfl; exact h0.1) (by rintro p rfl; exact h0.2 cell' hc')
    rw [Set.image_singleton] at this
    rw [e2]
    exact this
  choose f hf hd using hi
  have hb := fun i : Fin c.sites.length => crystalPoints_cells hns hns' hA c.ops {c.sites[i]}
  refine ⟨cell, cell', hc, hc', A, strain_of_cells hns hx hA, Equiv.sigmaCongr (finCongr hl) fun i => ((hf i).comp (hb i)).equiv, ?_⟩
  rintro ⟨i, p, hp⟩ ⟨j, q, hq⟩
  exact two_moved (hd i _ ((hb i).mapsTo hp)) (hd j _ ((hb j).mapsTo hq))

end

end Amd
