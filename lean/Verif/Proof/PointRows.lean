import Verif.Proof.PddFacts
import Verif.Spec.Symmetry
import Mathlib.Analysis.InnerProductSpace.PiL2

/-! Helper lemmas: neighbour rows of point sets, symmetries, perturbations. -/

set_option linter.unusedSectionVars false

namespace Amd

variable {D : ℕ}

theorem eucl_eq_zero {p q : Pt D ℝ} : eucl p q = 0 ↔ p = q := by
  unfold eucl sqDist
  rw [Real.sqrt_eq_zero (Finset.sum_nonneg fun j _ => sq_nonneg _),
    Finset.sum_eq_zero_iff_of_nonneg fun j _ => sq_nonneg _]
  constructor
  · intro h
    funext j
    have := h j (Finset.mem_univ _)
    rw [sq_eq_zero_iff, sub_eq_zero] at this
    exact this
  · rintro rfl j _
    simp

theorem IsPointRow.unique {P : Set (Pt D ℝ)} {p : Pt D ℝ} {k : ℕ}
    {r r' : List ℝ} (h : IsPointRow P p k r) (h' : IsPointRow P p k r') : r = r' :=
  h.2.unique h'.2 (h.1.trans h'.1.symm)

/-- For distinct sites, rows over sites and over points are the same. -/
theorem isPointRow_of_neighbourRow {motif : List (Pt D ℝ)} {cell : Fin D → Pt D ℝ}
    (hinj : Function.Injective (sitePos motif cell)) {i : Fin motif.length} {k : ℕ} {r : List ℝ}
    (h : IsNeighbourRow motif cell i k r) : IsPointRow (periodicPoints motif cell) motif[i] k r := by
  refine ⟨h.1, h.2.equiv (Equiv.ofBijective (fun s => ⟨sitePos motif cell s.1, ⟨s.1, rfl⟩, ?_⟩) ⟨?_, ?_⟩) ?_⟩
  · intro he
    apply s.2
    apply hinj
    rw [he, sitePos_zero]
  · intro s t hst
    exact Subtype.ext (hinj (congrArg Subtype.val hst))
  · rintro ⟨q, ⟨s, rfl⟩, hq⟩
    refine ⟨⟨s, ?_⟩, rfl⟩
    rintro rfl
    exact hq (sitePos_zero motif cell i)
  · intro s
    rfl

theorem IsPointRow.symm_image {P : Set (Pt D ℝ)} {T : Pt D ℝ → Pt D ℝ} (hT : IsSymmetry P T) {p : Pt D ℝ} {k : ℕ}
    {r : List ℝ} (h : IsPointRow P p k r) : IsPointRow P (T p) k r := by
  have hinj : Function.Injective T := by
    intro a b hab
    have := hT.isometry a b
    rw [hab, eucl_eq_zero.mpr rfl] at this
    exact eucl_eq_zero.mp this.symm
  refine ⟨h.1, h.2.equiv (Equiv.ofBijective (fun q => ⟨T q.1, hT.maps _ q.2.1, ?_⟩) ⟨?_, ?_⟩) ?_⟩
  · intro he
    exact q.2.2 (hinj he)
  · intro s t hst
    exact Subtype.ext (hinj (congrArg Subtype.val hst))
  · rintro ⟨q, hq, hne⟩
    obtain ⟨q', h', rfl⟩ := hT.onto q hq
    refine ⟨⟨q', h', ?_⟩, rfl⟩
    rintro rfl
    exact hne rfl
  · intro s
    exact hT.isometry _ _

theorem isSymmetry_of_period {P : Set (Pt D ℝ)} {t : Pt D ℝ} (ht : t ∈ periods P) : IsSymmetry P (· + t) := by
  refine ⟨?_, fun q hq => (ht q).mp hq, ?_⟩
  · intro p q
    unfold eucl sqDist
    simp
  · intro q hq
    refine ⟨q + -t, (periods_neg ht q).mp hq, by simp⟩

/-! ### Cells -/

/-- The mean over the motif of an entry of the neighbour rows does not depend on the description. -/
theorem mean_rows_eq {motif motif' : List (Pt D ℝ)} {cell cell' : Fin D → Pt D ℝ}
    (hinj : Function.Injective (sitePos motif cell)) (hinj' : Function.Injective (sitePos motif' cell'))
    (hP : periodicPoints motif cell = periodicPoints motif' cell') (hne : motif ≠ []) (hne' : motif' ≠ []) {k : ℕ}
    {R : Fin motif.length → List ℝ} (hR : ∀ i, IsNeighbourRow motif cell i k (R i))
    {R' : Fin motif'.length → List ℝ} (hR' : ∀ i, IsNeighbourRow motif' cell' i k (R' i)) (j : ℕ) :
    (∑ i, (R i).getD j 0) / motif.length = (∑ i, (R' i).getD j 0) / motif'.length := by
  classical
  set P := periodicPoints motif cell with hPd
  -- the row of a point of the set
  let g : Pt D ℝ → ℝ := fun p => if h : ∃ r, IsPointRow P p k r then (Classical.choose h).getD j 0 else 0
  have hg : ∀ p r, IsPointRow P p k r → g p = r.getD j 0 := by
    intro p r hr
    have hex : ∃ r, IsPointRow P p k r := ⟨r, hr⟩
    simp only [g, dif_pos hex]
    rw [(Classical.choose_spec hex).unique hr]
  have e1 : ∀ i : Fin motif.length, g motif[i] = (R i).getD j 0 := fun i =>
    hg _ _ (isPointRow_of_neighbourRow hinj (hR i))
  have e2 : ∀ i : Fin motif'.length, g motif'[i] = (R' i).getD j 0 := fun i =>
    hg _ _ (hP ▸ isPointRow_of_neighbourRow hinj' (hR' i))
  have hmain := mean_eq_of_same_points hinj hinj' hP hne hne' g (by
    intro p q hpq hp
    -- every point of the set has a row
    obtain ⟨s, rfl⟩ := hp
    have hrow : IsPointRow P (sitePos motif cell s) k (R s.1) := by
      rw [sitePos_eq]
      exact (isPointRow_of_neighbourRow hinj (hR s.1)).symm_image
        (isSymmetry_of_period (latVec_mem_periods motif cell s.2))
    have hrow' := hrow.symm_image (isSymmetry_of_period (periods_neg hpq))
    have : sitePos motif cell s + -(sitePos motif cell s - q) = q := by abel
    simp only [this] at hrow'
    rw [hg _ _ hrow, hg _ _ hrow'])
  simp only [e1, e2] at hmain
  exact hmain

/-! ### Asymmetric units -/

theorem isAsymUnit_sum {motif : List (Pt D ℝ)} {cell : Fin D → Pt D ℝ}
    (hinj : Function.Injective (sitePos motif cell)) {inds : List (Fin motif.length)} {mult : List ℕ}
    (h : IsAsymUnit motif cell inds mult) {k : ℕ} {R : Fin motif.length → List ℝ}
    (hR : ∀ i, IsNeighbourRow motif cell i k (R i)) (j : ℕ) :
    (List.zipWith (fun (n : ℕ) i => (n : ℝ) * (R i).getD j 0) mult inds).sum = ∑ i, (R i).getD j 0 := by
  classical
  obtain ⟨orb, hm, hT⟩ := h
  have hrow : ∀ i, R i = R inds[orb i] := by
    intro i
    obtain ⟨T, hsym, hTi⟩ := hT i
    have h1 := (isPointRow_of_neighbourRow hinj (hR i)).symm_image hsym
    rw [hTi] at h1
    exact h1.unique (isPointRow_of_neighbourRow hinj (hR inds[orb i]))
  have e1 : List.zipWith (fun (n : ℕ) i => (n : ℝ) * (R i).getD j 0) mult inds =
      List.ofFn fun a : Fin inds.length =>
        ((Finset.univ.filter fun i => orb i = a).card : ℝ) * (R inds[a]).getD j 0 := by
    apply List.ext_getElem
    · simp [hm]
    · intro a h1 h2
      simp [hm]
  rw [e1, List.sum_ofFn]
  rw [← Finset.sum_fiberwise Finset.univ orb fun i => (R i).getD j 0]
  refine Finset.sum_congr rfl fun a _ => ?_
  rw [Finset.sum_congr rfl (g := fun _ => (R inds[a]).getD j 0), Finset.sum_const, nsmul_eq_mul]
  intro i hi
  rw [Finset.mem_filter] at hi
  rw [hrow i]
  simp only [hi.2]

theorem isAsymUnit_mult {motif : List (Pt D ℝ)} {cell : Fin D → Pt D ℝ} {inds : List (Fin motif.length)}
    {mult : List ℕ} (h : IsAsymUnit motif cell inds mult) :
    (mult.map fun n : ℕ => (n : ℝ)).sum = motif.length := by
  classical
  obtain ⟨orb, hm, -⟩ := h
  rw [hm, List.map_map, ← List.ofFn_eq_map, List.sum_ofFn]
  have := Finset.sum_fiberwise Finset.univ orb fun _ => (1 : ℝ)
  simp only [Finset.sum_const, nsmul_eq_mul, mul_one, Finset.card_univ, Fintype.card_fin] at this
  exact this

/-! ### Perturbation of the motif -/

theorem eucl_add_right (p q t : Pt D ℝ) : eucl (p + t) (q + t) = eucl p q := by
  unfold eucl sqDist
  simp

/-- Moving motif points by at most `ε` moves the entries of neighbour rows by at most `2 ε`. -/
theorem neighbourRow_perturb {motif motif' : List (Pt D ℝ)} {cell : Fin D → Pt D ℝ} {ε : ℝ}
    (hl : motif.length = motif'.length) (hε : ∀ i : Fin motif.length, eucl motif[i] motif'[Fin.cast hl i] ≤ ε)
    {k : ℕ} {i : Fin motif.length} {r r' : List ℝ} (h : IsNeighbourRow motif cell i k r)
    (h' : IsNeighbourRow motif' cell (Fin.cast hl i) k r') :
    ∀ j, j < k → |r.getD j 0 - r'.getD j 0| ≤ 2 * ε := by
  -- rows of the moved set over the sites of the original one
  have hrow : IsKNearest (fun s : {s : Site motif.length D // s ≠ (i, 0)} =>
      eucl motif'[Fin.cast hl i] (sitePos motif' cell (Fin.cast hl s.1.1, s.1.2))) r' := by
    let e : Site motif.length D ≃ Site motif'.length D := (finCongr hl).prodCongr (Equiv.refl _)
    have he : ∀ s : Site motif.length D, (e s ≠ (Fin.cast hl i, 0)) ↔ s ≠ (i, 0) := by
      intro s
      have : e (i, 0) = (Fin.cast hl i, 0) := rfl
      rw [← this, e.injective.ne_iff]
    refine h'.2.equiv (e.subtypeEquiv fun s => (he s).symm).symm ?_
    rintro ⟨s, hs⟩
    rfl
  have hdist : ∀ s : Site motif.length D,
      |eucl motif'[Fin.cast hl i] (sitePos motif' cell (Fin.cast hl s.1, s.2)) -
        eucl motif[i] (sitePos motif cell s)| ≤ 2 * ε := by
    intro s
    have h1 := hε i
    have h2 : eucl (sitePos motif cell s) (sitePos motif' cell (Fin.cast hl s.1, s.2)) ≤ ε := by
      rw [sitePos_eq, sitePos_eq, eucl_add_right]
      exact hε s.1
    rw [abs_le]
    have t1 := eucl_triangle motif'[Fin.cast hl i] motif[i] (sitePos motif' cell (Fin.cast hl s.1, s.2))
    have t2 := eucl_triangle motif[i] (sitePos motif cell s) (sitePos motif' cell (Fin.cast hl s.1, s.2))
    have t3 := eucl_triangle motif[i] motif'[Fin.cast hl i] (sitePos motif cell s)
    have t4 := eucl_triangle motif'[Fin.cast hl i] (sitePos motif' cell (Fin.cast hl s.1, s.2)) (sitePos motif cell s)
    rw [eucl_comm motif'[Fin.cast hl i] motif[i]] at t1
    rw [eucl_comm (sitePos motif' cell (Fin.cast hl s.1, s.2))] at t4
    constructor <;> linarith
  intro j hj
  have hj1 : j < r.length := by rw [h.1]; exact hj
  have hj2 : j < r'.length := by rw [h'.1]; exact hj
  rw [List.getD_eq_getElem _ _ hj1, List.getD_eq_getElem _ _ hj2]
  have a1 := h.2.getElem_le hrow (η := 2 * ε) (fun s => by have := abs_le.mp (hdist s.1); linarith [this.2]) j hj1 hj2
  have a2 := hrow.getElem_le h.2 (η := 2 * ε) (fun s => by have := abs_le.mp (hdist s.1); linarith [this.1]) j hj2 hj1
  rw [abs_le]
  constructor <;> linarith

end Amd
