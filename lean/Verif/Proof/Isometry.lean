import Verif.Proof.PointRows
import Verif.Spec.Transport
import Mathlib.Analysis.Convex.StrictConvexBetween
import Mathlib.Analysis.Convex.Uniform
import Mathlib.Analysis.InnerProductSpace.Convex

/-! Isometric periodic sets: isometries are affine, and rows of distances are distributed in the same way. -/

set_option linter.unusedSectionVars false

namespace Amd

variable {D : ℕ}

/-- A map that preserves distances is affine. -/
theorem isometry_affine {T : Pt D ℝ → Pt D ℝ} (hT : ∀ p q, eucl (T p) (T q) = eucl p q) : ∃ (R : Pt D ℝ →ₗ[ℝ] Pt D ℝ) (v : Pt D ℝ), ∀ p, T p = R p + v := by
  let f : EuclideanSpace ℝ (Fin D) → EuclideanSpace ℝ (Fin D) := fun x => WithLp.toLp 2 (T (WithLp.ofLp x))
  have hf : Isometry f := Isometry.of_dist_eq fun x y => by
    have := hT (WithLp.ofLp x) (WithLp.ofLp y)
    rw [eucl_eq_dist, eucl_eq_dist] at this
    exact this
  let A := hf.affineIsometryOfStrictConvexSpace
  let e := WithLp.linearEquiv 2 ℝ (Fin D → ℝ)
  refine ⟨e.toLinearMap ∘ₗ A.linear ∘ₗ e.symm.toLinearMap, T 0, fun p => ?_⟩
  have h1 : A (WithLp.toLp 2 p) = A.linear (WithLp.toLp 2 p) + A (WithLp.toLp 2 0) := by
    have := A.toAffineMap.map_vadd (WithLp.toLp 2 0) (WithLp.toLp 2 p)
    simpa using this
  have h2 := congrArg WithLp.ofLp h1
  exact h2

theorem IsPointRow.image {P : Set (Pt D ℝ)} {T : Pt D ℝ → Pt D ℝ} (hT : ∀ p q, eucl (T p) (T q) = eucl p q) {p : Pt D ℝ} {k : ℕ}
    {r : List ℝ} (h : IsPointRow P p k r) : IsPointRow (T '' P) (T p) k r := by
  have hinj : Function.Injective T := by
    intro a b hab
    have := hT a b
    rw [hab, eucl_eq_zero.mpr rfl] at this
    exact eucl_eq_zero.mp this.symm
  refine ⟨h.1, h.2.equiv (Equiv.ofBijective (fun q => ⟨T q.1, ⟨_, q.2.1, rfl⟩, ?_⟩) ⟨?_, ?_⟩) ?_⟩
  · intro he
    exact q.2.2 (hinj he)
  · intro s t hst
    exact Subtype.ext (hinj (congrArg Subtype.val hst))
  · rintro ⟨_, ⟨q, hq, rfl⟩, hne⟩
    exact ⟨⟨q, hq, fun he => hne (by rw [he])⟩, rfl⟩
  · intro s
    exact hT _ _

theorem sitePos_image {motif : List (Pt D ℝ)} {cell : Fin D → Pt D ℝ} (R : Pt D ℝ →ₗ[ℝ] Pt D ℝ) (v : Pt D ℝ) {T : Pt D ℝ → Pt D ℝ} (hTR : ∀ p, T p = R p + v)
    (s : Site (motif.map T).length D) :
    sitePos (motif.map T) (fun i => R (cell i)) s = T (sitePos motif cell (Fin.cast (by simp) s.1, s.2)) := by
  have e : ∀ (m : List (Pt D ℝ)) (c : Fin D → Pt D ℝ) (s : Site m.length D), sitePos m c s = m[s.1] + ∑ i, (s.2 i : ℝ) • c i := by
    intro m c s
    funext j
    simp [sitePos, Finset.sum_apply]
  rw [e, e, hTR, map_add, map_sum]
  simp only [map_smul, Fin.getElem_fin, List.getElem_map, hTR, Fin.val_cast]
  abel

/-- Rows of distances of isometric periodic sets: the mean over the motif of any function of the rows is the same. -/
theorem mean_rows_isometry {motif motif' : List (Pt D ℝ)} {cell cell' : Fin D → Pt D ℝ} {T : Pt D ℝ → Pt D ℝ}
    (hT : ∀ p q, eucl (T p) (T q) = eucl p q)
    (hinj : Function.Injective (sitePos motif cell)) (hinj' : Function.Injective (sitePos motif' cell'))
    (hP : periodicPoints motif' cell' = T '' periodicPoints motif cell) (hne : motif ≠ []) (hne' : motif' ≠ []) {k : ℕ}
    {R : Fin motif.length → List ℝ} (hR : ∀ i, IsNeighbourRow motif cell i k (R i))
    {R' : Fin motif'.length → List ℝ} (hR' : ∀ i, IsNeighbourRow motif' cell' i k (R' i)) (φ : List ℝ → ℝ) :
    (∑ i, φ (R i)) / motif.length = (∑ i, φ (R' i)) / motif'.length := by
  classical
  obtain ⟨A, v, hA⟩ := isometry_affine hT
  have hTi : Function.Injective T := by
    intro a b hab
    have := hT a b
    rw [hab, eucl_eq_zero.mpr rfl] at this
    exact eucl_eq_zero.mp this.symm
  set P := periodicPoints motif' cell' with hPd
  let g : Pt D ℝ → ℝ := fun p => if h : ∃ r, IsPointRow P p k r then φ (Classical.choose h) else 0
  have hg : ∀ p r, IsPointRow P p k r → g p = φ r := by
    intro p r hr
    have hex : ∃ r, IsPointRow P p k r := ⟨r, hr⟩
    simp only [g, dif_pos hex]
    rw [(Classical.choose_spec hex).unique hr]
  have e1 : ∀ i : Fin motif'.length, g motif'[i] = φ (R' i) := fun i => hg _ _ (isPointRow_of_neighbourRow hinj' (hR' i))
  have e2 : ∀ i : Fin motif.length, g (T motif[i]) = φ (R i) := fun i =>
    hg _ _ (by rw [hP]; exact (isPointRow_of_neighbourRow hinj (hR i)).image hT)
  have hs := sitePos_image (motif := motif) (cell := cell) A v hA
  have hinjT : Function.Injective (sitePos (motif.map T) (fun i => A (cell i))) := by
    intro s t hst
    rw [hs, hs] at hst
    have := hinj (hTi hst)
    rw [Prod.mk.injEq] at this
    exact Prod.ext (Fin.ext (by simpa using congrArg Fin.val this.1)) this.2
  have hPT : P = periodicPoints (motif.map T) (fun i => A (cell i)) := by
    rw [hP]
    ext q
    constructor
    · rintro ⟨_, ⟨s, rfl⟩, rfl⟩
      exact ⟨(Fin.cast (by simp) s.1, s.2), by rw [hs]; rfl⟩
    · rintro ⟨s, rfl⟩
      exact ⟨_, ⟨_, rfl⟩, (hs s).symm⟩
  have hmain := mean_eq_of_same_points hinj' hinjT hPT hne' (by simpa using hne) g (by
    intro p q hpq hp
    obtain ⟨s, rfl⟩ := hp
    have hrow : IsPointRow P (sitePos motif' cell' s) k (R' s.1) := by
      rw [sitePos_eq]
      exact (isPointRow_of_neighbourRow hinj' (hR' s.1)).symm_image
        (isSymmetry_of_period (latVec_mem_periods motif' cell' s.2))
    have hrow' := hrow.symm_image (isSymmetry_of_period (periods_neg hpq))
    have : sitePos motif' cell' s + -(sitePos motif' cell' s - q) = q := by abel
    simp only [this] at hrow'
    rw [hg _ _ hrow, hg _ _ hrow'])
  simp only [e1] at hmain
  rw [hmain]
  have hl : (motif.map T).length = motif.length := by simp
  have : ∑ i : Fin (motif.map T).length, g (motif.map T)[i] = ∑ i : Fin motif.length, φ (R i) := by
    rw [← Fintype.sum_equiv (finCongr hl.symm) (fun i => φ (R i)) (fun i => g (motif.map T)[i])]
    intro i
    rw [← e2 i]
    simp
  rw [this, hl]

/-- The sum over an asymmetric unit of any function of the rows. -/
theorem isAsymUnit_sum_fun {motif : List (Pt D ℝ)} {cell : Fin D → Pt D ℝ}
    (hinj : Function.Injective (sitePos motif cell)) {inds : List (Fin motif.length)} {mult : List ℕ}
    (h : IsAsymUnit motif cell inds mult) {k : ℕ} {R : Fin motif.length → List ℝ}
    (hR : ∀ i, IsNeighbourRow motif cell i k (R i)) (φ : List ℝ → ℝ) :
    (List.zipWith (fun i (n : ℕ) => (n : ℝ) * φ (R i)) inds mult).sum = ∑ i, φ (R i) := by
  classical
  obtain ⟨orb, hm, hT⟩ := h
  have hrow : ∀ i, R i = R inds[orb i] := by
    intro i
    obtain ⟨T, hsym, hTi⟩ := hT i
    have h1 := (isPointRow_of_neighbourRow hinj (hR i)).symm_image hsym
    rw [hTi] at h1
    exact h1.unique (isPointRow_of_neighbourRow hinj (hR inds[orb i]))
  have e1 : List.zipWith (fun i (n : ℕ) => (n : ℝ) * φ (R i)) inds mult =
      List.ofFn fun a : Fin inds.length => ((Finset.univ.filter fun i => orb i = a).card : ℝ) * φ (R inds[a]) := by
    apply List.ext_getElem
    · simp [hm]
    · intro a h1 h2
      simp [hm]
  rw [e1, List.sum_ofFn]
  rw [← Finset.sum_fiberwise Finset.univ orb fun i => φ (R i)]
  refine Finset.sum_congr rfl fun a _ => ?_
  rw [Finset.sum_congr rfl (g := fun _ => φ (R inds[a])), Finset.sum_const, nsmul_eq_mul]
  intro i hi
  rw [Finset.mem_filter] at hi
  rw [hrow i]
  simp only [hi.2]

theorem isSymmetry_id (P : Set (Pt D ℝ)) : IsSymmetry P id := ⟨fun _ _ => rfl, fun _ h => h, fun q h => ⟨q, h, rfl⟩⟩

/-- The whole motif is an asymmetric unit. -/
theorem isAsymUnit_full (motif : List (Pt D ℝ)) (cell : Fin D → Pt D ℝ) :
    IsAsymUnit motif cell (List.finRange motif.length) (List.replicate motif.length 1) := by
  have hl : (List.finRange motif.length).length = motif.length := by simp
  refine ⟨fun i => Fin.cast hl.symm i, ?_, fun i => ⟨id, isSymmetry_id _, ?_⟩⟩
  · refine List.ext_getElem (by simp) fun m h1 h2 => ?_
    rw [List.getElem_replicate, List.getElem_map, List.getElem_finRange]
    have hm : m < motif.length := by simpa using h1
    have : (Finset.univ.filter fun i : Fin motif.length => Fin.cast hl.symm i = (⟨m, by simpa using hm⟩ : Fin (List.finRange motif.length).length)) = {⟨m, hm⟩} := by
      ext i
      simp [Fin.ext_iff]
    rw [eq_comm, Finset.card_eq_one]
    exact ⟨_, this⟩
  · simp

theorem weightAt_perm {p q : List (PRow ℝ)} (h : p.Perm q) (x : List ℝ) : weightAt p x = weightAt q x := by
  unfold weightAt
  exact ((h.filter _).map _).sum_eq

theorem weightAt_rows {ι : Type} {f : ι → List ℝ} {m : ℝ} (x : List ℝ) : ∀ {inds : List ι} {mult : List ℕ} {rows : List (PRow ℝ)},
    List.Forall₂ (fun (u : ι × ℕ) (r : PRow ℝ) => r.weight = (u.2 : ℝ) / m ∧ r.dists = f u.1) (inds.zip mult) rows →
    weightAt rows x = (List.zipWith (fun i (n : ℕ) => (n : ℝ) * (open Classical in if f i = x then 1 else 0)) inds mult).sum / m
  | [], mult, rows, h => by
    rw [List.zip_nil_left, List.forall₂_nil_left_iff] at h
    subst h
    simp [weightAt]
  | i :: inds, [], rows, h => by
    rw [List.zip_nil_right, List.forall₂_nil_left_iff] at h
    subst h
    simp [weightAt]
  | i :: inds, n :: mult, rows, h => by
    rw [List.zip_cons_cons, List.forall₂_cons_left_iff] at h
    obtain ⟨r, rows', ⟨h1, h2⟩, h3, rfl⟩ := h
    have ih := weightAt_rows x h3
    unfold weightAt at ih ⊢
    rw [List.zipWith_cons_cons, List.sum_cons, add_div, ← ih]
    simp only [List.filter_cons]
    by_cases hx : f i = x
    · rw [if_pos (by simpa [h2] using hx), if_pos hx]
      simp [h1]
    · rw [if_neg (by simpa [h2] using hx), if_neg hx]
      simp

end Amd
