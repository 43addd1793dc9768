import Verif.Proof.CouplingEmd
import Verif.Proof.Isometry
import Verif.Spec.Repeated

/-! Helper lemmas: periodic sets that list points more than once. -/

namespace Amd

variable {D : ℕ} {S S' : PeriodicSet D}

theorem isometry_injective {T : Pt D ℝ → Pt D ℝ} (hT : ∀ p q, eucl (T p) (T q) = eucl p q) : Function.Injective T := by
  intro a b hab
  have := hT a b
  rw [hab, eucl_eq_zero.mpr rfl] at this
  exact eucl_eq_zero.mp this.symm

theorem isometry_surjective {T : Pt D ℝ → Pt D ℝ} (hT : ∀ p q, eucl (T p) (T q) = eucl p q) : Function.Surjective T := by
  obtain ⟨R, v, hR⟩ := isometry_affine hT
  have hi : Function.Injective R := by
    intro a b hab
    exact isometry_injective hT (by rw [hR, hR, hab])
  intro q
  obtain ⟨p, hp⟩ := (LinearMap.injective_iff_surjective.1 hi) (q - v)
  exact ⟨p, by rw [hR, hp, sub_add_cancel]⟩

theorem finite_sitesAt (hD : 0 < D) (h : NonSingular S.cell) (p : Pt D ℝ) : Finite {s : Site S.motif.length D // sitePos S.motif S.cell s = p} := by
  refine ((siteBall_finite (motif := S.motif) hD h p 0).subset ?_).to_subtype
  intro s hs
  have hs : sitePos S.motif S.cell s = p := hs
  show eucl p (sitePos S.motif S.cell s) ≤ 0
  rw [hs, eucl_eq_zero.mpr rfl]

/-- A map that carries one set to another comes with a pairing of sites, in which two given sites at corresponding points can be partners. -/
theorem Carries.pairing (hD : 0 < D) (h : NonSingular S.cell) (h' : NonSingular S'.cell) {T : Pt D ℝ → Pt D ℝ} (hT : Carries T S S') (s₀ : Site S.motif.length D)
    (t₀ : Site S'.motif.length D) (h₀ : sitePos S'.motif S'.cell t₀ = T (sitePos S.motif S.cell s₀)) :
    ∃ φ : Site S.motif.length D ≃ Site S'.motif.length D, (∀ s, sitePos S'.motif S'.cell (φ s) = T (sitePos S.motif S.cell s)) ∧ φ s₀ = t₀ := by
  classical
  have hb : Function.Bijective T := ⟨isometry_injective hT.isometry, isometry_surjective hT.isometry⟩
  let τ := Equiv.ofBijective T hb
  have hc : ∀ p, Nonempty ({s // sitePos S.motif S.cell s = p} ≃ {t // sitePos S'.motif S'.cell t = τ p}) := by
    intro p
    have := finite_sitesAt hD h p
    have := finite_sitesAt hD h' (τ p)
    exact Finite.card_eq.1 (hT.times p).symm
  let e := fun p => Classical.choice (hc p)
  let φ : Site S.motif.length D ≃ Site S'.motif.length D :=
    (Equiv.sigmaFiberEquiv (sitePos S.motif S.cell)).symm.trans ((Equiv.sigmaCongr τ fun p => e p).trans (Equiv.sigmaFiberEquiv (sitePos S'.motif S'.cell)))
  have hφ : ∀ s, sitePos S'.motif S'.cell (φ s) = T (sitePos S.motif S.cell s) := fun s => (e (sitePos S.motif S.cell s) ⟨s, rfl⟩).2
  refine ⟨φ.trans (Equiv.swap (φ s₀) t₀), fun s => ?_, by simp⟩
  have hpos : ∀ t, sitePos S'.motif S'.cell (Equiv.swap (φ s₀) t₀ t) = sitePos S'.motif S'.cell t := by
    intro t
    have h1 : sitePos S'.motif S'.cell (φ s₀) = sitePos S'.motif S'.cell t₀ := by rw [hφ, h₀]
    rw [Equiv.swap_apply_def]
    split_ifs with h2 h3
    · rw [h2, h1]
    · rw [h3, h1]
    · rfl
  rw [Equiv.trans_apply, hpos, hφ]

theorem Carries.row_eq (hD : 0 < D) (h : NonSingular S.cell) (h' : NonSingular S'.cell) {T : Pt D ℝ → Pt D ℝ} (hT : Carries T S S') {i : Fin S.motif.length} {j : Fin S'.motif.length}
    (hij : T S.motif[i] = S'.motif[j]) {k : ℕ} {r r' : List ℝ} (hr : IsNeighbourRow S.motif S.cell i k r) (hr' : IsNeighbourRow S'.motif S'.cell j k r') : r = r' := by
  obtain ⟨φ, hφ, h0⟩ := hT.pairing hD h h' (i, 0) (j, 0) (by rw [sitePos_zero, sitePos_zero, hij])
  have := siteRow_almost (δ := 0) φ (fun s t => by rw [hφ, hφ, hT.isometry, sub_self, abs_zero]) (i, 0) hr (r' := r') (by rw [h0]; exact hr')
  refine List.ext_getElem (hr.1.trans hr'.1.symm) fun n h1 h2 => ?_
  have h3 := this n (by rw [← hr.1]; exact h1)
  rw [List.getD_eq_getElem _ _ h1, List.getD_eq_getElem _ _ h2] at h3
  exact sub_eq_zero.1 (abs_eq_zero.1 (le_antisymm h3 (abs_nonneg _)))

theorem IsometricListed.almost (hD : 0 < D) (h : NonSingular S.cell) (h' : NonSingular S'.cell) (hne : S.motif ≠ []) (hiso : IsometricListed S S') :
    AlmostIsometricListed 0 S S' := by
  obtain ⟨T, hT⟩ := hiso
  let s₀ : Site S.motif.length D := (⟨0, List.length_pos_iff.2 hne⟩, 0)
  have hpos : 0 < timesListed S (sitePos S.motif S.cell s₀) := by
    have := finite_sitesAt (S := S) hD h (sitePos S.motif S.cell s₀)
    have : Nonempty {s : Site S.motif.length D // sitePos S.motif S.cell s = sitePos S.motif S.cell s₀} := ⟨⟨s₀, rfl⟩⟩
    exact Nat.card_pos
  rw [← hT.times] at hpos
  obtain ⟨⟨t₀, ht₀⟩⟩ := (Nat.card_pos_iff.1 hpos).1
  obtain ⟨φ, hφ, -⟩ := hT.pairing hD h h' s₀ t₀ ht₀
  exact ⟨φ, fun s t => by rw [hφ, hφ, hT.isometry, sub_self, abs_zero]⟩

variable {inds : List (Fin S.motif.length)} {mult : List ℕ} {k : ℕ}

theorem IsListing.inds_ne (h : IsListing S inds mult) : inds ≠ [] := by
  rintro rfl
  obtain ⟨orb, -⟩ := h.asym
  exact (orb ⟨0, List.length_pos_iff.2 h.nonempty⟩).elim0

theorem IsListing.sum_fun (hD : 0 < D) (h : IsListing S inds mult) {R : Fin S.motif.length → List ℝ} (hR : ∀ i, IsNeighbourRow S.motif S.cell i k (R i)) (φ : List ℝ → ℝ) :
    (List.zipWith (fun i (n : ℕ) => (n : ℝ) * φ (R i)) inds mult).sum = ∑ i, φ (R i) := by
  classical
  obtain ⟨orb, hm, hT⟩ := h.asym
  have hrow : ∀ i, R i = R inds[orb i] := by
    intro i
    obtain ⟨T, hsym, hTi⟩ := hT i
    exact hsym.row_eq hD h.cell h.cell hTi (hR _) (hR _)
  have e1 : List.zipWith (fun i (n : ℕ) => (n : ℝ) * φ (R i)) inds mult =
      List.ofFn fun a : Fin inds.length => ((Finset.univ.filter fun i => orb i = a).card : ℝ) * φ (R inds[a]) := by
    apply List.ext_getElem
    · simp [hm]
    · intro a h1 h2
      simp [hm]
  rw [e1, List.sum_ofFn]
  rw [← Finset.sum_fiberwise Finset.univ orb fun i => φ (R i)]
  refine Finset.sum_congr rfl fun a _ => ?_
  rw [Finset.sum_congr rfl (g := fun _ => φ (R inds[a])), Finset.sum_const, nsmul_eq_mul]
  intro i hi
  rw [Finset.mem_filter] at hi
  rw [hrow i]
  simp only [hi.2]

theorem IsListing.sum_mult (h : IsListing S inds mult) : (mult.map fun n : ℕ => (n : ℝ)).sum = S.motif.length := by
  classical
  obtain ⟨orb, hm, -⟩ := h.asym
  rw [hm, List.map_map, ← List.ofFn_eq_map, List.sum_ofFn]
  have := Finset.sum_fiberwise Finset.univ orb fun _ => (1 : ℝ)
  simp only [Finset.sum_const, nsmul_eq_mul, mul_one, Finset.card_univ, Fintype.card_fin] at this
  exact this

theorem IsListing.sum (h : IsListing S inds mult) : mult.sum = S.motif.length := by
  have e := h.sum_mult
  have : ((mult.sum : ℕ) : ℝ) = (S.motif.length : ℕ) := by
    rw [← e]
    clear e h
    induction mult with
    | nil => simp
    | cons a l ih => simp [ih]
  exact_mod_cast this

/-! ### Points that are listed once -/

theorem timesListed_once (hinj : Function.Injective (sitePos S.motif S.cell)) (p : Pt D ℝ) :
    timesListed S p = (open Classical in if p ∈ periodicPoints S.motif S.cell then 1 else 0) := by
  classical
  unfold timesListed
  split_ifs with hp
  · obtain ⟨s, hs⟩ := hp
    rw [Nat.card_eq_one_iff_unique]
    exact ⟨⟨fun a b => Subtype.ext (hinj (a.2.trans b.2.symm))⟩, ⟨⟨s, hs⟩⟩⟩
  · rw [Nat.card_eq_zero]
    exact Or.inl ⟨fun s => hp ⟨s.1, s.2⟩⟩

theorem carries_once (hinj : Function.Injective (sitePos S.motif S.cell)) (hinj' : Function.Injective (sitePos S'.motif S'.cell)) {T : Pt D ℝ → Pt D ℝ}
    (hT : ∀ p q, eucl (T p) (T q) = eucl p q) (hP : ∀ p, T p ∈ periodicPoints S'.motif S'.cell ↔ p ∈ periodicPoints S.motif S.cell) : Carries T S S' := by
  classical
  refine ⟨hT, fun p => ?_⟩
  rw [timesListed_once hinj, timesListed_once hinj']
  simp only [hP]

theorem IsSymmetry.mem_iff {P : Set (Pt D ℝ)} {T : Pt D ℝ → Pt D ℝ} (h : IsSymmetry P T) (p : Pt D ℝ) : T p ∈ P ↔ p ∈ P := by
  refine ⟨fun hp => ?_, h.maps p⟩
  obtain ⟨q, hq, he⟩ := h.onto _ hp
  rwa [← isometry_injective h.isometry he]

/-- A pairing of sites at corresponding points. -/
theorem carries_of_pairing {T : Pt D ℝ → Pt D ℝ} (hT : ∀ p q, eucl (T p) (T q) = eucl p q) (φ : Site S.motif.length D ≃ Site S'.motif.length D)
    (hφ : ∀ s, sitePos S'.motif S'.cell (φ s) = T (sitePos S.motif S.cell s)) : Carries T S S' := by
  refine ⟨hT, fun p => ?_⟩
  refine (Nat.card_congr (φ.subtypeEquiv fun s => ?_)).symm
  rw [hφ, (isometry_injective hT).eq_iff]

/-- Without an asymmetric unit the conditions on symmetry are void. -/
theorem isListing_full {motif : List (Pt D ℝ)} {cell : Fin D → Pt D ℝ} (hcell : NonSingular cell) (hne : motif ≠ []) :
    IsListing { motif := motif, cell := cell } (List.finRange motif.length) (List.replicate motif.length 1) := by
  have hl : (List.finRange motif.length).length = motif.length := by simp
  refine ⟨hcell, hne, Or.inr ⟨Or.inl rfl, rfl, rfl⟩, ⟨fun i => Fin.cast hl.symm i, ?_, fun i => ⟨id, ⟨fun _ _ => rfl, fun _ => rfl⟩, by simp⟩⟩,
    fun n hn => by rw [(List.mem_replicate.1 hn).2]; exact one_pos⟩
  refine List.ext_getElem (by simp) fun m h1 h2 => ?_
  rw [List.getElem_replicate, List.getElem_map, List.getElem_finRange]
  have hm : m < motif.length := by simpa using h1
  have : (Finset.univ.filter fun i : Fin motif.length => Fin.cast hl.symm i = (⟨m, by simpa using hm⟩ : Fin (List.finRange motif.length).length)) = {⟨m, hm⟩} := by
    ext i
    simp [Fin.ext_iff]
  rw [eq_comm, Finset.card_eq_one]
  exact ⟨_, this⟩

end Amd
