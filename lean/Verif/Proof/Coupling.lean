import Verif.Proof.Asymptotics
import Verif.Proof.PointRows
import Verif.Spec.Nearby
import Verif.Spec.Transport
import Mathlib.Topology.Order.Compact
import Mathlib.Topology.Sequences

/-! Helper lemmas: a pairing of the points of two periodic sets that changes distances by a bounded amount gives a transport plan between their motifs. -/

namespace Amd

open Filter Topology

variable {D : ℕ}

/-- Integer vectors counted by a function that differs from the length of the lattice vector by a bounded amount have the density of the lattice. -/
theorem tendsto_count (hD : 0 < D) {cell : Fin D → Pt D ℝ} (h : NonSingular cell) {κ : (Fin D → ℤ) → ℝ} {B : ℝ} (hB : 0 ≤ B)
    (hκ : ∀ n, |κ n - √(∑ j, latVec cell n j ^ 2)| ≤ B) :
    (∀ r : ℝ, {n | κ n ≤ r}.Finite) ∧
    Tendsto (fun r : ℕ => (({n | κ n ≤ r}.ncard : ℕ) : ℝ) / (r : ℝ) ^ D) atTop (𝓝 (sphereVol D / |cellDet cell|)) := by
  have hlat : ∀ (n : Fin D → ℤ) (c : ℝ), 0 ≤ c → (n ∈ latBall cell c ↔ √(∑ j, latVec cell n j ^ 2) ≤ c) := by
    intro n c hc
    rw [Real.sqrt_le_left hc]
    rfl
  have hup : ∀ r : ℝ, {n | κ n ≤ r} ⊆ latBall cell (max r 0 + B) := by
    intro r n hn
    rw [hlat _ _ (by positivity)]
    have h1 := abs_le.1 (hκ n)
    have h2 : κ n ≤ r := hn
    have := le_max_left r 0
    linarith [h1.1]
  have hfin : ∀ r : ℝ, {n | κ n ≤ r}.Finite := fun r => (finite_latBall hD h _).subset (hup r)
  refine ⟨hfin, ?_⟩
  have hlo : ∀ r : ℝ, B ≤ r → latBall cell (r - B) ⊆ {n | κ n ≤ r} := by
    intro r hr n hn
    rw [hlat _ _ (by linarith)] at hn
    have h1 := abs_le.1 (hκ n)
    show κ n ≤ r
    linarith [h1.2]
  have hF := tendsto_latBall hD h
  have hcast : Tendsto (fun r : ℕ => (r : ℝ)) atTop atTop := tendsto_natCast_atTop_atTop
  have hshift : ∀ b : ℝ, Tendsto (fun r : ℕ => (Nat.card (latBall cell ((r : ℝ) + b)) : ℝ) / ((r : ℝ) + b) ^ D * (((r : ℝ) + b) / r) ^ D) atTop
      (𝓝 (sphereVol D / |cellDet cell|)) := by
    intro b
    have := (hF.comp (tendsto_atTop_add_const_right _ b hcast)).mul ((tendsto_shift_ratio b hcast).pow D)
    rw [one_pow, mul_one] at this
    exact this
  have hsimp : ∀ b : ℝ, ∀ᶠ r : ℕ in atTop, (Nat.card (latBall cell ((r : ℝ) + b)) : ℝ) / ((r : ℝ) + b) ^ D * (((r : ℝ) + b) / r) ^ D =
      (Nat.card (latBall cell ((r : ℝ) + b)) : ℝ) / (r : ℝ) ^ D := by
    intro b
    filter_upwards [(tendsto_atTop_add_const_right _ b hcast).eventually_gt_atTop 0, hcast.eventually_gt_atTop 0] with r h1 h2
    rw [div_pow]
    have := (pow_pos h1 D).ne'
    have := (pow_pos h2 D).ne'
    field_simp
  refine tendsto_of_tendsto_of_tendsto_of_le_of_le' ((hshift (-B)).congr' (hsimp (-B))) ((hshift B).congr' (hsimp B)) ?_ ?_
  · filter_upwards [hcast.eventually_ge_atTop B] with r hr
    refine div_le_div_of_nonneg_right ?_ (by positivity)
    rw [Nat.card_coe_set_eq, ← sub_eq_add_neg]
    exact_mod_cast Set.ncard_le_ncard (hlo r hr) (hfin r)
  · filter_upwards with r
    refine div_le_div_of_nonneg_right ?_ (by positivity)
    rw [Nat.card_coe_set_eq]
    have h1 := hup (r : ℝ)
    rw [max_eq_left (Nat.cast_nonneg r)] at h1
    exact_mod_cast Set.ncard_le_ncard h1 (finite_latBall hD h _)

/-- Points with labels `u` and `v`, counted in growing finite sets: if every label `u` has the same density, and every label `v`, there is a plan between the uniform distributions of the
labels that only uses pairs of labels of some point. -/
theorem exists_label_plan {m m' : ℕ} (hm : 0 < m) (hm' : 0 < m') {α : Type*} [DecidableEq α] (A : ℕ → Finset α) (u : α → Fin m) (v : α → Fin m') {c c' : ℝ} (hc : 0 < c)
    (w : ℕ → ℝ) (ha : ∀ i, Tendsto (fun r => (((A r).filter fun s => u s = i).card : ℝ) / w r) atTop (𝓝 c))
    (hb : ∀ j, Tendsto (fun r => (((A r).filter fun s => v s = j).card : ℝ) / w r) atTop (𝓝 c')) :
    ∃ g : Fin m → Fin m' → ℝ, IsPlan (fun _ => 1 / (m : ℝ)) (fun _ => 1 / (m' : ℝ)) g ∧ ∀ i j, g i j ≠ 0 → ∃ s, u s = i ∧ v s = j := by
  have hmR : (0 : ℝ) < m := by exact_mod_cast hm
  have hmR' : (0 : ℝ) < m' := by exact_mod_cast hm'
  -- the density of all points
  have hcu : ∀ r, ∑ i, (((A r).filter fun s => u s = i).card : ℝ) = (A r).card := by
    intro r
    rw [← Nat.cast_sum, ← Finset.card_eq_sum_card_fiberwise fun s _ => Finset.mem_coe.2 (Finset.mem_univ (u s))]
  have hcv : ∀ r, ∑ j, (((A r).filter fun s => v s = j).card : ℝ) = (A r).card := by
    intro r
    rw [← Nat.cast_sum, ← Finset.card_eq_sum_card_fiberwise fun s _ => Finset.mem_coe.2 (Finset.mem_univ (v s))]
  have hA : Tendsto (fun r => ((A r).card : ℝ) / w r) atTop (𝓝 (m * c)) := by
    have := tendsto_finsetSum Finset.univ fun i _ => ha i
    simp only [Finset.sum_const, Finset.card_univ, Fintype.card_fin, nsmul_eq_mul, ← Finset.sum_div, hcu] at this
    exact this
  have hA' : Tendsto (fun r => ((A r).card : ℝ) / w r) atTop (𝓝 (m' * c')) := by
    have := tendsto_finsetSum Finset.univ fun i _ => hb i
    simp only [Finset.sum_const, Finset.card_univ, Fintype.card_fin, nsmul_eq_mul, ← Finset.sum_div, hcv] at this
    exact this
  have hcc := tendsto_nhds_unique hA hA'
  have hmc : (m : ℝ) * c ≠ 0 := by positivity
  -- proportions
  let G : ℕ → Fin m → Fin m' → ℝ := fun r i j => (((A r).filter fun s => u s = i ∧ v s = j).card : ℝ) / (A r).card
  have hG : ∀ r, G r ∈ Set.Icc (0 : Fin m → Fin m' → ℝ) 1 := by
    intro r
    refine ⟨fun i j => ?_, fun i j => ?_⟩
    · show (0 : ℝ) ≤ G r i j
      positivity
    · show G r i j ≤ 1
      refine div_le_one_of_le₀ ?_ (Nat.cast_nonneg _)
      exact_mod_cast Finset.card_filter_le _ _
  have hrow : ∀ r i, ∑ j, G r i j = (((A r).filter fun s => u s = i).card : ℝ) / (A r).card := by
    intro r i
    simp only [G]
    rw [← Finset.sum_div]
    congr 1
    rw [← Nat.cast_sum, Finset.card_eq_sum_card_fiberwise (f := v) (t := Finset.univ) fun s _ => Finset.mem_coe.2 (Finset.mem_univ (v s))]
    simp only [Finset.filter_filter]
  have hcol : ∀ r j, ∑ i, G r i j = (((A r).filter fun s => v s = j).card : ℝ) / (A r).card := by
    intro r j
    simp only [G]
    rw [← Finset.sum_div]
    congr 1
    rw [← Nat.cast_sum, Finset.card_eq_sum_card_fiberwise (f := u) (t := Finset.univ) fun s _ => Finset.mem_coe.2 (Finset.mem_univ (u s))]
    simp only [Finset.filter_filter, and_comm]
  have hw : ∀ᶠ r in atTop, w r ≠ 0 := by
    filter_upwards [hA.eventually_ne hmc] with r hr h0
    rw [h0, div_zero] at hr
    exact hr rfl
  have hrlim : ∀ i, Tendsto (fun r => ∑ j, G r i j) atTop (𝓝 (1 / (m : ℝ))) := by
    intro i
    have h1 := (ha i).div hA hmc
    have e : c / (m * c) = 1 / m := by field_simp
    rw [e] at h1
    refine h1.congr' ?_
    filter_upwards [hw] with r hr
    simp only [Pi.div_apply]
    rw [hrow, div_div_div_cancel_right₀ hr]
  have hclim : ∀ j, Tendsto (fun r => ∑ i, G r i j) atTop (𝓝 (1 / (m' : ℝ))) := by
    intro j
    have h1 := (hb j).div hA hmc
    have e : c' / (m * c) = 1 / m' := by
      rw [hcc]
      have : c' ≠ 0 := by
        rintro rfl
        rw [mul_zero] at hcc
        exact hmc hcc
      field_simp
    rw [e] at h1
    refine h1.congr' ?_
    filter_upwards [hw] with r hr
    simp only [Pi.div_apply]
    rw [hcol, div_div_div_cancel_right₀ hr]
  -- a limit point
  obtain ⟨g, hg, φ, hφ, hlim⟩ := (isCompact_Icc (a := (0 : Fin m → Fin m' → ℝ)) (b := 1)).tendsto_subseq hG
  have hij : ∀ i j, Tendsto (fun r => G (φ r) i j) atTop (𝓝 (g i j)) := fun i j =>
    (tendsto_pi_nhds.1 ((tendsto_pi_nhds.1 hlim) i)) j
  refine ⟨g, ⟨fun i j => hg.1 i j, fun i => ?_, fun j => ?_⟩, fun i j hne => ?_⟩
  · exact tendsto_nhds_unique (tendsto_finsetSum Finset.univ fun j _ => hij i j) ((hrlim i).comp hφ.tendsto_atTop)
  · exact tendsto_nhds_unique (tendsto_finsetSum Finset.univ fun i _ => hij i j) ((hclim j).comp hφ.tendsto_atTop)
  · obtain ⟨r, hr⟩ := ((hij i j).eventually_ne hne).exists
    have : ((A (φ r)).filter fun s => u s = i ∧ v s = j).Nonempty := by
      rw [Finset.nonempty_iff_ne_empty]
      intro h0
      apply hr
      show (((A (φ r)).filter fun s => u s = i ∧ v s = j).card : ℝ) / (A (φ r)).card = 0
      rw [h0]
      simp
    obtain ⟨s, hs⟩ := this
    exact ⟨s, (Finset.mem_filter.1 hs).2⟩

theorem card_label {m m' : ℕ} (e : Site m' D ≃ Site m D) {A : Finset (Site m D)} {ν : Site m D → ℝ} {r : ℝ} (hA : ∀ s, s ∈ A ↔ ν s ≤ r) (j : Fin m') :
    (A.filter fun s => (e.symm s).1 = j).card = {n | ν (e (j, n)) ≤ r}.ncard := by
  rw [← Set.ncard_coe_finset]
  have : ((A.filter fun s => (e.symm s).1 = j : Finset (Site m D)) : Set (Site m D)) = (fun n => e (j, n)) '' {n | ν (e (j, n)) ≤ r} := by
    ext s
    simp only [Finset.coe_filter, Set.mem_ofPred_eq, Set.mem_image, hA]
    constructor
    · rintro ⟨h1, h2⟩
      refine ⟨(e.symm s).2, ?_⟩
      have : e (j, (e.symm s).2) = s := by rw [← h2]; exact e.apply_symm_apply s
      rw [this]
      exact ⟨h1, rfl⟩
    · rintro ⟨n, h1, rfl⟩
      exact ⟨h1, by rw [e.symm_apply_apply]⟩
  rw [this, Set.ncard_image_of_injective]
  intro a b hab
  exact congrArg Prod.snd (e.injective hab)

theorem eucl_zero_add_sub (p t : Pt D ℝ) : |eucl 0 (p + t) - √(∑ j, t j ^ 2)| ≤ eucl 0 p := by
  have e : √(∑ j, t j ^ 2) = eucl p (p + t) := by
    unfold eucl sqDist
    congr 1
    exact Finset.sum_congr rfl fun j _ => by simp
  rw [e, abs_le]
  have h1 := eucl_triangle 0 p (p + t)
  have h2 := eucl_triangle p 0 (p + t)
  rw [eucl_comm p 0] at h2
  constructor <;> linarith

/-- The rows of paired sites. -/
theorem siteRow_almost {motif motif' : List (Pt D ℝ)} {cell cell' : Fin D → Pt D ℝ} (φ : Site motif.length D ≃ Site motif'.length D) {δ : ℝ}
    (hδ : ∀ s t, |eucl (sitePos motif' cell' (φ s)) (sitePos motif' cell' (φ t)) - eucl (sitePos motif cell s) (sitePos motif cell t)| ≤ δ) (s : Site motif.length D) {k : ℕ}
    {r r' : List ℝ} (h : IsNeighbourRow motif cell s.1 k r) (h' : IsNeighbourRow motif' cell' (φ s).1 k r') : ∀ j < k, |r.getD j 0 - r'.getD j 0| ≤ δ := by
  -- rows of a site that is not in the first cell
  have shift : ∀ {m : List (Pt D ℝ)} {c : Fin D → Pt D ℝ} (s : Site m.length D) {r : List ℝ}, IsNeighbourRow m c s.1 k r →
      IsKNearest (fun t : {t : Site m.length D // t ≠ s} => eucl (sitePos m c s) (sitePos m c t.1)) r := by
    intro m c s r h
    let e : Site m.length D ≃ Site m.length D := (Equiv.refl _).prodCongr (Equiv.addRight s.2)
    have hadd : ∀ t, sitePos m c (e t) = sitePos m c t + latVec c s.2 := by
      intro t
      have : (e t) = (t.1, t.2 + s.2) := rfl
      rw [this, sitePos_eq, sitePos_eq, latVec_add, add_assoc]
    have he : e (s.1, 0) = s := by
      show (s.1, 0 + s.2) = s
      rw [zero_add]
    refine h.2.equiv (e.subtypeEquiv fun t => by rw [← he, e.injective.ne_iff, he]) fun t => ?_
    show eucl (sitePos m c s) (sitePos m c (e t.1)) = _
    rw [hadd, sitePos_eq m c s, eucl_add_right]
  have hr := shift s h
  have hr' := shift (φ s) h'
  have hrow : IsKNearest (fun t : {t : Site motif.length D // t ≠ s} => eucl (sitePos motif' cell' (φ s)) (sitePos motif' cell' (φ t.1))) r' := by
    refine hr'.equiv (φ.subtypeEquiv fun t => by rw [φ.injective.ne_iff]).symm fun t => ?_
    show eucl _ (sitePos motif' cell' (φ (φ.symm t.1))) = _
    rw [Equiv.apply_symm_apply]
  intro j hj
  have hj1 : j < r.length := by rw [h.1]; exact hj
  have hj2 : j < r'.length := by rw [h'.1]; exact hj
  rw [List.getD_eq_getElem _ _ hj1, List.getD_eq_getElem _ _ hj2]
  have a1 := hr.getElem_le hrow (η := δ) (fun t => by have := abs_le.mp (hδ s t.1); linarith [this.2]) j hj1 hj2
  have a2 := hrow.getElem_le hr (η := δ) (fun t => by have := abs_le.mp (hδ s t.1); linarith [this.1]) j hj2 hj1
  rw [abs_le]
  constructor <;> linarith

/-- A pairing of the sites of two periodic sets that changes no distance by more than `δ` gives a plan between their motifs that pairs motif points with rows of neighbours that differ by
at most `δ`. Several sites may be at the same point. -/
theorem site_plan (hD : 0 < D) {motif motif' : List (Pt D ℝ)} {cell cell' : Fin D → Pt D ℝ} (hcell : NonSingular cell) (hcell' : NonSingular cell') (hne : motif ≠ [])
    (hne' : motif' ≠ []) (φ : Site motif.length D ≃ Site motif'.length D) {δ : ℝ}
    (hδ : ∀ s t, |eucl (sitePos motif' cell' (φ s)) (sitePos motif' cell' (φ t)) - eucl (sitePos motif cell s) (sitePos motif cell t)| ≤ δ) :
    ∃ g : Fin motif.length → Fin motif'.length → ℝ, IsPlan (fun _ => 1 / (motif.length : ℝ)) (fun _ => 1 / (motif'.length : ℝ)) g ∧
      ∀ i j, g i j ≠ 0 → ∀ (k : ℕ) (r r' : List ℝ), IsNeighbourRow motif cell i k r → IsNeighbourRow motif' cell' j k r' → ∀ t < k, |r.getD t 0 - r'.getD t 0| ≤ δ := by
  classical
  have hm : 0 < motif.length := List.length_pos_iff.2 hne
  have hm' : 0 < motif'.length := List.length_pos_iff.2 hne'
  -- balls around the origin
  let ν : Site motif.length D → ℝ := fun s => eucl 0 (sitePos motif cell s)
  let A : ℕ → Finset (Site motif.length D) := fun r => (siteBall_finite (motif := motif) hD hcell 0 (r : ℝ)).toFinset
  have hA : ∀ r s, s ∈ A r ↔ ν s ≤ (r : ℝ) := fun r s => by
    simp only [A, Set.Finite.mem_toFinset]
    rfl
  have hV : 0 < sphereVol D / |cellDet cell| := div_pos (sphereVol_pos D) (abs_pos.2 (cellDet_ne_zero hcell))
  let s₀ : Site motif.length D := (⟨0, hm⟩, 0)
  obtain ⟨g, hg, hsupp⟩ := exists_label_plan hm hm' A (fun s => s.1) (fun s => (φ s).1) hV (fun r => (r : ℝ) ^ D) (c' := sphereVol D / |cellDet cell'|)
    (fun i => by
      have h1 := (tendsto_count hD hcell (κ := fun n => ν (i, n)) (B := eucl 0 motif[i]) (eucl_nonneg _ _) fun n => eucl_zero_add_sub motif[i] (latVec cell n)).2
      refine h1.congr fun r => ?_
      have h2 := card_label (Equiv.refl (Site motif.length D)) (hA r) i
      simp only [Equiv.refl_symm, Equiv.refl_apply] at h2
      rw [← h2]
      congr)
    (fun j => by
      have hb : ∀ n, |ν (φ.symm (j, n)) - √(∑ l, latVec cell' n l ^ 2)| ≤ |δ| + ν s₀ + eucl 0 (sitePos motif' cell' (φ s₀)) + eucl 0 motif'[j] := by
        intro n
        have h1 := abs_le.1 (eucl_zero_add_sub motif'[j] (latVec cell' n))
        set s := φ.symm (j, n) with hs
        have h2 : sitePos motif' cell' (φ s) = motif'[j] + latVec cell' n := by
          rw [hs, Equiv.apply_symm_apply]
          rfl
        have h3 := abs_le.1 (hδ s s₀)
        rw [← h2] at h1
        have t1 := eucl_triangle 0 (sitePos motif' cell' (φ s₀)) (sitePos motif' cell' (φ s))
        have t2 := eucl_triangle (sitePos motif' cell' (φ s)) 0 (sitePos motif' cell' (φ s₀))
        have t3 := eucl_triangle 0 (sitePos motif cell s₀) (sitePos motif cell s)
        have t4 := eucl_triangle (sitePos motif cell s) 0 (sitePos motif cell s₀)
        rw [eucl_comm (sitePos motif' cell' (φ s₀))] at t1
        rw [eucl_comm (sitePos motif' cell' (φ s)) 0] at t2
        rw [eucl_comm (sitePos motif cell s₀)] at t3
        rw [eucl_comm (sitePos motif cell s) 0] at t4
        have hd := le_abs_self δ
        simp only [ν]
        rw [abs_le]
        constructor <;> linarith [h1.1, h1.2, h3.1, h3.2]
      have h0 : 0 ≤ |δ| + ν s₀ + eucl 0 (sitePos motif' cell' (φ s₀)) + eucl 0 motif'[j] := by
        have := abs_nonneg δ
        have := eucl_nonneg 0 (sitePos motif cell s₀)
        have := eucl_nonneg 0 (sitePos motif' cell' (φ s₀))
        have := eucl_nonneg 0 motif'[j]
        simp only [ν]
        linarith
      have h1 := (tendsto_count hD hcell' (κ := fun n => ν (φ.symm (j, n))) h0 hb).2
      refine h1.congr fun r => ?_
      rw [← card_label φ.symm (hA r) j]
      rfl)
  refine ⟨g, hg, fun i j hij k r r' hr hr' => ?_⟩
  obtain ⟨s, rfl, hj⟩ := hsupp i j hij
  subst hj
  exact siteRow_almost φ hδ s hr hr'

/-- The pairing of sites for a pairing of points that are listed once. -/
theorem exists_sitePairing {motif motif' : List (Pt D ℝ)} {cell cell' : Fin D → Pt D ℝ} (hinj : Function.Injective (sitePos motif cell))
    (hinj' : Function.Injective (sitePos motif' cell')) {f : Pt D ℝ → Pt D ℝ} (hf : Set.BijOn f (periodicPoints motif cell) (periodicPoints motif' cell')) :
    ∃ φ : Site motif.length D ≃ Site motif'.length D, ∀ s, sitePos motif' cell' (φ s) = f (sitePos motif cell s) := by
  have hmem : ∀ s, sitePos motif cell s ∈ periodicPoints motif cell := fun s => ⟨s, rfl⟩
  have hφ : ∀ s : Site motif.length D, ∃ t : Site motif'.length D, sitePos motif' cell' t = f (sitePos motif cell s) := fun s => hf.mapsTo (hmem s)
  choose φ₀ hφ₀ using hφ
  have hbij : Function.Bijective φ₀ := by
    constructor
    · intro a b hab
      apply hinj
      apply hf.injOn (hmem a) (hmem b)
      rw [← hφ₀, ← hφ₀, hab]
    · intro t
      obtain ⟨p, ⟨s, rfl⟩, hs⟩ := hf.surjOn (show sitePos motif' cell' t ∈ periodicPoints motif' cell' from ⟨t, rfl⟩)
      exact ⟨s, hinj' ((hφ₀ s).trans hs)⟩
  exact ⟨Equiv.ofBijective φ₀ hbij, hφ₀⟩

/-- A pairing of the points of two periodic sets that changes no distance by more than `δ` gives a plan between their motifs that pairs motif points with rows of neighbours that differ by
at most `δ`. -/
theorem almost_plan (hD : 0 < D) {motif motif' : List (Pt D ℝ)} {cell cell' : Fin D → Pt D ℝ} (hcell : NonSingular cell) (hcell' : NonSingular cell') (hne : motif ≠ [])
    (hne' : motif' ≠ []) (hinj : Function.Injective (sitePos motif cell)) (hinj' : Function.Injective (sitePos motif' cell')) {f : Pt D ℝ → Pt D ℝ}
    (hf : Set.BijOn f (periodicPoints motif cell) (periodicPoints motif' cell')) {δ : ℝ}
    (hδ : ∀ p ∈ periodicPoints motif cell, ∀ q ∈ periodicPoints motif cell, |eucl (f p) (f q) - eucl p q| ≤ δ) :
    ∃ g : Fin motif.length → Fin motif'.length → ℝ, IsPlan (fun _ => 1 / (motif.length : ℝ)) (fun _ => 1 / (motif'.length : ℝ)) g ∧
      ∀ i j, g i j ≠ 0 → ∀ (k : ℕ) (r r' : List ℝ), IsNeighbourRow motif cell i k r → IsNeighbourRow motif' cell' j k r' → ∀ t < k, |r.getD t 0 - r'.getD t 0| ≤ δ := by
  obtain ⟨φ, hφ⟩ := exists_sitePairing hinj hinj' hf
  exact site_plan hD hcell hcell' hne hne' φ fun s t => by rw [hφ, hφ]; exact hδ _ ⟨s, rfl⟩ _ ⟨t, rfl⟩

end Amd
