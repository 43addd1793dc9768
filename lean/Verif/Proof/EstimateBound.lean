import Verif.Proof.Asymptotics

/-! Helper lemmas: counting the points of a periodic set in a ball by volumes. -/

set_option linter.unusedSectionVars false

namespace Amd

open MeasureTheory

variable {D : ℕ}

/-- The cube with side 1 around an integer vector. -/
def unitBox (n : Fin D → ℤ) : Set (Pt D ℝ) := Set.univ.pi fun i => Set.Ico ((n i : ℝ) - 1 / 2) ((n i : ℝ) + 1 / 2)

theorem mem_unitBox {n : Fin D → ℤ} {x : Pt D ℝ} : x ∈ unitBox n ↔ ∀ i, ⌊x i + 1 / 2⌋ = n i := by
  simp only [unitBox, Set.mem_univ_pi, Set.mem_Ico, Int.floor_eq_iff]
  refine forall_congr' fun i => ⟨fun h => ⟨by linarith [h.1], by linarith [h.2]⟩, fun h => ⟨by linarith [h.1], by linarith [h.2]⟩⟩

theorem volume_unitBox (n : Fin D → ℤ) : volume (unitBox n) = 1 := by
  rw [unitBox, Real.volume_pi_Ico]
  apply Finset.prod_eq_one
  intro i _
  rw [show (n i : ℝ) + 1 / 2 - ((n i : ℝ) - 1 / 2) = 1 by ring, ENNReal.ofReal_one]

theorem volume_boxes (F : Finset (Fin D → ℤ)) : volume (⋃ n ∈ F, unitBox n) = F.card := by
  rw [measure_biUnion_finset]
  · rw [Finset.sum_congr rfl fun n _ => volume_unitBox n]
    simp
  · intro n _ n' _ hne
    rw [Function.onFun, Set.disjoint_left]
    intro x hx hx'
    rw [mem_unitBox] at hx hx'
    exact hne (funext fun i => (hx i).symm.trans (hx' i))
  · intro n _
    exact MeasurableSet.univ_pi fun i => measurableSet_Ico

/-- The fractional coordinates of the points within `r` of `p`, measured from `q`. -/
def fracBall (cell : Fin D → Pt D ℝ) (p q : Pt D ℝ) (r : ℝ) : Set (Pt D ℝ) := {x | eucl p (q + fracToCart cell x) ≤ r}

theorem volume_fracBall (hD : 0 < D) {cell : Fin D → Pt D ℝ} (h : NonSingular cell) (p q : Pt D ℝ) {r : ℝ} (hr : 0 ≤ r) :
    volume (fracBall cell p q r) = ENNReal.ofReal (r ^ D * sphereVol D / |cellDet cell|) := by
  have hdet : LinearMap.det (fracToCart cell) ≠ 0 := by rw [det_fracToCart]; exact cellDet_ne_zero h
  have e : fracBall cell p q r = fracToCart cell ⁻¹' ((fun y => y + (q - p)) ⁻¹' euclBall D r) := by
    ext x
    simp only [fracBall, Set.mem_preimage, euclBall, Set.mem_ofPred_eq]
    rw [eucl_comm, eucl, Real.sqrt_le_iff]
    simp only [hr, true_and, sqDist]
    have e : ∀ j, (q + fracToCart cell x) j - p j = (fracToCart cell x + (q - p)) j := by
      intro j; simp only [Pi.add_apply, Pi.sub_apply]; ring
    simp only [e]
  rw [e, Measure.addHaar_preimage_linearMap _ hdet, measure_preimage_add_right, volume_euclBall hD hr, det_fracToCart,
    ← ENNReal.ofReal_mul (abs_nonneg _), abs_inv]
  congr 1
  field_simp

/-- All points of the unit cell are within `ρ` of its centre. -/
def CellRadius (cell : Fin D → Pt D ℝ) (ρ : ℝ) : Prop := ∀ t : Pt D ℝ, (∀ i, |t i| ≤ 1 / 2) → eucl 0 (fracToCart cell t) ≤ ρ

theorem CellRadius.nonneg {cell : Fin D → Pt D ℝ} {ρ : ℝ} (h : CellRadius cell ρ) : 0 ≤ ρ :=
  (eucl_nonneg _ _).trans (h 0 (by intro i; simp))

theorem CellRadius.of_diameter {cell : Fin D → Pt D ℝ} {d : ℝ} (h : ∀ p ∈ closedCell cell, ∀ q ∈ closedCell cell, eucl p q ≤ d) :
    CellRadius cell (d / 2) := by
  intro t ht
  have h1 := h _ ⟨fun i => 1 / 2 - t i, fun i => ⟨by linarith [(abs_le.1 (ht i)).2], by linarith [(abs_le.1 (ht i)).1]⟩, rfl⟩ _
    ⟨fun i => 1 / 2 + t i, fun i => ⟨by linarith [(abs_le.1 (ht i)).1], by linarith [(abs_le.1 (ht i)).2]⟩, rfl⟩
  have e : eucl (fun j => ∑ i, (1 / 2 - t i) * cell i j) (fun j => ∑ i, (1 / 2 + t i) * cell i j) = 2 * eucl 0 (fracToCart cell t) := by
    have e2 : ∀ y : ℝ, 2 * √y = √(4 * y) := by
      intro y
      rw [Real.sqrt_mul (by norm_num), show (4 : ℝ) = 2 ^ 2 by norm_num, Real.sqrt_sq (by norm_num)]
    rw [eucl, eucl, e2]
    congr 1
    unfold sqDist
    rw [Finset.mul_sum]
    apply Finset.sum_congr rfl
    intro j _
    rw [fracToCart_apply]
    have : ∑ i, (1 / 2 - t i) * cell i j - ∑ i, (1 / 2 + t i) * cell i j = -2 * ∑ i, t i * cell i j := by
      rw [← Finset.sum_sub_distrib, Finset.mul_sum]
      exact Finset.sum_congr rfl fun i _ => by ring
    simp only [this, Pi.zero_apply]
    ring
  rw [e] at h1
  linarith

theorem eucl_frac (cell : Fin D → Pt D ℝ) (q x : Pt D ℝ) (n : Fin D → ℤ) :
    eucl (q + latVec cell n) (q + fracToCart cell x) = eucl 0 (fracToCart cell (x - fun i => (n i : ℝ))) := by
  rw [map_sub, fracToCart_int, eucl, eucl]
  congr 1
  unfold sqDist
  apply Finset.sum_congr rfl
  intro j _
  simp only [Pi.add_apply, Pi.sub_apply, Pi.zero_apply]
  ring

theorem eucl_unitBox {cell : Fin D → Pt D ℝ} {ρ : ℝ} (hρ : CellRadius cell ρ) {n : Fin D → ℤ} {x : Pt D ℝ} (hx : x ∈ unitBox n) (q : Pt D ℝ) :
    eucl (q + latVec cell n) (q + fracToCart cell x) ≤ ρ := by
  rw [eucl_frac]
  refine hρ _ fun i => ?_
  have := hx i (Set.mem_univ i)
  rw [Pi.sub_apply, abs_le]
  exact ⟨by linarith [this.1], by linarith [this.2]⟩

theorem card_le_volume (hD : 0 < D) {cell : Fin D → Pt D ℝ} (h : NonSingular cell) {ρ r : ℝ} (hρ : CellRadius cell ρ) (hr : 0 ≤ r) {p q : Pt D ℝ}
    {F : Finset (Fin D → ℤ)} (hF : ∀ n ∈ F, eucl p (q + latVec cell n) ≤ r) : (F.card : ℝ) ≤ (r + ρ) ^ D * sphereVol D / |cellDet cell| := by
  have hr' : 0 ≤ r + ρ := add_nonneg hr hρ.nonneg
  have hsub : (⋃ n ∈ F, unitBox n) ⊆ fracBall cell p q (r + ρ) := by
    intro x hx
    simp only [Set.mem_iUnion] at hx
    obtain ⟨n, hn, hx⟩ := hx
    have h1 := eucl_unitBox hρ hx q
    have h2 := hF n hn
    have h3 := eucl_triangle p (q + latVec cell n) (q + fracToCart cell x)
    change eucl p (q + fracToCart cell x) ≤ r + ρ
    linarith
  have hm := measure_mono (μ := volume) hsub
  have hV := sphereVol_pos D
  rw [volume_boxes, volume_fracBall hD h p q hr', ← ENNReal.ofReal_natCast, ENNReal.ofReal_le_ofReal_iff (by positivity)] at hm
  exact hm

theorem volume_le_card (hD : 0 < D) {cell : Fin D → Pt D ℝ} (h : NonSingular cell) {ρ r : ℝ} (hρ : CellRadius cell ρ) (hr : ρ ≤ r) {p q : Pt D ℝ}
    {F : Finset (Fin D → ℤ)} (hF : ∀ n, eucl p (q + latVec cell n) ≤ r → n ∈ F) : (r - ρ) ^ D * sphereVol D / |cellDet cell| ≤ F.card := by
  have hsub : fracBall cell p q (r - ρ) ⊆ (⋃ n ∈ F, unitBox n) := by
    intro x hx
    have hx' : x ∈ unitBox fun i => ⌊x i + 1 / 2⌋ := mem_unitBox.2 fun i => rfl
    simp only [Set.mem_iUnion]
    refine ⟨_, hF _ ?_, hx'⟩
    have h1 := eucl_unitBox hρ hx' q
    have h2 : eucl p (q + fracToCart cell x) ≤ r - ρ := hx
    have h3 := eucl_triangle p (q + fracToCart cell x) (q + latVec cell fun i => ⌊x i + 1 / 2⌋)
    rw [eucl_comm (q + fracToCart cell x)] at h3
    linarith
  have hm := measure_mono (μ := volume) hsub
  rw [volume_boxes, volume_fracBall hD h p q (by linarith), ← ENNReal.ofReal_natCast, ENNReal.ofReal_le_ofReal_iff (by positivity)] at hm
  exact hm

theorem ncard_siteBall (hD : 0 < D) {motif : List (Pt D ℝ)} {cell : Fin D → Pt D ℝ} (h : NonSingular cell) (p : Pt D ℝ) (r : ℝ) :
    ∃ F : Fin motif.length → Finset (Fin D → ℤ), (∀ i n, n ∈ F i ↔ eucl p (motif[i] + latVec cell n) ≤ r) ∧
      (siteBall motif cell p r).ncard = ∑ i, (F i).card := by
  classical
  have hfin := siteBall_finite (motif := motif) hD h p r
  have hf : ∀ i : Fin motif.length, {n | eucl p (motif[i] + latVec cell n) ≤ r}.Finite := fun i =>
    (hfin.preimage (f := fun n => (i, n)) (fun a _ b _ e => (Prod.mk.inj e).2))
  refine ⟨fun i => (hf i).toFinset, fun i n => by rw [Set.Finite.mem_toFinset]; exact Iff.rfl, ?_⟩
  have e : siteBall motif cell p r = ((Finset.univ.sigma fun i => (hf i).toFinset).map
      (Equiv.sigmaEquivProd (Fin motif.length) (Fin D → ℤ)).toEmbedding : Finset _) := by
    ext ⟨i, n⟩
    simp only [Finset.mem_coe, Finset.mem_map_equiv, Finset.mem_sigma, Finset.mem_univ, true_and, Set.Finite.mem_toFinset]
    exact Iff.rfl
  rw [e, Set.ncard_coe_finset, Finset.card_map, Finset.card_sigma]

theorem ncard_siteBall_le_volume (hD : 0 < D) {motif : List (Pt D ℝ)} {cell : Fin D → Pt D ℝ} (h : NonSingular cell) {ρ r : ℝ} (hρ : CellRadius cell ρ)
    (hr : 0 ≤ r) (p : Pt D ℝ) : ((siteBall motif cell p r).ncard : ℝ) ≤ motif.length * ((r + ρ) ^ D * sphereVol D / |cellDet cell|) := by
  obtain ⟨F, hF, e⟩ := ncard_siteBall (motif := motif) hD h p r
  rw [e, Nat.cast_sum]
  refine (Finset.sum_le_sum fun i _ => card_le_volume hD h hρ hr (p := p) fun n hn => (hF i n).1 hn).trans ?_
  simp

theorem volume_le_ncard_siteBall (hD : 0 < D) {motif : List (Pt D ℝ)} {cell : Fin D → Pt D ℝ} (h : NonSingular cell) {ρ r : ℝ} (hρ : CellRadius cell ρ)
    (hr : ρ ≤ r) (p : Pt D ℝ) : motif.length * ((r - ρ) ^ D * sphereVol D / |cellDet cell|) ≤ ((siteBall motif cell p r).ncard : ℝ) := by
  obtain ⟨F, hF, e⟩ := ncard_siteBall (motif := motif) hD h p r
  rw [e, Nat.cast_sum]
  refine le_trans ?_ (Finset.sum_le_sum fun i _ => volume_le_card hD h hρ hr (p := p) fun n hn => (hF i n).2 hn)
  simp

/-- Counting sites around a motif point, including itself, with the distance of its `k`-th neighbour. -/
theorem neighbourRow_count_exact {motif : List (Pt D ℝ)} {cell : Fin D → Pt D ℝ} (hD : 0 < D) (h : NonSingular cell)
    {i : Fin motif.length} {k : ℕ} {row : List ℝ} (hrow : IsNeighbourRow motif cell i k row) {d : ℝ} (hd : row.getLast? = some d) :
    k + 1 ≤ (siteBall motif cell motif[i] d).ncard ∧ ∀ r < d, (siteBall motif cell motif[i] r).ncard ≤ k := by
  obtain ⟨hlen, idx, hnd, he, hsort, hout⟩ := hrow
  have hdm : d ∈ row := List.mem_of_getLast? hd
  have hle := getLast?_ge hsort hd
  have hidx : idx.length = k := by rw [← hlen, he, List.length_map]
  have hnd' : (idx.map Subtype.val).Nodup := hnd.map Subtype.val_injective
  have hself : (i, (0 : Fin D → ℤ)) ∉ idx.map Subtype.val := by
    intro hm
    obtain ⟨t, -, ht⟩ := List.mem_map.mp hm
    exact t.2 ht
  have hnd2 : ((i, (0 : Fin D → ℤ)) :: idx.map Subtype.val).Nodup := List.nodup_cons.2 ⟨hself, hnd'⟩
  have hd0 : 0 ≤ d := by
    rw [he] at hdm
    obtain ⟨t, -, ht⟩ := List.mem_map.mp hdm
    rw [← ht]; exact eucl_nonneg _ _
  have hi0 : eucl motif[i] (sitePos motif cell (i, 0)) = 0 := by
    rw [sitePos_eq_lat]
    simp [eucl, sqDist, latVec]
  obtain ⟨t, ht, htd⟩ : ∃ t ∈ idx, eucl motif[i] (sitePos motif cell t.1) = d := by
    have := hdm
    rw [he] at this
    obtain ⟨t, h1, h2⟩ := List.mem_map.mp this
    exact ⟨t, h1, h2⟩
  constructor
  · have hc : k + 1 = ((i, (0 : Fin D → ℤ)) :: idx.map Subtype.val).toFinset.card := by
      rw [List.toFinset_card_of_nodup hnd2, List.length_cons, List.length_map, hidx]
    rw [hc, ← Set.ncard_coe_finset]
    apply Set.ncard_le_ncard _ (siteBall_finite hD h _ _)
    intro s hs
    rw [Finset.mem_coe, List.mem_toFinset, List.mem_cons] at hs
    rcases hs with rfl | hs
    · change eucl _ _ ≤ d
      rw [hi0]; exact hd0
    · obtain ⟨t, ht, rfl⟩ := List.mem_map.mp hs
      exact hle _ (by rw [he]; exact List.mem_map.mpr ⟨t, ht, rfl⟩)
  · intro r hr
    have hsub : siteBall motif cell motif[i] r ⊆ ((((i, (0 : Fin D → ℤ)) :: idx.map Subtype.val).toFinset.erase t.1 : Finset _) : Set (Site motif.length D)) := by
      intro s hs
      have h2 : eucl motif[i] (sitePos motif cell s) ≤ r := hs
      rw [Finset.mem_coe, Finset.mem_erase, List.mem_toFinset]
      refine ⟨fun e => by rw [e, htd] at h2; linarith, ?_⟩
      by_cases hs0 : s = (i, 0)
      · rw [hs0]; simp
      · by_contra hc
        have hni : (⟨s, hs0⟩ : {s : Site motif.length D // s ≠ (i, 0)}) ∉ idx := by
          intro hm
          exact hc (List.mem_cons_of_mem _ (List.mem_map.mpr ⟨_, hm, rfl⟩))
        have h1 := hout _ hni d hdm
        linarith
    refine (Set.ncard_le_ncard hsub (Finset.finite_toSet _)).trans ?_
    rw [Set.ncard_coe_finset, Finset.card_erase_of_mem (List.mem_toFinset.2 (List.mem_cons_of_mem _ (List.mem_map.mpr ⟨t, ht, rfl⟩))),
      List.toFinset_card_of_nodup hnd2, List.length_cons, List.length_map, hidx]
    omega

theorem PPC_pow (hD : 0 < D) (S : PeriodicSet D) : PPC S ^ D = |cellDet S.cell| / ((S.motif.length : ℝ) * sphereVol D) := by
  have hV := sphereVol_pos D
  unfold PPC
  rw [← Real.rpow_natCast, ← Real.rpow_mul (by positivity), one_div_mul_cancel (by exact_mod_cast hD.ne'), Real.rpow_one]

theorem root_pow (hD : 0 < D) {x : ℝ} (hx : 0 ≤ x) : (x ^ (1 / (D : ℝ))) ^ D = x := by
  rw [← Real.rpow_natCast, ← Real.rpow_mul hx, one_div_mul_cancel (by exact_mod_cast hD.ne'), Real.rpow_one]

/-- The distance of the `k`-th neighbour. -/
theorem neighbour_between (hD : 0 < D) {S : PeriodicSet D} (h : NonSingular S.cell) {ρ : ℝ} (hρ : CellRadius S.cell ρ) {i : Fin S.motif.length} {k : ℕ}
    {row : List ℝ} (hrow : IsNeighbourRow S.motif S.cell i k row) {d : ℝ} (hd : row.getLast? = some d) :
    PPC S * ((k : ℝ) + 1) ^ (1 / (D : ℝ)) - ρ ≤ d ∧ d ≤ PPC S * (k : ℝ) ^ (1 / (D : ℝ)) + ρ := by
  have hV := sphereVol_pos D
  have hm : (0 : ℝ) < S.motif.length := by have := i.2; exact_mod_cast (by omega : 0 < S.motif.length)
  have hdet : 0 < |cellDet S.cell| := abs_pos.mpr (cellDet_ne_zero h)
  have hP : 0 ≤ PPC S := Real.rpow_nonneg (by positivity) _
  have hρ0 := hρ.nonneg
  obtain ⟨hc, hc'⟩ := neighbourRow_count_exact hD h hrow hd
  have hd0 : 0 ≤ d := by
    obtain ⟨_, idx, _, he, _, _⟩ := hrow
    have := List.mem_of_getLast? hd
    rw [he] at this
    obtain ⟨t, _, ht⟩ := List.mem_map.mp this
    rw [← ht]; exact eucl_nonneg _ _
  have hpow : ∀ x : ℝ, 0 ≤ x → (PPC S * x ^ (1 / (D : ℝ))) ^ D = |cellDet S.cell| / ((S.motif.length : ℝ) * sphereVol D) * x := by
    intro x hx
    rw [mul_pow, root_pow hD hx, PPC_pow hD]
  constructor
  · have h1 : ((k : ℝ) + 1) ≤ S.motif.length * ((d + ρ) ^ D * sphereVol D / |cellDet S.cell|) := by
      refine le_trans ?_ (ncard_siteBall_le_volume hD h hρ hd0 S.motif[i])
      exact_mod_cast hc
    have h2 : PPC S * ((k : ℝ) + 1) ^ (1 / (D : ℝ)) ≤ d + ρ := by
      refine le_of_pow_le_pow_left₀ hD.ne' (by linarith) ?_
      rw [hpow _ (by positivity)]
      calc |cellDet S.cell| / ((S.motif.length : ℝ) * sphereVol D) * ((k : ℝ) + 1)
          ≤ |cellDet S.cell| / ((S.motif.length : ℝ) * sphereVol D) * (S.motif.length * ((d + ρ) ^ D * sphereVol D / |cellDet S.cell|)) := by gcongr
        _ = (d + ρ) ^ D := by field_simp
    linarith
  · by_contra hlt
    rw [not_le] at hlt
    obtain ⟨r, hr1, hr2⟩ := exists_between hlt
    have hk0 : 0 ≤ PPC S * (k : ℝ) ^ (1 / (D : ℝ)) := by positivity
    have h1 : S.motif.length * ((r - ρ) ^ D * sphereVol D / |cellDet S.cell|) ≤ (k : ℝ) := by
      refine le_trans (volume_le_ncard_siteBall hD h hρ (by linarith) S.motif[i]) ?_
      exact_mod_cast hc' r hr2
    have h2 : r - ρ ≤ PPC S * (k : ℝ) ^ (1 / (D : ℝ)) := by
      refine le_of_pow_le_pow_left₀ hD.ne' hk0 ?_
      rw [hpow _ (by positivity)]
      calc (r - ρ) ^ D = |cellDet S.cell| / ((S.motif.length : ℝ) * sphereVol D) * (S.motif.length * ((r - ρ) ^ D * sphereVol D / |cellDet S.cell|)) := by field_simp
        _ ≤ _ := by gcongr
    linarith

/-- All entries of a row of neighbours. -/
theorem neighbours_between (hD : 0 < D) {S : PeriodicSet D} (h : NonSingular S.cell) {ρ : ℝ} (hρ : CellRadius S.cell ρ) {i : Fin S.motif.length} {k : ℕ}
    {row : List ℝ} (hrow : IsNeighbourRow S.motif S.cell i k row) {j : ℕ} (hj : j < k) :
    PPC S * ((j : ℝ) + 2) ^ (1 / (D : ℝ)) - ρ ≤ row.getD j 0 ∧ row.getD j 0 ≤ PPC S * ((j : ℝ) + 1) ^ (1 / (D : ℝ)) + ρ := by
  have h1 := hrow.take (k' := j + 1) hj
  have h2 : (row.take (j + 1)).getLast? = some (row.getD j 0) := by
    rw [getLast?_row (k := j + 1) (by omega) h1.1]
    simp [List.getD_eq_getElem?_getD]
  have := neighbour_between hD h hρ h1 h2
  push_cast at this
  rw [show (j : ℝ) + 1 + 1 = j + 2 by ring] at this
  exact this

end Amd
