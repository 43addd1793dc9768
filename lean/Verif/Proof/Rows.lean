import Verif.Proof.Perm

/-! Helper lemmas: results in terms of neighbour rows; perturbation; symmetries; choice of cell. -/

set_option linter.unusedSectionVars false

namespace Amd

variable {D : ℕ}

theorem IsNeighbourRow.unique {motif : List (Pt D ℝ)} {cell : Fin D → Pt D ℝ} {i : Fin motif.length} {k : ℕ}
    {r r' : List ℝ} (h : IsNeighbourRow motif cell i k r) (h' : IsNeighbourRow motif cell i k r') : r = r' :=
  h.2.unique h'.2 (h.1.trans h'.1.symm)

theorem IsNeighbourRow.take {motif : List (Pt D ℝ)} {cell : Fin D → Pt D ℝ} {i : Fin motif.length} {k k' : ℕ}
    {r : List ℝ} (h : IsNeighbourRow motif cell i k r) (hk : k' ≤ k) :
    IsNeighbourRow motif cell i k' (r.take k') :=
  ⟨by rw [List.length_take, h.1]; omega, h.2.take k'⟩

/-- The rows of `nearest_neighbors`, without the first column, as neighbour rows. -/
theorem nearestNeighbors_eq_rows {motif : List (Pt D ℝ)} {cell : Fin D → Pt D ℝ} {k fuel : ℕ}
    (hD : 0 < D) {inds : List (Fin motif.length)} (hx : inds ≠ []) {rows : List (List ℝ)}
    (hs : Searchable motif cell (k + 1))
    (h : nearestNeighbors motif cell (inds.map fun i => motif[i]) (k + 1) fuel = .ok rows)
    {R : Fin motif.length → List ℝ} (hR : ∀ i ∈ inds, IsNeighbourRow motif cell i k (R i)) :
    rows.map (·.drop 1) = inds.map R := by
  have hf := nearestNeighbors_neighbourRow hD hx hs h
  clear hx h
  induction hf with
  | nil => rfl
  | cons hab _ ih =>
    rw [List.map_cons, List.map_cons, ih fun i hi => hR i (List.mem_cons_of_mem _ hi)]
    congr 1
    exact hab.2.2.unique (hR _ (by simp))

theorem exists_neighbourRow {motif : List (Pt D ℝ)} {cell : Fin D → Pt D ℝ} (hD : 0 < D)
    (hcell : NonSingular cell) (i : Fin motif.length) (k : ℕ) : ∃ row, IsNeighbourRow motif cell i k row := by
  obtain ⟨k₀, hk₀⟩ := searchable_eventually hcell motif
  have hxm : ∀ p ∈ [i].map (fun i => motif[i]), p ∈ motif := by
    intro p hp
    obtain ⟨i, _, rfl⟩ := List.mem_map.mp hp
    exact List.getElem_mem _
  obtain ⟨F, hF⟩ := nearestNeighbors_terminates (motif := motif) (x := [i].map fun i => motif[i])
    (k + k₀ + 1) hD (by simp) hxm (by omega) hcell
  obtain ⟨rows, hrows⟩ := hF F (le_refl F)
  have h := nearestNeighbors_neighbourRow hD (inds := [i]) (k := k + k₀) (by simp)
    (hk₀ _ (by omega)) hrows
  cases h with
  | cons h1 _ => exact ⟨_, h1.2.2.take (by omega)⟩

theorem zipWith_map_right' {α β γ δ : Type*} (f : α → γ → δ) (g : β → γ) : ∀ (l : List α) (l' : List β),
    List.zipWith f l (l'.map g) = List.zipWith (fun a b => f a (g b)) l l'
  | [], _ => by simp
  | _ :: _, [] => by simp
  | a :: l, b :: l' => by simp [zipWith_map_right' f g l l']

/-- `AMD` in terms of neighbour rows. -/
theorem AMD_eq_rows {S : PeriodicSet D} {inds : List (Fin S.motif.length)} {mult : List ℕ} (hD : 0 < D)
    (hu : S.Units inds mult) (hne : inds ≠ []) {k fuel : ℕ} {a : List ℝ}
    (hs : Searchable S.motif S.cell (k + 1)) (h : AMD S k fuel = .ok a)
    {R : Fin S.motif.length → List ℝ} (hR : ∀ i ∈ inds, IsNeighbourRow S.motif S.cell i k (R i)) :
    a = (List.range k).map fun j =>
      (List.zipWith (fun (n : ℕ) i => (n : ℝ) * (R i).getD j 0) mult inds).sum /
        (mult.map fun n : ℕ => (n : ℝ)).sum := by
  obtain ⟨rows, hr, hl, hv⟩ := AMD_rows hD hu hne h
  have he := nearestNeighbors_eq_rows hD hne hs hr hR
  apply List.ext_getElem
  · rw [hl]; simp
  · intro j h1 h2
    have hj : j < k := by rw [hl] at h1; exact h1
    have := hv j hj
    rw [List.getD_eq_getElem _ _ h1] at this
    rw [this]
    simp only [List.getElem_map, List.getElem_range]
    congr 2
    have e1 : List.zipWith (fun (n : ℕ) row => (n : ℝ) * (List.drop 1 row).getD j 0) mult rows =
        List.zipWith (fun (n : ℕ) row => (n : ℝ) * row.getD j 0) mult (rows.map (·.drop 1)) := by
      rw [zipWith_map_right']
    rw [e1, he, zipWith_map_right']

/-- The full motif: `AMD` is the mean over all motif points. -/
theorem AMD_eq_mean {S : PeriodicSet D} (hD : 0 < D) (hasym : S.asymUnit = none ∨ S.multiplicities = none)
    (hne : S.motif ≠ []) {k fuel : ℕ} {a : List ℝ}
    (hs : Searchable S.motif S.cell (k + 1)) (h : AMD S k fuel = .ok a)
    {R : Fin S.motif.length → List ℝ} (hR : ∀ i, IsNeighbourRow S.motif S.cell i k (R i)) :
    a = (List.range k).map fun j => (∑ i, (R i).getD j 0) / S.motif.length := by
  have hlen : 0 < S.motif.length := List.length_pos_iff.mpr hne
  have hu : S.Units (List.finRange S.motif.length) (List.replicate S.motif.length 1) :=
    Or.inr ⟨hasym, rfl, rfl⟩
  have hne' : List.finRange S.motif.length ≠ [] := by
    intro hc
    have h0 := congrArg List.length hc
    rw [List.length_finRange, List.length_nil] at h0
    omega
  rw [AMD_eq_rows hD hu hne' hs h fun i _ => hR i]
  apply List.map_congr_left
  intro j _
  have e1 : List.zipWith (fun (n : ℕ) i => (n : ℝ) * (R i).getD j 0) (List.replicate S.motif.length 1)
      (List.finRange S.motif.length) = (List.finRange S.motif.length).map fun i => (R i).getD j 0 := by
    apply List.ext_getElem
    · simp
    · intro i h1 h2
      simp
  have e2 : ((List.replicate S.motif.length 1).map fun n : ℕ => (n : ℝ)).sum = S.motif.length := by simp
  rw [e1, e2, ← List.ofFn_eq_map, List.sum_ofFn]

/-! ### Perturbation of values -/

section
variable {ι : Type*} {δ δ' : ι → ℝ}

/-- Moving every value by at most `η` moves every entry of the row of smallest values by at most `η`. -/
theorem IsKNearest.getElem_le {r r' : List ℝ} (h : IsKNearest δ r) (h' : IsKNearest δ' r') {η : ℝ}
    (hη : ∀ i, δ' i ≤ δ i + η) (j : ℕ) (hj : j < r.length) (hj' : j < r'.length) : r'[j] ≤ r[j] + η := by
  classical
  obtain ⟨idx, n, e, s, o⟩ := h
  obtain ⟨idx', n', e', s', o'⟩ := h'
  have hl : idx.length = r.length := by rw [e, List.length_map]
  have hl' : idx'.length = r'.length := by rw [e', List.length_map]
  -- one of the first `j + 1` indices of `r` is not among the first `j` of `r'`
  have hex : ∃ i ∈ idx.take (j + 1), i ∉ idx'.take j := by
    by_contra hcon
    push Not at hcon
    have hsub : (idx.take (j + 1)).toFinset ⊆ (idx'.take j).toFinset := by
      intro i hi
      rw [List.mem_toFinset] at hi ⊢
      exact hcon i hi
    have hc := Finset.card_le_card hsub
    rw [List.toFinset_card_of_nodup (n.sublist (List.take_sublist _ _)),
      List.toFinset_card_of_nodup (n'.sublist (List.take_sublist _ _)), List.length_take, List.length_take] at hc
    omega
  obtain ⟨i, hi, hi'⟩ := hex
  have h1 : δ i ≤ r[j] := by
    obtain ⟨a, ha, hia⟩ := List.getElem_of_mem hi
    have ha' : a < j + 1 := by rw [List.length_take] at ha; omega
    have ha2 : a < r.length := by omega
    have : r[a] = δ i := by
      rw [List.getElem_take] at hia
      subst hia
      simp [e]
    rw [← this]
    rcases Nat.lt_or_ge a j with h | h
    · exact List.pairwise_iff_getElem.mp s a j ha2 hj h
    · have : a = j := by omega
      subst this
      exact le_refl _
  have h2 : r'[j] ≤ δ' i := by
    by_cases hmem : i ∈ idx'
    · obtain ⟨b, hb, hib⟩ := List.getElem_of_mem hmem
      have hjb : j ≤ b := by
        by_contra hcon
        apply hi'
        rw [← hib]
        rw [List.mem_take_iff_getElem]
        exact ⟨b, by omega, rfl⟩
      have hb2 : b < r'.length := by omega
      have : r'[b] = δ' i := by
        subst hib
        simp [e']
      rw [← this]
      rcases Nat.lt_or_ge j b with h | h
      · exact List.pairwise_iff_getElem.mp s' j b hj' hb2 h
      · have : j = b := by omega
        subst this
        exact le_refl _
    · exact o' i hmem _ (List.getElem_mem _)
  linarith [hη i]

end

/-! ### Symmetries of the set of sites -/

/-- A bijection of sites preserving distances carries neighbour rows to neighbour rows. -/
theorem IsNeighbourRow.of_siteEquiv {motif motif' : List (Pt D ℝ)} {cell cell' : Fin D → Pt D ℝ}
    {i : Fin motif.length} {i' : Fin motif'.length} {k : ℕ} {r : List ℝ} (h : IsNeighbourRow motif cell i k r)
    (e : Site motif.length D ≃ Site motif'.length D) (hi : e (i, 0) = (i', 0))
    (he : ∀ s, eucl motif'[i'] (sitePos motif' cell' (e s)) = eucl motif[i] (sitePos motif cell s)) :
    IsNeighbourRow motif' cell' i' k r := by
  refine ⟨h.1, h.2.equiv (e.subtypeEquiv ?_) ?_⟩
  · intro s
    rw [← hi, e.injective.ne_iff]
  · rintro ⟨s, hs⟩
    exact he s

/-- Shift sites by a lattice vector. -/
def shiftSites (m D : ℕ) (n : Fin D → ℤ) : Site m D ≃ Site m D where
  toFun s := (s.1, s.2 + n)
  invFun s := (s.1, s.2 - n)
  left_inv s := by simp
  right_inv s := by simp

theorem eucl_shift (motif : List (Pt D ℝ)) (cell : Fin D → Pt D ℝ) (n : Fin D → ℤ) (s t : Site motif.length D) :
    eucl (sitePos motif cell (shiftSites _ D n s)) (sitePos motif cell (shiftSites _ D n t)) =
      eucl (sitePos motif cell s) (sitePos motif cell t) := by
  have hs : ∀ s : Site motif.length D, ∀ j, sitePos motif cell (shiftSites _ D n s) j =
      sitePos motif cell s j + ∑ x, (n x : ℝ) * cell x j := by
    intro s j
    simp only [sitePos, shiftSites, Equiv.coe_fn_mk, Pi.add_apply, Int.cast_add, add_mul,
      Finset.sum_add_distrib]
    exact (add_assoc _ _ _).symm
  unfold eucl sqDist
  congr 1
  apply Finset.sum_congr rfl
  intro j _
  rw [hs, hs]
  ring

theorem sitePos_zero (motif : List (Pt D ℝ)) (cell : Fin D → Pt D ℝ) (i : Fin motif.length) :
    sitePos motif cell (i, 0) = motif[i] := by
  funext j
  simp [sitePos]

/-! ### Averages over different cells of the same set -/

/-- The translations that map a set to itself. -/
def periods (P : Set (Pt D ℝ)) : Set (Pt D ℝ) := {t | ∀ q, q ∈ P ↔ q + t ∈ P}

theorem periods_sub {P : Set (Pt D ℝ)} {s t : Pt D ℝ} (hs : s ∈ periods P) (ht : t ∈ periods P) :
    s - t ∈ periods P := by
  intro q
  rw [ht (q + (s - t)), hs q]
  have : q + (s - t) + t = q + s := by abel
  rw [this]

theorem periods_neg {P : Set (Pt D ℝ)} {s : Pt D ℝ} (hs : s ∈ periods P) : -s ∈ periods P := by
  intro q
  rw [hs (q + -s)]
  simp

theorem sitePos_eq (motif : List (Pt D ℝ)) (cell : Fin D → Pt D ℝ) (s : Site motif.length D) :
    sitePos motif cell s = motif[s.1] + latVec cell s.2 := by
  funext j; simp [sitePos, latVec]

theorem latVec_add (cell : Fin D → Pt D ℝ) (n n' : Fin D → ℤ) :
    latVec cell (n + n') = latVec cell n + latVec cell n' := by
  funext j
  simp [latVec, add_mul, Finset.sum_add_distrib]

theorem latVec_neg (cell : Fin D → Pt D ℝ) (n : Fin D → ℤ) : latVec cell (-n) = -latVec cell n := by
  funext j
  simp [latVec]

theorem latVec_mem_periods (motif : List (Pt D ℝ)) (cell : Fin D → Pt D ℝ) (n : Fin D → ℤ) :
    latVec cell n ∈ periods (periodicPoints motif cell) := by
  intro q
  constructor
  · rintro ⟨s, rfl⟩
    refine ⟨(s.1, s.2 + n), ?_⟩
    rw [sitePos_eq, sitePos_eq, latVec_add]
    abel
  · rintro ⟨s, hs⟩
    refine ⟨(s.1, s.2 + -n), ?_⟩
    rw [sitePos_eq] at hs ⊢
    rw [latVec_add, latVec_neg]
    simp only
    rw [← add_assoc, hs]
    abel

open Classical in
/-- Number of motif points equivalent to `p` under the periods of the set. -/
noncomputable def classCount (motif : List (Pt D ℝ)) (cell : Fin D → Pt D ℝ) (p : Pt D ℝ) : ℕ :=
  (Finset.univ.filter fun i : Fin motif.length => motif[i] - p ∈ periods (periodicPoints motif cell)).card

theorem classCount_le {motif : List (Pt D ℝ)} {cell : Fin D → Pt D ℝ}
    (hinj : Function.Injective (sitePos motif cell)) {p p₀ : Pt D ℝ} (hp₀ : p₀ ∈ periodicPoints motif cell) :
    classCount motif cell p ≤ classCount motif cell p₀ := by
  classical
  set P := periodicPoints motif cell
  -- the motif index and lattice vector of `p₀ + (motif[i] - p)`
  have hex : ∀ i : Fin motif.length, motif[i] - p ∈ periods P →
      ∃ s : Site motif.length D, sitePos motif cell s = p₀ + (motif[i] - p) := by
    intro i hi
    exact (hi p₀).mp hp₀
  choose! F hF using hex
  unfold classCount
  refine Finset.card_le_card_of_injOn (fun i => (F i).1) ?_ ?_
  · intro i hi
    simp only [Finset.coe_filter, Finset.mem_univ, true_and, Set.mem_ofPred_eq] at hi ⊢
    have h1 := hF i hi
    rw [sitePos_eq] at h1
    have h2 : motif[(F i).1] - p₀ = (motif[i] - p) - latVec cell (F i).2 := by
      rw [sub_eq_iff_eq_add, eq_comm, sub_add_eq_add_sub, sub_eq_iff_eq_add, h1]
      abel
    rw [h2]
    exact periods_sub hi (latVec_mem_periods motif cell _)
  · intro i hi i' hi' heq
    simp only [Finset.coe_filter, Finset.mem_univ, true_and, Set.mem_ofPred_eq] at hi hi' heq
    have h1 := hF i hi
    have h2 := hF i' hi'
    rw [sitePos_eq] at h1 h2
    have hg : motif[(F i).1] = motif[(F i').1] := by simp only [heq]
    rw [hg] at h1
    -- `motif[i] - motif[i']` is a lattice vector
    have h3 : motif[i] + latVec cell (F i').2 = motif[i'] + latVec cell (F i).2 := by
      have e1 : motif[i] = motif[(F i').1] + latVec cell (F i).2 - p₀ + p := by rw [h1]; abel
      have e2 : motif[i'] = motif[(F i').1] + latVec cell (F i').2 - p₀ + p := by rw [h2]; abel
      rw [e1, e2]
      abel
    have h4 : sitePos motif cell (i, (F i').2) = sitePos motif cell (i', (F i).2) := by
      rw [sitePos_eq, sitePos_eq]; exact h3
    exact congrArg Prod.fst (hinj h4)

theorem motif_mem_periodicPoints (motif : List (Pt D ℝ)) (cell : Fin D → Pt D ℝ) (i : Fin motif.length) :
    motif[i] ∈ periodicPoints motif cell := ⟨(i, 0), sitePos_zero motif cell i⟩

/-- A function that is constant along the periods of the set has the same mean over any two motifs. -/
theorem mean_eq_of_same_points {motif motif' : List (Pt D ℝ)} {cell cell' : Fin D → Pt D ℝ}
    (hinj : Function.Injective (sitePos motif cell)) (hinj' : Function.Injective (sitePos motif' cell'))
    (hP : periodicPoints motif cell = periodicPoints motif' cell') (hne : motif ≠ []) (hne' : motif' ≠ [])
    (g : Pt D ℝ → ℝ)
    (hg : ∀ p q, p - q ∈ periods (periodicPoints motif cell) → p ∈ periodicPoints motif cell → g p = g q) :
    (∑ i : Fin motif.length, g motif[i]) / motif.length = (∑ i : Fin motif'.length, g motif'[i]) / motif'.length := by
  classical
  set P := periodicPoints motif cell with hPdef
  have hm : 0 < motif.length := List.length_pos_iff.mpr hne
  have hm' : 0 < motif'.length := List.length_pos_iff.mpr hne'
  let p₀ := motif[0]
  have hp₀ : p₀ ∈ P := motif_mem_periodicPoints motif cell ⟨0, hm⟩
  have hc : ∀ p ∈ P, classCount motif cell p = classCount motif cell p₀ := fun p hp =>
    le_antisymm (classCount_le hinj hp₀) (classCount_le hinj hp)
  have hc' : ∀ p ∈ P, classCount motif' cell' p = classCount motif' cell' p₀ := fun p hp =>
    le_antisymm (classCount_le hinj' (hP ▸ hp₀)) (classCount_le hinj' (hP ▸ hp))
  set c := classCount motif cell p₀
  set c' := classCount motif' cell' p₀
  have hcpos : 0 < c := by
    refine Finset.card_pos.mpr ⟨⟨0, hm⟩, ?_⟩
    simp only [Finset.mem_filter, Finset.mem_univ, true_and]
    have : motif[(⟨0, hm⟩ : Fin motif.length)] - p₀ = 0 := sub_self p₀
    rw [this]
    intro q
    simp
  -- double counting of equivalent pairs
  have key : ∀ f : Pt D ℝ → ℝ, (∀ p q, p - q ∈ periods P → p ∈ P → f p = f q) →
      (c' : ℝ) * ∑ i : Fin motif.length, f motif[i] = c * ∑ i : Fin motif'.length, f motif'[i] := by
    intro f hf
    have h1 : (c' : ℝ) * ∑ i : Fin motif.length, f motif[i] =
        ∑ i : Fin motif.length, ∑ j : Fin motif'.length,
          if motif'[j] - motif[i] ∈ periods P then f motif[i] else 0 := by
      rw [Finset.mul_sum]
      refine Finset.sum_congr rfl fun i _ => ?_
      rw [← Finset.sum_filter, Finset.sum_const, nsmul_eq_mul]
      congr 1
      rw [← hc' _ (motif_mem_periodicPoints motif cell i), classCount, ← hP]
    have h2 : (c : ℝ) * ∑ i : Fin motif'.length, f motif'[i] =
        ∑ j : Fin motif'.length, ∑ i : Fin motif.length,
          if motif[i] - motif'[j] ∈ periods P then f motif'[j] else 0 := by
      rw [Finset.mul_sum]
      refine Finset.sum_congr rfl fun j _ => ?_
      rw [← Finset.sum_filter, Finset.sum_const, nsmul_eq_mul]
      congr 1
      rw [← hc _ (hP ▸ motif_mem_periodicPoints motif' cell' j), classCount]
    rw [h1, h2, Finset.sum_comm]
    refine Finset.sum_congr rfl fun j _ => Finset.sum_congr rfl fun i _ => ?_
    have hiff : motif'[j] - motif[i] ∈ periods P ↔ motif[i] - motif'[j] ∈ periods P := by
      constructor
      · intro h; have := periods_neg h; rwa [neg_sub] at this
      · intro h; have := periods_neg h; rwa [neg_sub] at this
    by_cases hper : motif[i] - motif'[j] ∈ periods P
    · rw [if_pos hper, if_pos (hiff.mpr hper)]
      exact hf _ _ hper (motif_mem_periodicPoints motif cell i)
    · rw [if_neg hper, if_neg (fun h => hper (hiff.mp h))]
  have k1 := key g hg
  have k2 := key (fun _ => 1) (fun _ _ _ _ => rfl)
  simp only [Finset.sum_const, Finset.card_univ, Fintype.card_fin, nsmul_eq_mul, mul_one] at k2
  have hmr : (0 : ℝ) < motif.length := by exact_mod_cast hm
  have hmr' : (0 : ℝ) < motif'.length := by exact_mod_cast hm'
  have hcr : (0 : ℝ) < c := by exact_mod_cast hcpos
  have hcr' : (0 : ℝ) < c' := by
    by_contra hneg
    have : (c' : ℝ) = 0 := le_antisymm (not_lt.mp hneg) (Nat.cast_nonneg _)
    rw [this] at k2
    have : (0 : ℝ) < c * motif'.length := by positivity
    linarith
  rw [div_eq_div_iff hmr.ne' hmr'.ne']
  have : (c' * c : ℝ) * ((∑ i : Fin motif.length, g motif[i]) * motif'.length) =
      (c' * c : ℝ) * ((∑ i : Fin motif'.length, g motif'[i]) * motif.length) := by
    calc (c' * c : ℝ) * ((∑ i : Fin motif.length, g motif[i]) * motif'.length)
        = (c' * ∑ i : Fin motif.length, g motif[i]) * (c * motif'.length) := by ring
      _ = (c * ∑ i : Fin motif'.length, g motif'[i]) * (c' * motif.length) := by rw [k1, k2]
      _ = _ := by ring
  exact mul_left_cancel₀ (by positivity) this

end Amd
