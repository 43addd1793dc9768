import Verif.Proof.NNExact
import Verif.Spec.Invariants

/-! Helper lemmas: cells for which the search is complete. -/

set_option linter.unusedSectionVars false

namespace Amd

variable {D : ℕ}

theorem le_numLayers {m k r : ℕ} (hD : 0 < D) (hm : 0 < m) (h : StartsAt D m k r) : r ≤ numLayers D m k := by
  rcases h with h | h
  · exact h.trans (two_le_numLayers hD hm)
  · obtain ⟨s, hs1, hs2, hs3, _⟩ := numLayers_spec (k := k) hD hm
    rw [hs2]
    by_contra hc
    push Not at hc
    -- the vectors in the first `s` layers have norm at most `s - 1 ≤ r - 3`
    have h1 := h (layersUpTo D s).toFinset (by
      intro n hn
      rw [List.mem_toFinset] at hn
      obtain ⟨t, rfl⟩ : ∃ t, s = t + 1 := ⟨s - 1, by omega⟩
      rw [mem_layersUpTo hD] at hn
      refine hn.trans ?_
      have : (t : ℤ) ≤ (r : ℤ) - 3 := by omega
      have h0 : (0 : ℤ) ≤ t := by omega
      nlinarith)
    rw [List.toFinset_card_of_nodup (nodup_layersUpTo hD s)] at h1
    omega

/-- Nearly rectangular cells, all `k`, up to four dimensions. -/
theorem searchable_of_halfDominant {motif : List (Pt D ℝ)} {cell : Fin D → Pt D ℝ} (hD : D ≤ 4)
    (hcell : HalfDominant cell) (hfit : FitsInCell motif cell) (k : ℕ) : Searchable motif cell k :=
  ⟨_, 2, descends_of_halfDominant hcell (by omega), fracDiff_of_fits hfit, Or.inl (le_refl 2)⟩

theorem startsAt_eventually (D m r : ℕ) : ∃ k₀, ∀ k, k₀ ≤ k → StartsAt D m k r := by
  rcases Nat.eq_zero_or_pos D with hD | hD
  · subst hD
    refine ⟨m, fun k hk => Or.inr ?_⟩
    intro F _
    have : F.card ≤ 1 := by
      rw [Finset.card_le_one]
      intro a _ b _
      exact funext fun i => i.elim0
    calc F.card * m ≤ 1 * m := Nat.mul_le_mul_right _ this
      _ ≤ k := by omega
  · refine ⟨(layersUpTo D (r + 1)).length * m, fun k hk => ?_⟩
    by_cases hr : r ≤ 2
    · exact Or.inl hr
    right
    intro F hF
    refine le_trans (Nat.mul_le_mul_right _ ?_) hk
    rw [← List.toFinset_card_of_nodup (nodup_layersUpTo hD (r + 1))]
    apply Finset.card_le_card
    intro n hn
    rw [List.mem_toFinset, mem_layersUpTo hD]
    refine (hF n hn).trans ?_
    have : (3 : ℤ) ≤ r := by omega
    nlinarith

/-- Every motif and every cell that spans space, for all large enough `k`. -/
theorem searchable_eventually {cell : Fin D → Pt D ℝ} (hcell : NonSingular cell) (motif : List (Pt D ℝ)) :
    ∃ k₀, ∀ k, k₀ ≤ k → Searchable motif cell k := by
  obtain ⟨B, hB⟩ := fracDiff_bounded hcell motif
  obtain ⟨r, hr⟩ := exists_descends hcell B
  obtain ⟨k₀, hk⟩ := startsAt_eventually D motif.length r
  exact ⟨k₀, fun k h => ⟨_, r, hr, hB, hk k h⟩⟩

theorem Searchable.mono {motif : List (Pt D ℝ)} {cell : Fin D → Pt D ℝ} {k k' : ℕ} (h : Searchable motif cell k)
    (hk : k ≤ k') : Searchable motif cell k' := by
  obtain ⟨P, r, h1, h2, h3⟩ := h
  refine ⟨P, r, h1, h2, ?_⟩
  rcases h3 with h3 | h3
  · exact Or.inl h3
  · exact Or.inr fun F hF => (h3 F hF).trans hk

/-- `nearest_neighbors` on a subset of the motif, without the first column. -/
theorem nearestNeighbors_neighbourRow {motif : List (Pt D ℝ)} {cell : Fin D → Pt D ℝ} {k fuel : ℕ}
    (hD : 0 < D) {inds : List (Fin motif.length)} (hx : inds ≠ []) {rows : List (List ℝ)}
    (hs : Searchable motif cell (k + 1))
    (h : nearestNeighbors motif cell (inds.map fun i => motif[i]) (k + 1) fuel = .ok rows) :
    List.Forall₂ (fun i row => row.length = k + 1 ∧ row.head? = some 0 ∧ IsNeighbourRow motif cell i k (row.drop 1))
      inds rows := by
  obtain ⟨P, r, h1, h2, h3⟩ := hs
  have hm : 0 < motif.length := by
    obtain ⟨i, _⟩ := List.exists_mem_of_ne_nil inds hx
    have := i.2
    omega
  have hex := nearestNeighbors_exact (r := r) (P := P) hD (by simpa using hx)
    (by intro p hp; obtain ⟨i, _, rfl⟩ := List.mem_map.mp hp; exact List.getElem_mem _) (Nat.succ_pos k)
    h1 h2 (le_numLayers hD hm h3) h
  rw [List.forall₂_map_left_iff] at hex
  refine hex.imp ?_
  rintro i row ⟨hl, hk⟩
  have hzero : eucl motif[i] (sitePos motif cell (i, 0)) = 0 := by
    have : sitePos motif cell (i, 0) = motif[i] := by
      funext j
      simp [sitePos]
    rw [this, eucl, sqDist_self, Real.sqrt_zero]
  have ht := hk.tail (i, 0) (fun s => by rw [hzero]; exact Real.sqrt_nonneg _)
    (by intro h0; rw [h0] at hl; simp at hl)
  refine ⟨hl, ?_, ?_, ht.1⟩
  · rw [ht.2, hzero]
  · rw [List.length_drop, hl]; omega

end Amd
