import Verif.Props.Explicit

/-!
# C01 is false for some reduced cells if there are more motif points than neighbours

The condition `motif.length ≤ k` on reduced cells in `Covered` cannot be left out.
-/

namespace Amd

/-- Four points. -/
def cornerMotif : List (Pt 3 ℤ) := [![16, 9, 18], ![1, 7, 12], ![2, 3, 4], ![5, 2, 6]]

/-- A reduced cell. -/
def cornerCell : Fin 3 → Pt 3 ℤ := ![![14, 0, 0], ![-7, 13, 0], ![7, 4, 26]]

/-- The periodic set of the counterexample. -/
noncomputable def cornerSet : PeriodicSet 3 :=
  { motif := cornerMotif.map castPt, cell := fun i => castPt (cornerCell i) }

theorem cornerSet_nonSingular : NonSingular cornerSet.cell := by
  have e : cornerSet.cell = (!![14, 0, 0; -7, 13, 0; 7, 4, 26] : Matrix (Fin 3) (Fin 3) ℝ) := by
    funext i j
    fin_cases i <;> fin_cases j <;> simp [cornerSet, cornerCell, castPt]
  rw [NonSingular, e]
  have := Matrix.linearIndependent_rows_of_det_ne_zero (A := (!![14, 0, 0; -7, 13, 0; 7, 4, 26] : Matrix (Fin 3) (Fin 3) ℝ))
    (by simp [Matrix.det_fin_three])
  exact this

theorem cornerSet_reduced : Reduced cornerSet.cell := by
  constructor
  · intro i j hij
    fin_cases i <;> fin_cases j <;> simp [cornerSet, cornerCell, castPt, gram, Fin.sum_univ_three] at hij ⊢ <;> norm_num [abs_le]
  · intro s hs i
    have h0 := hs 0
    have h1 := hs 1
    have h2 := hs 2
    rcases h0 with h0 | h0 <;> rcases h1 with h1 | h1 <;> rcases h2 with h2 | h2 <;> fin_cases i <;>
      simp [cornerSet, cornerCell, castPt, gram, Fin.sum_univ_three, h0, h1, h2] <;> norm_num

theorem cornerSet_fits : FitsInCell cornerSet.motif cornerSet.cell := by
  refine ⟨![27 / 50, 0, 0], fun q hq => ?_⟩
  simp only [cornerSet, cornerMotif, List.map_cons, List.map_nil, List.mem_cons, List.not_mem_nil, or_false] at hq
  rcases hq with rfl | rfl | rfl | rfl
  · refine ⟨![(16 - 27 / 50 + 7 * (81 / 169) - 7 * (9 / 13)) / 14, 81 / 169, 9 / 13], ?_, ?_⟩
    · intro i; fin_cases i <;> simp <;> norm_num
    · funext j; fin_cases j <;> simp [cornerSet, cornerCell, castPt, Fin.sum_univ_three] <;> norm_num
  · refine ⟨![(1 - 27 / 50 + 7 * (67 / 169) - 7 * (6 / 13)) / 14, 67 / 169, 6 / 13], ?_, ?_⟩
    · intro i; fin_cases i <;> simp <;> norm_num
    · funext j; fin_cases j <;> simp [cornerSet, cornerCell, castPt, Fin.sum_univ_three] <;> norm_num
  · refine ⟨![(2 - 27 / 50 + 7 * (31 / 169) - 7 * (2 / 13)) / 14, 31 / 169, 2 / 13], ?_, ?_⟩
    · intro i; fin_cases i <;> simp <;> norm_num
    · funext j; fin_cases j <;> simp [cornerSet, cornerCell, castPt, Fin.sum_univ_three] <;> norm_num
  · refine ⟨![(5 - 27 / 50 + 7 * (14 / 169) - 7 * (3 / 13)) / 14, 14 / 169, 3 / 13], ?_, ?_⟩
    · intro i; fin_cases i <;> simp <;> norm_num
    · funext j; fin_cases j <;> simp [cornerSet, cornerCell, castPt, Fin.sum_univ_three] <;> norm_num

theorem cornerSet_rows (fuel : ℕ) (hf : 20 ≤ fuel) :
    nearestNeighbors cornerSet.motif cornerSet.cell cornerSet.motif 3 fuel = .ok [[0, √41, 14], [0, √41, √77], [0, √14, 9], [0, √14, √77]] := by
  have h : nearestNeighborsSq (K := ℤ) nearInt cornerMotif cornerCell cornerMotif 3 20 = .ok [[0, 41, 196], [0, 41, 77], [0, 14, 81], [0, 14, 77]] := by
    decide +kernel
  have h2 := nearestNeighbors_cast _ _ _ _ _ h
  have e : ([[0, 41, 196], [0, 41, 77], [0, 14, 81], [0, 14, 77]] : List (List ℤ)).map (fun r => r.map fun a : ℤ => √(a : ℝ)) =
      [[0, √41, 14], [0, √41, √77], [0, √14, 9], [0, √14, √77]] := by
    have h1 : √(196 : ℝ) = 14 := by
      rw [show (196 : ℝ) = 14 ^ 2 by norm_num]; exact Real.sqrt_sq (by norm_num)
    have h2 : √(81 : ℝ) = 9 := by
      rw [show (81 : ℝ) = 9 ^ 2 by norm_num]; exact Real.sqrt_sq (by norm_num)
    simp [h1, h2]
  rw [e] at h2
  exact nearestNeighbors_fuel hf h2

/-- **C01** is false for some reduced cells too, if there are more motif points than neighbours: for the four points `cornerMotif`, `PDD` with `k = 2` reports the distances
√41 and 14 for the first point, but besides the neighbour at √41 the image of the second point by the lattice vector 2 a + b is at √193, nearer than 14. -/
theorem C01_false_reduced : ∃ (S : PeriodicSet 3) (i : Fin S.motif.length), NonSingular S.cell ∧ Reduced S.cell ∧ FitsInCell S.motif S.cell ∧
    ∃ F, ∀ fuel, F ≤ fuel → ∃ pdd, PDD S 2 false false 0 fuel = .ok pdd ∧
      ∃ r, pdd[(i : ℕ)]? = some r ∧ r.dists = [√41, 14] ∧ ¬ IsNeighbourRow S.motif S.cell i 2 r.dists := by
  refine ⟨cornerSet, ⟨0, by decide⟩, cornerSet_nonSingular, cornerSet_reduced, cornerSet_fits, 20, fun fuel hf => ?_⟩
  refine ⟨[⟨1 / 4, [√41, 14], [0]⟩, ⟨1 / 4, [√41, √77], [1]⟩, ⟨1 / 4, [√14, 9], [2]⟩, ⟨1 / 4, [√14, √77], [3]⟩], ?_, _, rfl, rfl, ?_⟩
  · have hu : cornerSet.Units (List.finRange 4) [1, 1, 1, 1] := Or.inr ⟨Or.inl rfl, rfl, rfl⟩
    have hx : ((List.finRange 4).map fun i : Fin cornerSet.motif.length => cornerSet.motif[i]) = cornerSet.motif :=
      map_finRange_getElem cornerSet.motif
    rw [PDD_eq hu, hx, cornerSet_rows fuel hf]
    simp [bind, Except.bind, cornerSet, cornerMotif, collapseRows, lexsortRows, show List.range 4 = [0, 1, 2, 3] from rfl]
  · rintro ⟨_, idx, hnd, e, _, hout⟩
    let i₀ : Fin cornerSet.motif.length := ⟨0, by decide⟩
    let s : Site cornerSet.motif.length 3 := (⟨1, by decide⟩, ![2, 1, 0])
    have hs : eucl cornerSet.motif[i₀] (sitePos cornerSet.motif cornerSet.cell s) = √193 := by
      have h0 : cornerSet.motif[i₀] = castPt ![16, 9, 18] := rfl
      have h1 : cornerSet.motif[s.1] = castPt ![1, 7, 12] := rfl
      simp only [eucl, sqDist, sitePos, h0, h1]
      simp [ s, cornerSet, cornerCell, castPt, Fin.sum_univ_three]
      norm_num
    have hne : s ≠ (i₀, 0) := by
      intro h
      have := congrArg (fun t : Site cornerSet.motif.length 3 => t.1.1) h
      simp [s, i₀] at this
    have hlt : √193 < (14 : ℝ) := by
      rw [Real.sqrt_lt' (by norm_num)]; norm_num
    have hgt : √41 < √193 := Real.sqrt_lt_sqrt (by norm_num) (by norm_num)
    have hnot : (⟨s, hne⟩ : {s : Site cornerSet.motif.length 3 // s ≠ (i₀, 0)}) ∉ idx := by
      intro hmem
      have := List.mem_map_of_mem (f := fun s : {s : Site cornerSet.motif.length 3 // s ≠ (i₀, 0)} =>
        eucl cornerSet.motif[i₀] (sitePos cornerSet.motif cornerSet.cell s.1)) hmem
      rw [← e] at this
      simp only [List.mem_cons, List.not_mem_nil, or_false] at this
      rw [hs] at this
      rcases this with h | h
      · exact absurd h hgt.ne'
      · exact absurd h hlt.ne
    have h14 : (14 : ℝ) ≤ eucl cornerSet.motif[i₀] (sitePos cornerSet.motif cornerSet.cell s) :=
      hout _ hnot 14 (by simp)
    rw [hs] at h14
    linarith

end Amd
