import Verif.Props.Invariance

/-!
# What fails for skewed cells

The theorems of C02, C18 and C51 exclude skewed cells with small `k`. The witnesses here show that this
cannot be dropped: all three motifs lie inside their (non-singular) unit cells.
-/

namespace Amd

/-! ### C02 -/

/-- **C02** is false in general: for the one-point motif in the cell (10, 0), (-30, 1), `AMD` with `k = 1` is
`[10]`, but the distance to the nearest other point of the set is at most 1. -/
theorem C02_false : ∃ (S : PeriodicSet 2) (i : Fin S.motif.length), NonSingular S.cell ∧ FitsInCell S.motif S.cell ∧
    S.motif.length = 1 ∧ S.asymUnit = none ∧ (∃ F, ∀ fuel, F ≤ fuel → AMD S 1 fuel = .ok [10]) ∧
      ∀ row, IsNeighbourRow S.motif S.cell i 1 row → row.getD 0 0 ≤ 1 := by
  refine ⟨skewSet, ⟨0, by decide⟩, skewSet_nonSingular, ⟨0, ?_⟩, rfl, rfl,
    ⟨20, fun fuel hf => AMD_single rfl rfl (skewSet_rows fuel hf)⟩, ?_⟩
  · intro q hq
    refine ⟨0, by simp, ?_⟩
    simp only [skewSet, List.mem_singleton] at hq
    subst hq
    funext j
    fin_cases j <;> simp [castPt]
  · rintro row ⟨hlen, idx, hnd, e, hsorted, hout⟩
    have h0 : 0 < row.length := by omega
    rw [List.getD_eq_getElem _ _ h0]
    let i₀ : Fin skewSet.motif.length := ⟨0, by decide⟩
    let s : Site skewSet.motif.length 2 := (i₀, ![3, 1])
    have hs : eucl skewSet.motif[i₀] (sitePos skewSet.motif skewSet.cell s) = 1 := by
      simp [eucl, sqDist, sitePos, s, i₀, skewSet, castPt, Fin.sum_univ_two]
      norm_num
    have hnes : s ≠ (i₀, 0) := by
      intro h
      have := congrFun (congrArg Prod.snd h) 0
      simp [s] at this
    by_cases hmem : (⟨s, hnes⟩ : {s : Site skewSet.motif.length 2 // s ≠ (i₀, 0)}) ∈ idx
    · have hin := List.mem_map_of_mem (f := fun s : {s : Site skewSet.motif.length 2 // s ≠ (i₀, 0)} =>
        eucl skewSet.motif[i₀] (sitePos skewSet.motif skewSet.cell s.1)) hmem
      simp only [hs] at hin
      have hin' : (1 : ℝ) ∈ row := by rw [e]; exact hin
      obtain ⟨b, hb, hb1⟩ := List.getElem_of_mem hin'
      rw [← hb1]
      rcases Nat.eq_zero_or_pos b with hb0 | hb0
      · subst hb0; exact le_refl _
      · exact List.pairwise_iff_getElem.mp hsorted 0 b h0 hb hb0
    · have h10 : row[0] ≤ eucl skewSet.motif[i₀] (sitePos skewSet.motif skewSet.cell s) :=
        hout _ hmem _ (List.getElem_mem _)
      rwa [hs] at h10

/-! ### C18 -/

/-- The motif of the counterexample to C18. -/
noncomputable def orbitMotif : List (Pt 2 ℝ) := [castPt ![0, 0], castPt ![-3, 1], castPt ![-4, 2]]

/-- Its cell: (3, 0) and (-10, 3). -/
noncomputable def orbitCell : Fin 2 → Pt 2 ℝ := fun i => castPt ((![![3, 0], ![-10, 3]] : Fin 2 → Pt 2 ℤ) i)

theorem orbit_nonSingular : NonSingular orbitCell := by
  have e : orbitCell = ![(![3, 0] : Pt 2 ℝ), ![-10, 3]] := by
    funext i j
    fin_cases i <;> fin_cases j <;> simp [orbitCell, castPt]
  rw [NonSingular, e, LinearIndependent.pair_iff' (by simp)]
  intro a h
  have := congrFun h 1
  simp at this

theorem orbit_fits : FitsInCell orbitMotif orbitCell := by
  refine ⟨0, fun q hq => ?_⟩
  simp only [orbitMotif, List.mem_cons, List.not_mem_nil, or_false] at hq
  rcases hq with rfl | rfl | rfl
  · refine ⟨0, by simp, ?_⟩
    funext j
    fin_cases j <;> simp [castPt]
  · refine ⟨![1 / 9, 1 / 3], fun i => by fin_cases i <;> norm_num, ?_⟩
    funext j
    fin_cases j
    · simp [castPt, orbitCell, Fin.sum_univ_two]; norm_num
    · simp [castPt, orbitCell, Fin.sum_univ_two]
  · refine ⟨![8 / 9, 2 / 3], fun i => by fin_cases i <;> norm_num, ?_⟩
    funext j
    fin_cases j
    · simp [castPt, orbitCell, Fin.sum_univ_two]; norm_num
    · simp [castPt, orbitCell, Fin.sum_univ_two]

theorem orbit_sitePos (i : Fin orbitMotif.length) (n : Fin 2 → ℤ) :
    sitePos orbitMotif orbitCell (i, n) = orbitMotif[i] + ![3 * (n 0 : ℝ) + -10 * n 1, 3 * n 1] := by
  funext j
  fin_cases j <;> simp [sitePos, orbitCell, castPt, Fin.sum_univ_two] <;> ring

theorem orbit_cases (i : Fin orbitMotif.length) : i = ⟨0, by decide⟩ ∨ i = ⟨1, by decide⟩ ∨ i = ⟨2, by decide⟩ := by
  obtain ⟨v, hv⟩ := i
  have : v < 3 := hv
  simp only [Fin.mk.injEq]
  omega

/-- The point reflection at the centre of the cell is a symmetry of the set. -/
theorem orbit_neg : IsSymmetry (periodicPoints orbitMotif orbitCell) (fun p => ![-7, 3] - p) := by
  have key : ∀ q ∈ periodicPoints orbitMotif orbitCell, ![-7, 3] - q ∈ periodicPoints orbitMotif orbitCell := by
    rintro q ⟨⟨i, n⟩, rfl⟩
    rcases orbit_cases i with rfl | rfl | rfl
    · refine ⟨((⟨0, by decide⟩ : Fin orbitMotif.length), ![1 - n 0, 1 - n 1]), ?_⟩
      rw [orbit_sitePos, orbit_sitePos]
      funext j
      fin_cases j
      · simp [orbitMotif, castPt, Matrix.vecHead, Matrix.vecTail]; ring
      · simp [orbitMotif, castPt, Matrix.vecHead, Matrix.vecTail]; ring
    · refine ⟨((⟨2, by decide⟩ : Fin orbitMotif.length), ![-n 0, -n 1]), ?_⟩
      rw [orbit_sitePos, orbit_sitePos]
      funext j
      fin_cases j
      · simp [orbitMotif, castPt, Matrix.vecHead, Matrix.vecTail]; ring
      · simp [orbitMotif, castPt, Matrix.vecHead, Matrix.vecTail]; ring
    · refine ⟨((⟨1, by decide⟩ : Fin orbitMotif.length), ![-n 0, -n 1]), ?_⟩
      rw [orbit_sitePos, orbit_sitePos]
      funext j
      fin_cases j
      · simp [orbitMotif, castPt, Matrix.vecHead, Matrix.vecTail]; ring
      · simp [orbitMotif, castPt, Matrix.vecHead, Matrix.vecTail]; ring
  refine ⟨fun p q => ?_, key, fun q hq => ⟨![-7, 3] - q, key q hq, sub_sub_cancel _ _⟩⟩
  simp only [eucl, sqDist, Pi.sub_apply]
  congr 1
  exact Finset.sum_congr rfl fun j _ => by ring

theorem orbit_injective : Function.Injective (sitePos orbitMotif orbitCell) := by
  rintro ⟨i, n⟩ ⟨i', n'⟩ h
  rw [orbit_sitePos, orbit_sitePos] at h
  have hm : ∀ i : Fin orbitMotif.length, orbitMotif[i] = castPt ((![![0, 0], ![-3, 1], ![-4, 2]] : Fin 3 → Pt 2 ℤ) i) := by
    intro i
    rcases orbit_cases i with rfl | rfl | rfl <;> rfl
  rw [hm, hm] at h
  have h0 : (![![0, 0], ![-3, 1], ![-4, 2]] : Fin 3 → Pt 2 ℤ) i 0 + (3 * n 0 + -10 * n 1) =
      (![![0, 0], ![-3, 1], ![-4, 2]] : Fin 3 → Pt 2 ℤ) i' 0 + (3 * n' 0 + -10 * n' 1) := by
    have := congrFun h 0
    simp only [Pi.add_apply, castPt, Matrix.cons_val_zero] at this
    exact_mod_cast this
  have h1 : (![![0, 0], ![-3, 1], ![-4, 2]] : Fin 3 → Pt 2 ℤ) i 1 + 3 * n 1 =
      (![![0, 0], ![-3, 1], ![-4, 2]] : Fin 3 → Pt 2 ℤ) i' 1 + 3 * n' 1 := by
    have := congrFun h 1
    simp only [Pi.add_apply, castPt, Matrix.cons_val_one, Matrix.cons_val_zero] at this
    exact_mod_cast this
  change Fin 3 at i i'
  have fin : i = i' → n 0 = n' 0 → n 1 = n' 1 → (i, n) = (i', n') := by
    intro e e0 e1
    have : n = n' := by
      funext j
      fin_cases j
      · exact e0
      · exact e1
    rw [this, e]
  fin_cases i <;> fin_cases i' <;> simp at h0 h1 <;>
    first
      | exact fin rfl (by omega) (by omega)
      | omega

theorem orbit_asymUnit : IsAsymUnit orbitMotif orbitCell [⟨0, by decide⟩, ⟨1, by decide⟩] [1, 2] := by
  refine ⟨fun i => if i.val = 0 then ⟨0, by simp⟩ else ⟨1, by simp⟩, by decide, fun i => ?_⟩
  rcases orbit_cases i with rfl | rfl | rfl
  · exact ⟨id, ⟨fun _ _ => rfl, fun _ h => h, fun q h => ⟨q, h, rfl⟩⟩, rfl⟩
  · exact ⟨id, ⟨fun _ _ => rfl, fun _ h => h, fun q h => ⟨q, h, rfl⟩⟩, rfl⟩
  · refine ⟨_, orbit_neg, ?_⟩
    show ![-7, 3] - castPt ![-4, 2] = castPt ![-3, 1]
    funext j
    fin_cases j <;> simp [castPt] <;> norm_num

theorem orbit_rows_unit (fuel : ℕ) (hf : 20 ≤ fuel) :
    nearestNeighbors orbitMotif orbitCell [castPt ![0, 0], castPt ![-3, 1]] 2 fuel = .ok [[0, 1], [0, 1]] := by
  have h : nearestNeighborsSq (K := ℤ) nearInt [![0, 0], ![-3, 1], ![-4, 2]] ![![3, 0], ![-10, 3]]
      [![0, 0], ![-3, 1]] 2 20 = .ok [[0, 1], [0, 1]] := by
    decide +kernel
  have h2 := nearestNeighbors_cast _ _ _ _ _ h
  simp only [List.map_cons, List.map_nil, Int.cast_zero, Real.sqrt_zero, Int.cast_one, Real.sqrt_one] at h2
  exact nearestNeighbors_fuel hf h2

theorem orbit_rows_all (fuel : ℕ) (hf : 20 ≤ fuel) :
    nearestNeighbors orbitMotif orbitCell orbitMotif 2 fuel = .ok [[0, 1], [0, 1], [0, √2]] := by
  have h : nearestNeighborsSq (K := ℤ) nearInt [![0, 0], ![-3, 1], ![-4, 2]] ![![3, 0], ![-10, 3]]
      [![0, 0], ![-3, 1], ![-4, 2]] 2 20 = .ok [[0, 1], [0, 1], [0, 2]] := by
    decide +kernel
  have h2 := nearestNeighbors_cast _ _ _ _ _ h
  simp only [List.map_cons, List.map_nil, Int.cast_zero, Real.sqrt_zero, Int.cast_ofNat, Int.cast_one,
    Real.sqrt_one] at h2
  exact nearestNeighbors_fuel hf h2

/-- **C18** is false in general: the motif (0, 0), (-3, 1), (-4, 2) in the cell (3, 0), (-10, 3) is symmetric under
the point reflection at the centre of the cell, which exchanges the last two points. With the asymmetric unit
formed by the first two, `AMD` with `k = 1` is `[1]`, without it `[(2 + √2) / 3]`. -/
theorem C18_false : ∃ (motif : List (Pt 2 ℝ)) (cell : Fin 2 → Pt 2 ℝ) (inds : List (Fin motif.length)) (mult : List ℕ),
    NonSingular cell ∧ FitsInCell motif cell ∧ Function.Injective (sitePos motif cell) ∧ IsAsymUnit motif cell inds mult ∧
    ∃ a a' : List ℝ, a ≠ a' ∧ ∃ F, ∀ fuel, F ≤ fuel →
      AMD { motif := motif, cell := cell, asymUnit := some (inds.map Fin.val), multiplicities := some mult } 1 fuel = .ok a ∧
      AMD { motif := motif, cell := cell } 1 fuel = .ok a' := by
  refine ⟨orbitMotif, orbitCell, [⟨0, by decide⟩, ⟨1, by decide⟩], [1, 2], orbit_nonSingular, orbit_fits, orbit_injective,
    orbit_asymUnit, [1], [(1 + 1 + √2) / 3], ?_, 20, fun fuel hf => ⟨?_, ?_⟩⟩
  · intro h
    rw [List.cons.injEq] at h
    have h1 : √2 = 1 := by linarith [h.1]
    have h2 := Real.sq_sqrt (show (0 : ℝ) ≤ 2 by norm_num)
    rw [h1] at h2
    norm_num at h2
  · have e : asymPoints ({ motif := orbitMotif, cell := orbitCell, asymUnit := some [0, 1], multiplicities := some [1, 2] } : PeriodicSet 2) =
        .ok ([castPt ![0, 0], castPt ![-3, 1]], [1, 2]) := rfl
    show AMD ({ motif := orbitMotif, cell := orbitCell, asymUnit := some [0, 1], multiplicities := some [1, 2] } : PeriodicSet 2) 1 fuel = _
    simp only [AMD, e, bind, Except.bind, orbit_rows_unit fuel hf]
    simp [averageColumnsExceptFirst, addRows, bind, Except.bind]
    norm_num
  · have e : asymPoints ({ motif := orbitMotif, cell := orbitCell } : PeriodicSet 2) = .ok (orbitMotif, [1, 1, 1]) := rfl
    simp only [AMD, e, bind, Except.bind, orbit_rows_all fuel hf]
    simp [averageColumnsExceptFirst, addRows, bind, Except.bind]
    norm_num

/-! ### C51 -/

/-- The cell of the counterexample to C51: (4, 0) and (28, 2). -/
noncomputable def moveCell : Fin 2 → Pt 2 ℝ := fun i => castPt ((![![4, 0], ![28, 2]] : Fin 2 → Pt 2 ℤ) i)

theorem move_nonSingular : NonSingular moveCell := by
  have e : moveCell = ![(![4, 0] : Pt 2 ℝ), ![28, 2]] := by
    funext i j
    fin_cases i <;> fin_cases j <;> simp [moveCell, castPt]
  rw [NonSingular, e, LinearIndependent.pair_iff' (by simp)]
  intro a h
  have := congrFun h 1
  simp at this

theorem move_fits (u : ℝ) (h0 : 0 ≤ u) (h1 : u < 1) (p : Pt 2 ℤ) (hx : (p 0 : ℝ) = 14 + 4 * u) (hy : p 1 = 1) :
    FitsInCell [castPt ![0, 0], castPt p] moveCell := by
  refine ⟨0, fun q hq => ?_⟩
  simp only [List.mem_cons, List.not_mem_nil, or_false] at hq
  rcases hq with rfl | rfl
  · refine ⟨0, by simp, ?_⟩
    funext j
    fin_cases j <;> simp [castPt]
  · refine ⟨![u, 1 / 2], fun i => ?_, ?_⟩
    · fin_cases i
      · exact ⟨h0, h1⟩
      · norm_num
    · funext j
      fin_cases j
      · simp [castPt, moveCell, Fin.sum_univ_two, hx]; ring
      · simp [castPt, moveCell, Fin.sum_univ_two, hy]

theorem move_rows (p : Pt 2 ℤ) (c : ℤ) (fuel : ℕ) (hf : 20 ≤ fuel)
    (h : nearestNeighborsSq (K := ℤ) nearInt [![0, 0], p] ![![4, 0], ![28, 2]] [![0, 0], p] 2 20 = .ok [[0, c], [0, c]]) :
    AMD { motif := [castPt ![0, 0], castPt p], cell := moveCell } 1 fuel = .ok [√c] := by
  have h2 := nearestNeighbors_cast _ _ _ _ _ h
  simp only [List.map_cons, List.map_nil, Int.cast_zero, Real.sqrt_zero] at h2
  have h3 : nearestNeighbors [castPt ![0, 0], castPt p] moveCell [castPt ![0, 0], castPt p] 2 fuel = _ := nearestNeighbors_fuel hf h2
  have e : asymPoints ({ motif := [castPt ![0, 0], castPt p], cell := moveCell } : PeriodicSet 2) = .ok ([castPt ![0, 0], castPt p], [1, 1]) := rfl
  simp only [AMD, e, bind, Except.bind, h3]
  simp [averageColumnsExceptFirst, addRows, bind, Except.bind]
  norm_num

/-- **C51** is false in general: in the cell (4, 0), (28, 2) with the motif (0, 0), (15, 1), `AMD` with `k = 1` is
`[√2]`; moving the second point by 1 to (16, 1) changes it to `[4]`, by more than twice the displacement. -/
theorem C51_false : ∃ (motif motif' : List (Pt 2 ℝ)) (cell : Fin 2 → Pt 2 ℝ),
    NonSingular cell ∧ FitsInCell motif cell ∧ FitsInCell motif' cell ∧
    List.Forall₂ (fun p q => eucl p q ≤ 1) motif motif' ∧
    ∃ a a' : ℝ, 2 * 1 < |a - a'| ∧ ∃ F, ∀ fuel, F ≤ fuel →
      AMD { motif := motif, cell := cell } 1 fuel = .ok [a] ∧ AMD { motif := motif', cell := cell } 1 fuel = .ok [a'] := by
  refine ⟨[castPt ![0, 0], castPt ![15, 1]], [castPt ![0, 0], castPt ![16, 1]], moveCell, move_nonSingular,
    move_fits (1 / 4) (by norm_num) (by norm_num) _ (by norm_num) rfl, move_fits (1 / 2) (by norm_num) (by norm_num) _ (by norm_num) rfl,
    ?_, √(2 : ℤ), √(16 : ℤ), ?_, 20, fun fuel hf => ⟨?_, ?_⟩⟩
  · refine List.Forall₂.cons ?_ (List.Forall₂.cons ?_ List.Forall₂.nil)
    · simp [eucl, sqDist]
    · simp [eucl, sqDist, castPt, Fin.sum_univ_two]
      norm_num
  · have h4 : √((16 : ℤ) : ℝ) = 4 := by
      rw [show ((16 : ℤ) : ℝ) = 4 ^ 2 by norm_num]; exact Real.sqrt_sq (by norm_num)
    have h2 : √((2 : ℤ) : ℝ) < 1.5 := by
      rw [Real.sqrt_lt' (by norm_num)]
      norm_num
    rw [h4, abs_sub_comm, lt_abs]
    left
    norm_num at h2 ⊢
    linarith
  · exact move_rows _ _ _ hf (by decide +kernel)
  · exact move_rows _ _ _ hf (by decide +kernel)

end Amd
