import Verif.Props.Repeated

/-!
# C90: examples, and what does not hold

Points on a line, repeated with period 1.
-/

namespace Amd

/-- Points on a line with period 1. -/
def lineSet (l : List ℝ) : PeriodicSet 1 := { motif := l.map fun x => ![x], cell := ![![1]] }

theorem lineSet_nonSingular (l : List ℝ) : NonSingular (lineSet l).cell := by
  show LinearIndependent ℝ (![![1]] : Fin 1 → Pt 1 ℝ)
  rw [linearIndependent_unique_iff]
  intro h
  have := congrFun h 0
  simp at this

theorem lineSet_half (l : List ℝ) : HalfDominant (lineSet l).cell := by
  intro i
  fin_cases i
  simp [gram, lineSet]

theorem lineSet_fits {l : List ℝ} (h : ∀ x ∈ l, 0 ≤ x ∧ x < 1) : FitsInCell (lineSet l).motif (lineSet l).cell := by
  refine ⟨0, fun q hq => ?_⟩
  obtain ⟨x, hx, rfl⟩ := List.mem_map.1 hq
  refine ⟨fun _ => x, fun _ => h x hx, ?_⟩
  funext j
  fin_cases j
  simp [lineSet]

theorem lineSet_listing {l : List ℝ} (h : l ≠ []) :
    IsListing (lineSet l) (List.finRange (lineSet l).motif.length) (List.replicate (lineSet l).motif.length 1) :=
  isListing_full (lineSet_nonSingular l) (by simpa [lineSet] using h)

theorem lineSet_pt (l : List ℝ) (i : Fin (lineSet l).motif.length) : (lineSet l).motif[i] = ![l[i.1]'(by simpa [lineSet] using i.2)] := by
  show (l.map fun x => ![x])[i.1]'(by simpa [lineSet] using i.2) = _
  rw [List.getElem_map]

theorem lineSet_pos (l : List ℝ) (i : Fin (lineSet l).motif.length) (n : Fin 1 → ℤ) :
    sitePos (lineSet l).motif (lineSet l).cell (i, n) = ![l[i.1]'(by simpa [lineSet] using i.2) + n 0] := by
  funext j
  fin_cases j
  show (lineSet l).motif[i] 0 + ∑ c : Fin 1, (n c : ℝ) * (lineSet l).cell c 0 = _
  rw [lineSet_pt]
  simp [lineSet]

/-- A point listed twice, and the set turned round and shifted, with the points in another order. -/
example : IsometricListed (lineSet [0, 0, 1 / 4]) (lineSet [1 / 2, 3 / 4, 3 / 4]) := by
  let T : Pt 1 ℝ → Pt 1 ℝ := fun p => ![3 / 4 - p 0]
  have hT : ∀ p q, eucl (T p) (T q) = eucl p q := by
    intro p q
    simp only [eucl, sqDist, T, Fin.sum_univ_one, Matrix.cons_val_zero]
    congr 1
    ring
  refine ⟨T, carries_of_pairing hT ((Fin.revPerm (n := 3)).prodCongr (Equiv.neg _)) ?_⟩
  rintro ⟨i, n⟩
  show sitePos (lineSet [1 / 2, 3 / 4, 3 / 4]).motif _ (Fin.rev (n := 3) i, -n) = T (sitePos (lineSet [0, 0, 1 / 4]).motif _ (i, n))
  refine (lineSet_pos _ _ _).trans (Eq.trans ?_ (congrArg T (lineSet_pos _ i n).symm))
  funext j
  fin_cases j
  revert i
  show ∀ i : Fin 3, _
  intro i
  fin_cases i <;> simp [T, Fin.rev] <;> ring

/-- It meets the conditions of `C90_amd_partial`, `C90_pdd_partial`: both sets are listings, have cells that are not oblique, and fit them. -/
example : IsListing (lineSet [0, 0, 1 / 4]) (List.finRange 3) [1, 1, 1] ∧ HalfDominant (lineSet [0, 0, 1 / 4]).cell ∧
    FitsInCell (lineSet [0, 0, 1 / 4]).motif (lineSet [0, 0, 1 / 4]).cell ∧ ¬ Function.Injective (sitePos (lineSet [0, 0, 1 / 4]).motif (lineSet [0, 0, 1 / 4]).cell) := by
  refine ⟨lineSet_listing (by simp), lineSet_half _, lineSet_fits ?_, fun h => ?_⟩
  · intro x hx
    fin_cases hx <;> norm_num
  · have := @h (⟨0, by decide⟩, 0) (⟨1, by decide⟩, 0) (by rw [lineSet_pos, lineSet_pos]; rfl)
    simp at this

/-- **C90** It is not enough that the points are the same: if every point is listed twice, the nearest neighbour of each is its copy, at distance 0. -/
theorem C90_times : ∃ S S' : PeriodicSet 1, (∃ inds mult, IsListing S inds mult) ∧ (∃ inds mult, IsListing S' inds mult) ∧ HalfDominant S.cell ∧ HalfDominant S'.cell ∧
    FitsInCell S.motif S.cell ∧ FitsInCell S'.motif S'.cell ∧ periodicPoints S.motif S.cell = periodicPoints S'.motif S'.cell ∧
    ∃ F, ∀ fuel, F ≤ fuel → AMD S 1 fuel = .ok [1] ∧ AMD S' 1 fuel = .ok [0] := by
  have f1 : FitsInCell (lineSet [0]).motif (lineSet [0]).cell := lineSet_fits (by simp)
  have f2 : FitsInCell (lineSet [0, 0]).motif (lineSet [0, 0]).cell := lineSet_fits (by simp)
  have l1 := lineSet_listing (l := [0]) (by simp)
  have l2 := lineSet_listing (l := [0, 0]) (by simp)
  have s1 := searchable_of_halfDominant (by norm_num) (lineSet_half [0]) f1 (1 + 1)
  have s2 := searchable_of_halfDominant (by norm_num) (lineSet_half [0, 0]) f2 (1 + 1)
  obtain ⟨a, _, F, hF⟩ := C10_terminates (by norm_num) l1.units l1.inds_ne l1.cell 1 false false 0
  obtain ⟨b, _, F', hF'⟩ := C10_terminates (by norm_num) l2.units l2.inds_ne l2.cell 1 false false 0
  have r1 : ∀ i, IsNeighbourRow (lineSet [0]).motif (lineSet [0]).cell i 1 [1] := by
    intro i
    have hi : i = ⟨0, by decide⟩ := Subsingleton.elim (α := Fin 1) _ _
    subst hi
    refine ⟨rfl, [⟨(⟨0, by decide⟩, fun _ => 1), fun h => by have := congrFun (congrArg Prod.snd h) 0; simp at this⟩], by simp, ?_, by simp, ?_⟩
    · simp only [List.map_cons, List.map_nil, List.cons.injEq, and_true]
      rw [lineSet_pos, lineSet_pt]
      simp [eucl, sqDist]
    · rintro ⟨⟨j, n⟩, hne⟩ - r hr
      rw [List.mem_singleton.1 hr]
      have hj : j = ⟨0, by decide⟩ := Subsingleton.elim (α := Fin 1) _ _
      subst hj
      have hn : n 0 ≠ 0 := fun h0 => hne (Prod.ext rfl (funext fun c => by fin_cases c; exact h0))
      have : (1 : ℝ) ≤ |(n 0 : ℝ)| := by exact_mod_cast Int.one_le_abs hn
      beta_reduce
      rw [lineSet_pos, lineSet_pt]
      simpa [eucl, sqDist, Real.sqrt_sq_eq_abs] using this
  have r2 : ∀ i, IsNeighbourRow (lineSet [0, 0]).motif (lineSet [0, 0]).cell i 1 [0] := by
    intro i
    let j : Fin (lineSet [0, 0]).motif.length := (Fin.rev (n := 2) i)
    have hij : j ≠ i := (by decide : ∀ i : Fin 2, Fin.rev i ≠ i) i
    have hl : ∀ i : Fin 2, [(0 : ℝ), 0][i.1] = 0 := by
      intro i
      fin_cases i <;> rfl
    refine ⟨rfl, [⟨(j, 0), fun h => hij (congrArg Prod.fst h)⟩], by simp, ?_, by simp, ?_⟩
    · simp only [List.map_cons, List.map_nil, List.cons.injEq, and_true]
      rw [lineSet_pos, lineSet_pt, hl i, hl j]
      simp [eucl, sqDist]
    · rintro s - r hr
      rw [List.mem_singleton.1 hr]
      exact eucl_nonneg _ _
  have e1 := AMD_eq_rows (by norm_num) l1.units l1.inds_ne s1 (hF F le_rfl).1 fun i _ => r1 i
  have e2 := AMD_eq_rows (by norm_num) l2.units l2.inds_ne s2 (hF' F' le_rfl).1 fun i _ => r2 i
  have e1' : a = [1] := by rw [e1]; simp [lineSet, List.finRange]
  have e2' : b = [0] := by rw [e2]; simp [lineSet, List.finRange]
  refine ⟨lineSet [0], lineSet [0, 0], ⟨_, _, l1⟩, ⟨_, _, l2⟩, lineSet_half _, lineSet_half _, f1, f2, ?_, max F F', fun fuel hf => ?_⟩
  · ext p
    constructor
    · rintro ⟨⟨i, n⟩, rfl⟩
      refine ⟨(⟨0, by decide⟩, n), ?_⟩
      have hi : i = ⟨0, by decide⟩ := Subsingleton.elim (α := Fin 1) _ _
      subst hi
      rw [lineSet_pos, lineSet_pos]
      rfl
    · rintro ⟨⟨i, n⟩, rfl⟩
      refine ⟨(⟨0, by decide⟩, n), ?_⟩
      rw [lineSet_pos, lineSet_pos]
      revert i
      show ∀ i : Fin 2, _
      intro i
      fin_cases i <;> rfl
  · rw [(hF fuel (by omega)).1, (hF' fuel (by omega)).1, e1', e2']
    exact ⟨rfl, rfl⟩

/-- **C90** is false in general, as C66 is: already for two cells of the same lattice. -/
theorem C90_false : ∃ (S S' : PeriodicSet 2) (inds : List (Fin S.motif.length)) (inds' : List (Fin S'.motif.length)) (mult mult' : List ℕ),
    IsListing S inds mult ∧ IsListing S' inds' mult' ∧ IsometricListed S S' ∧ ∃ F, ∀ fuel, F ≤ fuel → AMD S 1 fuel = .ok [10] ∧ AMD S' 1 fuel = .ok [1] := by
  obtain ⟨S, S', inds, inds', mult, mult', h, h', hiso, hF⟩ := C66_false
  exact ⟨S, S', inds, inds', mult, mult', C90_description h, C90_description h', (C90_isometric h h').2 hiso, hF⟩

end Amd
