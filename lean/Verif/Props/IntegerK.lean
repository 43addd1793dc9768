import Verif.Proof.IntegerK
import Verif.Props.Compare

/-!
# C101: a negative number of neighbours

`k` is any integer. `CErr.run .value` is ValueError, `CErr.run .bounds` is IndexError.
-/

namespace Amd

variable {D : ℕ} {S : PeriodicSet D} {inds : List (Fin S.motif.length)} {mult : List ℕ}

/-- **C101** For the natural numbers the functions are those of the other models. -/
theorem C101_natural (hD : 0 < D) (hu : S.Units inds mult) (hne : inds ≠ []) (k : ℕ) (lexsort collapse : Bool) (tol : ℝ) (fuel : ℕ) :
    AMDInt S (k : ℤ) fuel = AMD S k fuel ∧ PDDInt S (k : ℤ) lexsort collapse tol fuel = PDD S k lexsort collapse tol fuel := by
  have hnn := nearestNeighborsInt_natural (cell := S.cell) hD (x := inds.map fun i => S.motif[i]) (by simpa using hne) (units_motif hne) (k := k + 1) (by omega) fuel
  push_cast at hnn
  rw [AMDInt_eq hu, AMD_eq hu, PDDInt_eq hu, PDD_eq hu, hnn]
  cases h : nearestNeighbors S.motif S.cell (inds.map fun i => S.motif[i]) (k + 1) fuel with
  | error e => exact ⟨rfl, rfl⟩
  | ok rows =>
    obtain ⟨h1, h2⟩ := nearestNeighbors_length hD hne h
    have hl : (rows.head?.getD []).length = k + 1 := head_length (fun h => hne (List.length_eq_zero_iff.1 (by rw [← h1, h]; rfl))) h2
    simp only [bind, Except.bind, hl, Nat.add_sub_cancel, if_neg (by omega : ¬(k : ℤ) + 1 < 0)]
    exact ⟨trivial, trivial⟩

/-- **C101** `PDD` refuses every negative `k`: with an IndexError for -1 and a ValueError for all others. -/
theorem C101_pdd (hD : 0 < D) (hcell : NonSingular S.cell) (hu : S.Units inds mult) (hne : inds ≠ []) {k : ℤ} (hk : k < 0) (lexsort collapse : Bool) (tol : ℝ) :
    ∃ F, ∀ fuel ≥ F, PDDInt S k lexsort collapse tol fuel = .error (if k = -1 then .bounds else .value) := by
  have hx : (inds.map fun i => S.motif[i]) ≠ [] := by simpa using hne
  by_cases h1 : k = -1
  · subst h1
    refine ⟨1, fun fuel hf => ?_⟩
    obtain ⟨f, rfl⟩ : ∃ f, fuel = f + 1 := ⟨fuel - 1, by omega⟩
    rw [PDDInt_eq hu, show (-1 : ℤ) + 1 = 0 by norm_num, nearestNeighborsInt_zero hD hx (units_motif hne)]
    rfl
  · obtain ⟨F, hF⟩ := nearestNeighborsInt_negative hD hx units_points hcell (k := k + 1) (by omega)
    refine ⟨F, fun fuel hf => ?_⟩
    rw [PDDInt_eq hu, if_neg h1]
    rcases hF fuel hf with h | ⟨n, rows, _, _, h, hl, _⟩
    · rw [h]
      rfl
    · rw [h]
      have hl' : mult.length = rows.length := by rw [hl, List.length_map, units_length hu]
      simp only [bind, Except.bind, ne_eq, hl', not_true_eq_false, if_false, if_pos (by omega : k + 1 < 0)]

/-- **C101** `AMD` refuses `k = -1`, and every negative `k` with at least `m (2 D + 1)` for `-k - 1`, where `m` is the number of motif points and `D` the dimension. For the `k` between it ends, but it
may return a list; its length then is not `k` but `m (2 D + 1) + k`. Missing: that it refuses these `k`, which is false (`C101_false`). -/
theorem C101_amd_partial (hD : 0 < D) (hcell : NonSingular S.cell) (hu : S.Units inds mult) (hne : inds ≠ []) {k : ℤ} (hk : k < 0) :
    (k = -1 → ∀ fuel > 0, AMDInt S k fuel = .error .bounds) ∧ (k + 1 ≤ -((2 * D + 1) * S.motif.length : ℕ) → ∀ fuel, AMDInt S k fuel = .error .value) ∧
      ∃ F, ∀ fuel ≥ F, AMDInt S k fuel = .error (if k = -1 then .bounds else .value) ∨ ∃ a, AMDInt S k fuel = .ok a ∧ (a.length : ℤ) = (2 * D + 1) * S.motif.length + k := by
  have hx : (inds.map fun i => S.motif[i]) ≠ [] := by simpa using hne
  have hone : ∀ fuel > 0, AMDInt S (-1) fuel = .error .bounds := by
    intro fuel hf
    obtain ⟨f, rfl⟩ : ∃ f, fuel = f + 1 := ⟨fuel - 1, by omega⟩
    rw [AMDInt_eq hu, show (-1 : ℤ) + 1 = 0 by norm_num, nearestNeighborsInt_zero hD hx (units_motif hne)]
    rfl
  refine ⟨?_, ?_, ?_⟩
  · rintro rfl
    exact hone
  · intro h fuel
    rw [AMDInt_eq hu, nearestNeighborsInt_large hD hx (units_motif hne) h]
    rfl
  · by_cases h1 : k = -1
    · subst h1
      exact ⟨1, fun fuel hf => .inl (hone fuel hf)⟩
    · obtain ⟨F, hF⟩ := nearestNeighborsInt_negative hD hx units_points hcell (k := k + 1) (by omega)
      refine ⟨F, fun fuel hf => ?_⟩
      rw [AMDInt_eq hu, if_neg h1]
      rcases hF fuel hf with h | ⟨n, rows, hn0, hn, h, hl, hr⟩
      · rw [h]
        exact .inl rfl
      · rw [h]
        have hl' : rows.length = (mult.map fun n : ℕ => (n : ℝ)).length := by rw [hl, List.length_map, List.length_map, units_length hu]
        obtain ⟨m, rfl⟩ : ∃ m, n = m + 1 := ⟨n - 1, by omega⟩
        obtain ⟨a, ha, hal, _⟩ := averageColumns_spec m rows _ hr hl'
        refine .inr ⟨a, ?_, by push_cast at hn; rw [hal]; omega⟩
        simp only [bind, Except.bind]
        rw [head_length (fun h' => hx (List.length_eq_zero_iff.1 (by rw [← hl, h']; rfl))) hr, ha]

/-- The integers on a line. -/
def wholeNumbers : PeriodicSet 1 := { motif := [![0]], cell := ![![1]] }

theorem wholeNumbers_nonSingular : NonSingular wholeNumbers.cell := by
  unfold NonSingular wholeNumbers
  rw [linearIndependent_unique_iff]
  intro h
  have := congrFun h 0
  simp at this

theorem wholeNumbers_units : wholeNumbers.Units (List.finRange wholeNumbers.motif.length) [1] := .inr ⟨.inl rfl, rfl, rfl⟩

theorem wholeNumbers_ne : List.finRange wholeNumbers.motif.length ≠ [] := by simp [wholeNumbers]

/-- **C101** `AMD` returns a list for `k = -2` and the integers on a line. -/
theorem C101_false : ∀ fuel > 0, AMDInt wholeNumbers (-2) fuel = .ok [1] := by
  intro fuel hf
  obtain ⟨f, rfl⟩ : ∃ f, fuel = f + 1 := ⟨fuel - 1, by omega⟩
  have hl : layersUpTo 1 2 = [fun _ => 0, fun _ => -1, fun _ => 1] := rfl
  have h2 : intLayer 1 2 = [fun _ => -2, fun _ => 2] := rfl
  have hnl : numLayers 1 1 0 = 2 := rfl
  have ha : asymPoints wholeNumbers = .ok ([![0]], [1]) := rfl
  have hv : ∀ z : ℤ, latVec (![![1]] : Fin 1 → Pt 1 ℝ) (fun _ => z) = ![(z : ℝ)] := by
    intro z
    funext i
    fin_cases i
    simp [latVec]
  have hs : nearestNeighborsSqInt nearReal wholeNumbers.motif wholeNumbers.cell [![0]] (-1) (f + 1) = .ok [[0, 1]] := by
    simp [nearestNeighborsSqInt, wholeNumbers, hnl, hl, cdistSq, latticeToCloud, hv, sqDist, maxE, partitionRows, partitionSlice, bind, Except.bind, sliceLength, nnLoopInt, maxLastE, maxLast, h2,
      nearReal, sqNorm]
  simp only [AMDInt, ha, nearestNeighborsInt, bind, Except.bind, show (-2 : ℤ) + 1 = -1 by norm_num, hs]
  simp [Except.map, averageColumnsExceptFirst, addRows, bind, Except.bind]

variable {env : Env} {args : CompareArgs} {kwargs : Kwargs} {inp : Input} {inp' : Option Input} {cs : List Crystal}

/-- **C101** `compare` refuses every negative `k`: by AMD with a ValueError, by PDD as `PDD` does. -/
theorem C101_compare {k : ℤ} (hk : k < 0) (hby : upper args.by_ = "AMD" ∨ upper args.by_ = "PDD") {tol : ℝ}
    (htol : (kwOr kwargs "collapse_tol" (.float (1 / 10000))).toFloat = .ok tol) (hv : ∀ c ∈ cs, c.Valid)
    (hg : getCrystals env args.csdRefcodes (routeKwargs args.verbose kwargs) inp = .ok cs)
    (hg' : ∀ i, inp' = some i → ∃ cs', getCrystals env args.csdRefcodes (routeKwargs args.verbose kwargs) i = .ok cs') :
    ∃ F, ∀ fuel ≥ F, compareInt env inp inp' args k kwargs fuel = .error (.run (if upper args.by_ = "PDD" ∧ k = -1 then .bounds else .value)) := by
  obtain ⟨c, t, rfl⟩ : ∃ c t, cs = c :: t := by
    rw [getCrystals] at hg
    split at hg
    · cases hg
    · cases hg
    · cases hg
      exact ⟨_, _, rfl⟩
  obtain ⟨hD, hcell, _, inds, mult, hu, hne, _, _⟩ := hv c (by simp)
  have e1 : (argOf (routeKwargs args.verbose kwargs).pdd "collapse_tol").toFloat = .ok tol := htol
  obtain ⟨F, hF⟩ := C101_pdd hD hcell hu hne hk (argOf (routeKwargs args.verbose kwargs).pdd "lexsort").truthy (argOf (routeKwargs args.verbose kwargs).pdd "collapse").truthy tol
  refine ⟨F, fun fuel hf => ?_⟩
  have hsome : ∃ o, (match inp' with
      | none => .ok none
      | some i => (getCrystals env args.csdRefcodes (routeKwargs args.verbose kwargs) i).map some : Except CErr (Option (List Crystal))) = .ok o := by
    cases inp' with
    | none => exact ⟨_, rfl⟩
    | some i =>
      obtain ⟨cs', h⟩ := hg' i rfl
      exact ⟨some cs', by simp only [h]; rfl⟩
  obtain ⟨o, ho⟩ := hsome
  rcases hby with hb | hb
  · simp only [compareInt, if_neg (by omega : ¬0 ≤ k), hb]
    cases inp' with
    | none => simp [hg, bind, Except.bind]
    | some i =>
      obtain ⟨cs', h⟩ := hg' i rfl
      simp [hg, h, bind, Except.bind, Except.map]
  · have hm : mapE (fun c : Crystal => PDDInt c.set k (argOf (routeKwargs args.verbose kwargs).pdd "lexsort").truthy (argOf (routeKwargs args.verbose kwargs).pdd "collapse").truthy tol fuel) (c :: t) =
        .error (if k = -1 then .bounds else .value) := by
      rw [mapE, hF fuel hf]
    simp only [compareInt, if_neg (by omega : ¬0 ≤ k), hb]
    cases inp' with
    | none => simp [hg, bind, Except.bind, e1, hm, lift]
    | some i =>
      obtain ⟨cs', h⟩ := hg' i rfl
      simp [hg, h, bind, Except.bind, Except.map, e1, hm, lift]

end Amd
