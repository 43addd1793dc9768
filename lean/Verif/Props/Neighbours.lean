import Verif.Proof.PddFacts

/-!
# Properties of the neighbour search, AMD and PDD rows: C01, C02, C08, C09, C10, C12

`AMD S k fuel = .ok a` says that `amd.AMD` returns `a`; by `C10_terminates` it does for all large enough fuel.
-/

namespace Amd

variable {D : ℕ}

/-! ### Example data: an oblique cell with two motif points -/

/-- Two points in an oblique plane cell. -/
noncomputable def exampleSet : PeriodicSet 2 :=
  { motif := [![0, 0], ![3 / 2, 1]], cell := ![![2, 0], ![1, 2]] }

/-- The same with an asymmetric unit (one point standing for both). -/
noncomputable def exampleAsym : PeriodicSet 2 :=
  { exampleSet with asymUnit := some [0], multiplicities := some [2] }

theorem exampleSet_nonSingular : NonSingular exampleSet.cell := by
  change LinearIndependent ℝ ![(![2, 0] : Pt 2 ℝ), ![1, 2]]
  rw [LinearIndependent.pair_iff' (by simp)]
  intro a h
  have := congrFun h 1
  simp at this

theorem exampleSet_halfDominant : HalfDominant exampleSet.cell := by
  intro i
  have h0 : (Finset.univ : Finset (Fin 2)).erase 0 = {1} := by decide
  have h1 : (Finset.univ : Finset (Fin 2)).erase 1 = {0} := by decide
  fin_cases i
  · norm_num [h0, gram, Fin.sum_univ_two, exampleSet]
  · norm_num [h1, gram, Fin.sum_univ_two, exampleSet]

theorem exampleSet_fits : FitsInCell exampleSet.motif exampleSet.cell := by
  refine ⟨0, ?_⟩
  intro q hq
  simp only [exampleSet, List.mem_cons, List.not_mem_nil, or_false] at hq
  rcases hq with rfl | rfl
  · refine ⟨![0, 0], ?_, ?_⟩
    · intro i; fin_cases i <;> norm_num
    · funext j; fin_cases j <;> norm_num [Fin.sum_univ_two]
  · refine ⟨![1 / 2, 1 / 2], ?_, ?_⟩
    · intro i; fin_cases i <;> norm_num
    · funext j; fin_cases j <;> norm_num [Fin.sum_univ_two, exampleSet]

theorem exampleSet_units : exampleSet.Units (List.finRange 2) [1, 1] := Or.inr ⟨Or.inl rfl, rfl, rfl⟩

theorem exampleSet_units_ne : (List.finRange 2 : List (Fin exampleSet.motif.length)) ≠ [] :=
  List.ne_nil_of_length_pos (by decide)

theorem exampleAsym_units : exampleAsym.Units [⟨0, by decide⟩] [2] := Or.inl ⟨rfl, rfl, rfl⟩

/-! ### C12 -/

/-- **C12** Layer `d` of the lattice generator lists the integer vectors of norm in `(d - 1, d]`, each once. -/
theorem C12_layer_exact (hD : 0 < D) (d : ℕ) :
    (intLayer D d).Nodup ∧ ∀ v, v ∈ intLayer D d ↔ InShell d v :=
  ⟨nodup_intLayer D d, fun v => mem_intLayer hD d v⟩

/-- **C12** The layers partition the integer lattice: every vector is in exactly one layer. -/
theorem C12_layers_partition (hD : 0 < D) (v : Fin D → ℤ) : ∃! d, v ∈ intLayer D d := by
  simp only [mem_intLayer hD]
  have hnn : 0 ≤ normSq v := Finset.sum_nonneg fun i _ => sq_nonneg (v i)
  have hex : ∃ d : ℕ, normSq v ≤ (d : ℤ) ^ 2 := by
    refine ⟨(normSq v).toNat, ?_⟩
    rw [Int.toNat_of_nonneg hnn]
    nlinarith
  classical
  refine ⟨Nat.find hex, ⟨Nat.find_spec hex, ?_⟩, ?_⟩
  · rcases Nat.eq_zero_or_pos (Nat.find hex) with h | h
    · exact Or.inl h
    · right
      have := Nat.find_min hex (m := Nat.find hex - 1) (by omega)
      rw [not_le] at this
      have e : ((Nat.find hex - 1 : ℕ) : ℤ) = (Nat.find hex : ℤ) - 1 := by omega
      rwa [e] at this
  · rintro d ⟨h1, h2⟩
    apply le_antisymm
    · rcases h2 with h2 | h2
      · omega
      · by_contra hc
        have hlt : Nat.find hex + 1 ≤ d := by omega
        have h3 := Nat.find_spec hex
        have h4 : ((Nat.find hex : ℤ)) ≤ (d : ℤ) - 1 := by omega
        have h5 : (0 : ℤ) ≤ Nat.find hex := Int.natCast_nonneg _
        nlinarith
    · exact Nat.find_min' hex h1

/-- **C12** The points yielded by the concentric cloud generator are the sites of the periodic set whose lattice part is
in the shell, each once. -/
theorem C12_concentric_cloud (hD : 0 < D) (motif : List (Pt D ℝ)) (cell : Fin D → Pt D ℝ) (d : ℕ) :
    ∃ sites : List (Site motif.length D), sites.Nodup ∧ (∀ s, s ∈ sites ↔ InShell d s.2) ∧
      concentricCloud motif cell d = sites.map (sitePos motif cell) := by
  refine ⟨(intLayer D d).flatMap fun n => (List.finRange motif.length).map fun i => (i, n), ?_, ?_, ?_⟩
  · rw [List.nodup_flatMap]
    refine ⟨?_, ?_⟩
    · intro n _
      exact (List.nodup_finRange _).map fun a b h => congrArg Prod.fst h
    · refine (nodup_intLayer D d).imp ?_
      intro a b hab s hs hs'
      obtain ⟨i, _, rfl⟩ := List.mem_map.mp hs
      obtain ⟨j, _, h⟩ := List.mem_map.mp hs'
      exact hab (congrArg Prod.snd h).symm
  · rintro ⟨i, n⟩
    rw [← mem_intLayer hD]
    simp
  · unfold concentricCloud latticeToCloud
    rw [List.flatMap_map, List.map_flatMap]
    congr 1
    funext n
    rw [List.map_map]
    conv_lhs => rw [← map_finRange_getElem motif]
    rw [List.map_map]
    apply List.map_congr_left
    intro i _
    exact (sitePos_eq motif cell (i, n)).symm

example : (intLayer 3 2).length = 26 ∧ InShell (D := 3) 2 ![1, -1, 1] := by
  refine ⟨by decide, by decide, Or.inr (by decide)⟩

/-! ### C10 -/

/-- **C10** For a non-singular cell and a non-empty motif, `AMD` and `PDD` return after finitely many layers, for every `k` and all
options (and more fuel does not change what they return). -/
theorem C10_terminates {S : PeriodicSet D} {inds : List (Fin S.motif.length)} {mult : List ℕ} (hD : 0 < D)
    (hu : S.Units inds mult) (hne : inds ≠ []) (hcell : NonSingular S.cell)
    (k : ℕ) (lexsort collapse : Bool) (tol : ℝ) :
    ∃ a pdd F, ∀ fuel, F ≤ fuel →
      AMD S k fuel = .ok a ∧ PDD S k lexsort collapse tol fuel = .ok pdd := by
  have hxm : ∀ p ∈ inds.map (fun i => S.motif[i]), p ∈ S.motif := by
    intro p hp
    obtain ⟨i, _, rfl⟩ := List.mem_map.mp hp
    exact List.getElem_mem _
  obtain ⟨F, hF⟩ := nearestNeighbors_terminates (k + 1) hD (by simpa using hne) hxm (by omega) hcell
  obtain ⟨rows, hrows⟩ := hF F le_rfl
  obtain ⟨a, ha⟩ := AMD_ok_of hD hu hne hrows
  obtain ⟨pdd, hp⟩ := PDD_ok_of hD hu hne k lexsort collapse tol hrows
  exact ⟨a, pdd, F, fun fuel hf => ⟨AMD_fuel hf ha, PDD_fuel hf hp⟩⟩

/-- **C10** No other failure: with any amount of fuel, `AMD` either runs out of fuel or returns. -/
theorem C10_no_exception {S : PeriodicSet D} {inds : List (Fin S.motif.length)} {mult : List ℕ} (hD : 0 < D)
    (hu : S.Units inds mult) (hne : inds ≠ []) (k fuel : ℕ) :
    AMD S k fuel = .error .fuel ∨ ∃ a, AMD S k fuel = .ok a := by
  have hxm : ∀ p ∈ inds.map (fun i => S.motif[i]), p ∈ S.motif := by
    intro p hp
    obtain ⟨i, _, rfl⟩ := List.mem_map.mp hp
    exact List.getElem_mem _
  rcases nearestNeighbors_cases S.motif (inds.map fun i => S.motif[i]) S.cell (k + 1) fuel hD
    (by simpa using hne) hxm (by omega) with h | ⟨rows, h⟩
  · left
    rw [AMD_eq hu, h]
    rfl
  · exact Or.inr (AMD_ok_of hD hu hne h)

example : ∃ a pdd F, ∀ fuel, F ≤ fuel →
    AMD exampleSet 100 fuel = .ok a ∧ PDD exampleSet 100 true true 0.0001 fuel = .ok pdd :=
  C10_terminates (by decide) exampleSet_units exampleSet_units_ne exampleSet_nonSingular _ _ _ _

/-! ### C01 -/

/-- C01 whenever the search is complete (`Searchable`). The rows are those of the units in order, or sorted by `lexsort`. -/
theorem C01_pdd_rows_of_searchable {S : PeriodicSet D} {inds : List (Fin S.motif.length)} {mult : List ℕ} (hD : 0 < D)
    (hu : S.Units inds mult) (hne : inds ≠ []) {k : ℕ} {lexsort : Bool} {tol : ℝ} {fuel : ℕ}
    (hs : Searchable S.motif S.cell (k + 1)) {pdd : List (PRow ℝ)}
    (h : PDD S k lexsort false tol fuel = .ok pdd) :
    ∃ rows : List (PRow ℝ), pdd.Perm rows ∧ (lexsort = false → pdd = rows) ∧
      List.Forall₂ (fun (u : Fin S.motif.length × ℕ) (r : PRow ℝ) =>
        r.weight = (u.2 : ℝ) / S.motif.length ∧ IsNeighbourRow S.motif S.cell u.1 k r.dists) (inds.zip mult) rows :=
  PDD_uncollapsed hD hu hne h _ fun _ hr => (nearestNeighbors_neighbourRow hD hne hs hr).imp fun _ _ h => h.2.2

/-- **C01** (partial) Rows of the PDD are the true nearest neighbour distances, for every `k`, if the cell is at most
4-dimensional, not too oblique, and contains the motif. Missing: other cells, for which it is false (`C01_false`). -/
theorem C01_pdd_rows_partial {S : PeriodicSet D} {inds : List (Fin S.motif.length)} {mult : List ℕ} (hD : 0 < D)
    (hD4 : D ≤ 4) (hcell : HalfDominant S.cell) (hfit : FitsInCell S.motif S.cell)
    (hu : S.Units inds mult) (hne : inds ≠ []) {k : ℕ} {lexsort : Bool} {tol : ℝ} {fuel : ℕ}
    {pdd : List (PRow ℝ)} (h : PDD S k lexsort false tol fuel = .ok pdd) :
    ∃ rows : List (PRow ℝ), pdd.Perm rows ∧ (lexsort = false → pdd = rows) ∧
      List.Forall₂ (fun (u : Fin S.motif.length × ℕ) (r : PRow ℝ) =>
        r.weight = (u.2 : ℝ) / S.motif.length ∧ IsNeighbourRow S.motif S.cell u.1 k r.dists) (inds.zip mult) rows :=
  C01_pdd_rows_of_searchable hD hu hne (searchable_of_halfDominant hD4 hcell hfit _) h

/-- **C01** (partial) For every non-singular cell in every dimension and every motif, the rows are right for all
sufficiently large `k`. -/
theorem C01_pdd_rows_large_k_partial {S : PeriodicSet D} {inds : List (Fin S.motif.length)} {mult : List ℕ}
    (hD : 0 < D) (hcell : NonSingular S.cell) (hu : S.Units inds mult) (hne : inds ≠ []) :
    ∃ k₀, ∀ (k : ℕ) (_ : k₀ ≤ k) (lexsort : Bool) (tol : ℝ) (fuel : ℕ) (pdd : List (PRow ℝ)),
      PDD S k lexsort false tol fuel = .ok pdd →
      ∃ rows : List (PRow ℝ), pdd.Perm rows ∧ (lexsort = false → pdd = rows) ∧
      List.Forall₂ (fun (u : Fin S.motif.length × ℕ) (r : PRow ℝ) =>
        r.weight = (u.2 : ℝ) / S.motif.length ∧ IsNeighbourRow S.motif S.cell u.1 k r.dists) (inds.zip mult) rows := by
  obtain ⟨k₀, h₀⟩ := searchable_eventually hcell S.motif
  exact ⟨k₀, fun k hk _ _ _ _ h => C01_pdd_rows_of_searchable hD hu hne (h₀ (k + 1) (by omega)) h⟩

/-- **C01** (partial) For every cell and `k`: every entry is the distance to a site of the periodic set, the sites of a row are
distinct, and the row is in increasing order. Missing: that no nearer site is left out. -/
theorem C01_pdd_rows_sound_partial {S : PeriodicSet D} {inds : List (Fin S.motif.length)} {mult : List ℕ} (hD : 0 < D)
    (hu : S.Units inds mult) (hne : inds ≠ []) {k : ℕ} {lexsort : Bool} {tol : ℝ} {fuel : ℕ}
    {pdd : List (PRow ℝ)} (h : PDD S k lexsort false tol fuel = .ok pdd) :
    ∃ rows : List (PRow ℝ), pdd.Perm rows ∧ (lexsort = false → pdd = rows) ∧
      List.Forall₂ (fun (u : Fin S.motif.length × ℕ) (r : PRow ℝ) =>
        r.weight = (u.2 : ℝ) / S.motif.length ∧ r.dists.length = k ∧ r.dists.Pairwise (· ≤ ·) ∧
        ∃ sites : List (Site S.motif.length D), sites.Nodup ∧
          r.dists = sites.map fun s => eucl S.motif[u.1] (sitePos S.motif S.cell s)) (inds.zip mult) rows := by
  refine PDD_uncollapsed hD hu hne h (fun i d => d.length = k ∧ d.Pairwise (· ≤ ·) ∧
        ∃ sites : List (Site S.motif.length D), sites.Nodup ∧
          d = sites.map fun s => eucl S.motif[i] (sitePos S.motif S.cell s)) ?_
  intro rows hr
  have hxm : ∀ p ∈ inds.map (fun i => S.motif[i]), p ∈ S.motif := by
    intro p hp
    obtain ⟨i, _, rfl⟩ := List.mem_map.mp hp
    exact List.getElem_mem _
  have hs := nearestNeighbors_sound hD (by simpa using hne) hxm (by omega) hr
  rw [List.forall₂_map_left_iff] at hs
  refine hs.imp ?_
  rintro i row ⟨h1, h2, idx, h3, h4⟩
  refine ⟨by simp [h1], h2.sublist (List.drop_sublist _ _), idx.drop 1, h3.sublist (List.drop_sublist _ _), ?_⟩
  rw [h4, List.map_drop]

/-- The cell of the counterexample: vectors (10, 0) and (-30, 1). -/
noncomputable def skewSet : PeriodicSet 2 :=
  { motif := [castPt ![0, 0]], cell := fun i => castPt (![![10, 0], ![-30, 1]] i) }

theorem skewSet_nonSingular : NonSingular skewSet.cell := by
  have e : skewSet.cell = ![(![10, 0] : Pt 2 ℝ), ![-30, 1]] := by
    funext i j
    fin_cases i <;> fin_cases j <;> simp [skewSet, castPt]
  rw [NonSingular, e, LinearIndependent.pair_iff' (by simp)]
  intro a h
  have := congrFun h 1
  simp at this

theorem skewSet_rows (fuel : ℕ) (hf : 20 ≤ fuel) :
    nearestNeighbors skewSet.motif skewSet.cell skewSet.motif 2 fuel = .ok [[0, 10]] := by
  have h : nearestNeighborsSq (K := ℤ) nearInt [![0, 0]] ![![10, 0], ![-30, 1]] [![0, 0]] 2 20 = .ok [[0, 100]] := by
    decide
  have h2 := nearestNeighbors_cast _ _ _ _ _ h
  have e : ([[0, 100]] : List (List ℤ)).map (fun r => r.map fun a : ℤ => √(a : ℝ)) = [[0, 10]] := by
    have : √(100 : ℝ) = 10 := by
      rw [show (100 : ℝ) = 10 ^ 2 by norm_num]; exact Real.sqrt_sq (by norm_num)
    simp [this]
  rw [e] at h2
  exact nearestNeighbors_fuel hf h2

/-- **C01** is false in general: for the one-point motif in the oblique cell (10, 0), (-30, 1), `PDD` with `k = 1`
reports 10, but the lattice point 3 (10, 0) + (-30, 1) = (0, 1) is at distance 1. -/
theorem C01_false : ∃ (S : PeriodicSet 2) (i : Fin S.motif.length), NonSingular S.cell ∧ FitsInCell S.motif S.cell ∧
    ∃ F, ∀ fuel, F ≤ fuel → ∃ pdd, PDD S 1 false false 0 fuel = .ok pdd ∧
      ∀ r ∈ pdd, r.dists = [10] ∧ ¬ IsNeighbourRow S.motif S.cell i 1 r.dists := by
  refine ⟨skewSet, ⟨0, by decide⟩, skewSet_nonSingular, ⟨0, ?_⟩, 20, fun fuel hf => ?_⟩
  · intro q hq
    refine ⟨0, by simp, ?_⟩
    simp only [skewSet, List.mem_singleton] at hq
    subst hq
    funext j
    fin_cases j <;> simp [castPt]
  · refine ⟨[⟨1, [10], [0]⟩], ?_, ?_⟩
    · have hu : skewSet.Units (List.finRange 1) [1] := Or.inr ⟨Or.inl rfl, rfl, rfl⟩
      have hx : ((List.finRange 1).map fun i : Fin skewSet.motif.length => skewSet.motif[i]) = skewSet.motif :=
        map_finRange_getElem skewSet.motif
      rw [PDD_eq hu, hx, skewSet_rows fuel hf]
      simp [bind, Except.bind, skewSet, collapseRows, lexsortRows]
    · intro r hr
      rw [List.mem_singleton] at hr
      subst hr
      refine ⟨rfl, ?_⟩
      rintro ⟨_, idx, _, e, _, hout⟩
      let i₀ : Fin skewSet.motif.length := ⟨0, by decide⟩
      let s : Site skewSet.motif.length 2 := (i₀, ![3, 1])
      have hs : eucl skewSet.motif[i₀] (sitePos skewSet.motif skewSet.cell s) = 1 := by
        simp [eucl, sqDist, sitePos, s, i₀, skewSet, castPt, Fin.sum_univ_two]
        norm_num
      have hne : s ≠ (i₀, 0) := by
        intro h
        have := congrFun (congrArg Prod.snd h) 0
        simp [s] at this
      have hnot : (⟨s, hne⟩ : {s : Site skewSet.motif.length 2 // s ≠ (i₀, 0)}) ∉ idx := by
        intro hmem
        have := List.mem_map_of_mem (f := fun s : {s : Site skewSet.motif.length 2 // s ≠ (i₀, 0)} =>
          eucl skewSet.motif[i₀] (sitePos skewSet.motif skewSet.cell s.1)) hmem
        rw [← e] at this
        simp only [List.mem_singleton] at this
        rw [hs] at this
        norm_num at this
      have h10 : (10 : ℝ) ≤ eucl skewSet.motif[i₀] (sitePos skewSet.motif skewSet.cell s) :=
        hout _ hnot 10 (by simp)
      rw [hs] at h10
      norm_num at h10

example : ∃ fuel pdd, PDD exampleSet 10 true false 0 fuel = .ok pdd ∧ HalfDominant exampleSet.cell ∧
    FitsInCell exampleSet.motif exampleSet.cell := by
  obtain ⟨_, pdd, F, h⟩ := C10_terminates (by decide) exampleSet_units exampleSet_units_ne exampleSet_nonSingular 10 true false 0
  exact ⟨F, pdd, (h F le_rfl).2, exampleSet_halfDominant, exampleSet_fits⟩

/-! ### C02 -/

/-- C02 whenever the search is complete. -/
theorem C02_amd_mean_of_searchable {S : PeriodicSet D} {inds : List (Fin S.motif.length)} {mult : List ℕ} (hD : 0 < D)
    (hu : S.Units inds mult) (hne : inds ≠ []) {k fuel : ℕ} (hs : Searchable S.motif S.cell (k + 1)) {a : List ℝ}
    (h : AMD S k fuel = .ok a) :
    ∃ rows : List (List ℝ), List.Forall₂ (fun i row => IsNeighbourRow S.motif S.cell i k row) inds rows ∧
      a.length = k ∧ ∀ j < k, a.getD j 0 =
        (List.zipWith (fun (n : ℕ) row => (n : ℝ) * row.getD j 0) mult rows).sum /
          (mult.map fun n : ℕ => (n : ℝ)).sum := by
  obtain ⟨rows, hr, hl, hv⟩ := AMD_rows hD hu hne h
  have hf := nearestNeighbors_neighbourRow hD hne hs hr
  refine ⟨rows.map (·.drop 1), ?_, hl, fun j hj => ?_⟩
  · rw [List.forall₂_map_right_iff]
    exact hf.imp fun _ _ h => h.2.2
  · rw [hv j hj, zipWith_map_right']

/-- **C02** (partial) `AMD` has `k` entries; entry `j` is the mean, weighted by multiplicities, of the distances to the
`j`-th nearest other point. Missing: cells excluded as in C01. -/
theorem C02_amd_mean_partial {S : PeriodicSet D} {inds : List (Fin S.motif.length)} {mult : List ℕ} (hD : 0 < D)
    (hD4 : D ≤ 4) (hcell : HalfDominant S.cell) (hfit : FitsInCell S.motif S.cell)
    (hu : S.Units inds mult) (hne : inds ≠ []) {k fuel : ℕ} {a : List ℝ} (h : AMD S k fuel = .ok a) :
    ∃ rows : List (List ℝ), List.Forall₂ (fun i row => IsNeighbourRow S.motif S.cell i k row) inds rows ∧
      a.length = k ∧ ∀ j < k, a.getD j 0 =
        (List.zipWith (fun (n : ℕ) row => (n : ℝ) * row.getD j 0) mult rows).sum /
          (mult.map fun n : ℕ => (n : ℝ)).sum :=
  C02_amd_mean_of_searchable hD hu hne (searchable_of_halfDominant hD4 hcell hfit _) h

/-- **C02** (partial) The same for every non-singular cell and all sufficiently large `k`. -/
theorem C02_amd_mean_large_k_partial {S : PeriodicSet D} {inds : List (Fin S.motif.length)} {mult : List ℕ} (hD : 0 < D)
    (hcell : NonSingular S.cell) (hu : S.Units inds mult) (hne : inds ≠ []) :
    ∃ k₀, ∀ k, k₀ ≤ k → ∀ fuel a, AMD S k fuel = .ok a →
    ∃ rows : List (List ℝ), List.Forall₂ (fun i row => IsNeighbourRow S.motif S.cell i k row) inds rows ∧
      a.length = k ∧ ∀ j < k, a.getD j 0 =
        (List.zipWith (fun (n : ℕ) row => (n : ℝ) * row.getD j 0) mult rows).sum /
          (mult.map fun n : ℕ => (n : ℝ)).sum := by
  obtain ⟨k₀, h₀⟩ := searchable_eventually hcell S.motif
  exact ⟨k₀, fun k hk _ _ h => C02_amd_mean_of_searchable hD hu hne (h₀ (k + 1) (by omega)) h⟩

/-- The neighbour row in C01, C02 is determined by the periodic set. -/
theorem C02_row_unique {motif : List (Pt D ℝ)} {cell : Fin D → Pt D ℝ} {i : Fin motif.length} {k : ℕ}
    {r r' : List ℝ} (h : IsNeighbourRow motif cell i k r) (h' : IsNeighbourRow motif cell i k r') : r = r' :=
  h.unique h'

/-- It exists for every `k`. -/
theorem C02_row_exists {motif : List (Pt D ℝ)} {cell : Fin D → Pt D ℝ} (hD : 0 < D)
    (hcell : NonSingular cell) (i : Fin motif.length) (k : ℕ) : ∃ row, IsNeighbourRow motif cell i k row :=
  exists_neighbourRow hD hcell i k

example : ∃ fuel a, AMD exampleAsym 5 fuel = .ok a ∧ exampleAsym.Units [⟨0, by decide⟩] [2] := by
  obtain ⟨a, _, F, h⟩ := C10_terminates (S := exampleAsym) (by decide) exampleAsym_units (by decide)
    exampleSet_nonSingular 5 true false 0
  exact ⟨F, a, (h F le_rfl).1, exampleAsym_units⟩

/-! ### C08 -/

/-- **C08** `AMD` is non-negative and non-decreasing, for every cell. -/
theorem C08_amd_sorted {S : PeriodicSet D} {inds : List (Fin S.motif.length)} {mult : List ℕ} (hD : 0 < D)
    (hu : S.Units inds mult) (hne : inds ≠ []) {k fuel : ℕ} {a : List ℝ} (h : AMD S k fuel = .ok a) :
    a.length = k ∧ (∀ t ∈ a, 0 ≤ t) ∧ a.Pairwise (· ≤ ·) := by
  obtain ⟨rows, hr, hl, hv⟩ := AMD_rows hD hu hne h
  have hs := nearestNeighbors_nonnegSorted hD hne hr
  have hsum : 0 ≤ (mult.map fun n : ℕ => (n : ℝ)).sum := by
    apply List.sum_nonneg
    intro t ht
    obtain ⟨n, _, rfl⟩ := List.mem_map.mp ht
    exact Nat.cast_nonneg n
  have hz : ∀ (mult : List ℕ) (rows : List (List ℝ)), (∀ r ∈ rows, r.length = k + 1 ∧ NonnegSorted r) →
      (∀ j, 0 ≤ (List.zipWith (fun (n : ℕ) row => (n : ℝ) * (List.drop 1 row).getD j 0) mult rows).sum) ∧
      (∀ i j, i ≤ j → j < k →
        (List.zipWith (fun (n : ℕ) row => (n : ℝ) * (List.drop 1 row).getD i 0) mult rows).sum ≤
        (List.zipWith (fun (n : ℕ) row => (n : ℝ) * (List.drop 1 row).getD j 0) mult rows).sum) := by
    intro mult
    induction mult with
    | nil => intro rows _; simp
    | cons n mult ih =>
      intro rows h
      cases rows with
      | nil => simp
      | cons r rows =>
        obtain ⟨h1, h2⟩ := ih rows fun r hr => h r (List.mem_cons_of_mem _ hr)
        have hr := h r (by simp)
        have hd := hr.2.drop 1
        constructor
        · intro j
          simp only [List.zipWith_cons_cons, List.sum_cons]
          exact add_nonneg (mul_nonneg (Nat.cast_nonneg _) (hd.getD_nonneg j)) (h1 j)
        · intro i j hij hj
          simp only [List.zipWith_cons_cons, List.sum_cons]
          exact add_le_add (mul_le_mul_of_nonneg_left (hd.getD_mono hij (by simp [hr.1, hj])) (Nat.cast_nonneg _))
            (h2 i j hij hj)
  obtain ⟨z1, z2⟩ := hz mult rows hs
  have : NonnegSorted a := by
    apply nonnegSorted_of_getD
    · intro j hj
      rw [hv j (hl ▸ hj)]
      exact div_nonneg (z1 j) hsum
    · intro i j hij hj
      rw [hl] at hj
      rw [hv j hj, hv i (by omega)]
      exact div_le_div_of_nonneg_right (z2 i j hij hj) hsum
  exact ⟨hl, this⟩

/-- **C08** Every row of `PDD` is non-negative and non-decreasing, for every cell and all options. -/
theorem C08_pdd_sorted {S : PeriodicSet D} {inds : List (Fin S.motif.length)} {mult : List ℕ} (hD : 0 < D)
    (hu : S.Units inds mult) (hne : inds ≠ []) {k : ℕ} {lexsort collapse : Bool} {tol : ℝ} {fuel : ℕ}
    {pdd : List (PRow ℝ)} (h : PDD S k lexsort collapse tol fuel = .ok pdd) :
    ∀ r ∈ pdd, r.dists.length = k ∧ (∀ t ∈ r.dists, 0 ≤ t) ∧ r.dists.Pairwise (· ≤ ·) := by
  obtain ⟨rows, hr, e⟩ := PDD_rows hD hu hne h
  have hs := nearestNeighbors_nonnegSorted hD hne hr
  intro r hr
  rw [e] at hr
  have hr' := (lexsortRows_perm _ _).subset hr
  refine collapseRows_dists k collapse tol _ _ ?_ ?_ r hr'
  · intro r hr
    obtain ⟨r', h', rfl⟩ := List.mem_map.mp hr
    simp [(hs r' h').1]
  · intro r hr
    obtain ⟨r', h', rfl⟩ := List.mem_map.mp hr
    exact (hs r' h').2.drop 1

example : ∃ fuel pdd, PDD exampleAsym 7 true true 0.1 fuel = .ok pdd := by
  obtain ⟨_, p, F, h⟩ := C10_terminates (S := exampleAsym) (by decide) exampleAsym_units (by decide)
    exampleSet_nonSingular 7 true true 0.1
  exact ⟨F, p, (h F le_rfl).2⟩

/-! ### C09 -/

/-- C09 whenever the search is complete for the smaller `k`. -/
theorem C09_amd_prefix_of_searchable {S : PeriodicSet D} {inds : List (Fin S.motif.length)} {mult : List ℕ} (hD : 0 < D)
    (hu : S.Units inds mult) (hne : inds ≠ []) {k k' fuel fuel' : ℕ} (hk : k' ≤ k)
    (hs : Searchable S.motif S.cell (k' + 1)) {a a' : List ℝ}
    (h : AMD S k fuel = .ok a) (h' : AMD S k' fuel' = .ok a') : a' = a.take k' := by
  obtain ⟨rows, hf, hl, hv⟩ := C02_amd_mean_of_searchable hD hu hne (hs.mono (by omega)) h
  obtain ⟨rows', hf', hl', hv'⟩ := C02_amd_mean_of_searchable hD hu hne hs h'
  have hrows : rows' = rows.map (·.take k') := by
    clear hv hv' hu hne h h'
    induction hf generalizing rows' with
    | nil => cases hf'; rfl
    | cons h1 _ ih =>
      cases hf' with
      | cons h2 h3 =>
        rw [List.map_cons, ← ih _ h3]
        congr 1
        exact h2.unique (h1.take hk)
  apply List.ext_getElem
  · rw [hl', List.length_take, hl]; omega
  · intro j h1 h2
    have hj : j < k' := by omega
    have e1 := hv' j hj
    have e2 := hv j (by omega)
    rw [List.getD_eq_getElem _ _ h1] at e1
    rw [List.getElem_take, e1]
    rw [List.getD_eq_getElem _ _ (by omega)] at e2
    rw [e2, hrows, zipWith_map_right']
    have e3 : ∀ r : List ℝ, (List.take k' r).getD j 0 = r.getD j 0 := by
      intro r
      simp [List.getD_eq_getElem?_getD, hj]
    simp only [e3]

/-- **C09** (partial) A smaller `k` gives a prefix. Missing: cells excluded as in C01. -/
theorem C09_amd_prefix_partial {S : PeriodicSet D} {inds : List (Fin S.motif.length)} {mult : List ℕ} (hD : 0 < D)
    (hD4 : D ≤ 4) (hcell : HalfDominant S.cell) (hfit : FitsInCell S.motif S.cell)
    (hu : S.Units inds mult) (hne : inds ≠ []) {k k' fuel fuel' : ℕ} (hk : k' ≤ k) {a a' : List ℝ}
    (h : AMD S k fuel = .ok a) (h' : AMD S k' fuel' = .ok a') : a' = a.take k' :=
  C09_amd_prefix_of_searchable hD hu hne hk (searchable_of_halfDominant hD4 hcell hfit _) h h'

/-- **C09** (partial) For every non-singular cell there is a bound from which on this holds. -/
theorem C09_amd_prefix_large_k_partial {S : PeriodicSet D} {inds : List (Fin S.motif.length)} {mult : List ℕ}
    (hD : 0 < D) (hcell : NonSingular S.cell) (hu : S.Units inds mult) (hne : inds ≠ []) :
    ∃ k₀, ∀ k' k, k₀ ≤ k' → k' ≤ k → ∀ fuel fuel' a a',
      AMD S k fuel = .ok a → AMD S k' fuel' = .ok a' → a' = a.take k' := by
  obtain ⟨k₀, h₀⟩ := searchable_eventually hcell S.motif
  exact ⟨k₀, fun k' k hk hkk _ _ _ _ h h' =>
    C09_amd_prefix_of_searchable hD hu hne hkk (h₀ (k' + 1) (by omega)) h h'⟩

/-- **C09** (partial) The rows of the uncollapsed, unsorted PDD for a smaller `k` are prefixes. -/
theorem C09_pdd_prefix_partial {S : PeriodicSet D} {inds : List (Fin S.motif.length)} {mult : List ℕ} (hD : 0 < D)
    (hD4 : D ≤ 4) (hcell : HalfDominant S.cell) (hfit : FitsInCell S.motif S.cell)
    (hu : S.Units inds mult) (hne : inds ≠ []) {k k' fuel fuel' : ℕ} (hk : k' ≤ k) {tol tol' : ℝ}
    {p p' : List (PRow ℝ)}
    (h : PDD S k false false tol fuel = .ok p) (h' : PDD S k' false false tol' fuel' = .ok p') :
    p'.map (fun r => (r.weight, r.dists)) = p.map fun r => (r.weight, r.dists.take k') := by
  obtain ⟨q, hp1, e, hf⟩ := C01_pdd_rows_partial hD hD4 hcell hfit hu hne h
  obtain ⟨q', hp2, e', hf'⟩ := C01_pdd_rows_partial hD hD4 hcell hfit hu hne h'
  rw [e rfl, e' rfl]
  clear e e' h h'
  clear hp1 hp2
  generalize inds.zip mult = us at hf hf'
  induction hf generalizing q' with
  | nil => cases hf'; rfl
  | cons h1 _ ih =>
    cases hf' with
    | cons h2 h3 =>
      rw [List.map_cons, List.map_cons, ih _ h3]
      congr 1
      exact Prod.ext (h2.1.trans h1.1.symm) (h2.2.unique (h1.2.take hk))

example : ∃ fuel a a', AMD exampleSet 9 fuel = .ok a ∧ AMD exampleSet 4 fuel = .ok a' := by
  obtain ⟨a, _, F, h⟩ := C10_terminates (by decide) exampleSet_units exampleSet_units_ne exampleSet_nonSingular 9 true true 0
  obtain ⟨a', _, F', h'⟩ := C10_terminates (by decide) exampleSet_units exampleSet_units_ne exampleSet_nonSingular 4 true true 0
  exact ⟨max F F', a, a', (h _ (le_max_left _ _)).1, (h' _ (le_max_right _ _)).1⟩

end Amd
