import Verif.Proof.NNData
import Verif.Props.Neighbours

/-! # The data returned by `nearest_neighbors_data`: C13 -/

set_option linter.unusedSectionVars false

namespace Amd

variable {D : ℕ}

/-- **C13** `nearest_neighbors_data` returns the distances of `nearest_neighbors` (and fails when it fails), however numpy breaks
ties. -/
theorem C13_same_distances {arg : ℕ → List ℝ → List ℕ} (harg : ArgContract arg) {motif x : List (Pt D ℝ)}
    (cell : Fin D → Pt D ℝ) (hD : 0 < D) (hx : x ≠ []) (hxm : ∀ p ∈ x, p ∈ motif) {k : ℕ} (hk : 0 < k) (fuel : ℕ) :
    (nearestNeighborsData arg motif cell x k fuel).map (·.dists) = nearestNeighbors motif cell x k fuel := by
  have hm : motif ≠ [] := by
    obtain ⟨p, hp⟩ := List.exists_mem_of_ne_nil x hx
    exact List.ne_nil_of_mem (hxm p hp)
  obtain ⟨dsq, h1, h2, _⟩ := diam_spec motif x cell hD hx hm k
  have hl : 0 < numLayers D motif.length k := by
    have := two_le_numLayers (k := k) hD (List.length_pos_iff.mpr hm); omega
  have hrows : (((cdistSq x (latticeToCloud motif ((layersUpTo D (numLayers D motif.length k)).map
      (latVec cell)))).map (selectRow arg k 0)).map fun r => r.map (·.1)) =
      rowsUpTo motif cell x k (numLayers D motif.length k) := by
    rw [List.map_map]
    unfold rowsUpTo cdistSq
    rw [List.map_map]
    apply List.map_congr_left
    intro p _
    exact selectRow_fst harg k 0 _
  have key := nndLoop_fst harg (cell := cell) hD hx hxm hk (nearReal_sound motif x dsq h2) fuel _
    (latticeToCloud motif ((layersUpTo D (numLayers D motif.length k)).map (latVec cell))).length
    (latticeToCloud motif ((layersUpTo D (numLayers D motif.length k)).map (latVec cell))) _ hl
    (le_length_cloud motif cell hD hm k) hrows
  unfold nearestNeighborsData nearestNeighbors
  rw [nearestNeighborsSq_eq_loop nearReal motif x cell k fuel dsq h1]
  unfold nearestNeighborsDataSq
  simp only [h1, bind, Except.bind]
  rw [show nnLoop nearReal motif cell x k dsq fuel (numLayers D motif.length k) _ =
    nnLoop nearReal motif cell x k dsq fuel (numLayers D motif.length k)
      (rowsUpTo motif cell x k (numLayers D motif.length k)) from rfl, ← key]
  cases nndLoop nearReal arg motif cell x k dsq fuel (numLayers D motif.length k) _ _ _ with
  | error e => rfl
  | ok r => simp [Except.map, Function.comp_def]

theorem getElem?_latticeToCloud (motif : List (Pt D ℝ)) (hm : motif ≠ []) (cell : Fin D → Pt D ℝ) :
    ∀ (lat : List (Fin D → ℤ)) (i : ℕ), i < (latticeToCloud motif (lat.map (latVec cell))).length →
      ∃ (hi : i % motif.length < motif.length) (n : Fin D → ℤ), lat[i / motif.length]? = some n ∧
        (latticeToCloud motif (lat.map (latVec cell)))[i]? = some (sitePos motif cell (⟨i % motif.length, hi⟩, n))
  | [], i, h => by simp [latticeToCloud] at h
  | n :: lat, i, h => by
    have hml : 0 < motif.length := List.length_pos_iff.mpr hm
    have e : latticeToCloud motif ((n :: lat).map (latVec cell)) =
        motif.map (· + latVec cell n) ++ latticeToCloud motif (lat.map (latVec cell)) := by
      simp [latticeToCloud]
    rw [e] at h ⊢
    rcases Nat.lt_or_ge i motif.length with hi | hi
    · have h0 : i % motif.length = i := Nat.mod_eq_of_lt hi
      refine ⟨by omega, n, by simp [Nat.div_eq_of_lt hi], ?_⟩
      rw [List.getElem?_append_left (by simpa using hi)]
      simp only [h0, List.getElem?_map, List.getElem?_eq_getElem hi, Option.map_some, Option.some.injEq]
      rfl
    · have hlt : i - motif.length < (latticeToCloud motif (lat.map (latVec cell))).length := by
        rw [List.length_append, List.length_map] at h; omega
      obtain ⟨h1, n', h2, h3⟩ := getElem?_latticeToCloud motif hm cell lat (i - motif.length) hlt
      have hmod : (i - motif.length) % motif.length = i % motif.length := by
        conv_rhs => rw [show i = (i - motif.length) + motif.length by omega, Nat.add_mod_right]
      have hdiv : i / motif.length = (i - motif.length) / motif.length + 1 := by
        conv_lhs => rw [show i = (i - motif.length) + motif.length by omega, Nat.add_div_right _ hml]
      refine ⟨by omega, n', by rw [hdiv]; simpa using h2, ?_⟩
      rw [List.getElem?_append_right (by simpa using hi), List.length_map, h3]
      simp only [hmod]

theorem forall₂_getElem? {α β : Type*} {R : α → β → Prop} : ∀ {x : List α} {y : List β}, List.Forall₂ R x y →
    ∀ (i : ℕ) (hi : i < x.length), ∃ b, y[i]? = some b ∧ R x[i] b
  | _ :: _, b :: _, .cons h1 h2, 0, _ => ⟨b, rfl, h1⟩
  | _ :: _, _ :: _, .cons h1 h2, i + 1, hi => forall₂_getElem? h2 i (by simpa using hi)

/-- **C13** The cloud lists different sites of the periodic set, entry `i` being a translate of motif point `i % m`. -/
theorem C13_cloud {arg : ℕ → List ℝ → List ℕ} (harg : ArgContract arg) {motif x : List (Pt D ℝ)}
    (cell : Fin D → Pt D ℝ) (hD : 0 < D) (hm : motif ≠ []) {k fuel : ℕ} {d : NeighborData D}
    (h : nearestNeighborsData arg motif cell x k fuel = .ok d) :
    ∃ site : ℕ → Site motif.length D, Set.InjOn site {i | i < d.cloud.length} ∧
      ∀ i < d.cloud.length, (site i).1.val = i % motif.length ∧ d.cloud[i]? = some (sitePos motif cell (site i)) := by
  obtain ⟨⟨lat, hnd, hcl⟩, _⟩ := nearestNeighborsData_inv harg cell hD h
  have hml : 0 < motif.length := List.length_pos_iff.mpr hm
  refine ⟨fun i => (⟨i % motif.length, Nat.mod_lt _ hml⟩, lat.getD (i / motif.length) 0), ?_, ?_⟩
  · intro i hi j hj hij
    simp only [Set.mem_ofPred_eq, hcl] at hi hj
    obtain ⟨_, n, h1, _⟩ := getElem?_latticeToCloud motif hm cell lat i hi
    obtain ⟨_, n', h1', _⟩ := getElem?_latticeToCloud motif hm cell lat j hj
    simp only [Prod.mk.injEq, Fin.mk.injEq] at hij
    obtain ⟨e1, e2⟩ := hij
    rw [List.getD_eq_getElem?_getD, List.getD_eq_getElem?_getD, h1, h1'] at e2
    simp only [Option.getD_some] at e2
    subst e2
    have e3 : i / motif.length = j / motif.length := by
      obtain ⟨hi1, hi2⟩ := List.getElem?_eq_some_iff.mp h1
      obtain ⟨hj1, hj2⟩ := List.getElem?_eq_some_iff.mp h1'
      exact (hnd.getElem_inj_iff (hi := hi1) (hj := hj1)).mp (hi2.trans hj2.symm)
    rw [← Nat.div_add_mod i motif.length, ← Nat.div_add_mod j motif.length, e1, e3]
  · intro i hi
    refine ⟨rfl, ?_⟩
    rw [hcl] at hi ⊢
    obtain ⟨_, n, h1, h2⟩ := getElem?_latticeToCloud motif hm cell lat i hi
    rw [h2]
    simp only [List.getD_eq_getElem?_getD, h1, Option.getD_some]

/-- **C13** Each row of indices has distinct entries, and entry `j` of row `i` of the distances is the distance from `x[i]` to
the point of the cloud whose index is entry `j` of row `i` of the indices. -/
theorem C13_indices {arg : ℕ → List ℝ → List ℕ} (harg : ArgContract arg) {motif x : List (Pt D ℝ)}
    (cell : Fin D → Pt D ℝ) (hD : 0 < D) {k fuel : ℕ} {d : NeighborData D}
    (h : nearestNeighborsData arg motif cell x k fuel = .ok d) :
    d.dists.length = x.length ∧ d.inds.length = x.length ∧
    ∀ (i : ℕ) (hi : i < x.length), ∃ ds is, d.dists[i]? = some ds ∧ d.inds[i]? = some is ∧ is.Nodup ∧
      is.length = ds.length ∧ ∀ j < ds.length, ∃ t c, is[j]? = some t ∧ d.cloud[t]? = some c ∧
        ds[j]? = some (eucl x[i] c) := by
  obtain ⟨_, rows, e1, e2, hf⟩ := nearestNeighborsData_inv harg cell hD h
  have hl : rows.length = x.length := hf.length_eq.symm
  refine ⟨by rw [e1, List.length_map, hl], by rw [e2, List.length_map, hl], fun i hi => ?_⟩
  obtain ⟨row, h1, h2⟩ := forall₂_getElem? hf i hi
  refine ⟨row.map fun v => Real.sqrt v.1, row.map (·.2), by rw [e1, List.getElem?_map, h1]; rfl,
    by rw [e2, List.getElem?_map, h1]; rfl, h2.1, by simp, fun j hj => ?_⟩
  rw [List.length_map] at hj
  obtain ⟨c, h3, h4⟩ := h2.2 row[j] (List.getElem_mem hj)
  refine ⟨row[j].2, c, by simp [hj], h3, ?_⟩
  simp only [List.getElem?_map, List.getElem?_eq_getElem hj, Option.map_some, h4, eucl]

/-- A choice of ties: positions in the order of a stable sort. -/
noncomputable def stableArg (k : ℕ) (row : List ℝ) : List ℕ :=
  ((List.range row.length).insertionSort fun i j => row.getD i 0 ≤ row.getD j 0).take k

theorem stableArg_contract : ArgContract stableArg := by
  intro k row
  unfold stableArg
  have : IsTrans ℕ (fun i j => row.getD i 0 ≤ row.getD j 0) := ⟨fun _ _ _ h h' => h.trans h'⟩
  have : Std.Total (fun i j : ℕ => row.getD i 0 ≤ row.getD j 0) := ⟨fun _ _ => le_total _ _⟩
  have hs := List.pairwise_insertionSort (fun i j => row.getD i 0 ≤ row.getD j 0) (List.range row.length)
  have hp := List.perm_insertionSort (fun i j => row.getD i 0 ≤ row.getD j 0) (List.range row.length)
  set l := (List.range row.length).insertionSort fun i j => row.getD i 0 ≤ row.getD j 0
  have hnd : l.Nodup := hp.nodup_iff.mpr List.nodup_range
  refine ⟨hnd.sublist (List.take_sublist _ _), ?_, ?_, ?_, ?_⟩
  · intro i hi
    exact List.mem_range.mp (hp.subset (List.mem_of_mem_take hi))
  · rw [List.length_take, hp.length_eq, List.length_range]
  · rw [List.pairwise_map]
    exact hs.sublist (List.take_sublist _ _)
  · intro i hi j hj hj'
    have hjl : j ∈ l := hp.symm.subset (List.mem_range.mpr hj)
    rw [← List.take_append_drop k l] at hjl hs
    rw [List.pairwise_append] at hs
    rcases List.mem_append.mp hjl with h | h
    · exact absurd h hj'
    · exact hs.2.2 i hi j h

/-- The hypotheses of the C13 theorems are met by a run on `exampleSet`. -/
example : ∃ fuel d, ArgContract stableArg ∧
    nearestNeighborsData stableArg exampleSet.motif exampleSet.cell exampleSet.motif 8 fuel = .ok d := by
  obtain ⟨a, p, F, h⟩ := C10_terminates (by decide) exampleSet_units exampleSet_units_ne
    exampleSet_nonSingular 7 true true 0.1
  have hne : exampleSet.motif ≠ [] := List.ne_nil_of_length_pos (by decide)
  obtain ⟨rows, hr, _⟩ := PDD_rows (by decide) exampleSet_units exampleSet_units_ne (h F le_rfl).2
  have hu : exampleSet.motif = (List.finRange exampleSet.motif.length).map fun i => exampleSet.motif[i] := by
    apply List.ext_getElem
    · simp
    · intro i h1 h2; simp
  have hr' : nearestNeighbors exampleSet.motif exampleSet.cell exampleSet.motif 8 F = .ok rows := by
    rw [← hr]; congr 1
  have := C13_same_distances stableArg_contract exampleSet.cell (by decide) hne (fun p hp => hp) (k := 8) (by decide) F
  rw [hr'] at this
  cases hd : nearestNeighborsData stableArg exampleSet.motif exampleSet.cell exampleSet.motif 8 F with
  | error e => rw [hd] at this; cases this
  | ok d => exact ⟨F, d, stableArg_contract, hd⟩

end Amd
