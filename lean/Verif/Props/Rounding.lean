import Verif.Proof.FloatCall
import Verif.Props.Explicit

/-!
# C81: rounding

The other theorems are about real numbers. Here the operations are rounded: `nearestNeighborsR`, `AMDR` and `PDDR` take the computed numbers (`Computed`) as a parameter, and
`FloatCall fl`, `FloatMean fl` say that they are computed by operations with the rounding `fl`, sums being evaluated in any order, with or without fused multiply-add. All comparisons,
selections and the end of the search depend on the rounded numbers. What is not covered: overflow and underflow (`IsRounding` has relative errors only), and collapsing of rows.
-/

namespace Amd

variable {D : ℕ}

theorem SizeAtMost.nonneg {motif : List (Pt D ℝ)} {M : ℝ} (h : SizeAtMost motif M) (hne : motif ≠ []) : 0 ≤ M := by
  obtain ⟨p, hp⟩ := List.exists_mem_of_ne_nil motif hne
  exact (eucl_nonneg p 0).trans (h.2 p hp)

section
variable {motif : List (Pt D ℝ)} {cell : Fin D → Pt D ℝ} {inds : List (Fin motif.length)} {C : Computed motif.length D} {fl : ℝ → ℝ} {u κ M : ℝ}

/-- **C81** Rounded operations give numbers of the stated precision. -/
theorem C81_accurate (hD : 0 < D) (hr : IsRounding fl u motif) (hκ : CancelsBy cell κ) (hM : SizeAtMost motif M) (h : FloatCall fl motif cell inds C) :
    Accurate C cell inds (precision D u κ) M :=
  h.accurate hD hr.nonneg hr.le_one hr.error hr.motif hκ.1 hκ.2 hM.1 hM.2

theorem precision_nonneg (hr : IsRounding fl u motif) (hκ : CancelsBy cell κ) : 0 ≤ precision D u κ := by
  unfold precision
  have h1 : ∀ n : ℕ, 1 ≤ (1 + u) ^ n := fun n => one_le_pow₀ (by linarith [hr.nonneg])
  have h2 := mul_nonneg (by linarith [h1 D] : 0 ≤ (1 + u) ^ D - 1) hκ.1
  nlinarith [h1 (D + 2)]

/-- **C81** Every non-singular cell has bounded cancellation. -/
theorem C81_cancellation (h : NonSingular cell) : ∃ κ, CancelsBy cell κ := by
  obtain ⟨κ, h0, hκ⟩ := exists_cancellation h
  exact ⟨κ, h0, hκ⟩

/-- **C81** (partial) Rows of neighbours found with numbers of precision `ε`: the row of each point has an entry for the point itself, which is 0, and entries that differ from the true
distances to the nearest neighbours by a small multiple of `ε`. Missing: cells that are too oblique for the number of neighbours. -/
theorem C81_rows_of_accurate_partial (hD : 0 < D) (hcell : NonSingular cell) (hne : inds ≠ []) {ε : ℝ} (hε : 0 ≤ ε) (hε' : ε ≤ 1 / 16)
    (hM : ∀ p ∈ motif, ∀ q ∈ motif, eucl p q ≤ M) (hC : Accurate C cell inds ε M) {k fuel : ℕ} (hs : Covered motif cell (k + 1)) {rows : List (List ℝ)}
    (h : nearestNeighborsR C inds.length (k + 1) fuel = .ok rows) :
    List.Forall₂ (fun i row => row.length = k + 1 ∧ row.getD 0 0 = 0 ∧ ∃ r, IsNeighbourRow motif cell i k r ∧
      ∀ j < k, |row.getD (j + 1) 0 - r.getD j 0| ≤ 7 * ε * (r.getD j 0 + M)) inds rows :=
  nearestNeighborsR_error hD hcell hne hε hε' hM hC (hs.searchable (motif_ne_of_inds hne)) h

/-- **C81** (partial) Rows of neighbours found with rounded operations differ from the true distances by a small multiple of the precision, whatever the order of the operations. Missing:
cells that are too oblique for the number of neighbours. -/
theorem C81_rows_partial (hD : 0 < D) (hcell : NonSingular cell) (hne : inds ≠ []) (hr : IsRounding fl u motif) (hκ : CancelsBy cell κ) (hM : SizeAtMost motif M)
    (hε : precision D u κ ≤ 1 / 16) (hC : FloatCall fl motif cell inds C) {k fuel : ℕ} (hs : Covered motif cell (k + 1)) {rows : List (List ℝ)}
    (h : nearestNeighborsR C inds.length (k + 1) fuel = .ok rows) :
    List.Forall₂ (fun i row => row.length = k + 1 ∧ row.getD 0 0 = 0 ∧ ∃ r, IsNeighbourRow motif cell i k r ∧
      ∀ j < k, |row.getD (j + 1) 0 - r.getD j 0| ≤ 7 * precision D u κ * (r.getD j 0 + M)) inds rows :=
  C81_rows_of_accurate_partial hD hcell hne (precision_nonneg hr hκ) hε hM.1 (C81_accurate hD hr hκ hM hC) hs h

/-- **C81** With rounded operations the search ends without an error, for every non-singular cell. -/
theorem C81_terminates (hD : 0 < D) (hcell : NonSingular cell) (hne : inds ≠ []) (hr : IsRounding fl u motif) (hκ : CancelsBy cell κ) (hM : SizeAtMost motif M)
    (hε : precision D u κ ≤ 1 / 16) (hC : FloatCall fl motif cell inds C) {k : ℕ} (hk : 0 < k) :
    ∃ F, ∀ fuel, F ≤ fuel → ∃ rows, nearestNeighborsR C inds.length k fuel = .ok rows :=
  nearestNeighborsR_terminates hD hcell hne hε (C81_accurate hD hr hκ hM hC) hk

end

/-- **C81** Without rounding, the computed rows are those of the model without rounding. -/
theorem C81_exact (motif : List (Pt D ℝ)) (cell : Fin D → Pt D ℝ) (x : List (Pt D ℝ)) (k fuel : ℕ) :
    nearestNeighborsR (exactly motif cell x) x.length k fuel = nearestNeighbors motif cell x k fuel :=
  nearestNeighborsR_exact motif cell x k fuel

section
variable {S : PeriodicSet D} {inds : List (Fin S.motif.length)} {mult : List ℕ} {C : Computed S.motif.length D} {fl : ℝ → ℝ} {u κ M : ℝ}

theorem weights_pos (hu : S.Units inds mult) (hne : inds ≠ []) (hpos : ∀ n ∈ mult, 0 < n) : 0 < (mult.map fun n : ℕ => (n : ℝ)).sum := by
  have hl := units_length hu
  have hi : 0 < inds.length := List.length_pos_iff.mpr hne
  cases mult with
  | nil => rw [List.length_nil] at hl; omega
  | cons n mult =>
    rw [List.map_cons, List.sum_cons]
    have h1 : (0 : ℝ) < n := by exact_mod_cast hpos n (by simp)
    have h2 := weights_nonneg mult
    linarith

theorem amdR_error (hD : 0 < D) (hcell : NonSingular S.cell) (hu : S.Units inds mult) (hne : inds ≠ []) (hpos : ∀ n ∈ mult, 0 < n) (hr : IsRounding fl u S.motif)
    (hκ : CancelsBy S.cell κ) (hM : SizeAtMost S.motif M) (hε : precision D u κ ≤ 1 / 16) (hC : FloatCall fl S.motif S.cell inds C)
    {mean : List ℕ → List ℝ → ℝ} (hmean : FloatMean fl mean) {k fuel : ℕ} (hs : Searchable S.motif S.cell (k + 1)) {a : List ℝ} (h : AMDR S C mean k fuel = .ok a)
    {R : Fin S.motif.length → List ℝ} (hR : ∀ i, IsNeighbourRow S.motif S.cell i k (R i)) :
    a.length = k ∧ ∀ j < k, |a.getD j 0 - weightedMean mult (inds.map fun i => (R i).getD j 0)| ≤
      (7 * precision D u κ + 2 * ((1 + u) ^ (mult.length + 1) - 1)) * (weightedMean mult (inds.map fun i => (R i).getD j 0) + M) := by
  rw [AMDR_eq hu] at h
  cases hd : nearestNeighborsR C inds.length (k + 1) fuel with
  | error e => rw [hd] at h; cases h
  | ok rows =>
    rw [hd] at h
    injection h with h
    subst h
    have hm := motif_ne_of_inds hne
    have hM0 := hM.nonneg hm
    have hp0 := precision_nonneg (D := D) hr hκ
    have hrows := nearestNeighborsR_error hD hcell hne hp0 hε hM.1 (C81_accurate hD hr hκ hM hC) hs hd
    refine ⟨by simp, fun j hj => ?_⟩
    rw [List.getD_eq_getElem _ _ (by simpa using hj)]
    simp only [List.getElem_map, List.getElem_range]
    have hml : mult.length = inds.length := (units_length hu).symm
    have hlen : rows.length = inds.length := hrows.length_eq.symm
    refine mean_error (weights_pos hu hne hpos) (by simp [hml]) (c := 7 * precision D u κ) (by positivity) (by linarith) ?_ hM0 ?_ ?_
      (hmean.error hr.nonneg hr.error (by simp [hml, hlen]) ?_)
    · intro y hy
      obtain ⟨i, _, rfl⟩ := List.mem_map.mp hy
      have hjl : j < (R i).length := by rw [(hR i).1]; exact hj
      rw [List.getD_eq_getElem _ _ hjl]
      obtain ⟨idx, _, e, _⟩ := (hR i).2
      have hmem : (R i)[j] ∈ R i := List.getElem_mem hjl
      obtain ⟨s, _, hs⟩ := List.mem_map.mp (e.subst (motive := fun l => (R i)[j] ∈ l) hmem)
      rw [← hs]
      exact eucl_nonneg _ _
    · rw [List.forall₂_map_left_iff, List.forall₂_map_right_iff]
      refine List.Forall₂.flip (hrows.imp fun i row h => ?_)
      obtain ⟨_, _, r, hr, he⟩ := h
      have e : R i = r := (hR i).unique hr
      change |row.getD (j + 1) 0 - (R i).getD j 0| ≤ 7 * precision D u κ * ((R i).getD j 0 + M)
      rw [e]
      exact he j hj
    · linarith [one_le_pow₀ (n := mult.length + 1) (by linarith [hr.nonneg] : 1 ≤ 1 + u)]
    · intro hc
      rw [hc, List.length_nil] at hml
      exact hne (List.length_eq_zero_iff.mp hml.symm)

/-- **C81** (partial) The AMD computed with rounded operations differs from the weighted mean of the true distances by a small multiple of the precision. Missing: cells that are too oblique
for the number of neighbours. -/
theorem C81_amd_partial (hD : 0 < D) (hcell : NonSingular S.cell) (hu : S.Units inds mult) (hne : inds ≠ []) (hpos : ∀ n ∈ mult, 0 < n) (hr : IsRounding fl u S.motif)
    (hκ : CancelsBy S.cell κ) (hM : SizeAtMost S.motif M) (hε : precision D u κ ≤ 1 / 16) (hC : FloatCall fl S.motif S.cell inds C)
    {mean : List ℕ → List ℝ → ℝ} (hmean : FloatMean fl mean) {k fuel : ℕ} (hs : Covered S.motif S.cell (k + 1)) {a : List ℝ} (h : AMDR S C mean k fuel = .ok a) :
    ∃ rows : List (List ℝ), List.Forall₂ (fun i row => IsNeighbourRow S.motif S.cell i k row) inds rows ∧
      a.length = k ∧ ∀ j < k, |a.getD j 0 - weightedMean mult (rows.map (·.getD j 0))| ≤
        (7 * precision D u κ + 2 * ((1 + u) ^ (mult.length + 1) - 1)) * (weightedMean mult (rows.map (·.getD j 0)) + M) := by
  choose R hR using fun i : Fin S.motif.length => exists_neighbourRow hD hcell i k
  obtain ⟨h1, h2⟩ := amdR_error hD hcell hu hne hpos hr hκ hM hε hC hmean (hs.searchable (motif_ne hne)) h hR
  refine ⟨inds.map R, ?_, h1, ?_⟩
  · rw [List.forall₂_map_right_iff, List.forall₂_same]
    exact fun i _ => hR i
  · intro j hj
    rw [List.map_map]
    exact h2 j hj

/-- **C81** (partial) The rows of the PDD, without collapsing, computed with rounded operations: one for each point of the asymmetric unit, with the computed quotient as weight and distances
that differ from the true distances by a small multiple of the precision. Missing: cells that are too oblique for the number of neighbours; collapsing. -/
theorem C81_pdd_partial (hD : 0 < D) (hcell : NonSingular S.cell) (hu : S.Units inds mult) (hne : inds ≠ []) (hr : IsRounding fl u S.motif)
    (hκ : CancelsBy S.cell κ) (hM : SizeAtMost S.motif M) (hε : precision D u κ ≤ 1 / 16) (hC : FloatCall fl S.motif S.cell inds C)
    {k fuel : ℕ} (hs : Covered S.motif S.cell (k + 1)) {lexsort : Bool} {pdd : List (PRow ℝ)}
    (h : PDDR S C (fun n m => fl ((n : ℝ) / (m : ℝ))) k lexsort fuel = .ok pdd) :
    ∃ rows : List (PRow ℝ), pdd.Perm rows ∧ (lexsort = false → pdd = rows) ∧
      List.Forall₂ (fun (v : Fin S.motif.length × ℕ) (row : PRow ℝ) =>
        |row.weight - (v.2 : ℝ) / S.motif.length| ≤ u * ((v.2 : ℝ) / S.motif.length) ∧ row.dists.length = k ∧
        ∃ r, IsNeighbourRow S.motif S.cell v.1 k r ∧ ∀ j < k, |row.dists.getD j 0 - r.getD j 0| ≤ 7 * precision D u κ * (r.getD j 0 + M)) (inds.zip mult) rows := by
  cases hd : nearestNeighborsR C inds.length (k + 1) fuel with
  | error e =>
    unfold PDDR at h
    rw [asymPoints_units hu] at h
    simp only [bind, Except.bind, List.length_map] at h
    rw [hd] at h
    cases h
  | ok dists =>
    have hrows := C81_rows_partial hD hcell hne hr hκ hM hε hC hs hd
    have hlen : dists.length = inds.length := hrows.length_eq.symm
    rw [PDDR_eq hu C _ k lexsort fuel hd hlen] at h
    injection h with h
    subst h
    refine ⟨_, lexsortRows_perm _ _, fun hl => by rw [hl]; simp [lexsortRows], ?_⟩
    have hml := units_length hu
    rw [collapseRows_false, List.forall₂_iff_get]
    rw [List.forall₂_iff_get] at hrows
    obtain ⟨hl, hf⟩ := hrows
    refine ⟨by simp [hlen, ← hml], ?_⟩
    intro i h1 h2
    have hi : i < inds.length := by rw [List.length_zip] at h1; omega
    have hm : i < mult.length := by omega
    obtain ⟨e1, -, r, e3, e4⟩ := hf i hi (hl ▸ hi)
    simp only [List.get_eq_getElem, List.getElem_map, List.getElem_range, List.getElem_zip] at e1 e3 e4 ⊢
    rw [List.getD_eq_getElem _ _ (by simpa using hm), List.getD_eq_getElem _ _ (by simpa [hlen] using hi)]
    simp only [List.getElem_map]
    refine ⟨?_, by rw [List.length_drop, e1]; rfl, r, e3, ?_⟩
    · have := hr.error ((mult[i] : ℝ) / S.motif.length)
      rwa [abs_of_nonneg (a := (mult[i] : ℝ) / S.motif.length) (div_nonneg (Nat.cast_nonneg _) (Nat.cast_nonneg _))] at this
    · intro j hj
      have := e4 j hj
      rw [List.getD_eq_getElem _ _ (by rw [e1]; omega)] at this
      rw [List.getD_eq_getElem _ _ (by rw [List.length_drop, e1]; omega), List.getElem_drop]
      simpa [Nat.add_comm] using this

end

/-- **C81** (partial) The AMDs of isometric periodic sets, computed with rounded operations from any descriptions, are close to one list of numbers and so to each other. Missing: cells that
are too oblique for the number of neighbours. -/
theorem C81_isometric_partial {S S' : PeriodicSet D} {inds : List (Fin S.motif.length)} {inds' : List (Fin S'.motif.length)} {mult mult' : List ℕ} (hD : 0 < D)
    (hS : IsDescription S inds mult) (hS' : IsDescription S' inds' mult') (hiso : Isometric S S') {fl : ℝ → ℝ} {u κ κ' M M' : ℝ}
    (hr : IsRounding fl u S.motif) (hκ : CancelsBy S.cell κ) (hM : SizeAtMost S.motif M) (hε : precision D u κ ≤ 1 / 16)
    (hr' : IsRounding fl u S'.motif) (hκ' : CancelsBy S'.cell κ') (hM' : SizeAtMost S'.motif M') (hε' : precision D u κ' ≤ 1 / 16)
    {C : Computed S.motif.length D} {C' : Computed S'.motif.length D} (hC : FloatCall fl S.motif S.cell inds C) (hC' : FloatCall fl S'.motif S'.cell inds' C')
    {mean mean' : List ℕ → List ℝ → ℝ} (hmean : FloatMean fl mean) (hmean' : FloatMean fl mean') {k fuel fuel' : ℕ} (hs : Covered S.motif S.cell (k + 1))
    (hs' : Covered S'.motif S'.cell (k + 1)) {a a' : List ℝ} (h : AMDR S C mean k fuel = .ok a) (h' : AMDR S' C' mean' k fuel' = .ok a') :
    ∃ b : List ℝ, b.length = k ∧ a.length = k ∧ a'.length = k ∧ ∀ j < k,
      |a.getD j 0 - b.getD j 0| ≤ (7 * precision D u κ + 2 * ((1 + u) ^ (mult.length + 1) - 1)) * (b.getD j 0 + M) ∧
      |a'.getD j 0 - b.getD j 0| ≤ (7 * precision D u κ' + 2 * ((1 + u) ^ (mult'.length + 1) - 1)) * (b.getD j 0 + M') := by
  have hss := hs.searchable hS.nonempty
  have hss' := hs'.searchable hS'.nonempty
  choose R hR using fun i : Fin S.motif.length => exists_neighbourRow hD hS.cell i k
  choose R' hR' using fun i : Fin S'.motif.length => exists_neighbourRow hD hS'.cell i k
  obtain ⟨b, _, F, hF⟩ := C10_terminates hD hS.units hS.inds_ne hS.cell k false false 0
  obtain ⟨b', _, F', hF'⟩ := C10_terminates hD hS'.units hS'.inds_ne hS'.cell k false false 0
  have hb := (hF F le_rfl).1
  have hb' := (hF' F' le_rfl).1
  have e := C66_amd_of_searchable hD hS hS' hiso hss hss' hb hb'
  have e1 := AMD_eq_rows hD hS.units hS.inds_ne hss hb fun i _ => hR i
  have e2 := AMD_eq_rows hD hS'.units hS'.inds_ne hss' hb' fun i _ => hR' i
  obtain ⟨l1, d1⟩ := amdR_error hD hS.cell hS.units hS.inds_ne hS.pos hr hκ hM hε hC hmean hss h hR
  obtain ⟨l2, d2⟩ := amdR_error hD hS'.cell hS'.units hS'.inds_ne hS'.pos hr' hκ' hM' hε' hC' hmean' hss' h' hR'
  have hv : ∀ j < k, b.getD j 0 = weightedMean mult (inds.map fun i => (R i).getD j 0) := by
    intro j hj
    rw [e1, List.getD_eq_getElem _ _ (by simpa using hj)]
    simp only [List.getElem_map, List.getElem_range]
    unfold weightedMean
    rw [zipWith_map_right']
  have hv' : ∀ j < k, b.getD j 0 = weightedMean mult' (inds'.map fun i => (R' i).getD j 0) := by
    intro j hj
    rw [e, e2, List.getD_eq_getElem _ _ (by simpa using hj)]
    simp only [List.getElem_map, List.getElem_range]
    unfold weightedMean
    rw [zipWith_map_right']
  refine ⟨b, by rw [e1]; simp, l1, l2, fun j hj => ⟨?_, ?_⟩⟩
  · rw [hv j hj]; exact d1 j hj
  · rw [hv' j hj]; exact d2 j hj

/-! ### An example: pairs of points on the line, with errors in every operation whose result is not a coordinate of the motif -/

/-- A rounding to which 0, 1, 2, 4 and 5 are known. -/
noncomputable def coarse (x : ℝ) : ℝ := open Classical in if x = 0 ∨ x = 1 ∨ x = 2 ∨ x = 4 ∨ x = 5 then x else 1001 / 1000 * x

theorem coarse_error (x : ℝ) : |coarse x - x| ≤ 1 / 1000 * |x| := by
  unfold coarse
  split_ifs
  · simp
  · have : 1001 / 1000 * x - x = 1 / 1000 * x := by ring
    rw [this, abs_mul]
    norm_num

theorem coarse_linePairs : IsRounding coarse (1 / 1000) linePairs.motif := by
  refine ⟨by norm_num, by norm_num, coarse_error, ?_⟩
  intro p hp j
  simp only [linePairs, List.mem_cons, List.not_mem_nil, or_false] at hp
  rcases hp with rfl | rfl <;> fin_cases j <;> simp [coarse]

theorem coarse_lineMirror : IsRounding coarse (1 / 1000) lineMirror.motif := by
  refine ⟨by norm_num, by norm_num, coarse_error, ?_⟩
  intro p hp j
  simp only [lineMirror, List.mem_cons, List.not_mem_nil, or_false] at hp
  rcases hp with rfl | rfl | rfl | rfl <;> fin_cases j <;> simp [coarse]

theorem line_cancels {c : ℝ} : CancelsBy (![![c]] : Fin 1 → Pt 1 ℝ) 1 := by
  refine ⟨zero_le_one, fun n => ?_⟩
  simp only [latLength, Finset.univ_unique, Fin.default_eq_zero, Finset.sum_singleton, sq_abs, one_mul]
  simp

theorem line_size {motif : List (Pt 1 ℝ)} {M : ℝ} (h : ∀ p ∈ motif, 0 ≤ p 0 ∧ p 0 ≤ M) : SizeAtMost motif M := by
  have hE : ∀ p q : Pt 1 ℝ, eucl p q = |p 0 - q 0| := by
    intro p q
    simp [eucl, sqDist, Real.sqrt_sq_eq_abs]
  constructor
  · intro p hp q hq
    rw [hE, abs_le]
    constructor <;> linarith [(h p hp).1, (h p hp).2, (h q hq).1, (h q hq).2]
  · intro p hp
    rw [hE, abs_le]
    simp only [Pi.zero_apply, sub_zero]
    constructor <;> linarith [(h p hp).1, (h p hp).2]

theorem line_precision : precision 1 (1 / 1000) 1 ≤ 1 / 16 := by
  unfold precision; norm_num

theorem exists_floatMean (fl : ℝ → ℝ) : ∃ mean, FloatMean fl mean := by
  classical
  have hx : ∀ (mult : List ℕ) (column : List ℝ), mult.length = column.length → mult ≠ [] →
      ∃ v, DotR fl (List.zipWith (fun (n : ℕ) d => (d, (n : ℝ))) mult column) v := by
    intro mult column hl hne
    apply exists_dotR
    intro hc
    have := congrArg List.length hc
    rw [List.length_zipWith, hl, min_self, List.length_nil] at this
    exact hne (List.length_eq_zero_iff.mp (hl.trans this))
  refine ⟨fun mult column => if h : mult.length = column.length ∧ mult ≠ [] then
    fl (Classical.choose (hx mult column h.1 h.2) / (mult.map fun n : ℕ => (n : ℝ)).sum) else 0, ?_⟩
  intro mult column hl hne
  refine ⟨_, Classical.choose_spec (hx mult column hl hne), ?_⟩
  exact dif_pos ⟨hl, hne⟩

/-- The hypotheses of `C81_isometric_partial` are met, with rounding errors, and so are those of the other theorems. -/
example : ∃ (C : Computed linePairs.motif.length 1) (C' : Computed lineMirror.motif.length 1) (mean : List ℕ → List ℝ → ℝ) (F : ℕ) (a a' : List ℝ),
    FloatCall coarse linePairs.motif linePairs.cell (List.finRange 2) C ∧ FloatCall coarse lineMirror.motif lineMirror.cell [(0 : Fin 4)] C' ∧ FloatMean coarse mean ∧
    AMDR linePairs C mean 5 F = .ok a ∧ AMDR lineMirror C' mean 5 F = .ok a' ∧ coarse 3 ≠ 3 ∧ ∃ b : List ℝ, b.length = 5 ∧ ∀ j < 5,
      |a.getD j 0 - b.getD j 0| ≤ 4 / 100 * (b.getD j 0 + 1) ∧ |a'.getD j 0 - b.getD j 0| ≤ 4 / 100 * (b.getD j 0 + 5) := by
  have hd := linePairs_description
  have hd' := lineMirror_description
  obtain ⟨C, hC⟩ := exists_floatCall coarse (by decide) linePairs.motif linePairs.cell (List.finRange 2)
  obtain ⟨C', hC'⟩ := exists_floatCall coarse (by decide) lineMirror.motif lineMirror.cell [(0 : Fin 4)]
  obtain ⟨mean, hmean⟩ := exists_floatMean coarse
  have f1 : FitsInCell linePairs.motif linePairs.cell := line_fits (by norm_num) fun q hq => by
    simp only [linePairs, List.mem_cons, List.not_mem_nil, or_false] at hq
    rcases hq with rfl | rfl <;> norm_num
  have f2 : FitsInCell lineMirror.motif lineMirror.cell := line_fits (by norm_num) fun q hq => by
    simp only [lineMirror, List.mem_cons, List.not_mem_nil, or_false] at hq
    rcases hq with rfl | rfl | rfl | rfl <;> norm_num
  have s1 : SizeAtMost linePairs.motif 1 := line_size fun q hq => by
    simp only [linePairs, List.mem_cons, List.not_mem_nil, or_false] at hq
    rcases hq with rfl | rfl <;> norm_num
  have s2 : SizeAtMost lineMirror.motif 5 := line_size fun q hq => by
    simp only [lineMirror, List.mem_cons, List.not_mem_nil, or_false] at hq
    rcases hq with rfl | rfl | rfl | rfl <;> norm_num
  have c1 : Covered linePairs.motif linePairs.cell 6 := Or.inl ⟨f1, 1, 1, le_rfl, fun i => by fin_cases i; simp [linePairs, gram], by simp, Or.inl (by norm_num)⟩
  have c2 : Covered lineMirror.motif lineMirror.cell 6 := Or.inl ⟨f2, 1, 1, le_rfl, fun i => by fin_cases i; simp [lineMirror, gram], by simp, Or.inl (by norm_num)⟩
  obtain ⟨F, hF⟩ := C81_terminates (by decide) hd.cell hd.inds_ne coarse_linePairs line_cancels s1 line_precision hC (k := 6) (by norm_num)
  obtain ⟨F', hF'⟩ := C81_terminates (by decide) hd'.cell hd'.inds_ne coarse_lineMirror line_cancels s2 line_precision hC' (k := 6) (by norm_num)
  obtain ⟨r, hr⟩ := hF (max F F') (le_max_left _ _)
  obtain ⟨r', hr'⟩ := hF' (max F F') (le_max_right _ _)
  have ha := AMDR_eq hd.units C mean 5 (max F F')
  have ha' := AMDR_eq hd'.units C' mean 5 (max F F')
  rw [hr] at ha
  rw [hr'] at ha'
  obtain ⟨b, hb, -, -, hj⟩ := C81_isometric_partial (by decide) hd hd' line_isometric coarse_linePairs line_cancels s1 line_precision coarse_lineMirror line_cancels s2
    line_precision hC hC' hmean hmean c1 c2 ha ha'
  refine ⟨C, C', mean, _, _, _, hC, hC', hmean, ha, ha', by norm_num [coarse], b, hb, fun j hj' => ?_⟩
  have hp : 7 * precision 1 (1 / 1000) 1 + 2 * ((1 + 1 / 1000) ^ 3 - 1) ≤ 4 / 100 := by unfold precision; norm_num
  have hp' : 7 * precision 1 (1 / 1000) 1 + 2 * ((1 + 1 / 1000) ^ 2 - 1) ≤ 4 / 100 := by unfold precision; norm_num
  have h0 : 0 < 7 * precision 1 (1 / 1000) 1 + 2 * ((1 + 1 / 1000) ^ 3 - 1) := by unfold precision; norm_num
  have h0' : 0 < 7 * precision 1 (1 / 1000) 1 + 2 * ((1 + 1 / 1000) ^ 2 - 1) := by unfold precision; norm_num
  obtain ⟨e1, e2⟩ := hj j hj'
  have n1 := nonneg_of_mul_nonneg_right ((abs_nonneg _).trans e1) h0
  have n2 := nonneg_of_mul_nonneg_right ((abs_nonneg _).trans e2) h0'
  exact ⟨e1.trans (mul_le_mul_of_nonneg_right hp n1), e2.trans (mul_le_mul_of_nonneg_right hp' n2)⟩

/-! ### In three dimensions: the primitive cell of diamond -/

theorem diamond_nonSingular : NonSingular diamond.cell := by
  rw [NonSingular, Fintype.linearIndependent_iff]
  intro g hg
  have e := fun j => congrFun hg j
  simp only [diamond, Fin.sum_univ_three, Pi.add_apply, Pi.smul_apply, smul_eq_mul, Pi.zero_apply] at e
  have e0 := e 0
  have e1 := e 1
  have e2 := e 2
  simp at e0 e1 e2
  intro i
  fin_cases i <;> simp <;> linarith

theorem diamond_cancels : CancelsBy diamond.cell 2 := by
  refine ⟨by norm_num, fun n => ?_⟩
  refine Real.sqrt_le_iff.mpr ⟨mul_nonneg (by norm_num) (Real.sqrt_nonneg _), ?_⟩
  rw [mul_pow, latLength, Real.sq_sqrt (Finset.sum_nonneg fun _ _ => sq_nonneg _)]
  simp [diamond, Fin.sum_univ_three]
  have h0 := sq_abs (n 0 : ℝ)
  have h1 := sq_abs (n 1 : ℝ)
  have h2 := sq_abs (n 2 : ℝ)
  nlinarith [sq_nonneg (|(n 0 : ℝ)| - |(n 1 : ℝ)|), sq_nonneg (|(n 0 : ℝ)| - |(n 2 : ℝ)|), sq_nonneg (|(n 1 : ℝ)| - |(n 2 : ℝ)|), sq_nonneg ((n 0 : ℝ) + n 1 + n 2)]

theorem diamond_size : SizeAtMost diamond.motif 1 := by
  constructor
  · simp only [diamond, List.mem_cons, List.not_mem_nil, or_false]
    rintro p (rfl | rfl) q (rfl | rfl) <;> refine Real.sqrt_le_one.2 ?_ <;> simp [sqDist, Fin.sum_univ_three] <;> norm_num
  · simp only [diamond, List.mem_cons, List.not_mem_nil, or_false]
    rintro p (rfl | rfl) <;> refine Real.sqrt_le_one.2 ?_ <;> simp [sqDist, Fin.sum_univ_three]
    norm_num

/-- A rounding to which 0 and 1/2 are known. -/
noncomputable def coarser (x : ℝ) : ℝ := open Classical in if x = 0 ∨ x = 1 / 2 then x else 1001 / 1000 * x

theorem coarser_diamond : IsRounding coarser (1 / 1000) diamond.motif := by
  refine ⟨by norm_num, by norm_num, fun x => ?_, ?_⟩
  · unfold coarser
    split_ifs
    · simp
    · have : 1001 / 1000 * x - x = 1 / 1000 * x := by ring
      rw [this, abs_mul]
      norm_num
  · intro p hp j
    simp only [diamond, List.mem_cons, List.not_mem_nil, or_false] at hp
    rcases hp with rfl | rfl <;> fin_cases j <;> simp [coarser]

/-- The ten nearest neighbours of the points of the diamond structure, with rounding errors of a thousandth in every operation, are found with errors of less than a tenth. -/
example : ∃ (C : Computed diamond.motif.length 3) (F : ℕ) (rows : List (List ℝ)), FloatCall coarser diamond.motif diamond.cell (List.finRange 2) C ∧
    nearestNeighborsR C 2 11 F = .ok rows ∧ List.Forall₂ (fun i row => row.length = 11 ∧ row.getD 0 0 = 0 ∧ ∃ r, IsNeighbourRow diamond.motif diamond.cell i 10 r ∧
      ∀ j < 10, |row.getD (j + 1) 0 - r.getD j 0| ≤ 1 / 10 * (r.getD j 0 + 1)) (List.finRange 2) rows := by
  obtain ⟨C, hC⟩ := exists_floatCall coarser (by decide) diamond.motif diamond.cell (List.finRange 2)
  have hne : (List.finRange 2 : List (Fin 2)) ≠ [] := by decide
  have hp : precision 3 (1 / 1000) 2 ≤ 1 / 70 := by unfold precision; norm_num
  have h0 : 0 < precision 3 (1 / 1000) 2 := by unfold precision; norm_num
  obtain ⟨F, hF⟩ := C81_terminates (by decide) diamond_nonSingular hne coarser_diamond diamond_cancels diamond_size (hp.trans (by norm_num)) hC (k := 11) (by norm_num)
  obtain ⟨rows, h⟩ := hF F le_rfl
  refine ⟨C, F, rows, hC, h, (C81_rows_partial (by decide) diamond_nonSingular hne coarser_diamond diamond_cancels diamond_size (hp.trans (by norm_num)) hC
    (k := 10) (diamond_covered (by norm_num)).1 h).imp ?_⟩
  rintro i row ⟨h1, h2, r, h3, h4⟩
  refine ⟨h1, h2, r, h3, fun j hj => ?_⟩
  have e := h4 j hj
  have n := nonneg_of_mul_nonneg_right ((abs_nonneg _).trans e) (by positivity)
  exact e.trans (mul_le_mul_of_nonneg_right (by linarith) n)

end Amd
