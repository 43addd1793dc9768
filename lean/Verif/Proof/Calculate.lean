import Verif.Proof.Searchable
import Verif.Model.Calculate
import Mathlib.Data.List.GetD

/-! Helper lemmas about the model of `calculate.py`. -/

set_option linter.unusedSectionVars false

namespace Amd

section
variable {K : Type*} [Field K] [LinearOrder K]

theorem addRows_spec (k : ℕ) : ∀ (rows : List (List K)) (ws result : List K),
    (∀ r ∈ rows, r.length = k + 1) → rows.length = ws.length → result.length = k →
    ∃ out, addRows rows ws result = .ok out ∧ out.length = k ∧
      ∀ j, j < k → out.getD j 0 = result.getD j 0 +
        (List.zipWith (fun w row => w * (row.drop 1).getD j 0) ws rows).sum
  | [], ws, result, _, _, h => ⟨result, rfl, h, by intro j hj; simp⟩
  | row :: rows, [], _, _, h, _ => by simp at h
  | row :: rows, w :: ws, result, h1, h2, h3 => by
    have hrow : (row.drop 1).length = k := by
      rw [List.length_drop, h1 row (by simp)]; omega
    obtain ⟨out, e1, e2, e3⟩ := addRows_spec k rows ws
      (List.zipWith (fun r d => r + d * w) result (row.drop 1))
      (fun r hr => h1 r (List.mem_cons_of_mem _ hr)) (by simpa using h2)
      (by rw [List.length_zipWith, h3, hrow, min_self])
    refine ⟨out, e1, e2, ?_⟩
    intro j hj
    rw [e3 j hj, List.zipWith_cons_cons, List.sum_cons]
    have hz : (List.zipWith (fun r d => r + d * w) result (row.drop 1)).getD j 0 =
        result.getD j 0 + (row.drop 1).getD j 0 * w := by
      rw [List.getD_eq_getElem _ _ (by rw [List.length_zipWith, h3, hrow, min_self]; exact hj),
        List.getD_eq_getElem _ _ (by rw [h3]; exact hj), List.getD_eq_getElem _ _ (by rw [hrow]; exact hj),
        List.getElem_zipWith]
    rw [hz]
    ring

theorem averageColumns_spec (k : ℕ) (rows : List (List K)) (ws : List K)
    (h1 : ∀ r ∈ rows, r.length = k + 1) (h2 : rows.length = ws.length) :
    ∃ out, averageColumnsExceptFirst (k + 1) rows ws = .ok out ∧ out.length = k ∧
      ∀ j, j < k → out.getD j 0 =
        (List.zipWith (fun w row => w * (row.drop 1).getD j 0) ws rows).sum / ws.sum := by
  obtain ⟨out, e1, e2, e3⟩ := addRows_spec k rows ws (List.replicate k 0) h1 h2 (by simp)
  refine ⟨out.map (· / ws.sum), ?_, by rw [List.length_map, e2], ?_⟩
  · simp only [averageColumnsExceptFirst, Nat.add_sub_cancel, bind, Except.bind]
    rw [e1]
  · intro j hj
    rw [List.getD_eq_getElem _ _ (by rw [List.length_map, e2]; exact hj), List.getElem_map]
    have := e3 j hj
    rw [List.getD_eq_getElem _ _ (by rw [e2]; exact hj)] at this
    rw [this]
    simp [hj]

end

variable {D : ℕ}

theorem takeInds_map {α : Type*} (a : List α) : ∀ (inds : List (Fin a.length)),
    takeInds a (inds.map Fin.val) = .ok (inds.map fun i => a[i])
  | [] => rfl
  | i :: is => by
    rw [List.map_cons, takeInds, List.getElem?_eq_getElem i.2, takeInds_map a is]
    rfl

theorem map_finRange_getElem {α : Type*} (a : List α) :
    ((List.finRange a.length).map fun i => a[i]) = a := by
  apply List.ext_getElem
  · simp
  · intro i h1 h2
    simp

theorem asymPoints_units {S : PeriodicSet D} {inds : List (Fin S.motif.length)} {mult : List ℕ}
    (h : S.Units inds mult) : asymPoints S = .ok (inds.map fun i => S.motif[i], mult) := by
  unfold asymPoints
  rcases h with ⟨h1, h2, _⟩ | ⟨h1, h2, h3⟩
  · rw [h1, h2]
    simp only [takeInds_map]
    rfl
  · have e : (inds.map fun i => S.motif[i]) = S.motif := by rw [h2, map_finRange_getElem]
    rw [e, h3]
    rcases h1 with h1 | h1
    · rw [h1]
    · rw [h1]
      cases S.asymUnit <;> rfl

theorem units_length {S : PeriodicSet D} {inds : List (Fin S.motif.length)} {mult : List ℕ}
    (h : S.Units inds mult) : inds.length = mult.length := by
  rcases h with ⟨_, _, h⟩ | ⟨_, h2, h3⟩
  · exact h
  · rw [h2, h3]; simp

theorem AMD_eq {S : PeriodicSet D} {inds : List (Fin S.motif.length)} {mult : List ℕ}
    (h : S.Units inds mult) (k fuel : ℕ) :
    AMD S k fuel = (do
      let dists ← nearestNeighbors S.motif S.cell (inds.map fun i => S.motif[i]) (k + 1) fuel
      averageColumnsExceptFirst (k + 1) dists (mult.map fun n : ℕ => (n : ℝ))) := by
  unfold AMD
  rw [asymPoints_units h]
  rfl

theorem PDD_eq {S : PeriodicSet D} {inds : List (Fin S.motif.length)} {mult : List ℕ}
    (h : S.Units inds mult) (k : ℕ) (lexsort collapse : Bool) (tol : ℝ) (fuel : ℕ) :
    PDD S k lexsort collapse tol fuel = (do
      let dists ← nearestNeighbors S.motif S.cell (inds.map fun i => S.motif[i]) (k + 1) fuel
      if mult.length ≠ dists.length then .error .bounds
      else .ok (lexsortRows lexsort (collapseRows k collapse tol (dists.map (·.drop 1))
        (mult.map fun n : ℕ => (n : ℝ) / (S.motif.length : ℝ))))) := by
  unfold PDD
  rw [asymPoints_units h]
  simp only [bind, Except.bind, List.length_map]

theorem nearestNeighbors_length {motif : List (Pt D ℝ)} {cell : Fin D → Pt D ℝ} {k fuel : ℕ}
    (hD : 0 < D) {inds : List (Fin motif.length)} (hx : inds ≠ []) {rows : List (List ℝ)}
    (h : nearestNeighbors motif cell (inds.map fun i => motif[i]) (k + 1) fuel = .ok rows) :
    rows.length = inds.length ∧ ∀ r ∈ rows, r.length = k + 1 := by
  have hs := nearestNeighbors_sound hD (by simpa using hx)
    (by intro p hp; obtain ⟨i, _, rfl⟩ := List.mem_map.mp hp; exact List.getElem_mem _) (Nat.succ_pos k) h
  constructor
  · have := hs.length_eq
    simpa using this.symm
  · intro r hr
    obtain ⟨i, hi, rfl⟩ := List.getElem_of_mem hr
    exact (hs.get (by rw [hs.length_eq]; exact hi) hi).1

/-- `AMD` returns the weighted column means of the rows that `nearest_neighbors` returns. -/
theorem AMD_rows {S : PeriodicSet D} {inds : List (Fin S.motif.length)} {mult : List ℕ} (hD : 0 < D)
    (hu : S.Units inds mult) (hne : inds ≠ []) {k fuel : ℕ} {a : List ℝ} (h : AMD S k fuel = .ok a) :
    ∃ rows, nearestNeighbors S.motif S.cell (inds.map fun i => S.motif[i]) (k + 1) fuel = .ok rows ∧
      a.length = k ∧ ∀ j, j < k → a.getD j 0 =
        (List.zipWith (fun (n : ℕ) row => (n : ℝ) * (row.drop 1).getD j 0) mult rows).sum /
          (mult.map fun n : ℕ => (n : ℝ)).sum := by
  rw [AMD_eq hu] at h
  cases hr : nearestNeighbors S.motif S.cell (inds.map fun i => S.motif[i]) (k + 1) fuel with
  | error e => rw [hr] at h; cases h
  | ok rows =>
    refine ⟨rows, rfl, ?_⟩
    rw [hr] at h
    simp only [bind, Except.bind] at h
    obtain ⟨hl, hl'⟩ := nearestNeighbors_length hD hne hr
    obtain ⟨out, e1, e2, e3⟩ := averageColumns_spec k rows (mult.map fun n : ℕ => (n : ℝ)) hl'
      (by rw [hl, List.length_map, units_length hu])
    rw [e1] at h
    injection h with h
    subst h
    refine ⟨e2, fun j hj => ?_⟩
    rw [e3 j hj, List.zipWith_map_left]

/-- `AMD` succeeds whenever `nearest_neighbors` does. -/
theorem AMD_ok_of {S : PeriodicSet D} {inds : List (Fin S.motif.length)} {mult : List ℕ} (hD : 0 < D)
    (hu : S.Units inds mult) (hne : inds ≠ []) {k fuel : ℕ} {rows : List (List ℝ)}
    (hr : nearestNeighbors S.motif S.cell (inds.map fun i => S.motif[i]) (k + 1) fuel = .ok rows) :
    ∃ a, AMD S k fuel = .ok a := by
  rw [AMD_eq hu, hr]
  simp only [bind, Except.bind]
  obtain ⟨hl, hl'⟩ := nearestNeighbors_length hD hne hr
  obtain ⟨out, e1, _⟩ := averageColumns_spec k rows (mult.map fun n : ℕ => (n : ℝ)) hl'
    (by rw [hl, List.length_map, units_length hu])
  exact ⟨out, e1⟩

/-- `PDD` in terms of the rows that `nearest_neighbors` returns. -/
theorem PDD_rows {S : PeriodicSet D} {inds : List (Fin S.motif.length)} {mult : List ℕ} (hD : 0 < D)
    (hu : S.Units inds mult) (hne : inds ≠ []) {k : ℕ} {lexsort collapse : Bool} {tol : ℝ} {fuel : ℕ}
    {pdd : List (PRow ℝ)} (h : PDD S k lexsort collapse tol fuel = .ok pdd) :
    ∃ rows, nearestNeighbors S.motif S.cell (inds.map fun i => S.motif[i]) (k + 1) fuel = .ok rows ∧
      pdd = lexsortRows lexsort (collapseRows k collapse tol (rows.map (·.drop 1))
        (mult.map fun n : ℕ => (n : ℝ) / (S.motif.length : ℝ))) := by
  rw [PDD_eq hu] at h
  cases hr : nearestNeighbors S.motif S.cell (inds.map fun i => S.motif[i]) (k + 1) fuel with
  | error e => rw [hr] at h; cases h
  | ok rows =>
    refine ⟨rows, rfl, ?_⟩
    rw [hr] at h
    simp only [bind, Except.bind] at h
    obtain ⟨hl, _⟩ := nearestNeighbors_length hD hne hr
    rw [if_neg (by rw [hl, units_length hu]; simp)] at h
    injection h with h
    exact h.symm

theorem PDD_ok_of {S : PeriodicSet D} {inds : List (Fin S.motif.length)} {mult : List ℕ} (hD : 0 < D)
    (hu : S.Units inds mult) (hne : inds ≠ []) (k : ℕ) (lexsort collapse : Bool) (tol : ℝ) {fuel : ℕ}
    {rows : List (List ℝ)}
    (hr : nearestNeighbors S.motif S.cell (inds.map fun i => S.motif[i]) (k + 1) fuel = .ok rows) :
    ∃ pdd, PDD S k lexsort collapse tol fuel = .ok pdd := by
  rw [PDD_eq hu, hr]
  simp only [bind, Except.bind]
  obtain ⟨hl, _⟩ := nearestNeighbors_length hD hne hr
  rw [if_neg (by rw [hl, units_length hu]; simp)]
  exact ⟨_, rfl⟩

/-- Without collapse and sorting, one row per unit. -/
theorem collapseRows_false {K : Type*} [Field K] [LinearOrder K] (k : ℕ) (tol : K) (dists : List (List K))
    (weights : List K) :
    collapseRows k false tol dists weights = (List.range dists.length).map fun i =>
      { weight := weights.getD i 0, dists := dists.getD i [], group := [i] } := by
  simp [collapseRows]

end Amd
