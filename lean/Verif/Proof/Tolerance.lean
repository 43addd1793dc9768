import Verif.Model.Tolerance
import Verif.Proof.PddFacts
import Verif.Proof.PddMean

/-! # Lemmas on the collapse tolerance -/

namespace Amd

variable {D : ℕ}

theorem chebyshev_nonneg' (r s : List ℝ) : 0 ≤ chebyshev r s := by
  unfold chebyshev
  induction List.zipWith (fun a b => |a - b|) r s with
  | nil => exact le_rfl
  | cons a l ih => exact le_max_of_le_right ih

theorem overlapAt_negative {t : ℝ} (ht : t < 0) (dists : List (List ℝ)) (i j : ℕ) : overlapAt t dists i j = false := by
  rw [overlapAt, decide_eq_false (by have := chebyshev_nonneg' (dists.getD (min i j) []) (dists.getD (max i j) []); linarith), Bool.and_false]

/-- Every float has the effect of some number. -/
theorem overlapTol_number (tol : Tolerance) (dists : List (List ℝ)) : ∃ t, overlapTol tol dists = overlapAt t dists := by
  have hneg : (fun _ _ => false : ℕ → ℕ → Bool) = overlapAt (-1) dists := by
    funext i j
    rw [overlapAt_negative (by norm_num)]
  cases tol with
  | num t =>
    refine ⟨t, ?_⟩
    funext i j
    simp [overlapTol, overlapAt, Tolerance.within]
  | negInf => exact ⟨-1, by rw [← hneg]; funext i j; simp [overlapTol, Tolerance.within]⟩
  | nan => exact ⟨-1, by rw [← hneg]; funext i j; simp [overlapTol, Tolerance.within]⟩
  | inf =>
    obtain ⟨M, hM⟩ := Finset.exists_le (insert 0 (((Finset.range dists.length) ×ˢ (Finset.range dists.length)).image
      fun p => chebyshev (dists.getD p.1 []) (dists.getD p.2 [])))
    have hM0 : 0 ≤ M := hM 0 (by simp)
    refine ⟨M, ?_⟩
    funext i j
    rw [overlapTol, overlapAt, Tolerance.within]
    have : chebyshev (dists.getD (min i j) []) (dists.getD (max i j) []) ≤ M := by
      by_cases h : max i j < dists.length
      · refine hM _ (Finset.mem_insert_of_mem (Finset.mem_image.2 ⟨(min i j, max i j), ?_, rfl⟩))
        rw [Finset.mem_product, Finset.mem_range, Finset.mem_range]
        exact ⟨by omega, h⟩
      · have e : dists.getD (max i j) [] = [] := List.getD_eq_default _ _ (by omega)
        rw [e]
        simpa [chebyshev] using hM0
    rw [decide_eq_true this]

theorem collapseRowsTol_number (tol : Tolerance) (dists : List (List ℝ)) : ∃ t, ∀ k collapse weights,
    collapseRowsTol k collapse tol dists weights = collapseRows k collapse t dists weights := by
  obtain ⟨t, ht⟩ := overlapTol_number tol dists
  exact ⟨t, fun k collapse weights => by rw [collapseRowsTol, collapseRows, ht]⟩

/-- The rows of a PDD that are collapsed do not depend on the options. -/
theorem PDDTol_number (S : PeriodicSet D) (k : ℕ) (tol : Tolerance) (fuel : ℕ) : ∃ t, ∀ lexsort collapse, PDDTol S k lexsort collapse tol fuel = PDD S k lexsort collapse t fuel := by
  cases hx : asymPoints S with
  | error e => exact ⟨0, fun lexsort collapse => by simp only [PDDTol, PDD, hx, bind, Except.bind]⟩
  | ok xm =>
    cases hn : nearestNeighbors S.motif S.cell xm.1 (k + 1) fuel with
    | error e => exact ⟨0, fun lexsort collapse => by simp only [PDDTol, PDD, hx, hn, bind, Except.bind]⟩
    | ok rows =>
      obtain ⟨t, ht⟩ := collapseRowsTol_number tol (rows.map (·.drop 1))
      exact ⟨t, fun lexsort collapse => by simp only [PDDTol, PDD, hx, hn, bind, Except.bind, ht]⟩

theorem PDD_congr_overlap (S : PeriodicSet D) (k : ℕ) (lexsort : Bool) {t t' : ℝ} {c c' : Bool} (fuel : ℕ)
    (h : ∀ x mult rows, asymPoints S = .ok (x, mult) → nearestNeighbors S.motif S.cell x (k + 1) fuel = .ok rows → ∀ w,
      collapseRows k c t (rows.map (·.drop 1)) w = collapseRows k c' t' (rows.map (·.drop 1)) w) :
    PDD S k lexsort c t fuel = PDD S k lexsort c' t' fuel := by
  cases hx : asymPoints S with
  | error e => simp only [PDD, hx, bind, Except.bind]
  | ok xm =>
    cases hn : nearestNeighbors S.motif S.cell xm.1 (k + 1) fuel with
    | error e => simp only [PDD, hx, hn, bind, Except.bind]
    | ok rows => simp only [PDD, hx, hn, bind, Except.bind, h _ _ _ hx hn]

theorem base_ne_nil {S : PeriodicSet D} {inds : List (Fin S.motif.length)} {mult : List ℕ} (hD : 0 < D) (hu : S.Units inds mult) (hne : inds ≠ []) {k : ℕ} {lexsort : Bool} {tol : ℝ} {fuel : ℕ}
    {base : List (PRow ℝ)} (hb : PDD S k lexsort false tol fuel = .ok base) : base ≠ [] := by
  obtain ⟨rs, h1, h2⟩ := PDD_rows hD hu hne hb
  obtain ⟨h3, -⟩ := nearestNeighbors_length hD hne h1
  rintro rfl
  have := congrArg List.length h2
  rw [(lexsortRows_perm _ _).length_eq, collapseRows_false] at this
  simp [h3] at this
  exact hne (List.length_eq_zero_iff.1 this.symm)

theorem groups_length_le : ∀ {groups : List (List ℕ)}, (∀ G ∈ groups, G ≠ []) → groups.length ≤ (groups.map List.length).sum
  | [], _ => by simp
  | G :: groups, h => by
    have h1 := List.length_pos_iff.2 (h G (by simp))
    have h2 := groups_length_le (groups := groups) fun H hH => h H (by simp [hH])
    simp only [List.length_cons, List.map_cons, List.sum_cons]
    omega

theorem overlapTol_inf (dists : List (List ℝ)) : ∃ M, ∀ t, M ≤ t → overlapTol .inf dists = overlapAt t dists := by
  obtain ⟨M, hM⟩ := Finset.exists_le (insert 0 (((Finset.range dists.length) ×ˢ (Finset.range dists.length)).image
    fun p => chebyshev (dists.getD p.1 []) (dists.getD p.2 [])))
  have hM0 : 0 ≤ M := hM 0 (by simp)
  refine ⟨M, fun t ht => ?_⟩
  funext i j
  rw [overlapTol, overlapAt, Tolerance.within]
  have : chebyshev (dists.getD (min i j) []) (dists.getD (max i j) []) ≤ M := by
    by_cases h : max i j < dists.length
    · refine hM _ (Finset.mem_insert_of_mem (Finset.mem_image.2 ⟨(min i j, max i j), ?_, rfl⟩))
      rw [Finset.mem_product, Finset.mem_range, Finset.mem_range]
      exact ⟨by omega, h⟩
    · have e : dists.getD (max i j) [] = [] := List.getD_eq_default _ _ (by omega)
      rw [e]
      simpa [chebyshev] using hM0
  rw [decide_eq_true (this.trans ht)]

theorem PDDTol_inf (S : PeriodicSet D) (k : ℕ) (fuel : ℕ) : ∃ M, ∀ t, M ≤ t → ∀ lexsort collapse, PDDTol S k lexsort collapse .inf fuel = PDD S k lexsort collapse t fuel := by
  cases hx : asymPoints S with
  | error e => exact ⟨0, fun t _ lexsort collapse => by simp only [PDDTol, PDD, hx, bind, Except.bind]⟩
  | ok xm =>
    cases hn : nearestNeighbors S.motif S.cell xm.1 (k + 1) fuel with
    | error e => exact ⟨0, fun t _ lexsort collapse => by simp only [PDDTol, PDD, hx, hn, bind, Except.bind]⟩
    | ok rows =>
      obtain ⟨M, hM⟩ := overlapTol_inf (rows.map (·.drop 1))
      exact ⟨M, fun t ht lexsort collapse => by simp only [PDDTol, PDD, hx, hn, bind, Except.bind, collapseRowsTol, collapseRows, hM t ht]⟩

/-- Finitely many rows of the same length are all within some distance of each other. -/
theorem exists_close (rows : List (List ℝ)) {k : ℕ} (hk : ∀ r ∈ rows, r.length = k) : ∃ M, ∀ t, M ≤ t → ∀ r ∈ rows, ∀ s ∈ rows, RowsClose t r s := by
  obtain ⟨M, hM⟩ := Finset.exists_le ((rows.toFinset ×ˢ rows.toFinset).image fun p => chebyshev p.1 p.2)
  refine ⟨M, fun t ht r hr s hs => (rowsClose_iff ((hk r hr).trans (hk s hs).symm)).1 ((hM _ (Finset.mem_image.2 ⟨(r, s), ?_, rfl⟩)).trans ht)⟩
  simp [hr, hs]

/-- The largest difference of integer rows, computably. -/
def intChebyshev (r s : List ℤ) : ℕ := (List.zipWith (fun a b => (a - b).natAbs) r s).foldr max 0

theorem chebyshev_int (r s : List ℤ) : chebyshev (r.map fun z : ℤ => (z : ℝ)) (s.map fun z : ℤ => (z : ℝ)) = (intChebyshev r s : ℝ) := by
  induction r generalizing s with
  | nil => simp [chebyshev, intChebyshev]
  | cons a r ih =>
    cases s with
    | nil => simp [chebyshev, intChebyshev]
    | cons b s =>
      have h : |(a : ℝ) - b| = ((a - b).natAbs : ℝ) := by
        rw [← Int.cast_sub, ← Int.cast_abs, Int.abs_eq_natAbs, Int.cast_natCast]
      have ih' := ih s
      unfold chebyshev intChebyshev at ih' ⊢
      simp only [List.map_cons, List.zipWith_cons_cons, List.foldr_cons, ih', h, Nat.cast_max]

/-- The overlaps of integer rows, computably. -/
def intOverlaps (t : ℕ) (zs : List (List ℤ)) (i j : ℕ) : Bool :=
  i != j && decide (intChebyshev (zs.getD (min i j) []) (zs.getD (max i j) []) ≤ t)

theorem overlapAt_ints (t : ℕ) (zs : List (List ℤ)) : overlapAt (t : ℝ) (zs.map fun z => z.map fun z : ℤ => (z : ℝ)) = intOverlaps t zs := by
  funext i j
  unfold overlapAt intOverlaps
  have e : ∀ i, (zs.map fun z => z.map fun z : ℤ => (z : ℝ)).getD i [] = (zs.getD i []).map fun z : ℤ => (z : ℝ) := by
    intro i
    rw [List.getD_eq_getElem?_getD, List.getD_eq_getElem?_getD, List.getElem?_map]
    cases zs[i]? <;> rfl
  rw [e, e, chebyshev_int]
  simp only [Nat.cast_le]

theorem rowGroups_ints (t : ℕ) (zs : List (List ℤ)) (h : ((List.range zs.length).any fun i => (List.range zs.length).any fun j => intOverlaps t zs i j) = true) :
    rowGroups true (t : ℝ) (zs.map fun z => z.map fun z : ℤ => (z : ℝ)) = collapseIntoGroups zs.length (intOverlaps t zs) := by
  unfold rowGroups
  simp only [overlapAt_ints, List.length_map, h, Bool.true_and, if_true]

end Amd
