import Verif.Proof.PddMean
import Mathlib.Data.List.GetD

/-! # Finite sets: C19, C20 -/

set_option linter.unusedSectionVars false

namespace Amd

variable {D : ℕ}

/-- `row` lists the distances from point `i` of `pts` to all its other points, in increasing order. -/
def IsFiniteRow (pts : List (Pt D ℝ)) (i : Fin pts.length) (row : List ℝ) : Prop :=
  row.Pairwise (· ≤ ·) ∧
    row.Perm (((List.finRange pts.length).filter fun j => decide (j ≠ i)).map fun j => eucl pts[i] pts[j])

theorem eucl_self (p : Pt D ℝ) : eucl p p = 0 := by simp [eucl, sqDist]

theorem distMatrix_row (pts : List (Pt D ℝ)) (i : Fin pts.length) :
    (distMatrix pts)[i.val]? = some ((List.finRange pts.length).map fun j => eucl pts[i] pts[j]) := by
  unfold distMatrix
  rw [List.getElem?_map, List.getElem?_range i.isLt]
  simp only [Option.map_some, Option.some.injEq]
  apply List.ext_getElem
  · simp
  · intro j h1 h2
    have hj : j < pts.length := by simpa using h1
    simp only [List.getElem_map, List.getElem_range, List.getElem_finRange, Fin.getElem_fin]
    rcases lt_trichotomy i.val j with h | h | h
    · rw [if_neg (by omega), min_eq_left h.le, max_eq_right h.le, List.getD_eq_getElem _ _ i.isLt,
        List.getD_eq_getElem _ _ hj]
      rfl
    · subst h
      rw [if_pos rfl]
      exact (eucl_self _).symm
    · rw [if_neg (by omega), min_eq_right h.le, max_eq_left h.le, List.getD_eq_getElem _ _ i.isLt,
        List.getD_eq_getElem _ _ hj]
      exact eucl_comm _ _

theorem sort_drop_zero {l : List ℝ} (h : ∀ a ∈ l, 0 ≤ a) :
    ((0 :: l).insertionSort (· ≤ ·)).drop 1 = l.insertionSort (· ≤ ·) := by
  have e : (0 :: l).insertionSort (· ≤ ·) = 0 :: l.insertionSort (· ≤ ·) := by
    apply eq_of_perm_sorted
    · exact (List.perm_insertionSort _ _).trans ((List.perm_insertionSort _ _).symm.cons 0)
    · exact sorted_insertionSort' _
    · rw [List.pairwise_cons]
      refine ⟨fun a ha => h a ((List.perm_insertionSort _ _).subset ha), sorted_insertionSort' _⟩
  rw [e]; rfl

theorem finiteDists_row (pts : List (Pt D ℝ)) (i : Fin pts.length) :
    ∃ row, (finiteDists pts)[i.val]? = some row ∧ IsFiniteRow pts i row := by
  set others := ((List.finRange pts.length).filter fun j => decide (j ≠ i)).map fun j => eucl pts[i] pts[j]
  have hp : ((List.finRange pts.length).map fun j => eucl pts[i] pts[j]).Perm (0 :: others) := by
    have h1 : (List.finRange pts.length).Perm (i :: (List.finRange pts.length).filter fun j => decide (j ≠ i)) := by
      rw [List.perm_ext_iff_of_nodup (List.nodup_finRange _)
        (List.nodup_cons.mpr ⟨by simp, (List.nodup_finRange _).filter _⟩)]
      intro a
      simp [em]
    have := h1.map fun j => eucl pts[i] pts[j]
    rwa [List.map_cons, eucl_self] at this
  refine ⟨others.insertionSort (· ≤ ·), ?_, sorted_insertionSort' _, List.perm_insertionSort _ _⟩
  unfold finiteDists
  rw [List.getElem?_map, distMatrix_row]
  simp only [Option.map_some, Option.some.injEq]
  rw [← sort_drop_zero (l := others)]
  · congr 1
    exact eq_of_perm_sorted ((List.perm_insertionSort _ _).trans (hp.trans (List.perm_insertionSort _ _).symm))
      (sorted_insertionSort' _) (sorted_insertionSort' _)
  · intro a ha
    obtain ⟨j, _, rfl⟩ := List.mem_map.mp ha
    exact Real.sqrt_nonneg _

theorem IsFiniteRow.length {pts : List (Pt D ℝ)} {i : Fin pts.length} {row : List ℝ} (h : IsFiniteRow pts i row) :
    row.length = pts.length - 1 := by
  rw [h.2.length_eq, List.length_map]
  have h1 : (List.finRange pts.length).Perm (i :: (List.finRange pts.length).filter fun j => decide (j ≠ i)) := by
    rw [List.perm_ext_iff_of_nodup (List.nodup_finRange _)
      (List.nodup_cons.mpr ⟨by simp, (List.nodup_finRange _).filter _⟩)]
    intro a
    simp [em]
  have := h1.length_eq
  simp only [List.length_finRange, List.length_cons] at this
  omega

theorem length_finiteDists (pts : List (Pt D ℝ)) : (finiteDists pts).length = pts.length := by
  simp [finiteDists, distMatrix]

theorem finiteDists_width {pts : List (Pt D ℝ)} : ∀ r ∈ finiteDists pts, r.length = pts.length - 1 := by
  intro r hr
  obtain ⟨i, hi, rfl⟩ := List.mem_iff_getElem.mp hr
  have hi' : i < pts.length := by rwa [length_finiteDists] at hi
  obtain ⟨row, h1, h2⟩ := finiteDists_row pts ⟨i, hi'⟩
  rw [List.getElem?_eq_getElem hi] at h1
  injection h1 with h1
  rw [h1, h2.length]

/-- **C19** The rows of the uncollapsed, unsorted `PDD_finite` belong to the points in order; each has weight `1 / m` and lists
the distances to all other points. (`lexsort` and `collapse` only reorder and merge: `C19_pdd_finite_options`.) -/
theorem C19_pdd_finite {pts : List (Pt D ℝ)} (hne : pts ≠ []) (tol : ℝ) :
    ∃ pdd, PDDFinite pts false false tol = .ok pdd ∧ pdd.length = pts.length ∧
      ∀ i : Fin pts.length, ∃ r, pdd[i.val]? = some r ∧ r.weight = 1 / (pts.length : ℝ) ∧ r.group = [i.val] ∧
        IsFiniteRow pts i r.dists := by
  have hl : pts.length ≠ 0 := by simpa using hne
  unfold PDDFinite
  rw [if_neg hl]
  refine ⟨_, rfl, ?_, ?_⟩
  · rw [collapseRows_false]; simp [lexsortRows, length_finiteDists]
  · intro i
    obtain ⟨row, h1, h2⟩ := finiteDists_row pts i
    refine ⟨{ weight := 1 / (pts.length : ℝ), dists := row, group := [i.val] }, ?_, rfl, rfl, h2⟩
    rw [collapseRows_false]
    simp only [lexsortRows, Bool.false_eq_true, if_false]
    rw [List.getElem?_map, List.getElem?_range (by rw [length_finiteDists]; exact i.isLt)]
    simp only [Option.map_some, Option.some.injEq, PRow.mk.injEq, and_true]
    refine ⟨?_, ?_⟩
    · rw [List.getD_eq_getElem _ _ (by simp)]; simp
    · rw [List.getD_eq_getElem?_getD, h1]; rfl

/-- **C19** The other options of `PDD_finite` merge groups of these rows (as in C16) and reorder the rows (as in C15). Weights are positive
and sum to 1. -/
theorem C19_pdd_finite_options {pts : List (Pt D ℝ)} (hne : pts ≠ []) (lexsort : Bool) (tol : ℝ) {base : List (PRow ℝ)}
    (hb : PDDFinite pts false false tol = .ok base) :
    ∃ q, PDDFinite pts lexsort true tol = .ok q ∧
      (∀ r ∈ q, 0 < r.weight) ∧ (q.map (·.weight)).sum = 1 ∧
      ((q.map (·.group)).flatten).Perm (List.range pts.length) ∧
      ∀ r ∈ q, r.weight = (r.group.map fun i => (base.map (·.weight)).getD i 0).sum ∧
        r.dists.length = pts.length - 1 ∧
        ∀ j < pts.length - 1, r.dists.getD j 0 =
          (r.group.map fun i => ((base.map (·.dists)).getD i []).getD j 0).sum / (r.group.length : ℝ) := by
  have hl : pts.length ≠ 0 := by simpa using hne
  have hm : (0 : ℝ) < pts.length := by exact_mod_cast Nat.pos_of_ne_zero hl
  unfold PDDFinite at hb ⊢
  rw [if_neg hl] at hb ⊢
  injection hb with hb
  set dists := finiteDists pts with hd
  set ws := List.replicate pts.length (1 / (pts.length : ℝ)) with hws
  have hdl : dists.length = pts.length := length_finiteDists pts
  have hwl : ws.length = dists.length := by rw [hws, List.length_replicate, hdl]
  have hk : ∀ r ∈ dists, r.length = pts.length - 1 := finiteDists_width
  have hbase : base = (List.range dists.length).map fun i =>
      { weight := ws.getD i 0, dists := dists.getD i [], group := [i] } := by
    rw [← hb, collapseRows_false]; simp [lexsortRows]
  have hbd : base.map (·.dists) = dists := by
    rw [hbase, List.map_map]; exact map_getD_range dists []
  have hbw : base.map (·.weight) = ws := by
    rw [hbase, List.map_map, ← hwl]; exact map_getD_range ws 0
  rw [hbd, hbw]
  have hp := lexsortRows_perm lexsort (collapseRows (pts.length - 1) true tol dists ws)
  refine ⟨_, rfl, ?_, ?_, ?_, ?_⟩
  · intro r hr
    refine collapse_weight_pos _ true tol _ _ hk hwl ?_ r (hp.subset hr)
    intro w hw
    rw [(List.mem_replicate.mp hw).2]
    positivity
  · rw [(hp.map _).sum_eq, collapse_weight_sum _ true tol _ _ hk hwl, hws]
    simp only [List.sum_replicate, nsmul_eq_mul]
    field_simp
  · refine ((hp.map (·.group)).flatten).trans ?_
    rw [collapseRows_eq _ true tol dists ws hk, List.map_map]
    have : ((fun r : PRow ℝ => r.group) ∘ groupRow (pts.length - 1) dists ws) = id := rfl
    rw [this, List.map_id, ← hdl]
    exact (rowGroups_true tol dists).perm
  · intro r hr
    have hr' := hp.subset hr
    rw [collapseRows_eq _ true tol dists ws hk] at hr'
    obtain ⟨g, hg, rfl⟩ := List.mem_map.mp hr'
    refine ⟨rfl, length_meanRows _ _, fun j hj => ?_⟩
    simp only [groupRow]
    rw [meanRows_getD _ _ hj, List.map_map, List.length_map]
    rfl

/-- **C19** `AMD_finite` is the column-wise mean of these rows. -/
theorem C19_amd_finite {pts : List (Pt D ℝ)} (hne : pts ≠ []) :
    ∃ (a : List ℝ) (row : Fin pts.length → List ℝ), AMDFinite pts = .ok a ∧ a.length = pts.length - 1 ∧
      (∀ i, IsFiniteRow pts i (row i)) ∧
      ∀ j < pts.length - 1, a.getD j 0 = (∑ i, (row i).getD j 0) / (pts.length : ℝ) := by
  have hl : pts.length ≠ 0 := by simpa using hne
  choose row h1 h2 using finiteDists_row pts
  unfold AMDFinite
  rw [if_neg hl]
  refine ⟨_, row, rfl, length_meanRows _ _, h2, fun j hj => ?_⟩
  rw [meanRows_getD _ _ hj, length_finiteDists]
  congr 1
  have e : finiteDists pts = (List.finRange pts.length).map row := by
    apply List.ext_getElem?
    intro i
    rcases Nat.lt_or_ge i pts.length with hi | hi
    · rw [h1 ⟨i, hi⟩, List.getElem?_map, List.getElem?_eq_getElem (by simpa using hi)]; simp
    · rw [List.getElem?_eq_none (by rw [length_finiteDists]; exact hi), List.getElem?_eq_none (by simpa using hi)]
  rw [e, List.map_map, ← List.ofFn_eq_map, List.sum_ofFn]
  rfl

example : ([![0, 0], ![1, 1], ![3, 1], ![4, 0]] : List (Pt 2 ℝ)) ≠ [] := by simp

/-! ### C20 -/

theorem distMatrix_map {E : ℕ} {T : Pt D ℝ → Pt E ℝ} (hT : ∀ p q, eucl (T p) (T q) = eucl p q) (pts : List (Pt D ℝ)) :
    distMatrix (pts.map T) = distMatrix pts := by
  unfold distMatrix
  rw [List.length_map]
  apply List.map_congr_left
  intro i hi
  apply List.map_congr_left
  intro j hj
  rw [List.mem_range] at hi hj
  split_ifs with h
  · rfl
  · rw [List.getD_eq_getElem _ _ (by rw [List.length_map]; omega), List.getD_eq_getElem _ _ (by rw [List.length_map]; omega),
      List.getD_eq_getElem _ _ (by omega), List.getD_eq_getElem _ _ (by omega), List.getElem_map, List.getElem_map, hT]

/-- **C20** Mapping the points by any distance preserving map, even to a space of another dimension, does not change
`AMD_finite`. -/
theorem C20_amd_finite_isometry {E : ℕ} {T : Pt D ℝ → Pt E ℝ} (hT : ∀ p q, eucl (T p) (T q) = eucl p q)
    (pts : List (Pt D ℝ)) : AMDFinite (pts.map T) = AMDFinite pts := by
  unfold AMDFinite finiteDists
  rw [distMatrix_map hT, List.length_map]

/-- **C20** The same for `PDD_finite` with all options. -/
theorem C20_pdd_finite_isometry {E : ℕ} {T : Pt D ℝ → Pt E ℝ} (hT : ∀ p q, eucl (T p) (T q) = eucl p q)
    (pts : List (Pt D ℝ)) (lexsort collapse : Bool) (tol : ℝ) :
    PDDFinite (pts.map T) lexsort collapse tol = PDDFinite pts lexsort collapse tol := by
  unfold PDDFinite finiteDists
  rw [distMatrix_map hT, List.length_map]

theorem finiteDists_eq (pts : List (Pt D ℝ)) : finiteDists pts =
    pts.map fun p => ((pts.map (eucl p)).insertionSort (· ≤ ·)).drop 1 := by
  apply List.ext_getElem?
  intro i
  unfold finiteDists
  rw [List.getElem?_map, List.getElem?_map]
  rcases Nat.lt_or_ge i pts.length with hi | hi
  · rw [distMatrix_row pts ⟨i, hi⟩, List.getElem?_eq_getElem hi]
    simp only [Option.map_some, Option.some.injEq]
    congr 2
    apply List.ext_getElem
    · simp
    · intro j h1 h2; simp
  · rw [List.getElem?_eq_none (by simpa [distMatrix] using hi), List.getElem?_eq_none hi]
    rfl

theorem finiteDists_perm {pts pts' : List (Pt D ℝ)} (h : pts.Perm pts') :
    (finiteDists pts).Perm (finiteDists pts') := by
  rw [finiteDists_eq, finiteDists_eq]
  have e : (fun p => ((pts.map (eucl p)).insertionSort (· ≤ ·)).drop 1) =
      fun p => ((pts'.map (eucl p)).insertionSort (· ≤ ·)).drop 1 := by
    funext p
    congr 1
    exact eq_of_perm_sorted ((List.perm_insertionSort _ _).trans ((h.map _).trans (List.perm_insertionSort _ _).symm))
      (sorted_insertionSort' _) (sorted_insertionSort' _)
  rw [e]
  exact h.map _

/-- **C20** Reordering the points does not change `AMD_finite`. -/
theorem C20_amd_finite_perm {pts pts' : List (Pt D ℝ)} (h : pts.Perm pts') : AMDFinite pts = AMDFinite pts' := by
  unfold AMDFinite
  rw [h.length_eq]
  split_ifs
  · rfl
  · congr 1
    unfold meanRows
    apply List.map_congr_left
    intro j _
    rw [((finiteDists_perm h).map _).sum_eq, (finiteDists_perm h).length_eq]

/-- **C20** Reordering the points reorders the (weight, distances) rows of the uncollapsed `PDD_finite`; with `lexsort` it
changes nothing. -/
theorem C20_pdd_finite_perm {pts pts' : List (Pt D ℝ)} (h : pts.Perm pts') (hne : pts ≠ []) (lexsort : Bool) (tol : ℝ) :
    ∃ p p', PDDFinite pts lexsort false tol = .ok p ∧ PDDFinite pts' lexsort false tol = .ok p' ∧
      (p.map fun r => (r.weight, r.dists)).Perm (p'.map fun r => (r.weight, r.dists)) ∧
      (lexsort = true → (p.map fun r => (r.weight, r.dists)) = p'.map fun r => (r.weight, r.dists)) := by
  have hl : pts.length ≠ 0 := by simpa using hne
  unfold PDDFinite
  rw [if_neg hl, if_neg (by rwa [← h.length_eq])]
  refine ⟨_, _, rfl, rfl, ?_⟩
  have key : ∀ q : List (Pt D ℝ), (collapseRows (q.length - 1) false tol (finiteDists q)
      (List.replicate q.length (1 / (q.length : ℝ)))).map (fun r => (r.weight, r.dists)) =
      (finiteDists q).map fun r => (1 / (q.length : ℝ), r) := by
    intro q
    rw [collapseRows_false]
    simp only [List.map_map]
    conv_rhs => rw [← map_getD_range (finiteDists q) []]
    rw [List.map_map]
    apply List.map_congr_left
    intro i hi
    rw [List.mem_range, length_finiteDists] at hi
    simp only [Function.comp, Prod.mk.injEq, and_true]
    rw [List.getD_eq_getElem _ _ (by simpa using hi)]
    simp
  have hall : ∀ q : List (Pt D ℝ), ((lexsortRows lexsort (collapseRows (q.length - 1) false tol (finiteDists q)
      (List.replicate q.length (1 / (q.length : ℝ))))).map fun r => (r.weight, r.dists)).Perm
      ((finiteDists q).map fun r => (1 / (q.length : ℝ), r)) := fun q => by
    rw [← key]; exact (lexsortRows_perm lexsort _).map _
  have hperm := ((hall pts).trans (by rw [h.length_eq]; exact (finiteDists_perm h).map _)).trans (hall pts').symm
  refine ⟨hperm, fun hlex => ?_⟩
  subst hlex
  apply List.Perm.eq_of_pairwise (le := fun a b : ℝ × List ℝ => lexLe a.2 b.2 = true) _ _ _ hperm
  · rintro ⟨w, a⟩ ⟨w', b⟩ hmem hmem' hab hba
    obtain ⟨_, _, e1⟩ := List.mem_map.mp ((hall pts).subset hmem)
    obtain ⟨_, _, e2⟩ := List.mem_map.mp ((hall pts').subset hmem')
    injection e1 with e1 _
    injection e2 with e2 _
    rw [← e1, ← e2, h.length_eq, show a = b from lexLe_antisymm hab hba]
  · rw [List.pairwise_map]
    exact lexsortRows_sorted _
  · rw [List.pairwise_map]
    exact lexsortRows_sorted _

example : ([![0, 0], ![1, 1], ![3, 1]] : List (Pt 2 ℝ)).Perm [![3, 1], ![1, 1], ![0, 0]] := by
  rw [List.perm_iff_count]
  intro a
  simp only [List.count_cons, List.count_nil]
  ring

example : ∀ p q : Pt 2 ℝ, eucl (fun i => p i + 3) (fun i => q i + 3) = eucl p q := by
  intro p q; simp [eucl, sqDist]

end Amd
