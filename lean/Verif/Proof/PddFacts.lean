import Verif.Proof.Rows
import Verif.Proof.Collapse

/-! Helper lemmas about the rows of `PDD` and `PDD_finite`: collapsing, weights, averages. -/

set_option linter.unusedSectionVars false

namespace Amd

section
variable {K : Type*} [Field K] [LinearOrder K] [IsStrictOrderedRing K]

theorem foldr_max_le {tol : K} : ∀ l : List K, l.foldr max 0 ≤ tol ↔ 0 ≤ tol ∧ ∀ a ∈ l, a ≤ tol
  | [] => by simp
  | a :: l => by
    rw [List.foldr_cons, max_le_iff, foldr_max_le l]
    simp only [List.mem_cons, forall_eq_or_imp]
    tauto

theorem chebyshev_le_iff {tol : K} {r s : List K} (h : r.length = s.length) :
    chebyshev r s ≤ tol ↔ 0 ≤ tol ∧ ∀ j < r.length, |r.getD j 0 - s.getD j 0| ≤ tol := by
  unfold chebyshev
  rw [foldr_max_le]
  constructor
  · rintro ⟨h0, h1⟩
    refine ⟨h0, fun j hj => ?_⟩
    rw [List.getD_eq_getElem _ _ hj, List.getD_eq_getElem _ _ (h ▸ hj)]
    apply h1
    rw [List.mem_iff_getElem]
    exact ⟨j, by simp [← h, hj], by simp⟩
  · rintro ⟨h0, h1⟩
    refine ⟨h0, fun a ha => ?_⟩
    obtain ⟨j, hj, rfl⟩ := List.getElem_of_mem ha
    rw [List.length_zipWith] at hj
    have := h1 j (by omega)
    rw [List.getD_eq_getElem _ _ (by omega), List.getD_eq_getElem _ _ (by omega)] at this
    simpa using this

/-- The row of the collapsed PDD made from group `g`. -/
def groupRow (k : ℕ) (dists : List (List K)) (weights : List K) (g : List ℕ) : PRow K :=
  { weight := (g.map fun i => weights.getD i 0).sum
    dists := meanRows k (g.map fun i => dists.getD i [])
    group := g }

theorem meanRows_singleton {k : ℕ} {r : List K} (h : r.length = k) : meanRows k [r] = r := by
  unfold meanRows
  apply List.ext_getElem
  · simp [h]
  · intro j h1 h2
    simp [h2]

theorem isLeaderGrouping_singletons {n : ℕ} {ov : ℕ → ℕ → Bool}
    (h : ∀ i < n, ∀ j < n, ov i j = false) : IsLeaderGrouping n ov ((List.range n).map fun i => [i]) := by
  constructor
  · have : ((List.range n).map fun i => [i]).flatten = List.range n := by
      rw [← List.flatMap_def]
      exact List.flatMap_pure_eq_map _ _ |>.trans (List.map_id _)
    rw [this]
  · intro G hG
    obtain ⟨i, _, rfl⟩ := List.mem_map.mp hG
    simp
  · intro G hG
    obtain ⟨i, _, rfl⟩ := List.mem_map.mp hG
    simp
  · intro G hG
    obtain ⟨i, _, rfl⟩ := List.mem_map.mp hG
    simp
  · rw [List.pairwise_map]
    refine List.Pairwise.imp_of_mem ?_ List.pairwise_lt_range
    intro a b ha hb hab l hl j hj
    simp only [List.head?_cons, Option.mem_def, Option.some.injEq] at hl
    simp only [List.mem_singleton] at hj
    subst hl; subst hj
    exact ⟨hab, h _ (List.mem_range.mp ha) _ (List.mem_range.mp hb)⟩

theorem overlapAt_self (tol : K) (dists : List (List K)) (i : ℕ) : overlapAt tol dists i i = false := by
  simp [overlapAt]

theorem overlapAt_comm (tol : K) (dists : List (List K)) (i j : ℕ) :
    overlapAt tol dists i j = overlapAt tol dists j i := by
  unfold overlapAt
  rw [min_comm, max_comm]
  congr 1
  by_cases h : i = j
  · subst h; rfl
  · have h' : j ≠ i := fun e => h e.symm
    simp [bne, h, h']

/-- The groups of rows used by `PDD`. -/
def rowGroups (col : Bool) (tol : K) (dists : List (List K)) : List (List ℕ) :=
  let n := dists.length
  if col && ((List.range n).any fun i => (List.range n).any fun j => overlapAt tol dists i j) then
    collapseIntoGroups n (overlapAt tol dists)
  else (List.range n).map fun i => [i]

theorem collapseRows_eq (k : ℕ) (col : Bool) (tol : K) (dists : List (List K)) (ws : List K)
    (hk : ∀ r ∈ dists, r.length = k) :
    collapseRows k col tol dists ws = (rowGroups col tol dists).map (groupRow k dists ws) := by
  unfold collapseRows rowGroups
  simp only
  split_ifs with h
  · rfl
  · rw [List.map_map]
    apply List.map_congr_left
    intro i hi
    rw [List.mem_range] at hi
    have hl : (dists.getD i []).length = k := by
      rw [List.getD_eq_getElem _ _ hi]; exact hk _ (List.getElem_mem _)
    simp only [Function.comp, groupRow, List.map_cons, List.map_nil, List.sum_cons, List.sum_nil, add_zero,
      meanRows_singleton hl]

theorem rowGroups_false (tol : K) (dists : List (List K)) :
    rowGroups false tol dists = (List.range dists.length).map fun i => [i] := by
  simp [rowGroups]

theorem rowGroups_true (tol : K) (dists : List (List K)) :
    IsLeaderGrouping dists.length (overlapAt tol dists) (rowGroups true tol dists) := by
  unfold rowGroups
  simp only [Bool.true_and]
  split_ifs with h
  · exact collapseIntoGroups_spec _ _ (overlapAt_self tol dists)
  · apply isLeaderGrouping_singletons
    intro i hi j hj
    by_contra hc
    apply h
    rw [List.any_eq_true]
    refine ⟨i, List.mem_range.mpr hi, ?_⟩
    rw [List.any_eq_true]
    exact ⟨j, List.mem_range.mpr hj, by simpa using hc⟩

theorem rowGroups_perm (col : Bool) (tol : K) (dists : List (List K)) :
    (rowGroups col tol dists).flatten.Perm (List.range dists.length) := by
  cases col
  · rw [rowGroups_false]
    have : ((List.range dists.length).map fun i => [i]).flatten = List.range dists.length := by
      rw [← List.flatMap_def]
      exact List.flatMap_pure_eq_map _ _ |>.trans (List.map_id _)
    rw [this]
  · exact (rowGroups_true tol dists).perm

theorem rowGroups_nonempty (col : Bool) (tol : K) (dists : List (List K)) :
    ∀ G ∈ rowGroups col tol dists, G ≠ [] := by
  cases col
  · rw [rowGroups_false]
    intro G hG
    obtain ⟨i, _, rfl⟩ := List.mem_map.mp hG
    simp
  · exact (rowGroups_true tol dists).nonempty

theorem rowGroups_lt {col : Bool} {tol : K} {dists : List (List K)} {G : List ℕ}
    (h : G ∈ rowGroups col tol dists) {i : ℕ} (hi : i ∈ G) : i < dists.length := by
  have := (rowGroups_perm col tol dists).subset (List.mem_flatten.mpr ⟨G, h, hi⟩)
  simpa using this

theorem map_getD_range {α : Type*} (l : List α) (a : α) : (List.range l.length).map (fun i => l.getD i a) = l := by
  apply List.ext_getElem
  · simp
  · intro i h1 h2
    simp [h2]

theorem sum_groups (f : ℕ → K) : ∀ gs : List (List ℕ),
    (gs.map fun g => (g.map f).sum).sum = (gs.flatten.map f).sum
  | [] => rfl
  | g :: gs => by simp [sum_groups f gs]

theorem sum_rowGroups (col : Bool) (tol : K) (dists : List (List K)) (f : ℕ → K) :
    ((rowGroups col tol dists).map fun g => (g.map f).sum).sum = ((List.range dists.length).map f).sum := by
  rw [sum_groups, ((rowGroups_perm col tol dists).map f).sum_eq]

theorem collapse_weight_sum (k : ℕ) (col : Bool) (tol : K) (dists : List (List K)) (ws : List K)
    (hk : ∀ r ∈ dists, r.length = k) (hlen : ws.length = dists.length) :
    ((collapseRows k col tol dists ws).map (·.weight)).sum = ws.sum := by
  rw [collapseRows_eq k col tol dists ws hk, List.map_map]
  have : ((fun r : PRow K => r.weight) ∘ groupRow k dists ws) = fun g => (g.map fun i => ws.getD i 0).sum := rfl
  rw [this, sum_rowGroups, ← hlen, map_getD_range]

theorem list_sum_pos : ∀ {l : List K}, l ≠ [] → (∀ a ∈ l, 0 < a) → 0 < l.sum
  | [], h, _ => absurd rfl h
  | [a], _, h => by simpa using h
  | a :: b :: l, _, h => by
    rw [List.sum_cons]
    exact add_pos (h a (by simp)) (list_sum_pos (by simp) fun c hc => h c (List.mem_cons_of_mem _ hc))

theorem collapse_weight_pos (k : ℕ) (col : Bool) (tol : K) (dists : List (List K)) (ws : List K)
    (hk : ∀ r ∈ dists, r.length = k) (hlen : ws.length = dists.length) (hpos : ∀ w ∈ ws, 0 < w) :
    ∀ r ∈ collapseRows k col tol dists ws, 0 < r.weight := by
  rw [collapseRows_eq k col tol dists ws hk]
  intro r hr
  obtain ⟨g, hg, rfl⟩ := List.mem_map.mp hr
  refine list_sum_pos ?_ ?_
  · simpa using rowGroups_nonempty col tol dists g hg
  · intro a ha
    obtain ⟨i, hi, rfl⟩ := List.mem_map.mp ha
    have := rowGroups_lt hg hi
    rw [List.getD_eq_getElem _ _ (by omega)]
    exact hpos _ (List.getElem_mem _)

theorem list_sum_le {α : Type*} {f g : α → K} : ∀ {l : List α}, (∀ a ∈ l, f a ≤ g a) → (l.map f).sum ≤ (l.map g).sum
  | [], _ => by simp
  | a :: l, h => by
    simp only [List.map_cons, List.sum_cons]
    exact add_le_add (h a (by simp)) (list_sum_le fun b hb => h b (List.mem_cons_of_mem _ hb))

theorem list_abs_sum_le {α : Type*} {f : α → K} : ∀ {l : List α}, |(l.map f).sum| ≤ (l.map fun a => |f a|).sum
  | [] => by simp
  | a :: l => by
    simp only [List.map_cons, List.sum_cons]
    exact (abs_add_le _ _).trans (add_le_add_right list_abs_sum_le _)

/-- Non-negative and non-decreasing. -/
def NonnegSorted (r : List K) : Prop := (∀ a ∈ r, 0 ≤ a) ∧ r.Pairwise (· ≤ ·)

theorem NonnegSorted.getD_mono {r : List K} (h : NonnegSorted r) {i j : ℕ} (hij : i ≤ j) (hj : j < r.length) :
    r.getD i 0 ≤ r.getD j 0 := by
  rw [List.getD_eq_getElem _ _ (by omega), List.getD_eq_getElem _ _ hj]
  rcases Nat.lt_or_ge i j with h1 | h1
  · exact List.pairwise_iff_getElem.mp h.2 i j (by omega) hj h1
  · have : i = j := by omega
    subst this
    exact le_refl _

theorem NonnegSorted.getD_nonneg {r : List K} (h : NonnegSorted r) (i : ℕ) : 0 ≤ r.getD i 0 := by
  rcases Nat.lt_or_ge i r.length with h1 | h1
  · rw [List.getD_eq_getElem _ _ h1]; exact h.1 _ (List.getElem_mem _)
  · rw [List.getD_eq_default _ _ h1]

theorem nonnegSorted_of_getD {r : List K} (h0 : ∀ j < r.length, 0 ≤ r.getD j 0)
    (h1 : ∀ i j, i ≤ j → j < r.length → r.getD i 0 ≤ r.getD j 0) : NonnegSorted r := by
  constructor
  · intro a ha
    obtain ⟨j, hj, rfl⟩ := List.getElem_of_mem ha
    have := h0 j hj
    rwa [List.getD_eq_getElem _ _ hj] at this
  · rw [List.pairwise_iff_getElem]
    intro i j hi hj hij
    have := h1 i j hij.le hj
    rwa [List.getD_eq_getElem _ _ hi, List.getD_eq_getElem _ _ hj] at this

theorem meanRows_getD (k : ℕ) (rows : List (List K)) {j : ℕ} (hj : j < k) :
    (meanRows k rows).getD j 0 = (rows.map fun r => r.getD j 0).sum / rows.length := by
  rw [List.getD_eq_getElem _ _ (by simpa [meanRows] using hj)]
  simp [meanRows]

theorem length_meanRows (k : ℕ) (rows : List (List K)) : (meanRows k rows).length = k := by simp [meanRows]

theorem meanRows_nonnegSorted (k : ℕ) (rows : List (List K)) (hk : ∀ r ∈ rows, r.length = k)
    (h : ∀ r ∈ rows, NonnegSorted r) : NonnegSorted (meanRows k rows) := by
  apply nonnegSorted_of_getD
  · intro j hj
    rw [length_meanRows] at hj
    rw [meanRows_getD k rows hj]
    apply div_nonneg _ (Nat.cast_nonneg _)
    apply List.sum_nonneg
    intro a ha
    obtain ⟨r, hr, rfl⟩ := List.mem_map.mp ha
    exact (h r hr).getD_nonneg j
  · intro i j hij hj
    rw [length_meanRows] at hj
    rw [meanRows_getD k rows hj, meanRows_getD k rows (lt_of_le_of_lt hij hj)]
    apply div_le_div_of_nonneg_right _ (Nat.cast_nonneg _)
    apply list_sum_le
    intro r hr
    exact (h r hr).getD_mono hij (by rw [hk r hr]; exact hj)

theorem collapseRows_dists (k : ℕ) (col : Bool) (tol : K) (dists : List (List K)) (ws : List K)
    (hk : ∀ r ∈ dists, r.length = k) (h : ∀ r ∈ dists, NonnegSorted r) :
    ∀ r ∈ collapseRows k col tol dists ws, r.dists.length = k ∧ NonnegSorted r.dists := by
  rw [collapseRows_eq k col tol dists ws hk]
  intro r hr
  obtain ⟨g, hg, rfl⟩ := List.mem_map.mp hr
  refine ⟨length_meanRows _ _, meanRows_nonnegSorted _ _ ?_ ?_⟩
  · intro r hr
    obtain ⟨i, hi, rfl⟩ := List.mem_map.mp hr
    rw [List.getD_eq_getElem _ _ (rowGroups_lt hg hi)]
    exact hk _ (List.getElem_mem _)
  · intro r hr
    obtain ⟨i, hi, rfl⟩ := List.mem_map.mp hr
    rw [List.getD_eq_getElem _ _ (rowGroups_lt hg hi)]
    exact h _ (List.getElem_mem _)

end

variable {D : ℕ}

theorem nearestNeighbors_nonnegSorted {motif : List (Pt D ℝ)} {cell : Fin D → Pt D ℝ} {k fuel : ℕ}
    (hD : 0 < D) {inds : List (Fin motif.length)} (hx : inds ≠ []) {rows : List (List ℝ)}
    (h : nearestNeighbors motif cell (inds.map fun i => motif[i]) (k + 1) fuel = .ok rows) :
    ∀ r ∈ rows, r.length = k + 1 ∧ NonnegSorted r := by
  have hxm : ∀ p ∈ inds.map (fun i => motif[i]), p ∈ motif := by
    intro p hp
    obtain ⟨i, _, rfl⟩ := List.mem_map.mp hp
    exact List.getElem_mem _
  have hs := nearestNeighbors_sound hD (by simpa using hx) hxm (by omega) h
  intro r hr
  obtain ⟨j, hj, rfl⟩ := List.getElem_of_mem hr
  rw [List.forall₂_iff_get] at hs
  have := hs.2 j (by rw [hs.1]; exact hj) hj
  obtain ⟨h1, h2, idx, _, h3⟩ := this
  refine ⟨h1, ?_, h2⟩
  intro a ha
  rw [List.get_eq_getElem] at h3
  rw [h3] at ha
  obtain ⟨s, _, rfl⟩ := List.mem_map.mp ha
  exact Real.sqrt_nonneg _

theorem NonnegSorted.drop {K : Type*} [Field K] [LinearOrder K] {r : List K} (h : NonnegSorted r) (n : ℕ) :
    NonnegSorted (r.drop n) :=
  ⟨fun a ha => h.1 a (List.mem_of_mem_drop ha), h.2.sublist (List.drop_sublist _ _)⟩

/-- The rows of an uncollapsed PDD, in terms of the search. -/
theorem PDD_uncollapsed {S : PeriodicSet D} {inds : List (Fin S.motif.length)} {mult : List ℕ} (hD : 0 < D)
    (hu : S.Units inds mult) (hne : inds ≠ []) {k : ℕ} {lexsort : Bool} {tol : ℝ} {fuel : ℕ}
    {pdd : List (PRow ℝ)} (h : PDD S k lexsort false tol fuel = .ok pdd)
    (Q : Fin S.motif.length → List ℝ → Prop)
    (hQ : ∀ rows, nearestNeighbors S.motif S.cell (inds.map fun i => S.motif[i]) (k + 1) fuel = .ok rows →
      List.Forall₂ (fun i row => Q i (row.drop 1)) inds rows) :
    ∃ rows : List (PRow ℝ), pdd.Perm rows ∧ (lexsort = false → pdd = rows) ∧
      List.Forall₂ (fun (u : Fin S.motif.length × ℕ) (r : PRow ℝ) =>
        r.weight = (u.2 : ℝ) / S.motif.length ∧ Q u.1 r.dists) (inds.zip mult) rows := by
  obtain ⟨rows, hr, e⟩ := PDD_rows hD hu hne h
  have hf := hQ rows hr
  have hml := units_length hu
  rw [List.forall₂_iff_get] at hf
  obtain ⟨hl, hf⟩ := hf
  refine ⟨collapseRows k false tol (rows.map (·.drop 1)) (mult.map fun n : ℕ => (n : ℝ) / (S.motif.length : ℝ)),
    ?_, ?_, ?_⟩
  · rw [e]; exact lexsortRows_perm _ _
  · intro hl; rw [e, hl]; simp [lexsortRows]
  · rw [collapseRows_false, List.forall₂_iff_get]
    refine ⟨by simp [← hl, ← hml], ?_⟩
    intro i h1 h2
    have hi : i < inds.length := by rw [List.length_zip] at h1; omega
    have hm : i < mult.length := by omega
    have := hf i hi (hl ▸ hi)
    simp only [List.get_eq_getElem, List.getElem_map, List.getElem_range, List.getElem_zip]
    rw [List.getD_eq_getElem _ _ (by simpa using hm), List.getD_eq_getElem _ _ (by simpa [← hl] using hi)]
    simp only [List.getElem_map]
    exact ⟨trivial, this⟩

end Amd
