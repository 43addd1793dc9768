import Verif.Proof.PointRows

/-! Helper lemmas: groups of close rows, averages of collapsed rows. -/

set_option linter.unusedSectionVars false

namespace Amd

variable {D : ℕ}

theorem IsLeaderGrouping.mem_lt {n : ℕ} {ov : ℕ → ℕ → Bool} {gs : List (List ℕ)} (h : IsLeaderGrouping n ov gs)
    {G : List ℕ} (hG : G ∈ gs) {i : ℕ} (hi : i ∈ G) : i < n := by
  simpa using h.perm.subset (List.mem_flatten.mpr ⟨G, hG, hi⟩)

theorem IsLeaderGrouping.congr {n : ℕ} {ov ov' : ℕ → ℕ → Bool} {gs : List (List ℕ)}
    (h : IsLeaderGrouping n ov gs) (he : ∀ i < n, ∀ j < n, ov i j = ov' i j) : IsLeaderGrouping n ov' gs := by
  have hm : ∀ G ∈ gs, ∀ l ∈ G.head?, l < n := fun G hG l hl =>
    h.mem_lt hG (List.mem_of_mem_head? hl)
  refine ⟨h.perm, h.nonempty, h.sorted, ?_, ?_⟩
  · intro G hG l hl j hj
    rw [← he l (hm G hG l hl) j (h.mem_lt hG (List.mem_of_mem_drop hj))]
    exact h.within G hG l hl j hj
  · refine List.Pairwise.imp_of_mem ?_ h.first
    intro G H hG hH hf l hl j hj
    rw [← he l (hm G hG l hl) j (h.mem_lt hH hj)]
    exact hf l hl j hj

theorem rowsClose_iff {tol : ℝ} {r s : List ℝ} (h : r.length = s.length) :
    chebyshev r s ≤ tol ↔ RowsClose tol r s := by
  rw [chebyshev_le_iff h]
  unfold RowsClose
  constructor
  · rintro ⟨h0, h1⟩ j
    rcases Nat.lt_or_ge j r.length with hj | hj
    · exact h1 j hj
    · rw [List.getD_eq_default _ _ hj, List.getD_eq_default _ _ (h ▸ hj)]
      simpa using h0
  · intro h1
    refine ⟨?_, fun j _ => h1 j⟩
    have := h1 r.length
    exact (abs_nonneg _).trans this

theorem rowsClose_comm {tol : ℝ} {r s : List ℝ} : RowsClose tol r s ↔ RowsClose tol s r := by
  unfold RowsClose
  simp only [abs_sub_comm]

theorem overlapAt_iff {tol : ℝ} {dists : List (List ℝ)} {k : ℕ} (hk : ∀ r ∈ dists, r.length = k) {i j : ℕ}
    (hi : i < dists.length) (hj : j < dists.length) :
    overlapAt tol dists i j = true ↔ i ≠ j ∧ RowsClose tol (dists.getD i []) (dists.getD j []) := by
  have hl : ∀ i < dists.length, (dists.getD i []).length = k := by
    intro i hi
    rw [List.getD_eq_getElem _ _ hi]; exact hk _ (List.getElem_mem _)
  unfold overlapAt
  rw [Bool.and_eq_true, bne_iff_ne, decide_eq_true_eq]
  apply and_congr_right
  intro _
  rcases le_total i j with h | h
  · rw [min_eq_left h, max_eq_right h, rowsClose_iff ((hl i hi).trans (hl j hj).symm)]
  · rw [min_eq_right h, max_eq_left h, rowsClose_iff ((hl j hj).trans (hl i hi).symm), rowsClose_comm]

/-! ### Averages -/

/-- The weighted average of column `j` of the collapsed rows. -/
theorem collapse_column_sum (k : ℕ) (col : Bool) (tol : ℝ) (dists : List (List ℝ)) (ws : List ℝ)
    (hk : ∀ r ∈ dists, r.length = k) {j : ℕ} (hj : j < k) :
    ((collapseRows k col tol dists ws).map fun r => r.weight * r.dists.getD j 0).sum =
      ((rowGroups col tol dists).map fun g => (g.map fun i => ws.getD i 0).sum *
        ((g.map fun i => (dists.getD i []).getD j 0).sum / (g.length : ℝ))).sum := by
  rw [collapseRows_eq k col tol dists ws hk, List.map_map]
  congr 1
  apply List.map_congr_left
  intro g _
  simp only [Function.comp, groupRow]
  rw [meanRows_getD _ _ hj, List.map_map, List.length_map]
  rfl

theorem sum_const_mul {α : Type*} (c : ℝ) (f : α → ℝ) (l : List α) :
    (l.map fun a => c * f a).sum = c * (l.map f).sum := by
  induction l with
  | nil => simp
  | cons a l ih => simp [ih, mul_add]

/-- With equal weights, collapsing does not change weighted averages. -/
theorem collapse_column_sum_const (k : ℕ) (col : Bool) (tol : ℝ) (dists : List (List ℝ)) (w : ℝ)
    (hk : ∀ r ∈ dists, r.length = k) {j : ℕ} (hj : j < k) :
    ((collapseRows k col tol dists (List.replicate dists.length w)).map fun r => r.weight * r.dists.getD j 0).sum =
      ((List.range dists.length).map fun i => w * (dists.getD i []).getD j 0).sum := by
  rw [collapse_column_sum k col tol dists _ hk hj,
    ← sum_rowGroups col tol dists fun i => w * (dists.getD i []).getD j 0]
  congr 1
  apply List.map_congr_left
  intro g hg
  have hlen : (0 : ℝ) < g.length := by
    exact_mod_cast List.length_pos_iff.mpr (rowGroups_nonempty col tol dists g hg)
  have hw : (g.map fun i => (List.replicate dists.length w).getD i 0) = g.map fun _ => w := by
    apply List.map_congr_left
    intro i hi
    have := rowGroups_lt hg hi
    rw [List.getD_eq_getElem _ _ (by simpa using this)]
    simp
  rw [hw, sum_const_mul]
  simp only [List.map_const', List.sum_replicate, nsmul_eq_mul]
  field_simp

theorem list_sum_sub {α : Type*} (f g : α → ℝ) (l : List α) :
    (l.map f).sum - (l.map g).sum = (l.map fun a => f a - g a).sum := by
  induction l with
  | nil => simp
  | cons a l ih => simp [← ih]; ring

theorem list_sum_mul_left {α : Type*} (f : α → ℝ) (c : ℝ) (l : List α) :
    (l.map f).sum * c = (l.map fun a => f a * c).sum := by
  induction l with
  | nil => simp
  | cons a l ih => simp [← ih, add_mul]

theorem leader_close {tol : ℝ} {dists : List (List ℝ)} {k : ℕ} (hk : ∀ r ∈ dists, r.length = k) (htol : 0 ≤ tol)
    {g : List ℕ} (hg : g ∈ rowGroups true tol dists) {i i' : ℕ} (hi : i ∈ g) (hi' : i' ∈ g) (j : ℕ) :
    |(dists.getD i []).getD j 0 - (dists.getD i' []).getD j 0| ≤ 2 * tol := by
  have hG := rowGroups_true tol dists
  obtain ⟨l, t, rfl⟩ := List.exists_cons_of_ne_nil (hG.nonempty g hg)
  have hl : ∀ i ∈ l :: t, |(dists.getD l []).getD j 0 - (dists.getD i []).getD j 0| ≤ tol := by
    intro i hi
    rcases List.mem_cons.mp hi with rfl | h
    · simpa using htol
    · have h1 := hG.within _ hg l (by simp) i (by simpa using h)
      exact ((overlapAt_iff hk (rowGroups_lt hg (by simp)) (rowGroups_lt hg hi)).mp h1).2 j
  have h1 := abs_le.mp (hl i hi)
  have h2 := abs_le.mp (hl i' hi')
  rw [abs_le]
  constructor <;> linarith [h1.1, h1.2, h2.1, h2.2]

/-- Collapsing changes weighted averages by at most twice the tolerance times the total weight. -/
theorem collapse_column_sum_bound (k : ℕ) (tol : ℝ) (htol : 0 ≤ tol) (dists : List (List ℝ)) (ws : List ℝ)
    (hk : ∀ r ∈ dists, r.length = k) (hlen : ws.length = dists.length) (hpos : ∀ w ∈ ws, 0 ≤ w) {j : ℕ} (hj : j < k) :
    |((collapseRows k true tol dists ws).map fun r => r.weight * r.dists.getD j 0).sum -
      ((List.range dists.length).map fun i => ws.getD i 0 * (dists.getD i []).getD j 0).sum| ≤ 2 * tol * ws.sum := by
  have hnn : ∀ i, 0 ≤ ws.getD i 0 := by
    intro i
    rcases Nat.lt_or_ge i ws.length with h | h
    · rw [List.getD_eq_getElem _ _ h]; exact hpos _ (List.getElem_mem _)
    · rw [List.getD_eq_default _ _ h]
  rw [collapse_column_sum k true tol dists ws hk hj,
    ← sum_rowGroups true tol dists fun i => ws.getD i 0 * (dists.getD i []).getD j 0, list_sum_sub]
  refine (list_abs_sum_le).trans ?_
  have hsum : 2 * tol * ws.sum = ((rowGroups true tol dists).map fun g => (g.map fun i => 2 * tol * ws.getD i 0).sum).sum := by
    rw [sum_rowGroups true tol dists fun i => 2 * tol * ws.getD i 0, sum_const_mul, ← hlen, map_getD_range]
  rw [hsum]
  apply list_sum_le
  intro g hg
  have hglen : (0 : ℝ) < g.length := by
    exact_mod_cast List.length_pos_iff.mpr (rowGroups_nonempty true tol dists g hg)
  rw [list_sum_mul_left, list_sum_sub]
  refine (list_abs_sum_le).trans ?_
  apply list_sum_le
  intro i hi
  rw [← mul_sub, abs_mul, abs_of_nonneg (hnn i), mul_comm (2 * tol)]
  apply mul_le_mul_of_nonneg_left _ (hnn i)
  -- the mean of a group is close to each of its rows
  have e : (g.map fun i => (dists.getD i []).getD j 0).sum / (g.length : ℝ) - (dists.getD i []).getD j 0 =
      (g.map fun i' => (dists.getD i' []).getD j 0 - (dists.getD i []).getD j 0).sum / (g.length : ℝ) := by
    rw [← list_sum_sub]
    simp only [List.map_const', List.sum_replicate, nsmul_eq_mul]
    field_simp
  rw [e, abs_div, abs_of_pos hglen, div_le_iff₀ hglen]
  refine (list_abs_sum_le).trans ?_
  refine (list_sum_le (g := fun _ => 2 * tol) ?_).trans ?_
  · intro i' hi'
    exact leader_close hk htol hg hi' hi j
  · simp only [List.map_const', List.sum_replicate, nsmul_eq_mul]
    linarith

theorem zipWith_eq_range {α β : Type*} (f : α → β → ℝ) (a₀ : α) (b₀ : β) (l : List α) (l' : List β) (h : l.length = l'.length) :
    (List.zipWith f l l').sum = ((List.range l'.length).map fun i => f (l.getD i a₀) (l'.getD i b₀)).sum := by
  congr 1
  apply List.ext_getElem
  · simp [h]
  · intro i h1 h2
    have h3 : i < l'.length := by simpa using h2
    have h4 : i < l.length := by omega
    simp [h3, h4]

/-! ### Units -/

theorem units_dists {S : PeriodicSet D} {inds : List (Fin S.motif.length)} {mult : List ℕ} (hD : 0 < D)
    (hu : S.Units inds mult) (hne : inds ≠ []) {k fuel : ℕ} {rows : List (List ℝ)}
    (hr : nearestNeighbors S.motif S.cell (inds.map fun i => S.motif[i]) (k + 1) fuel = .ok rows) :
    (∀ r ∈ rows.map (·.drop 1), r.length = k) ∧ mult.length = (rows.map (·.drop 1)).length := by
  obtain ⟨h1, h2⟩ := nearestNeighbors_length hD hne hr
  constructor
  · intro r hr
    obtain ⟨r', h', rfl⟩ := List.mem_map.mp hr
    simp [h2 r' h']
  · rw [List.length_map, h1, units_length hu]

theorem AMD_PDD_rows {S : PeriodicSet D} {inds : List (Fin S.motif.length)} {mult : List ℕ} (hD : 0 < D)
    (hu : S.Units inds mult) (hne : inds ≠ []) {k : ℕ} {lexsort collapse : Bool} {tol : ℝ} {fuel fuel' : ℕ}
    {a : List ℝ} {pdd : List (PRow ℝ)} (ha : AMD S k fuel = .ok a)
    (hp : PDD S k lexsort collapse tol fuel' = .ok pdd) :
    ∃ dists : List (List ℝ), (∀ r ∈ dists, r.length = k) ∧ mult.length = dists.length ∧
      pdd = lexsortRows lexsort (collapseRows k collapse tol dists
        (mult.map fun n : ℕ => (n : ℝ) / (S.motif.length : ℝ))) ∧
      a.length = k ∧ ∀ j < k, a.getD j 0 =
        ((List.range dists.length).map fun i => ((mult.getD i 0 : ℕ) : ℝ) * (dists.getD i []).getD j 0).sum /
          (mult.map fun n : ℕ => (n : ℝ)).sum := by
  have ha' := AMD_fuel (le_max_left fuel fuel') ha
  have hp' := PDD_fuel (le_max_right fuel fuel') hp
  obtain ⟨rows, hr, hl, hv⟩ := AMD_rows hD hu hne ha'
  obtain ⟨rows', hr', e⟩ := PDD_rows hD hu hne hp'
  rw [hr] at hr'
  injection hr' with hr'
  subst hr'
  obtain ⟨h1, h2⟩ := units_dists hD hu hne hr
  refine ⟨rows.map (·.drop 1), h1, h2, e, hl, fun j hj => ?_⟩
  rw [hv j hj, zipWith_eq_range (fun (n : ℕ) (row : List ℝ) => (n : ℝ) * (row.drop 1).getD j 0) 0 [] mult rows
    (by simpa using h2)]
  congr 2
  rw [List.length_map]
  apply List.map_congr_left
  intro i hi
  rw [List.mem_range] at hi
  simp [hi]

end Amd
