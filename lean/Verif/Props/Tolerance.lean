import Verif.Proof.Tolerance
import Verif.Props.PddRows

/-!
# C106: the collapse tolerance
-/

namespace Amd

variable {D : ℕ} {S : PeriodicSet D} {inds : List (Fin S.motif.length)} {mult : List ℕ}

/-- **C106** With a number as the tolerance `PDDTol` is `PDD`; every other float has the effect of some number. -/
theorem C106_number (S : PeriodicSet D) (k : ℕ) (fuel : ℕ) :
    (∀ t lexsort collapse, PDDTol S k lexsort collapse (.num t) fuel = PDD S k lexsort collapse t fuel) ∧
    ∀ tol, ∃ t, ∀ lexsort collapse, PDDTol S k lexsort collapse tol fuel = PDD S k lexsort collapse t fuel := by
  refine ⟨fun t lexsort collapse => ?_, fun tol => PDDTol_number S k tol fuel⟩
  have e : ∀ dists, overlapTol (.num t) dists = overlapAt t dists := fun dists => by
    funext i j
    simp [overlapTol, overlapAt, Tolerance.within]
  simp only [PDDTol, PDD, collapseRowsTol, collapseRows, e]

/-- **C106** A negative tolerance, `-inf` and `nan` collapse nothing. -/
theorem C106_nothing (S : PeriodicSet D) (k : ℕ) (lexsort : Bool) (fuel : ℕ) :
    (∀ t < 0, PDD S k lexsort true t fuel = PDD S k lexsort false t fuel) ∧
    (∀ t, PDDTol S k lexsort true .negInf fuel = PDD S k lexsort false t fuel) ∧
    ∀ t, PDDTol S k lexsort true .nan fuel = PDD S k lexsort false t fuel := by
  have hany : ∀ n : ℕ, ((List.range n).any fun _ => (List.range n).any fun _ => false) = false := fun n => by simp
  refine ⟨fun t ht => PDD_congr_overlap S k lexsort fuel fun x mult rows _ _ w => ?_, fun t => ?_, fun t => ?_⟩
  · simp only [collapseRows, overlapAt_negative ht, hany, Bool.and_false]
  · simp only [PDDTol, PDD, collapseRowsTol, collapseRows, overlapTol, Tolerance.within, Bool.and_false, hany, Bool.false_and, Bool.false_eq_true, if_false]
  · simp only [PDDTol, PDD, collapseRowsTol, collapseRows, overlapTol, Tolerance.within, Bool.and_false, hany, Bool.false_and, Bool.false_eq_true, if_false]

/-- **C106** If all rows are within the tolerance of each other they are collapsed into one, with the sum of the weights and the mean of the rows. -/
theorem C106_one (hD : 0 < D) (hu : S.Units inds mult) (hne : inds ≠ []) {k : ℕ} {lexsort : Bool} {tol : ℝ} {fuel : ℕ} {pdd base : List (PRow ℝ)}
    (h : PDD S k lexsort true tol fuel = .ok pdd) (hb : PDD S k false false tol fuel = .ok base) (hclose : ∀ r ∈ base, ∀ s ∈ base, RowsClose tol r.dists s.dists) :
    ∃ r, pdd = [r] ∧ r.weight = (base.map (·.weight)).sum ∧ r.dists.length = k ∧
      ∀ j < k, r.dists.getD j 0 = (base.map fun b => b.dists.getD j 0).sum / (base.length : ℝ) := by
  obtain ⟨rows, hperm, -, hg, hr⟩ := C16_groups_partial hD hu hne h hb
  have hbne : base ≠ [] := base_ne_nil hD hu hne hb
  have hov : ∀ i j, i < base.length → j < base.length → i ≠ j → RowsClose tol ((base.map (·.dists)).getD i []) ((base.map (·.dists)).getD j []) := by
    intro i j hi hj _
    rw [List.getD_eq_getElem _ _ (by simpa using hi), List.getD_eq_getElem _ _ (by simpa using hj), List.getElem_map, List.getElem_map]
    exact hclose _ (List.getElem_mem _) _ (List.getElem_mem _)
  have hmem : ∀ G ∈ rows.map (·.group), ∀ j ∈ G, j < base.length := fun G hG j hj =>
    List.mem_range.1 (hg.perm.mem_iff.1 (List.mem_flatten.2 ⟨G, hG, hj⟩))
  obtain ⟨r, rfl⟩ : ∃ r, rows = [r] := by
    cases rows with
    | nil =>
      have := hg.perm.length_eq
      simp at this
      exact absurd (List.length_eq_zero_iff.1 this.symm) hbne
    | cons r rest =>
      cases rest with
      | nil => exact ⟨r, rfl⟩
      | cons s rest =>
        exfalso
        have h1 := (List.pairwise_cons.1 hg.first).1 s.group (by simp)
        have hr1 := hg.nonempty r.group (by simp)
        have hs1 := hg.nonempty s.group (by simp)
        obtain ⟨j, hj⟩ := List.exists_mem_of_ne_nil _ hs1
        obtain ⟨l, L, hl⟩ := List.exists_cons_of_ne_nil hr1
        obtain ⟨h2, h3⟩ := h1 l (by simp [hl]) j hj
        rw [decide_eq_false_iff_not] at h3
        exact h3 ⟨by omega, hov l j (hmem r.group (by simp) l (by simp [hl])) (hmem s.group (by simp) j hj) (by omega)⟩
  have hgp : r.group.Perm (List.range base.length) := by simpa using hg.perm
  obtain ⟨h1, h2, h3⟩ := hr r (by simp)
  have hsum : ∀ f : ℕ → ℝ, (r.group.map f).sum = ((List.range base.length).map f).sum := fun f => (hgp.map f).sum_eq
  refine ⟨r, List.perm_singleton.1 hperm, ?_, h2, fun j hj => ?_⟩
  · rw [h1, hsum]
    congr 1
    have := map_getD_range (base.map (·.weight)) 0
    rwa [List.length_map] at this
  · rw [h3 j hj, hsum, hgp.length_eq, List.length_range]
    congr 2
    have := congrArg (List.map fun l : List ℝ => l.getD j 0) (map_getD_range (base.map (·.dists)) [])
    rw [List.length_map, List.map_map, List.map_map] at this
    exact this

/-- **C106** The tolerance `inf` gives one row. -/
theorem C106_inf (hD : 0 < D) (hu : S.Units inds mult) (hne : inds ≠ []) {k : ℕ} {lexsort : Bool} {fuel : ℕ} {pdd base : List (PRow ℝ)}
    (h : PDDTol S k lexsort true .inf fuel = .ok pdd) (hb : PDDTol S k false false .inf fuel = .ok base) :
    ∃ r, pdd = [r] ∧ r.weight = (base.map (·.weight)).sum ∧ r.dists.length = k ∧
      ∀ j < k, r.dists.getD j 0 = (base.map fun b => b.dists.getD j 0).sum / (base.length : ℝ) := by
  obtain ⟨M, hM⟩ := PDDTol_inf S k fuel
  have hlen : ∀ r ∈ base.map (·.dists), r.length = k := by
    rw [hM M le_rfl] at hb
    obtain ⟨rs, h1, h2⟩ := PDD_rows hD hu hne hb
    intro r hr
    rw [h2] at hr
    obtain ⟨x, hx, rfl⟩ := List.mem_map.1 hr
    have hx' := (lexsortRows_perm _ _).mem_iff.1 hx
    rw [collapseRows_false] at hx'
    obtain ⟨i, hi, rfl⟩ := List.mem_map.1 hx'
    have hi' := List.mem_range.1 hi
    show (((rs.map (·.drop 1)).getD i []).length = k)
    rw [List.getD_eq_getElem _ _ hi']
    exact (units_dists hD hu hne h1).1 _ (List.getElem_mem _)
  obtain ⟨N, hN⟩ := exists_close _ hlen
  rw [hM (max M N) (le_max_left _ _)] at h hb
  exact C106_one hD hu hne h hb fun r hr s hs => hN _ (le_max_right _ _) _ (List.mem_map_of_mem hr) _ (List.mem_map_of_mem hs)

/-- **C106** (partial) Collapsing never gives more rows than there are without it. Missing, because false (`C106_false`): that a larger tolerance gives no more rows than a smaller one. -/
theorem C106_fewer_partial (hD : 0 < D) (hu : S.Units inds mult) (hne : inds ≠ []) {k : ℕ} {lexsort lexsort' : Bool} {tol : ℝ} {fuel : ℕ} {pdd base : List (PRow ℝ)}
    (h : PDD S k lexsort true tol fuel = .ok pdd) (hb : PDD S k lexsort' false tol fuel = .ok base) : pdd.length ≤ base.length := by
  obtain ⟨rs, h1, h2⟩ := PDD_rows hD hu hne hb
  obtain ⟨rs', h1', h2'⟩ := PDD_rows hD hu hne h
  rw [h1] at h1'
  injection h1' with h1'
  subst h1'
  rw [h2, h2', (lexsortRows_perm _ _).length_eq, (lexsortRows_perm _ _).length_eq, collapseRows_false, collapseRows_eq k true tol _ _ (units_dists hD hu hne h1).1, List.length_map,
    List.length_map, List.length_range]
  have hg := rowGroups_true tol (rs.map (·.drop 1))
  have hl := hg.perm.length_eq
  rw [List.length_range] at hl
  rw [← hl, List.length_flatten]
  exact groups_length_le hg.nonempty

/-- **C106** (partial) Two tolerances between which no distance of two rows lies give the same PDD. -/
theorem C106_same_partial (hD : 0 < D) (hu : S.Units inds mult) (hne : inds ≠ []) {k : ℕ} {lexsort : Bool} {t t' : ℝ} (htt : t ≤ t') {fuel : ℕ} {base : List (PRow ℝ)}
    (hb : PDD S k false false t fuel = .ok base) (hgap : ∀ r ∈ base, ∀ s ∈ base, RowsClose t' r.dists s.dists → RowsClose t r.dists s.dists) :
    PDD S k lexsort true t fuel = PDD S k lexsort true t' fuel := by
  refine PDD_congr_overlap S k lexsort fuel fun x mult' rows hx hn w => ?_
  obtain ⟨rs, h1, h2⟩ := PDD_rows hD hu hne hb
  rw [asymPoints_units hu] at hx
  injection hx with hx
  injection hx with hx hx'
  subst hx
  rw [h1] at hn
  injection hn with hn
  subst hn
  have hlen := (units_dists hD hu hne h1).1
  have hd : base.map (·.dists) = rs.map (·.drop 1) := by
    rw [h2, lexsortRows, collapseRows_false]
    simp only [Bool.false_eq_true, if_false, List.map_map]
    exact map_getD_range _ _
  have hgap' : ∀ r ∈ rs.map (·.drop 1), ∀ s ∈ rs.map (·.drop 1), RowsClose t' r s → RowsClose t r s := by
    rw [← hd]
    intro r hr s hs
    obtain ⟨x, hx, rfl⟩ := List.mem_map.1 hr
    obtain ⟨y, hy, rfl⟩ := List.mem_map.1 hs
    exact hgap x hx y hy
  have hz : 0 ≤ t' → 0 ≤ t := by
    intro h0
    obtain ⟨r, hr⟩ := List.exists_mem_of_ne_nil _ (base_ne_nil hD hu hne hb)
    have := hgap r hr r hr (fun j => by simpa using h0) 0
    simpa using this
  have hov : overlapAt t (rs.map (·.drop 1)) = overlapAt t' (rs.map (·.drop 1)) := by
    funext i j
    unfold overlapAt
    congr 1
    rw [decide_eq_decide]
    refine ⟨fun h => h.trans htt, fun h => ?_⟩
    by_cases hm : max i j < (rs.map (·.drop 1)).length
    · have hi : min i j < (rs.map (·.drop 1)).length := by omega
      rw [List.getD_eq_getElem _ _ hm, List.getD_eq_getElem _ _ hi] at h ⊢
      have hl := (hlen _ (List.getElem_mem hi)).trans (hlen _ (List.getElem_mem hm)).symm
      exact (rowsClose_iff hl).2 (hgap' _ (List.getElem_mem _) _ (List.getElem_mem _) ((rowsClose_iff hl).1 h))
    · have e : (rs.map (·.drop 1)).getD (max i j) [] = [] := List.getD_eq_default _ _ (by omega)
      rw [e] at h ⊢
      simp only [chebyshev, List.zipWith_nil_right, List.foldr_nil] at h ⊢
      exact hz h
  simp only [collapseRows, hov]

/-! ### A larger tolerance can give more rows -/

/-- Five points on a line. -/
noncomputable def fiveSet : PeriodicSet 1 :=
  { motif := [![5], ![12], ![0], ![15], ![1]].map castPt, cell := fun i => castPt (![![100]] i) }

theorem sqrt_of_sq (n : ℕ) : √((n ^ 2 : ℕ) : ℝ) = n := by
  rw [Nat.cast_pow]
  exact Real.sqrt_sq (Nat.cast_nonneg n)

set_option maxRecDepth 20000 in
theorem five_rows (fuel : ℕ) (hf : 20 ≤ fuel) :
    nearestNeighbors fiveSet.motif fiveSet.cell fiveSet.motif 5 fuel =
      .ok [[0, 4, 5, 7, 10], [0, 3, 7, 11, 12], [0, 1, 5, 12, 15], [0, 3, 10, 14, 15], [0, 1, 4, 11, 14]] := by
  have h : nearestNeighborsSq (K := ℤ) nearInt [![5], ![12], ![0], ![15], ![1]] ![![100]]
      [![5], ![12], ![0], ![15], ![1]] 5 20 =
      .ok [[0, 16, 25, 49, 100], [0, 9, 49, 121, 144], [0, 1, 25, 144, 225], [0, 9, 100, 196, 225], [0, 1, 16, 121, 196]] := by decide +kernel
  have h2 := nearestNeighbors_cast _ _ _ _ _ h
  have q : ∀ n m : ℕ, n ^ 2 = m → √(m : ℝ) = n := by
    rintro n m rfl
    exact sqrt_of_sq n
  have e3 := q 3 9 rfl
  have e4 := q 4 16 rfl
  have e5 := q 5 25 rfl
  have e7 := q 7 49 rfl
  have e14 := q 14 196 rfl
  have e15 := q 15 225 rfl
  simp only [Nat.cast_ofNat] at e3 e4 e5 e7 e14 e15
  simp only [List.map_cons, List.map_nil, Int.cast_zero, Real.sqrt_zero, Int.cast_one, Real.sqrt_one, Int.cast_ofNat, sqrt_100, sqrt_121,
    sqrt_144, e3, e4, e5, e7, e14, e15] at h2
  exact nearestNeighbors_fuel hf h2

theorem five_pdd (col : Bool) (t : ℝ) (fuel : ℕ) (hf : 20 ≤ fuel) : PDD fiveSet 4 false col t fuel =
    .ok (collapseRows 4 col t [[4, 5, 7, 10], [3, 7, 11, 12], [1, 5, 12, 15], [3, 10, 14, 15], [1, 4, 11, 14]] (List.replicate 5 (1 / 5 : ℝ))) := by
  have hx : asymPoints fiveSet = .ok (fiveSet.motif, List.replicate 5 1) := rfl
  simp only [PDD, hx, bind, Except.bind, five_rows fuel hf]
  simp [lexsortRows, fiveSet]

theorem five_groups (t : ℕ) (gs : List (List ℕ))
    (h : ((List.range 5).any fun i => (List.range 5).any fun j => intOverlaps t [[4, 5, 7, 10], [3, 7, 11, 12], [1, 5, 12, 15], [3, 10, 14, 15], [1, 4, 11, 14]] i j) = true)
    (hgs : collapseIntoGroups 5 (intOverlaps t [[4, 5, 7, 10], [3, 7, 11, 12], [1, 5, 12, 15], [3, 10, 14, 15], [1, 4, 11, 14]]) = gs) :
    rowGroups true (t : ℝ) [[4, 5, 7, 10], [3, 7, 11, 12], [1, 5, 12, 15], [3, 10, 14, 15], [1, 4, 11, 14]] = gs := by
  have := rowGroups_ints t [[4, 5, 7, 10], [3, 7, 11, 12], [1, 5, 12, 15], [3, 10, 14, 15], [1, 4, 11, 14]] h
  rw [← hgs]
  simpa using this

theorem five_length (t : ℕ) (gs : List (List ℕ))
    (hg : rowGroups true (t : ℝ) [[4, 5, 7, 10], [3, 7, 11, 12], [1, 5, 12, 15], [3, 10, 14, 15], [1, 4, 11, 14]] = gs) :
    ∃ p, PDD fiveSet 4 false true t 20 = .ok p ∧ p.length = gs.length := by
  refine ⟨_, five_pdd true t 20 le_rfl, ?_⟩
  rw [collapseRows_eq 4 true (t : ℝ) _ _ (by simp), List.length_map, hg]

/-- **C106** is false as stated: with the tolerance 3 the PDD has two rows and with the tolerance 4 it has three. -/
theorem C106_false : ∃ (S : PeriodicSet 1) (p p' : List (PRow ℝ)), PDD S 4 false true 3 20 = .ok p ∧ PDD S 4 false true 4 20 = .ok p' ∧ p.length = 2 ∧ p'.length = 3 := by
  obtain ⟨p, h1, h2⟩ := five_length 3 [[0], [1, 2, 3, 4]] (five_groups 3 _ (by decide) (by decide))
  obtain ⟨p', h3, h4⟩ := five_length 4 [[0, 1, 4], [2], [3]] (five_groups 4 _ (by decide) (by decide))
  exact ⟨fiveSet, p, p', by simpa using h1, by simpa using h3, h2, h4⟩

/-! ### The hypotheses can be met -/

theorem five_base (t : ℝ) : ∃ base, PDD fiveSet 4 false false t 20 = .ok base ∧ base.length = 5 ∧ ∀ r ∈ base, ∀ s ∈ base, RowsClose 15 r.dists s.dists := by
  refine ⟨_, five_pdd false t 20 le_rfl, by rw [collapseRows_false]; simp, ?_⟩
  have key : ∀ r ∈ collapseRows 4 false t [[4, 5, 7, 10], [3, 7, 11, 12], [1, 5, 12, 15], [3, 10, 14, 15], [1, 4, 11, 14]] (List.replicate 5 (1 / 5 : ℝ)),
      ∀ j, 0 ≤ r.dists.getD j 0 ∧ r.dists.getD j 0 ≤ 15 := by
    rw [collapseRows_false]
    intro r hr j
    simp only [List.length_cons, List.length_nil, List.range, List.range.loop, List.map_cons, List.map_nil, List.mem_cons, List.not_mem_nil, or_false] at hr
    rcases hr with rfl | rfl | rfl | rfl | rfl <;> rcases j with _ | _ | _ | _ | j <;> norm_num
  intro r hr s hs j
  have h1 := key r hr j
  have h2 := key s hs j
  rw [abs_le]
  constructor <;> linarith

theorem five_units : fiveSet.Units (List.finRange 5) [1, 1, 1, 1, 1] := Or.inr ⟨Or.inl rfl, rfl, rfl⟩

theorem five_units_ne : (List.finRange 5 : List (Fin fiveSet.motif.length)) ≠ [] := List.ne_nil_of_length_pos (by decide)

/-- Five rows within 15 of each other become one. -/
example : ∃ r base, PDD fiveSet 4 false false 15 20 = .ok base ∧ base.length = 5 ∧ PDD fiveSet 4 false true 15 20 = .ok [r] ∧ r.dists.length = 4 := by
  obtain ⟨base, h1, h2, h3⟩ := five_base 15
  have h4 := five_pdd true 15 20 le_rfl
  obtain ⟨r, h5, -, h6, -⟩ := C106_one (by decide) five_units five_units_ne h4 h1 h3
  exact ⟨r, base, h1, h2, by rw [h4, h5], h6⟩

/-- So they do for every larger tolerance and for `inf`. -/
example (t : ℝ) (ht : 15 ≤ t) : PDD fiveSet 4 true true 15 20 = PDD fiveSet 4 true true t 20 := by
  obtain ⟨base, h1, -, h3⟩ := five_base 15
  exact C106_same_partial (by decide) five_units five_units_ne ht h1 fun r hr s hs _ => h3 r hr s hs

example : ∃ r, PDDTol fiveSet 4 false true .inf 20 = .ok [r] := by
  obtain ⟨t, ht⟩ := (C106_number fiveSet 4 20).2 .inf
  obtain ⟨base, h1, -, -⟩ := five_base t
  have h4 := five_pdd true t 20 le_rfl
  obtain ⟨r, h5, -⟩ := C106_inf (by decide) five_units five_units_ne ((ht false true).trans h4) ((ht false false).trans h1)
  exact ⟨r, by rw [ht, h4, h5]⟩

/-- Two rows instead of five. -/
example : ∃ p base, PDD fiveSet 4 false true 3 20 = .ok p ∧ PDD fiveSet 4 false false 3 20 = .ok base ∧ p.length ≤ base.length ∧ base.length = 5 := by
  obtain ⟨base, h1, h2, -⟩ := five_base 3
  have h4 := five_pdd true 3 20 le_rfl
  exact ⟨_, base, h4, h1, C106_fewer_partial (by decide) five_units five_units_ne h4 h1, h2⟩

end Amd
