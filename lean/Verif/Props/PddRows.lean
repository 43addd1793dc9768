import Verif.Proof.PddMean
import Verif.Props.Invariance

/-! # Weights, sorting, collapsing: C14, C15, C16, C17 -/

namespace Amd

variable {D : ℕ}

/-! ### C14 -/

/-- **C14** If the multiplicities are positive and sum to the number of motif points, the weights of `PDD` are positive and
sum to 1, for all options. -/
theorem C14_weights {S : PeriodicSet D} {inds : List (Fin S.motif.length)} {mult : List ℕ} (hD : 0 < D)
    (hu : S.Units inds mult) (hne : inds ≠ []) (hpos : ∀ n ∈ mult, 0 < n) (hsum : mult.sum = S.motif.length)
    {k : ℕ} {lexsort collapse : Bool} {tol : ℝ} {fuel : ℕ}
    {pdd : List (PRow ℝ)} (h : PDD S k lexsort collapse tol fuel = .ok pdd) :
    (∀ r ∈ pdd, 0 < r.weight) ∧ (pdd.map (·.weight)).sum = 1 := by
  obtain ⟨rows, hr, e⟩ := PDD_rows hD hu hne h
  obtain ⟨h1, h2⟩ := units_dists hD hu hne hr
  have hm : (0 : ℝ) < S.motif.length := by
    obtain ⟨i, _⟩ := List.exists_mem_of_ne_nil _ hne
    exact_mod_cast i.pos
  have hp := lexsortRows_perm lexsort (collapseRows k collapse tol (rows.map (·.drop 1))
        (mult.map fun n : ℕ => (n : ℝ) / (S.motif.length : ℝ)))
  rw [← e] at hp
  constructor
  · intro r hr
    refine collapse_weight_pos k collapse tol _ _ h1 (by simpa using h2) ?_ r (hp.subset hr)
    intro w hw
    obtain ⟨n, hn, rfl⟩ := List.mem_map.mp hw
    have : (0 : ℝ) < n := by exact_mod_cast hpos n hn
    positivity
  · rw [(hp.map _).sum_eq, collapse_weight_sum k collapse tol _ _ h1 (by simpa using h2)]
    have e1 : (mult.map fun n : ℕ => (n : ℝ) / (S.motif.length : ℝ)).sum =
        ((mult.sum : ℕ) : ℝ) / S.motif.length := by
      clear h2 hu hpos hsum h e hp
      induction mult with
      | nil => simp
      | cons n l ih => simp [ih, add_div]
    rw [e1, hsum, div_self hm.ne']

/-- **C14** Without an asymmetric unit the hypotheses on multiplicities always hold. -/
theorem C14_weights_full_motif (hD : 0 < D) {motif : List (Pt D ℝ)} (cell : Fin D → Pt D ℝ) (hne : motif ≠ [])
    {k : ℕ} {lexsort collapse : Bool} {tol : ℝ} {fuel : ℕ}
    {pdd : List (PRow ℝ)} (h : PDD { motif := motif, cell := cell } k lexsort collapse tol fuel = .ok pdd) :
    (∀ r ∈ pdd, 0 < r.weight) ∧ (pdd.map (·.weight)).sum = 1 := by
  have hl : 0 < motif.length := List.length_pos_iff.mpr hne
  refine C14_weights (S := { motif := motif, cell := cell }) hD (Or.inr ⟨Or.inl rfl, rfl, rfl⟩) ?_ ?_ ?_ h
  · exact List.ne_nil_of_length_pos (by simpa using hl)
  · intro n hn
    rw [(List.mem_replicate.mp hn).2]
    exact one_pos
  · simp

example : ∃ fuel pdd, PDD exampleAsym 7 true true 0.1 fuel = .ok pdd ∧ (∀ n ∈ [2], 0 < n) ∧
    [2].sum = exampleAsym.motif.length := by
  obtain ⟨_, p, F, h⟩ := C10_terminates (S := exampleAsym) (by decide) exampleAsym_units (by decide)
    exampleSet_nonSingular 7 true true 0.1
  exact ⟨F, p, (h F le_rfl).2, by decide, rfl⟩

/-! ### C15 -/

/-- Lexicographic order of rows: equal up to some column, then smaller; or a prefix. -/
def RowLexLe (r s : List ℝ) : Prop :=
  r = s ∨ ∃ j, j < s.length ∧ (∀ i < j, r.getD i 0 = s.getD i 0) ∧ (j < r.length → r.getD j 0 < s.getD j 0) ∧
    (r.length ≤ j → r.length = j)

theorem rowLexLe_of_lexLe : ∀ {r s : List ℝ}, lexLe r s = true → RowLexLe r s
  | [], [], _ => Or.inl rfl
  | [], b :: s, _ => Or.inr ⟨0, by simp, by simp, by simp, by simp⟩
  | a :: r, [], h => by simp [lexLe] at h
  | a :: r, b :: s, h => by
    rw [lexLe, Bool.or_eq_true, Bool.and_eq_true, decide_eq_true_eq, decide_eq_true_eq] at h
    rcases h with h | ⟨rfl, h⟩
    · exact Or.inr ⟨0, by simp, by simp, fun _ => by simpa using h, fun hl => by simp at hl⟩
    · rcases rowLexLe_of_lexLe h with rfl | ⟨j, h1, h2, h3, h4⟩
      · exact Or.inl rfl
      · refine Or.inr ⟨j + 1, by simpa using h1, ?_, ?_, ?_⟩
        · intro i hi
          cases i with
          | zero => simp
          | succ i => simpa using h2 i (by omega)
        · intro hj
          simpa using h3 (by simpa using hj)
        · intro hl
          simpa using h4 (by simpa using hl)

/-- **C15** `lexsort=True` gives the rows (weights, distances and groups together) of `lexsort=False` in another order,
in which distances increase lexicographically; rows with equal distances stay in order. -/
theorem C15_lexsort {S : PeriodicSet D} {k : ℕ} {collapse : Bool} {tol : ℝ} {fuel : ℕ} {p : List (PRow ℝ)}
    (h : PDD S k false collapse tol fuel = .ok p) :
    ∃ q, PDD S k true collapse tol fuel = .ok q ∧ q.Perm p ∧
      q.Pairwise (fun r s => RowLexLe r.dists s.dists) ∧
      ∀ r s, r.dists = s.dists → [r, s].Sublist p → [r, s].Sublist q := by
  refine ⟨lexsortRows true p, ?_, lexsortRows_perm true p, ?_, ?_⟩
  · unfold PDD at h ⊢
    cases hx : asymPoints S with
    | error e => rw [hx] at h; simp [bind, Except.bind] at h
    | ok xm =>
      obtain ⟨x, m⟩ := xm
      rw [hx] at h
      simp only [bind, Except.bind] at h ⊢
      cases hn : nearestNeighbors S.motif S.cell x (k + 1) fuel with
      | error e => rw [hn] at h; simp at h
      | ok rows =>
        rw [hn] at h
        simp only at h ⊢
        split_ifs at h ⊢ with hc
        injection h with h
        rw [← h]
        simp [lexsortRows]
  · exact (lexsortRows_sorted p).imp rowLexLe_of_lexLe
  · intro r s hrs hsub
    simp only [lexsortRows, if_true]
    have : IsTrans (PRow ℝ) (fun a b => lexLe a.dists b.dists = true) := ⟨fun a b c => lexLe_trans⟩
    have : Std.Total (α := PRow ℝ) (fun a b => lexLe a.dists b.dists = true) := ⟨fun a b => lexLe_total _ _⟩
    refine List.pair_sublist_insertionSort ?_ hsub
    rw [hrs]
    rcases lexLe_total s.dists s.dists with h | h <;> exact h

example : ∃ fuel p, PDD exampleSet 7 false true 0.1 fuel = .ok p := by
  obtain ⟨_, p, F, h⟩ := C10_terminates (by decide) exampleSet_units exampleSet_units_ne
    exampleSet_nonSingular 7 false true 0.1
  exact ⟨F, p, (h F le_rfl).2⟩

/-! ### C16 -/

open Classical in
/-- **C16** (partial) Collapsing merges rows around leaders: the groups of the result partition the rows of the
uncollapsed PDD, the first row of a group is within the tolerance of all others in it, and no row is in a later group than
one whose leader it is close to. The merged weight is the sum, the merged row the mean. Missing, because false
(`C16_false_merged`, `C16_false_close`): that all close rows are merged, and that merged rows are all close to each other. -/
theorem C16_groups_partial {S : PeriodicSet D} {inds : List (Fin S.motif.length)} {mult : List ℕ} (hD : 0 < D)
    (hu : S.Units inds mult) (hne : inds ≠ []) {k : ℕ} {lexsort : Bool} {tol : ℝ} {fuel : ℕ}
    {pdd base : List (PRow ℝ)} (h : PDD S k lexsort true tol fuel = .ok pdd)
    (hb : PDD S k false false tol fuel = .ok base) :
    ∃ rows : List (PRow ℝ), pdd.Perm rows ∧ (lexsort = false → pdd = rows) ∧
      IsLeaderGrouping base.length (fun i j => decide (i ≠ j ∧
        RowsClose tol ((base.map (·.dists)).getD i []) ((base.map (·.dists)).getD j []))) (rows.map (·.group)) ∧
      ∀ r ∈ rows, r.weight = (r.group.map fun i => (base.map (·.weight)).getD i 0).sum ∧ r.dists.length = k ∧
        ∀ j < k, r.dists.getD j 0 =
          (r.group.map fun i => ((base.map (·.dists)).getD i []).getD j 0).sum / (r.group.length : ℝ) := by
  obtain ⟨rs, hr, e⟩ := PDD_rows hD hu hne h
  obtain ⟨rs', hr', e'⟩ := PDD_rows hD hu hne hb
  rw [hr] at hr'
  injection hr' with hr'
  subst hr'
  obtain ⟨h1, h2⟩ := units_dists hD hu hne hr
  set dists := rs.map (·.drop 1)
  set ws := mult.map fun n : ℕ => (n : ℝ) / (S.motif.length : ℝ) with hws
  have hwl : ws.length = dists.length := by rw [hws, List.length_map, h2]
  have hbase : base = (List.range dists.length).map fun i =>
      { weight := ws.getD i 0, dists := dists.getD i [], group := [i] } := by
    rw [e', collapseRows_false]; simp [lexsortRows]
  have hbd : base.map (·.dists) = dists := by
    rw [hbase, List.map_map]; exact map_getD_range dists []
  have hbw : base.map (·.weight) = ws := by
    rw [hbase, List.map_map, ← hwl]; exact map_getD_range ws 0
  have hbl : base.length = dists.length := by rw [hbase]; simp
  rw [hbd, hbw, hbl]
  refine ⟨collapseRows k true tol dists ws, ?_, ?_, ?_, ?_⟩
  · rw [e]; exact lexsortRows_perm _ _
  · intro hl; rw [e, hl]; simp [lexsortRows]
  · rw [collapseRows_eq k true tol dists ws h1, List.map_map]
    have : ((fun r : PRow ℝ => r.group) ∘ groupRow k dists ws) = id := rfl
    rw [this, List.map_id]
    refine (rowGroups_true tol dists).congr ?_
    intro i hi j hj
    rw [Bool.eq_iff_iff, overlapAt_iff h1 hi hj, decide_eq_true_eq]
  · rw [collapseRows_eq k true tol dists ws h1]
    intro r hr
    obtain ⟨g, hg, rfl⟩ := List.mem_map.mp hr
    refine ⟨rfl, length_meanRows _ _, fun j hj => ?_⟩
    simp only [groupRow]
    rw [meanRows_getD _ _ hj, List.map_map, List.length_map]
    rfl

/-- The grouping is determined by the overlaps: there is only one leader grouping. -/
theorem C16_grouping_is_the_model (n : ℕ) (ov : ℕ → ℕ → Bool) (hself : ∀ i, ov i i = false) :
    IsLeaderGrouping n ov (collapseIntoGroups n ov) := collapseIntoGroups_spec n ov hself

/-- Six points on a line whose nearest neighbour distances are 10, 10, 11, 11, 12, 12. -/
noncomputable def chainSet : PeriodicSet 1 :=
  { motif := [![0], ![10], ![30], ![41], ![60], ![72]].map castPt, cell := fun i => castPt (![![100]] i) }

/-- The same points in another order. -/
noncomputable def chainSet' : PeriodicSet 1 :=
  { motif := [![30], ![41], ![0], ![10], ![60], ![72]].map castPt, cell := fun i => castPt (![![100]] i) }

theorem chain_perm : chainSet.motif.Perm chainSet'.motif := by
  apply List.Perm.map
  decide

theorem sqrt_100 : √(100 : ℝ) = 10 := by
  rw [show (100 : ℝ) = 10 ^ 2 by norm_num]; exact Real.sqrt_sq (by norm_num)
theorem sqrt_121 : √(121 : ℝ) = 11 := by
  rw [show (121 : ℝ) = 11 ^ 2 by norm_num]; exact Real.sqrt_sq (by norm_num)
theorem sqrt_144 : √(144 : ℝ) = 12 := by
  rw [show (144 : ℝ) = 12 ^ 2 by norm_num]; exact Real.sqrt_sq (by norm_num)

set_option maxRecDepth 10000 in
theorem chain_rows (fuel : ℕ) (hf : 20 ≤ fuel) :
    nearestNeighbors chainSet.motif chainSet.cell chainSet.motif 2 fuel =
      .ok [[0, 10], [0, 10], [0, 11], [0, 11], [0, 12], [0, 12]] := by
  have h : nearestNeighborsSq (K := ℤ) nearInt [![0], ![10], ![30], ![41], ![60], ![72]] ![![100]]
      [![0], ![10], ![30], ![41], ![60], ![72]] 2 20 =
      .ok [[0, 100], [0, 100], [0, 121], [0, 121], [0, 144], [0, 144]] := by decide
  have h2 := nearestNeighbors_cast _ _ _ _ _ h
  simp only [List.map_cons, List.map_nil, Int.cast_zero, Real.sqrt_zero, Int.cast_ofNat, sqrt_100, sqrt_121,
    sqrt_144] at h2
  exact nearestNeighbors_fuel hf h2

set_option maxRecDepth 10000 in
theorem chain_rows' (fuel : ℕ) (hf : 20 ≤ fuel) :
    nearestNeighbors chainSet'.motif chainSet'.cell chainSet'.motif 2 fuel =
      .ok [[0, 11], [0, 11], [0, 10], [0, 10], [0, 12], [0, 12]] := by
  have h : nearestNeighborsSq (K := ℤ) nearInt [![30], ![41], ![0], ![10], ![60], ![72]] ![![100]]
      [![30], ![41], ![0], ![10], ![60], ![72]] 2 20 =
      .ok [[0, 121], [0, 121], [0, 100], [0, 100], [0, 144], [0, 144]] := by decide
  have h2 := nearestNeighbors_cast _ _ _ _ _ h
  simp only [List.map_cons, List.map_nil, Int.cast_zero, Real.sqrt_zero, Int.cast_ofNat, sqrt_100, sqrt_121,
    sqrt_144] at h2
  exact nearestNeighbors_fuel hf h2

theorem chain_pdd (col : Bool) (fuel : ℕ) (hf : 20 ≤ fuel) : PDD chainSet 1 false col 1 fuel =
    .ok (collapseRows 1 col 1 [[10], [10], [11], [11], [12], [12]] (List.replicate 6 (1 / 6 : ℝ))) := by
  have hx : asymPoints chainSet = .ok (chainSet.motif, List.replicate 6 1) := rfl
  simp only [PDD, hx, bind, Except.bind, chain_rows fuel hf]
  simp [lexsortRows, chainSet]

theorem chain_pdd' (col : Bool) (fuel : ℕ) (hf : 20 ≤ fuel) : PDD chainSet' 1 false col 1 fuel =
    .ok (collapseRows 1 col 1 [[11], [11], [10], [10], [12], [12]] (List.replicate 6 (1 / 6 : ℝ))) := by
  have hx : asymPoints chainSet' = .ok (chainSet'.motif, List.replicate 6 1) := rfl
  simp only [PDD, hx, bind, Except.bind, chain_rows' fuel hf]
  simp [lexsortRows, chainSet']

/-- The overlaps of one-column integer rows, computably. -/
def intOverlap (zs : List ℤ) (i j : ℕ) : Bool :=
  i != j && (match zs[min i j]?, zs[max i j]? with
    | some a, some b => decide ((a - b).natAbs ≤ 1)
    | _, _ => true)

theorem overlapAt_int (zs : List ℤ) : overlapAt (1 : ℝ) (zs.map fun z : ℤ => [(z : ℝ)]) = intOverlap zs := by
  funext i j
  unfold overlapAt intOverlap
  congr 1
  rw [List.getD_eq_getElem?_getD, List.getD_eq_getElem?_getD, List.getElem?_map, List.getElem?_map]
  cases ha : zs[min i j]? with
  | none => simp [chebyshev]
  | some a =>
    cases hb : zs[max i j]? with
    | none => simp [chebyshev]
    | some b =>
      have h : |(a : ℝ) - b| ≤ 1 ↔ (a - b).natAbs ≤ 1 := by
        rw [← Int.cast_sub, ← Int.cast_abs, ← Int.cast_one, Int.cast_le, abs_le]
        omega
      simp [chebyshev, h]

theorem rowGroups_int (zs : List ℤ) (h : ((List.range zs.length).any fun i => (List.range zs.length).any fun j =>
    intOverlap zs i j) = true) :
    rowGroups true (1 : ℝ) (zs.map fun z : ℤ => [(z : ℝ)]) = collapseIntoGroups zs.length (intOverlap zs) := by
  unfold rowGroups
  simp only [overlapAt_int, List.length_map, h, Bool.true_and, if_true]

theorem chain_groups :
    rowGroups true (1 : ℝ) [[10], [10], [11], [11], [12], [12]] = [[0, 1, 2, 3], [4, 5]] := by
  have h := rowGroups_int [10, 10, 11, 11, 12, 12] (by decide)
  rw [show collapseIntoGroups _ _ = [[0, 1, 2, 3], [4, 5]] by decide] at h
  simpa using h

theorem chain_groups' :
    rowGroups true (1 : ℝ) [[11], [11], [10], [10], [12], [12]] = [[0, 1, 2, 3, 4, 5]] := by
  have h := rowGroups_int [11, 11, 10, 10, 12, 12] (by decide)
  rw [show collapseIntoGroups _ _ = [[0, 1, 2, 3, 4, 5]] by decide] at h
  simpa using h

theorem chain_collapsed (fuel : ℕ) (hf : 20 ≤ fuel) : ∃ p, PDD chainSet 1 false true 1 fuel = .ok p ∧
    p.map (·.group) = [[0, 1, 2, 3], [4, 5]] := by
  refine ⟨_, chain_pdd true fuel hf, ?_⟩
  rw [collapseRows_eq 1 true 1 _ _ (by simp), chain_groups]
  rfl

theorem chain_collapsed' (fuel : ℕ) (hf : 20 ≤ fuel) : ∃ p, PDD chainSet' 1 false true 1 fuel = .ok p ∧
    p.map (·.group) = [[0, 1, 2, 3, 4, 5]] := by
  refine ⟨_, chain_pdd' true fuel hf, ?_⟩
  rw [collapseRows_eq 1 true 1 _ _ (by simp), chain_groups']
  rfl

/-- The part "rows within the tolerance are merged" of **C16** is false: rows 2 and 4 (distances 11 and 12, tolerance 1)
stay in different groups. -/
theorem C16_false_merged : ∃ (S : PeriodicSet 1) (p base : List (PRow ℝ)),
    PDD S 1 false true 1 20 = .ok p ∧ PDD S 1 false false 1 20 = .ok base ∧
    RowsClose 1 ((base.map (·.dists)).getD 2 []) ((base.map (·.dists)).getD 4 []) ∧
    ¬ ∃ r ∈ p, 2 ∈ r.group ∧ 4 ∈ r.group := by
  obtain ⟨p, hp, hg⟩ := chain_collapsed 20 le_rfl
  refine ⟨chainSet, p, _, hp, chain_pdd false 20 le_rfl, ?_, ?_⟩
  · rw [collapseRows_false]
    intro j
    cases j with
    | zero => norm_num
    | succ j => norm_num
  · rintro ⟨r, hr, h2, h4⟩
    have : r.group ∈ p.map (·.group) := List.mem_map_of_mem hr
    rw [hg] at this
    simp only [List.mem_cons, List.not_mem_nil, or_false] at this
    rcases this with h | h
    · rw [h] at h4; simp at h4
    · rw [h] at h2; simp at h2

/-- The part "merged rows are within the tolerance of each other" of **C16** is false: rows 2 and 4 (distances 10 and 12,
tolerance 1) are merged. -/
theorem C16_false_close : ∃ (S : PeriodicSet 1) (p base : List (PRow ℝ)),
    PDD S 1 false true 1 20 = .ok p ∧ PDD S 1 false false 1 20 = .ok base ∧
    (∃ r ∈ p, 2 ∈ r.group ∧ 4 ∈ r.group) ∧
    ¬ RowsClose 1 ((base.map (·.dists)).getD 2 []) ((base.map (·.dists)).getD 4 []) := by
  obtain ⟨p, hp, hg⟩ := chain_collapsed' 20 le_rfl
  refine ⟨chainSet', p, _, hp, chain_pdd' false 20 le_rfl, ?_, ?_⟩
  · have : [0, 1, 2, 3, 4, 5] ∈ p.map (·.group) := by rw [hg]; simp
    obtain ⟨r, hr, h⟩ := List.mem_map.mp this
    exact ⟨r, hr, by rw [h]; simp, by rw [h]; simp⟩
  · rw [collapseRows_false]
    intro h
    have := h 0
    norm_num [abs_le] at this

/-- **C06** does not extend to collapsed PDDs: reordering the motif changes the number of rows. -/
theorem C06_collapsed_false : ∃ (S S' : PeriodicSet 1) (p p' : List (PRow ℝ)),
    S.motif.Perm S'.motif ∧ S.cell = S'.cell ∧ PDD S 1 false true 1 20 = .ok p ∧ PDD S' 1 false true 1 20 = .ok p' ∧
    p.length ≠ p'.length := by
  obtain ⟨p, hp, hg⟩ := chain_collapsed 20 le_rfl
  obtain ⟨p', hp', hg'⟩ := chain_collapsed' 20 le_rfl
  refine ⟨chainSet, chainSet', p, p', chain_perm, rfl, hp, hp', ?_⟩
  have h1 := congrArg List.length hg
  have h2 := congrArg List.length hg'
  simp only [List.length_map, List.length_cons, List.length_nil] at h1 h2
  omega

/-! ### C17 -/

theorem sum_div_const (l : List ℕ) (c : ℝ) :
    (l.map fun n : ℕ => (n : ℝ) / c).sum = (l.map fun n : ℕ => (n : ℝ)).sum / c := by
  induction l with
  | nil => simp
  | cons a l ih => simp [ih, add_div]

theorem mult_sum_pos {mult : List ℕ} (h : ∀ n ∈ mult, 0 < n) (hne : mult ≠ []) :
    0 < (mult.map fun n : ℕ => (n : ℝ)).sum := by
  apply list_sum_pos (by simpa using hne)
  intro a ha
  obtain ⟨n, hn, rfl⟩ := List.mem_map.mp ha
  exact_mod_cast h n hn

theorem getD_map_div (mult : List ℕ) (c : ℝ) (i : ℕ) :
    (mult.map fun n : ℕ => (n : ℝ) / c).getD i 0 = ((mult.getD i 0 : ℕ) : ℝ) / c := by
  rcases Nat.lt_or_ge i mult.length with h | h
  · rw [List.getD_eq_getElem _ _ (by simpa using h), List.getD_eq_getElem _ _ h]; simp
  · rw [List.getD_eq_default _ _ (by simpa using h), List.getD_eq_default _ _ h]; simp

/-- **C17** (partial) Without collapsing, `PDD_to_AMD(PDD(S, k))` is `AMD(S, k)`. -/
theorem C17_uncollapsed_partial {S : PeriodicSet D} {inds : List (Fin S.motif.length)} {mult : List ℕ} (hD : 0 < D)
    (hu : S.Units inds mult) (hne : inds ≠ []) (hpos : ∀ n ∈ mult, 0 < n) {k : ℕ} {lexsort : Bool} {tol : ℝ}
    {fuel fuel' : ℕ} {a : List ℝ} {pdd : List (PRow ℝ)} (ha : AMD S k fuel = .ok a)
    (hp : PDD S k lexsort false tol fuel' = .ok pdd) : pddToAmd k pdd = .ok a := by
  obtain ⟨dists, hk, hl, e, hal, hv⟩ := AMD_PDD_rows hD hu hne ha hp
  have hm : (0 : ℝ) < S.motif.length := by
    obtain ⟨i, _⟩ := List.exists_mem_of_ne_nil _ hne
    exact_mod_cast i.pos
  have hmne : mult ≠ [] := by
    intro hc
    have := units_length hu
    rw [hc] at this
    exact hne (List.length_eq_zero_iff.mp this)
  have hs := mult_sum_pos hpos hmne
  have hperm := lexsortRows_perm lexsort (collapseRows k false tol dists
        (mult.map fun n : ℕ => (n : ℝ) / (S.motif.length : ℝ)))
  rw [← e] at hperm
  have hw : (pdd.map (·.weight)).sum = (mult.map fun n : ℕ => (n : ℝ)).sum / S.motif.length := by
    rw [(hperm.map _).sum_eq, collapse_weight_sum k false tol _ _ hk (by simpa using hl), sum_div_const]
  have hwne : (pdd.map (·.weight)).sum ≠ 0 := by rw [hw]; positivity
  unfold pddToAmd
  rw [if_neg hwne]
  congr 1
  apply List.ext_getElem
  · simp [hal]
  · intro j h1 h2
    have hj : j < k := by simpa using h1
    have := hv j hj
    rw [List.getD_eq_getElem _ _ h2] at this
    rw [this]
    simp only [List.getElem_map, List.getElem_range]
    rw [hw, (hperm.map _).sum_eq, collapseRows_false, List.map_map]
    have e2 : ((fun r : PRow ℝ => r.weight * r.dists.getD j 0) ∘ fun i =>
        ({ weight := (mult.map fun n : ℕ => (n : ℝ) / (S.motif.length : ℝ)).getD i 0,
           dists := dists.getD i [], group := [i] } : PRow ℝ)) =
        fun i => (1 / (S.motif.length : ℝ)) * (((mult.getD i 0 : ℕ) : ℝ) * (dists.getD i []).getD j 0) := by
      funext i
      simp only [Function.comp, getD_map_div]
      ring
    rw [e2, sum_const_mul]
    field_simp

/-- **C17** (partial) Without an asymmetric unit (all weights equal), `PDD_to_AMD(PDD(S, k))` is `AMD(S, k)` for every
collapse setting. -/
theorem C17_full_motif_partial (hD : 0 < D) {motif : List (Pt D ℝ)} {cell : Fin D → Pt D ℝ} (hne : motif ≠ [])
    {k : ℕ} {lexsort collapse : Bool} {tol : ℝ} {fuel fuel' : ℕ} {a : List ℝ} {pdd : List (PRow ℝ)}
    (ha : AMD { motif := motif, cell := cell } k fuel = .ok a)
    (hp : PDD { motif := motif, cell := cell } k lexsort collapse tol fuel' = .ok pdd) : pddToAmd k pdd = .ok a := by
  have hl0 : 0 < motif.length := List.length_pos_iff.mpr hne
  have hu : PeriodicSet.Units { motif := motif, cell := cell } (List.finRange motif.length)
    (List.replicate motif.length 1) := Or.inr ⟨Or.inl rfl, rfl, rfl⟩
  have hne' : List.finRange motif.length ≠ [] := List.ne_nil_of_length_pos (by simpa using hl0)
  obtain ⟨dists, hk, hl, e, hal, hv⟩ := AMD_PDD_rows (S := { motif := motif, cell := cell }) hD hu hne' ha hp
  have hm : (0 : ℝ) < motif.length := by exact_mod_cast hl0
  rw [List.length_replicate] at hl
  have hrep : (List.replicate motif.length 1).map (fun n : ℕ => (n : ℝ) / (motif.length : ℝ)) =
      List.replicate dists.length (1 / (motif.length : ℝ)) := by simp [hl]
  simp only [hrep] at e
  have hperm := lexsortRows_perm lexsort (collapseRows k collapse tol dists
    (List.replicate dists.length (1 / (motif.length : ℝ))))
  rw [← e] at hperm
  have hw : (pdd.map (·.weight)).sum = 1 := by
    rw [(hperm.map _).sum_eq, collapse_weight_sum k collapse tol _ _ hk (by simp)]
    simp only [List.sum_replicate, nsmul_eq_mul, ← hl]
    field_simp
  unfold pddToAmd
  rw [hw, if_neg one_ne_zero]
  congr 1
  apply List.ext_getElem
  · simp [hal]
  · intro j h1 h2
    have hj : j < k := by simpa using h1
    have := hv j hj
    rw [List.getD_eq_getElem _ _ h2] at this
    rw [this]
    simp only [List.getElem_map, List.getElem_range]
    rw [(hperm.map _).sum_eq, collapse_column_sum_const k collapse tol dists _ hk hj, sum_const_mul, div_one]
    have e3 : ((List.replicate motif.length 1).map fun n : ℕ => (n : ℝ)).sum = motif.length := by simp
    have e4 : (List.range dists.length).map (fun i =>
        (((List.replicate motif.length 1).getD i 0 : ℕ) : ℝ) * (dists.getD i []).getD j 0) =
        (List.range dists.length).map fun i => (dists.getD i []).getD j 0 := by
      apply List.map_congr_left
      intro i hi
      rw [List.mem_range, ← hl] at hi
      rw [List.getD_eq_getElem _ _ (by simpa using hi)]
      simp
    rw [e3, e4]
    ring

/-- **C17** (partial) With collapsing, the entries of `PDD_to_AMD(PDD(S, k))` and `AMD(S, k)` differ by at most twice the tolerance.
Missing: equality, which is false with unequal multiplicities (`C17_false`). -/
theorem C17_collapsed_bound_partial {S : PeriodicSet D} {inds : List (Fin S.motif.length)} {mult : List ℕ} (hD : 0 < D)
    (hu : S.Units inds mult) (hne : inds ≠ []) (hpos : ∀ n ∈ mult, 0 < n) {k : ℕ} {lexsort : Bool} {tol : ℝ}
    (htol : 0 ≤ tol) {fuel fuel' : ℕ} {a : List ℝ} {pdd : List (PRow ℝ)} (ha : AMD S k fuel = .ok a)
    (hp : PDD S k lexsort true tol fuel' = .ok pdd) :
    ∃ b, pddToAmd k pdd = .ok b ∧ b.length = k ∧ ∀ j < k, |b.getD j 0 - a.getD j 0| ≤ 2 * tol := by
  obtain ⟨dists, hk, hl, e, hal, hv⟩ := AMD_PDD_rows hD hu hne ha hp
  have hm : (0 : ℝ) < S.motif.length := by
    obtain ⟨i, _⟩ := List.exists_mem_of_ne_nil _ hne
    exact_mod_cast i.pos
  have hmne : mult ≠ [] := by
    intro hc
    have := units_length hu
    rw [hc] at this
    exact hne (List.length_eq_zero_iff.mp this)
  have hs := mult_sum_pos hpos hmne
  set ws := mult.map fun n : ℕ => (n : ℝ) / (S.motif.length : ℝ) with hws
  have hperm := lexsortRows_perm lexsort (collapseRows k true tol dists ws)
  rw [← e] at hperm
  have hwl : ws.length = dists.length := by simpa [hws] using hl
  have hw : (pdd.map (·.weight)).sum = ws.sum := by
    rw [(hperm.map _).sum_eq, collapse_weight_sum k true tol _ _ hk hwl]
  have hwsum : ws.sum = (mult.map fun n : ℕ => (n : ℝ)).sum / S.motif.length := sum_div_const _ _
  have hwpos : 0 < ws.sum := by rw [hwsum]; positivity
  unfold pddToAmd
  rw [hw, if_neg hwpos.ne']
  refine ⟨_, rfl, by simp, fun j hj => ?_⟩
  rw [List.getD_eq_getElem _ _ (by simpa using hj), hv j hj]
  simp only [List.getElem_map, List.getElem_range]
  rw [(hperm.map _).sum_eq]
  have hb := collapse_column_sum_bound k tol htol dists ws hk hwl (by
    intro w hw
    obtain ⟨n, _, rfl⟩ := List.mem_map.mp hw
    positivity) hj
  have e5 : ((List.range dists.length).map fun i => ((mult.getD i 0 : ℕ) : ℝ) * (dists.getD i []).getD j 0).sum /
      (mult.map fun n : ℕ => (n : ℝ)).sum =
      ((List.range dists.length).map fun i => ws.getD i 0 * (dists.getD i []).getD j 0).sum / ws.sum := by
    have e6 : (fun i => ws.getD i 0 * (dists.getD i []).getD j 0) =
        fun i => (1 / (S.motif.length : ℝ)) * (((mult.getD i 0 : ℕ) : ℝ) * (dists.getD i []).getD j 0) := by
      funext i
      rw [hws, getD_map_div]
      ring
    rw [e6, sum_const_mul, hwsum]
    field_simp
  rw [e5, ← sub_div, abs_div, abs_of_pos hwpos, div_le_iff₀ hwpos]
  exact hb

/-- Three points of the line; the first two are mirror images of each other and represented by the first. -/
noncomputable def mirrorSet : PeriodicSet 1 :=
  { motif := [![0], ![20], ![41]].map castPt, cell := fun i => castPt (![![62]] i),
    asymUnit := some [0, 2], multiplicities := some [2, 1] }

/-- **C17** is false with collapsing: three points with nearest neighbour distances 20, 20, 21 and multiplicities 2, 1. `AMD` is
61/3; the PDD collapsed with tolerance 1 gives 41/2. -/
theorem C17_false : ∃ (S : PeriodicSet 1) (p : List (PRow ℝ)), S.multiplicities = some [2, 1] ∧
    AMD S 1 20 = .ok [61 / 3] ∧ PDD S 1 false true 1 20 = .ok p ∧ pddToAmd 1 p = .ok [41 / 2] := by
  have h400 : √(400 : ℝ) = 20 := by
    rw [show (400 : ℝ) = 20 ^ 2 by norm_num]; exact Real.sqrt_sq (by norm_num)
  have h441 : √(441 : ℝ) = 21 := by
    rw [show (441 : ℝ) = 21 ^ 2 by norm_num]; exact Real.sqrt_sq (by norm_num)
  have hn : nearestNeighbors mirrorSet.motif mirrorSet.cell ([![0], ![41]].map castPt) 2 20 =
      .ok [[0, 20], [0, 21]] := by
    have h : nearestNeighborsSq (K := ℤ) nearInt [![0], ![20], ![41]] ![![62]] [![0], ![41]] 2 20 =
      .ok [[0, 400], [0, 441]] := by decide
    have h2 := nearestNeighbors_cast _ _ _ _ _ h
    simp only [List.map_cons, List.map_nil, Int.cast_zero, Real.sqrt_zero, Int.cast_ofNat, h400, h441] at h2
    exact h2
  have hx : asymPoints mirrorSet = .ok ([![0], ![41]].map castPt, [2, 1]) := rfl
  have ha : AMD mirrorSet 1 20 = .ok [61 / 3] := by
    simp only [AMD, hx, bind, Except.bind, hn]
    norm_num [averageColumnsExceptFirst, addRows, bind, Except.bind]
  have hg : rowGroups true (1 : ℝ) [[20], [21]] = [[0, 1]] := by
    have hG := rowGroups_true (1 : ℝ) [[20], [21]]
    have h01 : overlapAt (1 : ℝ) [[20], [21]] 0 1 = true := by norm_num [overlapAt, chebyshev]
    have : ((List.range 2).any fun i => (List.range 2).any fun j => overlapAt (1 : ℝ) [[20], [21]] i j) = true := by
      rw [List.any_eq_true]
      refine ⟨0, by simp, ?_⟩
      rw [List.any_eq_true]
      exact ⟨1, by simp, h01⟩
    have ho : ∀ i < 2, ∀ j < 2, overlapAt (1 : ℝ) [[20], [21]] i j = (i != j) := by
      intro i hi j hj
      interval_cases i <;> interval_cases j <;> norm_num [overlapAt, chebyshev]
    simp only [rowGroups, List.length_cons, List.length_nil, Nat.zero_add, Nat.reduceAdd, this, Bool.true_and, if_true]
    simp [collapseIntoGroups, assignGroups, joinOverlapping, List.range_succ, ho, collectStep, appendTo, Function.update]
  refine ⟨mirrorSet, [⟨1, [41 / 2], [0, 1]⟩], rfl, ha, ?_, ?_⟩
  · simp only [PDD, hx, bind, Except.bind, hn, lexsortRows]
    rw [collapseRows_eq 1 true 1 _ _ (by simp)]
    simp only [List.map_cons, List.map_nil, List.drop_succ_cons, List.drop_zero, hg]
    norm_num [groupRow, meanRows, mirrorSet]
  · norm_num [pddToAmd]

example : ∃ fuel a pdd, AMD exampleAsym 7 fuel = .ok a ∧ PDD exampleAsym 7 true true 0.1 fuel = .ok pdd ∧
    ∀ n ∈ [2], 0 < n := by
  obtain ⟨a, p, F, h⟩ := C10_terminates (S := exampleAsym) (by decide) exampleAsym_units (by decide)
    exampleSet_nonSingular 7 true true 0.1
  exact ⟨F, a, p, (h F le_rfl).1, (h F le_rfl).2, by decide⟩

end Amd
