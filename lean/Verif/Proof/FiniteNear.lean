import Verif.Proof.CollapseEmd
import Verif.Proof.Tolerance
import Verif.Proof.MinvalTerm
import Verif.Props.Finite
import Verif.Spec.FiniteNear

/-! # Lemmas on invariants of finite sets -/

namespace Amd

variable {D E : ℕ}

/-! ### Sorting does not increase differences -/

theorem filter_lt_close {δ v : ℝ} {l l' : List ℝ} (h : List.Forall₂ (fun a b => |a - b| ≤ δ) l l') :
    (l'.filter fun a => decide (a < v)).length ≤ (l.filter fun a => decide (a < v + δ)).length := by
  induction h with
  | nil => simp
  | @cons a b l l' hab _ ih =>
    rw [abs_le] at hab
    by_cases hb : b < v
    · have ha : a < v + δ := by linarith
      simp [hb, ha, ih]
    · by_cases ha : a < v + δ
      · simp [hb, ha]
        omega
      · simp [hb, ha, ih]

theorem sort_close_le {δ : ℝ} {l l' : List ℝ} (h : List.Forall₂ (fun a b => |a - b| ≤ δ) l l') {j : ℕ} (hj : j < l.length) :
    (l.insertionSort (· ≤ ·)).getD j 0 - δ ≤ (l'.insertionSort (· ≤ ·)).getD j 0 := by
  have hl := h.length_eq
  rw [sorted_ge_iff (sorted_insertionSort' _) (by rw [List.length_insertionSort]; omega)]
  have h1 := (sorted_ge_iff (v := (l.insertionSort (· ≤ ·)).getD j 0) (sorted_insertionSort' l) (by rwa [List.length_insertionSort])).1 le_rfl
  have h2 := filter_lt_close (v := (l.insertionSort (· ≤ ·)).getD j 0 - δ) h
  rw [sub_add_cancel] at h2
  rw [((List.perm_insertionSort (· ≤ ·) l').filter _).length_eq]
  rw [((List.perm_insertionSort (· ≤ ·) l).filter _).length_eq] at h1
  exact h2.trans h1

theorem sort_close {δ : ℝ} {l l' : List ℝ} (h : List.Forall₂ (fun a b => |a - b| ≤ δ) l l') {j : ℕ} (hj : j < l.length) :
    |(l.insertionSort (· ≤ ·)).getD j 0 - (l'.insertionSort (· ≤ ·)).getD j 0| ≤ δ := by
  have h1 := sort_close_le h hj
  have h2 := sort_close_le (l := l') (l' := l) (by
    refine List.Forall₂.flip ?_
    exact h.imp fun a b hab => by show |b - a| ≤ δ; rwa [abs_sub_comm]) (j := j) (by rwa [← h.length_eq])
  rw [abs_le]
  constructor <;> linarith

/-! ### Collapsing -/

theorem collapseRows_negative {t : ℝ} (ht : t < 0) (k : ℕ) (t' : ℝ) (dists : List (List ℝ)) (ws : List ℝ) : collapseRows k true t dists ws = collapseRows k false t' dists ws := by
  have hany : ∀ n : ℕ, ((List.range n).any fun _ => (List.range n).any fun _ => false) = false := fun n => by simp
  simp only [collapseRows, overlapAt_negative ht, hany, Bool.and_false, Bool.false_and, Bool.false_eq_true, if_false]

theorem exactEmd_collapseRows {k : ℕ} {dists : List (List ℝ)} {ws : List ℝ} {tol : ℝ} (htol : 0 ≤ tol) (t' : ℝ) (hk : ∀ r ∈ dists, r.length = k)
    (hw : WeightedRows k (collapseRows k true tol dists ws)) (hwb : WeightedRows k (collapseRows k false t' dists ws)) :
    exactEmd chebyshev (collapseRows k false t' dists ws) (collapseRows k true tol dists ws) ≤ 2 * tol := by
  have hG := rowGroups_true tol dists
  have hlt : ∀ g ∈ rowGroups true tol dists, ∀ i ∈ g, i < dists.length := fun g hg i hi => by
    simpa using hG.perm.subset (List.mem_flatten.2 ⟨g, hg, hi⟩)
  have hbw : ∀ i < dists.length, ((collapseRows k false t' dists ws).map fun r => r.weight).getD i 0 = ws.getD i 0 := fun i hi => by
    rw [collapseRows_false, List.map_map, List.getD_eq_getElem _ _ (by simpa using hi), List.getElem_map, List.getElem_range]
    rfl
  have hbd : ∀ i < dists.length, ((collapseRows k false t' dists ws).map fun r => r.dists).getD i [] = dists.getD i [] := fun i hi => by
    rw [collapseRows_false, List.map_map, List.getD_eq_getElem _ _ (by simpa using hi), List.getElem_map, List.getElem_range]
    rfl
  refine exactEmd_merge hwb hw ?_ ?_ ?_
  · rw [collapseRows_eq k true tol _ _ hk, List.map_map, collapseRows_false, List.length_map, List.length_range]
    have e : ((fun r : PRow ℝ => r.group) ∘ groupRow k dists ws) = id := by
      funext g
      rfl
    rw [e, List.map_id]
    exact hG.perm
  · intro r hr
    rw [collapseRows_eq k true tol _ _ hk] at hr
    obtain ⟨g, hg, rfl⟩ := List.mem_map.1 hr
    show (g.map fun i => ws.getD i 0).sum = _
    congr 1
    exact List.map_congr_left fun i hi => (hbw i (hlt g hg i hi)).symm
  · intro r hr i hi
    rw [collapseRows_eq k true tol _ _ hk] at hr
    obtain ⟨g, hg, rfl⟩ := List.mem_map.1 hr
    replace hi : i ∈ g := hi
    have hi' : i < dists.length := hlt g hg i hi
    rw [hbd i hi']
    have hlen : ∀ i < dists.length, (dists.getD i []).length = k := fun i hi => by
      rw [List.getD_eq_getElem _ _ hi]
      exact hk _ (List.getElem_mem _)
    obtain ⟨l, t, e⟩ := List.exists_cons_of_ne_nil (hG.nonempty _ hg)
    have hl' := hlt g hg l (by rw [e]; simp)
    have hcl : ∀ i ∈ g, ∀ j, |(dists.getD l []).getD j 0 - (dists.getD i []).getD j 0| ≤ tol := by
      intro i hi j
      have hi' := hlt g hg i hi
      rw [e] at hi
      rcases List.mem_cons.mp hi with rfl | h'
      · simpa using htol
      · have := hG.within _ hg l (by rw [e]; simp) i (by rw [e]; simpa using h')
        exact ((overlapAt_iff hk hl' hi').1 this).2 j
    show chebyshev _ (meanRows k (g.map fun i => dists.getD i [])) ≤ _
    refine (chebyshev_le_iff (by rw [hlen i hi', length_meanRows])).2 ⟨by linarith, fun j hj => ?_⟩
    rw [hlen i hi'] at hj
    rw [meanRows_getD _ _ hj, List.map_map, List.length_map]
    have h1 := mean_close (List.ne_nil_of_mem hi) (fun i => (dists.getD i []).getD j 0) (x := (dists.getD l []).getD j 0)
      fun i hi => by rw [abs_sub_comm]; exact hcl i hi j
    have h2 := hcl i hi j
    change |(dists.getD i []).getD j 0 - (g.map fun i => (dists.getD i []).getD j 0).sum / (g.length : ℝ)| ≤ _
    rw [abs_le] at *
    constructor <;> linarith [h1.1, h1.2, h2.1, h2.2]

/-! ### Finite sets -/

theorem WeightedRows.perm {k : ℕ} {p q : List (PRow ℝ)} (h : WeightedRows k p) (hpq : q.Perm p) : WeightedRows k q := by
  refine ⟨fun e => h.nonempty (by rw [e] at hpq; exact hpq.symm.eq_nil), fun r hr => h.width r (hpq.subset hr), fun r hr => h.weights r (hpq.subset hr), ?_⟩
  rw [(hpq.map _).sum_eq]
  exact h.total

theorem finiteRows_weighted {pts : List (Pt D ℝ)} (hne : pts.length ≠ 0) (hl : pts.length ≤ 100000000) (collapse : Bool) (tol : ℝ) :
    WeightedRows (pts.length - 1) (collapseRows (pts.length - 1) collapse tol (finiteDists pts) (List.replicate pts.length (1 / (pts.length : ℝ)))) := by
  have hm : (0 : ℝ) < pts.length := by exact_mod_cast Nat.pos_of_ne_zero hne
  have hm' : (pts.length : ℝ) ≤ 100000000 := by exact_mod_cast hl
  have hk := finiteDists_width (pts := pts)
  have ht := collapse_weight_sum (pts.length - 1) collapse tol (finiteDists pts) (List.replicate pts.length (1 / (pts.length : ℝ))) hk (by rw [List.length_replicate, length_finiteDists])
  rw [List.sum_replicate, nsmul_eq_mul, mul_one_div_cancel hm.ne'] at ht
  refine ⟨fun h0 => ?_, fun r hr => ?_, fun r hr => ?_, ht⟩
  · rw [h0] at ht
    simp at ht
  · rw [collapseRows_eq _ collapse tol _ _ hk] at hr
    obtain ⟨g, hg, rfl⟩ := List.mem_map.1 hr
    exact length_meanRows _ _
  · rw [collapseRows_eq _ collapse tol _ _ hk] at hr
    obtain ⟨g, hg, rfl⟩ := List.mem_map.1 hr
    have hgn := List.length_pos_iff.2 (rowGroups_nonempty collapse tol _ g hg)
    have hg1 : (1 : ℝ) ≤ g.length := by exact_mod_cast hgn
    have e : (groupRow (pts.length - 1) (finiteDists pts) (List.replicate pts.length (1 / (pts.length : ℝ))) g).weight = (g.length : ℝ) * (1 / (pts.length : ℝ)) := by
      show (g.map fun i => (List.replicate pts.length (1 / (pts.length : ℝ))).getD i 0).sum = _
      rw [List.map_congr_left (g := fun _ => 1 / (pts.length : ℝ)) fun i hi => ?_]
      · simp
      · have := rowGroups_lt hg hi
        rw [length_finiteDists] at this
        rw [List.getD_eq_getElem _ _ (by simpa using this)]
        simp
    rw [e]
    calc (1 : ℝ) / 100000000 ≤ 1 / pts.length := one_div_le_one_div_of_le hm hm'
      _ ≤ g.length * (1 / pts.length) := le_mul_of_one_le_left (by positivity) hg1

theorem PDDFinite_eq {pts : List (Pt D ℝ)} {lexsort collapse : Bool} {tol : ℝ} {p : List (PRow ℝ)} (h : PDDFinite pts lexsort collapse tol = .ok p) : pts.length ≠ 0 ∧
    p = lexsortRows lexsort (collapseRows (pts.length - 1) collapse tol (finiteDists pts) (List.replicate pts.length (1 / (pts.length : ℝ)))) := by
  unfold PDDFinite at h
  split_ifs at h with h0
  injection h with h
  exact ⟨h0, h.symm⟩

theorem PDDFinite_weighted {pts : List (Pt D ℝ)} (hl : pts.length ≤ 100000000) {lexsort collapse : Bool} {tol : ℝ} {p : List (PRow ℝ)} (h : PDDFinite pts lexsort collapse tol = .ok p) :
    WeightedRows (pts.length - 1) p := by
  obtain ⟨h0, rfl⟩ := PDDFinite_eq h
  exact (finiteRows_weighted h0 hl collapse tol).perm (lexsortRows_perm _ _)

/-- The rows without collapsing and sorting. -/
noncomputable def finiteBase (pts : List (Pt D ℝ)) : List (PRow ℝ) :=
  collapseRows (pts.length - 1) false 0 (finiteDists pts) (List.replicate pts.length (1 / (pts.length : ℝ)))

theorem finiteBase_near {pts : List (Pt D ℝ)} (hl : pts.length ≤ 100000000) {lexsort collapse : Bool} {tol : ℝ} {p : List (PRow ℝ)} (h : PDDFinite pts lexsort collapse tol = .ok p) :
    WeightedRows (pts.length - 1) (finiteBase pts) ∧ exactEmd chebyshev (finiteBase pts) p ≤ if collapse then 2 * max tol 0 else 0 := by
  have hw := PDDFinite_weighted hl h
  obtain ⟨h0, rfl⟩ := PDDFinite_eq h
  have met := chebyshev_metric (pts.length - 1)
  have hwb := finiteRows_weighted h0 hl false 0
  refine ⟨hwb, ?_⟩
  have hwc := finiteRows_weighted h0 hl collapse tol
  unfold finiteBase
  rw [exactEmd_symm met hw hwb, exactEmd_perm met hw hwc hwb (lexsortRows_perm _ _), exactEmd_symm met hwb hwc]
  have plain : exactEmd chebyshev (finiteBase pts) (finiteBase pts) ≤ 0 := (exactEmd_zero met hwb hwb fun _ => rfl).le
  cases collapse with
  | false =>
    have e : collapseRows (pts.length - 1) false tol (finiteDists pts) (List.replicate pts.length (1 / (pts.length : ℝ))) = finiteBase pts := by
      rw [finiteBase, collapseRows_false, collapseRows_false]
    rw [e, if_neg Bool.false_ne_true]
    exact plain
  | true =>
    rw [if_pos rfl]
    rcases lt_or_ge tol 0 with ht | ht
    · rw [collapseRows_negative ht _ 0, max_eq_right ht.le, mul_zero]
      exact plain
    · rw [max_eq_left ht]
      exact exactEmd_collapseRows ht 0 finiteDists_width hwc hwb

theorem finiteDists_close {δ : ℝ} {pts : List (Pt D ℝ)} {pts' : List (Pt E ℝ)} (h : DistancesWithin δ pts pts') {i : ℕ} (hi : i < pts.length) {j : ℕ} (hj : j < pts.length - 1) :
    |((finiteDists pts).getD i []).getD j 0 - ((finiteDists pts').getD i []).getD j 0| ≤ δ := by
  obtain ⟨hl, hd⟩ := h
  have hi' : i < pts'.length := by rwa [hl]
  have row : ∀ {D : ℕ} (q : List (Pt D ℝ)) (hi : i < q.length), (finiteDists q).getD i [] = ((q.map (eucl q[i])).insertionSort (· ≤ ·)).drop 1 := by
    intro D q hi
    rw [finiteDists_eq, List.getD_eq_getElem _ _ (by simpa using hi), List.getElem_map]
  have drop : ∀ l : List ℝ, (l.drop 1).getD j 0 = l.getD (j + 1) 0 := by
    intro l
    rw [List.getD_eq_getElem?_getD, List.getD_eq_getElem?_getD, List.getElem?_drop, Nat.add_comm]
  rw [row pts hi, row pts' hi', drop, drop]
  refine sort_close (List.forall₂_iff_get.2 ⟨by simp [hl], fun m h1 h2 => ?_⟩) (by rw [List.length_map]; omega)
  simp only [List.get_eq_getElem, List.getElem_map]
  exact hd i m hi (by simpa using h1) hi' (by simpa using h2)

theorem finiteBase_close {δ : ℝ} (hδ : 0 ≤ δ) {pts : List (Pt D ℝ)} {pts' : List (Pt E ℝ)} (h : DistancesWithin δ pts pts') (hb : WeightedRows (pts.length - 1) (finiteBase pts))
    (hb' : WeightedRows (pts.length - 1) (finiteBase pts')) : exactEmd chebyshev (finiteBase pts) (finiteBase pts') ≤ δ := by
  have hl := h.1
  have e : finiteBase pts' = (List.range pts.length).map fun i => { weight := 1 / (pts.length : ℝ), dists := (finiteDists pts').getD i [], group := [i] } := by
    rw [finiteBase, collapseRows_false, length_finiteDists, hl]
    refine List.map_congr_left fun i hi => ?_
    rw [List.getD_eq_getElem _ _ (by simpa using hi)]
    simp
  have e' : finiteBase pts = (List.range pts.length).map fun i => { weight := 1 / (pts.length : ℝ), dists := (finiteDists pts).getD i [], group := [i] } := by
    rw [finiteBase, collapseRows_false, length_finiteDists]
    refine List.map_congr_left fun i hi => ?_
    rw [List.getD_eq_getElem _ _ (by simpa using hi)]
    simp
  refine exactEmd_merge hb hb' ?_ ?_ ?_
  · rw [e, e', List.map_map, List.length_map, List.length_range]
    have : ((List.range pts.length).map ((fun r : PRow ℝ => r.group) ∘ fun i => { weight := 1 / (pts.length : ℝ), dists := (finiteDists pts').getD i [], group := [i] })).flatten = List.range pts.length := by
      rw [← List.flatMap_def]
      simp [Function.comp_def, List.flatMap_singleton']
    rw [this]
  · rw [e, e']
    intro r hr
    obtain ⟨i, hi, rfl⟩ := List.mem_map.1 hr
    have hi' := List.mem_range.1 hi
    rw [List.map_map]
    simp only [List.map_cons, List.map_nil, List.sum_cons, List.sum_nil, add_zero]
    rw [List.getD_eq_getElem _ _ (by simpa using hi'), List.getElem_map]
    rfl
  · rw [e, e']
    intro r hr m hm
    obtain ⟨i, hi, rfl⟩ := List.mem_map.1 hr
    have hi' := List.mem_range.1 hi
    obtain rfl : m = i := by simpa using hm
    rw [List.map_map, List.getD_eq_getElem _ _ (by simpa using hi'), List.getElem_map, List.getElem_range]
    simp only [Function.comp]
    have len : ∀ {D : ℕ} (q : List (Pt D ℝ)), m < q.length → ((finiteDists q).getD m []).length = q.length - 1 := by
      intro D q hq
      rw [List.getD_eq_getElem _ _ (by rwa [length_finiteDists])]
      exact finiteDists_width _ (List.getElem_mem _)
    have l1 := len pts hi'
    have l2 := len pts' (by rwa [hl])
    rw [hl] at l2
    refine (chebyshev_le_iff (l1.trans l2.symm)).2 ⟨hδ, fun j hj => ?_⟩
    exact finiteDists_close h hi' (by omega)

theorem finiteBase_perm {pts pts' : List (Pt D ℝ)} (h : pts.Perm pts') (x : List ℝ) : weightAt (finiteBase pts) x = weightAt (finiteBase pts') x := by
  classical
  have e : ∀ q : List (Pt D ℝ), weightAt (finiteBase q) x = (((finiteDists q).filter fun r => r = x).map fun _ => 1 / (q.length : ℝ)).sum := by
    intro q
    have e1 : finiteBase q = (List.range (finiteDists q).length).map fun i => { weight := 1 / (q.length : ℝ), dists := (finiteDists q).getD i [], group := [i] } := by
      rw [finiteBase, collapseRows_false]
      refine List.map_congr_left fun i hi => ?_
      rw [List.getD_eq_getElem _ _ (by simpa [length_finiteDists] using hi)]
      simp
    conv_rhs => rw [← map_getD_range (finiteDists q) []]
    unfold weightAt
    rw [e1, List.filter_map, List.filter_map, List.map_map, List.map_map]
    congr 2
  rw [e, e, h.length_eq]
  exact (((finiteDists_perm h).filter _).map _).sum_eq

end Amd
