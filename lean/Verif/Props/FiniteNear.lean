import Verif.Proof.FiniteNear
import Verif.Proof.Equivariance
import Verif.Props.EMD
import Verif.Props.Isometry

/-!
# C108: invariants of finite sets are continuous, scale, and fit together
-/

namespace Amd

variable {D E : ℕ} {δ : ℝ} {pts : List (Pt D ℝ)} {pts' pts'' : List (Pt E ℝ)}

/-- **C108** Points that are moved by at most `ε` keep their distances up to `2 ε`. -/
theorem C108_moved {ε : ℝ} {pts pts' : List (Pt D ℝ)} (hl : pts'.length = pts.length) (h : ∀ (i : ℕ) (hi : i < pts.length) (hi' : i < pts'.length), eucl pts[i] pts'[i] ≤ ε) :
    DistancesWithin (2 * ε) pts pts' := by
  refine ⟨hl, fun i j hi hj hi' hj' => ?_⟩
  have h1 := h i hi hi'
  have h2 := h j hj hj'
  have t1 := eucl_triangle pts[i] pts'[i] pts[j]
  have t2 := eucl_triangle pts'[i] pts'[j] pts[j]
  have t3 := eucl_triangle pts'[i] pts[i] pts'[j]
  have t4 := eucl_triangle pts[i] pts[j] pts'[j]
  have s1 := eucl_comm pts[i] pts'[i]
  have s2 := eucl_comm pts[j] pts'[j]
  rw [abs_le]
  constructor <;> linarith

/-- **C108** If distances change by at most `δ`, entries of `AMD_finite` change by at most `δ`. The points may be listed in another order. -/
theorem C108_amd (h : DistancesWithin δ pts pts'') (hp : pts''.Perm pts') {a a' : List ℝ} (ha : AMDFinite pts = .ok a) (ha' : AMDFinite pts' = .ok a') :
    a'.length = a.length ∧ ∀ j < a.length, |a.getD j 0 - a'.getD j 0| ≤ δ := by
  rw [← C20_amd_finite_perm hp] at ha'
  have hl := h.1
  have hne : pts ≠ [] := by
    rintro rfl
    simp [AMDFinite] at ha
  have hm : (0 : ℝ) < pts.length := by exact_mod_cast List.length_pos_iff.2 hne
  have e : AMDFinite pts = .ok (meanRows (pts.length - 1) (finiteDists pts)) := by
    rw [AMDFinite, if_neg (by simpa using hne)]
  have e' : AMDFinite pts'' = .ok (meanRows (pts.length - 1) (finiteDists pts'')) := by
    rw [AMDFinite, hl, if_neg (by simpa using hne)]
  rw [e] at ha
  rw [e'] at ha'
  obtain rfl := Except.ok.inj ha
  obtain rfl := Except.ok.inj ha'
  rw [length_meanRows, length_meanRows]
  refine ⟨rfl, fun j hj => ?_⟩
  rw [meanRows_getD _ _ hj, meanRows_getD _ _ hj, length_finiteDists, length_finiteDists, hl, ← sub_div, abs_div, abs_of_pos hm, div_le_iff₀ hm]
  have c1 : (finiteDists pts).map (fun r => r.getD j 0) = (List.range pts.length).map fun i => ((finiteDists pts).getD i []).getD j 0 := by
    have := congrArg (List.map fun r : List ℝ => r.getD j 0) (map_getD_range (finiteDists pts) [])
    rw [List.map_map, length_finiteDists] at this
    exact this.symm
  have c2 : (finiteDists pts'').map (fun r => r.getD j 0) = (List.range pts.length).map fun i => ((finiteDists pts'').getD i []).getD j 0 := by
    have := congrArg (List.map fun r : List ℝ => r.getD j 0) (map_getD_range (finiteDists pts'') [])
    rw [List.map_map, length_finiteDists, hl] at this
    exact this.symm
  rw [c1, c2, list_sum_sub]
  refine list_abs_sum_le.trans ((list_sum_le (g := fun _ => δ) fun i hi => finiteDists_close h (List.mem_range.1 hi) hj).trans ?_)
  simp [mul_comm]

/-- **C108** If distances change by at most `δ`, `PDD_finite` moves by at most `δ` in `EMD`, up to collapsing and the rounding of weights. -/
theorem C108_emd (hδ : 0 ≤ δ) (h : DistancesWithin δ pts pts'') (hp : pts''.Perm pts') (hl : pts.length ≤ 100000000) {lexsort lexsort' collapse collapse' : Bool} {tol tol' : ℝ}
    {p p' : List (PRow ℝ)} (h1 : PDDFinite pts lexsort collapse tol = .ok p) (h2 : PDDFinite pts' lexsort' collapse' tol' = .ok p') {C : ℝ}
    (hC : ∀ r ∈ p, ∀ s ∈ p', chebyshev r.dists s.dists ≤ C) {fuel : ℕ} {d : ℝ} {plan : List (List ℝ)} (hd : emd chebyshev p p' fuel = .ok (d, plan)) :
    0 ≤ d ∧ d ≤ δ + (if collapse then 2 * max tol 0 else 0) + (if collapse' then 2 * max tol' 0 else 0) + emdTol (max p.length p'.length) C := by
  have hl'' : pts''.length ≤ 100000000 := h.1.trans_le hl
  have hl' : pts'.length ≤ 100000000 := hp.length_eq.symm.trans_le hl''
  have k2 : pts'.length - 1 = pts.length - 1 := by rw [← hp.length_eq, h.1]
  have w1 := PDDFinite_weighted hl h1
  have w2 := PDDFinite_weighted hl' h2
  obtain ⟨b1, n1⟩ := finiteBase_near hl h1
  obtain ⟨b2, n2⟩ := finiteBase_near hl' h2
  rw [k2] at w2 b2
  have met := EMD_default_metric (pts.length - 1)
  have b3 : WeightedRows (pts.length - 1) (finiteBase pts'') := by
    have := finiteRows_weighted (pts := pts'') (by rw [hp.length_eq]; exact (PDDFinite_eq h2).1) hl'' false 0
    rwa [show pts''.length - 1 = pts.length - 1 by rw [h.1]] at this
  refine ⟨C29_nonneg w1 w2 met.nonneg hd, ?_⟩
  have t1 := exactEmd_triangle met w1 b1 w2
  have t2 := exactEmd_triangle met b1 b3 w2
  have t3 := exactEmd_triangle met b3 b2 w2
  have z := exactEmd_zero met b3 b2 (finiteBase_perm hp)
  have c := finiteBase_close hδ h b1 b3
  have s := exactEmd_symm met b1 w1
  have near := (abs_le.1 (emd_near w1 w2 met.nonneg hC hd)).2
  linarith

theorem finiteDists_scale {c : ℝ} (hc : 0 < c) (pts : List (Pt D ℝ)) : finiteDists (pts.map fun p => c • p) = (finiteDists pts).map fun r => r.map (c * ·) := by
  have he : ∀ p q : Pt D ℝ, eucl (c • p) (c • q) = c * eucl p q := by
    intro p q
    unfold eucl
    rw [show sqDist (c • p) (c • q) = c ^ 2 * sqDist p q from ?_, Real.sqrt_mul (by positivity), Real.sqrt_sq hc.le]
    unfold sqDist
    rw [Finset.mul_sum]
    refine Finset.sum_congr rfl fun i _ => ?_
    simp only [Pi.smul_apply, smul_eq_mul]
    ring
  rw [finiteDists_eq, finiteDists_eq, List.map_map, List.map_map]
  refine List.map_congr_left fun p _ => ?_
  simp only [Function.comp_def, List.map_map, he]
  rw [List.map_drop, ← insertionSort_congr_map (c * ·) (· ≤ ·) (· ≤ ·) fun a b => mul_le_mul_iff_right₀ hc, List.map_map]
  rfl

/-- **C108** Scaling the points by `c > 0` multiplies `AMD_finite` by `c`. -/
theorem C108_amd_scaling {c : ℝ} (hc : 0 < c) (pts : List (Pt D ℝ)) : AMDFinite (pts.map fun p => c • p) = (AMDFinite pts).map fun a => a.map fun t : ℝ => c * t := by
  unfold AMDFinite
  rw [List.length_map, finiteDists_scale hc]
  split_ifs
  · rfl
  · exact congrArg Except.ok (meanRows_scale c _ _)

/-- **C108** The same for `PDD_finite`, if the tolerance is scaled too. -/
theorem C108_pdd_scaling {c : ℝ} (hc : 0 < c) (pts : List (Pt D ℝ)) (lexsort collapse : Bool) (tol : ℝ) : PDDFinite (pts.map fun p => c • p) lexsort collapse (c * tol) =
    (PDDFinite pts lexsort collapse tol).map fun a => a.map fun r : PRow ℝ => { weight := r.weight, dists := r.dists.map fun t : ℝ => c * t, group := r.group } := by
  unfold PDDFinite
  rw [List.length_map, finiteDists_scale hc]
  split_ifs
  · rfl
  · exact congrArg Except.ok (by rw [collapseRows_scale hc, lexsortRows_scale hc]; rfl)

/-- **C108** `PDD_to_AMD` of `PDD_finite` is `AMD_finite`, with and without collapsing. -/
theorem C108_mean {lexsort collapse : Bool} {tol : ℝ} {a : List ℝ} {p : List (PRow ℝ)} (ha : AMDFinite pts = .ok a) (hp : PDDFinite pts lexsort collapse tol = .ok p) :
    pddToAmd (pts.length - 1) p = .ok a := by
  obtain ⟨h0, rfl⟩ := PDDFinite_eq hp
  have hm : (0 : ℝ) < pts.length := by exact_mod_cast Nat.pos_of_ne_zero h0
  rw [AMDFinite, if_neg h0] at ha
  obtain rfl := Except.ok.inj ha
  have hk := finiteDists_width (pts := pts)
  have hperm := lexsortRows_perm lexsort (collapseRows (pts.length - 1) collapse tol (finiteDists pts) (List.replicate pts.length (1 / (pts.length : ℝ))))
  have hw := collapse_weight_sum (pts.length - 1) collapse tol (finiteDists pts) (List.replicate pts.length (1 / (pts.length : ℝ))) hk (by rw [List.length_replicate, length_finiteDists])
  rw [List.sum_replicate, nsmul_eq_mul, mul_one_div_cancel hm.ne', ← (hperm.map _).sum_eq] at hw
  unfold pddToAmd
  rw [hw, if_neg one_ne_zero]
  congr 1
  unfold meanRows
  refine List.map_congr_left fun j hj => ?_
  have hc := collapse_column_sum_const (pts.length - 1) collapse tol (finiteDists pts) (1 / (pts.length : ℝ)) hk (List.mem_range.1 hj)
  have hr := congrArg (List.map fun r : List ℝ => r.getD j 0) (map_getD_range (finiteDists pts) [])
  rw [List.map_map] at hr
  rw [length_finiteDists] at hc
  rw [(hperm.map _).sum_eq, hc, sum_const_mul, ← hr, length_finiteDists, div_one]
  simp only [Function.comp_def]
  ring

/-- **C108** The distance of two finite sets by AMD is at most the one by PDD, up to the rounding of weights. -/
theorem C108_lower (hl : pts.length ≤ 100000000) (hll : pts'.length = pts.length) {lexsort lexsort' collapse collapse' : Bool} {tol tol' : ℝ} {a a' : List ℝ} {p p' : List (PRow ℝ)}
    (ha : AMDFinite pts = .ok a) (ha' : AMDFinite pts' = .ok a') (h1 : PDDFinite pts lexsort collapse tol = .ok p) (h2 : PDDFinite pts' lexsort' collapse' tol' = .ok p') {C : ℝ}
    (hC : ∀ r ∈ p, ∀ s ∈ p', chebyshev r.dists s.dists ≤ C) {fuel : ℕ} {d : ℝ} {plan : List (List ℝ)} (hd : emd chebyshev p p' fuel = .ok (d, plan)) :
    chebyshev a a' ≤ d + emdTol (max p.length p'.length) C := by
  have w1 := PDDFinite_weighted hl h1
  have w2 := PDDFinite_weighted (hll.trans_le hl) h2
  have m2 := C108_mean ha' h2
  rw [hll] at w2 m2
  exact C32_amd_lower_bound w1 w2 hC (C108_mean ha h1) m2 hd

/-- **C108** For one to `1e8` points everything above is returned: the invariants, and the distance of two sets of equally many points. -/
theorem C108_returns (h0 : pts ≠ []) (hl : pts.length ≤ 100000000) (hll : pts'.length = pts.length) (lexsort lexsort' collapse collapse' : Bool) (tol tol' : ℝ) :
    ∃ a a' p p', AMDFinite pts = .ok a ∧ AMDFinite pts' = .ok a' ∧ PDDFinite pts lexsort collapse tol = .ok p ∧ PDDFinite pts' lexsort' collapse' tol' = .ok p' ∧
      ∃ F, ∀ fuel ≥ F, ∃ d plan, emd chebyshev p p' fuel = .ok (d, plan) := by
  have n0 : pts.length ≠ 0 := by simpa using h0
  have n0' : pts'.length ≠ 0 := by rwa [hll]
  have h1 : ∀ (l c : Bool) (t : ℝ), ∃ p, PDDFinite pts l c t = .ok p := fun l c t => ⟨_, by rw [PDDFinite, if_neg n0]⟩
  have h2 : ∀ (l c : Bool) (t : ℝ), ∃ p, PDDFinite pts' l c t = .ok p := fun l c t => ⟨_, by rw [PDDFinite, if_neg n0']⟩
  obtain ⟨p, hp⟩ := h1 lexsort collapse tol
  obtain ⟨p', hp'⟩ := h2 lexsort' collapse' tol'
  have w1 := PDDFinite_weighted hl hp
  have w2 := PDDFinite_weighted (hll.trans_le hl) hp'
  rw [hll] at w2
  obtain ⟨F, hF⟩ := C33_terminates w1 w2 (EMD_default_metric _).nonneg
  refine ⟨_, _, p, p', by rw [AMDFinite, if_neg n0], by rw [AMDFinite, if_neg n0'], hp, hp', F, fun fuel hf => ?_⟩
  obtain ⟨⟨d, plan⟩, h⟩ := hF fuel hf
  exact ⟨d, plan, h⟩

/-! ### Examples -/

/-- A trapezium. -/
def trapeziumPts : List (Pt 2 ℝ) := [![0, 0], ![1, 1], ![3, 1], ![4, 0]]

/-- The trapezium with its last point moved by `1/10`, listed backwards. -/
noncomputable def trapeziumMoved : List (Pt 2 ℝ) := [![41 / 10, 0], ![3, 1], ![1, 1], ![0, 0]]

theorem trapezium_within : DistancesWithin (2 * (1 / 10)) trapeziumPts ([![0, 0], ![1, 1], ![3, 1], ![41 / 10, 0]] : List (Pt 2 ℝ)) := by
  have self : ∀ p : Pt 2 ℝ, eucl p p ≤ 1 / 10 := fun p => by simp [eucl, sqDist]
  have last : eucl (![4, 0] : Pt 2 ℝ) ![41 / 10, 0] ≤ 1 / 10 := by
    simp only [eucl, sqDist, Fin.sum_univ_two, Matrix.cons_val_zero, Matrix.cons_val_one]
    rw [Real.sqrt_le_left (by norm_num)]
    norm_num
  refine C108_moved rfl fun i hi hi' => ?_
  have hi4 : i < 4 := hi
  interval_cases i
  · exact self ![0, 0]
  · exact self ![1, 1]
  · exact self ![3, 1]
  · exact last

/-- The theorems together, with the rows of the first set merged and those of the second not. -/
example : ∃ a a' p p' C d, AMDFinite trapeziumPts = .ok a ∧ AMDFinite trapeziumMoved = .ok a' ∧ PDDFinite trapeziumPts true true (1 / 10000) = .ok p ∧
    PDDFinite trapeziumMoved false false 0 = .ok p' ∧ (∃ fuel plan, emd chebyshev p p' fuel = .ok (d, plan)) ∧ (∀ j < a.length, |a.getD j 0 - a'.getD j 0| ≤ 2 * (1 / 10)) ∧
    d ≤ 2 * (1 / 10) + 2 * (1 / 10000) + 0 + emdTol (max p.length p'.length) C ∧ pddToAmd 3 p = .ok a ∧ chebyshev a a' ≤ d + emdTol (max p.length p'.length) C := by
  obtain ⟨a, a', p, p', h1, h2, h3, h4, F, hF⟩ := C108_returns (pts := trapeziumPts) (pts' := trapeziumMoved) (by simp [trapeziumPts]) (by simp [trapeziumPts]) rfl true false true false (1 / 10000) 0
  obtain ⟨d, plan, hd⟩ := hF F le_rfl
  obtain ⟨C, -, hC⟩ := exists_dist_bound p p' chebyshev
  have perm : ([![0, 0], ![1, 1], ![3, 1], ![41 / 10, 0]] : List (Pt 2 ℝ)).Perm trapeziumMoved := (List.reverse_perm [![0, 0], ![1, 1], ![3, 1], ![41 / 10, 0]]).symm
  have he := (C108_emd (by norm_num) trapezium_within perm (by simp [trapeziumPts]) h3 h4 hC hd).2
  rw [if_pos rfl, if_neg (by decide), max_eq_left (by norm_num)] at he
  exact ⟨a, a', p, p', C, d, h1, h2, h3, h4, ⟨F, plan, hd⟩, (C108_amd trapezium_within perm h1 h2).2, he, C108_mean h1 h3, C108_lower (by simp [trapeziumPts]) (show trapeziumMoved.length = trapeziumPts.length from rfl) h1 h2 h3 h4 hC hd⟩

/-- Two points of the plane and two of the line. -/
example : DistancesWithin (1 / 2) ([![0, 0], ![3, 4]] : List (Pt 2 ℝ)) ([![1], ![13 / 2]] : List (Pt 1 ℝ)) := by
  have e : (√25 : ℝ) = 5 := by rw [show (25 : ℝ) = 5 ^ 2 by norm_num]; exact Real.sqrt_sq (by norm_num)
  have e' : (√(121 / 4) : ℝ) = 11 / 2 := by rw [show (121 / 4 : ℝ) = (11 / 2) ^ 2 by norm_num]; exact Real.sqrt_sq (by norm_num)
  refine ⟨rfl, fun i j hi hj hi' hj' => ?_⟩
  have hi2 : i < 2 := hi
  have hj2 : j < 2 := hj
  interval_cases i <;> interval_cases j <;>
    simp only [eucl, sqDist, Fin.sum_univ_two, Fin.sum_univ_one, List.getElem_cons_succ, List.getElem_cons_zero, Matrix.cons_val_zero, Matrix.cons_val_one] <;> norm_num [e, e']

/-- Two points at distance 1, scaled by 3: the only entry of `AMD_finite` becomes 3. -/
example : ∃ a, AMDFinite ([![0], ![1]] : List (Pt 1 ℝ)) = .ok a ∧ AMDFinite ([![0], ![3]] : List (Pt 1 ℝ)) = .ok (a.map fun t : ℝ => 3 * t) := by
  refine ⟨_, by rw [AMDFinite, if_neg (by simp)], ?_⟩
  have h := C108_amd_scaling (c := 3) (by norm_num) ([![0], ![1]] : List (Pt 1 ℝ))
  have e : ([![0], ![1]] : List (Pt 1 ℝ)).map (fun p => (3 : ℝ) • p) = [![0], ![3]] := by simp
  rw [e] at h
  rw [h, AMDFinite, if_neg (by simp)]
  rfl

end Amd
