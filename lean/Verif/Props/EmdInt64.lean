import Verif.Proof.EmdInt64Real
import Verif.Props.EMD
import Verif.Props.RoundingEmd

/-!
# C84: `EMD` with integers of the machine

The code multiplies weights and distances by `1e8`, truncates them to `int64` and adds, subtracts and multiplies the results without checking for overflow. `emd64 bad` is `EMD` with such
integers and exact real numbers, `emdR64 fl bad dot` has rounded operations as well. `bad x` is what the conversion of a number outside the range of `int64` gives, which depends on the
platform: the theorems hold for all `bad`. The condition for no overflow is on the sum of the distances between all rows of one PDD and all rows of the other.
-/

namespace Amd

variable {D k : ℕ} {p q : List (PRow ℝ)} {δ : List ℝ → List ℝ → ℝ} {C : ℝ}

/-- **C84** (partial) No overflow matters: `EMD` with `int64` returns what it returns with unbounded integers if the distances between all rows of `p` and all rows of `q` sum to at most
`1e10`. Missing: larger distances, for which it is false. -/
theorem C84_no_overflow_partial (hp : WeightedRows k p) (hq : WeightedRows k q) (hδ : ∀ r s, r.length = k → s.length = k → 0 ≤ δ r s)
    (hsum : (p.map fun r => (q.map fun s => δ r.dists s.dists).sum).sum ≤ 10 ^ 10) (bad : ℝ → ℤ) (fuel : ℕ) : emd64 bad δ p q fuel = emd δ p q fuel :=
  emd64_eq hp hq hδ hsum bad fuel

/-- **C84** (partial) With `int64`, `EMD` returns after finitely many pivots. -/
theorem C84_terminates_partial (hp : WeightedRows k p) (hq : WeightedRows k q) (hδ : ∀ r s, r.length = k → s.length = k → 0 ≤ δ r s)
    (hsum : (p.map fun r => (q.map fun s => δ r.dists s.dists).sum).sum ≤ 10 ^ 10) (bad : ℝ → ℤ) : ∃ steps, ∀ fuel ≥ steps, ∃ res, emd64 bad δ p q fuel = .ok res := by
  obtain ⟨n, h⟩ := C33_terminates hp hq hδ
  refine ⟨n, fun fuel hf => ?_⟩
  rw [C84_no_overflow_partial hp hq hδ hsum]
  exact h fuel hf

/-- The distances between all rows sum to at most their number times the largest. -/
theorem sum_rows_le (hC : ∀ r ∈ p, ∀ s ∈ q, δ r.dists s.dists ≤ C) : (p.map fun r => (q.map fun s => δ r.dists s.dists).sum).sum ≤ p.length * q.length * C := by
  have h1 : ∀ r ∈ p, (q.map fun s => δ r.dists s.dists).sum ≤ q.length * C := by
    intro r hr
    have := List.sum_le_card_nsmul (q.map fun s => δ r.dists s.dists) C (by
      intro x hx
      obtain ⟨s, hs, rfl⟩ := List.mem_map.1 hx
      exact hC r hr s hs)
    simpa using this
  have := List.sum_le_card_nsmul (p.map fun r => (q.map fun s => δ r.dists s.dists).sum) (q.length * C) (by
    intro x hx
    obtain ⟨r, hr, rfl⟩ := List.mem_map.1 hx
    exact h1 r hr)
  simpa [mul_assoc] using this

/-- **C84** (partial) With `int64`, the returned distance is the least cost of a transport plan between the weights, up to the error of working with multiples of `1e-8`. -/
theorem C84_optimal_partial (hp : WeightedRows k p) (hq : WeightedRows k q) (hδ : ∀ r s, r.length = k → s.length = k → 0 ≤ δ r s)
    (hC : ∀ r ∈ p, ∀ s ∈ q, δ r.dists s.dists ≤ C) (hsum : p.length * q.length * C ≤ 10 ^ 10) (bad : ℝ → ℤ) {fuel : ℕ} {d : ℝ} {plan : List (List ℝ)}
    (h : emd64 bad δ p q fuel = .ok (d, plan)) : |d - exactEmd δ p q| ≤ emdTol (max p.length q.length) C := by
  rw [C84_no_overflow_partial hp hq hδ] at h
  · exact C28_optimal hp hq hδ hC h
  · exact (sum_rows_le hC).trans hsum

/-- The hypotheses are met. -/
example : (pddA.map fun r => (pddB.map fun s => chebyshev r.dists s.dists).sum).sum ≤ 10 ^ 10 ∧ (∀ r ∈ pddA, ∀ s ∈ pddB, chebyshev r.dists s.dists ≤ 3) ∧
    (pddA.length * pddB.length * (3 : ℝ)) ≤ 10 ^ 10 := by
  refine ⟨by norm_num [pddA, pddB, chebyshev], ?_, by norm_num [pddA, pddB]⟩
  intro r hr s hs
  simp only [pddA, pddB, List.mem_cons, List.not_mem_nil, or_false] at hr hs
  rcases hr with rfl | rfl <;> rcases hs with rfl | rfl | rfl <;> norm_num [chebyshev]

example : ∃ fuel d plan, emd64 (fun _ => 0) chebyshev pddA pddB fuel = .ok (d, plan) ∧ |d - exactEmd chebyshev pddA pddB| < 1 / 1000000 := by
  have hC : ∀ r ∈ pddA, ∀ s ∈ pddB, chebyshev r.dists s.dists ≤ 3 := by
    intro r hr s hs
    simp only [pddA, pddB, List.mem_cons, List.not_mem_nil, or_false] at hr hs
    rcases hr with rfl | rfl <;> rcases hs with rfl | rfl | rfl <;> norm_num [chebyshev]
  obtain ⟨n, hn⟩ := C84_terminates_partial pddA_weighted pddB_weighted (EMD_default_metric 2).nonneg (by norm_num [pddA, pddB, chebyshev]) fun _ => 0
  obtain ⟨⟨d, plan⟩, h⟩ := hn n le_rfl
  refine ⟨n, d, plan, h, (C84_optimal_partial pddA_weighted pddB_weighted (EMD_default_metric 2).nonneg hC (by norm_num [pddA, pddB]) _ h).trans_lt ?_⟩
  norm_num [emdTol, pddA, pddB]

/-! ### Computed PDDs -/

section Rounded

variable {S S' : PeriodicSet D} {inds : List (Fin S.motif.length)} {inds' : List (Fin S'.motif.length)} {mult mult' : List ℕ} {fl : ℝ → ℝ} {u κ κ' M M' : ℝ}
  {A : Computed S.motif.length D} {A' : Computed S'.motif.length D}

/-- **C84** (partial) `EMD` of two PDDs, all computed with rounded operations, does the same with `int64` as with unbounded integers if the number of pairs of rows times a bound for the
true distances, with the error of rounding, is at most `2e9`. -/
theorem C84_rounded_partial (hD : 0 < D) (hmono : Monotone fl) (h : Workable S inds mult fl u κ M) (h' : Workable S' inds' mult' fl u κ' M') {total total' : List ℝ → ℝ}
    (htotal : FloatSum fl total) (htotal' : FloatSum fl total') (dot : List (ℝ × ℝ) → ℝ) (hs : Covered S.motif S.cell (k + 1))
    (hs' : Covered S'.motif S'.cell (k + 1)) (hA : FloatCall fl S.motif S.cell inds A) (hA' : FloatCall fl S'.motif S'.cell inds' A') {P P' : List (PRow ℝ)}
    (hP : TruePDD S inds mult k P) (hP' : TruePDD S' inds' mult' k P') {B : ℝ} (hB0 : 0 ≤ B) (hB : ∀ r ∈ P ++ P', ∀ x ∈ r.dists, x ≤ B) {lexsort lexsort' collapse collapse' : Bool}
    {tol tol' : ℝ} (htol : 0 ≤ tol) (htol' : 0 ≤ tol') {f f' : ℕ} {p p' : List (PRow ℝ)} (hp : pddR fl total S A k lexsort collapse tol f = .ok p)
    (hp' : pddR fl total' S' A' k lexsort' collapse' tol' f' = .ok p')
    (hsum : inds.length * inds'.length * (B + (pddError inds.length u (precision D u κ) M B + pddError inds'.length u (precision D u κ') M' B)) ≤ 2 * 10 ^ 9) (bad : ℝ → ℤ)
    (fuel : ℕ) : emdR64 fl bad dot p p' fuel = emdR fl dot p p' fuel := by
  obtain ⟨Q, a1, a2, a3, -, a5⟩ := pddR_represents hD h h.le_half htotal hs hA hP hB0 (fun r hr => hB r (by simp [hr])) htol hp
  obtain ⟨Q', b1, b2, b3, -, b5⟩ := pddR_represents hD h' h'.le_half htotal' hs' hA' hP' hB0 (fun r hr => hB r (by simp [hr])) htol' hp'
  have hu := h.rounding.nonneg
  have e1 := pddError_ge (n := inds.length) hu (precision_nonneg h.rounding h.cancels) (h.size.nonneg (List.length_pos_iff.1 h.pos')) hB0
  have e2 := pddError_ge (n := inds'.length) hu (precision_nonneg h'.rounding h'.cancels) (h'.size.nonneg (List.length_pos_iff.1 h'.pos')) hB0
  have g1 := e1.2.trans e1.1
  have g2 := e2.2.trans e2.1
  refine emdR64_eq hu h.rounding.le_one h.rounding.error hmono a1 b1 a5 b5 (le_trans (sum_rows_le
    (C := B + (pddError inds.length u (precision D u κ) M B + pddError inds'.length u (precision D u κ') M' B)) ?_) (le_trans ?_ hsum)) bad dot fuel
  · intro r hr s hs
    obtain ⟨i, hi, rfl⟩ := List.mem_iff_getElem.1 hr
    obtain ⟨j, hj, rfl⟩ := List.mem_iff_getElem.1 hs
    have hi' : i < Q.length := by rw [a5.length_eq]; exact hi
    have hj' : j < Q'.length := by rw [b5.length_eq]; exact hj
    have r1 := a5.get hi' hi
    have r2 := b5.get hj' hj
    have w1 := a1.width _ (List.getElem_mem hi')
    have w2 := b1.width _ (List.getElem_mem hj')
    have c1 := chebyshev_range hB0 w1 w2 (a3 _ (List.getElem_mem hi')) (b3 _ (List.getElem_mem hj'))
    have c2 := (abs_le.1 (chebyshev_perturb r1.width w1 r2.width w2 g1 g2 r1.dists r2.dists)).2
    simp only [List.get_eq_getElem] at c2
    linarith
  · have n1 : (p.length : ℝ) ≤ inds.length := by rw [← a5.length_eq]; exact_mod_cast a2
    have n2 : (p'.length : ℝ) ≤ inds'.length := by rw [← b5.length_eq]; exact_mod_cast b2
    gcongr

/-- **C84** (partial) The computed `EMD` of computed PDDs of isometric periodic sets, with rounded operations and `int64`: it ends, and the distance is at most the error of rounding and, with
collapsing, what merging allows, whatever the two descriptions. -/
theorem C84_isometric_partial (hD : 0 < D) (hd : IsDescription S inds mult) (hd' : IsDescription S' inds' mult') (hiso : Isometric S S') (hmono : Monotone fl)
    (h : Workable S inds mult fl u κ M) (h' : Workable S' inds' mult' fl u κ' M') {total total' : List ℝ → ℝ}
    (htotal : FloatSum fl total) (htotal' : FloatSum fl total') {dot : List (ℝ × ℝ) → ℝ} (hdot : FloatDot fl dot) (hs : Covered S.motif S.cell (k + 1))
    (hs' : Covered S'.motif S'.cell (k + 1)) (hA : FloatCall fl S.motif S.cell inds A) (hA' : FloatCall fl S'.motif S'.cell inds' A') {P P' : List (PRow ℝ)}
    (hP : TruePDD S inds mult k P) (hP' : TruePDD S' inds' mult' k P') {B : ℝ} (hB0 : 0 ≤ B) (hB : ∀ r ∈ P ++ P', ∀ x ∈ r.dists, x ≤ B) {lexsort lexsort' collapse collapse' : Bool}
    {tol tol' : ℝ} (htol : 0 ≤ tol) (htol' : 0 ≤ tol') {f f' : ℕ} {p p' : List (PRow ℝ)} (hp : pddR fl total S A k lexsort collapse tol f = .ok p)
    (hp' : pddR fl total' S' A' k lexsort' collapse' tol' f' = .ok p')
    (hsum : inds.length * inds'.length * (B + (pddError inds.length u (precision D u κ) M B + pddError inds'.length u (precision D u κ') M' B)) ≤ 2 * 10 ^ 9) (bad : ℝ → ℤ) :
    (∃ F, ∀ fuel, F ≤ fuel → ∃ r, emdR64 fl bad dot p p' fuel = .ok r) ∧ ∀ fuel d plan, emdR64 fl bad dot p p' fuel = .ok (d, plan) →
      0 ≤ d ∧ d ≤ emdRounding u (max inds.length inds'.length) (inds.length * inds'.length) B
          (pddError inds.length u (precision D u κ) M B + pddError inds'.length u (precision D u κ') M' B)
        + (if collapse then mergeError u tol (precision D u κ) M B else 0) + (if collapse' then mergeError u tol' (precision D u κ') M' B else 0) := by
  have e := C84_rounded_partial hD hmono h h' htotal htotal' dot hs hs' hA hA' hP hP' hB0 hB htol htol' hp hp' hsum bad
  simp only [e]
  exact ⟨C82_emd_terminates_partial hD hmono h h' htotal htotal' hdot hs hs' hA hA' htol htol' hp hp', fun fuel d plan hr =>
    C82_isometric_partial hD hd hd' hiso hmono h h' htotal htotal' hdot hs hs' hA hA' hP hP' hB0 hB htol htol' hp hp' hr⟩

/-- The hypotheses are met, by the example of C82. -/
example : ∃ (A : Computed linePairs.motif.length 1) (A' : Computed lineMirror.motif.length 1) (total : List ℝ → ℝ) (dot : List (ℝ × ℝ) → ℝ) (f f' fuel : ℕ) (p p' : List (PRow ℝ)) (d : ℝ)
      (plan : List (List ℝ)),
    FloatCall stretch linePairs.motif linePairs.cell (List.finRange 2) A ∧ FloatCall stretch lineMirror.motif lineMirror.cell [(0 : Fin 4)] A' ∧ FloatSum stretch total ∧
    FloatDot stretch dot ∧ pddR stretch total linePairs A 5 true true 0 f = .ok p ∧ pddR stretch total lineMirror A' 5 true true 0 f' = .ok p' ∧
    emdR64 stretch (fun _ => 0) dot p p' fuel = .ok (d, plan) ∧ 0 ≤ d ∧ d ≤ 1 / 10000 := by
  have hd := linePairs_description
  have hd' := lineMirror_description
  obtain ⟨A, hA⟩ := exists_floatCall stretch (by decide) linePairs.motif linePairs.cell (List.finRange 2)
  obtain ⟨A', hA'⟩ := exists_floatCall stretch (by decide) lineMirror.motif lineMirror.cell [(0 : Fin 4)]
  obtain ⟨total, htotal⟩ := exists_floatSum stretch
  obtain ⟨dot, hdot⟩ := exists_floatDot stretch
  have f1 : FitsInCell linePairs.motif linePairs.cell := line_fits (by norm_num) fun q hq => by
    simp only [linePairs, List.mem_cons, List.not_mem_nil, or_false] at hq
    rcases hq with rfl | rfl <;> norm_num
  have f2 : FitsInCell lineMirror.motif lineMirror.cell := line_fits (by norm_num) fun q hq => by
    simp only [lineMirror, List.mem_cons, List.not_mem_nil, or_false] at hq
    rcases hq with rfl | rfl | rfl | rfl <;> norm_num
  have c1 : Covered linePairs.motif linePairs.cell 6 := Or.inl ⟨f1, 1, 1, le_rfl, fun i => by fin_cases i; simp [linePairs, gram], by simp, Or.inl (by norm_num)⟩
  have c2 : Covered lineMirror.motif lineMirror.cell 6 := Or.inl ⟨f2, 1, 1, le_rfl, fun i => by fin_cases i; simp [lineMirror, gram], by simp, Or.inl (by norm_num)⟩
  obtain ⟨f, hf⟩ := C82_pdd_terminates (by decide) stretch_linePairs hA total 5 true true 0
  obtain ⟨f', hf'⟩ := C82_pdd_terminates (by decide) stretch_lineMirror hA' total 5 true true 0
  obtain ⟨p, hp⟩ := hf f le_rfl
  obtain ⟨p', hp'⟩ := hf' f' le_rfl
  obtain ⟨P, hP⟩ := exists_truePDD (by decide) stretch_linePairs 5
  obtain ⟨P', hP'⟩ := exists_truePDD (by decide) stretch_lineMirror 5
  have hB : ∀ r ∈ P ++ P', ∀ x ∈ r.dists, x ≤ 30 := by
    intro r hr x hx
    rcases List.mem_append.1 hr with hr | hr
    · obtain ⟨i, hi, rfl⟩ := List.mem_iff_getElem.1 hr
      refine (C82_range (hP.row hd.units hi).2 0 x hx).2.trans ?_
      rw [show eucl (linePairs.cell 0) 0 = 3 by simp [eucl, sqDist, linePairs]]
      norm_num
    · obtain ⟨i, hi, rfl⟩ := List.mem_iff_getElem.1 hr
      refine (C82_range (hP'.row hd'.units hi).2 0 x hx).2.trans ?_
      rw [show eucl (lineMirror.cell 0) 0 = 6 by simp [eucl, sqDist, lineMirror]]
      norm_num
  obtain ⟨⟨fuel, hfuel⟩, g⟩ := C84_isometric_partial (by decide) hd hd' line_isometric stretch_mono stretch_linePairs stretch_lineMirror htotal htotal hdot c1 c2 hA hA' hP hP' (by norm_num) hB
    le_rfl le_rfl hp hp' (by
      show ((2 : ℕ) : ℝ) * ((1 : ℕ) : ℝ) * (30 + (pddError 2 _ _ _ _ + pddError 1 _ _ _ _)) ≤ _
      unfold pddError precision
      norm_num) fun _ => 0
  obtain ⟨⟨d, plan⟩, hr⟩ := hfuel fuel le_rfl
  obtain ⟨g0, g1⟩ := g fuel d plan hr
  refine ⟨A, A', total, dot, f, f', fuel, p, p', d, plan, hA, hA', htotal, hdot, hp, hp', hr, g0, g1.trans ?_⟩
  rw [if_pos rfl, if_pos rfl]
  show emdRounding _ (max 2 1) (2 * 1) _ (pddError 2 _ _ _ _ + pddError 1 _ _ _ _) + _ + _ ≤ _
  unfold emdRounding pddError mergeError emdTol precision
  norm_num

end Rounded

/-! ### Overflow -/

/-- A PDD of one row with the entry `x`. -/
noncomputable def oneRow (x : ℝ) : List (PRow ℝ) := [{ weight := 1, dists := [x], group := [0] }]

theorem oneRow_weighted (x : ℝ) : WeightedRows 1 (oneRow x) := by
  refine ⟨by simp [oneRow], ?_, ?_, by simp [oneRow]⟩ <;>
  · intro r hr
    simp only [oneRow, List.mem_singleton] at hr
    subst hr
    norm_num

theorem wasserstein_one {a b : Fin 1 → ℝ} {c : Fin 1 → Fin 1 → ℝ} {x : ℝ} (h : a 0 = 1 ∧ b 0 = 1 ∧ c 0 0 = x) : wasserstein a b c = x := by
  obtain ⟨ha, hb, hc⟩ := h
  have hset : {y | ∃ g, IsPlan a b g ∧ y = planCost c g} = {x} := by
    ext y
    constructor
    · rintro ⟨g, hg, rfl⟩
      have h1 := hg.rows 0
      simp only [Finset.univ_unique, Fin.default_eq_zero, Finset.sum_singleton] at h1
      simp [planCost, h1, ha, hc]
    · rintro rfl
      refine ⟨fun _ _ => 1, ⟨fun _ _ => zero_le_one, fun i => ?_, fun j => ?_⟩, by simp [planCost, hc]⟩
      · fin_cases i; simp [ha]
      · fin_cases j; simp [hb]
  unfold wasserstein
  rw [hset, csInf_singleton]

theorem overflow_round : findEntering64 (mkNet64 [100000000] [100000000] [3500000000000000000] [100000000])
    (initState64 [100000000] [100000000] [3500000000000000000] [100000000]) 1 0 = none := by decide +kernel

theorem overflow_simplex (fuel : ℕ) : simplexInt64 [100000000] [100000000] [3500000000000000000] [100000000] (fuel + 1) = .ok [0] := by
  have hb : balance64 [100000000] [100000000] = ([100000000], [100000000]) := by decide +kernel
  have hB : ((mkNet64 [100000000] [100000000] [3500000000000000000] [100000000]).e + (mkNet64 [100000000] [100000000] [3500000000000000000] [100000000]).B - 1)
      / (mkNet64 [100000000] [100000000] [3500000000000000000] [100000000]).B = 1 := by decide +kernel
  unfold simplexInt64
  rw [if_neg (by simp), hb]
  simp only [pivotLoop64, hB, overflow_round]
  rfl

/-- **C84** (negation) Without a bound on the distances the claim is false: PDDs of one row each, at distance `3.5e10`, have distance 0 with `int64`: three times the largest cost overflows
and no pivot is made. -/
theorem C84_false : WeightedRows 1 (oneRow 0) ∧ WeightedRows 1 (oneRow 35000000000) ∧ exactEmd chebyshev (oneRow 0) (oneRow 35000000000) = 35000000000 ∧
    ∀ bad fuel, 1 ≤ fuel → emd64 bad chebyshev (oneRow 0) (oneRow 35000000000) fuel = .ok (0, [[0]]) := by
  refine ⟨oneRow_weighted _, oneRow_weighted _, ?_, ?_⟩
  · refine wasserstein_one ⟨rfl, rfl, ?_⟩
    show chebyshev [(0 : ℝ)] [35000000000] = _
    norm_num [chebyshev]
  · intro bad fuel hf
    obtain ⟨fuel, rfl⟩ := Nat.exists_eq_add_of_le' hf
    have h1 : toInt64 bad (1 * 100000000) = 100000000 := by
      rw [toInt64_eq bad (by norm_num) (by norm_num), Int.floor_eq_iff]; norm_num
    have h2 : toInt64 bad (35000000000 * 100000000) = 3500000000000000000 := by
      rw [toInt64_eq bad (by norm_num) (by norm_num), Int.floor_eq_iff]; norm_num
    have h3 : chebyshev [(0 : ℝ)] [35000000000] = 35000000000 := by norm_num [chebyshev]
    unfold emd64 oneRow
    rw [if_neg (by simp)]
    unfold networkSimplex64
    simp only [List.map_cons, List.map_nil, List.flatten_cons, List.flatten_nil, List.flatMap_cons, List.flatMap_nil, List.append_nil, min_self, h1, h2, h3, overflow_simplex, bind, Except.bind]
    norm_num

end Amd
