import Verif.Proof.EmdProps
import Verif.Props.PddRows

/-!
# Earth mover's distance of PDDs: C27 - C34

`emd metric p q fuel` models `EMD(p, q, metric, return_transport=True)`; `.ok (d, plan)` means that it returned. `WeightedRows k p`
says that `p` is a PDD with `k` columns whose weights are at least `1e-8` and sum to 1. The code works with multiples of `1e-8`;
`emdTol n C` is the error this causes for PDDs of at most `n` rows that are at most `C` apart.
-/

namespace Amd

open Finset

variable {D k : ℕ} {p q r : List (PRow ℝ)} {δ : List ℝ → List ℝ → ℝ} {C : ℝ}

/-- Entry `(i, j)` of a matrix given as a list of rows. -/
noncomputable def entry (plan : List (List ℝ)) (i j : ℕ) : ℝ := (plan.getD i []).getD j 0

theorem entry_ofFn {m n : ℕ} (f : Fin m → Fin n → ℝ) (i : Fin m) (j : Fin n) : entry (List.ofFn fun i => List.ofFn fun j => f i j) i j = f i j := by
  have h : (List.ofFn fun i => List.ofFn fun j => f i j).getD i [] = List.ofFn fun j => f i j := by
    rw [List.getD_eq_getElem _ _ (by simp), List.getElem_ofFn]
  rw [entry, h, List.getD_eq_getElem _ _ (by simp), List.getElem_ofFn]

/-- Every PDD of a periodic set with at most `1e8` motif points meets the condition on PDDs used in this file, for all options. -/
theorem EMD_input_of_PDD {S : PeriodicSet D} {inds : List (Fin S.motif.length)} {mult : List ℕ} (hD : 0 < D)
    (hu : S.Units inds mult) (hne : inds ≠ []) (hpos : ∀ n ∈ mult, 0 < n) (hsum : mult.sum = S.motif.length) (hlen : S.motif.length ≤ 100000000)
    {lexsort collapse : Bool} {tol : ℝ} {fuel : ℕ} {pdd : List (PRow ℝ)} (h : PDD S k lexsort collapse tol fuel = .ok pdd) : WeightedRows k pdd := by
  obtain ⟨-, ht⟩ := C14_weights hD hu hne hpos hsum h
  obtain ⟨rows, hr, e⟩ := PDD_rows hD hu hne h
  obtain ⟨h1, h2⟩ := units_dists hD hu hne hr
  have hm : (0 : ℝ) < S.motif.length := by
    obtain ⟨i, _⟩ := List.exists_mem_of_ne_nil _ hne
    exact_mod_cast i.pos
  have hp := lexsortRows_perm lexsort (collapseRows k collapse tol (rows.map (·.drop 1))
        (mult.map fun n : ℕ => (n : ℝ) / (S.motif.length : ℝ)))
  rw [← e] at hp
  refine ⟨?_, ?_, ?_, ht⟩
  · rintro rfl; simp at ht
  · intro r hr
    have := hp.subset hr
    rw [collapseRows_eq k collapse tol _ _ h1] at this
    obtain ⟨g, -, rfl⟩ := List.mem_map.1 this
    exact length_meanRows _ _
  · intro r hr
    refine collapse_weight_ge k collapse tol _ _ h1 (by simpa using h2) (by norm_num) ?_ r (hp.subset hr)
    intro w hw
    obtain ⟨n, hn, rfl⟩ := List.mem_map.mp hw
    have : (1 : ℝ) ≤ n := by exact_mod_cast hpos n hn
    have h3 : (S.motif.length : ℝ) ≤ 100000000 := by exact_mod_cast hlen
    rw [div_le_div_iff₀ (by norm_num) hm]
    nlinarith

/-- The default metric satisfies the conditions on metrics used in this file. -/
theorem EMD_default_metric (k : ℕ) : RowMetric k chebyshev := chebyshev_metric k

/-- An example with rows of different weight. -/
noncomputable def pddA : List (PRow ℝ) :=
  [{ weight := 1 / 3, dists := [1, 2], group := [0] }, { weight := 2 / 3, dists := [1, 3], group := [1] }]

/-- Another example, with a different number of rows. -/
noncomputable def pddB : List (PRow ℝ) := [{ weight := 1 / 2, dists := [1, 1], group := [0] },
  { weight := 1 / 4, dists := [2, 2], group := [1] }, { weight := 1 / 4, dists := [2, 5], group := [2] }]

theorem pddA_weighted : WeightedRows 2 pddA := by
  refine ⟨by simp [pddA], ?_, ?_, by simp [pddA]; norm_num⟩ <;>
  · intro r hr
    simp only [pddA, List.mem_cons, List.not_mem_nil, or_false] at hr
    rcases hr with rfl | rfl <;> norm_num

theorem pddB_weighted : WeightedRows 2 pddB := by
  refine ⟨by simp [pddB], ?_, ?_, by simp [pddB]; norm_num⟩ <;>
  · intro r hr
    simp only [pddB, List.mem_cons, List.not_mem_nil, or_false] at hr
    rcases hr with rfl | rfl | rfl <;> norm_num

/-! ### C33 -/

/-- **C33** For every pair of PDDs with the same number of columns, `EMD` returns after finitely many pivots. -/
theorem C33_terminates (hp : WeightedRows k p) (hq : WeightedRows k q) (hδ : ∀ r s, r.length = k → s.length = k → 0 ≤ δ r s) :
    ∃ steps, ∀ fuel ≥ steps, ∃ res, emd δ p q fuel = .ok res := by
  obtain ⟨-, fuel0, -, -, h, -⟩ := emd_out hp hq hδ
  exact ⟨fuel0, h⟩

/-- **C33** The result does not depend on how many steps are allowed. -/
theorem C33_unique {fuel fuel' : ℕ} {a b : ℝ × List (List ℝ)} (h : emd δ p q fuel = .ok a) (h' : emd δ p q fuel' = .ok b) : a = b := by
  unfold emd at h h'
  split_ifs at h h'
  have h1 := networkSimplex_mono (le_max_left fuel fuel') h
  have h2 := networkSimplex_mono (le_max_right fuel fuel') h'
  exact Except.ok.inj (h1.symm.trans h2)

/-- **C33** PDDs with a different number of columns raise ValueError. -/
theorem C33_columns {k' : ℕ} (hp : WeightedRows k p) (hq : WeightedRows k' q) (hk : k ≠ k') (fuel : ℕ) : emd δ p q fuel = .error .value := by
  unfold emd
  rw [if_pos]
  obtain ⟨x, hx⟩ := List.exists_mem_of_ne_nil _ hp.nonempty
  obtain ⟨y, hy⟩ := List.exists_mem_of_ne_nil _ hq.nonempty
  rw [List.any_eq_true]
  refine ⟨x, hx, ?_⟩
  rw [List.any_eq_true]
  refine ⟨y, hy, ?_⟩
  rw [hp.width x hx, hq.width y hy]
  simpa using hk

example : ∃ steps, ∀ fuel ≥ steps, ∃ res, emd chebyshev pddA pddB fuel = .ok res :=
  C33_terminates pddA_weighted pddB_weighted (EMD_default_metric 2).nonneg

/-! ### C27 -/

/-- **C27** The transport plan has a row for each row of `p` and a column for each row of `q`. Its entries are non-negative and at most the
weights of both rows. -/
theorem C27_entries (hp : WeightedRows k p) (hq : WeightedRows k q) (hδ : ∀ r s, r.length = k → s.length = k → 0 ≤ δ r s) {fuel : ℕ} {d : ℝ}
    {plan : List (List ℝ)} (h : emd δ p q fuel = .ok (d, plan)) :
    plan.length = p.length ∧ (∀ row ∈ plan, row.length = q.length) ∧
      ∀ (i : Fin p.length) (j : Fin q.length), 0 ≤ entry plan i j ∧ entry plan i j ≤ p[i].weight ∧ entry plan i j ≤ q[j].weight := by
  obtain ⟨X, -, hX, -, -, eX⟩ := emd_out hp hq hδ
  have e := eX _ _ h
  rw [Prod.mk.injEq] at e
  obtain ⟨-, rfl⟩ := e
  refine ⟨by simp, ?_, fun i j => ?_⟩
  · intro row hrow
    obtain ⟨i, rfl⟩ := (List.mem_ofFn' _ _).1 hrow
    simp
  · have ee : entry (List.ofFn fun i => List.ofFn fun j => (X i j : ℝ) / 100000000) i j = (X i j : ℝ) / 100000000 :=
      entry_ofFn (fun i j => (X i j : ℝ) / 100000000) i j
    rw [ee]
    obtain ⟨h1, h2, h3⟩ := hX.bounds i j
    have a1 : (X i j : ℝ) ≤ (⌊p[i].weight * 100000000⌋ : ℝ) := by exact_mod_cast h2
    have a2 : (X i j : ℝ) ≤ (⌊q[j].weight * 100000000⌋ : ℝ) := by exact_mod_cast h3
    have b1 := Int.floor_le (p[i].weight * 100000000)
    have b2 := Int.floor_le (q[j].weight * 100000000)
    exact ⟨div_nonneg (Int.cast_nonneg h1) (by norm_num), by rw [div_le_iff₀ (by norm_num)]; linarith, by rw [div_le_iff₀ (by norm_num)]; linarith⟩

/-- **C27** The plan moves everything up to rounding. It moves at most 1 and at least `1 - n * 1e-8` in total, where `n` is the larger number
of rows. The row sums and column sums exceed the weights by at most `n * 1e-8` in total, and only row sums or only column sums exceed
them. -/
theorem C27_sums (hp : WeightedRows k p) (hq : WeightedRows k q) (hδ : ∀ r s, r.length = k → s.length = k → 0 ≤ δ r s) {fuel : ℕ} {d : ℝ}
    {plan : List (List ℝ)} (h : emd δ p q fuel = .ok (d, plan)) :
    (∑ i : Fin p.length, ∑ j : Fin q.length, entry plan i j) ≤ 1 ∧
    1 - (max p.length q.length : ℕ) / 100000000 ≤ (∑ i : Fin p.length, ∑ j : Fin q.length, entry plan i j) ∧
    (∑ i : Fin p.length, max (∑ j : Fin q.length, entry plan i j - p[i].weight) 0) + (∑ j : Fin q.length, max (∑ i : Fin p.length, entry plan i j - q[j].weight) 0) ≤
      (max p.length q.length : ℕ) / 100000000 ∧
    ((∀ i : Fin p.length, (∑ j : Fin q.length, entry plan i j) ≤ p[i].weight) ∨ ∀ j : Fin q.length, (∑ i : Fin p.length, entry plan i j) ≤ q[j].weight) := by
  obtain ⟨X, -, hX, -, -, eX⟩ := emd_out hp hq hδ
  obtain ⟨C, -, hC⟩ := exists_dist_bound p q δ
  have hR := emd_rounded hp hq hδ hC hX
  have e := eX _ _ h
  rw [Prod.mk.injEq] at e
  obtain ⟨-, rfl⟩ := e
  have ee : ∀ (i : Fin p.length) (j : Fin q.length), entry (List.ofFn fun i => List.ofFn fun j => (X i j : ℝ) / 100000000) i j = (X i j : ℝ) / 100000000 :=
    fun i j => entry_ofFn (fun i j => (X i j : ℝ) / 100000000) i j
  simp only [ee]
  have bi : ∀ i : Fin p.length, (⌊p[i].weight * 100000000⌋ : ℝ) ≤ p[i].weight * 100000000 := fun i => Int.floor_le _
  have bj : ∀ i : Fin q.length, (⌊q[i].weight * 100000000⌋ : ℝ) ≤ q[i].weight * 100000000 := fun i => Int.floor_le _
  have side : (∀ i : Fin p.length, (∑ j : Fin q.length, (X i j : ℝ) / 100000000) ≤ p[i].weight) ∨
      ∀ j : Fin q.length, (∑ i : Fin p.length, (X i j : ℝ) / 100000000) ≤ q[j].weight := by
    rcases hX.margins with ⟨_, h2, -⟩ | ⟨_, h2, -⟩
    · left
      intro i
      have : ∑ j, (X i j : ℝ) ≤ (⌊p[i].weight * 100000000⌋ : ℝ) := by exact_mod_cast h2 i
      rw [← sum_div, div_le_iff₀ (by norm_num)]
      exact this.trans (bi i)
    · right
      intro j
      have : ∑ i, (X i j : ℝ) ≤ (⌊q[j].weight * 100000000⌋ : ℝ) := by exact_mod_cast h2 j
      rw [← sum_div, div_le_iff₀ (by norm_num)]
      exact this.trans (bj j)
  refine ⟨?_, ?_, ?_, side⟩
  · rcases side with hh | hh
    · exact (sum_le_sum fun i _ => hh i).trans hp.sum_eq.le
    · rw [sum_comm]; exact (sum_le_sum fun i _ => hh i).trans hq.sum_eq.le
  · have := hR.sumX
    simp only [← sum_div]
    rw [le_div_iff₀ (by norm_num)]
    linarith
  · have hex := hR.excess
    have m1 : ∀ x w : ℝ, max (x / 100000000 - w) 0 = max (x - w * 100000000) 0 / 100000000 := by
      intro x w
      rw [← max_div_div_right (by norm_num : (0 : ℝ) ≤ 100000000), zero_div]
      congr 1
      ring
    simp only [← sum_div, m1]
    rw [← add_div]
    exact div_le_div_of_nonneg_right hex (by norm_num)

/-- **C27** The returned distance is the cost of the returned plan, up to `1e-8`. -/
theorem C27_cost (hp : WeightedRows k p) (hq : WeightedRows k q) (hδ : ∀ r s, r.length = k → s.length = k → 0 ≤ δ r s) {fuel : ℕ} {d : ℝ}
    {plan : List (List ℝ)} (h : emd δ p q fuel = .ok (d, plan)) :
    d ≤ (∑ i : Fin p.length, ∑ j : Fin q.length, entry plan i j * δ p[i].dists q[j].dists) ∧
      (∑ i : Fin p.length, ∑ j : Fin q.length, entry plan i j * δ p[i].dists q[j].dists) ≤ d + 1 / 100000000 := by
  have hs := (C27_sums hp hq hδ h).1
  obtain ⟨X, -, hX, -, -, eX⟩ := emd_out hp hq hδ
  have e := eX _ _ h
  rw [Prod.mk.injEq] at e
  obtain ⟨rfl, rfl⟩ := e
  have ee : ∀ (i : Fin p.length) (j : Fin q.length), entry (List.ofFn fun i => List.ofFn fun j => (X i j : ℝ) / 100000000) i j = (X i j : ℝ) / 100000000 :=
    fun i j => entry_ofFn (fun i j => (X i j : ℝ) / 100000000) i j
  simp only [ee] at hs ⊢
  have x0 : ∀ i j, (0 : ℝ) ≤ (X i j : ℝ) / 100000000 := fun i j => div_nonneg (Int.cast_nonneg (hX.bounds i j).1) (by norm_num)
  constructor
  · refine sum_le_sum fun i _ => sum_le_sum fun j _ => mul_le_mul_of_nonneg_left ?_ (x0 i j)
    rw [div_le_iff₀ (by norm_num)]
    exact Int.floor_le _
  · have h1 : ∑ i, ∑ j, (X i j : ℝ) / 100000000 * δ p[i].dists q[j].dists ≤
        ∑ i, ∑ j, ((X i j : ℝ) / 100000000 * ((⌊δ p[i].dists q[j].dists * 100000000⌋ : ℝ) / 100000000) + (X i j : ℝ) / 100000000 * (1 / 100000000)) := by
      refine sum_le_sum fun i _ => sum_le_sum fun j _ => ?_
      rw [← mul_add]
      refine mul_le_mul_of_nonneg_left ?_ (x0 i j)
      rw [← add_div, le_div_iff₀ (by norm_num)]
      exact (Int.lt_floor_add_one _).le
    refine h1.trans ?_
    simp only [sum_add_distrib, ← sum_mul]
    have : (∑ i, ∑ j, (X i j : ℝ) / 100000000) * (1 / 100000000) ≤ 1 * (1 / 100000000) := mul_le_mul_of_nonneg_right hs (by norm_num)
    linarith

example : ∃ fuel d plan, emd chebyshev pddA pddB fuel = .ok (d, plan) ∧ plan.length = 2 := by
  obtain ⟨n, hn⟩ := C33_terminates pddA_weighted pddB_weighted (EMD_default_metric 2).nonneg
  obtain ⟨⟨d, plan⟩, h⟩ := hn n le_rfl
  exact ⟨n, d, plan, h, (C27_entries pddA_weighted pddB_weighted (EMD_default_metric 2).nonneg h).1⟩

/-! ### C28 -/

/-- **C28** The returned distance is the exact Earth mover's distance, the least cost of a transport plan between the weights, up to the
rounding error `emdTol`. -/
theorem C28_optimal (hp : WeightedRows k p) (hq : WeightedRows k q) (hδ : ∀ r s, r.length = k → s.length = k → 0 ≤ δ r s)
    (hC : ∀ r ∈ p, ∀ s ∈ q, δ r.dists s.dists ≤ C) {fuel : ℕ} {d : ℝ} {plan : List (List ℝ)} (h : emd δ p q fuel = .ok (d, plan)) :
    |d - exactEmd δ p q| ≤ emdTol (max p.length q.length) C := emd_near hp hq hδ hC h

/-- **C28** Without rounding it is exact: if the weights and the distances of rows are multiples of `1e-8`, the returned distance is the
least cost of a transport plan. -/
theorem C28_exact (hp : WeightedRows k p) (hq : WeightedRows k q) (hδ : ∀ r s, r.length = k → s.length = k → 0 ≤ δ r s)
    (hpw : ∀ r ∈ p, ∃ n : ℕ, r.weight = n / 100000000) (hqw : ∀ r ∈ q, ∃ n : ℕ, r.weight = n / 100000000)
    (hd : ∀ r ∈ p, ∀ s ∈ q, ∃ n : ℕ, δ r.dists s.dists = n / 100000000) {fuel : ℕ} {d : ℝ} {plan : List (List ℝ)}
    (h : emd δ p q fuel = .ok (d, plan)) : d = exactEmd δ p q := by
  have fl : ∀ {x : ℝ}, (∃ n : ℕ, x = n / 100000000) → (⌊x * 100000000⌋ : ℝ) = x * 100000000 := by
    rintro x ⟨n, rfl⟩
    rw [div_mul_cancel₀ _ (by norm_num)]
    simp
  have e1 : ∀ i : Fin p.length, (⌊p[i].weight * 100000000⌋ : ℝ) = p[i].weight * 100000000 := fun i => fl (hpw _ (List.getElem_mem _))
  have e2 : ∀ i : Fin q.length, (⌊q[i].weight * 100000000⌋ : ℝ) = q[i].weight * 100000000 := fun i => fl (hqw _ (List.getElem_mem _))
  have e3 : ∀ (i : Fin p.length) (j : Fin q.length), (⌊δ p[i].dists q[j].dists * 100000000⌋ : ℝ) = δ p[i].dists q[j].dists * 100000000 :=
    fun i j => fl (hd _ (List.getElem_mem _) _ (List.getElem_mem _))
  have hs : ∑ i : Fin p.length, ⌊p[i].weight * 100000000⌋ = ∑ j : Fin q.length, ⌊q[j].weight * 100000000⌋ := by
    have : ((∑ i : Fin p.length, ⌊p[i].weight * 100000000⌋ : ℤ) : ℝ) = ((∑ j : Fin q.length, ⌊q[j].weight * 100000000⌋ : ℤ) : ℝ) := by
      push_cast
      rw [sum_congr rfl fun i _ => e1 i, sum_congr rfl fun i _ => e2 i, ← sum_mul, ← sum_mul, hp.sum_eq, hq.sum_eq]
    exact_mod_cast this
  rw [emd_balanced hp hq hδ hs h]
  have m : ∀ x : ℝ, x * 100000000 / 100000000 = x := fun x => mul_div_cancel_right₀ x (by norm_num)
  simp only [e1, e2, e3, m]
  rfl

/-- The hypotheses of `C28_optimal` are met with `C = 2`. -/
example : (∀ r ∈ pddA, ∀ s ∈ pddB, chebyshev r.dists s.dists ≤ 3) ∧ emdTol (max pddA.length pddB.length) 3 < 1 / 1000000 := by
  constructor
  · intro r hr s hs
    simp only [pddA, pddB, List.mem_cons, List.not_mem_nil, or_false] at hr hs
    rcases hr with rfl | rfl <;> rcases hs with rfl | rfl | rfl <;> norm_num [chebyshev]
  · norm_num [emdTol, pddA, pddB]

/-- The hypotheses of `C28_exact` are met by `pddB` and itself. -/
example : (∀ r ∈ pddB, ∃ n : ℕ, r.weight = n / 100000000) ∧ ∀ r ∈ pddB, ∀ s ∈ pddB, ∃ n : ℕ, chebyshev r.dists s.dists = n / 100000000 := by
  constructor
  · intro r hr
    simp only [pddB, List.mem_cons, List.not_mem_nil, or_false] at hr
    rcases hr with rfl | rfl | rfl
    exacts [⟨50000000, by norm_num⟩, ⟨25000000, by norm_num⟩, ⟨25000000, by norm_num⟩]
  · intro r hr s hs
    have : ∃ n : ℕ, chebyshev r.dists s.dists = n := by
      simp only [pddB, List.mem_cons, List.not_mem_nil, or_false] at hr hs
      rcases hr with rfl | rfl | rfl <;> rcases hs with rfl | rfl | rfl
      exacts [⟨0, by norm_num [chebyshev]⟩, ⟨1, by norm_num [chebyshev]⟩, ⟨4, by norm_num [chebyshev]⟩, ⟨1, by norm_num [chebyshev]⟩,
        ⟨0, by norm_num [chebyshev]⟩, ⟨3, by norm_num [chebyshev]⟩, ⟨4, by norm_num [chebyshev]⟩, ⟨3, by norm_num [chebyshev]⟩, ⟨0, by norm_num [chebyshev]⟩]
    obtain ⟨n, hn⟩ := this
    exact ⟨n * 100000000, by rw [hn]; push_cast; ring⟩

/-! ### C29 -/

/-- **C29** `EMD` is never negative. -/
theorem C29_nonneg (hp : WeightedRows k p) (hq : WeightedRows k q) (hδ : ∀ r s, r.length = k → s.length = k → 0 ≤ δ r s) {fuel : ℕ} {d : ℝ}
    {plan : List (List ℝ)} (h : emd δ p q fuel = .ok (d, plan)) : 0 ≤ d := by
  obtain ⟨X, -, hX, -, -, eX⟩ := emd_out hp hq hδ
  have e := eX _ _ h
  rw [Prod.mk.injEq] at e
  rw [e.1]
  refine sum_nonneg fun i _ => sum_nonneg fun j _ => mul_nonneg (div_nonneg (Int.cast_nonneg (hX.bounds i j).1) (by norm_num)) (div_nonneg (Int.cast_nonneg ?_) (by norm_num))
  exact Int.floor_nonneg.2 (mul_nonneg (hδ _ _ (hp.len i) (hq.len j)) (by norm_num))

/-- **C29** `EMD(p, p)` is exactly 0. -/
theorem C29_self (hδ : RowMetric k δ) (hp : WeightedRows k p) {fuel : ℕ} {d : ℝ} {plan : List (List ℝ)} (h : emd δ p p fuel = .ok (d, plan)) : d = 0 :=
  emd_perm_zero hδ hp hp (List.Perm.refl _) h

/-- **C29** PDDs of the same periodic set at two places are at distance exactly 0: moving all points by `v` and mapping everything by a linear
isometry `R` does not show in `EMD`. -/
theorem C29_isometric {S : PeriodicSet D} {inds : List (Fin S.motif.length)} {mult : List ℕ} (hD : 0 < D)
    (hu : S.Units inds mult) (hne : inds ≠ []) (hpos : ∀ n ∈ mult, 0 < n) (hsum : mult.sum = S.motif.length) (hlen : S.motif.length ≤ 100000000)
    (R : Pt D ℝ →ₗ[ℝ] Pt D ℝ) (hR : ∀ p, ∑ j, R p j ^ 2 = ∑ j, p j ^ 2) (v : Pt D ℝ) {lexsort collapse : Bool} {tol : ℝ} {fuel fuel' : ℕ}
    {pdd pdd' : List (PRow ℝ)} (h : PDD S k lexsort collapse tol fuel = .ok pdd)
    (h' : PDD { S with motif := S.motif.map fun x => R x + v, cell := fun i => R (S.cell i) } k lexsort collapse tol fuel = .ok pdd')
    {d : ℝ} {plan : List (List ℝ)} (hd : emd chebyshev pdd pdd' fuel' = .ok (d, plan)) : d = 0 := by
  have e : PDD { S with motif := S.motif.map fun x => R x + v, cell := fun i => R (S.cell i) } k lexsort collapse tol fuel = PDD S k lexsort collapse tol fuel := by
    have e1 := C03_pdd_translation { S with motif := S.motif.map R, cell := fun i => R (S.cell i) } v k lexsort collapse tol fuel
    rw [C04_pdd_orthogonal S R hR] at e1
    rw [← e1]
    congr 1
    simp
  rw [e, h] at h'
  obtain rfl := Except.ok.inj h'
  exact C29_self (EMD_default_metric k) (EMD_input_of_PDD hD hu hne hpos hsum hlen h) hd

example : ∃ fuel d plan, emd chebyshev pddA pddA fuel = .ok (d, plan) ∧ d = 0 := by
  obtain ⟨n, hn⟩ := C33_terminates pddA_weighted pddA_weighted (EMD_default_metric 2).nonneg
  obtain ⟨⟨d, plan⟩, h⟩ := hn n le_rfl
  exact ⟨n, d, plan, h, C29_self (EMD_default_metric 2) pddA_weighted h⟩

/-! ### C30 -/

/-- **C30** `EMD(p, q) = EMD(q, p)`, exactly, for PDDs of fewer than 10000 rows. -/
theorem C30_symmetric (hδ : RowMetric k δ) (hp : WeightedRows k p) (hq : WeightedRows k q) (hpl : p.length < 10000) (hql : q.length < 10000)
    {fuel fuel' : ℕ} {d d' : ℝ} {plan plan' : List (List ℝ)} (h : emd δ p q fuel = .ok (d, plan)) (h' : emd δ q p fuel' = .ok (d', plan')) : d = d' :=
  emd_swap hp hq hδ hpl hql h h'

/-- **C30** For PDDs of any size, up to rounding. -/
theorem C30_symmetric_large (hδ : RowMetric k δ) (hp : WeightedRows k p) (hq : WeightedRows k q) (hC : ∀ r ∈ p, ∀ s ∈ q, δ r.dists s.dists ≤ C)
    {fuel fuel' : ℕ} {d d' : ℝ} {plan plan' : List (List ℝ)} (h : emd δ p q fuel = .ok (d, plan)) (h' : emd δ q p fuel' = .ok (d', plan')) :
    |d - d'| ≤ 2 * emdTol (max p.length q.length) C := by
  have h1 := emd_near hp hq hδ.nonneg hC h
  have h2 := emd_near hq hp hδ.nonneg (fun s hs r hr => by rw [hδ.symm _ _ (hq.width s hs) (hp.width r hr)]; exact hC r hr s hs) h'
  rw [exactEmd_symm hδ hp hq, max_comm] at h2
  rw [abs_le] at *
  constructor <;> linarith [h1.1, h1.2, h2.1, h2.2]

example : ∃ fuel d plan plan', emd chebyshev pddA pddB fuel = .ok (d, plan) ∧ emd chebyshev pddB pddA fuel = .ok (d, plan') := by
  obtain ⟨n, hn⟩ := C33_terminates pddA_weighted pddB_weighted (EMD_default_metric 2).nonneg
  obtain ⟨m, hm⟩ := C33_terminates pddB_weighted pddA_weighted (EMD_default_metric 2).nonneg
  obtain ⟨⟨d, plan⟩, h⟩ := hn (max n m) (le_max_left _ _)
  obtain ⟨⟨d', plan'⟩, h'⟩ := hm (max n m) (le_max_right _ _)
  obtain rfl := C30_symmetric (EMD_default_metric 2) pddA_weighted pddB_weighted (by simp [pddA]) (by simp [pddB]) h h'
  exact ⟨_, _, _, _, h, h'⟩

/-! ### C31 -/

/-- **C31** The triangle inequality, up to rounding. -/
theorem C31_triangle (hδ : RowMetric k δ) (hp : WeightedRows k p) (hq : WeightedRows k q) (hr : WeightedRows k r) {n : ℕ} (hpn : p.length ≤ n) (hqn : q.length ≤ n)
    (hrn : r.length ≤ n) (hC : ∀ x ∈ p ++ q ++ r, ∀ y ∈ p ++ q ++ r, δ x.dists y.dists ≤ C) {fuel₁ fuel₂ fuel₃ : ℕ} {d₁ d₂ d₃ : ℝ} {plan₁ plan₂ plan₃ : List (List ℝ)}
    (h₁ : emd δ p q fuel₁ = .ok (d₁, plan₁)) (h₂ : emd δ q r fuel₂ = .ok (d₂, plan₂)) (h₃ : emd δ p r fuel₃ = .ok (d₃, plan₃)) :
    d₃ ≤ d₁ + d₂ + 3 * emdTol n C := by
  have m1 : ∀ x ∈ p, x ∈ p ++ q ++ r := fun x hx => by simp [hx]
  have m2 : ∀ x ∈ q, x ∈ p ++ q ++ r := fun x hx => by simp [hx]
  have m3 : ∀ x ∈ r, x ∈ p ++ q ++ r := fun x hx => by simp [hx]
  have e1 := emd_near hp hq hδ.nonneg (fun x hx y hy => hC x (m1 x hx) y (m2 y hy)) h₁
  have e2 := emd_near hq hr hδ.nonneg (fun x hx y hy => hC x (m2 x hx) y (m3 y hy)) h₂
  have e3 := emd_near hp hr hδ.nonneg (fun x hx y hy => hC x (m1 x hx) y (m3 y hy)) h₃
  have ht := exactEmd_triangle hδ hp hq hr
  have hC0 : 0 ≤ C := by
    obtain ⟨x, hx⟩ := List.exists_mem_of_ne_nil _ hp.nonempty
    exact (hδ.nonneg _ _ (hp.width x hx) (hp.width x hx)).trans (hC x (m1 x hx) x (m1 x hx))
  have mono : ∀ m : ℕ, m ≤ n → emdTol m C ≤ emdTol n C := fun m hm => by
    unfold emdTol
    have : (m : ℝ) ≤ n := by exact_mod_cast hm
    apply div_le_div_of_nonneg_right _ (by norm_num)
    nlinarith
  have t1 := mono _ (max_le hpn hqn)
  have t2 := mono _ (max_le hqn hrn)
  have t3 := mono _ (max_le hpn hrn)
  rw [abs_le] at e1 e2 e3
  linarith [e1.1, e2.1, e3.2]

/-- A PDD with one row and one column. -/
noncomputable def pddOne (x : ℝ) : List (PRow ℝ) := [{ weight := 1, dists := [x], group := [0] }]

theorem pddOne_weighted (x : ℝ) : WeightedRows 1 (pddOne x) :=
  ⟨by simp [pddOne], by simp [pddOne], by intro r hr; rw [pddOne, List.mem_singleton] at hr; rw [hr]; norm_num, by simp [pddOne]⟩

theorem pddOne_emd (x y : ℝ) : ∃ fuel0, ∀ fuel ≥ fuel0, ∃ plan, emd chebyshev (pddOne x) (pddOne y) fuel = .ok ((⌊|x - y| * 100000000⌋ : ℝ) / 100000000, plan) := by
  obtain ⟨n, hn⟩ := C33_terminates (pddOne_weighted x) (pddOne_weighted y) (EMD_default_metric 1).nonneg
  refine ⟨n, fun fuel hf => ?_⟩
  obtain ⟨⟨d, plan⟩, h⟩ := hn fuel hf
  refine ⟨plan, ?_⟩
  rw [h]
  have := emd_single (k := 1) rfl rfl (EMD_default_metric 1).nonneg h
  rw [this]
  simp [chebyshev]

/-- The rounding cannot be dropped from `C31_triangle`: the exact triangle inequality is false. -/
theorem C31_exact_false : ∃ (p q r : List (PRow ℝ)) (fuel : ℕ) (d₁ d₂ d₃ : ℝ) (plan₁ plan₂ plan₃ : List (List ℝ)),
    WeightedRows 1 p ∧ WeightedRows 1 q ∧ WeightedRows 1 r ∧ emd chebyshev p q fuel = .ok (d₁, plan₁) ∧ emd chebyshev q r fuel = .ok (d₂, plan₂) ∧
      emd chebyshev p r fuel = .ok (d₃, plan₃) ∧ d₁ + d₂ < d₃ := by
  obtain ⟨n1, h1⟩ := pddOne_emd 0 (6 / 1000000000)
  obtain ⟨n2, h2⟩ := pddOne_emd (6 / 1000000000) (12 / 1000000000)
  obtain ⟨n3, h3⟩ := pddOne_emd 0 (12 / 1000000000)
  obtain ⟨p1, e1⟩ := h1 (max n1 (max n2 n3)) (le_max_left _ _)
  obtain ⟨p2, e2⟩ := h2 (max n1 (max n2 n3)) ((le_max_left _ _).trans (le_max_right _ _))
  obtain ⟨p3, e3⟩ := h3 (max n1 (max n2 n3)) ((le_max_right _ _).trans (le_max_right _ _))
  refine ⟨_, _, _, _, _, _, _, _, _, _, pddOne_weighted _, pddOne_weighted _, pddOne_weighted _, e1, e2, e3, ?_⟩
  have f1 : ⌊|(0 : ℝ) - 6 / 1000000000| * 100000000⌋ = 0 := by
    rw [abs_of_nonpos (by norm_num), Int.floor_eq_iff]; norm_num
  have f2 : ⌊|(6 : ℝ) / 1000000000 - 12 / 1000000000| * 100000000⌋ = 0 := by
    rw [abs_of_nonpos (by norm_num), Int.floor_eq_iff]; norm_num
  have f3 : ⌊|(0 : ℝ) - 12 / 1000000000| * 100000000⌋ = 1 := by
    rw [abs_of_nonpos (by norm_num), Int.floor_eq_iff]; norm_num
  rw [f1, f2, f3]
  norm_num

example : ∀ x ∈ pddA ++ pddB ++ pddA, ∀ y ∈ pddA ++ pddB ++ pddA, chebyshev x.dists y.dists ≤ 4 := by
  intro r hr s hs
  simp only [pddA, pddB, List.mem_append, List.mem_cons, List.not_mem_nil, or_false] at hr hs
  rcases hr with ((rfl | rfl) | (rfl | rfl | rfl)) | (rfl | rfl) <;> rcases hs with ((rfl | rfl) | (rfl | rfl | rfl)) | (rfl | rfl) <;> norm_num [chebyshev]

/-! ### C32 -/

/-- **C32** The Chebyshev distance of AMDs is at most the Earth mover's distance of PDDs, up to rounding. -/
theorem C32_amd_lower_bound (hp : WeightedRows k p) (hq : WeightedRows k q) (hC : ∀ r ∈ p, ∀ s ∈ q, chebyshev r.dists s.dists ≤ C) {u v : List ℝ}
    (hu : pddToAmd k p = .ok u) (hv : pddToAmd k q = .ok v) {fuel : ℕ} {d : ℝ} {plan : List (List ℝ)} (h : emd chebyshev p q fuel = .ok (d, plan)) :
    chebyshev u v ≤ d + emdTol (max p.length q.length) C := by
  have h1 := emd_near hp hq (EMD_default_metric k).nonneg hC h
  have h2 := amd_le_exactEmd hp hq hu hv
  rw [abs_le] at h1
  linarith [h1.1]

theorem pddOne_amd (x : ℝ) : pddToAmd 1 (pddOne x) = .ok [x] := by
  simp [pddToAmd, pddOne]

/-- The rounding cannot be dropped from `C32_amd_lower_bound`. -/
theorem C32_exact_false : ∃ (p q : List (PRow ℝ)) (u v : List ℝ) (fuel : ℕ) (d : ℝ) (plan : List (List ℝ)), WeightedRows 1 p ∧ WeightedRows 1 q ∧
    pddToAmd 1 p = .ok u ∧ pddToAmd 1 q = .ok v ∧ emd chebyshev p q fuel = .ok (d, plan) ∧ d < chebyshev u v := by
  obtain ⟨n1, h1⟩ := pddOne_emd 0 (6 / 1000000000)
  obtain ⟨p1, e1⟩ := h1 n1 le_rfl
  refine ⟨_, _, _, _, _, _, _, pddOne_weighted _, pddOne_weighted _, pddOne_amd _, pddOne_amd _, e1, ?_⟩
  have f1 : ⌊|(0 : ℝ) - 6 / 1000000000| * 100000000⌋ = 0 := by
    rw [abs_of_nonpos (by norm_num), Int.floor_eq_iff]; norm_num
  rw [f1]
  norm_num [chebyshev]

example : ∃ u v, pddToAmd 2 pddA = .ok u ∧ pddToAmd 2 pddB = .ok v ∧ chebyshev u v = 1 / 2 := by
  have h1 : pddToAmd 2 pddA = .ok [1, 8 / 3] := by
    have : ((pddA.map (·.weight)).sum) = 1 := pddA_weighted.total
    unfold pddToAmd
    rw [this, if_neg (by norm_num)]
    simp [pddA, List.range_succ]
    norm_num
  have h2 : pddToAmd 2 pddB = .ok [3 / 2, 9 / 4] := by
    have : ((pddB.map (·.weight)).sum) = 1 := pddB_weighted.total
    unfold pddToAmd
    rw [this, if_neg (by norm_num)]
    simp [pddB, List.range_succ]
    norm_num
  refine ⟨_, _, h1, h2, ?_⟩
  norm_num [chebyshev]

/-! ### C34 -/

/-- **C34** `EMD` depends only on how much weight each row of distances has in total, up to rounding: reordering rows, or splitting a row
into copies that share its weight, does not matter. -/
theorem C34_rows {p' : List (PRow ℝ)} (hδ : RowMetric k δ) (hp : WeightedRows k p) (hp' : WeightedRows k p') (hq : WeightedRows k q)
    (hw : ∀ x, weightAt p x = weightAt p' x) {n : ℕ} (hpn : p.length ≤ n) (hpn' : p'.length ≤ n) (hqn : q.length ≤ n)
    (hC : ∀ r ∈ p ++ p', ∀ s ∈ q, δ r.dists s.dists ≤ C) {fuel fuel' : ℕ} {d d' : ℝ} {plan plan' : List (List ℝ)}
    (h : emd δ p q fuel = .ok (d, plan)) (h' : emd δ p' q fuel' = .ok (d', plan')) : |d - d'| ≤ 2 * emdTol n C := by
  have e1 := emd_near hp hq hδ.nonneg (fun x hx y hy => hC x (by simp [hx]) y hy) h
  have e2 := emd_near hp' hq hδ.nonneg (fun x hx y hy => hC x (by simp [hx]) y hy) h'
  rw [exactEmd_congr hδ hp hp' hq hw] at e1
  have hC0 : 0 ≤ C := by
    obtain ⟨x, hx⟩ := List.exists_mem_of_ne_nil _ hp.nonempty
    obtain ⟨y, hy⟩ := List.exists_mem_of_ne_nil _ hq.nonempty
    exact (hδ.nonneg _ _ (hp.width x hx) (hq.width y hy)).trans (hC x (by simp [hx]) y hy)
  have mono : ∀ m : ℕ, m ≤ n → emdTol m C ≤ emdTol n C := fun m hm => by
    unfold emdTol
    have : (m : ℝ) ≤ n := by exact_mod_cast hm
    apply div_le_div_of_nonneg_right _ (by norm_num)
    nlinarith
  have t1 := mono _ (max_le hpn hqn)
  have t2 := mono _ (max_le hpn' hqn)
  rw [abs_le] at *
  constructor <;> linarith [e1.1, e1.2, e2.1, e2.2]

/-- **C34** The distance of a PDD to the same rows in another order is exactly 0. -/
theorem C34_reordered (hδ : RowMetric k δ) (hp : WeightedRows k p) (hq : WeightedRows k q)
    (hpq : (p.map fun r => (r.weight, r.dists)).Perm (q.map fun r => (r.weight, r.dists))) {fuel : ℕ} {d : ℝ} {plan : List (List ℝ)}
    (h : emd δ p q fuel = .ok (d, plan)) : d = 0 := emd_perm_zero hδ hp hq hpq h

/-- **C34** The option `lexsort` of `PDD` does not matter: the two results are at distance exactly 0. -/
theorem C34_lexsort {S : PeriodicSet D} {inds : List (Fin S.motif.length)} {mult : List ℕ} (hD : 0 < D)
    (hu : S.Units inds mult) (hne : inds ≠ []) (hpos : ∀ n ∈ mult, 0 < n) (hsum : mult.sum = S.motif.length) (hlen : S.motif.length ≤ 100000000)
    {collapse : Bool} {tol : ℝ} {fuel fuel' : ℕ} {pdd pdd' : List (PRow ℝ)} (h : PDD S k false collapse tol fuel = .ok pdd)
    (h' : PDD S k true collapse tol fuel = .ok pdd') {d : ℝ} {plan : List (List ℝ)} (hd : emd chebyshev pdd pdd' fuel' = .ok (d, plan)) : d = 0 := by
  obtain ⟨q, hq, hperm, -⟩ := C15_lexsort h
  rw [h'] at hq
  obtain rfl := Except.ok.inj hq
  exact C34_reordered (EMD_default_metric k) (EMD_input_of_PDD hD hu hne hpos hsum hlen h) (EMD_input_of_PDD hD hu hne hpos hsum hlen h')
    (hperm.symm.map _) hd

/-- One row split into three equal copies. -/
noncomputable def pddThird (x : ℝ) : List (PRow ℝ) := List.replicate 3 { weight := 1 / 3, dists := [x], group := [0] }

theorem pddThird_weighted (x : ℝ) : WeightedRows 1 (pddThird x) := by
  refine ⟨by simp [pddThird], ?_, ?_, by simp [pddThird]; norm_num⟩
  · intro r hr; rw [(List.mem_replicate.1 hr).2]; rfl
  · intro r hr; rw [(List.mem_replicate.1 hr).2]; norm_num

theorem pddThird_weightAt (x : ℝ) (y : List ℝ) : weightAt (pddOne x) y = weightAt (pddThird x) y := by
  unfold weightAt pddOne pddThird
  by_cases h : [x] = y
  · simp [h, List.replicate_succ]
    norm_num
  · simp [h, List.replicate_succ]

/-- The rounding cannot be dropped from `C34_rows`: splitting a row into three changes the returned distance. -/
theorem C34_exact_false : ∃ (p p' q : List (PRow ℝ)) (fuel : ℕ) (d d' : ℝ) (plan plan' : List (List ℝ)), WeightedRows 1 p ∧ WeightedRows 1 p' ∧ WeightedRows 1 q ∧
    (∀ x, weightAt p x = weightAt p' x) ∧ emd chebyshev p q fuel = .ok (d, plan) ∧ emd chebyshev p' q fuel = .ok (d', plan') ∧ d' < d := by
  obtain ⟨n1, h1⟩ := pddOne_emd 0 1
  obtain ⟨X, n2, hX, -, h2, eX⟩ := emd_out (pddThird_weighted 0) (pddOne_weighted 1) (EMD_default_metric 1).nonneg
  obtain ⟨p1, e1⟩ := h1 (max n1 n2) (le_max_left _ _)
  obtain ⟨⟨d', plan'⟩, e2⟩ := h2 (max n1 n2) (le_max_right _ _)
  refine ⟨_, _, _, _, _, _, _, _, pddOne_weighted 0, pddThird_weighted 0, pddOne_weighted 1, pddThird_weightAt 0, e1, e2, ?_⟩
  have e := eX _ _ e2
  rw [Prod.mk.injEq] at e
  rw [e.1]
  have f0 : ⌊|(0 : ℝ) - 1| * 100000000⌋ = 100000000 := by norm_num
  have hx : ∀ i j, X i j ≤ 33333333 := by
    intro i j
    refine (hX.bounds i j).2.1.trans (le_of_eq ?_)
    have : (pddThird 0)[i].weight = 1 / 3 := by
      exact congrArg PRow.weight (List.mem_replicate.1 (List.getElem_mem (l := pddThird 0) i.2)).2
    rw [this, Int.floor_eq_iff]
    norm_num
  have hcost : ∀ (i : Fin (pddThird 0).length) (j : Fin (pddOne 1).length), ⌊chebyshev (pddThird 0)[i].dists (pddOne 1)[j].dists * 100000000⌋ = 100000000 := by
    intro i j
    have w1 : (pddThird 0)[i].dists = [0] := by
      exact congrArg PRow.dists (List.mem_replicate.1 (List.getElem_mem (l := pddThird 0) i.2)).2
    have w2 : (pddOne 1)[j].dists = [1] := by
      have := List.getElem_mem (l := pddOne 1) j.2
      exact congrArg PRow.dists (List.mem_singleton.1 this)
    rw [w1, w2]
    norm_num [chebyshev]
  have bound : ∑ i : Fin (pddThird 0).length, ∑ j : Fin (pddOne 1).length, (X i j : ℝ) / 100000000 *
      ((⌊chebyshev (pddThird 0)[i].dists (pddOne 1)[j].dists * 100000000⌋ : ℝ) / 100000000) ≤
      ∑ _i : Fin (pddThird 0).length, ∑ _j : Fin (pddOne 1).length, (33333333 : ℝ) / 100000000 := by
    refine sum_le_sum fun i _ => sum_le_sum fun j _ => ?_
    rw [hcost]
    have : (X i j : ℝ) ≤ 33333333 := by exact_mod_cast hx i j
    norm_num
    linarith
  refine lt_of_le_of_lt bound ?_
  rw [f0]
  simp only [sum_const, card_univ, Fintype.card_fin, nsmul_eq_mul]
  norm_num [pddThird, pddOne]

end Amd
