import Verif.Proof.Pairwise
import Verif.Props.EMD

/-!
# Distance matrices of AMDs and PDDs: C35, C36

`amdCdist`, `amdPdist`, `pddCdist`, `pddPdist` model the functions `AMD_cdist`, `AMD_pdist`, `PDD_cdist`, `PDD_pdist`.
-/

namespace Amd

variable {other : String → List ℝ → List ℝ → ℝ} {k : ℕ}

/-! ### C35 -/

/-- `x` is the largest difference of corresponding entries. -/
def IsMaxDiff (r s : List ℝ) (x : ℝ) : Prop :=
  (∀ t < r.length, |r.getD t 0 - s.getD t 0| ≤ x) ∧ ∃ t < r.length, |r.getD t 0 - s.getD t 0| = x

/-- **C35** The Chebyshev distance is the largest difference of corresponding entries. -/
theorem C35_chebyshev : ∀ {k : ℕ} {r s : List ℝ}, 0 < k → r.length = k → s.length = k → IsMaxDiff r s (chebyshev r s)
  | 0, _, _, h, _, _ => by omega
  | k + 1, a :: r, b :: s, _, hr, hs => by
    have e : chebyshev (a :: r) (b :: s) = max |a - b| (chebyshev r s) := by simp [chebyshev]
    simp only [List.length_cons, Nat.add_right_cancel_iff] at hr hs
    rw [e]
    rcases Nat.eq_zero_or_pos k with rfl | hk
    · rw [List.length_eq_zero_iff] at hr hs
      subst hr hs
      have e0 : chebyshev ([] : List ℝ) [] = 0 := by simp [chebyshev]
      rw [e0, max_eq_left (abs_nonneg _)]
      refine ⟨fun t ht => ?_, 0, by simp, by simp⟩
      simp only [List.length_cons, List.length_nil] at ht
      obtain rfl : t = 0 := by omega
      simp
    · obtain ⟨h1, t, h2, h3⟩ := C35_chebyshev hk hr hs
      refine ⟨fun u hu => ?_, ?_⟩
      · cases u with
        | zero => simp
        | succ u =>
          simp only [List.length_cons] at hu
          simpa using Or.inr (h1 u (by omega))
      · rcases le_total |a - b| (chebyshev r s) with h | h
        · rw [max_eq_right h]
          exact ⟨t + 1, by simpa using h2, by simpa using h3⟩
        · rw [max_eq_left h]
          exact ⟨0, by simp, by simp⟩

/-- **C35** For collections of AMDs of the same length, `AMD_cdist` returns the matrix of Chebyshev distances, for both values of `low_memory`. -/
theorem C35_cdist (hk : 0 < k) {a b : Amds ℝ} (ha : a.Width k) (hb : b.Width k) (ha' : (∃ c rows, a = .array c rows) ∨ a.rows ≠ [])
    (hb' : (∃ c rows, b = .array c rows) ∨ b.rows ≠ []) (lowMemory : Bool) :
    ∃ M, amdCdist other a b (.named "chebyshev") lowMemory = .ok M ∧
      IsMatrix a.rows.length b.rows.length (fun i j => chebyshev (a.rows.getD i []) (b.rows.getD j [])) M := by
  refine ⟨a.rows.map fun v => b.rows.map fun r => chebyshev v r, ?_, by simp, by simp, fun i j hi hj => ?_⟩
  · cases lowMemory with
    | true =>
      rw [amdCdist, if_pos rfl, if_neg (by simp [MetricArg.notChebyshev])]
      exact mapE_ok fun v hv => maxAbsDiff_eq hk (hb.toArray hb') hb (ha.rows v hv)
    | false =>
      rw [amdCdist, if_neg (by simp), scipyCdist, ha.toArray ha', hb.toArray hb']
      simp [MetricArg.dist]
  · simp [List.getD_eq_getElem?_getD, hi, hj]

/-- **C35** For an array of AMDs, `AMD_pdist` returns the condensed matrix of Chebyshev distances, for both values of `low_memory`. Missing:
`low_memory` for a list of AMDs, see `C35_false`. -/
theorem C35_pdist_partial (hk : 0 < k) {rows : List (List ℝ)} (hw : ∀ r ∈ rows, r.length = k) (lowMemory : Bool) :
    ∃ v, amdPdist other (.array k rows) (.named "chebyshev") lowMemory = .ok v ∧
      IsCondensed rows.length (fun i j => chebyshev (rows.getD i []) (rows.getD j [])) v := by
  refine ⟨_, ?_, isCondensed_iff.2 rfl⟩
  cases lowMemory with
  | true => exact amdPdist_low hk hw
  | false => simp [amdPdist, scipyPdist, Amds.toArray, MetricArg.dist]

/-- **C35** Without `low_memory`, lists of AMDs are compared in the same way. -/
theorem C35_pdist_list {rows : List (List ℝ)} (hne : rows ≠ []) (hw : ∀ r ∈ rows, r.length = k) :
    ∃ v, amdPdist other (.list rows) (.named "chebyshev") false = .ok v ∧
      IsCondensed rows.length (fun i j => chebyshev (rows.getD i []) (rows.getD j [])) v := by
  refine ⟨_, ?_, isCondensed_iff.2 rfl⟩
  rw [amdPdist, if_neg (by simp), scipyPdist, Amds.Width.toArray (a := .list rows) hw (Or.inr hne)]
  simp [MetricArg.dist, Amds.rows]

/-- **C35** Without `low_memory`, the entries are the distances by the metric given. -/
theorem C35_metric {rows rows' : List (List ℝ)} (metric : MetricArg ℝ) :
    (∃ M, amdCdist other (.array k rows) (.array k rows') metric false = .ok M ∧
      IsMatrix rows.length rows'.length (fun i j => metric.dist other (rows.getD i []) (rows'.getD j [])) M) ∧
    ∃ v, amdPdist other (.array k rows) metric false = .ok v ∧
      IsCondensed rows.length (fun i j => metric.dist other (rows.getD i []) (rows.getD j [])) v := by
  refine ⟨⟨rows.map fun v => rows'.map fun r => metric.dist other v r, ?_, by simp, by simp, fun i j hi hj => ?_⟩, _, ?_, isCondensed_iff.2 rfl⟩
  · simp [amdCdist, scipyCdist, Amds.toArray]
  · simp [List.getD_eq_getElem?_getD, hi, hj]
  · simp [amdPdist, scipyPdist, Amds.toArray]

/-- **C35** With `low_memory`, every metric but `'chebyshev'` raises ValueError. -/
theorem C35_low_memory_metric (a b : Amds ℝ) (metric : MetricArg ℝ) (h : metric ≠ .named "chebyshev") :
    amdCdist other a b metric true = .error .value ∧ amdPdist other a metric true = .error .value := by
  have e : metric.notChebyshev = true := by
    cases metric with
    | named s => simpa [MetricArg.notChebyshev] using h
    | fn f => rfl
  simp [amdCdist, amdPdist, e]

/-- **C35 does not hold** for lists, which are documented as accepted: `AMD_pdist` returns the distances of two AMDs in a list, but with
`low_memory` it raises ValueError. -/
theorem C35_false : ∃ rows : List (List ℝ), (∀ r ∈ rows, r.length = 2) ∧ amdPdist other (.list rows) (.named "chebyshev") false = .ok [1] ∧
    amdPdist other (.list rows) (.named "chebyshev") true = .error .value := by
  refine ⟨[[1, 2], [1, 3]], by simp, ?_, ?_⟩
  · simp [amdPdist, scipyPdist, Amds.toArray, combinations2, List.range_succ, MetricArg.dist, chebyshev]
    norm_num
  · simp [amdPdist, Amds.rows, MetricArg.notChebyshev, pdistLoop, List.range_succ, maxAbsDiff, Amds.toArray, Amds.drop, mapE, maxE, assignSlice,
      Except.bind]

example : ∃ v, amdPdist other (.array 2 [[1, 2], [1, 3], [0, 7]]) (.named "chebyshev") true = .ok v ∧
    IsCondensed 3 (fun i j => chebyshev (([[1, 2], [1, 3], [0, 7]] : List (List ℝ)).getD i []) ([[1, 2], [1, 3], [0, 7]].getD j [])) v :=
  C35_pdist_partial (by norm_num) (by simp) true

example : ∃ M, amdCdist other (.array 2 [[1, 2], [1, 3]]) (.list [[0, 7]]) (.named "chebyshev") true = .ok M ∧
    IsMatrix 2 1 (fun i j => chebyshev (([[1, 2], [1, 3]] : List (List ℝ)).getD i []) ([[0, 7]].getD j [])) M :=
  C35_cdist (k := 2) (by norm_num) (by simp [Amds.Width]) (by simp [Amds.Width]) (Or.inl ⟨_, _, rfl⟩) (Or.inr (by simp [Amds.rows])) true

/-! ### C36 -/

variable {δ : List ℝ → List ℝ → ℝ} {ps qs : List (List (PRow ℝ))} {sched sched' : Scheduler}

/-- **C36** Whether and what `PDD_cdist` returns does not depend on `backend`, `n_jobs`, `verbose` or the order in which parallel tasks finish. -/
theorem C36_cdist_schedule (hs : sched.Complete) (hs' : sched'.Complete) (opts opts' : JobOpts) (fuel : ℕ) (M : List (List ℝ)) :
    pddCdist δ sched opts ps qs fuel = .ok M ↔ pddCdist δ sched' opts' ps qs fuel = .ok M := by
  unfold pddCdist
  rw [pddCdistWith_ok_iff hs, pddCdistWith_ok_iff hs']

/-- **C36** Whether and what `PDD_pdist` returns does not depend on `backend`, `n_jobs`, `verbose` or the order in which parallel tasks finish. -/
theorem C36_pdist_schedule (hs : sched.Complete) (hs' : sched'.Complete) (opts opts' : JobOpts) (fuel : ℕ) (v : List ℝ) :
    pddPdist δ sched opts ps fuel = .ok v ↔ pddPdist δ sched' opts' ps fuel = .ok v := by
  unfold pddPdist
  rw [pddPdistWith_ok_iff hs, pddPdistWith_ok_iff hs']

theorem emd_map_ok {p q : List (PRow ℝ)} {fuel : ℕ} {x : ℝ} : (emd δ p q fuel).map (·.1) = .ok x ↔ ∃ plan, emd δ p q fuel = .ok (x, plan) := by
  cases h : emd δ p q fuel with
  | error e => simp [Except.map]
  | ok r =>
    obtain ⟨y, plan⟩ := r
    simp [Except.map]

/-- For finitely many pairs of PDDs there is a number of steps after which `EMD` has returned for all of them. -/
theorem emd_all (hps : ∀ p ∈ ps, WeightedRows k p) (hqs : ∀ q ∈ qs, WeightedRows k q) (hδ : ∀ r s, r.length = k → s.length = k → 0 ≤ δ r s) :
    ∃ F, ∃ d : ℕ → ℕ → ℝ, ∀ fuel ≥ F, ∀ i j (hi : i < ps.length) (hj : j < qs.length), ∃ plan, emd δ ps[i] qs[j] fuel = .ok (d i j, plan) := by
  have key : ∀ i : Fin ps.length, ∀ j : Fin qs.length, ∃ F, ∃ d : ℝ, ∀ fuel ≥ F, ∃ plan, emd δ ps[i] qs[j] fuel = .ok (d, plan) := by
    intro i j
    obtain ⟨F, hF⟩ := C33_terminates (hps _ (List.getElem_mem i.2)) (hqs _ (List.getElem_mem j.2)) hδ
    obtain ⟨⟨d, plan⟩, hd⟩ := hF F le_rfl
    refine ⟨F, d, fun fuel hf => ⟨plan, ?_⟩⟩
    obtain ⟨r, hr⟩ := hF fuel hf
    have e := C33_unique hr hd
    subst e
    exact hr
  choose F d h using key
  refine ⟨(Finset.univ : Finset (Fin ps.length × Fin qs.length)).sup fun ij => F ij.1 ij.2,
    fun i j => if hi : i < ps.length then if hj : j < qs.length then d ⟨i, hi⟩ ⟨j, hj⟩ else 0 else 0, fun fuel hf i j hi hj => ?_⟩
  obtain ⟨plan, hp⟩ := h ⟨i, hi⟩ ⟨j, hj⟩ fuel (le_trans (Finset.le_sup (f := fun ij : Fin ps.length × Fin qs.length => F ij.1 ij.2)
    (Finset.mem_univ (⟨i, hi⟩, ⟨j, hj⟩))) hf)
  refine ⟨plan, ?_⟩
  beta_reduce
  rw [dif_pos hi, dif_pos hj]
  exact hp

/-- **C36** `PDD_cdist` returns the matrix of the Earth mover's distances, for all options and schedules. -/
theorem C36_cdist (hne : ps ≠ []) (hps : ∀ p ∈ ps, WeightedRows k p) (hqs : ∀ q ∈ qs, WeightedRows k q)
    (hδ : ∀ r s, r.length = k → s.length = k → 0 ≤ δ r s) :
    ∃ M F, ∃ d : ℕ → ℕ → ℝ, IsMatrix ps.length qs.length d M ∧ ∀ fuel ≥ F,
      (∀ i j (hi : i < ps.length) (hj : j < qs.length), ∃ plan, emd δ ps[i] qs[j] fuel = .ok (d i j, plan)) ∧
      ∀ (sched : Scheduler) (opts : JobOpts), sched.Complete → pddCdist δ sched opts ps qs fuel = .ok M := by
  obtain ⟨F, d, h⟩ := emd_all hps hqs hδ
  have hM : IsMatrix ps.length qs.length d ((List.range ps.length).map fun i => (List.range qs.length).map fun j => d i j) := by
    refine ⟨by simp, by simp, fun i j hi hj => ?_⟩
    simp [List.getD_eq_getElem?_getD, hi, hj]
  refine ⟨_, F, d, hM, fun fuel hf => ⟨h fuel hf, fun sched opts hs => ?_⟩⟩
  unfold pddCdist
  rw [pddCdistWith_ok_iff hs]
  exact ⟨hne, d, hM, fun i j hi hj => emd_map_ok.2 (h fuel hf i j hi hj)⟩

/-- **C36** `PDD_pdist` returns the condensed matrix of the Earth mover's distances, for all options and schedules. -/
theorem C36_pdist (hne : ps ≠ []) (hps : ∀ p ∈ ps, WeightedRows k p) (hδ : ∀ r s, r.length = k → s.length = k → 0 ≤ δ r s) :
    ∃ v F, ∃ d : ℕ → ℕ → ℝ, IsCondensed ps.length d v ∧ ∀ fuel ≥ F,
      (∀ i j (hij : i < j) (hj : j < ps.length), ∃ plan, emd δ ps[i] ps[j] fuel = .ok (d i j, plan)) ∧
      ∀ (sched : Scheduler) (opts : JobOpts), sched.Complete → pddPdist δ sched opts ps fuel = .ok v := by
  obtain ⟨F, d, h⟩ := emd_all hps hps hδ
  have hM : IsCondensed ps.length d ((combinations2 ps.length).map fun ij => d ij.1 ij.2) := isCondensed_iff.2 rfl
  refine ⟨_, F, d, hM, fun fuel hf => ⟨fun i j hij hj => h fuel hf i j (by omega) hj, fun sched opts hs => ?_⟩⟩
  unfold pddPdist
  rw [pddPdistWith_ok_iff hs]
  exact ⟨hne, d, hM, fun i j hij hj => emd_map_ok.2 (h fuel hf i j (by omega) hj)⟩

/-- **C36** If `EMD` raises for some pair, so does `PDD_cdist`, for all options and schedules. An empty first collection is an IndexError. -/
theorem C36_cdist_raises (hs : sched.Complete) (opts : JobOpts) {fuel : ℕ} (h : ps = [] ∨ ∃ p ∈ ps, ∃ q ∈ qs, ∃ e, emd δ p q fuel = .error e) :
    ∃ e, pddCdist δ sched opts ps qs fuel = .error e := by
  cases hM : pddCdist δ sched opts ps qs fuel with
  | error e => exact ⟨e, rfl⟩
  | ok M =>
    exfalso
    unfold pddCdist at hM
    rw [pddCdistWith_ok_iff hs] at hM
    obtain ⟨h1, d, -, h2⟩ := hM
    rcases h with h | ⟨p, hp, q, hq, e, he⟩
    · exact h1 h
    obtain ⟨i, hi, rfl⟩ := List.getElem_of_mem hp
    obtain ⟨j, hj, rfl⟩ := List.getElem_of_mem hq
    have := h2 i j hi hj
    simp [he, Except.map] at this

/-- Three PDDs. -/
noncomputable def pddList : List (List (PRow ℝ)) := [pddA, pddB, pddA]

example : ∃ v F, ∃ d : ℕ → ℕ → ℝ, IsCondensed pddList.length d v ∧ ∀ fuel ≥ F,
    (∀ i j (_ : i < j) (hj : j < pddList.length), ∃ plan, emd chebyshev pddList[i] pddList[j] fuel = .ok (d i j, plan)) ∧
    ∀ (sched : Scheduler) (opts : JobOpts), sched.Complete → pddPdist chebyshev sched opts pddList fuel = .ok v :=
  C36_pdist (by simp [pddList]) (by simp [pddList, pddA_weighted, pddB_weighted]) (EMD_default_metric 2).nonneg

/-- Two schedules that meet the contract: in order and in reverse order. -/
example : Scheduler.Complete (fun _ n => List.range n) ∧ Scheduler.Complete (fun _ n => (List.range n).reverse) :=
  ⟨fun _ _ => List.Perm.refl _, fun _ _ => List.reverse_perm _⟩

end Amd
