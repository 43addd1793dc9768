import Verif.Proof.RoundingEmd
import Verif.Proof.CollapseEmd

/-!
# Collapsing with rounded arithmetic
-/

namespace Amd

open Finset

section
variable {fl : ℝ → ℝ} {u : ℝ}

theorem SumR.length_pos {l : List ℝ} {v : ℝ} (h : SumR fl l v) : 0 < l.length := by
  induction h with
  | one => simp
  | add _ _ ih => rw [List.length_append]; omega
  | perm hp _ ih => rwa [← hp.length_eq]

theorem abs_sum_le_map (l : List ℝ) : |l.sum| ≤ (l.map abs).sum := by
  induction l with
  | nil => simp
  | cons a l ih =>
    simp only [List.map_cons, List.sum_cons]
    exact (abs_add_le _ _).trans (by linarith)

theorem SumR.error (hu : 0 ≤ u) (hfl : ∀ x, |fl x - x| ≤ u * |x|) {l : List ℝ} {v : ℝ} (h : SumR fl l v) : |v - l.sum| ≤ ((1 + u) ^ l.length - 1) * (l.map abs).sum := by
  have hG : ∀ n, 1 ≤ (1 + u) ^ n := fun n => one_le_pow₀ (by linarith)
  have hnn : ∀ l : List ℝ, 0 ≤ (l.map abs).sum := fun l => (abs_nonneg _).trans (abs_sum_le_map l)
  induction h with
  | one x =>
    simp only [List.sum_cons, List.sum_nil, add_zero, sub_self, abs_zero]
    exact mul_nonneg (sub_nonneg.2 (hG _)) (hnn _)
  | @add l l' v v' hv hv' ih ih' =>
    simp only [List.map_append, List.sum_append, List.length_append]
    set S := l.sum
    set T := (l.map abs).sum
    set S' := l'.sum
    set T' := (l'.map abs).sum
    have hT0 : 0 ≤ T := hnn l
    have hT0' : 0 ≤ T' := hnn l'
    have hS : |S| ≤ T := abs_sum_le_map l
    have hS' : |S'| ≤ T' := abs_sum_le_map l'
    have h1 := hfl (v + v')
    have h2 : |v + v'| ≤ (1 + u) ^ l.length * T + (1 + u) ^ l'.length * T' := by
      have e1 : |v| ≤ |v - S| + |S| := by
        have := abs_add_le (v - S) S
        simpa using this
      have e2 : |v'| ≤ |v' - S'| + |S'| := by
        have := abs_add_le (v' - S') S'
        simpa using this
      have := abs_add_le v v'
      linarith
    have h3 : |fl (v + v') - (S + S')| ≤ |fl (v + v') - (v + v')| + (|v - S| + |v' - S'|) := by
      have := abs_add_le (fl (v + v') - (v + v')) ((v - S) + (v' - S'))
      have e : fl (v + v') - (v + v') + ((v - S) + (v' - S')) = fl (v + v') - (S + S') := by ring
      rw [e] at this
      have := abs_add_le (v - S) (v' - S')
      linarith
    have h4 : u * |v + v'| ≤ u * ((1 + u) ^ l.length * T + (1 + u) ^ l'.length * T') := by gcongr
    have hpow : ∀ a b : ℕ, 0 < b → (1 + u) ^ (a + 1) ≤ (1 + u) ^ (a + b) := fun a b hb => pow_le_pow_right₀ (by linarith) (by omega)
    have h5 : ((1 + u) ^ (l.length + 1) - 1) * T ≤ ((1 + u) ^ (l.length + l'.length) - 1) * T := by
      have := hpow l.length l'.length hv'.length_pos
      gcongr
    have h6 : ((1 + u) ^ (l'.length + 1) - 1) * T' ≤ ((1 + u) ^ (l.length + l'.length) - 1) * T' := by
      have := hpow l'.length l.length hv.length_pos
      rw [Nat.add_comm l'.length l.length] at this
      gcongr
    have e : ((1 + u) ^ (l.length + 1) - 1) * T = u * ((1 + u) ^ l.length * T) + ((1 + u) ^ l.length - 1) * T := by
      rw [pow_succ]; ring
    have e' : ((1 + u) ^ (l'.length + 1) - 1) * T' = u * ((1 + u) ^ l'.length * T') + ((1 + u) ^ l'.length - 1) * T' := by
      rw [pow_succ]; ring
    rw [mul_add]
    linarith
  | perm hp _ ih =>
    rw [← hp.sum_eq, ← (hp.map _).sum_eq, ← hp.length_eq]
    exact ih

theorem SumR.nonneg (hu1 : u ≤ 1) (hfl : ∀ x, |fl x - x| ≤ u * |x|) {l : List ℝ} {v : ℝ} (h : SumR fl l v) : (∀ x ∈ l, 0 ≤ x) → 0 ≤ v := by
  induction h with
  | one x => intro h; exact h x (by simp)
  | add _ _ ih ih' =>
    intro h
    exact fl_nonneg hu1 hfl (add_nonneg (ih fun p hp => h p (List.mem_append_left _ hp)) (ih' fun p hp => h p (List.mem_append_right _ hp)))
  | perm hp _ ih => intro h; exact ih fun p hp' => h p (hp.subset hp')

theorem exists_sumR (fl : ℝ → ℝ) : ∀ l : List ℝ, l ≠ [] → ∃ v, SumR fl l v
  | [], h => absurd rfl h
  | [x], _ => ⟨_, .one x⟩
  | x :: y :: l, _ => by
    obtain ⟨v, hv⟩ := exists_sumR fl (y :: l) (by simp)
    exact ⟨_, .add (.one x) hv⟩

theorem exists_floatSum (fl : ℝ → ℝ) : ∃ total, FloatSum fl total := by
  classical
  exact ⟨fun l => if h : l ≠ [] then Classical.choose (exists_sumR fl l h) else 0, fun l h => by dsimp only; rw [dif_pos h]; exact Classical.choose_spec (exists_sumR fl l h)⟩

theorem exists_floatDot (fl : ℝ → ℝ) : ∃ dot, FloatDot fl dot := by
  classical
  exact ⟨fun l => if h : l ≠ [] then Classical.choose (exists_dotR fl l h) else 0, fun l h => by dsimp only; rw [dif_pos h]; exact Classical.choose_spec (exists_dotR fl l h)⟩

/-- Truncation of a number close to a fraction with denominator `m`. -/
theorem floor_close {m N : ℕ} {y : ℝ} (hm : 0 < m) (hy : 0 ≤ y) (h : |y - (N : ℝ) / m| * m < 1) (hN : 2 * m ≤ N) :
    ∃ W : ℕ, 0 < W ∧ (W : ℝ) ≤ y ∧ y < W + 1 ∧ (W : ℝ) ≤ (N : ℝ) / m ∧ (N : ℝ) / m ≤ W + 1 := by
  have hm' : (0 : ℝ) < m := by exact_mod_cast hm
  have e : |y - (N : ℝ) / m| * m = |y * m - N| := by
    rw [← abs_of_pos hm', ← abs_mul, abs_of_pos hm', sub_mul, div_mul_cancel₀ _ hm'.ne']
  rw [e, abs_lt] at h
  have h1 := Nat.floor_le hy
  have h2 := Nat.lt_floor_add_one y
  have a1 : ⌊y⌋₊ * m ≤ N := by
    have : (⌊y⌋₊ : ℝ) * m < N + 1 := by nlinarith
    have : ⌊y⌋₊ * m < N + 1 := by exact_mod_cast this
    omega
  have a2 : N ≤ (⌊y⌋₊ + 1) * m := by
    have : (N : ℝ) < (⌊y⌋₊ + 1) * m + 1 := by nlinarith
    have : N < (⌊y⌋₊ + 1) * m + 1 := by exact_mod_cast this
    omega
  refine ⟨⌊y⌋₊, ?_, h1, h2, ?_, ?_⟩
  · by_contra h0
    have : ⌊y⌋₊ = 0 := by omega
    rw [this] at a2
    omega
  · rw [le_div_iff₀ hm']; exact_mod_cast a1
  · rw [div_le_iff₀ hm']; exact_mod_cast a2

/-- A sum of rounded quotients, times `1e8`. -/
theorem weight_close (hu : 0 ≤ u) (hfl : ∀ x, |fl x - x| ≤ u * |x|) {m : ℕ} (hm : 0 < m) {ns : List ℕ} {v : ℝ} (h : SumR fl (ns.map fun n : ℕ => fl ((n : ℝ) / m)) v) (hns : ns.sum ≤ m)
    (hlen : ns.length ≤ m) (hum : 100000000 * ((1 + u) ^ (m + 2) - 1) * m < 1) : |fl (v * 100000000) - ((ns.sum * 100000000 : ℕ) : ℝ) / m| * m < 1 := by
  have hm' : (0 : ℝ) < m := by exact_mod_cast hm
  have hG : ∀ n, 1 ≤ (1 + u) ^ n := fun n => one_le_pow₀ (by linarith)
  have h1 := h.error hu hfl
  rw [List.length_map] at h1
  have hs : ∀ ns : List ℕ, |(ns.map fun n : ℕ => fl ((n : ℝ) / m)).sum - (ns.sum : ℕ) / (m : ℝ)| ≤ u * ((ns.sum : ℕ) / (m : ℝ)) ∧
      ((ns.map fun n : ℕ => fl ((n : ℝ) / m)).map abs).sum ≤ (1 + u) * ((ns.sum : ℕ) / (m : ℝ)) := by
    intro ns
    induction ns with
    | nil => simp
    | cons n ns ih =>
      obtain ⟨i1, i2⟩ := ih
      have e := hfl ((n : ℝ) / m)
      rw [abs_of_nonneg (a := (n : ℝ) / m) (by positivity)] at e
      simp only [List.map_cons, List.sum_cons, Nat.cast_add, add_div]
      constructor
      · have : ∀ x y z w : ℝ, x + y - (z + w) = (x - z) + (y - w) := by intros; ring
        rw [this, mul_add]
        exact (abs_add_le _ _).trans (add_le_add e i1)
      · rw [mul_add]
        refine add_le_add ?_ i2
        have := abs_add_le (fl ((n : ℝ) / m) - (n : ℝ) / m) ((n : ℝ) / m)
        rw [sub_add_cancel, abs_of_nonneg (a := (n : ℝ) / m) (by positivity)] at this
        linarith
  obtain ⟨s1, s2⟩ := hs ns
  set A : ℝ := (ns.sum : ℕ) / (m : ℝ) with hA
  have hA0 : 0 ≤ A := by positivity
  have hvA : |v - A| ≤ ((1 + u) ^ (ns.length + 1) - 1) * A := by
    have t := abs_add_le (v - (ns.map fun n : ℕ => fl ((n : ℝ) / m)).sum) ((ns.map fun n : ℕ => fl ((n : ℝ) / m)).sum - A)
    rw [sub_add_sub_cancel] at t
    have := mul_le_mul_of_nonneg_left s2 (sub_nonneg.2 (hG ns.length))
    have e : ((1 + u) ^ (ns.length + 1) - 1) * A = ((1 + u) ^ ns.length - 1) * ((1 + u) * A) + u * A := by rw [pow_succ]; ring
    linarith
  have hfv := hfl (v * 100000000)
  have hv' : |v| ≤ (1 + u) ^ (ns.length + 1) * A := by
    have := abs_add_le (v - A) A
    rw [sub_add_cancel, abs_of_nonneg hA0] at this
    linarith
  have key : |fl (v * 100000000) - A * 100000000| ≤ ((1 + u) ^ (ns.length + 2) - 1) * (A * 100000000) := by
    have t := abs_add_le (fl (v * 100000000) - v * 100000000) ((v - A) * 100000000)
    have e0 : fl (v * 100000000) - v * 100000000 + (v - A) * 100000000 = fl (v * 100000000) - A * 100000000 := by ring
    rw [e0, abs_mul (v - A), abs_of_pos (by norm_num : (0 : ℝ) < 100000000)] at t
    rw [abs_mul v, abs_of_pos (by norm_num : (0 : ℝ) < 100000000)] at hfv
    have := mul_le_mul_of_nonneg_left hv' hu
    have e : ((1 + u) ^ (ns.length + 2) - 1) * (A * 100000000) = u * ((1 + u) ^ (ns.length + 1) * A) * 100000000 + ((1 + u) ^ (ns.length + 1) - 1) * A * 100000000 := by
      rw [show ns.length + 2 = ns.length + 1 + 1 from rfl, pow_succ (1 + u) (ns.length + 1)]; ring
    rw [e]
    nlinarith
  have e1 : ((ns.sum * 100000000 : ℕ) : ℝ) / m = A * 100000000 := by rw [hA]; push_cast; ring
  have e2 : A * m = (ns.sum : ℕ) := by rw [hA, div_mul_cancel₀ _ hm'.ne']
  rw [e1]
  have k2 := mul_le_mul_of_nonneg_right key hm'.le
  have e3 : ((1 + u) ^ (ns.length + 2) - 1) * (A * 100000000) * m = 100000000 * ((1 + u) ^ (ns.length + 2) - 1) * (ns.sum : ℕ) := by
    rw [← e2]; ring
  rw [e3] at k2
  have k3 : ((ns.sum : ℕ) : ℝ) ≤ m := by exact_mod_cast hns
  have k4 : (1 + u) ^ (ns.length + 2) ≤ (1 + u) ^ (m + 2) := pow_le_pow_right₀ (by linarith) (by omega)
  have k5 : 100000000 * ((1 + u) ^ (ns.length + 2) - 1) * (ns.sum : ℕ) ≤ 100000000 * ((1 + u) ^ (m + 2) - 1) * m := by
    have g1 : 0 ≤ (1 + u) ^ (ns.length + 2) - 1 := sub_nonneg.2 (hG _)
    have g2 : 0 ≤ (1 + u) ^ (m + 2) - 1 := sub_nonneg.2 (hG _)
    have := mul_le_mul (by linarith : (1 + u) ^ (ns.length + 2) - 1 ≤ (1 + u) ^ (m + 2) - 1) k3 (Nat.cast_nonneg _) g2
    nlinarith
  linarith

/-- The rounded mean of rounded numbers. -/
theorem mean_close_R (hu : 0 ≤ u) (hfl : ∀ x, |fl x - x| ≤ u * |x|) {g : List ℕ} (hg : g ≠ []) {d b : ℕ → ℝ} {B E v : ℝ} (hd : ∀ i ∈ g, |d i - b i| ≤ E)
    (hb : ∀ i ∈ g, 0 ≤ b i ∧ b i ≤ B) (hv : SumR fl (g.map d) v) {n : ℕ} (hn : g.length ≤ n) :
    |fl (v / g.length) - (g.map b).sum / g.length| ≤ E + ((1 + u) ^ (n + 1) - 1) * (B + E) := by
  have hG : ∀ n, 1 ≤ (1 + u) ^ n := fun n => one_le_pow₀ (by linarith)
  have hlen : (0 : ℝ) < g.length := by exact_mod_cast List.length_pos_iff.mpr hg
  have hBE : 0 ≤ B + E := by
    obtain ⟨i, hi⟩ := List.exists_mem_of_ne_nil g hg
    linarith [(abs_nonneg _).trans (hd i hi), (hb i hi).1, (hb i hi).2]
  have h1 := hv.error hu hfl
  rw [List.length_map, List.map_map] at h1
  have h2 : (g.map (abs ∘ d)).sum ≤ g.length * (B + E) := by
    have : (g.map (abs ∘ d)).sum ≤ (g.map fun _ => B + E).sum := list_sum_le fun i hi => by
      have := abs_add_le (d i - b i) (b i)
      rw [sub_add_cancel, abs_of_nonneg (hb i hi).1] at this
      simp only [Function.comp_apply]
      linarith [hd i hi, (hb i hi).2]
    rw [List.map_const', List.sum_replicate, nsmul_eq_mul] at this
    exact this
  have h3 : |(g.map d).sum - (g.map b).sum| ≤ g.length * E := by
    rw [list_sum_sub]
    refine list_abs_sum_le.trans ((list_sum_le (g := fun _ => E) fun i hi => hd i hi).trans ?_)
    rw [List.map_const', List.sum_replicate, nsmul_eq_mul]
  have h4 : |(g.map d).sum| ≤ g.length * (B + E) := by
    have := abs_sum_le_map (g.map d)
    rw [List.map_map] at this
    exact this.trans h2
  have h5 : |v / g.length - (g.map d).sum / g.length| ≤ ((1 + u) ^ g.length - 1) * (B + E) := by
    rw [← sub_div, abs_div, abs_of_pos hlen, div_le_iff₀ hlen]
    have := mul_le_mul_of_nonneg_left h2 (sub_nonneg.2 (hG g.length))
    linarith
  have h6 : |(g.map d).sum / g.length - (g.map b).sum / g.length| ≤ E := by
    rw [← sub_div, abs_div, abs_of_pos hlen, div_le_iff₀ hlen]
    linarith
  have h7 : |(g.map d).sum / g.length| ≤ B + E := by
    rw [abs_div, abs_of_pos hlen, div_le_iff₀ hlen]
    linarith
  have h8 := hfl (v / g.length)
  have h9 : |v / g.length| ≤ (1 + u) ^ g.length * (B + E) := by
    have := abs_add_le (v / g.length - (g.map d).sum / g.length) ((g.map d).sum / g.length)
    rw [sub_add_cancel] at this
    linarith
  have h10 := mul_le_mul_of_nonneg_left h9 hu
  have h11 : (1 + u) ^ (g.length + 1) ≤ (1 + u) ^ (n + 1) := pow_le_pow_right₀ (by linarith) (by omega)
  have h12 := mul_le_mul_of_nonneg_right (by linarith : (1 + u) ^ (g.length + 1) - 1 ≤ (1 + u) ^ (n + 1) - 1) hBE
  have e : ((1 + u) ^ (g.length + 1) - 1) * (B + E) = u * ((1 + u) ^ g.length * (B + E)) + ((1 + u) ^ g.length - 1) * (B + E) := by rw [pow_succ]; ring
  have t := abs_add_three (fl (v / g.length) - v / g.length) (v / g.length - (g.map d).sum / g.length) ((g.map d).sum / g.length - (g.map b).sum / g.length)
  have e' : fl (v / g.length) - v / g.length + (v / g.length - (g.map d).sum / g.length) + ((g.map d).sum / g.length - (g.map b).sum / g.length) =
      fl (v / g.length) - (g.map b).sum / g.length := by ring
  rw [e'] at t
  linarith

end

/-- The rows of `base` merged in groups. -/
noncomputable def mergedRows (k : ℕ) (base : List (PRow ℝ)) (G : List (List ℕ)) : List (PRow ℝ) := G.map fun g =>
  { weight := (g.map fun i => (base.map fun r => r.weight).getD i 0).sum
    dists := (List.range k).map fun j => (g.map fun i => ((base.map fun r => r.dists).getD i []).getD j 0).sum / (g.length : ℝ)
    group := g }

section
variable {k : ℕ} {base : List (PRow ℝ)} {G : List (List ℕ)}

theorem group_lt (hperm : G.flatten.Perm (List.range base.length)) {g : List ℕ} (hg : g ∈ G) {i : ℕ} (hi : i ∈ g) : i < base.length := by
  have := hperm.subset (List.mem_flatten.2 ⟨g, hg, hi⟩)
  simpa using this

theorem base_weight {i : ℕ} (hi : i < base.length) : (base.map fun r => r.weight).getD i 0 = base[i].weight := by
  rw [List.getD_eq_getElem _ _ (by simpa using hi), List.getElem_map]

theorem base_dists {i : ℕ} (hi : i < base.length) : (base.map fun r => r.dists).getD i [] = base[i].dists := by
  rw [List.getD_eq_getElem _ _ (by simpa using hi), List.getElem_map]

theorem merged_weighted (hb : WeightedRows k base) (hperm : G.flatten.Perm (List.range base.length)) (hne : ∀ g ∈ G, g ≠ []) : WeightedRows k (mergedRows k base G) := by
  refine ⟨?_, ?_, ?_, ?_⟩
  · intro h
    have : G = [] := by simpa [mergedRows] using h
    rw [this] at hperm
    have := hperm.length_eq
    simp only [List.flatten_nil, List.length_nil, List.length_range] at this
    exact hb.nonempty (List.length_eq_zero_iff.1 this.symm)
  · intro r hr
    obtain ⟨g, -, rfl⟩ := List.mem_map.1 hr
    simp
  · intro r hr
    obtain ⟨g, hg, rfl⟩ := List.mem_map.1 hr
    obtain ⟨i, hi⟩ := List.exists_mem_of_ne_nil g (hne g hg)
    dsimp only
    have h0 : ∀ x ∈ g.map fun i => (base.map fun r => r.weight).getD i 0, 0 ≤ x := by
      intro x hx
      obtain ⟨i, hi, rfl⟩ := List.mem_map.1 hx
      rw [base_weight (group_lt hperm hg hi)]
      exact hb.nonneg ⟨i, group_lt hperm hg hi⟩
    have h1 := List.single_le_sum h0 _ (List.mem_map_of_mem hi)
    refine le_trans ?_ h1
    rw [base_weight (group_lt hperm hg hi)]
    exact hb.weights _ (List.getElem_mem _)
  · unfold mergedRows
    rw [List.map_map]
    change (G.map fun g => (g.map fun i => (base.map fun r => r.weight).getD i 0).sum).sum = 1
    rw [sum_groups, (hperm.map _).sum_eq, ← hb.total]
    congr 1
    refine List.ext_getElem (by simp) fun i h1 h2 => ?_
    rw [List.getElem_map, List.getElem_range, List.getD_eq_getElem _ _ (by simpa using h2)]

theorem merged_range (hwidth : ∀ r ∈ base, r.dists.length = k) (hperm : G.flatten.Perm (List.range base.length)) (hne : ∀ g ∈ G, g ≠ []) {B : ℝ}
    (hB : ∀ r ∈ base, ∀ x ∈ r.dists, 0 ≤ x ∧ x ≤ B) : ∀ r ∈ mergedRows k base G, ∀ x ∈ r.dists, 0 ≤ x ∧ x ≤ B := by
  intro r hr x hx
  obtain ⟨g, hg, rfl⟩ := List.mem_map.1 hr
  obtain ⟨j, hj, rfl⟩ := List.mem_map.1 hx
  rw [List.mem_range] at hj
  have hlen : (0 : ℝ) < g.length := by exact_mod_cast List.length_pos_iff.mpr (hne g hg)
  have h : ∀ i ∈ g, 0 ≤ ((base.map fun r => r.dists).getD i []).getD j 0 ∧ ((base.map fun r => r.dists).getD i []).getD j 0 ≤ B := by
    intro i hi
    have hl := group_lt hperm hg hi
    rw [base_dists hl, List.getD_eq_getElem _ _ (by rw [hwidth _ (List.getElem_mem _)]; exact hj)]
    exact hB _ (List.getElem_mem _) _ (List.getElem_mem _)
  constructor
  · refine div_nonneg (List.sum_nonneg fun x hx => ?_) hlen.le
    obtain ⟨i, hi, rfl⟩ := List.mem_map.1 hx
    exact (h i hi).1
  · rw [div_le_iff₀ hlen]
    refine (list_sum_le (g := fun _ => B) fun i hi => (h i hi).2).trans ?_
    rw [List.map_const', List.sum_replicate, nsmul_eq_mul, mul_comm]

theorem merged_near (hb : WeightedRows k base) (hperm : G.flatten.Perm (List.range base.length)) (hne : ∀ g ∈ G, g ≠ []) {c : ℝ} (hc : 0 ≤ c)
    (hlead : ∀ g ∈ G, ∃ l ∈ g, ∀ i ∈ g, ∀ j < k, |((base.map fun r => r.dists).getD i []).getD j 0 - ((base.map fun r => r.dists).getD l []).getD j 0| ≤ c) :
    exactEmd chebyshev base (mergedRows k base G) ≤ 2 * c := by
  refine exactEmd_merge hb (merged_weighted hb hperm hne) ?_ (fun r hr => ?_) fun r hr i hi => ?_
  · have : (mergedRows k base G).map (fun r => r.group) = G := by
      unfold mergedRows
      rw [List.map_map]
      exact List.map_id G
    rw [this]
    exact hperm
  · obtain ⟨g, -, rfl⟩ := List.mem_map.1 hr
    rfl
  · obtain ⟨g, hg, rfl⟩ := List.mem_map.1 hr
    dsimp only at hi ⊢
    obtain ⟨l, hl, hlc⟩ := hlead g hg
    have hli := group_lt hperm hg hi
    have hw : ((base.map fun r => r.dists).getD i []).length = k := by rw [base_dists hli]; exact hb.width _ (List.getElem_mem _)
    refine (chebyshev_le_iff (by rw [hw]; simp)).2 ⟨by linarith, fun j hj => ?_⟩
    rw [hw] at hj
    rw [List.getD_eq_getElem ((List.range k).map _) _ (by simpa using hj), List.getElem_map, List.getElem_range]
    have h1 := mean_close (hne g hg) (fun i => ((base.map fun r => r.dists).getD i []).getD j 0) fun i hi => hlc i hi j hj
    have h2 := hlc i hi j hj
    rw [abs_le] at *
    constructor <;> linarith [h1.1, h1.2, h2.1, h2.2]

/-- A merged row of computed rows. -/
theorem merged_represents {fl : ℝ → ℝ} {u : ℝ} (hu : 0 ≤ u) (hu1 : u ≤ 1) (hfl : ∀ x, |fl x - x| ≤ u * |x|) {total : List ℝ → ℝ} (htotal : FloatSum fl total) {m : ℕ} {mult : List ℕ}
    (hmult : ∀ n ∈ mult, 0 < n) (hsum : mult.sum = m) (hm : m ≤ 50000000) (hum : 100000000 * ((1 + u) ^ (m + 2) - 1) * m < 1) (hlen : mult.length = base.length)
    (hw : ∀ i < base.length, (base.map fun r => r.weight).getD i 0 = (mult.getD i 0 : ℕ) / (m : ℝ)) {dists : List (List ℝ)} {B E : ℝ}
    (hB : ∀ i < base.length, ∀ j < k, 0 ≤ ((base.map fun r => r.dists).getD i []).getD j 0 ∧ ((base.map fun r => r.dists).getD i []).getD j 0 ≤ B)
    (hd : ∀ i < base.length, ∀ j < k, |(dists.getD i []).getD j 0 - ((base.map fun r => r.dists).getD i []).getD j 0| ≤ E)
    (hperm : G.flatten.Perm (List.range base.length)) (hne : ∀ g ∈ G, g ≠ []) :
    List.Forall₂ (Represents fl k (E + ((1 + u) ^ (base.length + 1) - 1) * (B + E))) (mergedRows k base G) (G.map fun g =>
      { weight := total (g.map fun i => (mult.map fun n : ℕ => fl ((n : ℝ) / (m : ℝ))).getD i 0)
        dists := (List.range k).map fun j => fl (total (g.map fun i => (dists.getD i []).getD j 0) / (g.length : ℝ))
        group := g }) := by
  unfold mergedRows
  rw [List.forall₂_map_left_iff, List.forall₂_map_right_iff, List.forall₂_same]
  intro g hg
  have hlt : ∀ i ∈ g, i < base.length := fun i hi => group_lt hperm hg hi
  have hsub : g.Sublist G.flatten := List.sublist_flatten_of_mem hg
  have hgl : g.length ≤ base.length := by
    have h1 := hsub.length_le
    rw [hperm.length_eq, List.length_range] at h1
    exact h1
  have hml : mult.length ≤ m := by
    rw [← hsum]
    have := List.card_nsmul_le_sum mult 1 fun x hx => hmult x hx
    simpa using this
  have hns : (g.map fun i => mult.getD i 0).sum ≤ m := by
    have h1 : (g.map fun i => mult.getD i 0).sum ≤ (G.flatten.map fun i => mult.getD i 0).sum := (hsub.map _).sum_le_sum (fun _ _ => Nat.zero_le _)
    rw [(hperm.map _).sum_eq, ← hlen] at h1
    have e : (List.range mult.length).map (fun i => mult.getD i 0) = mult := by
      refine List.ext_getElem (by simp) fun i h1 h2 => ?_
      rw [List.getElem_map, List.getElem_range, List.getD_eq_getElem _ _ h2]
    rw [e, hsum] at h1
    exact h1
  have hns0 : 0 < (g.map fun i => mult.getD i 0).sum := by
    obtain ⟨i, hi⟩ := List.exists_mem_of_ne_nil g (hne g hg)
    have h1 := List.single_le_sum (l := g.map fun i => mult.getD i 0) (fun _ _ => Nat.zero_le _) _ (List.mem_map_of_mem hi)
    have h2 : mult.getD i 0 ∈ mult := by
      rw [List.getD_eq_getElem _ _ (by rw [hlen]; exact hlt i hi)]
      exact List.getElem_mem _
    have := hmult _ h2
    omega
  have hm0 : 0 < m := by omega
  have ewt : (g.map fun i => (mult.map fun n : ℕ => fl ((n : ℝ) / (m : ℝ))).getD i 0) = (g.map fun i => mult.getD i 0).map fun n : ℕ => fl ((n : ℝ) / (m : ℝ)) := by
    rw [List.map_map]
    refine List.map_congr_left fun i hi => ?_
    have hi' : i < mult.length := by rw [hlen]; exact hlt i hi
    rw [List.getD_eq_getElem _ _ (by simpa using hi'), List.getElem_map, Function.comp_apply, List.getD_eq_getElem _ _ hi']
  have eW : (g.map fun i => (base.map fun r => r.weight).getD i 0).sum = ((g.map fun i => mult.getD i 0).sum : ℕ) / (m : ℝ) := by
    have : ∀ l : List ℕ, (∀ i ∈ l, i < base.length) → (l.map fun i => (base.map fun r => r.weight).getD i 0).sum = ((l.map fun i => mult.getD i 0).sum : ℕ) / (m : ℝ) := by
      intro l
      induction l with
      | nil => simp
      | cons i l ih =>
        intro h
        simp only [List.map_cons, List.sum_cons, Nat.cast_add, add_div]
        rw [ih fun i hi => h i (List.mem_cons_of_mem _ hi), hw i (h i (by simp))]
    exact this g hlt
  have hS : SumR fl ((g.map fun i => mult.getD i 0).map fun n : ℕ => fl ((n : ℝ) / (m : ℝ))) (total (g.map fun i => (mult.map fun n : ℕ => fl ((n : ℝ) / (m : ℝ))).getD i 0)) := by
    rw [ewt]
    exact htotal _ (by simpa using hne g hg)
  have hv0 : 0 ≤ total (g.map fun i => (mult.map fun n : ℕ => fl ((n : ℝ) / (m : ℝ))).getD i 0) := by
    refine hS.nonneg hu1 hfl fun x hx => ?_
    obtain ⟨n, -, rfl⟩ := List.mem_map.1 hx
    exact fl_nonneg hu1 hfl (by positivity)
  refine ⟨by simp, ?_, hv0, ?_⟩
  · intro j hj
    dsimp only
    rw [List.getD_eq_getElem ((List.range k).map _) _ (by simpa using hj), List.getD_eq_getElem ((List.range k).map _) _ (by simpa using hj), List.getElem_map, List.getElem_range,
      List.getElem_map, List.getElem_range]
    exact mean_close_R hu hfl (hne g hg) (fun i hi => hd i (hlt i hi) j hj) (fun i hi => hB i (hlt i hi) j hj) (htotal _ (by simpa using hne g hg)) hgl
  · dsimp only
    rw [eW]
    have e2 : ((g.map fun i => mult.getD i 0).sum : ℕ) / (m : ℝ) * 100000000 = (((g.map fun i => mult.getD i 0).sum * 100000000 : ℕ) : ℝ) / m := by push_cast; ring
    rw [e2]
    exact floor_close hm0 (fl_nonneg hu1 hfl (by positivity)) (weight_close hu hfl hm0 hS hns (by rw [List.length_map]; omega) hum) (by omega)

end

end Amd
