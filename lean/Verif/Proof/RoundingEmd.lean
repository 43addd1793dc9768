import Verif.Model.RoundingEmd
import Verif.Proof.FloatCall
import Verif.Proof.EmdProps
import Verif.Spec.Rounding

/-!
# `EMD` with rounded arithmetic is close to the exact distance
-/

namespace Amd

open Finset

/-- The integer algorithm on truncated weights and costs, for any truncation. -/
theorem simplexInt_fin (τ : ℝ → ℤ) {s t : List ℝ} {costs : List (List ℝ)} {m n : ℕ} {A : Fin m → ℤ} {B : Fin n → ℤ} {ci : Fin m → Fin n → ℤ} (hm : s.length = m)
    (hn : t.length = n) (hs : s ≠ []) (ht : t ≠ []) (hcl : costs.length = m) (hrl : ∀ r ∈ costs, r.length = n) (hA : ∀ i : Fin m, τ (s.getD i 0) = A i)
    (hB : ∀ j : Fin n, τ (t.getD j 0) = B j) (hc : ∀ (i : Fin m) (j : Fin n), τ ((costs.getD i []).getD j 0) = ci i j) (hA0 : ∀ i, 0 < A i) (hB0 : ∀ j, 0 < B j)
    (hAs : ∑ i, A i ≤ fpMul) (hBs : ∑ j, B j ≤ fpMul) (hc0 : ∀ i j, 0 ≤ ci i j) (hmin : ∀ a ∈ s, ∀ b ∈ t, τ (min a b) = min (τ a) (τ b)) :
    ∃ (X : Fin m → Fin n → ℤ) (r : List ℤ) (fuel0 : ℕ), NetOut A B ci X ∧ r.length = m * n ∧ (costs.flatten.map τ).length = m * n ∧
      (∀ (i : Fin m) (j : Fin n), r.getD (i * n + j) 0 = X i j) ∧ (∀ (i : Fin m) (j : Fin n), (costs.flatten.map τ).getD (i * n + j) 0 = ci i j) ∧
      ∀ fuel ≥ fuel0, simplexInt (s.map τ) (t.map τ) (costs.flatten.map τ) (s.flatMap fun a => t.map fun b => τ (min a b)) fuel = .ok r := by
  subst hm hn
  have hfl : costs.flatten.length = s.length * t.length := by rw [flatten_length _ _ hrl, hcl]
  have hgetc : ∀ i < s.length, ∀ j < t.length, (costs.flatten.map τ).getD (i * t.length + j) 0 = τ ((costs.getD i []).getD j 0) := by
    intro i hi j hj
    have hk := edge_lt hi hj
    rw [List.getD_eq_getElem _ _ (by rw [List.length_map, hfl]; exact hk), List.getElem_map, ← List.getD_eq_getElem _ 0 (by rw [hfl]; exact hk),
      flatten_getD 0 _ _ hrl i (by rw [hcl]; exact hi) j hj]
  have hmapl : ∀ r ∈ s.map (fun a => t.map fun b => τ (min a b)), r.length = t.length := by
    intro r hr
    obtain ⟨a, -, rfl⟩ := List.mem_map.1 hr
    simp
  have hgs : ∀ (l : List ℝ) (i : Fin l.length), (l.map τ).getD i 0 = τ (l.getD i 0) := by
    intro l i
    rw [List.getD_eq_getElem _ _ (by simp), List.getElem_map, List.getD_eq_getElem _ _ i.2]
  have hsum : ∀ (l : List ℝ) (W : Fin l.length → ℤ), (∀ i : Fin l.length, τ (l.getD i 0) = W i) → (l.map τ).sum = ∑ i, W i := by
    intro l W hW
    rw [← sum_fin_map l τ]
    refine sum_congr rfl fun i _ => ?_
    rw [← hW i, List.getD_eq_getElem _ _ i.2]
    rfl
  have hposl : ∀ (l : List ℝ) (W : Fin l.length → ℤ), (∀ i : Fin l.length, τ (l.getD i 0) = W i) → (∀ i, 0 < W i) → ∀ x ∈ l.map τ, 0 < x := by
    intro l W hW h0 x hx
    obtain ⟨a, ha, rfl⟩ := List.mem_map.1 hx
    obtain ⟨i, hi, rfl⟩ := List.mem_iff_getElem.1 ha
    have := h0 ⟨i, hi⟩
    rw [← hW ⟨i, hi⟩, List.getD_eq_getElem _ _ hi] at this
    exact this
  obtain ⟨r, fuel0, hr, hrlen, hout, -⟩ := simplexInt_out' (s := s.map τ) (t := t.map τ) (costs := costs.flatten.map τ)
    (caps := s.flatMap fun a => t.map fun b => τ (min a b)) (List.length_map ..) (List.length_map ..) (by simpa using hs) (by simpa using ht)
    (hposl s A hA hA0) (hposl t B hB hB0) (by rw [hsum s A hA]; exact hAs) (by rw [hsum t B hB]; exact hBs)
    (by rw [List.length_map, hfl])
    (by
      intro x hx
      obtain ⟨k, hk', rfl⟩ := mem_getD hx
      rw [List.length_map, hfl] at hk'
      have htpos := List.length_pos_iff.2 ht
      have e : k = k / t.length * t.length + k % t.length := (Nat.div_add_mod' k t.length).symm
      have hu : k / t.length < s.length := Nat.div_lt_of_lt_mul (by rwa [mul_comm] at hk')
      have hv := Nat.mod_lt k htpos
      have := hc ⟨_, hu⟩ ⟨_, hv⟩
      dsimp only at this
      rw [e, hgetc _ hu _ hv, this]
      exact hc0 _ _)
    (by rw [List.flatMap_def, flatten_length _ _ hmapl, List.length_map])
    (by
      intro u hu v hv
      rw [List.flatMap_def, flatten_getD 0 _ _ hmapl u (by simpa using hu) v hv]
      simp only [List.getD_eq_getElem?_getD, List.getElem?_map, List.getElem?_eq_getElem hu, List.getElem?_eq_getElem hv, Option.map_some, Option.getD_some]
      exact hmin _ (List.getElem_mem hu) _ (List.getElem_mem hv))
  refine ⟨fun i j => r.getD (i * t.length + j) 0, r, fuel0, ?_, hrlen, by rw [List.length_map, hfl], fun i j => rfl, fun i j => ?_, hr⟩
  · rw [funext fun i => (hgs s i).trans (hA i), funext fun j => (hgs t j).trans (hB j),
      funext fun i => funext fun j => (hgetc i.1 i.2 j.1 j.2).trans (hc i j)] at hout
    exact hout
  · exact (hgetc i.1 i.2 j.1 j.2).trans (hc i j)

/-- Rounded quotients and a rounded dot product. -/
theorem dot_error {fl : ℝ → ℝ} {u : ℝ} (hu : 0 ≤ u) (hfl : ∀ x, |fl x - x| ≤ u * |x|) {dot : List (ℝ × ℝ) → ℝ} (hdot : FloatDot fl dot) {l : List (ℝ × ℝ)}
    (hl : ∀ x ∈ l, 0 ≤ x.1 ∧ 0 ≤ x.2) (hne : l ≠ []) :
    |dot (l.map fun x => (fl x.1, fl x.2)) - (l.map fun x => x.1 * x.2).sum| ≤ ((1 + u) ^ (l.length + 2) - 1) * (l.map fun x => x.1 * x.2).sum := by
  have h1 := (hdot (l.map fun x => (fl x.1, fl x.2)) (by simpa using hne)).error hu hfl
  rw [List.length_map, List.map_map, List.map_map] at h1
  have key : ∀ x : ℝ × ℝ, 0 ≤ x.1 → 0 ≤ x.2 → |fl x.1 * fl x.2 - x.1 * x.2| ≤ ((1 + u) ^ 2 - 1) * (x.1 * x.2) := by
    intro x h1 h2
    have e1 := hfl x.1
    have e2 := hfl x.2
    rw [abs_of_nonneg (a := x.1) h1] at e1
    rw [abs_of_nonneg (a := x.2) h2] at e2
    have : fl x.1 * fl x.2 - x.1 * x.2 = (fl x.1 - x.1) * (fl x.2 - x.2) + (fl x.1 - x.1) * x.2 + x.1 * (fl x.2 - x.2) := by ring
    rw [this]
    refine (abs_add_three _ _ _).trans ?_
    rw [abs_mul, abs_mul, abs_mul, abs_of_nonneg (a := x.1) h1, abs_of_nonneg (a := x.2) h2]
    have p1 := mul_le_mul e1 e2 (abs_nonneg _) (mul_nonneg hu h1)
    have p2 := mul_le_mul_of_nonneg_right e1 h2
    have p3 := mul_le_mul_of_nonneg_left e2 h1
    nlinarith
  have hs : ∀ l : List (ℝ × ℝ), (∀ x ∈ l, 0 ≤ x.1 ∧ 0 ≤ x.2) →
      |(l.map ((fun p : ℝ × ℝ => p.1 * p.2) ∘ fun x => (fl x.1, fl x.2))).sum - (l.map fun x => x.1 * x.2).sum| ≤ ((1 + u) ^ 2 - 1) * (l.map fun x => x.1 * x.2).sum ∧
      (l.map ((fun p : ℝ × ℝ => |p.1 * p.2|) ∘ fun x => (fl x.1, fl x.2))).sum ≤ (1 + u) ^ 2 * (l.map fun x => x.1 * x.2).sum := by
    intro l
    induction l with
    | nil => simp
    | cons a l ih =>
      intro h
      obtain ⟨i1, i2⟩ := ih fun x hx => h x (List.mem_cons_of_mem _ hx)
      obtain ⟨a1, a2⟩ := h a (by simp)
      have k := key a a1 a2
      simp only [List.map_cons, List.sum_cons, Function.comp_apply] at i1 i2 ⊢
      constructor
      · have : ∀ x y z w : ℝ, x + y - (z + w) = (x - z) + (y - w) := by intros; ring
        rw [this]
        refine (abs_add_le _ _).trans ?_
        rw [mul_add]
        exact add_le_add k i1
      · have hk : |fl a.1 * fl a.2| ≤ (1 + u) ^ 2 * (a.1 * a.2) := by
          have := abs_add_le (fl a.1 * fl a.2 - a.1 * a.2) (a.1 * a.2)
          rw [sub_add_cancel, abs_of_nonneg (a := a.1 * a.2) (mul_nonneg a1 a2)] at this
          linarith
        rw [mul_add]
        exact add_le_add hk i2
  obtain ⟨s1, s2⟩ := hs l hl
  have hG : 1 ≤ (1 + u) ^ l.length := one_le_pow₀ (by linarith)
  have t := abs_add_le (dot (l.map fun x => (fl x.1, fl x.2)) - (l.map ((fun p : ℝ × ℝ => p.1 * p.2) ∘ fun x => (fl x.1, fl x.2))).sum)
    ((l.map ((fun p : ℝ × ℝ => p.1 * p.2) ∘ fun x => (fl x.1, fl x.2))).sum - (l.map fun x => x.1 * x.2).sum)
  rw [sub_add_sub_cancel] at t
  have := mul_le_mul_of_nonneg_left s2 (by linarith : 0 ≤ (1 + u) ^ l.length - 1)
  have e : ((1 + u) ^ (l.length + 2) - 1) * (l.map fun x => x.1 * x.2).sum =
      ((1 + u) ^ l.length - 1) * ((1 + u) ^ 2 * (l.map fun x => x.1 * x.2).sum) + ((1 + u) ^ 2 - 1) * (l.map fun x => x.1 * x.2).sum := by
    rw [pow_add]; ring
  rw [e]
  linarith

theorem wasserstein_perturb {ι κ : Type*} [Fintype ι] [Fintype κ] {a : ι → ℝ} {b : κ → ℝ} {c c' : ι → κ → ℝ} {Δ : ℝ} (ha : ∀ i, 0 ≤ a i) (hb : ∀ j, 0 ≤ b j)
    (hsa : ∑ i, a i = 1) (hsb : ∑ j, b j = 1) (hc' : ∀ i j, 0 ≤ c' i j) (h : ∀ i j, c' i j ≤ c i j + Δ) :
    wasserstein a b c' ≤ wasserstein a b c + Δ := by
  have : wasserstein a b c' - Δ ≤ wasserstein a b c := by
    refine le_wasserstein ha hb (hsa.trans hsb.symm) fun g hg => ?_
    have h1 := wasserstein_le hc' hg
    have h2 : planCost c' g ≤ planCost c g + Δ := by
      have h3 : planCost c' g ≤ planCost (fun i j => c i j + Δ) g := planCost_mono hg.nonneg h
      have h4 : planCost (fun i j => c i j + Δ) g = planCost c g + Δ * ∑ i, ∑ j, g i j := by
        unfold planCost
        rw [mul_sum, ← sum_add_distrib]
        refine sum_congr rfl fun i _ => ?_
        rw [mul_sum, ← sum_add_distrib]
        exact sum_congr rfl fun j _ => by ring
      have h5 : ∑ i, ∑ j, g i j = 1 := by rw [sum_congr rfl fun i _ => hg.rows i, hsa]
      rw [h4, h5, mul_one] at h3
      exact h3
    linarith
  linarith

theorem fpIntR_nonneg {fl : ℝ → ℝ} {x : ℝ} (h : 0 ≤ fl (x * 100000000)) : fpIntR fl x = ⌊fl (x * 100000000)⌋ := by simp [fpIntR, h]

theorem networkSimplexR_mono {fl : ℝ → ℝ} {dot : List (ℝ × ℝ) → ℝ} {s t : List ℝ} {costs : List (List ℝ)} {r : ℝ × List (List ℝ)} {f f' : ℕ} (hf : f ≤ f')
    (h : networkSimplexR fl dot s t costs f = .ok r) : networkSimplexR fl dot s t costs f' = .ok r := by
  unfold networkSimplexR at h ⊢
  simp only [bind, Except.bind] at h ⊢
  cases hp : simplexInt (s.map (fpIntR fl)) (t.map (fpIntR fl)) (costs.flatten.map (fpIntR fl)) (s.flatMap fun a => t.map fun b => fpIntR fl (min a b)) f with
  | error e => rw [hp] at h; cases h
  | ok st => rw [hp] at h; rw [simplexInt_mono hf hp]; exact h

/-- The largest difference, with and without rounding. -/
theorem chebyshevR_error {fl : ℝ → ℝ} {u : ℝ} (hu : 0 ≤ u) (hfl : ∀ x, |fl x - x| ≤ u * |x|) : ∀ {r s : List ℝ}, r.length = s.length →
    0 ≤ chebyshevR fl r s ∧ |chebyshevR fl r s - chebyshev r s| ≤ u * chebyshev r s := by
  intro r
  induction r with
  | nil => intro s h; cases s with
    | nil => simp [chebyshevR, chebyshev]
    | cons _ _ => simp at h
  | cons a r ih =>
    intro s h
    cases s with
    | nil => simp at h
    | cons b s =>
      obtain ⟨i1, i2⟩ := ih (s := s) (by simpa using h)
      have e1 : chebyshevR fl (a :: r) (b :: s) = max |fl (a - b)| (chebyshevR fl r s) := rfl
      have e2 : chebyshev (a :: r) (b :: s) = max |a - b| (chebyshev r s) := rfl
      rw [e1, e2]
      refine ⟨le_max_of_le_right i1, ?_⟩
      refine (abs_max_sub_max_le_max _ _ _ _).trans (max_le ?_ ?_)
      · refine ((abs_abs_sub_abs_le_abs_sub _ _).trans (hfl _)).trans (mul_le_mul_of_nonneg_left (le_max_left _ _) hu)
      · exact i2.trans (mul_le_mul_of_nonneg_left (le_max_right _ _) hu)

theorem chebyshev_perturb {k : ℕ} {r r' s s' : List ℝ} {E E' : ℝ} (hr : r.length = k) (hr' : r'.length = k) (hs : s.length = k) (hs' : s'.length = k) (hE : 0 ≤ E) (hE' : 0 ≤ E')
    (h : ∀ j < k, |r.getD j 0 - r'.getD j 0| ≤ E) (h' : ∀ j < k, |s.getD j 0 - s'.getD j 0| ≤ E') : |chebyshev r s - chebyshev r' s'| ≤ E + E' := by
  have m := chebyshev_metric k
  have h1 : chebyshev r r' ≤ E := (chebyshev_le_iff (hr.trans hr'.symm)).2 ⟨hE, fun j hj => h j (by omega)⟩
  have h2 : chebyshev s s' ≤ E' := (chebyshev_le_iff (hs.trans hs'.symm)).2 ⟨hE', fun j hj => h' j (by omega)⟩
  have t1 := m.triangle r r' s hr hr' hs
  have t2 := m.triangle r' s' s hr' hs' hs
  have t3 := m.triangle r' r s' hr' hr hs'
  have t4 := m.triangle r s s' hr hs hs'
  have s1 := m.symm r r' hr hr'
  have s2 := m.symm s s' hs hs'
  rw [abs_le]
  constructor <;> linarith

theorem cost_perturb {fl : ℝ → ℝ} {u : ℝ} (hu : 0 ≤ u) (hfl : ∀ x, |fl x - x| ≤ u * |x|) {c d c₁ L E : ℝ} (hc : c ≤ L) (h1 : |c₁ - c| ≤ E)
    (h2 : |d - c₁| ≤ u * c₁) (hd : 0 ≤ d) :
    fl (d * 100000000) / 100000000 ≤ (1 + u) ^ 2 * (L + E) ∧ |fl (d * 100000000) / 100000000 - c| ≤ (1 + u) ^ 2 * (L + E) - L := by
  have e := hfl (d * 100000000)
  rw [abs_of_nonneg (a := d * 100000000) (by positivity)] at e
  have e' : |fl (d * 100000000) / 100000000 - d| ≤ u * d := by
    have : fl (d * 100000000) / 100000000 - d = (fl (d * 100000000) - d * 100000000) / 100000000 := by ring
    rw [this, abs_div, abs_of_pos (by norm_num : (0 : ℝ) < 100000000), div_le_iff₀ (by norm_num)]
    linarith
  rw [abs_le] at *
  have p1 := mul_le_mul_of_nonneg_left (by linarith : d ≤ (1 + u) * c₁) hu
  have p2 : c₁ ≤ L + E := by linarith
  have p3 := mul_le_mul_of_nonneg_left p2 hu
  have p4 := mul_le_mul_of_nonneg_left p3 hu
  have p5 : u * (c + E) ≤ u * (L + E) := mul_le_mul_of_nonneg_left (by linarith) hu
  have p6 : u * (u * (c + E)) ≤ u * (u * (L + E)) := mul_le_mul_of_nonneg_left p5 hu
  have p7 : u * c₁ ≤ u * (c + E) := mul_le_mul_of_nonneg_left (by linarith) hu
  have p8 : u * (u * c₁) ≤ u * (u * (c + E)) := mul_le_mul_of_nonneg_left p7 hu
  refine ⟨by nlinarith, ?_, ?_⟩
  · nlinarith
  · nlinarith

/-- The value computed from a flow with perturbed costs. -/
theorem Rounded.value {ι κ : Type*} [Fintype ι] [Fintype κ] [Nonempty ι] [Nonempty κ] {a : ι → ℝ} {b : κ → ℝ} {c c' : ι → κ → ℝ} {A : ι → ℤ} {B : κ → ℤ} {ci X : ι → κ → ℤ}
    {C L g d : ℝ} {N : ℕ} (h : Rounded a b c' A B ci X C N) (hc : ∀ i j, 0 ≤ c i j) (hcc : ∀ i j, |c' i j - c i j| ≤ C - L) (hg : 0 ≤ g)
    (hd : |d - ∑ i, ∑ j, (X i j : ℝ) / 100000000 * ((ci i j : ℝ) / 100000000)| ≤ g * ∑ i, ∑ j, (X i j : ℝ) / 100000000 * ((ci i j : ℝ) / 100000000)) (hN1 : 0 < N) :
    |d - wasserstein a b c| ≤ (C - L) + emdTol N C + g * C := by
  set V : ℝ := ∑ i, ∑ j, (X i j : ℝ) / 100000000 * ((ci i j : ℝ) / 100000000) with hV
  have hC0 := h.C_nonneg
  have hc0 : ∀ i j, 0 ≤ c' i j := fun i j => (h.c_le i j).1
  obtain ⟨q, hq, hcost⟩ := h.lower
  rw [← hV] at hcost
  have hlow := wasserstein_le hc0 hq
  have hup : V - C * (5 * N + 2) / 100000000 ≤ wasserstein a b c' := by
    refine le_wasserstein h.a_nonneg h.b_nonneg (h.sa.trans h.sb.symm) fun g hg => ?_
    have := h.upper hg
    rw [← hV] at this
    linarith
  have w1 := wasserstein_perturb h.a_nonneg h.b_nonneg h.sa h.sb hc0 (c := c) (Δ := C - L) fun i j => by linarith [(abs_le.1 (hcc i j)).2]
  have w2 := wasserstein_perturb h.a_nonneg h.b_nonneg h.sa h.sb hc (c := c') (Δ := C - L) fun i j => by linarith [(abs_le.1 (hcc i j)).1]
  have hN : (1 : ℝ) ≤ N := by exact_mod_cast hN1
  have hCN : C ≤ C * N := le_mul_of_one_le_right hC0 hN
  have hVC : V ≤ C := by
    have hci : ∀ i j, (ci i j : ℝ) / 100000000 ≤ C := by
      intro i j
      rw [div_le_iff₀ (by norm_num)]
      have := (h.c_floor i j).1
      have := (h.c_le i j).2
      linarith
    have hX1 : V ≤ ∑ i, ∑ j, (X i j : ℝ) / 100000000 * C := by
      rw [hV]
      exact sum_le_sum fun i _ => sum_le_sum fun j _ => mul_le_mul_of_nonneg_left (hci i j) (div_nonneg (h.X_nonneg i j) (by norm_num))
    have hsX : ∑ i, ∑ j, (X i j : ℝ) ≤ 100000000 := by
      have s1 := h.sumA.1
      have s2 := h.swap.sumA.1
      rcases h.out.margins with ⟨_, h2, -⟩ | ⟨_, h2, -⟩
      · have : ((∑ i, ∑ j, X i j : ℤ) : ℝ) ≤ _ := Int.cast_le.2 (sum_le_sum fun i _ => h2 i)
        have := this.trans s1
        push_cast at this
        exact this
      · have : ((∑ j, ∑ i, X i j : ℤ) : ℝ) ≤ _ := Int.cast_le.2 (sum_le_sum fun i _ => h2 i)
        have := this.trans s2
        push_cast at this
        rw [sum_comm]
        exact this
    have e : ∑ i, ∑ j, (X i j : ℝ) / 100000000 * C = (∑ i, ∑ j, (X i j : ℝ)) * (C / 100000000) := by
      rw [sum_mul]
      refine sum_congr rfl fun i _ => ?_
      rw [sum_mul]
      exact sum_congr rfl fun j _ => by ring
    rw [e] at hX1
    have := mul_le_mul_of_nonneg_right hsX (div_nonneg hC0 (by norm_num : (0 : ℝ) ≤ 100000000))
    linarith
  have hVC' := mul_le_mul_of_nonneg_left hVC hg
  unfold emdTol
  have t1 : (1 + C * (2 * N)) / 100000000 ≤ (1 + 7 * N * C) / 100000000 := by
    apply div_le_div_of_nonneg_right _ (by norm_num)
    nlinarith
  have t2 : C * (5 * N + 2) / 100000000 ≤ (1 + 7 * N * C) / 100000000 := by
    apply div_le_div_of_nonneg_right _ (by norm_num)
    nlinarith
  rw [abs_le] at hd ⊢
  constructor
  · linarith
  · linarith

theorem emdR_near {fl : ℝ → ℝ} {u : ℝ} (hu : 0 ≤ u) (hu1 : u ≤ 1) (hfl : ∀ x, |fl x - x| ≤ u * |x|) (hmono : Monotone fl) {dot : List (ℝ × ℝ) → ℝ} (hdot : FloatDot fl dot)
    {k : ℕ} {P Q p q : List (PRow ℝ)} {L E E' : ℝ} (hE : 0 ≤ E) (hE' : 0 ≤ E') (hP : WeightedRows k P) (hQ : WeightedRows k Q)
    (hp : List.Forall₂ (Represents fl k E) P p) (hq : List.Forall₂ (Represents fl k E') Q q)
    (hL : ∀ r ∈ P, ∀ s ∈ Q, chebyshev r.dists s.dists ≤ L) :
    (∃ F, ∀ fuel ≥ F, ∃ r, emdR fl dot p q fuel = .ok r) ∧ ∀ fuel d plan, emdR fl dot p q fuel = .ok (d, plan) →
      0 ≤ d ∧ |d - exactEmd chebyshev P Q| ≤ emdRounding u (max P.length Q.length) (P.length * Q.length) L (E + E') := by
  have lp := hp.length_eq
  have lq := hq.length_eq
  rw [List.forall₂_iff_get] at hp hq
  have rp : ∀ i : Fin P.length, Represents fl k E P[i] (p[i.1]'(lp ▸ i.2)) := fun i => hp.2 i.1 i.2 (lp ▸ i.2)
  have rq : ∀ j : Fin Q.length, Represents fl k E' Q[j] (q[j.1]'(lq ▸ j.2)) := fun j => hq.2 j.1 j.2 (lq ▸ j.2)
  have wp : ∀ r ∈ p, r.dists.length = k ∧ 0 ≤ r.weight := by
    intro r hr
    obtain ⟨i, hi, rfl⟩ := List.mem_iff_getElem.1 hr
    exact ⟨(rp ⟨i, lp ▸ hi⟩).width, (rp ⟨i, lp ▸ hi⟩).weight⟩
  have wq : ∀ r ∈ q, r.dists.length = k ∧ 0 ≤ r.weight := by
    intro r hr
    obtain ⟨i, hi, rfl⟩ := List.mem_iff_getElem.1 hr
    exact ⟨(rq ⟨i, lq ▸ hi⟩).width, (rq ⟨i, lq ▸ hi⟩).weight⟩
  have hw : (p.any fun r => q.any fun r' => r.dists.length != r'.dists.length) = false := by
    simp only [List.any_eq_false]
    intro r hr
    simp only [List.any_eq_true, bne_iff_ne, ne_eq, not_exists, not_and, not_not]
    intro r' hr'
    rw [(wp r hr).1, (wq r' hr').1]
  have hemd : ∀ fuel, emdR fl dot p q fuel =
      networkSimplexR fl dot (p.map fun r => r.weight) (q.map fun r => r.weight) (p.map fun r => q.map fun r' => chebyshevR fl r.dists r'.dists) fuel := by
    intro fuel; unfold emdR; rw [hw]; simp
  have fl0 : ∀ {x : ℝ}, 0 ≤ x → 0 ≤ fl (x * 100000000) := fun hx => fl_nonneg hu1 hfl (by positivity)
  have hτ : ∀ x : ℝ, 0 ≤ x → fpIntR fl x = ⌊fl (x * 100000000)⌋ := fun x hx => fpIntR_nonneg (fl0 hx)
  have hunits : ∀ {E : ℝ} {R r : PRow ℝ}, Represents fl k E R r → 0 < fpIntR fl r.weight ∧ (fpIntR fl r.weight : ℝ) ≤ R.weight * 100000000 ∧
      R.weight * 100000000 ≤ fpIntR fl r.weight + 1 := by
    intro E R r h
    obtain ⟨W, h0, h1, h2, h3, h4⟩ := h.units
    have : fpIntR fl r.weight = W := by
      rw [hτ _ h.weight, Int.floor_eq_iff]
      exact ⟨by exact_mod_cast h1, by exact_mod_cast h2⟩
    rw [this]
    exact ⟨by exact_mod_cast h0, by exact_mod_cast h3, by exact_mod_cast h4⟩
  have hcheb : ∀ (i : Fin P.length) (j : Fin Q.length), 0 ≤ chebyshevR fl (p[i.1]'(lp ▸ i.2)).dists (q[j.1]'(lq ▸ j.2)).dists := fun i j =>
    (chebyshevR_error hu hfl ((rp i).width.trans (rq j).width.symm)).1
  have hsumP : ∑ i : Fin P.length, fpIntR fl (p[i.1]'(lp ▸ i.2)).weight ≤ fpMul := by
    have h1 := sum_le_sum fun i (_ : i ∈ univ) => (hunits (rp i)).2.1
    rw [← sum_mul, hP.sum_eq] at h1
    unfold fpMul
    have : ((∑ i : Fin P.length, fpIntR fl (p[i.1]'(lp ▸ i.2)).weight : ℤ) : ℝ) ≤ ((100000000 : ℤ) : ℝ) := by push_cast; linarith
    exact_mod_cast this
  have hsumQ : ∑ i : Fin Q.length, fpIntR fl (q[i.1]'(lq ▸ i.2)).weight ≤ fpMul := by
    have h1 := sum_le_sum fun i (_ : i ∈ univ) => (hunits (rq i)).2.1
    rw [← sum_mul, hQ.sum_eq] at h1
    unfold fpMul
    have : ((∑ i : Fin Q.length, fpIntR fl (q[i.1]'(lq ▸ i.2)).weight : ℤ) : ℝ) ≤ ((100000000 : ℤ) : ℝ) := by push_cast; linarith
    exact_mod_cast this
  obtain ⟨X, r, fuel0, hX, hrl, hcl, hr, hc, hok⟩ := simplexInt_fin (fpIntR fl) (s := p.map fun r => r.weight) (t := q.map fun r => r.weight)
    (costs := p.map fun r => q.map fun r' => chebyshevR fl r.dists r'.dists) (m := P.length) (n := Q.length)
    (A := fun i => fpIntR fl (p[i.1]'(lp ▸ i.2)).weight) (B := fun j => fpIntR fl (q[j.1]'(lq ▸ j.2)).weight)
    (ci := fun i j => fpIntR fl (chebyshevR fl (p[i.1]'(lp ▸ i.2)).dists (q[j.1]'(lq ▸ j.2)).dists)) (by simp [lp]) (by simp [lq])
    (by
      intro h
      have := congrArg List.length h
      rw [List.length_map, ← lp] at this
      exact hP.nonempty (List.length_eq_zero_iff.1 this))
    (by
      intro h
      have := congrArg List.length h
      rw [List.length_map, ← lq] at this
      exact hQ.nonempty (List.length_eq_zero_iff.1 this))
    (by simp [lp]) (by intro x hx; obtain ⟨r, hr, rfl⟩ := List.mem_map.1 hx; simp [lq])
    (by intro i; rw [List.getD_eq_getElem _ _ (by simp [← lp])]; simp) (by intro i; rw [List.getD_eq_getElem _ _ (by simp [← lq])]; simp)
    (by intro i j; rw [List.getD_eq_getElem _ [] (by simp [← lp]), List.getElem_map, List.getD_eq_getElem _ _ (by simp [← lq])]; simp)
    (fun i => (hunits (rp i)).1) (fun j => (hunits (rq j)).1) hsumP hsumQ
    (fun i j => by rw [hτ _ (hcheb i j)]; exact Int.floor_nonneg.2 (fl0 (hcheb i j)))
    (by
      intro a ha b hb
      obtain ⟨ra, hra, rfl⟩ := List.mem_map.1 ha
      obtain ⟨rb, hrb, rfl⟩ := List.mem_map.1 hb
      have ha := (wp ra hra).2
      have hb := (wq rb hrb).2
      rw [hτ _ (le_min ha hb), hτ _ ha, hτ _ hb]
      have hm : ∀ {a b : ℝ}, a ≤ b → ⌊fl (a * 100000000)⌋ ≤ ⌊fl (b * 100000000)⌋ := fun h => Int.floor_le_floor (hmono (by linarith))
      rcases le_total ra.weight rb.weight with h | h
      · rw [min_eq_left h, min_eq_left (hm h)]
      · rw [min_eq_right h, min_eq_right (hm h)])
  have hval : ∀ fuel ≥ fuel0, ∃ plan, emdR fl dot p q fuel = .ok (dot (List.zip (r.map fun x : ℤ => fl ((x : ℝ) / 100000000))
      (((p.map fun r => q.map fun r' => chebyshevR fl r.dists r'.dists).flatten.map (fpIntR fl)).map fun x : ℤ => fl ((x : ℝ) / 100000000))), plan) := by
    intro fuel hf
    rw [hemd]
    unfold networkSimplexR
    simp only [bind, Except.bind]
    rw [hok fuel hf]
    exact ⟨_, rfl⟩
  refine ⟨⟨fuel0, fun fuel hf => ⟨_, (hval fuel hf).choose_spec⟩⟩, ?_⟩
  intro fuel d plan hd
  rw [hemd] at hd
  have h3 := networkSimplexR_mono (le_max_left fuel fuel0) hd
  rw [← hemd] at h3
  obtain ⟨plan', h4⟩ := hval _ (le_max_right fuel fuel0)
  rw [h3] at h4
  have hd' := (Prod.mk.inj (Except.ok.inj h4)).1
  clear h3 h4 hd plan plan' hval hok
  -- the exact sum
  set cl := (p.map fun r => q.map fun r' => chebyshevR fl r.dists r'.dists).flatten.map (fpIntR fl) with hcl'
  set V : ℝ := ∑ i, ∑ j, (X i j : ℝ) / 100000000 * ((fpIntR fl (chebyshevR fl (p[i.1]'(lp ▸ i.2)).dists (q[j.1]'(lq ▸ j.2)).dists) : ℝ) / 100000000) with hV
  have hX0 : ∀ i j, 0 ≤ X i j := fun i j => (hX.bounds i j).1
  have hPpos : 0 < P.length := List.length_pos_iff.2 hP.nonempty
  have hQpos : 0 < Q.length := List.length_pos_iff.2 hQ.nonempty
  set l : List (ℝ × ℝ) := List.zip (r.map fun x : ℤ => (x : ℝ) / 100000000) (cl.map fun x : ℤ => (x : ℝ) / 100000000) with hl
  have hll : l.length = P.length * Q.length := by rw [hl, List.length_zip, List.length_map, List.length_map, hrl, hcl, min_self]
  have hdl : d = dot (l.map fun x => (fl x.1, fl x.2)) := by
    rw [hd', hl, List.map_zip_eq_zipWith, List.zip_eq_zipWith, List.zipWith_map, List.zipWith_map]
    rfl
  have hnonneg : ∀ x ∈ l, 0 ≤ x.1 ∧ 0 ≤ x.2 := by
    intro x hx
    obtain ⟨i, hi, rfl⟩ := List.mem_iff_getElem.1 hx
    rw [hll] at hi
    have e : i = i / Q.length * Q.length + i % Q.length := (Nat.div_add_mod' i Q.length).symm
    have hu' : i / Q.length < P.length := Nat.div_lt_of_lt_mul (by rwa [mul_comm] at hi)
    have hv := Nat.mod_lt i hQpos
    have g1 := hr ⟨_, hu'⟩ ⟨_, hv⟩
    have g2 := hc ⟨_, hu'⟩ ⟨_, hv⟩
    dsimp only at g1 g2
    rw [← e] at g1 g2
    rw [List.getD_eq_getElem _ _ (by rw [hrl]; exact hi)] at g1
    rw [List.getD_eq_getElem _ _ (by rw [hcl]; exact hi)] at g2
    simp only [hl, List.getElem_zip, List.getElem_map]
    rw [g1, g2]
    refine ⟨div_nonneg (by exact_mod_cast hX0 _ _) (by norm_num), div_nonneg ?_ (by norm_num)⟩
    rw [hτ _ (hcheb ⟨_, hu'⟩ ⟨_, hv⟩)]
    exact_mod_cast Int.floor_nonneg.2 (fl0 (hcheb ⟨_, hu'⟩ ⟨_, hv⟩))
  have hsum : (l.map fun x => x.1 * x.2).sum = V := by
    rw [hl, List.map_zip_eq_zipWith]
    change (List.zipWith (fun x c : ℝ => x * c) _ _).sum = _
    rw [sum_zipWith _ _ (by rw [List.length_map, List.length_map, hrl, hcl]), List.length_map, hrl, sum_range_mul, sum_range]
    refine sum_congr rfl fun i _ => ?_
    rw [sum_range]
    refine sum_congr rfl fun j _ => ?_
    have hk := edge_lt i.2 j.2
    have g1 := hr i j
    have g2 := hc i j
    rw [List.getD_eq_getElem _ _ (by rw [hrl]; exact hk)] at g1
    rw [List.getD_eq_getElem _ _ (by rw [hcl]; exact hk)] at g2
    rw [List.getD_eq_getElem _ _ (by rw [List.length_map, hrl]; exact hk), List.getD_eq_getElem _ _ (by rw [List.length_map, hcl]; exact hk), List.getElem_map, List.getElem_map, g1, g2]
  have hlne : l ≠ [] := by
    intro h
    rw [h, List.length_nil] at hll
    exact absurd hll (Nat.mul_pos hPpos hQpos).ne
  have hde := dot_error hu hfl hdot hnonneg hlne
  rw [← hdl, hsum, hll] at hde
  have hd0 : 0 ≤ d := by
    rw [hdl]
    refine (hdot _ (by simpa using hlne)).nonneg hu1 hfl ?_
    intro x hx
    obtain ⟨y, hy, rfl⟩ := List.mem_map.1 hx
    exact mul_nonneg (fl_nonneg hu1 hfl (hnonneg y hy).1) (fl_nonneg hu1 hfl (hnonneg y hy).2)
  refine ⟨hd0, ?_⟩
  -- the costs used
  set c' : Fin P.length → Fin Q.length → ℝ := fun i j => fl (chebyshevR fl (p[i.1]'(lp ▸ i.2)).dists (q[j.1]'(lq ▸ j.2)).dists * 100000000) / 100000000 with hc'
  set C : ℝ := (1 + u) ^ 2 * (L + (E + E')) with hCdef
  have hcp : ∀ i j, c' i j ≤ C ∧ |c' i j - chebyshev P[i].dists Q[j].dists| ≤ C - L := by
    intro i j
    have h0 := (chebyshev_metric k).nonneg _ _ (hP.len i) (hQ.len j)
    have h0' := (chebyshev_metric k).nonneg _ _ (rp i).width (rq j).width
    obtain ⟨g1, g2⟩ := chebyshevR_error hu hfl ((rp i).width.trans (rq j).width.symm)
    exact cost_perturb hu hfl (hL _ (List.getElem_mem _) _ (List.getElem_mem _))
      (chebyshev_perturb (rp i).width (hP.len i) (rq j).width (hQ.len j) hE hE' (rp i).dists (rq j).dists) g2 g1
  have hc0 : ∀ i j, 0 ≤ c' i j := fun i j => div_nonneg (fl0 (hcheb i j)) (by norm_num)
  have hR : Rounded (fun i : Fin P.length => P[i].weight) (fun j : Fin Q.length => Q[j].weight) c' (fun i => fpIntR fl (p[i.1]'(lp ▸ i.2)).weight)
      (fun j => fpIntR fl (q[j.1]'(lq ▸ j.2)).weight) (fun i j => fpIntR fl (chebyshevR fl (p[i.1]'(lp ▸ i.2)).dists (q[j.1]'(lq ▸ j.2)).dists)) X C
      (max P.length Q.length) := by
    refine ⟨hX, hP.sum_eq, hQ.sum_eq, fun i => (hunits (rp i)).2, fun j => (hunits (rq j)).2, fun i j => ?_, hP.nonneg, hQ.nonneg, fun i j => ⟨hc0 i j, (hcp i j).1⟩,
      by simp, by simp⟩
    rw [hτ _ (hcheb i j), hc']
    dsimp only
    rw [div_mul_cancel₀ _ (by norm_num)]
    exact ⟨Int.floor_le _, (Int.lt_floor_add_one _).le⟩
  have := hP.inh
  have := hQ.inh
  have key := hR.value (c := fun (i : Fin P.length) (j : Fin Q.length) => chebyshev P[i].dists Q[j].dists) (g := (1 + u) ^ (P.length * Q.length + 2) - 1)
    (fun i j => (chebyshev_metric k).nonneg _ _ (hP.len i) (hQ.len j)) (fun i j => (hcp i j).2) (by
      have : 1 ≤ (1 + u) ^ (P.length * Q.length + 2) := one_le_pow₀ (by linarith)
      linarith) (d := d) hde (lt_max_of_lt_left hPpos)
  exact key

end Amd
