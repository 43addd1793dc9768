import Verif.Proof.EmdInt64
import Verif.Proof.EmdApprox
import Verif.Proof.RoundingEmd

/-!
# `EMD` on `int64` and on unbounded integers
-/

namespace Amd

open Finset

theorem toInt64_eq (bad : ℝ → ℤ) {x : ℝ} (h0 : 0 ≤ x) (h1 : x < 2 ^ 63) : toInt64 bad x = ⌊x⌋ := by
  have f0 : 0 ≤ ⌊x⌋ := Int.floor_nonneg.2 h0
  have f1 : ⌊x⌋ < 2 ^ 63 := by
    rw [Int.floor_lt]
    exact_mod_cast h1
  unfold toInt64
  rw [if_pos h0]
  dsimp only
  rw [if_pos ⟨by omega, f1⟩]

/-- What is needed to turn weights and costs into `int64` by `τ`. -/
structure Castable (τ : ℝ → ℤ) (s t : List ℝ) (costs : List (List ℝ)) : Prop where
  s_ne : s ≠ []
  t_ne : t ≠ []
  s_pos : ∀ x ∈ s, 0 < τ x
  t_pos : ∀ x ∈ t, 0 < τ x
  s_sum : (s.map τ).sum ≤ fpMul
  t_sum : (t.map τ).sum ≤ fpMul
  min_eq : ∀ a ∈ s, ∀ b ∈ t, τ (min a b) = min (τ a) (τ b)
  rows : costs.length = s.length
  width : ∀ r ∈ costs, r.length = t.length
  costs_nonneg : ∀ r ∈ costs, ∀ x ∈ r, 0 ≤ τ x
  costs_sum : (costs.flatten.map τ).sum ≤ 10 ^ 18

theorem caps_sum_le {τ : ℝ → ℤ} {t : List ℝ} (ht : (t.length : ℤ) ≤ 100000000) : ∀ s : List ℝ, (∀ x ∈ s, 0 < τ x) → (∀ a ∈ s, ∀ b ∈ t, τ (min a b) = min (τ a) (τ b)) →
    (s.flatMap fun a => t.map fun b => τ (min a b)).sum ≤ 100000000 * (s.map τ).sum := by
  intro s
  induction s with
  | nil => intro _ _; simp
  | cons a s ih =>
    intro hp hm
    have h1 := ih (fun x hx => hp x (by simp [hx])) fun x hx => hm x (by simp [hx])
    have h2 : (t.map fun b => τ (min a b)).sum ≤ t.length * τ a := by
      have : (t.map fun b => τ (min a b)).sum ≤ (t.map fun _ => τ a).sum := by
        apply List.sum_le_sum
        intro b hb
        rw [hm a (by simp) b hb]
        exact min_le_left _ _
      simpa using this
    have h3 := hp a (by simp)
    rw [List.flatMap_cons, List.sum_append, List.map_cons, List.sum_cons]
    nlinarith

theorem Castable.eq {τ : ℝ → ℤ} {s t : List ℝ} {costs : List (List ℝ)} (h : Castable τ s t costs) (fuel : ℕ) :
    simplexInt64 (s.map τ) (t.map τ) (costs.flatten.map τ) (s.flatMap fun a => t.map fun b => τ (min a b)) fuel =
      simplexInt (s.map τ) (t.map τ) (costs.flatten.map τ) (s.flatMap fun a => t.map fun b => τ (min a b)) fuel := by
  have p1 : ∀ x ∈ s.map τ, 0 < x := by
    intro x hx
    obtain ⟨a, ha, rfl⟩ := List.mem_map.1 hx
    exact h.s_pos a ha
  have p2 : ∀ x ∈ t.map τ, 0 < x := by
    intro x hx
    obtain ⟨a, ha, rfl⟩ := List.mem_map.1 hx
    exact h.t_pos a ha
  have hl : (t.length : ℤ) ≤ 100000000 := by
    have := length_le_sum p2
    have h2 := h.t_sum
    unfold fpMul at h2
    rw [List.length_map] at this
    omega
  apply simplexInt64_eq (by simpa using h.s_ne) (by simpa using h.t_ne) p1 p2 h.s_sum h.t_sum
  · rw [List.length_map, List.length_map, List.length_map, flatten_length _ _ h.width, h.rows]
  · intro x hx
    obtain ⟨y, hy, rfl⟩ := List.mem_map.1 hx
    obtain ⟨r, hr, hy⟩ := List.mem_flatten.1 hy
    exact h.costs_nonneg r hr y hy
  · simp
  · intro x hx
    obtain ⟨a, ha, hx⟩ := List.mem_flatMap.1 hx
    obtain ⟨b, hb, rfl⟩ := List.mem_map.1 hx
    rw [h.min_eq a ha b hb]
    exact lt_min (h.s_pos a ha) (h.t_pos b hb)
  · refine ⟨h.costs_sum, ?_⟩
    have h1 := caps_sum_le hl s h.s_pos h.min_eq
    have h2 := h.s_sum
    unfold fpMul at h2
    omega

/-- The numbers that are cast are the same for both kinds of integers. -/
theorem Castable.cast {τ τ' : ℝ → ℤ} {s t : List ℝ} {costs : List (List ℝ)} (h : Castable τ s t costs)
    (heq : ∀ x, 0 ≤ τ x → τ x ≤ 10 ^ 18 → τ' x = τ x) : s.map τ' = s.map τ ∧ t.map τ' = t.map τ ∧ costs.flatten.map τ' = costs.flatten.map τ ∧
      (s.flatMap fun a => t.map fun b => τ' (min a b)) = s.flatMap fun a => t.map fun b => τ (min a b) := by
  have p1 : ∀ x ∈ s.map τ, 0 < x := by
    intro x hx
    obtain ⟨a, ha, rfl⟩ := List.mem_map.1 hx
    exact h.s_pos a ha
  have p2 : ∀ x ∈ t.map τ, 0 < x := by
    intro x hx
    obtain ⟨a, ha, rfl⟩ := List.mem_map.1 hx
    exact h.t_pos a ha
  have s1 : ∀ x ∈ s, τ x ≤ 10 ^ 18 := by
    intro x hx
    have h1 := mem_le_sum (fun x hx => (p1 x hx).le) (List.mem_map_of_mem (f := τ) hx)
    have h2 := h.s_sum
    unfold fpMul at h2
    omega
  have t1 : ∀ x ∈ t, τ x ≤ 10 ^ 18 := by
    intro x hx
    have h1 := mem_le_sum (fun x hx => (p2 x hx).le) (List.mem_map_of_mem (f := τ) hx)
    have h2 := h.t_sum
    unfold fpMul at h2
    omega
  have p3 : ∀ x ∈ costs.flatten.map τ, 0 ≤ x := by
    intro x hx
    obtain ⟨y, hy, rfl⟩ := List.mem_map.1 hx
    obtain ⟨r, hr, hy⟩ := List.mem_flatten.1 hy
    exact h.costs_nonneg r hr y hy
  refine ⟨List.map_congr_left fun x hx => heq x (h.s_pos x hx).le (s1 x hx), List.map_congr_left fun x hx => heq x (h.t_pos x hx).le (t1 x hx),
    List.map_congr_left fun x hx => heq x (p3 _ (List.mem_map_of_mem hx)) ((mem_le_sum p3 (List.mem_map_of_mem hx)).trans h.costs_sum), ?_⟩
  have : ∀ a ∈ s, (t.map fun b => τ' (min a b)) = t.map fun b => τ (min a b) := by
    intro a ha
    apply List.map_congr_left
    intro b hb
    have e := h.min_eq a ha b hb
    have h1 := h.s_pos a ha
    have h2 := h.t_pos b hb
    have h3 := s1 a ha
    apply heq
    · rw [e]; exact le_min h1.le h2.le
    · rw [e]; exact (min_le_left _ _).trans h3
  unfold List.flatMap
  rw [List.map_congr_left this]

/-- `network_simplex` with `int64` and exact real numbers. -/
theorem networkSimplex64_eq {bad : ℝ → ℤ} {s t : List ℝ} {costs : List (List ℝ)} (h : Castable fpInt s t costs) (fuel : ℕ) :
    networkSimplex64 bad s t costs fuel = networkSimplex s t costs fuel := by
  have heq : ∀ x, 0 ≤ fpInt x → fpInt x ≤ 10 ^ 18 → toInt64 bad (x * 100000000) = fpInt x := by
    intro x h0 h1
    unfold toInt64 fpInt at *
    by_cases hx : 0 ≤ x
    · have : 0 ≤ x * 100000000 := by positivity
      rw [if_pos hx] at *
      rw [if_pos this]
      dsimp only
      rw [if_pos ⟨by omega, by omega⟩]
    · have : ¬0 ≤ x * 100000000 := by push Not at *; linarith
      rw [if_neg hx] at *
      rw [if_neg this]
      dsimp only
      rw [if_pos ⟨by omega, by omega⟩]
  obtain ⟨e1, e2, e3, e4⟩ := h.cast heq
  unfold networkSimplex64 networkSimplex
  rw [e1, e2, e3, e4]
  dsimp only
  rw [h.eq]

/-- `network_simplex` with `int64` and rounded operations. -/
theorem networkSimplexR64_eq {fl : ℝ → ℝ} {bad : ℝ → ℤ} {dot : List (ℝ × ℝ) → ℝ} {s t : List ℝ} {costs : List (List ℝ)} (h : Castable (fpIntR fl) s t costs) (fuel : ℕ) :
    networkSimplexR64 fl bad dot s t costs fuel = networkSimplexR fl dot s t costs fuel := by
  have heq : ∀ x, 0 ≤ fpIntR fl x → fpIntR fl x ≤ 10 ^ 18 → toInt64 bad (fl (x * 100000000)) = fpIntR fl x := by
    intro x h0 h1
    unfold toInt64 fpIntR at *
    dsimp only
    rw [if_pos ⟨by omega, by omega⟩]
  obtain ⟨e1, e2, e3, e4⟩ := h.cast heq
  unfold networkSimplexR64 networkSimplexR
  rw [e1, e2, e3, e4]
  dsimp only
  rw [h.eq]

/-! ### Weighted rows -/

theorem sum_fpInt_le : ∀ l : List ℝ, (∀ x ∈ l, 0 ≤ x) → (((l.map fpInt).sum : ℤ) : ℝ) ≤ l.sum * 100000000 := by
  intro l
  induction l with
  | nil => simp
  | cons a l ih =>
    intro h
    have h2 := ih fun x hx => h x (by simp [hx])
    have h3 := Int.floor_le (a * 100000000)
    rw [← fpInt_nonneg (h a (by simp))] at h3
    simp only [List.map_cons, List.sum_cons, Int.cast_add]
    linarith

theorem fpInt_min {a b : ℝ} (ha : 0 ≤ a) (hb : 0 ≤ b) : fpInt (min a b) = min (fpInt a) (fpInt b) := by
  rw [fpInt_nonneg (le_min ha hb), fpInt_nonneg ha, fpInt_nonneg hb]
  rcases le_total a b with h | h
  · rw [min_eq_left h, min_eq_left (Int.floor_le_floor (by linarith))]
  · rw [min_eq_right h, min_eq_right (Int.floor_le_floor (by linarith))]

theorem fpInt_pos {x : ℝ} (hx : 1 / 100000000 ≤ x) : 0 < fpInt x := by
  rw [fpInt_nonneg (le_trans (by norm_num) hx)]
  have : (1 : ℤ) ≤ ⌊x * 100000000⌋ := by
    rw [Int.le_floor]
    push_cast
    have := mul_le_mul_of_nonneg_right hx (by norm_num : (0 : ℝ) ≤ 100000000)
    norm_num at this ⊢
    exact this
  omega

variable {k : ℕ} {p q : List (PRow ℝ)} {δ : List ℝ → List ℝ → ℝ}

theorem castable_exact (hp : WeightedRows k p) (hq : WeightedRows k q) (hδ : ∀ r s, r.length = k → s.length = k → 0 ≤ δ r s)
    (hsum : (p.map fun r => (q.map fun s => δ r.dists s.dists).sum).sum ≤ 10 ^ 10) :
    Castable fpInt (p.map fun r => r.weight) (q.map fun r => r.weight) (p.map fun r => q.map fun r' => δ r.dists r'.dists) := by
  have w : ∀ {p : List (PRow ℝ)}, WeightedRows k p → ∀ x ∈ p.map fun r => r.weight, 1 / 100000000 ≤ x := by
    intro p hp x hx
    obtain ⟨r, hr, rfl⟩ := List.mem_map.1 hx
    exact hp.weights r hr
  have w0 : ∀ {p : List (PRow ℝ)}, WeightedRows k p → ∀ x ∈ p.map fun r => r.weight, 0 ≤ x := fun hp x hx => le_trans (by norm_num) (w hp x hx)
  have wsum : ∀ {p : List (PRow ℝ)}, WeightedRows k p → ((p.map fun r => r.weight).map fpInt).sum ≤ fpMul := by
    intro p hp
    have h1 := sum_fpInt_le _ (w0 hp)
    rw [hp.total] at h1
    unfold fpMul
    have : ((((p.map fun r => r.weight).map fpInt).sum : ℤ) : ℝ) ≤ ((100000000 : ℤ) : ℝ) := by push_cast; push_cast at h1; linarith
    exact_mod_cast this
  have c0 : ∀ r ∈ (p.map fun r => q.map fun r' => δ r.dists r'.dists), ∀ x ∈ r, 0 ≤ x := by
    intro r hr x hx
    obtain ⟨a, ha, rfl⟩ := List.mem_map.1 hr
    obtain ⟨b, hb, rfl⟩ := List.mem_map.1 hx
    exact hδ _ _ (hp.width a ha) (hq.width b hb)
  refine ⟨by simpa using hp.nonempty, by simpa using hq.nonempty, fun x hx => fpInt_pos (w hp x hx), fun x hx => fpInt_pos (w hq x hx), wsum hp, wsum hq,
    fun a ha b hb => fpInt_min (w0 hp a ha) (w0 hq b hb), by simp, ?_, ?_, ?_⟩
  · intro r hr
    obtain ⟨a, -, rfl⟩ := List.mem_map.1 hr
    simp
  · intro r hr x hx
    rw [fpInt_nonneg (c0 r hr x hx)]
    exact Int.floor_nonneg.2 (mul_nonneg (c0 r hr x hx) (by norm_num))
  · have h1 := sum_fpInt_le (p.map fun r => q.map fun r' => δ r.dists r'.dists).flatten (by
      intro x hx
      obtain ⟨r, hr, hx⟩ := List.mem_flatten.1 hx
      exact c0 r hr x hx)
    rw [List.sum_flatten, List.map_map] at h1
    have h2 : (((p.map fun r => q.map fun r' => δ r.dists r'.dists).flatten.map fpInt).sum : ℝ) ≤ ((10 ^ 18 : ℤ) : ℝ) := by
      have e18 : ((10 ^ 18 : ℤ) : ℝ) = 10 ^ 18 := by norm_num
      rw [e18]
      refine h1.trans ?_
      have : (List.map (List.sum ∘ fun r : PRow ℝ => List.map (fun r' : PRow ℝ => δ r.dists r'.dists) q) p).sum ≤ 10 ^ 10 := hsum
      nlinarith
    exact_mod_cast h2

/-- `EMD` with `int64` and exact real numbers. -/
theorem emd64_eq (hp : WeightedRows k p) (hq : WeightedRows k q) (hδ : ∀ r s, r.length = k → s.length = k → 0 ≤ δ r s)
    (hsum : (p.map fun r => (q.map fun s => δ r.dists s.dists).sum).sum ≤ 10 ^ 10) (bad : ℝ → ℤ) (fuel : ℕ) : emd64 bad δ p q fuel = emd δ p q fuel := by
  unfold emd64 emd
  rw [networkSimplex64_eq (castable_exact hp hq hδ hsum)]

theorem castable_rounded {fl : ℝ → ℝ} {u : ℝ} (hu : 0 ≤ u) (hu1 : u ≤ 1) (hfl : ∀ x, |fl x - x| ≤ u * |x|) (hmono : Monotone fl) {P Q : List (PRow ℝ)} {E E' : ℝ}
    (hP : WeightedRows k P) (hQ : WeightedRows k Q) (hp : List.Forall₂ (Represents fl k E) P p) (hq : List.Forall₂ (Represents fl k E') Q q)
    (hsum : (p.map fun r => (q.map fun s => chebyshev r.dists s.dists).sum).sum ≤ 2 * 10 ^ 9) :
    Castable (fpIntR fl) (p.map fun r => r.weight) (q.map fun r => r.weight) (p.map fun r => q.map fun r' => chebyshevR fl r.dists r'.dists) := by
  have fl0 : ∀ {x : ℝ}, 0 ≤ x → 0 ≤ fl (x * 100000000) := fun hx => fl_nonneg hu1 hfl (by positivity)
  have hτ : ∀ x : ℝ, 0 ≤ x → fpIntR fl x = ⌊fl (x * 100000000)⌋ := fun x hx => fpIntR_nonneg (fl0 hx)
  have hunits : ∀ {E : ℝ} {R r : PRow ℝ}, Represents fl k E R r → 0 < fpIntR fl r.weight ∧ (fpIntR fl r.weight : ℝ) ≤ R.weight * 100000000 := by
    intro E R r h
    obtain ⟨W, h0, h1, h2, h3, h4⟩ := h.units
    have : fpIntR fl r.weight = W := by
      rw [hτ _ h.weight, Int.floor_eq_iff]
      exact ⟨by exact_mod_cast h1, by exact_mod_cast h2⟩
    rw [this]
    exact ⟨by exact_mod_cast h0, by exact_mod_cast h3⟩
  have key : ∀ {E : ℝ} {P p : List (PRow ℝ)}, List.Forall₂ (Represents fl k E) P p → (∀ r ∈ p, r.dists.length = k ∧ 0 ≤ r.weight ∧ 0 < fpIntR fl r.weight) ∧
      ((((p.map fun r => r.weight).map (fpIntR fl)).sum : ℤ) : ℝ) ≤ (P.map fun r => r.weight).sum * 100000000 := by
    intro E P p h
    induction h with
    | nil => simp
    | cons h1 h2 ih =>
      refine ⟨?_, ?_⟩
      · intro r hr
        rcases List.mem_cons.1 hr with rfl | hr
        · exact ⟨h1.width, h1.weight, (hunits h1).1⟩
        · exact ih.1 r hr
      · simp only [List.map_cons, List.sum_cons, Int.cast_add]
        have := (hunits h1).2
        linarith [ih.2]
  obtain ⟨kp, sp⟩ := key hp
  obtain ⟨kq, sq⟩ := key hq
  rw [hP.total] at sp
  rw [hQ.total] at sq
  have cR : ∀ r ∈ p, ∀ s ∈ q, 0 ≤ chebyshevR fl r.dists s.dists ∧ chebyshevR fl r.dists s.dists ≤ 2 * chebyshev r.dists s.dists := by
    intro r hr s hs
    have h := chebyshevR_error hu hfl ((kp r hr).1.trans (kq s hs).1.symm)
    refine ⟨h.1, ?_⟩
    have h2 := (abs_le.1 h.2).2
    have h3 : 0 ≤ chebyshev r.dists s.dists := (chebyshev_metric k).nonneg _ _ (kp r hr).1 (kq s hs).1
    nlinarith
  have hcost : ∀ x : ℝ, 0 ≤ x → 0 ≤ fpIntR fl x ∧ (fpIntR fl x : ℝ) ≤ x * 200000000 := by
    intro x hx
    rw [hτ x hx]
    refine ⟨Int.floor_nonneg.2 (fl0 hx), (Int.floor_le _).trans ?_⟩
    have h1 := (abs_le.1 (hfl (x * 100000000))).2
    rw [abs_of_nonneg (by positivity)] at h1
    nlinarith
  have hsum2 : ∀ l : List ℝ, (∀ x ∈ l, 0 ≤ x) → (((l.map (fpIntR fl)).sum : ℤ) : ℝ) ≤ l.sum * 200000000 := by
    intro l
    induction l with
    | nil => simp
    | cons a l ih =>
      intro h
      have h2 := ih fun x hx => h x (by simp [hx])
      have h3 := (hcost a (h a (by simp))).2
      simp only [List.map_cons, List.sum_cons, Int.cast_add]
      linarith
  have wsum : ∀ {p : List (PRow ℝ)}, ((((p.map fun r => r.weight).map (fpIntR fl)).sum : ℤ) : ℝ) ≤ 1 * 100000000 → ((p.map fun r => r.weight).map (fpIntR fl)).sum ≤ fpMul := by
    intro p h
    unfold fpMul
    have e : ((100000000 : ℤ) : ℝ) = 1 * 100000000 := by norm_num
    rw [← e] at h
    exact_mod_cast h
  refine ⟨?_, ?_, ?_, ?_, wsum sp, wsum sq, ?_, by simp, ?_, ?_, ?_⟩
  · intro h
    have := congrArg List.length h
    rw [List.length_map, ← hp.length_eq] at this
    exact hP.nonempty (List.length_eq_zero_iff.1 this)
  · intro h
    have := congrArg List.length h
    rw [List.length_map, ← hq.length_eq] at this
    exact hQ.nonempty (List.length_eq_zero_iff.1 this)
  · intro x hx
    obtain ⟨r, hr, rfl⟩ := List.mem_map.1 hx
    exact (kp r hr).2.2
  · intro x hx
    obtain ⟨r, hr, rfl⟩ := List.mem_map.1 hx
    exact (kq r hr).2.2
  · intro a ha b hb
    obtain ⟨ra, hra, rfl⟩ := List.mem_map.1 ha
    obtain ⟨rb, hrb, rfl⟩ := List.mem_map.1 hb
    have ha := (kp ra hra).2.1
    have hb := (kq rb hrb).2.1
    rw [hτ _ (le_min ha hb), hτ _ ha, hτ _ hb]
    have hm : ∀ {a b : ℝ}, a ≤ b → ⌊fl (a * 100000000)⌋ ≤ ⌊fl (b * 100000000)⌋ := fun h => Int.floor_le_floor (hmono (by linarith))
    rcases le_total ra.weight rb.weight with h | h
    · rw [min_eq_left h, min_eq_left (hm h)]
    · rw [min_eq_right h, min_eq_right (hm h)]
  · intro r hr
    obtain ⟨a, -, rfl⟩ := List.mem_map.1 hr
    simp
  · intro r hr x hx
    obtain ⟨a, ha, rfl⟩ := List.mem_map.1 hr
    obtain ⟨b, hb, rfl⟩ := List.mem_map.1 hx
    exact (hcost _ (cR a ha b hb).1).1
  · have h1 := hsum2 (p.map fun r => q.map fun r' => chebyshevR fl r.dists r'.dists).flatten (by
      intro x hx
      obtain ⟨r, hr, hx⟩ := List.mem_flatten.1 hx
      obtain ⟨a, ha, rfl⟩ := List.mem_map.1 hr
      obtain ⟨b, hb, rfl⟩ := List.mem_map.1 hx
      exact (cR a ha b hb).1)
    rw [List.sum_flatten, List.map_map] at h1
    have h3 : (p.map (List.sum ∘ fun r => q.map fun r' => chebyshevR fl r.dists r'.dists)).sum ≤ (p.map fun r => 2 * (q.map fun s => chebyshev r.dists s.dists).sum).sum := by
      apply List.sum_le_sum
      intro r hr
      simp only [Function.comp]
      rw [← List.sum_map_mul_left]
      apply List.sum_le_sum
      intro s hs
      exact (cR r hr s hs).2
    rw [List.sum_map_mul_left] at h3
    have h2 : (((p.map fun r => q.map fun r' => chebyshevR fl r.dists r'.dists).flatten.map (fpIntR fl)).sum : ℝ) ≤ ((10 ^ 18 : ℤ) : ℝ) := by
      have e18 : ((10 ^ 18 : ℤ) : ℝ) = 10 ^ 18 := by norm_num
      rw [e18]
      refine h1.trans ?_
      nlinarith
    exact_mod_cast h2

/-- `EMD` with `int64` and rounded operations. -/
theorem emdR64_eq {fl : ℝ → ℝ} {u : ℝ} (hu : 0 ≤ u) (hu1 : u ≤ 1) (hfl : ∀ x, |fl x - x| ≤ u * |x|) (hmono : Monotone fl) {P Q : List (PRow ℝ)} {E E' : ℝ}
    (hP : WeightedRows k P) (hQ : WeightedRows k Q) (hp : List.Forall₂ (Represents fl k E) P p) (hq : List.Forall₂ (Represents fl k E') Q q)
    (hsum : (p.map fun r => (q.map fun s => chebyshev r.dists s.dists).sum).sum ≤ 2 * 10 ^ 9) (bad : ℝ → ℤ) (dot : List (ℝ × ℝ) → ℝ) (fuel : ℕ) :
    emdR64 fl bad dot p q fuel = emdR fl dot p q fuel := by
  unfold emdR64 emdR
  rw [networkSimplexR64_eq (castable_rounded hu hu1 hfl hmono hP hQ hp hq hsum)]

end Amd
