import Verif.Proof.Explicit
import Mathlib.Tactic.FinCases

/-! Helper lemmas: reduced cells of three dimensions. -/

namespace Amd

/-- Gram matrix of a reduced cell: diagonal `g`, `h`, `k`, other entries `x` (1, 2), `y` (1, 3) and `z` (2, 3). -/
structure Red (g h k x y z : ℝ) : Prop where
  xg : 2 * |x| ≤ g
  xh : 2 * |x| ≤ h
  yg : 2 * |y| ≤ g
  yk : 2 * |y| ≤ k
  zh : 2 * |z| ≤ h
  zk : 2 * |z| ≤ k
  gh : 0 ≤ g + h + 2 * (x + y + z)
  gk : 0 ≤ g + k + 2 * (x + y + z)
  hk : 0 ≤ h + k + 2 * (x + y + z)

variable {g h k x y z u v w : ℝ}

theorem Red.swap (r : Red g h k x y z) : Red h g k x z y :=
  ⟨r.xh, r.xg, r.zh, r.zk, r.yg, r.yk, by linarith [r.gh], by linarith [r.hk], by linarith [r.gk]⟩

theorem Red.rot (r : Red g h k x y z) : Red h k g z x y :=
  ⟨r.zh, r.zk, r.xh, r.xg, r.yk, r.yg, by linarith [r.hk], by linarith [r.gh], by linarith [r.gk]⟩

/-- A term of a row, bounded. -/
theorem term_le (hx : 2 * |x| ≤ g) : -(g * |v|) ≤ 2 * (x * v) := by
  have h1 : |x * v| ≤ |x| * |v| := (abs_mul x v).le
  have h2 := neg_abs_le (x * v)
  have h3 := mul_le_mul_of_nonneg_right hx (abs_nonneg v)
  nlinarith

theorem g_nonneg (hx : 2 * |x| ≤ g) : 0 ≤ g := le_trans (by positivity) hx

/-- If no step is possible in the first coordinate. -/
theorem row_lt (hx : 2 * |x| ≤ g) (hy : 2 * |y| ≤ g) (hr : 2 * (g * u + x * v + y * w) < g) : 2 * u < 1 + |v| + |w| := by
  by_contra hc
  push Not at hc
  have := mul_le_mul_of_nonneg_left hc (g_nonneg hx)
  have h1 := term_le (v := v) hx
  have h2 := term_le (v := w) hy
  nlinarith

theorem row_lt_left (hx : 2 * |x| ≤ g) (hx0 : 0 ≤ x) (hv : 0 ≤ v) (hy : 2 * |y| ≤ g) (hr : 2 * (g * u + x * v + y * w) < g) : 2 * u < 1 + |w| := by
  by_contra hc
  push Not at hc
  have := mul_le_mul_of_nonneg_left hc (g_nonneg hx)
  have h1 := mul_nonneg hx0 hv
  have h2 := term_le (v := w) hy
  nlinarith

theorem row_lt_right (hx : 2 * |x| ≤ g) (hy0 : 0 ≤ y) (hw : 0 ≤ w) (hy : 2 * |y| ≤ g) (hr : 2 * (g * u + x * v + y * w) < g) : 2 * u < 1 + |v| :=
  row_lt_left hy hy0 hw hx (by linarith)

/-- The case of three obtuse angles. -/
theorem obtuse_lt (r : Red g h k x y z) (hx : x ≤ 0) (hy : y ≤ 0) (hz : z ≤ 0) (huv : v ≤ u) (hvw : w ≤ v) (hw : 0 ≤ w)
    (h1 : 2 * (g * u + x * v + y * w) < g) (h2 : 2 * (x * u + h * v + z * w) < h) (h3 : 2 * (y * u + z * v + k * w) < k) : u < 2 := by
  by_contra hc
  push Not at hc
  have e1 := row_lt r.xg r.yg h1
  rw [abs_of_nonneg (by linarith), abs_of_nonneg hw] at e1
  have xg := r.xg; have xh := r.xh; have yg := r.yg; have yk := r.yk; have zh := r.zh; have zk := r.zk
  have gh := r.gh; have gk := r.gk; have hk := r.hk
  rw [abs_of_nonpos hx] at xg xh
  rw [abs_of_nonpos hy] at yg yk
  rw [abs_of_nonpos hz] at zh zk
  -- Selling parameters
  have p1 : 0 ≤ g + x + y := by linarith
  have p2 : 0 ≤ h + x + z := by linarith
  have p3 : 0 ≤ k + y + z := by linarith
  have hsum : (g + x + y) * (u - 1 / 2) + (h + x + z) * (v - 1 / 2) + (k + y + z) * (w - 1 / 2) < -(x + y + z) := by nlinarith
  have b1 : -(x + y + z) ≤ (g + x + y) + (h + x + z) + (k + y + z) := by linarith
  have b2 : -(x + y + z) ≤ 2 * ((g + x + y) + (h + x + z)) := by linarith
  by_cases hw' : 3 / 2 ≤ w
  · have := mul_nonneg p1 (show 0 ≤ u - 3 / 2 by linarith)
    have := mul_nonneg p2 (show 0 ≤ v - 3 / 2 by linarith)
    have := mul_nonneg p3 (show 0 ≤ w - 3 / 2 by linarith)
    nlinarith
  · push Not at hw'
    have := mul_nonneg (sub_nonneg.2 b1) (show 0 ≤ w - 1 / 2 by linarith)
    have := mul_nonneg (sub_nonneg.2 b2) (show 0 ≤ 3 / 2 - w by linarith)
    have := mul_nonneg p1 (show 0 ≤ u + w - 3 by linarith)
    have := mul_nonneg p2 (show 0 ≤ v + w - 3 by linarith)
    nlinarith

/-- If no step is possible then all coordinates are small. -/
theorem no_step_lt (r : Red g h k x y z) (h1 : 0 ≤ u ∧ 2 * (g * u + x * v + y * w) < g)
    (h2 : |v| ≤ 1 ∨ 0 ≤ v ∧ 2 * (x * u + h * v + z * w) < h) (h3 : |w| ≤ 1 ∨ 0 ≤ w ∧ 2 * (y * u + z * v + k * w) < k) : u < 2 := by
  obtain ⟨hu, h1⟩ := h1
  have e1 := row_lt r.xg r.yg h1
  rcases h2 with h2 | ⟨hv, h2⟩
  · rcases h3 with h3 | ⟨hw, h3⟩
    · linarith
    · have e3 := row_lt r.yk r.zk (show 2 * (k * w + y * u + z * v) < k by linarith)
      rw [abs_of_nonneg hu] at e3
      rw [abs_of_nonneg hw] at e1
      linarith
  have e2 := row_lt r.xh r.zh (show 2 * (h * v + x * u + z * w) < h by linarith)
  rw [abs_of_nonneg hu] at e2
  rw [abs_of_nonneg hv] at e1
  rcases h3 with h3 | ⟨hw, h3⟩
  · linarith
  have e3 := row_lt r.yk r.zk (show 2 * (k * w + y * u + z * v) < k by linarith)
  rw [abs_of_nonneg hu, abs_of_nonneg hv] at e3
  rw [abs_of_nonneg hw] at e1 e2
  rcases le_total 0 x with hx | hx
  · have f1 := row_lt_left r.xg hx hv r.yg h1
    have f2 := row_lt_left r.xh hx hu r.zh (show 2 * (h * v + x * u + z * w) < h by linarith)
    rw [abs_of_nonneg hw] at f1 f2
    linarith
  rcases le_total 0 y with hy | hy
  · have f1 := row_lt_right r.xg hy hw r.yg h1
    have f3 := row_lt_left r.yk hy hu r.zk (show 2 * (k * w + y * u + z * v) < k by linarith)
    rw [abs_of_nonneg hv] at f1 f3
    linarith
  rcases le_total 0 z with hz | hz
  · have f2 := row_lt_right r.xh hz hw r.zh (show 2 * (h * v + x * u + z * w) < h by linarith)
    have f3 := row_lt_right r.yk hz hv r.zk (show 2 * (k * w + y * u + z * v) < k by linarith)
    rw [abs_of_nonneg hu] at f2 f3
    linarith
  -- all angles obtuse: sort the coordinates
  rcases le_total u v with huv | huv <;> rcases le_total v w with hvw | hvw <;> rcases le_total u w with huw | huw
  · have := obtuse_lt (u := w) (v := v) (w := u) (g := k) (h := h) (k := g) (x := z) (y := y) (z := x)
      ⟨r.zk, r.zh, r.yk, r.yg, r.xh, r.xg, by linarith [r.hk], by linarith [r.gk], by linarith [r.gh]⟩ hz hy hx hvw huv hu (by linarith) (by linarith) (by linarith)
    linarith
  · have := obtuse_lt (u := w) (v := v) (w := u) (g := k) (h := h) (k := g) (x := z) (y := y) (z := x)
      ⟨r.zk, r.zh, r.yk, r.yg, r.xh, r.xg, by linarith [r.hk], by linarith [r.gk], by linarith [r.gh]⟩ hz hy hx hvw huv hu (by linarith) (by linarith) (by linarith)
    linarith
  · have := obtuse_lt (u := v) (v := w) (w := u) r.rot hz hx hy hvw huw hu (by linarith) (by linarith) (by linarith)
    linarith
  · have := obtuse_lt (u := v) (v := u) (w := w) r.swap hx hz hy huv huw hw (by linarith) (by linarith) (by linarith)
    linarith
  · have := obtuse_lt (u := w) (v := u) (w := v) r.rot.rot hy hz hx huw huv hv (by linarith) (by linarith) (by linarith)
    linarith
  · exact obtuse_lt (u := u) (v := w) (w := v) (g := g) (h := k) (k := h) (x := y) (y := x) (z := z)
      ⟨r.yg, r.yk, r.xg, r.xh, r.zk, r.zh, by linarith [r.gk], by linarith [r.gh], by linarith [r.hk]⟩ hy hx hz huw hvw hv (by linarith) (by linarith) (by linarith)
  · have := obtuse_lt (u := u) (v := v) (w := w) r hx hy hz huv hvw hw h1 h2 h3
    linarith
  · exact obtuse_lt (u := u) (v := v) (w := w) r hx hy hz huv hvw hw h1 h2 h3

/-- Stepping in the first two coordinates does not lead away. -/
def Two (g h x y z u v w : ℝ) : Prop := 0 ≤ g * (2 * u - 1) + h * (2 * v - 1) + 2 * x * (u + v - 1) + 2 * (y + z) * w

theorem two_of_acute (r : Red g h k x y z) (hx : 0 ≤ x) (hu : 1 ≤ u) (hv : 1 ≤ v) (hw : 1 ≤ w)
    (h1 : 2 * (g * u + x * v + y * w) < g) (h2 : 2 * (x * u + h * v + z * w) < h) : Two g k y x z u w v ∨ Two h k z x y v w u := by
  have f1 := row_lt_left r.xg hx (by linarith) r.yg h1
  have f2 := row_lt_left r.xh hx (by linarith) r.zh (show 2 * (h * v + x * u + z * w) < h by linarith)
  rw [abs_of_nonneg (by linarith)] at f1 f2
  have hg := g_nonneg r.xg
  have hh := g_nonneg r.xh
  have hk := g_nonneg r.yk
  have hxv := mul_nonneg hx (show 0 ≤ v by linarith)
  have hxu := mul_nonneg hx (show 0 ≤ u by linarith)
  have hy : y ≤ 0 := by
    by_contra hc
    push Not at hc
    nlinarith [mul_nonneg hc.le (show 0 ≤ w by linarith), mul_nonneg hg (show 0 ≤ u - 1 by linarith)]
  have hz : z ≤ 0 := by
    by_contra hc
    push Not at hc
    nlinarith [mul_nonneg hc.le (show 0 ≤ w by linarith), mul_nonneg hh (show 0 ≤ v - 1 by linarith)]
  have yg := r.yg; have yk := r.yk; have zh := r.zh; have zk := r.zk
  rw [abs_of_nonpos hy] at yg yk
  rw [abs_of_nonpos hz] at zh zk
  rcases le_total v u with huv | huv
  · left
    have a1 := mul_nonneg (sub_nonneg.2 yg) (show 0 ≤ 2 * u - 1 by linarith)
    have a2 := mul_nonneg (sub_nonneg.2 yk) (show 0 ≤ w - u by linarith)
    have a3 := mul_nonneg hk (show 0 ≤ w + u - 1 - v by linarith)
    have a4 := mul_nonneg (sub_nonneg.2 zk) (show 0 ≤ v by linarith)
    unfold Two
    linarith
  · right
    have a1 := mul_nonneg (sub_nonneg.2 zh) (show 0 ≤ 2 * v - 1 by linarith)
    have a2 := mul_nonneg (sub_nonneg.2 zk) (show 0 ≤ w - v by linarith)
    have a3 := mul_nonneg hk (show 0 ≤ w + v - 1 - u by linarith)
    have a4 := mul_nonneg (sub_nonneg.2 yk) (show 0 ≤ u by linarith)
    unfold Two
    linarith

theorem two_of_obtuse (r : Red g h k x y z) (hy : y ≤ 0) (hz : z ≤ 0) (hu : 1 ≤ u) (hv : 1 ≤ v)
    (hwu : w ≤ u) (hwv : w ≤ v) (hx : x ≤ 0) : Two g h x y z u v w := by
  have xg := r.xg; have xh := r.xh; have yg := r.yg; have zh := r.zh
  rw [abs_of_nonpos hx] at xg xh
  rw [abs_of_nonpos hy] at yg
  rw [abs_of_nonpos hz] at zh
  have a1 := mul_nonneg (show 0 ≤ g + x + y by linarith) (show 0 ≤ 2 * u - 2 by linarith)
  have a2 := mul_nonneg (show 0 ≤ h + x + z by linarith) (show 0 ≤ 2 * v - 2 by linarith)
  have a3 := mul_nonneg (neg_nonneg.2 hy) (show 0 ≤ 2 * (u - w) by linarith)
  have a4 := mul_nonneg (neg_nonneg.2 hz) (show 0 ≤ 2 * (v - w) by linarith)
  have := r.gh
  unfold Two
  nlinarith

theorem two_step (r : Red g h k x y z) (hu : 1 ≤ u) (hv : 1 ≤ v) (hw : 1 ≤ w)
    (h1 : 2 * (g * u + x * v + y * w) < g) (h2 : 2 * (x * u + h * v + z * w) < h) (h3 : 2 * (y * u + z * v + k * w) < k) :
    Two g h x y z u v w ∨ Two g k y x z u w v ∨ Two h k z x y v w u := by
  have hsw : Red g k h y x z := ⟨r.yg, r.yk, r.xg, r.xh, r.zk, r.zh, by linarith [r.gk], by linarith [r.gh], by linarith [r.hk]⟩
  rcases le_total 0 x with hx | hx
  · exact Or.inr (two_of_acute r hx hu hv hw h1 h2)
  rcases le_total 0 y with hy | hy
  · rcases two_of_acute hsw hy hu hw hv (by linarith) (by linarith) with h | h
    · exact Or.inl h
    · refine Or.inr (Or.inr ?_)
      unfold Two at h ⊢
      linarith
  rcases le_total 0 z with hz | hz
  · rcases two_of_acute r.rot hz hv hw hu (by linarith) (by linarith) with h | h
    · refine Or.inl ?_
      unfold Two at h ⊢
      linarith
    · refine Or.inr (Or.inl ?_)
      unfold Two at h ⊢
      linarith
  rcases le_total u v with huv | huv
  · rcases le_total u w with huw | huw
    · refine Or.inr (Or.inr ?_)
      have := two_of_obtuse r.rot hx hy hv hw huv huw hz
      unfold Two at this ⊢
      linarith
    · exact Or.inl (two_of_obtuse r hy hz hu hv huw (huw.trans huv) hx)
  · rcases le_total v w with hvw | hvw
    · exact Or.inr (Or.inl (two_of_obtuse hsw hx hz hu hw huv hvw hy))
    · exact Or.inl (two_of_obtuse r hy hz hu hv (hvw.trans huv) hvw hx)

/-- The sign that makes an integer non-negative. -/
theorem exists_sign (n : ℤ) : ∃ s : ℤ, (s = 1 ∨ s = -1) ∧ 0 ≤ s * n := by
  rcases le_total 0 n with h | h
  · exact ⟨1, Or.inl rfl, by omega⟩
  · exact ⟨-1, Or.inr rfl, by omega⟩

theorem Reduced.red {cell : Fin 3 → Pt 3 ℝ} (hc : Reduced cell) {s t r : ℝ} (hs : s = 1 ∨ s = -1) (ht : t = 1 ∨ t = -1) (hr : r = 1 ∨ r = -1) :
    Red (gram cell 0 0) (gram cell 1 1) (gram cell 2 2) (s * t * gram cell 0 1) (s * r * gram cell 0 2) (t * r * gram cell 1 2) := by
  have hab : ∀ {a b : ℝ} (_ : a = 1 ∨ a = -1) (_ : b = 1 ∨ b = -1) (c : ℝ), |a * b * c| = |c| := by
    rintro a b (rfl | rfl) (rfl | rfl) c <;> simp
  have h2 := hc.2 ![s, t, r] (by intro i; fin_cases i <;> assumption)
  simp only [Fin.sum_univ_three, Matrix.cons_val] at h2
  have hss : s * s = 1 := by rcases hs with rfl | rfl <;> norm_num
  have htt : t * t = 1 := by rcases ht with rfl | rfl <;> norm_num
  have hrr : r * r = 1 := by rcases hr with rfl | rfl <;> norm_num
  rw [hss, htt, hrr, gram_comm cell 1 0, gram_comm cell 2 0, gram_comm cell 2 1] at h2
  have e0 := h2 0; have e1 := h2 1; have e2 := h2 2
  refine ⟨?_, ?_, ?_, ?_, ?_, ?_, ?_, ?_, ?_⟩
  · rw [hab hs ht]; exact hc.1 0 1 (by decide)
  · rw [hab hs ht, gram_comm]; exact hc.1 1 0 (by decide)
  · rw [hab hs hr]; exact hc.1 0 2 (by decide)
  · rw [hab hs hr, gram_comm]; exact hc.1 2 0 (by decide)
  · rw [hab ht hr]; exact hc.1 1 2 (by decide)
  · rw [hab ht hr, gram_comm]; exact hc.1 2 1 (by decide)
  · linarith
  · linarith
  · linarith

theorem quad_three (cell : Fin 3 → Pt 3 ℝ) (v : Fin 3 → ℝ) : ∑ c, (∑ a, v a * cell a c) ^ 2 =
    gram cell 0 0 * v 0 ^ 2 + gram cell 1 1 * v 1 ^ 2 + gram cell 2 2 * v 2 ^ 2 +
      2 * (gram cell 0 1 * (v 0 * v 1) + gram cell 0 2 * (v 0 * v 2) + gram cell 1 2 * (v 1 * v 2)) := by
  rw [sqNorm_lin]
  simp only [Fin.sum_univ_three]
  rw [gram_comm cell 1 0, gram_comm cell 2 0, gram_comm cell 2 1]
  ring

/-- Reduced cells of three dimensions: every layer from the third has a vector at least as near as any beyond. -/
theorem descends_of_reduced {cell : Fin 3 → Pt 3 ℝ} (hc : Reduced cell) : Descends cell (fun f => ∀ i, |f i| < 1) 3 := by
  refine StepsDownOr.descends fun n f hn hf => ?_
  rw [or_iff_not_imp_left]
  intro hno
  push Not at hno
  obtain ⟨s, hs, hsn⟩ := exists_sign (n 0)
  obtain ⟨t, ht, htn⟩ := exists_sign (n 1)
  obtain ⟨q, hq, hqn⟩ := exists_sign (n 2)
  have hs' : (s : ℝ) = 1 ∨ (s : ℝ) = -1 := by rcases hs with rfl | rfl <;> simp
  have ht' : (t : ℝ) = 1 ∨ (t : ℝ) = -1 := by rcases ht with rfl | rfl <;> simp
  have hq' : (q : ℝ) = 1 ∨ (q : ℝ) = -1 := by rcases hq with rfl | rfl <;> simp
  have hred := hc.red hs' ht' hq'
  have hss : (s : ℝ) * s = 1 := by rcases hs' with h | h <;> rw [h] <;> norm_num
  have htt : (t : ℝ) * t = 1 := by rcases ht' with h | h <;> rw [h] <;> norm_num
  have hqq : (q : ℝ) * q = 1 := by rcases hq' with h | h <;> rw [h] <;> norm_num
  -- either the coordinate is 0, or the step is not possible
  have main : ∀ (i : Fin 3) (σ : ℤ), (σ = 1 ∨ σ = -1) → 0 ≤ σ * n i →
      (σ * n i = 0 ∧ |(σ : ℝ) * ((n i : ℝ) - f i)| ≤ 1) ∨
      (1 ≤ σ * n i ∧ (σ : ℝ) * n i - 1 ≤ (σ : ℝ) * ((n i : ℝ) - f i) ∧ 2 * ((σ : ℝ) * ∑ j, gram cell i j * ((n j : ℝ) - f j)) < gram cell i i) := by
    intro i σ hσ h0
    have hfi := abs_lt.1 (hf i)
    rcases h0.eq_or_lt with h0 | h0
    · left
      refine ⟨h0.symm, ?_⟩
      have hz : n i = 0 := by rcases hσ with rfl | rfl <;> omega
      rw [hz, abs_le]
      rcases hσ with rfl | rfl <;> push_cast <;> constructor <;> linarith
    · right
      refine ⟨h0, ?_⟩
      rcases hσ with rfl | rfl
      · have := (hno i).1 (by omega)
        push_cast
        constructor <;> linarith
      · have := (hno i).2 (by omega)
        push_cast
        constructor <;> linarith
  have m0 := main 0 s hs hsn
  have m1 := main 1 t ht htn
  have m2 := main 2 q hq hqn
  simp only [Fin.sum_univ_three] at m0 m1 m2
  rw [gram_comm cell 1 0] at m1
  rw [gram_comm cell 2 0, gram_comm cell 2 1] at m2
  set G := gram cell 0 0
  set H := gram cell 1 1
  set K := gram cell 2 2
  set X := gram cell 0 1
  set Y := gram cell 0 2
  set Z := gram cell 1 2
  set a := (n 0 : ℝ) - f 0 with ha
  set b := (n 1 : ℝ) - f 1 with hb
  set c := (n 2 : ℝ) - f 2 with hc'
  have r0 : (s : ℝ) * (G * a + X * b + Y * c) = G * (s * a) + s * t * X * (t * b) + s * q * Y * (q * c) := by
    linear_combination (-(s : ℝ) * X * b) * htt + (-(s : ℝ) * Y * c) * hqq
  have r1 : (t : ℝ) * (X * a + H * b + Z * c) = s * t * X * (s * a) + H * (t * b) + t * q * Z * (q * c) := by
    linear_combination (-(t : ℝ) * X * a) * hss + (-(t : ℝ) * Z * c) * hqq
  have r2 : (q : ℝ) * (Y * a + Z * b + K * c) = s * q * Y * (s * a) + t * q * Z * (t * b) + K * (q * c) := by
    linear_combination (-(q : ℝ) * Y * a) * hss + (-(q : ℝ) * Z * b) * htt
  rw [r0] at m0
  rw [r1] at m1
  rw [r2] at m2
  -- all coordinates are at most 2
  have P : ∀ {m : ℤ} {σ : ℤ} {x y g : ℝ}, (σ * m = 0 ∧ |x| ≤ 1) ∨ (1 ≤ σ * m ∧ (σ : ℝ) * m - 1 ≤ x ∧ y < g) → |x| ≤ 1 ∨ 0 ≤ x ∧ y < g := by
    rintro m σ x y g (⟨-, h⟩ | ⟨h1, h2, h3⟩)
    · exact Or.inl h
    · refine Or.inr ⟨?_, h3⟩
      have : (1 : ℝ) ≤ (σ : ℝ) * m := by exact_mod_cast h1
      linarith
  have le_two : ∀ {m σ : ℤ} {x : ℝ}, (σ : ℝ) * m - 1 ≤ x → x < 2 → σ * m ≤ 2 := by
    intro m σ x h1 h2
    have : (σ : ℝ) * m < 3 := by linarith
    have : σ * m < 3 := by exact_mod_cast this
    omega
  have b0 : s * n 0 ≤ 2 := by
    rcases m0 with ⟨h, -⟩ | ⟨h, h', h''⟩
    · omega
    · exact le_two h' (no_step_lt hred ⟨by have : (1 : ℝ) ≤ (s : ℝ) * n 0 := by exact_mod_cast h
                                           linarith, h''⟩ (P m1) (P m2))
  have b1 : t * n 1 ≤ 2 := by
    rcases m1 with ⟨h, -⟩ | ⟨h, h', h''⟩
    · omega
    · refine le_two h' (no_step_lt hred.swap ⟨by have : (1 : ℝ) ≤ (t : ℝ) * n 1 := by exact_mod_cast h
                                                 linarith, ?_⟩ (v := s * a) (w := q * c) ?_ ?_)
      · linarith
      · rcases P m0 with h | ⟨h, h'⟩
        · exact Or.inl h
        · exact Or.inr ⟨h, by linarith⟩
      · rcases P m2 with h | ⟨h, h'⟩
        · exact Or.inl h
        · exact Or.inr ⟨h, by linarith⟩
  have b2 : q * n 2 ≤ 2 := by
    rcases m2 with ⟨h, -⟩ | ⟨h, h', h''⟩
    · omega
    · refine le_two h' (no_step_lt hred.rot.rot ⟨by have : (1 : ℝ) ≤ (q : ℝ) * n 2 := by exact_mod_cast h
                                                    linarith, ?_⟩ (v := s * a) (w := t * b) ?_ ?_)
      · linarith
      · rcases P m0 with h | ⟨h, h'⟩
        · exact Or.inl h
        · exact Or.inr ⟨h, by linarith⟩
      · rcases P m1 with h | ⟨h, h'⟩
        · exact Or.inl h
        · exact Or.inr ⟨h, by linarith⟩
  -- so all are equal to 2
  have hsq : ∀ {σ m : ℤ}, (σ = 1 ∨ σ = -1) → m ^ 2 = (σ * m) ^ 2 := by
    rintro σ m (rfl | rfl) <;> ring
  have hnorm : normSq n = (s * n 0) ^ 2 + (t * n 1) ^ 2 + (q * n 2) ^ 2 := by
    rw [normSq, Fin.sum_univ_three, hsq (m := n 0) hs, hsq (m := n 1) ht, hsq (m := n 2) hq]
  rw [hnorm] at hn
  have all2 : s * n 0 = 2 ∧ t * n 1 = 2 ∧ q * n 2 = 2 := by
    generalize s * n 0 = A at *
    generalize t * n 1 = B at *
    generalize q * n 2 = C at *
    have hA : A = 0 ∨ A = 1 ∨ A = 2 := by omega
    have hB : B = 0 ∨ B = 1 ∨ B = 2 := by omega
    have hC : C = 0 ∨ C = 1 ∨ C = 2 := by omega
    rcases hA with rfl | rfl | rfl <;> rcases hB with rfl | rfl | rfl <;> rcases hC with rfl | rfl | rfl <;> simp at hn ⊢
  obtain ⟨A, B, C⟩ := all2
  intro d hd hdn
  rw [hnorm, A, B, C] at hdn
  have hd3 : d = 3 := by
    by_contra hne
    have : (4 : ℤ) ≤ d := by omega
    nlinarith
  subst hd3
  have A' : (s : ℝ) * n 0 = 2 := by exact_mod_cast A
  have B' : (t : ℝ) * n 1 = 2 := by exact_mod_cast B
  have C' : (q : ℝ) * n 2 = 2 := by exact_mod_cast C
  rcases m0 with ⟨h, -⟩ | ⟨-, l0, k0⟩
  · omega
  rcases m1 with ⟨h, -⟩ | ⟨-, l1, k1⟩
  · omega
  rcases m2 with ⟨h, -⟩ | ⟨-, l2, k2⟩
  · omega
  have hn0 : n 0 = 2 * s := by rcases hs with rfl | rfl <;> omega
  have hn1 : n 1 = 2 * t := by rcases ht with rfl | rfl <;> omega
  have hn2 : n 2 = 2 * q := by rcases hq with rfl | rfl <;> omega
  have iss : s * s = 1 := by exact_mod_cast hss
  have itt : t * t = 1 := by exact_mod_cast htt
  have iqq : q * q = 1 := by exact_mod_cast hqq
  rcases two_step hred (by linarith) (by linarith) (by linarith) k0 k1 k2 with h | h | h
  · have h6 : normSq ![n 0 - s, n 1 - t, n 2] = 6 := by
      simp only [normSq, Fin.sum_univ_three, Matrix.cons_val, hn0, hn1, hn2]
      linear_combination iss + itt + 4 * iqq
    refine ⟨![n 0 - s, n 1 - t, n 2], ⟨?_, Or.inr ?_⟩, ?_⟩
    · rw [h6]; norm_num
    · rw [h6]; norm_num
    · rw [quad_three, quad_three]
      simp only [Matrix.cons_val]
      unfold Two at h
      push_cast
      have e0 : (n 0 : ℝ) - s - f 0 = a - s := by rw [ha]; ring
      have e1 : (n 1 : ℝ) - t - f 1 = b - t := by rw [hb]; ring
      rw [e0, e1]
      have : G * (2 * (s * a) - 1) + H * (2 * (t * b) - 1) + 2 * (s * t * X) * (s * a + t * b - 1) + 2 * (s * q * Y + t * q * Z) * (q * c) =
          G * (2 * (s * a) - s * s) + H * (2 * (t * b) - t * t) + 2 * X * (t * a + s * b - s * t) + 2 * (s * Y + t * Z) * c := by
        linear_combination (G + 2 * X * t * a) * hss + (H + 2 * X * s * b) * htt + (2 * (s * Y + t * Z) * c) * hqq
      rw [this] at h
      linarith
  · have h6 : normSq ![n 0 - s, n 1, n 2 - q] = 6 := by
      simp only [normSq, Fin.sum_univ_three, Matrix.cons_val, hn0, hn1, hn2]
      linear_combination iss + 4 * itt + iqq
    refine ⟨![n 0 - s, n 1, n 2 - q], ⟨?_, Or.inr ?_⟩, ?_⟩
    · rw [h6]; norm_num
    · rw [h6]; norm_num
    · rw [quad_three, quad_three]
      simp only [Matrix.cons_val]
      unfold Two at h
      push_cast
      have e0 : (n 0 : ℝ) - s - f 0 = a - s := by rw [ha]; ring
      have e1 : (n 2 : ℝ) - q - f 2 = c - q := by rw [hc']; ring
      rw [e0, e1]
      have : G * (2 * (s * a) - 1) + K * (2 * (q * c) - 1) + 2 * (s * q * Y) * (s * a + q * c - 1) + 2 * (s * t * X + t * q * Z) * (t * b) =
          G * (2 * (s * a) - s * s) + K * (2 * (q * c) - q * q) + 2 * Y * (q * a + s * c - s * q) + 2 * (s * X + q * Z) * b := by
        linear_combination (G + 2 * Y * q * a) * hss + (K + 2 * Y * s * c) * hqq + (2 * (s * X + q * Z) * b) * htt
      rw [this] at h
      linarith
  · have h6 : normSq ![n 0, n 1 - t, n 2 - q] = 6 := by
      simp only [normSq, Fin.sum_univ_three, Matrix.cons_val, hn0, hn1, hn2]
      linear_combination 4 * iss + itt + iqq
    refine ⟨![n 0, n 1 - t, n 2 - q], ⟨?_, Or.inr ?_⟩, ?_⟩
    · rw [h6]; norm_num
    · rw [h6]; norm_num
    · rw [quad_three, quad_three]
      simp only [Matrix.cons_val]
      unfold Two at h
      push_cast
      have e0 : (n 1 : ℝ) - t - f 1 = b - t := by rw [hb]; ring
      have e1 : (n 2 : ℝ) - q - f 2 = c - q := by rw [hc']; ring
      rw [e0, e1]
      have : H * (2 * (t * b) - 1) + K * (2 * (q * c) - 1) + 2 * (t * q * Z) * (t * b + q * c - 1) + 2 * (s * t * X + s * q * Y) * (s * a) =
          H * (2 * (t * b) - t * t) + K * (2 * (q * c) - q * q) + 2 * Z * (q * b + t * c - t * q) + 2 * (t * X + q * Y) * a := by
        linear_combination (H + 2 * Z * q * b) * htt + (K + 2 * Z * t * c) * hqq + (2 * (t * X + q * Y) * a) * hss
      rw [this] at h
      linarith

/-- Reduced cells of three dimensions, if there are as many neighbours as motif points. -/
theorem searchable_of_reduced {motif : List (Pt 3 ℝ)} {cell : Fin 3 → Pt 3 ℝ} {k : ℕ} (hc : Reduced cell) (hfit : FitsInCell motif cell)
    (hk : motif.length ≤ k) : Searchable motif cell k :=
  ⟨_, 3, descends_of_reduced hc, fracDiff_of_fits hfit, startsAt_of_card (by simpa using hk)⟩

section
variable {D : ℕ}

theorem Covered.searchable {motif : List (Pt D ℝ)} {cell : Fin D → Pt D ℝ} {k : ℕ} (h : Covered motif cell k) (hm : motif ≠ []) :
    Searchable motif cell k := by
  rcases h with ⟨hfit, t, r, ht, h, hr, hk⟩ | ⟨rfl, hc, hfit, hk⟩ | h
  · exact searchable_of_dominant ht h hr hfit hk
  · exact searchable_of_reduced hc hfit hk
  · exact (h.searchable hm).1

/-- The conditions include those of `HalfDominant` cells. -/
theorem covered_of_halfDominant {motif : List (Pt D ℝ)} {cell : Fin D → Pt D ℝ} {k : ℕ} (hD : D ≤ 4) (h : HalfDominant cell) (hfit : FitsInCell motif cell) :
    Covered motif cell k := by
  refine Or.inl ⟨hfit, 1, 2, le_rfl, fun i => ?_, by omega, Or.inl le_rfl⟩
  have := h i
  have e : (2 * ((1 : ℕ) : ℝ) - 1) = 1 := by norm_num
  rw [e, Nat.cast_one, mul_one, one_mul]
  exact this

/-- The reduced cells of Niggli: lengths in order, angles all acute or none, each vector shortest. -/
theorem reduced_of_niggli {cell : Fin 3 → Pt 3 ℝ} (h01 : gram cell 0 0 ≤ gram cell 1 1) (h12 : gram cell 1 1 ≤ gram cell 2 2)
    (hx : 2 * |gram cell 0 1| ≤ gram cell 0 0) (hy : 2 * |gram cell 0 2| ≤ gram cell 0 0) (hz : 2 * |gram cell 1 2| ≤ gram cell 1 1)
    (hsign : (0 < gram cell 0 1 ∧ 0 < gram cell 0 2 ∧ 0 < gram cell 1 2) ∨
      (gram cell 0 1 ≤ 0 ∧ gram cell 0 2 ≤ 0 ∧ gram cell 1 2 ≤ 0 ∧
        0 ≤ gram cell 0 0 + gram cell 1 1 + 2 * (gram cell 0 1 + gram cell 0 2 + gram cell 1 2))) : Reduced cell := by
  constructor
  · intro i j hij
    fin_cases i <;> fin_cases j <;> first | exact absurd rfl hij | skip
    · exact hx
    · exact hy
    · change 2 * |gram cell 1 0| ≤ gram cell 1 1
      rw [gram_comm]; linarith
    · exact hz
    · change 2 * |gram cell 2 0| ≤ gram cell 2 2
      rw [gram_comm]; linarith
    · change 2 * |gram cell 2 1| ≤ gram cell 2 2
      rw [gram_comm]; linarith
  · intro s hs i
    have hle : gram cell i i ≤ gram cell 2 2 := by fin_cases i <;> [exact h01.trans h12; exact h12; exact le_rfl]
    refine hle.trans ?_
    simp only [Fin.sum_univ_three]
    rw [gram_comm cell 1 0, gram_comm cell 2 0, gram_comm cell 2 1]
    have := abs_le.1 (show |gram cell 0 1| ≤ gram cell 0 0 / 2 by linarith)
    have := abs_le.1 (show |gram cell 0 2| ≤ gram cell 0 0 / 2 by linarith)
    have := abs_le.1 (show |gram cell 1 2| ≤ gram cell 1 1 / 2 by linarith)
    rcases hs 0 with h0 | h0 <;> rcases hs 1 with h1 | h1 <;> rcases hs 2 with h2 | h2 <;> rw [h0, h1, h2] <;>
      rcases hsign with ⟨a, b, c⟩ | ⟨a, b, c, d⟩ <;> linarith

end

end Amd
