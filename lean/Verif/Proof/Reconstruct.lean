import Verif.Model.Reconstruct
import Mathlib.Tactic.FieldSimp
import Mathlib.Tactic.LinearCombination
import Mathlib.Tactic.Positivity
import Mathlib.Tactic.Linarith

/-! Helper lemmas: reconstruction. -/

set_option linter.unusedSectionVars false

namespace Amd

theorem sqNorm_two (u : Pt 2 ℝ) : sqNorm u = u 0 ^ 2 + u 1 ^ 2 := by
  simp only [sqNorm, Fin.sum_univ_two]

theorem sqNorm_three (u : Pt 3 ℝ) : sqNorm u = u 0 ^ 2 + u 1 ^ 2 + u 2 ^ 2 := by
  simp only [sqNorm, Fin.sum_univ_three]

theorem vdot_three (u v : Pt 3 ℝ) : vdot u v = u 0 * v 0 + u 1 * v 1 + u 2 * v 2 := by
  simp only [vdot, Fin.sum_univ_three]

theorem vnorm_sq {D : ℕ} (u : Pt D ℝ) : vnorm u ^ 2 = sqNorm u := Real.sq_sqrt (Finset.sum_nonneg fun j _ => by positivity)

theorem vnorm_nonneg {D : ℕ} (u : Pt D ℝ) : 0 ≤ vnorm u := Real.sqrt_nonneg _

theorem vnorm_eq {D : ℕ} {u : Pt D ℝ} {r : ℝ} (hr : 0 ≤ r) (h : sqNorm u = r ^ 2) : vnorm u = r := by
  rw [vnorm, h, Real.sqrt_sq hr]

/-- The points at the distances `r1` and `r2` from two centres, in the frame of the code. -/
theorem bilaterate_point {p1 p2 q : Pt 2 ℝ} {r1 r2 d a h : ℝ} (hd : d ≠ 0) (hdd : d ^ 2 = (p2 0 - p1 0) ^ 2 + (p2 1 - p1 1) ^ 2)
    (ha : a = (r1 ^ 2 - r2 ^ 2 + d ^ 2) / (2 * d)) (hh : h ^ 2 = r1 ^ 2 - a ^ 2)
    (h0 : q 0 = p1 0 + a * ((p2 0 - p1 0) / d) + h * ((p2 1 - p1 1) / d)) (h1 : q 1 = p1 1 + a * ((p2 1 - p1 1) / d) - h * ((p2 0 - p1 0) / d)) :
    sqNorm (q - p1) = r1 ^ 2 ∧ sqNorm (q - p2) = r2 ^ 2 := by
  have hv : ((p2 0 - p1 0) / d) ^ 2 + ((p2 1 - p1 1) / d) ^ 2 = 1 := by
    rw [div_pow, div_pow, ← add_div, ← hdd, div_self (pow_ne_zero 2 hd)]
  have hv0 : p2 0 = p1 0 + d * ((p2 0 - p1 0) / d) := by field_simp; ring
  have hv1 : p2 1 = p1 1 + d * ((p2 1 - p1 1) / d) := by field_simp; ring
  have had : 2 * d * a = r1 ^ 2 - r2 ^ 2 + d ^ 2 := by rw [ha]; field_simp
  generalize (p2 0 - p1 0) / d = v at *
  generalize (p2 1 - p1 1) / d = w at *
  rw [sqNorm_two, sqNorm_two]
  simp only [Pi.sub_apply]
  rw [h0, h1, hv0, hv1]
  constructor
  · linear_combination (a ^ 2 + h ^ 2) * hv + hh
  · linear_combination (a ^ 2 + h ^ 2 + d ^ 2 - 2 * a * d) * hv + hh - had

/-- There are no others. -/
theorem bilaterate_only {p1 p2 q : Pt 2 ℝ} {r1 r2 d a : ℝ} (hd : d ≠ 0) (hdd : d ^ 2 = (p2 0 - p1 0) ^ 2 + (p2 1 - p1 1) ^ 2)
    (ha : a = (r1 ^ 2 - r2 ^ 2 + d ^ 2) / (2 * d)) (h1 : sqNorm (q - p1) = r1 ^ 2) (h2 : sqNorm (q - p2) = r2 ^ 2) :
    ∃ h, h ^ 2 = r1 ^ 2 - a ^ 2 ∧ q 0 = p1 0 + a * ((p2 0 - p1 0) / d) + h * ((p2 1 - p1 1) / d) ∧
      q 1 = p1 1 + a * ((p2 1 - p1 1) / d) - h * ((p2 0 - p1 0) / d) := by
  have hv : ((p2 0 - p1 0) / d) ^ 2 + ((p2 1 - p1 1) / d) ^ 2 = 1 := by
    rw [div_pow, div_pow, ← add_div, ← hdd, div_self (pow_ne_zero 2 hd)]
  have hv0 : p2 0 = p1 0 + d * ((p2 0 - p1 0) / d) := by field_simp; ring
  have hv1 : p2 1 = p1 1 + d * ((p2 1 - p1 1) / d) := by field_simp; ring
  have had : 2 * d * a = r1 ^ 2 - r2 ^ 2 + d ^ 2 := by rw [ha]; field_simp
  generalize (p2 0 - p1 0) / d = v at *
  generalize (p2 1 - p1 1) / d = w at *
  rw [sqNorm_two] at h1 h2
  simp only [Pi.sub_apply] at h1 h2
  rw [hv0, hv1] at h2
  have key : d * ((q 0 - p1 0) * v + (q 1 - p1 1) * w) = d * a := by
    linear_combination (1 / 2) * h1 - (1 / 2) * h2 + (1 / 2) * d ^ 2 * hv - (1 / 2) * had
  have ka := mul_left_cancel₀ hd key
  refine ⟨(q 0 - p1 0) * w - (q 1 - p1 1) * v, ?_, ?_, ?_⟩
  · rw [← ka]
    linear_combination h1 + ((q 0 - p1 0) ^ 2 + (q 1 - p1 1) ^ 2) * hv
  · rw [← ka]
    linear_combination -(q 0 - p1 0) * hv
  · rw [← ka]
    linear_combination -(q 1 - p1 1) * hv

theorem bilaterate_height {r1 r2 d : ℝ} (hd : 0 < d) (h1 : d ≤ r1 + r2) (h2 : |r1 - r2| ≤ d) :
    0 ≤ r1 ^ 2 - ((r1 ^ 2 - r2 ^ 2 + d ^ 2) / (2 * d)) ^ 2 := by
  obtain ⟨h3, h4⟩ := abs_le.1 h2
  have e : r1 ^ 2 - ((r1 ^ 2 - r2 ^ 2 + d ^ 2) / (2 * d)) ^ 2 = ((r1 + r2 - d) * (r1 + r2 + d) * ((d - (r1 - r2)) * (d + (r1 - r2)))) / (2 * d) ^ 2 := by
    field_simp; ring
  rw [e]
  apply div_nonneg _ (by positivity)
  apply mul_nonneg (mul_nonneg _ _) (mul_nonneg _ _) <;> linarith

theorem bilaterate_spec {p1 p2 q : Pt 2 ℝ} {r1 r2 absVal prec : ℝ} (h : bilaterate p1 p2 r1 r2 absVal prec = some q) :
    vnorm (q - p1) = r1 ∧ vnorm (q - p2) = r2 ∧ |vnorm q - absVal| < prec := by
  unfold bilaterate at h
  have hdn := Real.sqrt_nonneg ((p2 0 - p1 0) ^ 2 + (p2 1 - p1 1) ^ 2)
  have hdd : √((p2 0 - p1 0) ^ 2 + (p2 1 - p1 1) ^ 2) ^ 2 = (p2 0 - p1 0) ^ 2 + (p2 1 - p1 1) ^ 2 := Real.sq_sqrt (by positivity)
  generalize √((p2 0 - p1 0) ^ 2 + (p2 1 - p1 1) ^ 2) = d at *
  dsimp only at h
  split_ifs at h with c1 c2 c3 c4 c5
  all_goals
    have c1' := not_lt.1 c1
    have c2' := not_lt.1 c2
    have hab := abs_le.1 c2'
    have hd : 0 < d := by
      rcases hdn.lt_or_eq with h0 | h0
      · exact h0
      · exact (c3 ⟨h0.symm, by have := hab.1; have := hab.2; linarith⟩).elim
    have hr1 : 0 ≤ r1 := by linarith [hab.1]
    have hr2 : 0 ≤ r2 := by linarith [hab.2]
    have hs := Real.sq_sqrt (bilaterate_height hd c1' c2')
    rw [Option.some.injEq] at h
    subst h
  · obtain ⟨e1, e2⟩ := bilaterate_point hd.ne' hdd rfl hs (q := ![_, _]) rfl rfl
    refine ⟨vnorm_eq hr1 e1, vnorm_eq hr2 e2, ?_⟩
    rw [vnorm, sqNorm_two]
    exact c4
  · obtain ⟨e1, e2⟩ := bilaterate_point (r1 := r1) (r2 := r2) (h := -√(r1 ^ 2 - ((r1 ^ 2 - r2 ^ 2 + d ^ 2) / (2 * d)) ^ 2)) hd.ne' hdd rfl (by rw [neg_sq]; exact hs) (q := ![_, _]) (by rw [neg_mul, ← sub_eq_add_neg]; rfl)
      (by rw [neg_mul, sub_neg_eq_add]; rfl)
    refine ⟨vnorm_eq hr1 e1, vnorm_eq hr2 e2, ?_⟩
    rw [vnorm, sqNorm_two]
    exact c5

theorem bilaterate_found {p1 p2 q : Pt 2 ℝ} {r1 r2 absVal prec : ℝ} (hp : p1 ≠ p2) (h1 : vnorm (q - p1) = r1) (h2 : vnorm (q - p2) = r2)
    (h3 : |vnorm q - absVal| < prec) : ∃ q', bilaterate p1 p2 r1 r2 absVal prec = some q' := by
  have s1 : sqNorm (q - p1) = r1 ^ 2 := by rw [← h1, vnorm_sq]
  have s2 : sqNorm (q - p2) = r2 ^ 2 := by rw [← h2, vnorm_sq]
  have hr1 : 0 ≤ r1 := h1 ▸ vnorm_nonneg _
  have hr2 : 0 ≤ r2 := h2 ▸ vnorm_nonneg _
  unfold bilaterate
  have hdn := Real.sqrt_nonneg ((p2 0 - p1 0) ^ 2 + (p2 1 - p1 1) ^ 2)
  have hdd : √((p2 0 - p1 0) ^ 2 + (p2 1 - p1 1) ^ 2) ^ 2 = (p2 0 - p1 0) ^ 2 + (p2 1 - p1 1) ^ 2 := Real.sq_sqrt (by positivity)
  generalize √((p2 0 - p1 0) ^ 2 + (p2 1 - p1 1) ^ 2) = d at *
  have hd : 0 < d := by
    rcases hdn.lt_or_eq with h0 | h0
    · exact h0
    · exfalso
      rw [← h0] at hdd
      have e0 : p2 0 - p1 0 = 0 := pow_eq_zero_iff (two_ne_zero) |>.1 (by nlinarith [sq_nonneg (p2 0 - p1 0), sq_nonneg (p2 1 - p1 1)])
      have e1 : p2 1 - p1 1 = 0 := pow_eq_zero_iff (two_ne_zero) |>.1 (by nlinarith [sq_nonneg (p2 0 - p1 0), sq_nonneg (p2 1 - p1 1)])
      apply hp
      funext j
      match j with
      | 0 => linarith
      | 1 => linarith
  obtain ⟨h, hh, g0, g1⟩ := bilaterate_only hd.ne' hdd rfl s1 s2
  have hpos : 0 ≤ r1 ^ 2 - ((r1 ^ 2 - r2 ^ 2 + d ^ 2) / (2 * d)) ^ 2 := hh ▸ sq_nonneg h
  have e : r1 ^ 2 - ((r1 ^ 2 - r2 ^ 2 + d ^ 2) / (2 * d)) ^ 2 = (((r1 + r2) ^ 2 - d ^ 2) * (d ^ 2 - (r1 - r2) ^ 2)) / (2 * d) ^ 2 := by
    field_simp; ring
  have hprod : 0 ≤ ((r1 + r2) ^ 2 - d ^ 2) * (d ^ 2 - (r1 - r2) ^ 2) := by
    rw [e] at hpos
    by_contra hn
    exact absurd hpos (not_le.2 (div_neg_of_neg_of_pos (not_le.1 hn) (by positivity)))
  have hsum : ((r1 + r2) ^ 2 - d ^ 2) + (d ^ 2 - (r1 - r2) ^ 2) = 4 * (r1 * r2) := by ring
  have h4 : 0 ≤ r1 * r2 := mul_nonneg hr1 hr2
  have c1 : ¬d > r1 + r2 := by
    intro hc
    have : (r1 + r2) ^ 2 - d ^ 2 < 0 := by nlinarith
    nlinarith
  have c2 : ¬d < |r1 - r2| := by
    intro hc
    have : d ^ 2 - (r1 - r2) ^ 2 < 0 := by
      rw [← sq_abs (r1 - r2)]; nlinarith [abs_nonneg (r1 - r2)]
    nlinarith
  rw [if_neg c1, if_neg c2, if_neg (fun hc => hd.ne' hc.1)]
  dsimp only
  rw [vnorm, sqNorm_two] at h3
  rcases sq_eq_sq_iff_eq_or_eq_neg.1 (hh.trans (Real.sq_sqrt hpos).symm) with hp' | hm
  · rw [if_pos]
    · exact ⟨_, rfl⟩
    · rw [g0, g1, hp'] at h3
      exact h3
  · split_ifs with hc hc'
    · exact ⟨_, rfl⟩
    · exact ⟨_, rfl⟩
    · exfalso
      apply hc'
      rw [g0, g1, hm, neg_mul, neg_mul, sub_neg_eq_add, ← sub_eq_add_neg] at h3
      exact h3

/-! ### Three spheres -/

/-- Orthonormal vectors. -/
structure OrthoFrame (ex ey ez : Pt 3 ℝ) : Prop where
  xx : vdot ex ex = 1
  yy : vdot ey ey = 1
  zz : vdot ez ez = 1
  xy : vdot ex ey = 0
  xz : vdot ex ez = 0
  yz : vdot ey ez = 0

theorem OrthoFrame.cross {ex ey : Pt 3 ℝ} (xx : vdot ex ex = 1) (yy : vdot ey ey = 1) (xy : vdot ex ey = 0) : OrthoFrame ex ey (cross ex ey) := by
  rw [vdot_three] at xx yy xy
  refine ⟨by rw [vdot_three]; exact xx, by rw [vdot_three]; exact yy, ?_, by rw [vdot_three]; exact xy, ?_, ?_⟩ <;>
    rw [vdot_three] <;> simp only [Amd.cross, Matrix.cons_val_zero, Matrix.cons_val_one, Matrix.cons_val]
  · linear_combination (ey 0 ^ 2 + ey 1 ^ 2 + ey 2 ^ 2) * xx + yy - (ex 0 * ey 0 + ex 1 * ey 1 + ex 2 * ey 2) * xy
  · ring
  · ring

theorem OrthoFrame.sqNorm {ex ey ez : Pt 3 ℝ} (h : OrthoFrame ex ey ez) (x y z : ℝ) :
    sqNorm (fun t => x * ex t + y * ey t + z * ez t : Pt 3 ℝ) = x ^ 2 + y ^ 2 + z ^ 2 := by
  obtain ⟨xx, yy, zz, xy, xz, yz⟩ := h
  rw [vdot_three] at xx yy zz xy xz yz
  rw [sqNorm_three]
  linear_combination x ^ 2 * xx + y ^ 2 * yy + z ^ 2 * zz + 2 * x * y * xy + 2 * x * z * xz + 2 * y * z * yz

theorem OrthoFrame.expand {ex ey ez : Pt 3 ℝ} (h : OrthoFrame ex ey ez) (u : Pt 3 ℝ) (t : Fin 3) :
    u t = vdot u ex * ex t + vdot u ey * ey t + vdot u ez * ez t := by
  obtain ⟨xx, yy, zz, xy, xz, yz⟩ := h
  let M : Matrix (Fin 3) (Fin 3) ℝ := Matrix.of ![ex, ey, ez]
  have comm : ∀ a b : Pt 3 ℝ, vdot a b = vdot b a := fun a b => Finset.sum_congr rfl fun j _ => mul_comm _ _
  have hM : M * M.transpose = 1 := by
    ext a b
    have : (M * M.transpose) a b = vdot (![ex, ey, ez] a) (![ex, ey, ez] b) := rfl
    rw [this]
    fin_cases a <;> fin_cases b <;> simp [xx, yy, zz, xy, xz, yz, comm ey ex, comm ez ex, comm ez ey]
  have hM' : M.transpose * M = 1 := mul_eq_one_comm.1 hM
  have e : ∀ a b : Fin 3, ex a * ex b + ey a * ey b + ez a * ez b = (1 : Matrix (Fin 3) (Fin 3) ℝ) a b := by
    intro a b
    rw [← hM', Matrix.mul_apply, Fin.sum_univ_three]
    rfl
  rw [vdot_three, vdot_three, vdot_three]
  have e0 := e 0 t
  have e1 := e 1 t
  have e2 := e 2 t
  have : u t = u 0 * (1 : Matrix (Fin 3) (Fin 3) ℝ) 0 t + u 1 * (1 : Matrix (Fin 3) (Fin 3) ℝ) 1 t + u 2 * (1 : Matrix (Fin 3) (Fin 3) ℝ) 2 t := by
    fin_cases t <;> simp [Matrix.one_apply]
  rw [this, ← e0, ← e1, ← e2]
  ring

/-- What `_trilaterate` computes before it looks for the point. -/
structure TriData (p1 p2 p3 ex ey ez : Pt 3 ℝ) (d i j : ℝ) : Prop where
  frame : OrthoFrame ex ey ez
  d0 : d ≠ 0
  j0 : j ≠ 0
  e2 : ∀ t, p2 t = p1 t + d * ex t
  e3 : ∀ t, p3 t = p1 t + i * ex t + j * ey t

theorem TriData.point {p1 p2 p3 ex ey ez q : Pt 3 ℝ} {d i j r1 r2 r3 x y z : ℝ} (h : TriData p1 p2 p3 ex ey ez d i j)
    (hx : 2 * d * x = r1 * r1 - r2 * r2 + d * d) (hy : 2 * j * y = r1 * r1 - r3 * r3 - 2 * i * x + i * i + j * j)
    (hz : z ^ 2 = r1 * r1 - x * x - y * y) (hq : ∀ t, q t = p1 t + x * ex t + y * ey t + z * ez t) :
    sqNorm (q - p1) = r1 ^ 2 ∧ sqNorm (q - p2) = r2 ^ 2 ∧ sqNorm (q - p3) = r3 ^ 2 := by
  have a1 : q - p1 = fun t => x * ex t + y * ey t + z * ez t := by funext t; rw [Pi.sub_apply, hq]; ring
  have a2 : q - p2 = fun t => (x - d) * ex t + y * ey t + z * ez t := by funext t; rw [Pi.sub_apply, hq, h.e2]; ring
  have a3 : q - p3 = fun t => (x - i) * ex t + (y - j) * ey t + z * ez t := by funext t; rw [Pi.sub_apply, hq, h.e3]; ring
  rw [a1, a2, a3, h.frame.sqNorm, h.frame.sqNorm, h.frame.sqNorm]
  refine ⟨?_, ?_, ?_⟩
  · linear_combination hz
  · linear_combination hz - hx
  · linear_combination hz - hy

theorem TriData.only {p1 p2 p3 ex ey ez q : Pt 3 ℝ} {d i j r1 r2 r3 x y : ℝ} (h : TriData p1 p2 p3 ex ey ez d i j)
    (hx : 2 * d * x = r1 * r1 - r2 * r2 + d * d) (hy : 2 * j * y = r1 * r1 - r3 * r3 - 2 * i * x + i * i + j * j)
    (h1 : sqNorm (q - p1) = r1 ^ 2) (h2 : sqNorm (q - p2) = r2 ^ 2) (h3 : sqNorm (q - p3) = r3 ^ 2) :
    ∃ z, z ^ 2 = r1 * r1 - x * x - y * y ∧ ∀ t, q t = p1 t + x * ex t + y * ey t + z * ez t := by
  have hex := h.frame.expand (q - p1)
  generalize vdot (q - p1) ex = x' at hex
  generalize vdot (q - p1) ey = y' at hex
  generalize vdot (q - p1) ez = z at hex
  have a1 : q - p1 = fun t => x' * ex t + y' * ey t + z * ez t := funext hex
  have a2 : q - p2 = fun t => (x' - d) * ex t + y' * ey t + z * ez t := by
    funext t; have := hex t; rw [Pi.sub_apply] at this ⊢; rw [h.e2]; linarith
  have a3 : q - p3 = fun t => (x' - i) * ex t + (y' - j) * ey t + z * ez t := by
    funext t; have := hex t; rw [Pi.sub_apply] at this ⊢; rw [h.e3]; linarith
  rw [a1, h.frame.sqNorm] at h1
  rw [a2, h.frame.sqNorm] at h2
  rw [a3, h.frame.sqNorm] at h3
  have hx' : x' = x := by
    apply mul_left_cancel₀ (mul_ne_zero two_ne_zero h.d0)
    linear_combination h1 - h2 - hx
  subst hx'
  have hy' : y' = y := by
    apply mul_left_cancel₀ (mul_ne_zero two_ne_zero h.j0)
    linear_combination h1 - h3 - hy
  subst hy'
  refine ⟨z, by linear_combination h1, fun t => ?_⟩
  have := hex t
  rw [Pi.sub_apply] at this
  linarith

theorem vdot_self {D : ℕ} (u : Pt D ℝ) : vdot u u = sqNorm u := Finset.sum_congr rfl fun j _ => (sq (u j)).symm

theorem triData {p1 p2 p3 : Pt 3 ℝ} {d i : ℝ} {ex temp3 : Pt 3 ℝ} (hd : d = vnorm (p2 - p1)) (hex : ex = fun j => (p2 - p1) j / d)
    (hi : i = vdot ex (p3 - p1)) (ht : temp3 = fun j => (p3 - p1) j - i * ex j) (d0 : d ≠ 0) (t0 : vnorm temp3 ≠ 0) :
    TriData p1 p2 p3 ex (fun j => temp3 j / vnorm temp3) (cross ex fun j => temp3 j / vnorm temp3) d i
      (vdot (fun j => temp3 j / vnorm temp3) (p3 - p1)) := by
  have xx : vdot ex ex = 1 := by
    rw [vdot_three, hex]
    have := vnorm_sq (p2 - p1)
    rw [← hd, sqNorm_three] at this
    field_simp
    linarith
  have xt : vdot ex temp3 = 0 := by
    have : vdot ex temp3 = vdot ex (p3 - p1) - i * vdot ex ex := by
      rw [ht, vdot_three, vdot_three, vdot_three]; ring
    rw [this, ← hi, xx]; ring
  have hsq := vnorm_sq temp3
  generalize hn : vnorm temp3 = n at *
  have yy : vdot (fun j => temp3 j / n : Pt 3 ℝ) (fun j => temp3 j / n) = 1 := by
    rw [sqNorm_three] at hsq
    rw [vdot_three]
    field_simp
    linarith
  have xy : vdot ex (fun j => temp3 j / n : Pt 3 ℝ) = 0 := by
    rw [vdot_three] at xt ⊢
    field_simp
    linarith
  have hj : vdot (fun j => temp3 j / n : Pt 3 ℝ) (p3 - p1) = n := by
    have e : vdot temp3 (p3 - p1) = n ^ 2 := by
      rw [hsq, ← vdot_self]
      have e1 : vdot temp3 temp3 = vdot temp3 (p3 - p1) - i * vdot ex temp3 := by
        rw [vdot_three, vdot_three, vdot_three]
        have b : ∀ j, temp3 j = (p3 - p1) j - i * ex j := fun j => by rw [ht]
        linear_combination temp3 0 * b 0 + temp3 1 * b 1 + temp3 2 * b 2
      rw [e1, xt]; ring
    rw [vdot_three] at e ⊢
    field_simp
    linarith
  refine ⟨OrthoFrame.cross xx yy xy, d0, by rw [hj]; exact t0, fun t => ?_, fun t => ?_⟩
  · rw [hex]; simp only [Pi.sub_apply]; field_simp; ring
  · rw [hj]
    have b : temp3 t = (p3 - p1) t - i * ex t := by rw [ht]
    rw [Pi.sub_apply] at b
    have : n * (temp3 t / n) = temp3 t := by field_simp
    rw [this, b]; ring

theorem triPoints_spec {p1 p2 p3 ex ey q : Pt 3 ℝ} {d i j r1 r2 r3 absVal prec : ℝ} (T : TriData p1 p2 p3 ex ey (cross ex ey) d i j)
    (h1 : 0 ≤ r1) (h2 : 0 ≤ r2) (h3 : 0 ≤ r3) (h : triPoints p1 ex ey d i j r1 r2 r3 absVal prec = some q) :
    vnorm (q - p1) = r1 ∧ vnorm (q - p2) = r2 ∧ vnorm (q - p3) = r3 ∧ |vnorm q - absVal| < prec := by
  unfold triPoints at h
  dsimp only at h
  split_ifs at h with c8 c9 c10
  · rw [Option.some.injEq] at h
    obtain ⟨e1, e2, e3⟩ := T.point (q := q) (r1 := r1) (r2 := r2) (r3 := r3) (mul_div_cancel₀ _ (mul_ne_zero two_ne_zero T.d0))
      (mul_div_cancel₀ _ (mul_ne_zero two_ne_zero T.j0)) (Real.sq_sqrt (not_lt.1 c8)) (fun t => by rw [← h])
    exact ⟨vnorm_eq h1 e1, vnorm_eq h2 e2, vnorm_eq h3 e3, h ▸ c9⟩
  · rw [Option.some.injEq] at h
    obtain ⟨e1, e2, e3⟩ := T.point (q := q) (r1 := r1) (r2 := r2) (r3 := r3) (mul_div_cancel₀ _ (mul_ne_zero two_ne_zero T.d0))
      (mul_div_cancel₀ _ (mul_ne_zero two_ne_zero T.j0)) ((neg_sq _).trans (Real.sq_sqrt (not_lt.1 c8))) (fun t => by rw [← h, neg_mul, ← sub_eq_add_neg])
    exact ⟨vnorm_eq h1 e1, vnorm_eq h2 e2, vnorm_eq h3 e3, h ▸ c10⟩

theorem triPoints_found {p1 p2 p3 ex ey q : Pt 3 ℝ} {d i j r1 r2 r3 absVal prec : ℝ} (T : TriData p1 p2 p3 ex ey (cross ex ey) d i j)
    (h1 : vnorm (q - p1) = r1) (h2 : vnorm (q - p2) = r2) (h3 : vnorm (q - p3) = r3) (h4 : |vnorm q - absVal| < prec) :
    ∃ q', triPoints p1 ex ey d i j r1 r2 r3 absVal prec = some q' := by
  have s1 : sqNorm (q - p1) = r1 ^ 2 := by rw [← h1, vnorm_sq]
  have s2 : sqNorm (q - p2) = r2 ^ 2 := by rw [← h2, vnorm_sq]
  have s3 : sqNorm (q - p3) = r3 ^ 2 := by rw [← h3, vnorm_sq]
  obtain ⟨z, hz, hq⟩ := T.only (mul_div_cancel₀ _ (mul_ne_zero two_ne_zero T.d0)) (mul_div_cancel₀ _ (mul_ne_zero two_ne_zero T.j0)) s1 s2 s3
  have hq' := funext hq
  unfold triPoints
  dsimp only
  generalize (r1 * r1 - r2 * r2 + d * d) / (2 * d) = x at *
  generalize (r1 * r1 - r3 * r3 - 2 * i * x + i * i + j * j) / (2 * j) = y at *
  have hpos : 0 ≤ r1 * r1 - x * x - y * y := hz ▸ sq_nonneg z
  rw [if_neg (not_lt.2 hpos)]
  rcases sq_eq_sq_iff_eq_or_eq_neg.1 (hz.trans (Real.sq_sqrt hpos).symm) with hp | hm
  · rw [if_pos]
    · exact ⟨_, rfl⟩
    · rw [hq', hp] at h4
      exact h4
  · split_ifs with hc hc'
    · exact ⟨_, rfl⟩
    · exact ⟨_, rfl⟩
    · exfalso
      apply hc'
      rw [hq', hm] at h4
      simp only [neg_mul, ← sub_eq_add_neg] at h4
      exact h4

theorem trilaterate_spec {p1 p2 p3 q : Pt 3 ℝ} {r1 r2 r3 absVal prec : ℝ} (h1 : 0 ≤ r1) (h2 : 0 ≤ r2) (h3 : 0 ≤ r3)
    (h : trilaterate p1 p2 p3 r1 r2 r3 absVal prec = some q) :
    vnorm (q - p1) = r1 ∧ vnorm (q - p2) = r2 ∧ vnorm (q - p3) = r3 ∧ |vnorm q - absVal| < prec := by
  unfold trilaterate at h
  dsimp only at h
  split_ifs at h with c1 c7
  rw [not_or] at c7
  exact triPoints_spec (triData rfl rfl rfl rfl c7.1 c7.2) h1 h2 h3 h

theorem trilaterate_found {p1 p2 p3 q : Pt 3 ℝ} {r1 r2 r3 absVal prec : ℝ} (hli : ∀ a b : ℝ, (∀ t, a * (p2 - p1) t + b * (p3 - p1) t = 0) → a = 0 ∧ b = 0)
    (hfar : triTooFar p1 p2 p3 r1 r2 r3 absVal prec = false)
    (h1 : vnorm (q - p1) = r1) (h2 : vnorm (q - p2) = r2) (h3 : vnorm (q - p3) = r3) (h4 : |vnorm q - absVal| < prec) :
    ∃ q', trilaterate p1 p2 p3 r1 r2 r3 absVal prec = some q' := by
  unfold trilaterate
  have zero : ∀ u : Pt 3 ℝ, vnorm u = 0 → ∀ t, u t = 0 := by
    intro u hu t
    have := vnorm_sq u
    rw [hu, sqNorm_three] at this
    have a0 := sq_nonneg (u 0)
    have a1 := sq_nonneg (u 1)
    have a2 := sq_nonneg (u 2)
    have : u t ^ 2 = 0 := by fin_cases t <;> simp only [Fin.zero_eta, Fin.mk_one, Fin.reduceFinMk] <;> nlinarith
    exact pow_eq_zero_iff two_ne_zero |>.1 this
  have d0 : vnorm (p2 - p1) ≠ 0 := by
    intro hd
    have := hli 1 0 fun t => by rw [zero _ hd t]; ring
    exact one_ne_zero this.1
  rw [hfar, if_neg (by decide)]
  dsimp only
  rw [if_neg]
  swap
  · rintro (hc | hc)
    · exact d0 hc
    · have := hli (-(vdot (fun j => (p2 - p1) j / vnorm (p2 - p1)) (p3 - p1) / vnorm (p2 - p1))) 1 fun t => by
        have := zero _ hc t
        rw [← this]; ring
      exact one_ne_zero this.2
  refine triPoints_found (triData rfl rfl rfl rfl d0 ?_) h1 h2 h3 h4
  intro hc
  have := hli (-(vdot (fun j => (p2 - p1) j / vnorm (p2 - p1)) (p3 - p1) / vnorm (p2 - p1))) 1 fun t => by
    have := zero _ hc t
    rw [← this]; ring
  exact one_ne_zero this.2

end Amd
