import Verif.Proof.RoundingBound

/-! Helper lemmas: rounded operations give accurate numbers. -/

set_option linter.unusedSectionVars false

namespace Amd

variable {D : ℕ}

section
variable {fl : ℝ → ℝ} {u : ℝ}

theorem DotR.length_pos {l : List (ℝ × ℝ)} {v : ℝ} (h : DotR fl l v) : 0 < l.length := by
  induction h with
  | term => simp
  | fma => simp
  | add _ _ ih => rw [List.length_append]; omega
  | perm hp _ ih => rwa [← hp.length_eq]

/-- The error of a sum of products. -/
theorem DotR.error (hu : 0 ≤ u) (hfl : ∀ x, |fl x - x| ≤ u * |x|) {l : List (ℝ × ℝ)} {v : ℝ} (h : DotR fl l v) :
    |v - (l.map fun p => p.1 * p.2).sum| ≤ ((1 + u) ^ l.length - 1) * (l.map fun p => |p.1 * p.2|).sum := by
  have hG : ∀ n, 1 ≤ (1 + u) ^ n := fun n => one_le_pow₀ (by linarith)
  have habs : ∀ l : List (ℝ × ℝ), |(l.map fun p => p.1 * p.2).sum| ≤ (l.map fun p => |p.1 * p.2|).sum := by
    intro l
    induction l with
    | nil => simp
    | cons a l ih =>
      simp only [List.map_cons, List.sum_cons]
      exact (abs_add_le _ _).trans (by linarith)
  have hnn : ∀ l : List (ℝ × ℝ), 0 ≤ (l.map fun p => |p.1 * p.2|).sum := by
    intro l
    exact (abs_nonneg _).trans (habs l)
  induction h with
  | term x y =>
    simp only [List.map_cons, List.map_nil, List.sum_cons, List.sum_nil, add_zero, List.length_cons, List.length_nil, zero_add, pow_one]
    have := hfl (x * y)
    have e : 1 + u - 1 = u := by ring
    rw [e]
    exact this
  | @fma x y l v _ ih =>
    simp only [List.map_cons, List.sum_cons, List.length_cons]
    set S := (l.map fun p => p.1 * p.2).sum
    set T := (l.map fun p => |p.1 * p.2|).sum with hT
    have hT0 : 0 ≤ T := hnn l
    have hS : |S| ≤ T := habs l
    have h1 := hfl (x * y + v)
    have h2 : |x * y + v| ≤ |x * y| + (1 + u) ^ l.length * T := by
      have : |v| ≤ |v - S| + |S| := by
        have := abs_add_le (v - S) S
        simpa using this
      have := abs_add_le (x * y) v
      linarith
    have h3 : |fl (x * y + v) - (x * y + S)| ≤ |fl (x * y + v) - (x * y + v)| + |v - S| := by
      have := abs_add_le (fl (x * y + v) - (x * y + v)) (v - S)
      have e : fl (x * y + v) - (x * y + v) + (v - S) = fl (x * y + v) - (x * y + S) := by ring
      rwa [e] at this
    have h4 : u * |x * y + v| ≤ u * (|x * y| + (1 + u) ^ l.length * T) := by gcongr
    have h5 : u * |x * y| ≤ ((1 + u) ^ (l.length + 1) - 1) * |x * y| := by
      have : u ≤ (1 + u) ^ (l.length + 1) - 1 := by
        rw [pow_succ]
        nlinarith [hG l.length]
      gcongr
    have e : ((1 + u) ^ (l.length + 1) - 1) * T = u * ((1 + u) ^ l.length * T) + ((1 + u) ^ l.length - 1) * T := by
      rw [pow_succ]; ring
    rw [mul_add, e]
    linarith
  | @add l l' v v' hv hv' ih ih' =>
    simp only [List.map_append, List.sum_append, List.length_append]
    set S := (l.map fun p => p.1 * p.2).sum
    set T := (l.map fun p => |p.1 * p.2|).sum
    set S' := (l'.map fun p => p.1 * p.2).sum
    set T' := (l'.map fun p => |p.1 * p.2|).sum
    have hT0 : 0 ≤ T := hnn l
    have hT0' : 0 ≤ T' := hnn l'
    have hS : |S| ≤ T := habs l
    have hS' : |S'| ≤ T' := habs l'
    have h1 := hfl (v + v')
    have h2 : |v + v'| ≤ (1 + u) ^ l.length * T + (1 + u) ^ l'.length * T' := by
      have e1 : |v| ≤ |v - S| + |S| := by
        have := abs_add_le (v - S) S
        simpa using this
      have e2 : |v'| ≤ |v' - S'| + |S'| := by
        have := abs_add_le (v' - S') S'
        simpa using this
      have := abs_add_le v v'
      linarith
    have h3 : |fl (v + v') - (S + S')| ≤ |fl (v + v') - (v + v')| + (|v - S| + |v' - S'|) := by
      have := abs_add_le (fl (v + v') - (v + v')) ((v - S) + (v' - S'))
      have e : fl (v + v') - (v + v') + ((v - S) + (v' - S')) = fl (v + v') - (S + S') := by ring
      rw [e] at this
      have := abs_add_le (v - S) (v' - S')
      linarith
    have h4 : u * |v + v'| ≤ u * ((1 + u) ^ l.length * T + (1 + u) ^ l'.length * T') := by gcongr
    have hpow : ∀ a b : ℕ, 0 < b → (1 + u) ^ (a + 1) ≤ (1 + u) ^ (a + b) := fun a b hb => pow_le_pow_right₀ (by linarith) (by omega)
    have h5 : ((1 + u) ^ (l.length + 1) - 1) * T ≤ ((1 + u) ^ (l.length + l'.length) - 1) * T := by
      have := hpow l.length l'.length hv'.length_pos
      gcongr
    have h6 : ((1 + u) ^ (l'.length + 1) - 1) * T' ≤ ((1 + u) ^ (l.length + l'.length) - 1) * T' := by
      have := hpow l'.length l.length hv.length_pos
      rw [Nat.add_comm l'.length l.length] at this
      gcongr
    have e : ((1 + u) ^ (l.length + 1) - 1) * T = u * ((1 + u) ^ l.length * T) + ((1 + u) ^ l.length - 1) * T := by
      rw [pow_succ]; ring
    have e' : ((1 + u) ^ (l'.length + 1) - 1) * T' = u * ((1 + u) ^ l'.length * T') + ((1 + u) ^ l'.length - 1) * T' := by
      rw [pow_succ]; ring
    rw [mul_add]
    linarith
  | perm hp _ ih =>
    rw [← (hp.map _).sum_eq, ← (hp.map _).sum_eq, ← hp.length_eq]
    exact ih

theorem fl_nonneg (hu1 : u ≤ 1) (hfl : ∀ x, |fl x - x| ≤ u * |x|) {x : ℝ} (hx : 0 ≤ x) : 0 ≤ fl x := by
  have h := (abs_le.mp (hfl x)).1
  rw [abs_of_nonneg hx] at h
  nlinarith

theorem fl_zero (hfl : ∀ x, |fl x - x| ≤ u * |x|) : fl 0 = 0 := by
  have h := hfl 0
  simpa using h

theorem DotR.nonneg (hu1 : u ≤ 1) (hfl : ∀ x, |fl x - x| ≤ u * |x|) {l : List (ℝ × ℝ)} {v : ℝ} (h : DotR fl l v) : (∀ p ∈ l, 0 ≤ p.1 * p.2) → 0 ≤ v := by
  induction h with
  | term x y => intro h; exact fl_nonneg hu1 hfl (h (x, y) (by simp))
  | fma x y _ ih =>
    intro h
    exact fl_nonneg hu1 hfl (add_nonneg (h (x, y) (by simp)) (ih fun p hp => h p (List.mem_cons_of_mem _ hp)))
  | add _ _ ih ih' =>
    intro h
    exact fl_nonneg hu1 hfl (add_nonneg (ih fun p hp => h p (List.mem_append_left _ hp)) (ih' fun p hp => h p (List.mem_append_right _ hp)))
  | perm hp _ ih => intro h; exact ih fun p hp' => h p (hp.subset hp')

theorem exists_dotR (fl : ℝ → ℝ) : ∀ l : List (ℝ × ℝ), l ≠ [] → ∃ v, DotR fl l v
  | [], h => absurd rfl h
  | [(x, y)], _ => ⟨_, .term x y⟩
  | (x, y) :: q :: l, _ => by
    obtain ⟨v, hv⟩ := exists_dotR fl (q :: l) (by simp)
    exact ⟨_, .fma x y hv⟩

/-- Rounded operations can be carried out. -/
theorem exists_floatCall (fl : ℝ → ℝ) (hD : 0 < D) (motif : List (Pt D ℝ)) (cell : Fin D → Pt D ℝ) (inds : List (Fin motif.length)) :
    ∃ C, FloatCall fl motif cell inds C := by
  have hne : ∀ f : Fin D → ℝ × ℝ, List.ofFn f ≠ [] := by
    intro f h
    have := congrArg List.length h
    simp at this
    omega
  choose lat hlat using fun (n : Fin D → ℤ) (j : Fin D) => exists_dotR fl (List.ofFn fun i => ((n i : ℝ), cell i j)) (hne _)
  choose norm hnorm using fun n : Fin D → ℤ => exists_dotR fl (List.ofFn fun j => (lat n j, lat n j)) (hne _)
  choose cost hcost using fun (i : Fin motif.length) (s : Site motif.length D) => exists_dotR fl (List.ofFn fun j =>
      (fl (motif[i] j - fl (motif[s.1] j + lat s.2 j)), fl (motif[i] j - fl (motif[s.1] j + lat s.2 j)))) (hne _)
  refine ⟨⟨norm, fun i s => if h : i < inds.length then cost inds[i] s else 0, fun a b => fl (fl (fl √a + fl √b) ^ 2), fun a => fl √a⟩,
    lat, hlat, hnorm, ?_, fun _ _ => rfl, fun _ => rfl⟩
  intro i h s
  simp only [dif_pos h]
  exact hcost _ _

/-! ### Lengths -/

/-- Length of a vector. -/
noncomputable def vlen (v : Pt D ℝ) : ℝ := √(∑ j, v j ^ 2)

theorem vlen_nonneg (v : Pt D ℝ) : 0 ≤ vlen v := Real.sqrt_nonneg _

theorem vlen_sq (v : Pt D ℝ) : vlen v ^ 2 = ∑ j, v j ^ 2 := Real.sq_sqrt (Finset.sum_nonneg fun _ _ => sq_nonneg _)

theorem eucl_eq_vlen (p q : Pt D ℝ) : eucl p q = vlen (p - q) := rfl

theorem vlen_add_le (v w : Pt D ℝ) : vlen (v + w) ≤ vlen v + vlen w := by
  have h := eucl_triangle (v + w) w 0
  rw [eucl_eq_vlen, eucl_eq_vlen, eucl_eq_vlen] at h
  simpa using h

theorem vlen_neg (v : Pt D ℝ) : vlen (-v) = vlen v := by
  unfold vlen
  simp

theorem abs_vlen_sub (v w : Pt D ℝ) : |vlen v - vlen w| ≤ vlen (v - w) := by
  rw [abs_le]
  have h1 := vlen_add_le (v - w) w
  have h2 := vlen_add_le (w - v) v
  have h3 := vlen_neg (v - w)
  rw [neg_sub] at h3
  simp only [sub_add_cancel] at h1 h2
  constructor <;> linarith

theorem vlen_le_of_abs {v z : Pt D ℝ} {c : ℝ} (hc : 0 ≤ c) (h : ∀ j, |v j| ≤ c * |z j|) : vlen v ≤ c * vlen z := by
  apply Real.sqrt_le_iff.mpr
  refine ⟨mul_nonneg hc (vlen_nonneg z), ?_⟩
  rw [mul_pow, vlen_sq, Finset.mul_sum]
  apply Finset.sum_le_sum
  intro j _
  have := pow_le_pow_left₀ (abs_nonneg _) (h j) 2
  rw [mul_pow, sq_abs, sq_abs] at this
  exact this

theorem sqrt_error {w L g : ℝ} (hw : 0 ≤ w) (hL : 0 ≤ L) (h : |w - L ^ 2| ≤ g * L ^ 2) : |√w - L| ≤ g * L := by
  rcases hL.eq_or_lt with h0 | h0
  · subst h0
    have : w = 0 := by simpa using h
    simp [this]
  · have h1 : |w - L ^ 2| = |√w - L| * (√w + L) := by
      have : w - L ^ 2 = (√w - L) * (√w + L) := by
        have := Real.sq_sqrt hw
        nlinarith
      rw [this, abs_mul, abs_of_nonneg (a := √w + L) (by positivity)]
    have h2 : |√w - L| * L ≤ g * L * L := by
      have : |√w - L| * L ≤ |√w - L| * (√w + L) := by
        have := Real.sqrt_nonneg w
        gcongr
        linarith
      nlinarith
    exact le_of_mul_le_mul_right h2 h0

theorem DotR.sqrt_error (hu : 0 ≤ u) (hu1 : u ≤ 1) (hfl : ∀ x, |fl x - x| ≤ u * |x|) {d : Pt D ℝ} {w : ℝ} (h : DotR fl (List.ofFn fun j => (d j, d j)) w) :
    0 ≤ w ∧ |√w - vlen d| ≤ ((1 + u) ^ D - 1) * vlen d := by
  have hw : 0 ≤ w := h.nonneg hu1 hfl (by
    intro p hp
    obtain ⟨j, rfl⟩ := (List.mem_ofFn' _ _).mp hp
    exact mul_self_nonneg _)
  refine ⟨hw, Amd.sqrt_error hw (vlen_nonneg d) ?_⟩
  have he := h.error hu hfl
  rw [List.length_ofFn, List.map_ofFn, List.map_ofFn, List.sum_ofFn, List.sum_ofFn] at he
  rw [vlen_sq]
  simp only [Function.comp_apply, abs_mul_self] at he
  simpa [sq] using he

end

/-- The error of a squared distance, from the errors of its steps. -/
theorem float_dist_aux {c δ M T V g u e : ℝ} (hg : 0 ≤ g) (hu : 0 ≤ u) (hM : 0 ≤ M) (hT : |T - δ| ≤ e * (δ + M))
    (hV : |V - T| ≤ u * T) (hc : |c - V| ≤ g * V) : |c - δ| ≤ ((1 + g) * (1 + u) * (1 + e) - 1) * (δ + M) := by
  have h1 := abs_le.mp hT
  have h2 := abs_le.mp hV
  have h3' := abs_le.mp hc
  have h4 : |c - T| ≤ ((1 + g) * (1 + u) - 1) * T := by
    have h5 : g * V ≤ g * ((1 + u) * T) := by
      have : V ≤ (1 + u) * T := by linarith [h2.2]
      gcongr
    rw [abs_le]
    constructor
    · nlinarith [h3'.1, h2.1]
    · nlinarith [h3'.2, h2.2]
  have hh0 : 0 ≤ (1 + g) * (1 + u) - 1 := by nlinarith [mul_nonneg hg hu]
  have h5 : ((1 + g) * (1 + u) - 1) * T ≤ ((1 + g) * (1 + u) - 1) * (δ + e * (δ + M)) := by
    have : T ≤ δ + e * (δ + M) := by linarith [h1.2]
    gcongr
  have h6 : ((1 + g) * (1 + u) - 1) * (δ + e * (δ + M)) + e * (δ + M) ≤ ((1 + g) * (1 + u) * (1 + e) - 1) * (δ + M) := by
    have h0 : 0 ≤ ((1 + g) * (1 + u) - 1) * M := mul_nonneg hh0 hM
    have e1 : ((1 + g) * (1 + u) * (1 + e) - 1) * (δ + M) - (((1 + g) * (1 + u) - 1) * (δ + e * (δ + M)) + e * (δ + M)) =
        ((1 + g) * (1 + u) - 1) * M := by ring
    linarith
  have h7 : |c - δ| ≤ |c - T| + |T - δ| := by
    have := abs_add_le (c - T) (T - δ)
    simpa using this
  linarith

/-- The position of a site. -/
theorem float_pos_aux {fl : ℝ → ℝ} {u a B : ℝ} (hu : 0 ≤ u) (hfl : ∀ x, |fl x - x| ≤ u * |x|) {q l L : Pt D ℝ} (hql : vlen (q + l) ≤ B)
    (hA : vlen (L - l) ≤ a * B) : vlen ((fun j => fl (q j + L j)) - (q + l)) ≤ ((1 + a) * (1 + u) - 1) * B := by
  have hB : vlen ((fun j => fl (q j + L j)) - (q + L)) ≤ u * vlen (q + L) := vlen_le_of_abs hu fun j => hfl _
  have hqL : vlen (q + L) ≤ (1 + a) * B := by
    have := vlen_add_le (q + l) (L - l)
    have e1 : q + l + (L - l) = q + L := by abel
    rw [e1] at this
    linarith
  have := vlen_add_le ((fun j => fl (q j + L j)) - (q + L)) (L - l)
  have e1 : (fun j => fl (q j + L j)) - (q + L) + (L - l) = (fun j => fl (q j + L j)) - (q + l) := by abel
  rw [e1] at this
  have h2 : u * vlen (q + L) ≤ u * ((1 + a) * B) := by gcongr
  nlinarith

/-- The squared length of a lattice vector. -/
theorem float_norm_aux {c V l g a : ℝ} (hg : 0 ≤ g) (hc : |c - V| ≤ g * V) (hV : |V - l| ≤ a * l) : |c - l| ≤ ((1 + g) * (1 + a) - 1) * l := by
  have h1 := abs_le.mp hc
  have h2 := abs_le.mp hV
  have h3 : g * V ≤ g * ((1 + a) * l) := by
    have : V ≤ (1 + a) * l := by linarith [h2.2]
    gcongr
  rw [abs_le]
  constructor
  · nlinarith [h1.1, h2.1]
  · nlinarith [h1.2, h2.2]

/-- The bound for lattice vectors. -/
theorem float_bound_aux {fl : ℝ → ℝ} {u : ℝ} (hu : 0 ≤ u) (hu1 : u ≤ 1) (hfl : ∀ x, |fl x - x| ≤ u * |x|) (a b : ℝ) :
    |√(fl (fl (fl √a + fl √b) ^ 2)) - (√a + √b)| ≤ ((1 + u) * ((1 + u) * (1 + u)) - 1) * (√a + √b) := by
  have h1 := abs_le.mp (hfl √a)
  have h2 := abs_le.mp (hfl √b)
  rw [abs_of_nonneg (Real.sqrt_nonneg a)] at h1
  rw [abs_of_nonneg (Real.sqrt_nonneg b)] at h2
  have hA := Real.sqrt_nonneg a
  have hB := Real.sqrt_nonneg b
  have hfa := fl_nonneg hu1 hfl hA
  have hfb := fl_nonneg hu1 hfl hB
  have h3 := hfl (fl √a + fl √b)
  rw [abs_of_nonneg (add_nonneg hfa hfb)] at h3
  have hs0 := fl_nonneg hu1 hfl (add_nonneg hfa hfb)
  have h4 : |√(fl (fl (fl √a + fl √b) ^ 2)) - fl (fl √a + fl √b)| ≤ u * fl (fl √a + fl √b) := by
    apply sqrt_error (fl_nonneg hu1 hfl (sq_nonneg _)) hs0
    have := hfl (fl (fl √a + fl √b) ^ 2)
    rwa [abs_of_nonneg (sq_nonneg (fl (fl √a + fl √b)))] at this
  have hsum : |fl √a + fl √b - (√a + √b)| ≤ u * (√a + √b) := by
    rw [abs_le]
    constructor <;> linarith [h1.1, h1.2, h2.1, h2.2]
  have h5 := float_norm_aux hu h3 hsum
  have h6 := float_norm_aux (a := (1 + u) * (1 + u) - 1) hu h4 h5
  have e : (1 + u) * (1 + ((1 + u) * (1 + u) - 1)) - 1 = (1 + u) * ((1 + u) * (1 + u)) - 1 := by ring
  rwa [e] at h6

/-- Rounded operations with relative errors at most `u` give accurate numbers. `κ` bounds the cancellation in lattice vectors, `M` the distances of motif points
and their distances to the origin. -/
theorem FloatCall.accurate {motif : List (Pt D ℝ)} {cell : Fin D → Pt D ℝ} {inds : List (Fin motif.length)} {C : Computed motif.length D} {fl : ℝ → ℝ} {u κ M : ℝ}
    (hD : 0 < D) (hu : 0 ≤ u) (hu1 : u ≤ 1) (hfl : ∀ x, |fl x - x| ≤ u * |x|) (hrep : ∀ p ∈ motif, ∀ j, fl (p j) = p j) (hκ0 : 0 ≤ κ)
    (hκ : ∀ n : Fin D → ℤ, √(∑ j, (∑ i, |(n i : ℝ) * cell i j|) ^ 2) ≤ κ * latLength cell n)
    (hM : ∀ p ∈ motif, ∀ q ∈ motif, eucl p q ≤ M) (hM' : ∀ p ∈ motif, eucl p 0 ≤ M) (h : FloatCall fl motif cell inds C) :
    Accurate C cell inds ((1 + u) ^ (D + 2) * (1 + ((1 + u) ^ D - 1) * κ) - 1) M := by
  obtain ⟨lat, hlat, hnorm, hcost, hbound, hroot⟩ := h
  set g := (1 + u) ^ D - 1 with hg
  have hg0 : 0 ≤ g := by rw [hg]; linarith [one_le_pow₀ (n := D) (by linarith : 1 ≤ 1 + u)]
  have hug : u ≤ g := by
    have : (1 + u) ^ 1 ≤ (1 + u) ^ D := pow_le_pow_right₀ (by linarith) hD
    rw [pow_one] at this
    rw [hg]; linarith
  set e := (1 + g * κ) * (1 + u) - 1 with he
  have hgκ : 0 ≤ g * κ := mul_nonneg hg0 hκ0
  have he0 : 0 ≤ e := by rw [he]; nlinarith
  set ε := (1 + u) ^ (D + 2) * (1 + g * κ) - 1 with hε
  have hεe : ε = (1 + g) * (1 + u) * (1 + e) - 1 := by
    rw [hε, he, hg, pow_add]; ring
  have hlen : ∀ n, latLength cell n = vlen (latVec cell n) := fun n => rfl
  -- lattice vectors
  have hlatj : ∀ n j, |lat n j - latVec cell n j| ≤ g * ∑ i, |(n i : ℝ) * cell i j| := by
    intro n j
    have := (hlat n j).error hu hfl
    rw [List.length_ofFn, List.map_ofFn, List.map_ofFn, List.sum_ofFn, List.sum_ofFn] at this
    exact this
  have hlatv : ∀ n, vlen (lat n - latVec cell n) ≤ g * κ * latLength cell n := by
    intro n
    have h1 : vlen (lat n - latVec cell n) ≤ g * vlen (fun j => ∑ i, |(n i : ℝ) * cell i j|) := by
      apply vlen_le_of_abs hg0
      intro j
      have h0 : 0 ≤ ∑ i, |(n i : ℝ) * cell i j| := Finset.sum_nonneg fun i _ => abs_nonneg _
      rw [abs_of_nonneg h0]
      exact hlatj n j
    have h2 : g * vlen (fun j => ∑ i, |(n i : ℝ) * cell i j|) ≤ g * (κ * latLength cell n) := by
      have := hκ n
      unfold vlen
      gcongr
    rw [mul_assoc]
    exact h1.trans h2
  have hlat0 : ∀ j, lat 0 j = 0 := by
    intro j
    have := hlatj 0 j
    simpa [latVec] using this
  have hεge : ∀ t : ℝ, t ≤ (1 + g) * (1 + u) * (1 + e) - 1 → t ≤ ε := fun t ht => by rw [hεe]; exact ht
  refine ⟨?_, ?_, ?_, ?_, ?_, ?_, ?_, ?_⟩
  · intro i hi
    have h1 := ((hcost i hi (inds[i], 0)).sqrt_error (d := fun j => fl (motif[inds[i]] j - fl (motif[inds[i]] j + lat 0 j))) hu hu1 hfl)
    have hz : vlen (fun j => fl (motif[inds[i]] j - fl (motif[inds[i]] j + lat 0 j))) = 0 := by
      have : (fun j => fl (motif[inds[i]] j - fl (motif[inds[i]] j + lat 0 j))) = fun _ => (0 : ℝ) := by
        funext j
        have hr : fl (motif[inds[i]] j) = motif[inds[i]] j := hrep _ (List.getElem_mem inds[i].2) j
        rw [hlat0, add_zero, hr, sub_self, fl_zero hfl]
      rw [this]
      simp [vlen]
    have h2 := h1.2
    rw [hz] at h2
    have h3 : √(C.cost i (inds[i], 0)) = 0 := by simpa using h2
    exact (Real.sqrt_eq_zero h1.1).mp h3
  · intro i hi s
    exact ((hcost i hi s).sqrt_error (d := fun j => fl (motif[inds[i]] j - fl (motif[s.1] j + lat s.2 j))) hu hu1 hfl).1
  · intro i hi s
    have hcs := ((hcost i hi s).sqrt_error (d := fun j => fl (motif[inds[i]] j - fl (motif[s.1] j + lat s.2 j))) hu hu1 hfl).2
    have hxm : motif[inds[i]] ∈ motif := List.getElem_mem inds[i].2
    have hqm : motif[s.1] ∈ motif := List.getElem_mem s.1.2
    have hsp : sitePos motif cell s = motif[s.1] + latVec cell s.2 := sitePos_eq motif cell s
    rw [hsp]
    set x := motif[inds[i]] with hx
    set q := motif[s.1] with hq
    set l := latVec cell s.2
    set L := lat s.2
    set δ := eucl x (q + l) with hδ
    have hδ0 : 0 ≤ δ := eucl_nonneg _ _
    have hM0 : 0 ≤ M := (eucl_nonneg _ _).trans (hM x hxm x hxm)
    have hl : vlen l ≤ δ + M := (latLength_le (cell := cell) x q s.2).trans (by linarith [hM x hxm q hqm])
    have hql : vlen (q + l) ≤ δ + M := by
      have := eucl_triangle (q + l) x 0
      rw [eucl_comm (q + l) x, eucl_eq_vlen (q + l) 0, sub_zero] at this
      linarith [hM' x hxm]
    have hA : vlen (L - l) ≤ g * κ * (δ + M) := (hlatv s.2).trans (by rw [hlen]; gcongr)
    have hPe := float_pos_aux hu hfl hql hA
    rw [hεe]
    refine float_dist_aux hg0 hu hM0 (T := vlen (x - fun j => fl (q j + L j))) ?_ ?_ hcs
    · refine (abs_vlen_sub (x - fun j => fl (q j + L j)) (x - (q + l))).trans ?_
      have e1 : (x - fun j => fl (q j + L j)) - (x - (q + l)) = -((fun j => fl (q j + L j)) - (q + l)) := by abel
      rw [e1, vlen_neg]
      exact hPe
    · exact (abs_vlen_sub _ _).trans (vlen_le_of_abs hu fun j => hfl _)
  · intro n
    have hl0 : 0 ≤ latLength cell n := Real.sqrt_nonneg _
    have h1 := ((hnorm n).sqrt_error (d := lat n) hu hu1 hfl).2
    have h2 := (abs_vlen_sub (lat n) (latVec cell n)).trans (hlatv n)
    rw [← hlen] at h2
    refine (float_norm_aux hg0 h1 h2).trans ?_
    have : (1 + g) * (1 + g * κ) - 1 ≤ ε := by
      rw [hεe, he]
      have e1 : 0 ≤ (1 + g) * (1 + g * κ) := by positivity
      have e2 : 1 ≤ (1 + u) * (1 + u) := by nlinarith
      have e3 := mul_le_mul_of_nonneg_left e2 e1
      linarith [e3]
    gcongr
  · intro n
    exact ((hnorm n).sqrt_error (d := lat n) hu hu1 hfl).1
  · intro a b ha hb
    rw [hbound]
    refine (float_bound_aux hu hu1 hfl a b).trans ?_
    have : (1 + u) * ((1 + u) * (1 + u)) - 1 ≤ ε := by
      rw [hεe, he]
      have e1 : 0 ≤ (1 + u) * (1 + u) := by positivity
      have e2 : (1 + u) ≤ (1 + g) * (1 + g * κ) := by nlinarith [mul_nonneg hg0 hgκ]
      have e3 := mul_le_mul_of_nonneg_left e2 e1
      linarith [e3]
    have := Real.sqrt_nonneg a
    have := Real.sqrt_nonneg b
    gcongr
  · intro a b ha hb
    rw [hbound]
    exact fl_nonneg hu1 hfl (sq_nonneg _)
  · intro a ha
    rw [hroot]
    have h1 := hfl √a
    rw [abs_of_nonneg (Real.sqrt_nonneg a)] at h1
    refine h1.trans ?_
    have : u ≤ ε := by
      rw [hεe]
      have e1 : (1 + u) ≤ (1 + g) * (1 + u) := by nlinarith
      have e2 : (1 + g) * (1 + u) ≤ (1 + g) * (1 + u) * (1 + e) := by
        have : 0 ≤ (1 + g) * (1 + u) := by positivity
        nlinarith
      linarith
    have := Real.sqrt_nonneg a
    gcongr

/-- Cancellation is bounded for every non-singular cell. -/
theorem exists_cancellation {cell : Fin D → Pt D ℝ} (h : NonSingular cell) :
    ∃ κ, 0 ≤ κ ∧ ∀ n : Fin D → ℤ, √(∑ j, (∑ i, |(n i : ℝ) * cell i j|) ^ 2) ≤ κ * latLength cell n := by
  obtain ⟨c, hc0, hc⟩ := exists_lower_bound h
  set B := ∑ j, ∑ i, (cell i j) ^ 2 with hB
  have hB0 : 0 ≤ B := Finset.sum_nonneg fun _ _ => Finset.sum_nonneg fun _ _ => sq_nonneg _
  refine ⟨√(B / c), Real.sqrt_nonneg _, fun n => ?_⟩
  unfold latLength
  rw [← Real.sqrt_mul (by positivity)]
  apply Real.sqrt_le_sqrt
  have h1 : ∑ j, (∑ i, |(n i : ℝ) * cell i j|) ^ 2 ≤ B * (normSq n : ℝ) := by
    rw [hB, Finset.sum_mul]
    apply Finset.sum_le_sum
    intro j _
    have := Finset.sum_mul_sq_le_sq_mul_sq Finset.univ (fun i => |cell i j|) (fun i => |(n i : ℝ)|)
    simp only [sq_abs] at this
    have e1 : ∑ i, |(n i : ℝ) * cell i j| = ∑ i, |cell i j| * |(n i : ℝ)| := by
      apply Finset.sum_congr rfl
      intro i _
      rw [abs_mul, mul_comm]
    have e2 : (normSq n : ℝ) = ∑ i, (n i : ℝ) ^ 2 := by
      simp [normSq]
    rw [e1, e2]
    exact this
  have h2 := hc n
  have h3 : (∑ j, (∑ i, (n i : ℝ) * cell i j) ^ 2) = sqNorm (latVec cell n) := rfl
  rw [h3]
  calc ∑ j, (∑ i, |(n i : ℝ) * cell i j|) ^ 2 ≤ B * (normSq n : ℝ) := h1
    _ = B / c * (c * (normSq n : ℝ)) := by field_simp
    _ ≤ B / c * sqNorm (latVec cell n) := by gcongr

/-! ### AMD and PDD -/

theorem sum_zipWith_le {f g : ℕ → ℝ → ℝ} (c : ℝ) : ∀ (mult : List ℕ) (a b : List ℝ) (R : ℝ → ℝ → Prop), List.Forall₂ R a b →
    (∀ n x y, R x y → |f n x - f n y| ≤ c * g n y) → (∀ n y, 0 ≤ c * g n y) →
    |(List.zipWith f mult a).sum - (List.zipWith f mult b).sum| ≤ c * (List.zipWith g mult b).sum
  | [], _, _, _, _, _, _ => by simp
  | _ :: _, [], [], _, _, _, _ => by simp
  | n :: mult, x :: a, y :: b, R, h, h1, h2 => by
    obtain ⟨hxy, hab⟩ := List.forall₂_cons.mp h
    have ih := sum_zipWith_le c mult a b R hab h1 h2
    simp only [List.zipWith_cons_cons, List.sum_cons]
    have e : f n x + (List.zipWith f mult a).sum - (f n y + (List.zipWith f mult b).sum) =
        (f n x - f n y) + ((List.zipWith f mult a).sum - (List.zipWith f mult b).sum) := by ring
    rw [e, mul_add]
    exact (abs_add_le _ _).trans (add_le_add (h1 n x y hxy) ih)

theorem weights_nonneg (mult : List ℕ) : 0 ≤ (mult.map fun n : ℕ => (n : ℝ)).sum := by
  apply List.sum_nonneg
  intro x hx
  obtain ⟨n, _, rfl⟩ := List.mem_map.mp hx
  exact Nat.cast_nonneg n

theorem FloatMean.error {fl : ℝ → ℝ} {u : ℝ} (hu : 0 ≤ u) (hfl : ∀ x, |fl x - x| ≤ u * |x|) {mean : List ℕ → List ℝ → ℝ} (h : FloatMean fl mean) {mult : List ℕ}
    {column : List ℝ} (hl : mult.length = column.length) (hne : mult ≠ []) :
    |mean mult column - weightedMean mult column| ≤ ((1 + u) ^ (mult.length + 1) - 1) * weightedMean mult (column.map abs) := by
  obtain ⟨v, hv, e⟩ := h mult column hl hne
  have h1 := hv.error hu hfl
  have hlen : (List.zipWith (fun (n : ℕ) d => (d, (n : ℝ))) mult column).length = mult.length := by
    rw [List.length_zipWith, hl, min_self]
  rw [hlen, List.map_zipWith, List.map_zipWith] at h1
  have e1 : List.zipWith (fun (n : ℕ) (d : ℝ) => d * (n : ℝ)) mult column = List.zipWith (fun (n : ℕ) d => (n : ℝ) * d) mult column := by
    congr 1; funext n d; ring
  have e2 : List.zipWith (fun (n : ℕ) (d : ℝ) => |d * (n : ℝ)|) mult column = List.zipWith (fun (n : ℕ) d => (n : ℝ) * d) mult (column.map abs) := by
    rw [zipWith_map_right']
    congr 1; funext n d
    rw [abs_mul, abs_of_nonneg (a := (n : ℝ)) (Nat.cast_nonneg n), mul_comm]
  simp only [e1, e2] at h1
  rw [e]
  unfold weightedMean
  set W := (mult.map fun n : ℕ => (n : ℝ)).sum
  have hW : 0 ≤ W := weights_nonneg mult
  set S := (List.zipWith (fun (n : ℕ) d => (n : ℝ) * d) mult column).sum with hS
  set T := (List.zipWith (fun (n : ℕ) d => (n : ℝ) * d) mult (column.map abs)).sum with hT
  have hST : |S| ≤ T := by
    rw [hS, hT, zipWith_map_right']
    clear_value W
    clear h1 hne e hlen e1 e2 hv hl
    induction mult generalizing column with
    | nil => simp
    | cons n mult ih =>
      cases column with
      | nil => simp
      | cons c column =>
        simp only [List.zipWith_cons_cons, List.sum_cons]
        refine (abs_add_le _ _).trans (add_le_add ?_ (ih rfl rfl))
        rw [abs_mul, abs_of_nonneg (Nat.cast_nonneg n)]
  set G := (1 + u) ^ mult.length with hG
  have hG1 : 1 ≤ G := one_le_pow₀ (by linarith)
  have hv' : |v| ≤ G * T := by
    have : |v| ≤ |v - S| + |S| := by
      have := abs_add_le (v - S) S
      simpa using this
    linarith
  have h2 := hfl (v / W)
  rw [abs_div, abs_of_nonneg hW] at h2
  have h3 : |fl (v / W) - S / W| ≤ |fl (v / W) - v / W| + |v - S| / W := by
    have := abs_add_le (fl (v / W) - v / W) ((v - S) / W)
    rw [abs_div, abs_of_nonneg hW] at this
    have e3 : fl (v / W) - v / W + (v - S) / W = fl (v / W) - S / W := by ring
    rwa [e3] at this
  have h4 : u * (|v| / W) ≤ u * (G * T / W) := by gcongr
  have h5 : |v - S| / W ≤ (G - 1) * T / W := by gcongr
  have e4 : ((1 + u) ^ (mult.length + 1) - 1) * (T / W) = u * (G * T / W) + (G - 1) * T / W := by
    rw [pow_succ, ← hG]; ring
  rw [e4]
  linarith

/-- The AMD of rows with small errors. -/
theorem mean_error {mult : List ℕ} (hW : 0 < (mult.map fun n : ℕ => (n : ℝ)).sum) {col true_ : List ℝ} (hl : mult.length = true_.length) {c ε₂ M m : ℝ} (hc : 0 ≤ c) (hc1 : c ≤ 1)
    (h0 : ∀ y ∈ true_, 0 ≤ y) (hM : 0 ≤ M) (hcol : List.Forall₂ (fun x y => |x - y| ≤ c * (y + M)) col true_) (hε₂ : 0 ≤ ε₂)
    (hm : |m - weightedMean mult col| ≤ ε₂ * weightedMean mult (col.map abs)) :
    |m - weightedMean mult true_| ≤ (c + 2 * ε₂) * (weightedMean mult true_ + M) := by
  set W := (mult.map fun n : ℕ => (n : ℝ)).sum with hWd
  have hpair : List.Forall₂ (fun x y => |x - y| ≤ c * (y + M) ∧ 0 ≤ y) col true_ := by
    clear hl hm
    induction hcol with
    | nil => exact .nil
    | cons h _ ih => exact .cons ⟨h, h0 _ (by simp)⟩ (ih fun y hy => h0 y (List.mem_cons_of_mem _ hy))
  have hsum : (List.zipWith (fun (n : ℕ) (y : ℝ) => (n : ℝ) * (y + M)) mult true_).sum = (List.zipWith (fun (n : ℕ) d => (n : ℝ) * d) mult true_).sum + W * M := by
    rw [hWd]
    clear hcol hm hpair h0 hW hWd W
    induction mult generalizing true_ with
    | nil => simp
    | cons n mult ih =>
      cases true_ with
      | nil => simp at hl
      | cons y t =>
        simp only [List.zipWith_cons_cons, List.sum_cons, List.map_cons]
        rw [ih (by simpa using hl)]
        ring
  have hmain : ∀ f : ℝ → ℝ, (∀ x y, |x - y| ≤ c * (y + M) ∧ 0 ≤ y → |f x - y| ≤ c * (y + M)) →
      |weightedMean mult (col.map f) - weightedMean mult true_| ≤ c * (weightedMean mult true_ + M) := by
    intro f hf
    unfold weightedMean
    rw [← hWd]
    have h1 : |(List.zipWith (fun (n : ℕ) d => (n : ℝ) * d) mult (col.map f)).sum - (List.zipWith (fun (n : ℕ) d => (n : ℝ) * d) mult true_).sum| ≤
        c * (List.zipWith (fun (n : ℕ) (y : ℝ) => (n : ℝ) * max 0 (y + M)) mult true_).sum := by
      refine sum_zipWith_le c mult _ _ (fun x y => |x - y| ≤ c * max 0 (y + M)) ?_ ?_ ?_
      · rw [List.forall₂_map_left_iff]
        exact hpair.imp fun x y h => (hf x y h).trans (by gcongr; exact le_max_right _ _)
      · intro n x y h
        rw [← mul_sub, abs_mul, abs_of_nonneg (Nat.cast_nonneg n)]
        have : (n : ℝ) * |x - y| ≤ (n : ℝ) * (c * max 0 (y + M)) := by gcongr
        linarith
      · intro n y
        have : 0 ≤ max 0 (y + M) := le_max_left _ _
        positivity
    have e1 : List.zipWith (fun (n : ℕ) (y : ℝ) => (n : ℝ) * max 0 (y + M)) mult true_ = List.zipWith (fun (n : ℕ) (y : ℝ) => (n : ℝ) * (y + M)) mult true_ := by
      apply List.ext_getElem
      · simp
      · intro i h1 h2
        simp only [List.getElem_zipWith]
        rw [max_eq_right]
        have : 0 ≤ true_[i]'(by simp at h1; omega) := h0 _ (List.getElem_mem _)
        linarith
    rw [e1, hsum] at h1
    have h2 : (List.zipWith (fun (n : ℕ) d => (n : ℝ) * d) mult (col.map f)).sum / W - (List.zipWith (fun (n : ℕ) d => (n : ℝ) * d) mult true_).sum / W =
        ((List.zipWith (fun (n : ℕ) d => (n : ℝ) * d) mult (col.map f)).sum - (List.zipWith (fun (n : ℕ) d => (n : ℝ) * d) mult true_).sum) / W := by ring
    rw [h2, abs_div, abs_of_pos hW, div_le_iff₀ hW]
    refine h1.trans (le_of_eq ?_)
    field_simp
  have hA := hmain id fun x y h => h.1
  rw [List.map_id] at hA
  have hB := hmain abs fun x y h => by
    refine le_trans ?_ h.1
    have := abs_abs_sub_abs_le_abs_sub x y
    rwa [abs_of_nonneg h.2] at this
  have ht0 : 0 ≤ weightedMean mult true_ := by
    unfold weightedMean
    apply div_nonneg _ hW.le
    apply List.sum_nonneg
    intro x hx
    obtain ⟨i, hi, rfl⟩ := List.getElem_of_mem hx
    rw [List.getElem_zipWith]
    exact mul_nonneg (Nat.cast_nonneg _) (h0 _ (List.getElem_mem _))
  set a := weightedMean mult true_
  have hB' := (abs_le.mp hB).2
  have h3 : weightedMean mult (col.map abs) ≤ 2 * (a + M) := by
    have : c * (a + M) ≤ 1 * (a + M) := by gcongr
    linarith
  have h4 : ε₂ * weightedMean mult (col.map abs) ≤ ε₂ * (2 * (a + M)) := by gcongr
  have h5 : |m - a| ≤ |m - weightedMean mult col| + |weightedMean mult col - a| := by
    have := abs_add_le (m - weightedMean mult col) (weightedMean mult col - a)
    simpa using this
  linarith

theorem AMDR_eq {S : PeriodicSet D} {inds : List (Fin S.motif.length)} {mult : List ℕ} (h : S.Units inds mult) (C : Computed S.motif.length D)
    (mean : List ℕ → List ℝ → ℝ) (k fuel : ℕ) :
    AMDR S C mean k fuel = (nearestNeighborsR C inds.length (k + 1) fuel).map fun dists => (List.range k).map fun j => mean mult (dists.map (·.getD (j + 1) 0)) := by
  unfold AMDR
  rw [asymPoints_units h]
  simp only [bind, Except.bind, List.length_map]
  cases nearestNeighborsR C inds.length (k + 1) fuel <;> rfl

theorem PDDR_eq {S : PeriodicSet D} {inds : List (Fin S.motif.length)} {mult : List ℕ} (h : S.Units inds mult) (C : Computed S.motif.length D)
    (quot : ℕ → ℕ → ℝ) (k : ℕ) (lexsort : Bool) (fuel : ℕ) {dists : List (List ℝ)} (hd : nearestNeighborsR C inds.length (k + 1) fuel = .ok dists)
    (hl : dists.length = inds.length) :
    PDDR S C quot k lexsort fuel = .ok (lexsortRows lexsort (collapseRows k false 0 (dists.map (·.drop 1)) (mult.map fun n : ℕ => quot n S.motif.length))) := by
  unfold PDDR
  rw [asymPoints_units h]
  simp only [bind, Except.bind, List.length_map]
  rw [hd]
  simp only
  rw [if_neg (by rw [hl, units_length h]; simp)]

end Amd
