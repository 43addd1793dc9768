import Verif.Proof.NetSummary
import Verif.Proof.Wasserstein

/-!
# The value of `network_simplex` is close to the Wasserstein distance
-/

set_option linter.unusedSectionVars false

namespace Amd

open Finset

variable {ι κ : Type*} [Fintype ι] [Fintype κ]

theorem planCost_swap (c g : ι → κ → ℝ) : planCost (fun j i => c i j) (fun j i => g i j) = planCost c g := by
  unfold planCost; rw [sum_comm]

theorem planCost_mono {c c' g : ι → κ → ℝ} (hg : ∀ i j, 0 ≤ g i j) (h : ∀ i j, c i j ≤ c' i j) : planCost c g ≤ planCost c' g :=
  sum_le_sum fun i _ => sum_le_sum fun j _ => mul_le_mul_of_nonneg_left (h i j) (hg i j)

theorem planCost_smul (c g : ι → κ → ℝ) (x : ℝ) : planCost c (fun i j => x * g i j) = x * planCost c g := by
  unfold planCost; simp only [mul_sum]
  exact sum_congr rfl fun i _ => sum_congr rfl fun j _ => by ring

theorem planCost_smul' (c g : ι → κ → ℝ) (x : ℝ) : planCost (fun i j => x * c i j) g = x * planCost c g := by
  unfold planCost; simp only [mul_sum]
  exact sum_congr rfl fun i _ => sum_congr rfl fun j _ => by ring

theorem NetOut.swap {A : ι → ℤ} {B : κ → ℤ} {c X : ι → κ → ℤ} (h : NetOut A B c X) : NetOut B A (fun j i => c i j) (fun j i => X i j) := by
  refine ⟨fun j i => ⟨(h.bounds i j).1, (h.bounds i j).2.2, (h.bounds i j).2.1⟩, h.margins.symm, ?_, ?_⟩
  · rw [min_comm, sum_comm]; exact h.mass
  · intro g h1 h2 h3
    have := h.opt (fun i j => g j i) (fun i j => ⟨(h1 j i).1, (h1 j i).2.2, (h1 j i).2.1⟩) h3 h2
    rwa [← planCost_swap, ← planCost_swap _ fun i j => g j i] at this

/-- Weights `a`, `b` with sum 1 and costs `c`, their integer versions and the flow found. -/
structure Rounded (a : ι → ℝ) (b : κ → ℝ) (c : ι → κ → ℝ) (A : ι → ℤ) (B : κ → ℤ) (ci X : ι → κ → ℤ) (C : ℝ) (N : ℕ) : Prop where
  out : NetOut A B ci X
  sa : ∑ i, a i = 1
  sb : ∑ j, b j = 1
  A_floor : ∀ i, (A i : ℝ) ≤ a i * 100000000 ∧ a i * 100000000 ≤ A i + 1
  B_floor : ∀ j, (B j : ℝ) ≤ b j * 100000000 ∧ b j * 100000000 ≤ B j + 1
  c_floor : ∀ i j, (ci i j : ℝ) ≤ c i j * 100000000 ∧ c i j * 100000000 ≤ ci i j + 1
  a_nonneg : ∀ i, 0 ≤ a i
  b_nonneg : ∀ j, 0 ≤ b j
  c_le : ∀ i j, 0 ≤ c i j ∧ c i j ≤ C
  cardι : Fintype.card ι ≤ N
  cardκ : Fintype.card κ ≤ N

section
variable {a : ι → ℝ} {b : κ → ℝ} {c : ι → κ → ℝ} {A : ι → ℤ} {B : κ → ℤ} {ci X : ι → κ → ℤ} {C : ℝ} {N : ℕ}

theorem Rounded.swap (h : Rounded a b c A B ci X C N) : Rounded b a (fun j i => c i j) B A (fun j i => ci i j) (fun j i => X i j) C N :=
  ⟨h.out.swap, h.sb, h.sa, h.B_floor, h.A_floor, fun j i => h.c_floor i j, h.b_nonneg, h.a_nonneg, fun j i => h.c_le i j, h.cardκ, h.cardι⟩

theorem Rounded.sumA (h : Rounded a b c A B ci X C N) : ((∑ i, A i : ℤ) : ℝ) ≤ 100000000 ∧ 100000000 - (N : ℝ) ≤ ((∑ i, A i : ℤ) : ℝ) := by
  push_cast
  constructor
  · have := sum_le_sum fun i (_ : i ∈ univ) => (h.A_floor i).1
    rw [← sum_mul, h.sa] at this
    linarith
  · have := sum_le_sum fun i (_ : i ∈ univ) => (h.A_floor i).2
    rw [← sum_mul, h.sa, sum_add_distrib] at this
    simp only [sum_const, card_univ, nsmul_eq_mul, mul_one] at this
    have hc : (Fintype.card ι : ℝ) ≤ N := by exact_mod_cast h.cardι
    linarith

theorem Rounded.sumX (h : Rounded a b c A B ci X C N) : 100000000 - (N : ℝ) ≤ ∑ i, ∑ j, (X i j : ℝ) := by
  have h1 := h.sumA.2
  have h2 := h.swap.sumA.2
  have h3 : ((min (∑ i, A i) (∑ j, B j) : ℤ) : ℝ) ≤ ((∑ i, ∑ j, X i j : ℤ) : ℝ) := by exact_mod_cast h.out.mass
  rw [Int.cast_min] at h3
  have h4 := le_min h1 h2
  have h5 := h4.trans h3
  push_cast at h5
  exact h5

theorem Rounded.X_nonneg (h : Rounded a b c A B ci X C N) (i : ι) (j : κ) : (0 : ℝ) ≤ X i j := by exact_mod_cast (h.out.bounds i j).1

theorem Rounded.C_nonneg [Nonempty ι] [Nonempty κ] (h : Rounded a b c A B ci X C N) : 0 ≤ C := by
  obtain ⟨i⟩ := ‹Nonempty ι›
  obtain ⟨j⟩ := ‹Nonempty κ›
  exact (h.c_le i j).1.trans (h.c_le i j).2

theorem Rounded.upper_aux [Nonempty ι] [Nonempty κ] (h : Rounded a b c A B ci X C N) (hle : ∑ i, A i ≤ ∑ j, B j) (hcol : ∀ j, ∑ i, X i j ≤ B j) (i0 : ι)
    (hrow : ∀ i ≠ i0, ∑ j, X i j ≤ A i) (hrow0 : ∑ j, X i0 j ≤ A i0 + (∑ j, B j - ∑ i, A i)) {g : ι → κ → ℝ} (hg : IsPlan a b g) :
    planCost (fun i j => (ci i j : ℝ)) (fun i j => (X i j : ℝ)) ≤ 100000000 * (100000000 * planCost c g + C * (5 * N + 2)) := by
  have hT : (0 : ℝ) ≤ 100000000 := by norm_num
  have hrs : ∀ i, ∑ j, 100000000 * g i j = a i * 100000000 := fun i => by rw [← mul_sum, hg.rows i, mul_comm]
  have hcs : ∀ j, ∑ i, 100000000 * g i j = b j * 100000000 := fun j => by rw [← mul_sum, hg.cols j, mul_comm]
  have hd0 : (0 : ℝ) ≤ ((∑ j, B j - ∑ i, A i : ℤ) : ℝ) := by exact_mod_cast (by omega : (0 : ℤ) ≤ ∑ j, B j - ∑ i, A i)
  have hdN : ((∑ j, B j - ∑ i, A i : ℤ) : ℝ) ≤ N := by
    have := h.sumA.2; have := h.swap.sumA.1
    rw [Int.cast_sub]; linarith
  obtain ⟨q, hq, hqr, hqc, hcost⟩ := fit_capped (fun i => (A i : ℝ)) (fun j => (B j : ℝ)) i0 (fun i j => (X i j : ℝ))
    (fun i j => ⟨h.X_nonneg i j, by exact_mod_cast (h.out.bounds i j).2.1⟩) (fun i hi => by exact_mod_cast hrow i hi) (fun j => by exact_mod_cast hcol j)
    (fun i j => 100000000 * g i j) (fun i j => mul_nonneg hT (hg.nonneg i j)) (fun i => by rw [hrs]; exact (h.A_floor i).1)
    (by rw [hrs]; exact (h.A_floor i0).2) (fun j => by rw [hcs]; exact (h.B_floor j).1) ((∑ j, B j - ∑ i, A i : ℤ) : ℝ) hd0
    (by exact_mod_cast hrow0) c C h.c_le
  have h1 := h.out.opt q hq hqr hqc
  have h2 : planCost (fun i j => (ci i j : ℝ)) q ≤ planCost (fun i j => 100000000 * c i j) q :=
    planCost_mono (fun i j => (hq i j).1) fun i j => by rw [mul_comm]; exact (h.c_floor i j).1
  rw [planCost_smul'] at h2
  rw [planCost_smul] at hcost
  have h3 : ∑ i, ∑ j, 100000000 * g i j = 100000000 := by
    rw [sum_congr rfl fun i _ => hrs i, ← sum_mul, h.sa, one_mul]
  have h4 := h.sumX
  rw [h3] at hcost
  have h5 := mul_le_mul_of_nonneg_left (by linarith : 3 * (100000000 - ∑ i, ∑ j, (X i j : ℝ)) + 2 * ((∑ j, B j - ∑ i, A i : ℤ) : ℝ) + 2 ≤ 5 * N + 2) h.C_nonneg
  refine h1.trans (h2.trans (mul_le_mul_of_nonneg_left ?_ hT))
  linarith

/-- The value found is at most a little more than the cost of any plan. -/
theorem Rounded.upper [Nonempty ι] [Nonempty κ] (h : Rounded a b c A B ci X C N) {g : ι → κ → ℝ} (hg : IsPlan a b g) :
    ∑ i, ∑ j, (X i j : ℝ) / 100000000 * ((ci i j : ℝ) / 100000000) ≤ planCost c g + C * (5 * N + 2) / 100000000 := by
  have key : planCost (fun i j => (ci i j : ℝ)) (fun i j => (X i j : ℝ)) ≤ 100000000 * (100000000 * planCost c g + C * (5 * N + 2)) := by
    rcases h.out.margins with ⟨h1, h2, i0, -, h3, h4⟩ | ⟨h1, h2, i0, -, h3, h4⟩
    · have := h.swap.upper_aux h1 h2 i0 h3 h4 (g := fun j i => g i j) ⟨fun j i => hg.nonneg i j, hg.cols, hg.rows⟩
      rwa [planCost_swap c g, planCost_swap (fun i j => (ci i j : ℝ)) fun i j => (X i j : ℝ)] at this
    · exact h.upper_aux h1 h2 i0 h3 h4 hg
  have e : ∑ i, ∑ j, (X i j : ℝ) / 100000000 * ((ci i j : ℝ) / 100000000) = planCost (fun i j => (ci i j : ℝ)) (fun i j => (X i j : ℝ)) / 10000000000000000 := by
    unfold planCost
    simp only [sum_div]
    exact sum_congr rfl fun i _ => sum_congr rfl fun j _ => by ring
  rw [e, div_le_iff₀ (by norm_num)]
  refine key.trans (le_of_eq ?_)
  ring

theorem excess_aux {a : ι → ℝ} {b : κ → ℝ} {A : ι → ℤ} {B : κ → ℤ} {X : ι → κ → ℤ} (hA : ∀ i, (A i : ℝ) ≤ a i * 100000000) (hB : ∀ j, (B j : ℝ) ≤ b j * 100000000)
    (hN : ((∑ j, B j - ∑ i, A i : ℤ) : ℝ) ≤ N) (hcol : ∀ j, ∑ i, X i j ≤ B j) (i0 : ι) (hrow : ∀ i ≠ i0, ∑ j, X i j ≤ A i)
    (hrow0 : ∑ j, X i0 j ≤ A i0 + (∑ j, B j - ∑ i, A i)) :
    ∑ i, max (∑ j, (X i j : ℝ) - a i * 100000000) 0 + ∑ j, max (∑ i, (X i j : ℝ) - b j * 100000000) 0 ≤ N := by
  classical
  have z : ∑ j, max (∑ i, (X i j : ℝ) - b j * 100000000) 0 = 0 := by
    refine sum_eq_zero fun j _ => max_eq_right ?_
    have : ∑ i, (X i j : ℝ) ≤ B j := by exact_mod_cast hcol j
    linarith [hB j]
  have z' : ∑ i ∈ univ.erase i0, max (∑ j, (X i j : ℝ) - a i * 100000000) 0 = 0 := by
    refine sum_eq_zero fun i hi => max_eq_right ?_
    have : ∑ j, (X i j : ℝ) ≤ A i := by exact_mod_cast hrow i (ne_of_mem_erase hi)
    linarith [hA i]
  rw [z, add_zero, ← add_sum_erase univ _ (mem_univ i0), z', add_zero]
  have h1 : ∑ j, (X i0 j : ℝ) ≤ A i0 + ((∑ j, B j - ∑ i, A i : ℤ) : ℝ) := by exact_mod_cast hrow0
  exact max_le (by linarith [hA i0]) (Nat.cast_nonneg N)

theorem Rounded.excess (h : Rounded a b c A B ci X C N) :
    ∑ i, max (∑ j, (X i j : ℝ) - a i * 100000000) 0 + ∑ j, max (∑ i, (X i j : ℝ) - b j * 100000000) 0 ≤ N := by
  have d1 : ((∑ j, B j - ∑ i, A i : ℤ) : ℝ) ≤ N := by
    have := h.sumA.2; have := h.swap.sumA.1
    rw [Int.cast_sub]; linarith
  have d2 : ((∑ i, A i - ∑ j, B j : ℤ) : ℝ) ≤ N := by
    have := h.sumA.1; have := h.swap.sumA.2
    rw [Int.cast_sub]; linarith
  rcases h.out.margins with ⟨h1, h2, i0, -, h3, h4⟩ | ⟨h1, h2, i0, -, h3, h4⟩
  · have := excess_aux (X := fun j i => X i j) (fun j => (h.B_floor j).1) (fun i => (h.A_floor i).1) d2 h2 i0 h3 h4
    rw [add_comm]
    exact this
  · exact excess_aux (fun j => (h.A_floor j).1) (fun i => (h.B_floor i).1) d1 h2 i0 h3 h4

/-- Some plan costs at most a little more than the value found. -/
theorem Rounded.lower [Nonempty ι] [Nonempty κ] (h : Rounded a b c A B ci X C N) :
    ∃ g, IsPlan a b g ∧ planCost c g ≤ ∑ i, ∑ j, (X i j : ℝ) / 100000000 * ((ci i j : ℝ) / 100000000) + (1 + C * (2 * N)) / 100000000 := by
  have hT : (0 : ℝ) ≤ 100000000 := by norm_num
  obtain ⟨q, hq, hcost⟩ := fit (fun i => a i * 100000000) (fun j => b j * 100000000) (fun i => mul_nonneg (h.a_nonneg i) hT) (fun j => mul_nonneg (h.b_nonneg j) hT)
    (by rw [← sum_mul, ← sum_mul, h.sa, h.sb]) (fun i j => (X i j : ℝ)) h.X_nonneg c C h.c_le
  have hN0 : (0 : ℝ) ≤ N := Nat.cast_nonneg N
  have hex := h.excess
  have hsum : ∑ i, a i * 100000000 = 100000000 := by rw [← sum_mul, h.sa, one_mul]
  rw [hsum] at hcost
  have h4 := h.sumX
  have h5 := mul_le_mul_of_nonneg_left (by linarith : 100000000 - ∑ i, ∑ j, (X i j : ℝ) + ∑ i, max (∑ j, (X i j : ℝ) - a i * 100000000) 0 +
    ∑ j, max (∑ i, (X i j : ℝ) - b j * 100000000) 0 ≤ 2 * N) h.C_nonneg
  have h6 : planCost c q ≤ planCost c (fun i j => (X i j : ℝ)) + C * (2 * N) := hcost.trans (by linarith)
  -- the costs are rounded down
  have h7 : 100000000 * planCost c (fun i j => (X i j : ℝ)) ≤ planCost (fun i j => (ci i j : ℝ)) (fun i j => (X i j : ℝ)) + ∑ i, ∑ j, (X i j : ℝ) := by
    rw [← planCost_smul']
    unfold planCost
    rw [← sum_add_distrib]
    refine sum_le_sum fun i _ => ?_
    rw [← sum_add_distrib]
    refine sum_le_sum fun j _ => ?_
    have := mul_le_mul_of_nonneg_left (h.c_floor i j).2 (h.X_nonneg i j)
    linarith
  have h8 : ∑ i, ∑ j, (X i j : ℝ) ≤ 100000000 := by
    have s1 := h.sumA.1
    have s2 := h.swap.sumA.1
    rcases h.out.margins with ⟨_, h2, -⟩ | ⟨_, h2, -⟩
    · have : ∑ i, ∑ j, X i j ≤ ∑ i, A i := sum_le_sum fun i _ => h2 i
      have : ((∑ i, ∑ j, X i j : ℤ) : ℝ) ≤ ((∑ i, A i : ℤ) : ℝ) := by exact_mod_cast this
      push_cast at this s1
      linarith
    · have : ∑ i, ∑ j, X i j ≤ ∑ j, B j := by rw [sum_comm]; exact sum_le_sum fun i _ => h2 i
      have : ((∑ i, ∑ j, X i j : ℤ) : ℝ) ≤ ((∑ j, B j : ℤ) : ℝ) := by exact_mod_cast this
      push_cast at this s2
      linarith
  refine ⟨fun i j => 1 / 100000000 * q i j, ⟨fun i j => mul_nonneg (by norm_num) (hq.nonneg i j), fun i => ?_, fun j => ?_⟩, ?_⟩
  · rw [← mul_sum, hq.rows]; ring
  · rw [← mul_sum, hq.cols]; ring
  · have e : ∑ i, ∑ j, (X i j : ℝ) / 100000000 * ((ci i j : ℝ) / 100000000) = planCost (fun i j => (ci i j : ℝ)) (fun i j => (X i j : ℝ)) / 10000000000000000 := by
      unfold planCost
      simp only [sum_div]
      exact sum_congr rfl fun i _ => sum_congr rfl fun j _ => by ring
    rw [planCost_smul, e]
    linarith

end

/-- `network_simplex` for weights and costs given as functions. -/
theorem networkSimplex_fin {s t : List ℝ} {costs : List (List ℝ)} {m n : ℕ} {a : Fin m → ℝ} {b : Fin n → ℝ} {c : Fin m → Fin n → ℝ} (hm : s.length = m)
    (hn : t.length = n) (hs : s ≠ []) (ht : t ≠ []) (hs1 : ∀ x ∈ s, 1 / 100000000 ≤ x) (ht1 : ∀ x ∈ t, 1 / 100000000 ≤ x) (hss : s.sum ≤ 1) (hts : t.sum ≤ 1)
    (hcl : costs.length = m) (hrl : ∀ r ∈ costs, r.length = n) (ha : ∀ i : Fin m, s.getD i 0 = a i) (hb : ∀ i : Fin n, t.getD i 0 = b i)
    (hce : ∀ (i : Fin m) (j : Fin n), (costs.getD i []).getD j 0 = c i j) (hc : ∀ i j, 0 ≤ c i j) :
    ∃ (X : Fin m → Fin n → ℤ) (fuel0 : ℕ), NetOut (fun i => ⌊a i * 100000000⌋) (fun j => ⌊b j * 100000000⌋) (fun i j => ⌊c i j * 100000000⌋) X ∧
      MaxFlow (fun i => ⌊a i * 100000000⌋) (fun j => ⌊b j * 100000000⌋) (fun i => (balance (s.map fpInt) (t.map fpInt)).1.getD i 0)
        (fun j => (balance (s.map fpInt) (t.map fpInt)).2.getD j 0) X ∧
      ∀ fuel ≥ fuel0, networkSimplex s t costs fuel = .ok (∑ i, ∑ j, (X i j : ℝ) / 100000000 * ((⌊c i j * 100000000⌋ : ℝ) / 100000000),
        List.ofFn fun i => List.ofFn fun j => (X i j : ℝ) / 100000000) := by
  subst hm hn
  obtain ⟨X, fuel0, h1, h3, h2⟩ := networkSimplex_out hs ht hs1 ht1 hss hts hcl hrl hce hc
  have e1 : wInt s = fun i => ⌊a i * 100000000⌋ := by
    funext i; rw [← ha i, List.getD_eq_getElem _ _ i.2]; rfl
  have e2 : wInt t = fun i => ⌊b i * 100000000⌋ := by
    funext i; rw [← hb i, List.getD_eq_getElem _ _ i.2]; rfl
  rw [e1, e2] at h1 h3
  exact ⟨X, fuel0, h1, h3, h2⟩

theorem simplexInt_mono {s t costs caps r : List ℤ} {f f' : ℕ} (hf : f ≤ f') (h : simplexInt s t costs caps f = .ok r) : simplexInt s t costs caps f' = .ok r := by
  unfold simplexInt at h ⊢
  split_ifs at h ⊢
  simp only [bind, Except.bind] at h ⊢
  cases hp : pivotLoop (mkNet (balance s t).1 (balance s t).2 costs caps) f 0 (initState (balance s t).1 (balance s t).2 costs caps) with
  | error e => rw [hp] at h; cases h
  | ok st => rw [hp] at h; rw [pivotLoop_mono _ _ _ _ _ hf hp]; exact h

theorem networkSimplex_mono {s t : List ℝ} {costs : List (List ℝ)} {r : ℝ × List (List ℝ)} {f f' : ℕ} (hf : f ≤ f') (h : networkSimplex s t costs f = .ok r) :
    networkSimplex s t costs f' = .ok r := by
  unfold networkSimplex at h ⊢
  simp only [bind, Except.bind] at h ⊢
  cases hp : simplexInt (s.map fpInt) (t.map fpInt) (costs.flatten.map fpInt) (s.flatMap fun a => t.map fun b => fpInt (min a b)) f with
  | error e => rw [hp] at h; cases h
  | ok st => rw [hp] at h; rw [simplexInt_mono hf hp]; exact h

section
variable {k : ℕ} {p q : List (PRow ℝ)} {δ : List ℝ → List ℝ → ℝ}

theorem sum_weights (p : List (PRow ℝ)) : (p.map fun r => r.weight).sum = ∑ i : Fin p.length, p[i].weight := by
  rw [← List.sum_ofFn]
  congr 1
  apply List.ext_getElem
  · simp
  · intro i h1 h2; simp

/-- The weights of a PDD as integers. -/
noncomputable def intWeights (p : List (PRow ℝ)) : List ℤ := (p.map fun r => r.weight).map fpInt

/-- What `EMD` computes. -/
theorem emd_out (hp : WeightedRows k p) (hq : WeightedRows k q) (hδ : ∀ r s, r.length = k → s.length = k → 0 ≤ δ r s) :
    ∃ (X : Fin p.length → Fin q.length → ℤ) (fuel0 : ℕ),
      NetOut (fun i => ⌊p[i].weight * 100000000⌋) (fun j => ⌊q[j].weight * 100000000⌋) (fun i j => ⌊δ p[i].dists q[j].dists * 100000000⌋) X ∧
      MaxFlow (fun i : Fin p.length => ⌊p[i].weight * 100000000⌋) (fun j : Fin q.length => ⌊q[j].weight * 100000000⌋)
        (fun i => (balance (intWeights p) (intWeights q)).1.getD i 0) (fun j => (balance (intWeights p) (intWeights q)).2.getD j 0) X ∧
      (∀ fuel ≥ fuel0, ∃ r, emd δ p q fuel = .ok r) ∧
      ∀ fuel r, emd δ p q fuel = .ok r → r = (∑ i, ∑ j, (X i j : ℝ) / 100000000 * ((⌊δ p[i].dists q[j].dists * 100000000⌋ : ℝ) / 100000000),
        List.ofFn fun i => List.ofFn fun j => (X i j : ℝ) / 100000000) := by
  have hw : (p.any fun r => q.any fun r' => r.dists.length != r'.dists.length) = false := by
    simp only [List.any_eq_false]
    intro r hr
    simp only [List.any_eq_true, bne_iff_ne, ne_eq, not_exists, not_and, not_not]
    intro r' hr'
    rw [hp.width r hr, hq.width r' hr']
  have hemd : ∀ fuel, emd δ p q fuel = networkSimplex (p.map fun r => r.weight) (q.map fun r => r.weight) (p.map fun r => q.map fun r' => δ r.dists r'.dists) fuel := by
    intro fuel; unfold emd; rw [hw]; simp
  obtain ⟨X, fuel0, h1, hm, h2⟩ := networkSimplex_fin (s := p.map fun r => r.weight) (t := q.map fun r => r.weight) (costs := p.map fun r => q.map fun r' => δ r.dists r'.dists)
    (m := p.length) (n := q.length) (a := fun i => p[i].weight) (b := fun j => q[j].weight) (c := fun i j => δ p[i].dists q[j].dists) (by simp) (by simp)
    (by simpa using hp.nonempty) (by simpa using hq.nonempty)
    (by intro x hx; obtain ⟨r, hr, rfl⟩ := List.mem_map.1 hx; exact hp.weights r hr)
    (by intro x hx; obtain ⟨r, hr, rfl⟩ := List.mem_map.1 hx; exact hq.weights r hr) hp.total.le hq.total.le (by simp)
    (by intro x hx; obtain ⟨r, hr, rfl⟩ := List.mem_map.1 hx; simp)
    (by intro i; rw [List.getD_eq_getElem _ _ (by simp)]; simp) (by intro i; rw [List.getD_eq_getElem _ _ (by simp)]; simp)
    (by intro i j; rw [List.getD_eq_getElem _ [] (by simp), List.getElem_map, List.getD_eq_getElem _ _ (by simp)]; simp)
    (by intro i j; exact hδ _ _ (hp.width _ (List.getElem_mem _)) (hq.width _ (List.getElem_mem _)))
  refine ⟨X, fuel0, h1, hm, fun fuel hf => ⟨_, (hemd fuel).trans (h2 fuel hf)⟩, ?_⟩
  intro fuel r hr
  rw [hemd] at hr
  have h3 := networkSimplex_mono (le_max_left fuel fuel0) hr
  rw [h2 _ (le_max_right _ _)] at h3
  exact (Except.ok.inj h3).symm

theorem emd_rounded (hp : WeightedRows k p) (hq : WeightedRows k q) (hδ : ∀ r s, r.length = k → s.length = k → 0 ≤ δ r s) {C : ℝ}
    (hC : ∀ r ∈ p, ∀ s ∈ q, δ r.dists s.dists ≤ C) {X : Fin p.length → Fin q.length → ℤ}
    (hX : NetOut (fun i => ⌊p[i].weight * 100000000⌋) (fun j => ⌊q[j].weight * 100000000⌋) (fun i j => ⌊δ p[i].dists q[j].dists * 100000000⌋) X) :
    Rounded (fun i : Fin p.length => p[i].weight) (fun j : Fin q.length => q[j].weight) (fun i j => δ p[i].dists q[j].dists)
      (fun i => ⌊p[i].weight * 100000000⌋) (fun j => ⌊q[j].weight * 100000000⌋) (fun i j => ⌊δ p[i].dists q[j].dists * 100000000⌋) X C (max p.length q.length) := by
  have hfl : ∀ x : ℝ, ((⌊x⌋ : ℤ) : ℝ) ≤ x ∧ x ≤ (⌊x⌋ : ℤ) + 1 := fun x => ⟨Int.floor_le x, (Int.lt_floor_add_one x).le⟩
  refine ⟨hX, by rw [← sum_weights, hp.total], by rw [← sum_weights, hq.total], fun i => hfl _, fun j => hfl _, fun i j => hfl _, fun i => ?_, fun j => ?_, fun i j => ?_,
    by simp, by simp⟩
  · exact le_trans (by norm_num) (hp.weights _ (List.getElem_mem _))
  · exact le_trans (by norm_num) (hq.weights _ (List.getElem_mem _))
  · exact ⟨hδ _ _ (hp.width _ (List.getElem_mem _)) (hq.width _ (List.getElem_mem _)), hC _ (List.getElem_mem _) _ (List.getElem_mem _)⟩

theorem WeightedRows.nonneg (hp : WeightedRows k p) (i : Fin p.length) : 0 ≤ p[i].weight := le_trans (by norm_num) (hp.weights _ (List.getElem_mem _))

theorem WeightedRows.sum_eq (hp : WeightedRows k p) : ∑ i : Fin p.length, p[i].weight = 1 := by rw [← sum_weights, hp.total]

theorem WeightedRows.len (hp : WeightedRows k p) (i : Fin p.length) : p[i].dists.length = k := hp.width _ (List.getElem_mem _)

theorem WeightedRows.inh (hp : WeightedRows k p) : Nonempty (Fin p.length) := ⟨⟨0, List.length_pos_iff.2 hp.nonempty⟩⟩

end

end Amd
