import Verif.Model.Constructors
import Verif.Props.Neighbours
import Verif.Proof.PointRows
import Verif.Props.Utils

/-!
# Cubic and hexagonal lattices, random sets: C78, C79

The lattices are described by their points and by the distances of their nearest neighbours, which are known from geometry.
-/

namespace Amd

variable {D : ℕ}

/-! ### Rows of which the first distances are known -/

/-- If `c` indices have the value `a` and all others at least `b`, with `a ≤ b`, the row starts with `c` times `a` and continues with values of at least `b`. -/
theorem IsKNearest.shell {ι κ : Type*} [Fintype κ] {δ : ι → ℝ} {row : List ℝ} (h : IsKNearest δ row) {g : κ → ι} (hg : Function.Injective g) {a b : ℝ}
    (ha : ∀ t, δ (g t) = a) (hb : ∀ j, j ∉ Set.range g → b ≤ δ j) (hab : a < b) {j : ℕ} (hj : j < row.length) :
    (j < Fintype.card κ → row[j] = a) ∧ (Fintype.card κ ≤ j → b ≤ row[j]) := by
  classical
  obtain ⟨idx, hnd, rfl, hs, hout⟩ := h
  have hlow : ∀ x, a ≤ δ x := by
    intro x
    by_cases hx : x ∈ Set.range g
    · obtain ⟨t, rfl⟩ := hx
      exact (ha t).ge
    · exact hab.le.trans (hb x hx)
  have hj' : j < idx.length := by simpa using hj
  have hmono : ∀ i i' (hi : i < idx.length) (hi' : i' < idx.length), i ≤ i' → δ idx[i] ≤ δ idx[i'] := by
    intro i i' hi hi' hle
    rcases Nat.lt_or_eq_of_le hle with hlt | rfl
    · have := List.pairwise_iff_getElem.1 hs i i' (by simpa using hi) (by simpa using hi') hlt
      simpa using this
    · exact le_rfl
  simp only [List.getElem_map]
  constructor
  · intro hc
    by_contra hne
    have hgt : a < δ idx[j] := lt_of_le_of_ne (hlow _) (Ne.symm hne)
    -- all of the c indices are listed, before j
    have hall : ∀ t, ∃ i : Fin j, idx[i.1]'(i.2.trans hj') = g t := by
      intro t
      have hmem : g t ∈ idx := by
        by_contra hno
        have := hout _ hno (δ idx[j]) (List.mem_map.2 ⟨_, List.getElem_mem _, rfl⟩)
        rw [ha] at this
        linarith
      obtain ⟨i, hi, e⟩ := List.getElem_of_mem hmem
      refine ⟨⟨i, ?_⟩, e⟩
      by_contra hge
      have := hmono j i hj' hi (by omega)
      rw [e, ha] at this
      linarith
    choose f hf using hall
    have hinj : Function.Injective f := by
      intro t t' e
      apply hg
      rw [← hf t, ← hf t', e]
    have := Fintype.card_le_of_injective f hinj
    rw [Fintype.card_fin] at this
    omega
  · intro hc
    by_contra hlt
    have hlt := not_le.1 hlt
    have hall : ∀ i : Fin (j + 1), ∃ t, g t = idx[i.1]'(by omega) := by
      intro i
      by_contra hno
      have h1 := hb (idx[i.1]'(by omega)) (fun ⟨t, e⟩ => hno ⟨t, e⟩)
      have h2 := hmono i.1 j (by omega) hj' (by omega)
      linarith
    choose f hf using hall
    have hinj : Function.Injective f := by
      intro i i' e
      have : idx[i.1]'(by omega) = idx[i'.1]'(by omega) := by rw [← hf i, ← hf i', e]
      exact Fin.ext ((List.Nodup.getElem_inj_iff hnd).1 this)
    have := Fintype.card_le_of_injective f hinj
    rw [Fintype.card_fin] at this
    omega

/-! ### Lattices: sets with a single motif point, at the origin -/

/-- The lattice with the given basis. -/
def latticePoints (cell : Fin D → Pt D ℝ) : Set (Pt D ℝ) := {x | ∃ n : Fin D → ℤ, x = fun j => ∑ i, (n i : ℝ) * cell i j}

theorem fin_origin (i : Fin ([0] : List (Pt D ℝ)).length) : i = ⟨0, by simp⟩ := Fin.ext (Nat.lt_one_iff.1 i.2)

theorem periodicPoints_lattice (cell : Fin D → Pt D ℝ) : periodicPoints [0] cell = latticePoints cell := by
  ext x
  constructor
  · rintro ⟨⟨i, n⟩, rfl⟩
    refine ⟨n, ?_⟩
    rw [fin_origin i]
    funext j
    simp [sitePos]
  · rintro ⟨n, rfl⟩
    refine ⟨(⟨0, by simp⟩, n), ?_⟩
    funext j
    simp [sitePos]

theorem lattice_injective {cell : Fin D → Pt D ℝ} (hns : NonSingular cell) : Function.Injective (sitePos [0] cell) := by
  rintro ⟨i, n⟩ ⟨i', n'⟩ e
  rw [fin_origin i, fin_origin i'] at e ⊢
  refine Prod.ext rfl ?_
  have e' : ∑ c, ((n c : ℝ) - n' c) • cell c = 0 := by
    funext j
    have := congrFun e j
    simp only [sitePos, add_right_inj] at this
    simp only [Finset.sum_apply, Pi.smul_apply, smul_eq_mul, sub_mul, Finset.sum_sub_distrib, Pi.zero_apply]
    linarith
  funext c
  have := Fintype.linearIndependent_iff.1 hns _ e' c
  have : (n c : ℝ) = n' c := by linarith
  exact_mod_cast this

theorem average_one {k : ℕ} {r : List ℝ} (h : r.length = k + 1) : averageColumnsExceptFirst (k + 1) [r] [1] = .ok (r.drop 1) := by
  rcases r with _ | ⟨a, r⟩
  · simp at h
  · have h : r.length = k := by simpa using h
    subst h
    have : List.zipWith (fun r d : ℝ => r + d * 1) (List.replicate r.length 0) r = r := by
      apply List.ext_getElem
      · simp
      · intro i h1 h2
        simp
    simp [averageColumnsExceptFirst, addRows, bind, Except.bind] 
    simpa using this

theorem collapse_one {k : ℕ} {r : List ℝ} (lexsort collapse : Bool) (tol : ℝ) :
    lexsortRows lexsort (collapseRows k collapse tol [r] [1]) = [⟨1, r, [0]⟩] := by
  have : collapseRows k collapse tol [r] [1] = [⟨1, r, [0]⟩] := by
    simp [collapseRows, overlapAt]
  rw [this]
  cases lexsort <;> simp [lexsortRows]

/-- What the invariants of a lattice are: `AMD` is the row of distances from the origin to its nearest points, and `PDD` is this row with weight 1. -/
theorem lattice_invariants {cell : Fin D → Pt D ℝ} (hD : 0 < D) (hns : NonSingular cell)
    (hdes : Descends cell (fun f => f = 0) 2) (k : ℕ) (lexsort collapse : Bool) (tol : ℝ) :
    ∃ row F, IsNeighbourRow [0] cell ⟨0, by simp⟩ k row ∧ ∀ fuel, F ≤ fuel →
      AMD ({ motif := [0], cell := cell } : PeriodicSet D) k fuel = .ok row ∧
      PDD ({ motif := [0], cell := cell } : PeriodicSet D) k lexsort collapse tol fuel = .ok [⟨1, row, [0]⟩] := by
  have hu : ({ motif := [0], cell := cell } : PeriodicSet D).Units [⟨0, by simp⟩] [1] := Or.inr ⟨Or.inl rfl, by simp [List.finRange_succ], by simp⟩
  have hse : Searchable [0] cell (k + 1) := by
    refine ⟨fun f => f = 0, 2, hdes, ?_, Or.inl le_rfl⟩
    intro p hp q hq
    rw [List.mem_singleton] at hp hq
    subst hp hq
    exact ⟨0, rfl, fun j => by simp⟩
  obtain ⟨a, pdd, F, hF⟩ := C10_terminates hD hu (by simp) hns k lexsort collapse tol
  have hr : ∃ rows, nearestNeighbors ({ motif := [0], cell := cell } : PeriodicSet D).motif cell
      ([(⟨0, by simp⟩ : Fin ({ motif := [0], cell := cell } : PeriodicSet D).motif.length)].map fun i => ({ motif := [0], cell := cell } : PeriodicSet D).motif[i]) (k + 1) F = .ok rows := by
    have := (hF F le_rfl).1
    rw [AMD_eq hu] at this
    revert this
    cases nearestNeighbors _ _ _ _ _ with
    | error e => intro h; cases h
    | ok rows => intro _; exact ⟨rows, rfl⟩
  obtain ⟨rows, hr⟩ := hr
  have hf := nearestNeighbors_neighbourRow hD (by simp) hse hr
  rcases hf with _ | ⟨⟨h1, h2, h3⟩, hnil⟩
  cases hnil
  rename_i r
  refine ⟨r.drop 1, F, h3, fun fuel hle => ?_⟩
  have hr' := nearestNeighbors_fuel hle hr
  rw [AMD_eq hu, PDD_eq hu, hr']
  constructor
  · simpa [bind, Except.bind] using average_one h1
  · simpa [bind, Except.bind] using collapse_one (k := k) (r := r.drop 1) lexsort collapse tol

/-- The first distances in the invariants of a lattice: `c` points at distance `a` from the origin and all others at distance `b` or more. -/
theorem lattice_shell {cell : Fin D → Pt D ℝ} {κ : Type} [Fintype κ] {g : κ → Fin D → ℤ} (hg : Function.Injective g) (h0 : ∀ t, g t ≠ 0) {a b : ℝ}
    (ha : ∀ t, ∑ j, (∑ i, (g t i : ℝ) * cell i j) ^ 2 = a ^ 2) (hb : ∀ n, n ≠ 0 → n ∉ Set.range g → b ^ 2 ≤ ∑ j, (∑ i, (n i : ℝ) * cell i j) ^ 2)
    (h0a : 0 ≤ a) (hab : a < b) {k : ℕ} {row : List ℝ} (h : IsNeighbourRow [0] cell ⟨0, by simp⟩ k row) (j : ℕ) (hj : j < row.length) :
    (j < Fintype.card κ → row[j] = a) ∧ (Fintype.card κ ≤ j → b ≤ row[j]) := by
  have hd : ∀ n : Fin D → ℤ, eucl ([0] : List (Pt D ℝ))[0] (sitePos [0] cell (⟨0, by simp⟩, n)) = √(∑ j, (∑ i, (n i : ℝ) * cell i j) ^ 2) := by
    intro n
    simp [eucl, sqDist, sitePos]
  refine h.2.shell (g := fun t => ⟨(⟨0, by simp⟩, g t), fun e => h0 t (Prod.ext_iff.1 e).2⟩) ?_ ?_ ?_ hab hj
  · intro t t' e
    exact hg (Prod.ext_iff.1 (Subtype.ext_iff.1 e)).2
  · intro t
    refine (hd _).trans ?_
    rw [ha, Real.sqrt_sq h0a]
  · rintro ⟨⟨i, n⟩, hs⟩ hx
    have hi := fin_origin i
    subst hi
    refine le_of_le_of_eq ?_ (hd n).symm
    refine Real.le_sqrt_of_sq_le (hb n (fun e => hs (by rw [e])) ?_)
    rintro ⟨t, rfl⟩
    exact hx ⟨t, rfl⟩

/-! ### C78: cubic lattices -/

theorem cubic_row (s : ℝ) (n : Fin D → ℝ) (j : Fin D) : ∑ i, n i * (cubic s D).cell i j = n j * s := by
  simp [cubic]

theorem cubic_nonSingular {s : ℝ} (hs : s ≠ 0) : NonSingular (cubic s D).cell := by
  refine Fintype.linearIndependent_iff.2 fun n h i => ?_
  have := congrFun h i
  simp only [Finset.sum_apply, Pi.smul_apply, smul_eq_mul, cubic_row, Pi.zero_apply] at this
  exact (mul_eq_zero.1 this).resolve_right hs

theorem exists_ne_of_normSq {n : Fin D → ℤ} {r : ℤ} (hr : 0 ≤ r) (h : r < normSq n) : ∃ i, n i ≠ 0 := by
  by_contra hc
  push Not at hc
  have : normSq n = 0 := by simp [normSq, hc]
  omega

theorem cubic_descends (s : ℝ) : Descends (cubic s D).cell (fun f => f = 0) 2 := by
  refine StepsDown.descends fun n f hn hf => ?_
  subst hf
  obtain ⟨i, hi⟩ := exists_ne_of_normSq (by norm_num) hn
  have hg : ∀ i j : Fin D, gram (cubic s D).cell i j = if i = j then s ^ 2 else 0 := by
    intro i j
    simp [gram, cubic, pow_two]
  refine ⟨i, ?_⟩
  simp only [hg, Pi.zero_apply, sub_zero, ite_mul, zero_mul, Finset.sum_ite_eq, Finset.mem_univ, if_true]
  have h2 : 0 ≤ s ^ 2 := sq_nonneg s
  rcases lt_or_gt_of_ne hi with h | h
  · right
    refine ⟨h, ?_⟩
    have : (n i : ℝ) ≤ -1 := by exact_mod_cast Int.le_sub_one_of_lt h
    nlinarith
  · left
    refine ⟨h, ?_⟩
    have : (1 : ℝ) ≤ n i := by exact_mod_cast h
    nlinarith

/-- The `2 D` integer vectors of length one. -/
def unitVector (t : Fin D × Bool) : Fin D → ℤ := Pi.single t.1 (if t.2 then 1 else -1)

theorem unitVector_injective : Function.Injective (unitVector (D := D)) := by
  rintro ⟨i, b⟩ ⟨i', b'⟩ e
  have h1 := congrFun e i
  simp only [unitVector, Pi.single_eq_same] at h1
  have hi : i = i' := by
    by_contra hne
    rw [Pi.single_eq_of_ne hne] at h1
    cases b <;> simp at h1
  subst hi
  rw [Pi.single_eq_same] at h1
  cases b <;> cases b' <;> simp at h1 ⊢

theorem normSq_unitVector (t : Fin D × Bool) : normSq (unitVector t) = 1 := by
  rw [normSq, Finset.sum_eq_single t.1]
  · simp only [unitVector, Pi.single_eq_same]
    split <;> norm_num
  · intro j _ hj
    simp [unitVector, Pi.single_eq_of_ne hj]
  · simp

theorem two_le_normSq {n : Fin D → ℤ} (h0 : n ≠ 0) (h : n ∉ Set.range unitVector) : 2 ≤ normSq n := by
  by_contra hlt
  obtain ⟨i, hi⟩ := Function.ne_iff.1 h0
  have hi : n i ≠ 0 := hi
  have hs : normSq n = n i ^ 2 + ∑ j ∈ Finset.univ.erase i, n j ^ 2 := (Finset.add_sum_erase _ _ (Finset.mem_univ i)).symm
  have h1 : 1 ≤ n i ^ 2 := by
    have : 0 < n i ^ 2 := by positivity
    omega
  have h2 : 0 ≤ ∑ j ∈ Finset.univ.erase i, n j ^ 2 := Finset.sum_nonneg fun j _ => sq_nonneg _
  have h3 : ∑ j ∈ Finset.univ.erase i, n j ^ 2 = 0 := by omega
  have h4 : n i ^ 2 = 1 := by omega
  have h5 : ∀ j, j ≠ i → n j = 0 := by
    intro j hj
    have := (Finset.sum_eq_zero_iff_of_nonneg fun j _ => sq_nonneg (n j)).1 h3 j (Finset.mem_erase.2 ⟨hj, Finset.mem_univ _⟩)
    exact pow_eq_zero_iff (by norm_num) |>.1 this
  apply h
  rcases (sq_eq_sq_iff_eq_or_eq_neg.1 (h4.trans (one_pow 2).symm)) with e | e
  · refine ⟨(i, true), funext fun j => ?_⟩
    by_cases hj : j = i
    · subst hj; simp [unitVector, e]
    · simp [unitVector, Pi.single_eq_of_ne hj, h5 j hj]
  · refine ⟨(i, false), funext fun j => ?_⟩
    by_cases hj : j = i
    · subst hj; simp [unitVector, e]
    · simp [unitVector, Pi.single_eq_of_ne hj, h5 j hj]

theorem cubic_sq (s : ℝ) (n : Fin D → ℤ) : ∑ j, (∑ i, (n i : ℝ) * (cubic s D).cell i j) ^ 2 = (normSq n : ℝ) * s ^ 2 := by
  simp only [cubic_row, normSq, mul_pow]
  push_cast
  rw [Finset.sum_mul]

/-- **C78** The points of `PeriodicSet.cubic(s, D)` are the vectors whose coordinates are integer multiples of `s`. -/
theorem C78_cubic_points (s : ℝ) (D : ℕ) : periodicPoints (cubic s D).motif (cubic s D).cell = {x | ∀ j, ∃ n : ℤ, x j = n * s} := by
  change periodicPoints [0] _ = _
  rw [periodicPoints_lattice]
  ext x
  constructor
  · rintro ⟨n, rfl⟩ j
    exact ⟨n j, cubic_row s _ j⟩
  · intro h
    choose n hn using h
    exact ⟨n, funext fun j => by rw [hn j, cubic_row s (fun i => (n i : ℝ)) j]⟩

/-- **C78** The invariants of `PeriodicSet.cubic(s, D)`: `AMD` returns the distances from the origin to its nearest points; there are `2 D` points at
distance `s` and all others are at least `√2 s` away. `PDD` returns the same distances with weight 1, whatever the options. -/
theorem C78_cubic (hD : 0 < D) {s : ℝ} (hs : 0 < s) (k : ℕ) (lexsort collapse : Bool) (tol : ℝ) :
    ∃ row F, row.length = k ∧ IsPointRow {x : Pt D ℝ | ∀ j, ∃ n : ℤ, x j = n * s} 0 k row ∧
      (∀ j (hj : j < row.length), (j < 2 * D → row[j] = s) ∧ (2 * D ≤ j → √2 * s ≤ row[j])) ∧
      ∀ fuel, F ≤ fuel → AMD (cubic s D) k fuel = .ok row ∧ PDD (cubic s D) k lexsort collapse tol fuel = .ok [⟨1, row, [0]⟩] := by
  obtain ⟨row, F, hrow, hF⟩ := lattice_invariants hD (cubic_nonSingular hs.ne') (cubic_descends s) k lexsort collapse tol
  refine ⟨row, F, hrow.1, ?_, fun j hj => ?_, hF⟩
  · rw [← C78_cubic_points]
    exact isPointRow_of_neighbourRow (lattice_injective (cubic_nonSingular hs.ne')) hrow
  · have h2 : (√2 : ℝ) ^ 2 = 2 := Real.sq_sqrt (by norm_num)
    have := lattice_shell (a := s) (b := √2 * s) unitVector_injective ?_ ?_ ?_ hs.le ?_ hrow j hj
    · simpa [Fintype.card_prod, mul_comm] using this
    · intro t e
      have := normSq_unitVector t
      rw [e] at this
      simp [normSq] at this
    · intro t
      rw [cubic_sq, normSq_unitVector]
      simp
    · intro n h0 hn
      rw [cubic_sq, mul_pow, h2]
      exact mul_le_mul_of_nonneg_right (by exact_mod_cast two_le_normSq h0 hn) (sq_nonneg s)
    · have : (1 : ℝ) < √2 := by rw [Real.lt_sqrt] <;> norm_num
      nlinarith

/-- The first seven entries of the AMD of the cubic lattice in space. -/
example : ∃ row F, row.length = 7 ∧ row.take 6 = [2, 2, 2, 2, 2, 2] ∧ ∀ fuel, F ≤ fuel → AMD (cubic 2 3) 7 fuel = .ok row := by
  obtain ⟨row, F, hl, -, hs, hF⟩ := C78_cubic (D := 3) (s := 2) (by decide) (by norm_num) 7 true true 0
  refine ⟨row, F, hl, ?_, fun fuel hf => (hF fuel hf).1⟩
  apply List.ext_getElem
  · simp [hl]
  · intro i h1 h2
    have h3 : i < 6 := by simpa using h2
    rw [List.getElem_take, (hs i (by omega)).1 (by omega)]
    interval_cases i <;> rfl

/-! ### C78: hexagonal lattices -/

theorem hexagonal_two (s : ℝ) : hexagonal s 2 = .ok { motif := [0], cell := ![![s, 0], ![s / 2, √3 / 2 * s]] } := by
  simp only [hexagonal, cellparToCell2D, cos_deg60, sin_deg60]
  congr 3
  ring_nf

theorem sin_deg120 : Real.sin (deg2rad 120) = √3 / 2 := by
  rw [← sin_deg60]
  unfold deg2rad
  rw [← Real.sin_pi_sub]
  congr 1
  ring

theorem hexagonal_three (s : ℝ) : hexagonal s 3 = .ok { motif := [0], cell := ![![s, 0, 0], ![-(s / 2), √3 / 2 * s, 0], ![0, 0, s]] } := by
  have h90 : snapCos 90 = 0 := by simp [snapCos, angleEps]
  have h120 : snapCos 120 = -(1 / 2) := by
    rw [snapCos, if_neg, cos_deg120]
    norm_num [angleEps]
  have hs : snapSin 120 = √3 / 2 := by
    rw [snapSin, if_neg, if_neg, sin_deg120] <;> norm_num [angleEps]
  have h3 : (√3 / 2 : ℝ) ≠ 0 := by positivity
  simp only [hexagonal, cellparToCell, h90, h120, hs, if_neg h3]
  norm_num
  ring_nf
  exact ⟨trivial, trivial⟩

theorem hex2_sq (s : ℝ) (n : Fin 2 → ℤ) :
    ∑ j, (∑ i, (n i : ℝ) * (![![s, 0], ![s / 2, √3 / 2 * s]] : Fin 2 → Pt 2 ℝ) i j) ^ 2 = ((n 0 ^ 2 + n 0 * n 1 + n 1 ^ 2 : ℤ) : ℝ) * s ^ 2 := by
  have h3 : (√3 : ℝ) ^ 2 = 3 := Real.sq_sqrt (by norm_num)
  simp only [Fin.sum_univ_two, Matrix.cons_val_zero, Matrix.cons_val_one]
  push_cast
  linear_combination ((n 1 : ℝ) ^ 2 * s ^ 2 / 4) * h3

theorem hex3_sq (s : ℝ) (n : Fin 3 → ℤ) :
    ∑ j, (∑ i, (n i : ℝ) * (![![s, 0, 0], ![-(s / 2), √3 / 2 * s, 0], ![0, 0, s]] : Fin 3 → Pt 3 ℝ) i j) ^ 2 =
      ((n 0 ^ 2 - n 0 * n 1 + n 1 ^ 2 + n 2 ^ 2 : ℤ) : ℝ) * s ^ 2 := by
  have h3 : (√3 : ℝ) ^ 2 = 3 := Real.sq_sqrt (by norm_num)
  simp [Fin.sum_univ_three]
  linear_combination ((n 1 : ℝ) ^ 2 * s ^ 2 / 4) * h3

/-- A cell in which only the zero vector has length zero is not singular. -/
theorem nonSingular_of_triangular2 {a b c : ℝ} (ha : a ≠ 0) (hc : c ≠ 0) : NonSingular (![![a, 0], ![b, c]] : Fin 2 → Pt 2 ℝ) := by
  refine Fintype.linearIndependent_iff.2 fun n h => ?_
  have h0 := congrFun h 0
  have h1 := congrFun h 1
  simp [Fin.sum_univ_two, hc] at h0 h1
  simp [h1, ha] at h0
  intro i
  fin_cases i <;> simp [h0, h1]

theorem nonSingular_of_triangular3 {a b c d : ℝ} (ha : a ≠ 0) (hc : c ≠ 0) (hd : d ≠ 0) :
    NonSingular (![![a, 0, 0], ![b, c, 0], ![0, 0, d]] : Fin 3 → Pt 3 ℝ) := by
  refine Fintype.linearIndependent_iff.2 fun n h => ?_
  have h0 := congrFun h 0
  have h1 := congrFun h 1
  have h2 := congrFun h 2
  simp [Fin.sum_univ_three, hc, hd] at h0 h1 h2
  simp [h1, ha] at h0
  intro i
  fin_cases i <;> simp [h0, h1, h2]

/-- The six shortest vectors of the hexagonal plane lattice, in coordinates. -/
def hexVector2 : Fin 6 → Fin 2 → ℤ := ![![1, 0], ![-1, 0], ![0, 1], ![0, -1], ![1, -1], ![-1, 1]]

/-- The eight shortest vectors of the hexagonal lattice in space, in coordinates. -/
def hexVector3 : Fin 8 → Fin 3 → ℤ := ![![1, 0, 0], ![-1, 0, 0], ![0, 1, 0], ![0, -1, 0], ![1, 1, 0], ![-1, -1, 0], ![0, 0, 1], ![0, 0, -1]]

theorem hexVector2_cover {n : Fin 2 → ℤ} (h0 : n ≠ 0) (h : n ∉ Set.range hexVector2) : 3 ≤ n 0 ^ 2 + n 0 * n 1 + n 1 ^ 2 := by
  by_contra hlt
  have h1 : n 1 ^ 2 ≤ 2 := by nlinarith [sq_nonneg (2 * n 0 + n 1)]
  have h2 : n 0 ^ 2 ≤ 2 := by nlinarith [sq_nonneg (2 * n 1 + n 0)]
  have b1 : -1 ≤ n 1 ∧ n 1 ≤ 1 := ⟨by nlinarith, by nlinarith⟩
  have b2 : -1 ≤ n 0 ∧ n 0 ≤ 1 := ⟨by nlinarith, by nlinarith⟩
  have hn : n = ![n 0, n 1] := by funext i; fin_cases i <;> rfl
  generalize n 0 = x at *
  generalize n 1 = y at *
  subst hn
  obtain ⟨l1, u1⟩ := b1
  obtain ⟨l2, u2⟩ := b2
  interval_cases x <;> interval_cases y <;> first
    | exact h0 (by decide)
    | exact h (by decide)
    | exact hlt (by norm_num)

theorem hexVector3_cover {n : Fin 3 → ℤ} (h0 : n ≠ 0) (h : n ∉ Set.range hexVector3) : 2 ≤ n 0 ^ 2 - n 0 * n 1 + n 1 ^ 2 + n 2 ^ 2 := by
  by_contra hlt
  have h1 : n 1 ^ 2 ≤ 2 := by nlinarith [sq_nonneg (2 * n 0 - n 1), sq_nonneg (n 2)]
  have h2 : n 0 ^ 2 ≤ 2 := by nlinarith [sq_nonneg (2 * n 1 - n 0), sq_nonneg (n 2)]
  have h3 : n 2 ^ 2 ≤ 2 := by nlinarith [sq_nonneg (2 * n 1 - n 0), sq_nonneg (n 0)]
  have b1 : -1 ≤ n 1 ∧ n 1 ≤ 1 := ⟨by nlinarith, by nlinarith⟩
  have b2 : -1 ≤ n 0 ∧ n 0 ≤ 1 := ⟨by nlinarith, by nlinarith⟩
  have b3 : -1 ≤ n 2 ∧ n 2 ≤ 1 := ⟨by nlinarith, by nlinarith⟩
  have hn : n = ![n 0, n 1, n 2] := by funext i; fin_cases i <;> rfl
  generalize n 0 = x at *
  generalize n 1 = y at *
  generalize n 2 = z at *
  subst hn
  obtain ⟨l1, u1⟩ := b1
  obtain ⟨l2, u2⟩ := b2
  obtain ⟨l3, u3⟩ := b3
  interval_cases x <;> interval_cases y <;> interval_cases z <;> first
    | exact h0 (by decide)
    | exact h (by decide)
    | exact hlt (by norm_num)

theorem descends_mono {cell : Fin D → Pt D ℝ} {P Q : (Fin D → ℝ) → Prop} {r : ℕ} (h : Descends cell P r) (hQ : ∀ f, Q f → P f) : Descends cell Q r :=
  fun d n f hd hn hf => h d n f hd hn (hQ f hf)

theorem hex2_halfDominant (s : ℝ) : HalfDominant (![![s, 0], ![s / 2, √3 / 2 * s]] : Fin 2 → Pt 2 ℝ) := by
  have h3 : (√3 : ℝ) ^ 2 = 3 := Real.sq_sqrt (by norm_num)
  have h0 : (Finset.univ : Finset (Fin 2)).erase 0 = {1} := by decide
  have h1 : (Finset.univ : Finset (Fin 2)).erase 1 = {0} := by decide
  have ha : |s * (s / 2)| = s ^ 2 / 2 := by rw [abs_of_nonneg (by nlinarith [sq_nonneg s])]; ring
  intro i
  fin_cases i
  · simp only [Fin.zero_eta, h0, gram, Fin.sum_univ_two, Finset.sum_singleton, Matrix.cons_val_zero, Matrix.cons_val_one, zero_mul, mul_zero, add_zero, ha]
    linarith
  · simp only [Fin.mk_one, h1, gram, Fin.sum_univ_two, Finset.sum_singleton, Matrix.cons_val_zero, Matrix.cons_val_one, mul_zero, add_zero,
      mul_comm (s / 2) s, ha]
    nlinarith [sq_nonneg s]

theorem hex3_halfDominant (s : ℝ) : HalfDominant (![![s, 0, 0], ![-(s / 2), √3 / 2 * s, 0], ![0, 0, s]] : Fin 3 → Pt 3 ℝ) := by
  have h3 : (√3 : ℝ) ^ 2 = 3 := Real.sq_sqrt (by norm_num)
  have h0 : (Finset.univ : Finset (Fin 3)).erase 0 = {1, 2} := by decide
  have h1 : (Finset.univ : Finset (Fin 3)).erase 1 = {0, 2} := by decide
  have h2 : (Finset.univ : Finset (Fin 3)).erase 2 = {0, 1} := by decide
  have ha : |s * (s / 2)| = s ^ 2 / 2 := by rw [abs_of_nonneg (by nlinarith [sq_nonneg s])]; ring
  have ha' : |s / 2 * s| = s ^ 2 / 2 := by rw [mul_comm, ha]
  intro i
  fin_cases i
  · simp [h0, gram, Fin.sum_univ_three]
    rw [abs_mul] at ha
    nlinarith [sq_nonneg s]
  · simp [h1, gram, Fin.sum_univ_three, ha']
    nlinarith [sq_nonneg s]
  · simp [h2, gram, Fin.sum_univ_three]
    nlinarith [sq_nonneg s]

/-- **C78** `PeriodicSet.hexagonal(s, 2)` returns a lattice whose basis has two vectors of length `s` at an angle of 60 degrees. `AMD` returns the distances
from the origin to its nearest points; there are six at distance `s` and all others are at least `√3 s` away. `PDD` returns the same distances with weight 1. -/
theorem C78_hexagonal_2D {s : ℝ} (hs : 0 < s) (k : ℕ) (lexsort collapse : Bool) (tol : ℝ) :
    ∃ S, hexagonal s 2 = .ok S ∧ HasLength (S.cell 0) s ∧ HasLength (S.cell 1) s ∧ HasAngle (S.cell 0) (S.cell 1) s s 60 ∧
    periodicPoints S.motif S.cell = latticePoints S.cell ∧ ∃ row F, row.length = k ∧ IsPointRow (latticePoints S.cell) 0 k row ∧
      (∀ j (hj : j < row.length), (j < 6 → row[j] = s) ∧ (6 ≤ j → √3 * s ≤ row[j])) ∧
      ∀ fuel, F ≤ fuel → AMD S k fuel = .ok row ∧ PDD S k lexsort collapse tol fuel = .ok [⟨1, row, [0]⟩] := by
  have h3 : (√3 : ℝ) ^ 2 = 3 := Real.sq_sqrt (by norm_num)
  have hns := nonSingular_of_triangular2 (a := s) (b := s / 2) (c := √3 / 2 * s) hs.ne' (by positivity)
  have hcos : Real.cos (60 * (Real.pi / 180)) = 1 / 2 := cos_deg60
  refine ⟨_, hexagonal_two s, ⟨hs.le, ?_⟩, ⟨hs.le, ?_⟩, ⟨by norm_num, by norm_num, ?_⟩, periodicPoints_lattice _, ?_⟩
  · simp [Fin.sum_univ_two]
  · simp only [Fin.sum_univ_two, Matrix.cons_val_zero, Matrix.cons_val_one]
    linear_combination (s ^ 2 / 4) * h3
  · rw [hcos]
    simp only [Fin.sum_univ_two, Matrix.cons_val_zero, Matrix.cons_val_one]
    ring
  · have hdes : Descends (![![s, 0], ![s / 2, √3 / 2 * s]] : Fin 2 → Pt 2 ℝ) (fun f => f = 0) 2 := by
      refine descends_mono (descends_of_halfDominant (hex2_halfDominant s) (by norm_num)) ?_
      rintro f rfl i
      simp
    obtain ⟨row, F, hrow, hF⟩ := lattice_invariants (by decide) hns hdes k lexsort collapse tol
    refine ⟨row, F, hrow.1, ?_, fun j hj => ?_, hF⟩
    · have := isPointRow_of_neighbourRow (lattice_injective hns) hrow
      rwa [periodicPoints_lattice] at this
    · refine lattice_shell (a := s) (b := √3 * s) (g := hexVector2) (by decide) (by decide) ?_ ?_ hs.le ?_ hrow j hj
      · intro t
        rw [hex2_sq]
        have : (hexVector2 t 0 ^ 2 + hexVector2 t 0 * hexVector2 t 1 + hexVector2 t 1 ^ 2 : ℤ) = 1 := by revert t; decide
        rw [this]
        simp
      · intro n h0 hn
        rw [hex2_sq, mul_pow, h3]
        exact mul_le_mul_of_nonneg_right (by exact_mod_cast hexVector2_cover h0 hn) (sq_nonneg s)
      · have : (1 : ℝ) < √3 := by rw [Real.lt_sqrt] <;> norm_num
        nlinarith

/-- **C78** `PeriodicSet.hexagonal(s, 3)` returns a lattice whose basis has three vectors of length `s`, the first two at an angle of 120 degrees and the third
orthogonal to both. `AMD` returns the distances from the origin to its nearest points; there are eight at distance `s` and all others are at least `√2 s` away.
`PDD` returns the same distances with weight 1. -/
theorem C78_hexagonal_3D {s : ℝ} (hs : 0 < s) (k : ℕ) (lexsort collapse : Bool) (tol : ℝ) :
    ∃ S, hexagonal s 3 = .ok S ∧ HasCellpar S.cell s s s 90 90 120 ∧
    periodicPoints S.motif S.cell = latticePoints S.cell ∧ ∃ row F, row.length = k ∧ IsPointRow (latticePoints S.cell) 0 k row ∧
      (∀ j (hj : j < row.length), (j < 8 → row[j] = s) ∧ (8 ≤ j → √2 * s ≤ row[j])) ∧
      ∀ fuel, F ≤ fuel → AMD S k fuel = .ok row ∧ PDD S k lexsort collapse tol fuel = .ok [⟨1, row, [0]⟩] := by
  have h3 : (√3 : ℝ) ^ 2 = 3 := Real.sq_sqrt (by norm_num)
  have h2 : (√2 : ℝ) ^ 2 = 2 := Real.sq_sqrt (by norm_num)
  have hns := nonSingular_of_triangular3 (a := s) (b := -(s / 2)) (c := √3 / 2 * s) (d := s) hs.ne' (by positivity) hs.ne'
  have hcos : Real.cos (120 * (Real.pi / 180)) = -(1 / 2) := cos_deg120
  have hcos' : Real.cos (90 * (Real.pi / 180)) = 0 := by
    rw [show (90 : ℝ) * (Real.pi / 180) = Real.pi / 2 by ring, Real.cos_pi_div_two]
  refine ⟨_, hexagonal_three s, ⟨⟨hs.le, ?_⟩, ⟨hs.le, ?_⟩, ⟨hs.le, ?_⟩, ⟨by norm_num, by norm_num, ?_⟩, ⟨by norm_num, by norm_num, ?_⟩,
    ⟨by norm_num, by norm_num, ?_⟩⟩, periodicPoints_lattice _, ?_⟩
  · simp [Fin.sum_univ_three]
  · simp [Fin.sum_univ_three]
    linear_combination (s ^ 2 / 4) * h3
  · simp [Fin.sum_univ_three]
  · rw [hcos']
    simp [Fin.sum_univ_three]
  · rw [hcos']
    simp [Fin.sum_univ_three]
  · rw [hcos]
    simp [Fin.sum_univ_three]
    ring
  · have hdes : Descends (![![s, 0, 0], ![-(s / 2), √3 / 2 * s, 0], ![0, 0, s]] : Fin 3 → Pt 3 ℝ) (fun f => f = 0) 2 := by
      refine descends_mono (descends_of_halfDominant (hex3_halfDominant s) (by norm_num)) ?_
      rintro f rfl i
      simp
    obtain ⟨row, F, hrow, hF⟩ := lattice_invariants (by decide) hns hdes k lexsort collapse tol
    refine ⟨row, F, hrow.1, ?_, fun j hj => ?_, hF⟩
    · have := isPointRow_of_neighbourRow (lattice_injective hns) hrow
      rwa [periodicPoints_lattice] at this
    · refine lattice_shell (a := s) (b := √2 * s) (g := hexVector3) (by decide) (by decide) ?_ ?_ hs.le ?_ hrow j hj
      · intro t
        rw [hex3_sq]
        have : (hexVector3 t 0 ^ 2 - hexVector3 t 0 * hexVector3 t 1 + hexVector3 t 1 ^ 2 + hexVector3 t 2 ^ 2 : ℤ) = 1 := by revert t; decide
        rw [this]
        simp
      · intro n h0 hn
        rw [hex3_sq, mul_pow, h2]
        exact mul_le_mul_of_nonneg_right (by exact_mod_cast hexVector3_cover h0 hn) (sq_nonneg s)
      · have : (1 : ℝ) < √2 := by rw [Real.lt_sqrt] <;> norm_num
        nlinarith

/-- The seventh entry of the AMD of the hexagonal lattice in the plane is at least `√3`, in space it is 1. -/
example : (∃ S F row, hexagonal 1 2 = .ok S ∧ (∀ fuel, F ≤ fuel → AMD S 7 fuel = .ok row) ∧ √3 ≤ row.getD 6 0) ∧
    ∃ S F row, hexagonal 1 3 = .ok S ∧ (∀ fuel, F ≤ fuel → AMD S 7 fuel = .ok row) ∧ row.getD 6 0 = 1 := by
  constructor
  · obtain ⟨S, h, -, -, -, -, row, F, hl, -, hs, hF⟩ := C78_hexagonal_2D one_pos 7 true true 0
    refine ⟨S, F, row, h, fun fuel hf => (hF fuel hf).1, ?_⟩
    rw [List.getD_eq_getElem _ _ (by omega)]
    simpa using (hs 6 (by omega)).2 le_rfl
  · obtain ⟨S, h, -, -, row, F, hl, -, hs, hF⟩ := C78_hexagonal_3D one_pos 7 true true 0
    refine ⟨S, F, row, h, fun fuel hf => (hF fuel hf).1, ?_⟩
    rw [List.getD_eq_getElem _ _ (by omega)]
    exact (hs 6 (by omega)).1 (by norm_num)

/-- **C78** In other dimensions `hexagonal` raises `NotImplementedError`. -/
theorem C78_hexagonal_other (s : ℝ) {D : ℕ} (h2 : D ≠ 2) (h3 : D ≠ 3) : hexagonal s D = .error .notImplemented := by
  unfold hexagonal
  split
  · exact absurd rfl h3
  · exact absurd rfl h2
  · rfl

/-! ### C79 -/

/-- The first rows of a stream of numbers cut in rows of `D`. -/
theorem fracMotif_ok (D : ℕ) : ∀ (n : ℕ) (draws : List ℝ), n * D ≤ draws.length →
    ∃ fm, fracMotif D n draws = .ok fm ∧ fm.length = n ∧ ∀ f ∈ fm, ∀ i, f i ∈ draws
  | 0, _, _ => ⟨[], rfl, rfl, by simp⟩
  | n + 1, draws, h => by
    have hd : D ≤ draws.length := by nlinarith
    obtain ⟨fm, h1, h2, h3⟩ := fracMotif_ok D n (draws.drop D) (by rw [List.length_drop]; rw [Nat.succ_mul] at h; omega)
    refine ⟨(fun j => draws.getD j 0) :: fm, by rw [fracMotif, if_neg (by omega), h1], by simp [h2], ?_⟩
    intro f hf i
    rcases List.mem_cons.1 hf with rfl | hf
    · simp only
      rw [List.getD_eq_getElem _ _ (by omega)]
      exact List.getElem_mem _
    · exact List.mem_of_mem_drop (h3 f hf i)

theorem random_fits {D : ℕ} {cell : Fin D → Pt D ℝ} {draws : List ℝ} (hd : ∀ u ∈ draws, 0 ≤ u ∧ u < 1) {fm : List (Pt D ℝ)}
    (hfm : ∀ f ∈ fm, ∀ i, f i ∈ draws) : FitsInCell (fm.map (rowTimes cell)) cell := by
  refine ⟨0, fun q hq => ?_⟩
  obtain ⟨f, hf, rfl⟩ := List.mem_map.1 hq
  exact ⟨f, fun i => hd _ (hfm f hf i), by funext j; simp [rowTimes]⟩

/-- **C79** `PeriodicSet._random` with angle bounds between 60 and 120 degrees returns, whatever numbers are drawn, a set with the given number of points, all in
the unit cell, whose cell has lengths and angles within the bounds (up to the rounding of nearly right angles). Missing: other angle bounds, for which an
exception can be raised (`C79_false`). -/
theorem C79_random_3D_partial (n : ℕ) {ll lu al au : ℝ} (hll : 0 < ll) (hl : ll ≤ lu) (hal : 60 ≤ al) (ha : al ≤ au) (hau : au ≤ 120)
    {cellDraws draws : List ℝ} (hc : ∀ u ∈ cellDraws, 0 ≤ u ∧ u < 1) (hclen : 6 ≤ cellDraws.length)
    (hd : ∀ u ∈ draws, 0 ≤ u ∧ u < 1) (hlen : n * 3 ≤ draws.length) :
    ∃ S a b c α β γ, randomSet n ll lu al au cellDraws draws 3 = .ok S ∧ S.motif.length = n ∧ FitsInCell S.motif S.cell ∧ HasCellpar S.cell a b c α β γ ∧
      (∀ l ∈ [a, b, c], ll ≤ l ∧ l ≤ lu) ∧
      ∀ θ ∈ [α, β, γ], (al ≤ θ ∧ θ ≤ au) ∨ (θ = 90 ∧ ∃ θ', al ≤ θ' ∧ θ' ≤ au ∧ |θ' - 90| < 2 * 2 ^ (-46 : ℤ)) := by
  obtain ⟨cell, a, b, c, α, β, γ, h1, h2, h3, h4⟩ := C55_random_cell_partial hll hl hal ha hau (fun u hu => ⟨(hc u hu).1, (hc u hu).2.le⟩) hclen
  obtain ⟨fm, f1, f2, f3⟩ := fracMotif_ok 3 n draws hlen
  refine ⟨{ motif := fm.map (rowTimes cell), cell := cell }, a, b, c, α, β, γ, ?_, by simp [f2], random_fits hd f3, h2, h3, h4⟩
  simp [randomSet, h1, f1, Except.map]

/-- **C79** The same in two dimensions, for all angle bounds. -/
theorem C79_random_2D (n : ℕ) {ll lu al au : ℝ} (hll : 0 < ll) (hl : ll ≤ lu) (hal : 0 ≤ al) (ha : al ≤ au) (hau : au ≤ 180)
    {cellDraws draws : List ℝ} (hc : ∀ u ∈ cellDraws, 0 ≤ u ∧ u < 1) (hclen : 3 ≤ cellDraws.length)
    (hd : ∀ u ∈ draws, 0 ≤ u ∧ u < 1) (hlen : n * 2 ≤ draws.length) :
    ∃ S a b α, randomSet n ll lu al au cellDraws draws 2 = .ok S ∧ S.motif.length = n ∧ FitsInCell S.motif S.cell ∧
      HasLength (S.cell 0) a ∧ HasLength (S.cell 1) b ∧ HasAngle (S.cell 0) (S.cell 1) a b α ∧ (ll ≤ a ∧ a ≤ lu) ∧ (ll ≤ b ∧ b ≤ lu) ∧ (al ≤ α ∧ α ≤ au) := by
  obtain ⟨cell, a, b, α, h1, h2⟩ := C55_random_cell_2D hll hl hal ha hau (fun u hu => ⟨(hc u hu).1, (hc u hu).2.le⟩) hclen
  obtain ⟨fm, f1, f2, f3⟩ := fracMotif_ok 2 n draws hlen
  refine ⟨{ motif := fm.map (rowTimes cell), cell := cell }, a, b, α, ?_, by simp [f2], random_fits hd f3, h2⟩
  simp [randomSet, h1, f1, Except.map]

/-- The hypotheses of both theorems are met by streams of draws, with two points. -/
example : (0 : ℝ) < 1 ∧ (1 : ℝ) ≤ 2 ∧ (60 : ℝ) ≤ 60 ∧ (60 : ℝ) ≤ 120 ∧ (∀ u ∈ [(0 : ℝ), 1 / 2, 1 / 3, 1 / 4, 0, 1 / 5], 0 ≤ u ∧ u < 1) ∧
    2 * 3 ≤ [(0 : ℝ), 1 / 2, 1 / 3, 1 / 4, 0, 1 / 5].length := by
  refine ⟨by norm_num, by norm_num, le_rfl, by norm_num, ?_, by simp⟩
  simp only [List.mem_cons, List.not_mem_nil, or_false]
  rintro u (rfl | rfl | rfl | rfl | rfl | rfl) <;> norm_num

/-- **C79** In other dimensions `_random` raises `NotImplementedError`. -/
theorem C79_random_other (n : ℕ) (ll lu al au : ℝ) (cellDraws draws : List ℝ) {D : ℕ} (h2 : D ≠ 2) (h3 : D ≠ 3) :
    randomSet n ll lu al au cellDraws draws D = .error .notImplemented := by
  unfold randomSet
  split
  · exact absurd rfl h3
  · exact absurd rfl h2
  · rfl

/-- **C79** is false for other angle bounds: an impossible draw of angles raises an exception. -/
theorem C79_false : ∃ cellDraws : List ℝ, (∀ u ∈ cellDraws, 0 ≤ u ∧ u < 1) ∧ ∀ n draws, randomSet n 1 2 45 135 cellDraws draws 3 = .error (.util .value) := by
  obtain ⟨d, h, e, -⟩ := C55_false
  exact ⟨d, h, fun n draws => by simp [randomSet, e]⟩

end Amd
