import Verif.Model.EqualMotif
import Verif.Proof.Pairwise
import Mathlib.Tactic.Linarith
import Mathlib.Tactic.NormNum

/-!
# `PeriodicSet._equal_cell_and_motif`: C50
-/

namespace Amd

variable {D : ℕ} {S T : PeriodicSet D}

/-- The points `p` and `q` are the same modulo the lattice, up to `tol` in fractional coordinates. -/
def SameModLattice (tol : ℝ) (cell : Fin D → Pt D ℝ) (p q : Pt D ℝ) : Prop :=
  ∃ (z : Fin D → ℤ) (e : Fin D → ℝ), (∀ i, |e i| ≤ tol) ∧ ∀ j, q j = p j + ∑ i, (z i + e i) * cell i j

/-- The cells agree entry by entry, up to numpy's tolerance. -/
def CellsClose (c c' : Fin D → Pt D ℝ) : Prop := ∀ i j, |c i j - c' i j| ≤ 1 / 100000000 + 1 / 100000 * |c' i j|

theorem allClose_iff {c c' : Fin D → Pt D ℝ} : allClose c c' = true ↔ CellsClose c c' := by
  simp [allClose, isClose, CellsClose]

theorem foldl_max_le {l : List ℝ} : ∀ {x t : ℝ}, l.foldl max x ≤ t ↔ x ≤ t ∧ ∀ y ∈ l, y ≤ t := by
  induction l with
  | nil => intro x t; simp
  | cons a l ih => intro x t; rw [List.foldl_cons, ih]; simp [and_assoc]

theorem foldl_min_le {l : List ℝ} : ∀ {x t : ℝ}, l.foldl min x ≤ t ↔ x ≤ t ∨ ∃ y ∈ l, y ≤ t := by
  induction l with
  | nil => intro x t; simp
  | cons a l ih => intro x t; rw [List.foldl_cons, ih]; simp [or_assoc]

theorem amaxNonneg_le {l : List ℝ} (h : l ≠ []) : ∃ x, amaxNonneg l = .ok x ∧ ∀ t, x ≤ t ↔ ∀ y ∈ l, y ≤ t := by
  cases l with
  | nil => exact absurd rfl h
  | cons a l => exact ⟨_, rfl, fun t => by rw [foldl_max_le]; simp⟩

theorem amin_le {l : List ℝ} (h : l ≠ []) : ∃ x, amin l = .ok x ∧ ∀ t, x ≤ t ↔ ∃ y ∈ l, y ≤ t := by
  cases l with
  | nil => exact absurd rfl h
  | cons a l => exact ⟨_, rfl, fun t => by rw [foldl_min_le]; simp⟩

/-- Fractional parts are near each other or near opposite ends of the unit interval iff the numbers agree modulo 1 up to a small error. -/
theorem fract_near {u v : ℝ} : min |Int.fract v - Int.fract u| |(|Int.fract v - Int.fract u| - 1)| ≤ 1 / 100000000 ↔
    ∃ (z : ℤ) (e : ℝ), |e| ≤ 1 / 100000000 ∧ v = u + z + e := by
  have hu := Int.floor_add_fract u
  have hv := Int.floor_add_fract v
  have a1 := Int.fract_nonneg u
  have a2 := Int.fract_lt_one u
  have b1 := Int.fract_nonneg v
  have b2 := Int.fract_lt_one v
  constructor
  · intro h
    rcases min_le_iff.1 h with h | h
    · exact ⟨⌊v⌋ - ⌊u⌋, Int.fract v - Int.fract u, h, by push_cast; linarith⟩
    · rcases le_total 0 (Int.fract v - Int.fract u) with h0 | h0
      · rw [abs_of_nonneg h0] at h
        exact ⟨⌊v⌋ - ⌊u⌋ + 1, Int.fract v - Int.fract u - 1, h, by push_cast; linarith⟩
      · rw [abs_of_nonpos h0] at h
        refine ⟨⌊v⌋ - ⌊u⌋ - 1, Int.fract v - Int.fract u + 1, ?_, by push_cast; linarith⟩
        rw [← abs_neg]
        have e1 : -(Int.fract v - Int.fract u + 1) = -(Int.fract v - Int.fract u) - 1 := by ring
        rw [e1]
        exact h
  · rintro ⟨z, e, he, hz⟩
    rw [abs_le] at he
    have hw : Int.fract v - Int.fract u = ((z - ⌊v⌋ + ⌊u⌋ : ℤ) : ℝ) + e := by push_cast; linarith
    generalize z - ⌊v⌋ + ⌊u⌋ = w at hw
    have h1 : (-2 : ℝ) < w := by linarith
    have h2 : (w : ℝ) < 2 := by linarith
    have h1' : -2 < w := by exact_mod_cast h1
    have h2' : w < 2 := by exact_mod_cast h2
    rw [min_le_iff]
    obtain rfl | rfl | rfl : w = -1 ∨ w = 0 ∨ w = 1 := by omega
    · right
      rw [abs_of_nonpos (a := Int.fract v - Int.fract u) (by push_cast at hw; linarith), abs_le]
      push_cast at hw
      constructor <;> linarith
    · left
      rw [abs_le]
      push_cast at hw
      constructor <;> linarith
    · right
      rw [abs_of_nonneg (a := Int.fract v - Int.fract u) (by push_cast at hw; linarith), abs_le]
      push_cast at hw
      constructor <;> linarith

theorem coords_iff {cell : Fin D → Pt D ℝ} (hdet : (Matrix.of cell).det ≠ 0) {p q : Pt D ℝ} {w : Fin D → ℝ} :
    (∀ i, Matrix.vecMul q (Matrix.of cell)⁻¹ i = Matrix.vecMul p (Matrix.of cell)⁻¹ i + w i) ↔ ∀ j, q j = p j + ∑ i, w i * cell i j := by
  have hu : IsUnit (Matrix.of cell).det := isUnit_iff_ne_zero.2 hdet
  have e : ∀ v : Fin D → ℝ, Matrix.vecMul (Matrix.vecMul v (Matrix.of cell)⁻¹) (Matrix.of cell) = v := fun v => by
    rw [Matrix.vecMul_vecMul, Matrix.nonsing_inv_mul _ hu, Matrix.vecMul_one]
  have e' : ∀ v : Fin D → ℝ, Matrix.vecMul (Matrix.vecMul v (Matrix.of cell)) (Matrix.of cell)⁻¹ = v := fun v => by
    rw [Matrix.vecMul_vecMul, Matrix.mul_nonsing_inv _ hu, Matrix.vecMul_one]
  have hw : ∀ j, Matrix.vecMul w (Matrix.of cell) j = ∑ i, w i * cell i j := fun j => rfl
  constructor
  · intro h
    have : Matrix.vecMul q (Matrix.of cell)⁻¹ = Matrix.vecMul p (Matrix.of cell)⁻¹ + w := funext h
    have := congrArg (fun v => Matrix.vecMul v (Matrix.of cell)) this
    simp only [Matrix.add_vecMul, e] at this
    intro j
    rw [← hw j]
    exact congrFun this j
  · intro h
    have : q = p + Matrix.vecMul w (Matrix.of cell) := funext fun j => by rw [h j, ← hw j]; rfl
    intro i
    rw [this, Matrix.add_vecMul, e']
    rfl

theorem pbcDiff_iff (hD : 0 < D) {cell : Fin D → Pt D ℝ} (hdet : (Matrix.of cell).det ≠ 0) (p q : Pt D ℝ) :
    ∃ d, pbcDiff (fun j => Int.fract (Matrix.vecMul q (Matrix.of cell)⁻¹ j)) (fun j => Int.fract (Matrix.vecMul p (Matrix.of cell)⁻¹ j)) = .ok d ∧
      (d ≤ 1 / 100000000 ↔ SameModLattice (1 / 100000000) cell p q) := by
  obtain ⟨d, h1, h2⟩ := amaxNonneg_le (l := List.ofFn fun j => min |Int.fract (Matrix.vecMul q (Matrix.of cell)⁻¹ j) - Int.fract (Matrix.vecMul p (Matrix.of cell)⁻¹ j)|
    |(|Int.fract (Matrix.vecMul q (Matrix.of cell)⁻¹ j) - Int.fract (Matrix.vecMul p (Matrix.of cell)⁻¹ j)| - 1)|)
    (List.ne_nil_of_length_pos (by simpa using hD))
  refine ⟨d, h1, ?_⟩
  rw [h2]
  simp only [List.mem_ofFn', Set.mem_range, forall_exists_index, forall_apply_eq_imp_iff]
  constructor
  · intro h
    choose z e h3 h4 using fun j => fract_near.1 (h j)
    exact ⟨z, e, h3, (coords_iff hdet).1 fun i => by rw [h4 i]; ring⟩
  · rintro ⟨z, e, h3, h4⟩ j
    refine fract_near.2 ⟨z j, e j, h3 j, ?_⟩
    rw [(coords_iff hdet).2 h4 j]
    ring

/-- What the function computes: the cells are close, the motifs have the same size, and for every position `i` the point `i` of the first motif has a
match in the second motif **or** the point `i` of the second motif has a match in the first. -/
theorem equalCellAndMotif_iff (hD : 0 < D) (hdet : (Matrix.of S.cell).det ≠ 0) (hne : S.motif ≠ []) :
    ∃ b, equalCellAndMotif S T = .ok b ∧ (b = true ↔ S.motif.length = T.motif.length ∧ CellsClose S.cell T.cell ∧
      ∀ i (hi : i < S.motif.length) (hi' : i < T.motif.length),
        (∃ q ∈ T.motif, SameModLattice (1 / 100000000) S.cell S.motif[i] q) ∨ ∃ p ∈ S.motif, SameModLattice (1 / 100000000) S.cell p T.motif[i]) := by
  rw [equalCellAndMotif]
  by_cases h : S.motif.length ≠ T.motif.length ∨ allClose S.cell T.cell = false
  · rw [if_pos h]
    refine ⟨false, rfl, ?_⟩
    rw [← allClose_iff]
    constructor
    · intro h; cases h
    · rintro ⟨h1, h2, -⟩
      rcases h with h | h
      · exact absurd h1 h
      · rw [h] at h2; cases h2
  rw [if_neg h, if_neg hdet]
  push Not at h
  obtain ⟨hl, hc⟩ := h
  have hc : allClose S.cell T.cell = true := by simpa using hc
  rw [allClose_iff] at hc
  choose d hd1 hd2 using fun p q => pbcDiff_iff hD hdet p q
  have hne' : T.motif ≠ [] := List.ne_nil_of_length_pos (by rw [← hl]; exact List.length_pos_iff.2 hne)
  have e1 : mapE (fun y => mapE (fun x => pbcDiff y x) (fracCoords S.cell S.motif)) (fracCoords S.cell T.motif) =
      .ok (T.motif.map fun q => S.motif.map fun p => d p q) := by
    rw [mapE_ok_iff]
    simp only [fracCoords]
    rw [List.forall₂_map_left_iff, List.forall₂_map_right_iff, List.forall₂_same]
    intro q _
    rw [mapE_ok_iff]
    rw [List.forall₂_map_left_iff, List.forall₂_map_right_iff, List.forall₂_same]
    intro p _
    exact hd1 p q
  choose f hf1 hf2 using fun p : Pt D ℝ => amin_le (l := T.motif.map fun q => d p q) (by simpa using hne')
  choose g hg1 hg2 using fun q : Pt D ℝ => amin_le (l := S.motif.map fun p => d p q) (by simpa using hne)
  have e2 : mapE (fun i => amin ((T.motif.map fun q => S.motif.map fun p => d p q).map fun row => row.getD i 0)) (List.range (fracCoords S.cell S.motif).length) =
      .ok (S.motif.map f) := by
    rw [mapE_ok_iff, forall₂_getElem]
    refine ⟨by simp [fracCoords], fun t h1 h2 => ?_⟩
    have ht : t < S.motif.length := by simpa using h2
    rw [List.getElem_range, List.getElem_map, ← hf1, List.map_map]
    congr 1
    refine List.map_congr_left fun q _ => ?_
    simp [List.getD_eq_getElem?_getD, ht]
  have e3 : mapE amin (T.motif.map fun q => S.motif.map fun p => d p q) = .ok (T.motif.map g) := by
    rw [mapE_ok_iff, List.forall₂_map_left_iff, List.forall₂_map_right_iff, List.forall₂_same]
    exact fun q _ => hg1 q
  simp only [e1, e2, e3, Except.bind, Except.map]
  refine ⟨_, rfl, ?_⟩
  rw [List.all_eq_true]
  have key : (∀ x ∈ List.zipWith (fun a b : ℝ => open Classical in decide (a ≤ 1 / 100000000) || decide (b ≤ 1 / 100000000)) (S.motif.map f) (T.motif.map g), id x = true) ↔
      ∀ i (hi : i < S.motif.length) (hi' : i < T.motif.length), f S.motif[i] ≤ 1 / 100000000 ∨ g T.motif[i] ≤ 1 / 100000000 := by
    rw [List.forall_mem_iff_getElem]
    constructor
    · intro h i hi hi'
      have := h i (by simpa using ⟨hi, hi'⟩)
      simpa using this
    · intro h i hi
      have h' : i < S.motif.length ∧ i < T.motif.length := by simpa using hi
      have := h i h'.1 h'.2
      simpa using this
  rw [key]
  constructor
  · intro h
    refine ⟨hl, hc, fun i hi hi' => (h i hi hi').imp (fun h => ?_) fun h => ?_⟩
    · rw [hf2] at h
      obtain ⟨y, hy, hy'⟩ := h
      obtain ⟨q, hq, rfl⟩ := List.mem_map.1 hy
      exact ⟨q, hq, (hd2 _ _).1 hy'⟩
    · rw [hg2] at h
      obtain ⟨y, hy, hy'⟩ := h
      obtain ⟨q, hq, rfl⟩ := List.mem_map.1 hy
      exact ⟨q, hq, (hd2 _ _).1 hy'⟩
  · rintro ⟨-, -, h⟩ i hi hi'
    refine (h i hi hi').imp (fun h => ?_) fun h => ?_
    · obtain ⟨q, hq, hm⟩ := h
      rw [hf2]
      exact ⟨_, List.mem_map.2 ⟨q, hq, rfl⟩, (hd2 _ _).2 hm⟩
    · obtain ⟨q, hq, hm⟩ := h
      rw [hg2]
      exact ⟨_, List.mem_map.2 ⟨q, hq, rfl⟩, (hd2 _ _).2 hm⟩

/-- **C50** If the result is True, the cells agree, the motifs have the same number of points, and for every position `i` one of the two points
number `i` has a match in the other motif modulo the lattice. Missing: that every point has a match, see `C50_false`. -/
theorem C50_true_partial (hD : 0 < D) (hdet : (Matrix.of S.cell).det ≠ 0) (hne : S.motif ≠ []) (h : equalCellAndMotif S T = .ok true) :
    S.motif.length = T.motif.length ∧ CellsClose S.cell T.cell ∧ ∀ i (hi : i < S.motif.length) (hi' : i < T.motif.length),
      (∃ q ∈ T.motif, SameModLattice (1 / 100000000) S.cell S.motif[i] q) ∨ ∃ p ∈ S.motif, SameModLattice (1 / 100000000) S.cell p T.motif[i] := by
  obtain ⟨b, h1, h2⟩ := equalCellAndMotif_iff (T := T) hD hdet hne
  rw [h] at h1
  cases h1
  exact h2.1 rfl

/-- **C50** The converse: if the cells agree and every point of the first motif has a match in the second, which has the same size, the result is True. -/
theorem C50_complete (hD : 0 < D) (hdet : (Matrix.of S.cell).det ≠ 0) (hne : S.motif ≠ []) (hl : S.motif.length = T.motif.length)
    (hc : CellsClose S.cell T.cell) (h : ∀ p ∈ S.motif, ∃ q ∈ T.motif, SameModLattice (1 / 100000000) S.cell p q) :
    equalCellAndMotif S T = .ok true := by
  obtain ⟨b, h1, h2⟩ := equalCellAndMotif_iff (T := T) hD hdet hne
  rw [h1, h2.2 ⟨hl, hc, fun i hi _ => Or.inl (h _ (List.getElem_mem hi))⟩]

/-- The points 0 and 1/2 on the line with period 1. -/
noncomputable def lineA : PeriodicSet 1 := { motif := [![0], ![1 / 2]], cell := ![![1]] }

/-- The points 1/4 and 0 on the line with period 1. -/
noncomputable def lineB : PeriodicSet 1 := { motif := [![1 / 4], ![0]], cell := ![![1]] }

theorem lineA_det : (Matrix.of lineA.cell).det ≠ 0 := by simp [lineA]

/-- **C50 does not hold**: on the line with period 1, the motifs {0, 1/2} and {1/4, 0} are found equal, although 1/2 has no match in the second. -/
theorem C50_false : equalCellAndMotif lineA lineB = .ok true ∧ ∃ p ∈ lineA.motif, ∀ q ∈ lineB.motif, ¬SameModLattice (1 / 100000000) lineA.cell p q := by
  constructor
  · obtain ⟨b, h1, h2⟩ := equalCellAndMotif_iff (S := lineA) (T := lineB) (by norm_num) lineA_det (by simp [lineA])
    rw [h1, h2.2]
    refine ⟨rfl, fun i j => by simp [lineA, lineB]; positivity, fun i hi hi' => ?_⟩
    have hz : SameModLattice (1 / 100000000) lineA.cell ![0] ![0] := ⟨fun _ => 0, fun _ => 0, fun _ => by simp, fun j => by simp⟩
    have hi2 : i < 2 := hi
    interval_cases i
    · exact Or.inl ⟨![0], by simp [lineB], hz⟩
    · exact Or.inr ⟨![0], by simp [lineA], hz⟩
  · refine ⟨![1 / 2], by simp [lineA], fun q hq => ?_⟩
    rintro ⟨z, e, he, h⟩
    have h0 := h 0
    have he0 := abs_le.1 (he 0)
    simp only [lineB, List.mem_cons, List.not_mem_nil, or_false] at hq
    have key : ∀ x : ℝ, x = 1 / 2 + (z 0 + e 0) → x = 1 / 4 ∨ x = 0 → False := by
      intro x hx hx'
      have h1 : (-1 : ℝ) < z 0 := by rcases hx' with h | h <;> linarith
      have h2 : (z 0 : ℝ) < 0 := by rcases hx' with h | h <;> linarith
      have h1' : -1 < z 0 := by exact_mod_cast h1
      have h2' : z 0 < 0 := by exact_mod_cast h2
      omega
    rcases hq with rfl | rfl
    · exact key (1 / 4) (by simpa [lineA] using h0) (Or.inl rfl)
    · exact key 0 (by simpa [lineA] using h0) (Or.inr rfl)

example : equalCellAndMotif lineA lineA = .ok true :=
  C50_complete (by norm_num) lineA_det (by simp [lineA]) rfl (fun i j => by simp; positivity)
    fun p hp => ⟨p, hp, fun _ => 0, fun _ => 0, fun _ => by simp, fun j => by simp⟩

end Amd
