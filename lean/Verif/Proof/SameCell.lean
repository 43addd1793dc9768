import Verif.Proof.Crystal
import Verif.Proof.PointRows
import Verif.Proof.Explicit
import Verif.Spec.Geometry

/-! Cells with the same lengths and angles differ by an isometry. -/

namespace Amd

variable {D : ℕ}

theorem eucl_cartesian (cell : Fin D → Pt D ℝ) (x y : Pt D ℝ) :
    eucl (cartesian cell x) (cartesian cell y) = √(∑ i, (x i - y i) * ∑ j, gram cell i j * (x j - y j)) := by
  rw [← gram_bilin, eucl, sqDist]
  congr 1
  refine Finset.sum_congr rfl fun c _ => ?_
  simp only [cartesian, ← Finset.sum_sub_distrib, ← sub_mul]
  ring

/-- Same Gram matrix, same distances. -/
theorem eucl_cartesian_congr {cell cell' : Fin D → Pt D ℝ} (h : ∀ i j, gram cell i j = gram cell' i j) (x y : Pt D ℝ) :
    eucl (cartesian cell x) (cartesian cell y) = eucl (cartesian cell' x) (cartesian cell' y) := by
  rw [eucl_cartesian, eucl_cartesian]
  simp only [h]

theorem nonSingular_of_injective {cell : Fin D → Pt D ℝ} (h : Function.Injective (cartesian cell)) : NonSingular cell :=
  Matrix.vecMul_injective_iff.1 h

theorem nonSingular_congr {cell cell' : Fin D → Pt D ℝ} (h : ∀ i j, gram cell i j = gram cell' i j) (hc : NonSingular cell) : NonSingular cell' := by
  refine nonSingular_of_injective fun x y hxy => cartesian_injective hc ?_
  rw [← eucl_eq_zero, eucl_cartesian_congr h, eucl_eq_zero]
  exact hxy

theorem isSpaceGroup_congr {cell cell' : Fin D → Pt D ℝ} (h : ∀ i j, gram cell i j = gram cell' i j) {G : Set (FracOp D)} (hG : IsSpaceGroup cell G) :
    IsSpaceGroup cell' G :=
  ⟨fun g hg x y => by rw [← eucl_cartesian_congr h, ← eucl_cartesian_congr h]; exact hG.isometry g hg x y, hG.lattice, hG.one, hG.mul, hG.inv⟩

theorem halfDominant_congr {cell cell' : Fin D → Pt D ℝ} (h : ∀ i j, gram cell i j = gram cell' i j) (hc : HalfDominant cell) : HalfDominant cell' := by
  intro i
  simpa only [h] using hc i

theorem reduced_congr {cell cell' : Fin D → Pt D ℝ} (h : ∀ i j, gram cell i j = gram cell' i j) (hc : Reduced cell) : Reduced cell' := by
  constructor
  · intro i j hij
    simpa only [h] using hc.1 i j hij
  · intro s hs i
    simpa only [h] using hc.2 s hs i

/-- The crystals differ by an isometry, the same for all sites. -/
theorem crystalPoints_uniform {cell cell' : Fin D → Pt D ℝ} (h : ∀ i j, gram cell i j = gram cell' i j) (hc : NonSingular cell) (G : Set (FracOp D)) :
    ∃ T : Pt D ℝ → Pt D ℝ, (∀ p q, eucl (T p) (T q) = eucl p q) ∧ ∀ P, crystalPoints cell' G P = T '' crystalPoints cell G P := by
  choose f hf using cartesian_surjective hc
  have hf' : ∀ x, f (cartesian cell x) = x := fun x => cartesian_injective hc (hf _)
  refine ⟨fun p => cartesian cell' (f p), fun p q => ?_, fun P => ?_⟩
  · rw [← eucl_cartesian_congr h, hf, hf]
  · rw [crystalPoints_eq, crystalPoints_eq, Set.image_image]
    simp only [hf']

/-- The crystals differ by an isometry. -/
theorem crystalPoints_congr {cell cell' : Fin D → Pt D ℝ} (h : ∀ i j, gram cell i j = gram cell' i j) (hc : NonSingular cell) (G : Set (FracOp D))
    (P : Set (Pt D ℝ)) : ∃ T : Pt D ℝ → Pt D ℝ, (∀ p q, eucl (T p) (T q) = eucl p q) ∧ crystalPoints cell' G P = T '' crystalPoints cell G P := by
  obtain ⟨T, hT, hP⟩ := crystalPoints_uniform h hc G
  exact ⟨T, hT, hP P⟩

theorem gram_of_cellpar {cell cell' : Fin 3 → Pt 3 ℝ} {a b c α β γ : ℝ} (h : HasCellpar cell a b c α β γ) (h' : HasCellpar cell' a b c α β γ) (i j : Fin 3) :
    gram cell i j = gram cell' i j := by
  obtain ⟨l0, l1, l2, a12, a02, a01⟩ := h
  obtain ⟨m0, m1, m2, b12, b02, b01⟩ := h'
  have g0 : gram cell 0 0 = gram cell' 0 0 := by simp only [gram, ← sq]; rw [l0.2, m0.2]
  have g1 : gram cell 1 1 = gram cell' 1 1 := by simp only [gram, ← sq]; rw [l1.2, m1.2]
  have g2 : gram cell 2 2 = gram cell' 2 2 := by simp only [gram, ← sq]; rw [l2.2, m2.2]
  have g01 : gram cell 0 1 = gram cell' 0 1 := by simp only [gram]; rw [a01.2.2, b01.2.2]
  have g02 : gram cell 0 2 = gram cell' 0 2 := by simp only [gram]; rw [a02.2.2, b02.2.2]
  have g12 : gram cell 1 2 = gram cell' 1 2 := by simp only [gram]; rw [a12.2.2, b12.2.2]
  fin_cases i <;> fin_cases j
  exacts [g0, g01, g02, by rw [gram_comm, gram_comm cell']; exact g01, g1, g12, by rw [gram_comm, gram_comm cell']; exact g02,
    by rw [gram_comm, gram_comm cell']; exact g12, g2]

/-- Same Gram matrix, same lengths. -/
theorem length_congr {cell cell' : Fin D → Pt D ℝ} (h : ∀ i j, gram cell i j = gram cell' i j) (v : Fin D → ℝ) :
    ∑ c, (∑ a, v a * cell a c) ^ 2 = ∑ c, (∑ a, v a * cell' a c) ^ 2 := by
  simp only [sq]
  rw [gram_bilin, gram_bilin]
  simp only [h]

theorem descends_congr {cell cell' : Fin D → Pt D ℝ} (h : ∀ i j, gram cell i j = gram cell' i j) {P : (Fin D → ℝ) → Prop} {r : ℕ} (hc : Descends cell P r) :
    Descends cell' P r := by
  intro m n f hr hn hP
  obtain ⟨n', h1, h2⟩ := hc m n f hr hn hP
  exact ⟨n', h1, by rw [← length_congr h, ← length_congr h]; exact h2⟩

/-- For given lengths and angles of the cell and at most `m` points in it, some number of neighbours is enough. -/
theorem searchable_uniform {cell : Fin D → Pt D ℝ} (hcell : NonSingular cell) (m : ℕ) : ∃ k₀, ∀ k ≥ k₀, ∀ (motif : List (Pt D ℝ)) (cell' : Fin D → Pt D ℝ),
    (∀ i j, gram cell i j = gram cell' i j) → FitsInCell motif cell' → motif.length ≤ m → Searchable motif cell' k := by
  obtain ⟨r, hr⟩ := exists_descends hcell 1
  obtain ⟨k₀, hk⟩ := startsAt_eventually D m r
  refine ⟨k₀, fun k hk' motif cell' hg hf hm => ⟨_, r, descends_congr hg hr, fun p hp q hq => ?_, ?_⟩⟩
  · obtain ⟨f, h1, h2⟩ := fracDiff_of_fits hf p hp q hq
    exact ⟨f, fun i => (h1 i).le, h2⟩
  · rcases hk k hk' with h | h
    · exact Or.inl h
    · exact Or.inr fun F hF => (Nat.mul_le_mul_left _ hm).trans (h F hF)

end Amd
