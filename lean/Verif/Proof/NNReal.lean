import Verif.Proof.NNMap
import Mathlib.Analysis.InnerProductSpace.PiL2
import Mathlib.Analysis.Normed.Module.FiniteDimension
import Mathlib.LinearAlgebra.Pi

/-! Helper lemmas: `nearest_neighbors` over the reals. -/

set_option linter.unusedSectionVars false

namespace Amd

variable {D : ℕ}

theorem eucl_eq_dist (p q : Pt D ℝ) : eucl p q = dist (WithLp.toLp 2 p) (WithLp.toLp 2 q) := by
  rw [EuclideanSpace.dist_eq]
  unfold eucl sqDist
  congr 1
  apply Finset.sum_congr rfl
  intro j _
  rw [Real.dist_eq, sq_abs]

theorem eucl_triangle (p q r : Pt D ℝ) : eucl p r ≤ eucl p q + eucl q r := by
  rw [eucl_eq_dist, eucl_eq_dist, eucl_eq_dist]
  exact dist_triangle _ _ _

theorem eucl_comm (p q : Pt D ℝ) : eucl p q = eucl q p := by
  rw [eucl_eq_dist, eucl_eq_dist, dist_comm]

theorem eucl_nonneg (p q : Pt D ℝ) : 0 ≤ eucl p q := Real.sqrt_nonneg _

theorem sqNorm_eq (l : Pt D ℝ) (q : Pt D ℝ) : sqNorm l = sqDist (q + l) q := by
  simp [sqNorm, sqDist]

theorem nearReal_sound (motif x : List (Pt D ℝ)) (diamSq : ℝ)
    (hdiam : ∀ p ∈ x, ∀ q ∈ motif, sqDist p q ≤ diamSq) : NearSound nearReal motif x diamSq := by
  intro a l ha hn p hp q hq
  unfold nearReal at hn
  have hn := of_decide_eq_false hn
  rw [not_lt] at hn
  have h0 : 0 ≤ √a + √diamSq := by positivity
  have h1 : √a + √diamSq ≤ √(sqNorm l) := by
    rw [← Real.sqrt_sq h0]
    exact Real.sqrt_le_sqrt hn
  have h2 : √(sqNorm l) ≤ eucl p (q + l) + eucl p q := by
    rw [sqNorm_eq l q]
    have := eucl_triangle (q + l) p q
    rw [eucl_comm (q + l) p] at this
    exact this
  have h3 : eucl p q ≤ √diamSq := Real.sqrt_le_sqrt (hdiam p hp q hq)
  have h4 : √a ≤ eucl p (q + l) := by linarith
  unfold eucl at h4
  rwa [Real.sqrt_le_sqrt_iff (sqDist_nonneg _ _)] at h4

/-- What the pruning radius is. -/
theorem diam_spec {K : Type*} [CommRing K] [LinearOrder K] (motif x : List (Pt D K))
    (cell : Fin D → Pt D K) (hD : 0 < D) (hx : x ≠ []) (hm : motif ≠ []) (k : ℕ) :
    ∃ dsq, maxE ((cdistSq x (latticeToCloud motif ((layersUpTo D (numLayers D motif.length k)).map
      (latVec cell)))).flatMap (·.take motif.length)) = .ok dsq ∧
      (∀ p ∈ x, ∀ q ∈ motif, sqDist p q ≤ dsq) ∧ ∃ p ∈ x, ∃ q ∈ motif, sqDist p q = dsq := by
  have hmpos : 0 < motif.length := List.length_pos_iff.mpr hm
  obtain ⟨t, ht⟩ : ∃ t, numLayers D motif.length k = t + 1 :=
    ⟨numLayers D motif.length k - 1, by have := two_le_numLayers (k := k) hD hmpos; omega⟩
  have hsplit : ∀ t, ∃ rest, layersUpTo D (t + 1) = (fun _ => 0) :: rest := by
    intro t
    induction t with
    | zero => exact ⟨[], layersUpTo_one hD⟩
    | succ t ih =>
      obtain ⟨rest, hr⟩ := ih
      exact ⟨rest ++ intLayer D (t + 1), by rw [layersUpTo_succ D (t + 1), hr]; rfl⟩
  obtain ⟨rest, hrest⟩ := hsplit t
  have hrow : (cdistSq x (latticeToCloud motif ((layersUpTo D (numLayers D motif.length k)).map
      (latVec cell)))).flatMap (·.take motif.length) = x.flatMap fun p => motif.map (sqDist p) := by
    unfold cdistSq
    rw [List.flatMap_map]
    congr 1
    funext p
    rw [ht, hrest, List.map_cons]
    unfold latticeToCloud
    rw [List.flatMap_cons, List.map_append]
    have e : (motif.map fun q => q + latVec cell fun _ => 0) = motif := by
      conv_rhs => rw [← List.map_id motif]
      apply List.map_congr_left
      intro q _
      funext j
      simp [latVec]
    rw [e, List.take_left' (by simp)]
  rw [hrow]
  have hne : (x.flatMap fun p => motif.map (sqDist p)) ≠ [] := by
    obtain ⟨p, hp⟩ := List.exists_mem_of_ne_nil x hx
    obtain ⟨q, hq⟩ := List.exists_mem_of_ne_nil motif hm
    apply List.ne_nil_of_mem (a := sqDist p q)
    rw [List.mem_flatMap]
    exact ⟨p, hp, List.mem_map.mpr ⟨q, hq, rfl⟩⟩
  obtain ⟨a, h1, h2, h3⟩ := maxE_spec hne
  refine ⟨a, h1, ?_, ?_⟩
  · intro p hp q hq
    apply h3
    rw [List.mem_flatMap]
    exact ⟨p, hp, List.mem_map.mpr ⟨q, hq, rfl⟩⟩
  · rw [List.mem_flatMap] at h2
    obtain ⟨p, hp, h2⟩ := h2
    obtain ⟨q, hq, h2⟩ := List.mem_map.mp h2
    exact ⟨p, hp, q, hq, h2⟩

theorem nearestNeighborsSq_eq_loop {K : Type*} [CommRing K] [LinearOrder K] (near : K → K → K → Bool)
    (motif x : List (Pt D K)) (cell : Fin D → Pt D K) (k fuel : ℕ) (dsq : K)
    (h : maxE ((cdistSq x (latticeToCloud motif ((layersUpTo D (numLayers D motif.length k)).map
      (latVec cell)))).flatMap (·.take motif.length)) = .ok dsq) :
    nearestNeighborsSq near motif cell x k fuel =
      nnLoop near motif cell x k dsq fuel (numLayers D motif.length k)
        (rowsUpTo motif cell x k (numLayers D motif.length k)) := by
  unfold nearestNeighborsSq
  simp only [h, bind, Except.bind]
  congr 1
  unfold cdistSq rowsUpTo cloudUpTo
  rw [List.map_map]
  rfl

theorem le_length_cloud {K : Type*} [CommRing K] [LinearOrder K] (motif : List (Pt D K))
    (cell : Fin D → Pt D K) (hD : 0 < D) (hm : motif ≠ []) (k : ℕ) :
    k ≤ (cloudUpTo motif cell (numLayers D motif.length k)).length := by
  have hmpos : 0 < motif.length := List.length_pos_iff.mpr hm
  obtain ⟨s, h1, h2, h3, _⟩ := numLayers_spec (k := k) hD hmpos
  rw [length_cloudUpTo, h2, length_layersUpTo_succ, Nat.add_mul]
  omega

/-- Everything that holds of `nearest_neighbors` for every cell: it never fails for another reason than
running for ever, and when it returns, the rows are exact within the layers looked at, and the next layer
holds nothing nearer. -/
theorem nearestNeighborsSq_spec (motif x : List (Pt D ℝ)) (cell : Fin D → Pt D ℝ) (k fuel : ℕ)
    (hD : 0 < D) (hx : x ≠ []) (hxm : ∀ p ∈ x, p ∈ motif) (hk : 0 < k) :
    nearestNeighborsSq nearReal motif cell x k fuel = .error .fuel ∨
    ∃ d, numLayers D motif.length k ≤ d ∧
      nearestNeighborsSq nearReal motif cell x k fuel = .ok (rowsUpTo motif cell x k d) ∧
      k ≤ (cloudUpTo motif cell d).length ∧
      (∀ n ∈ intLayer D d, ∀ p ∈ x, ∀ q ∈ motif, ∀ row ∈ rowsUpTo motif cell x k d, ∀ r ∈ row,
        r ≤ sqDist p (q + latVec cell n)) := by
  have hm : motif ≠ [] := by
    obtain ⟨p, hp⟩ := List.exists_mem_of_ne_nil x hx
    exact List.ne_nil_of_mem (hxm p hp)
  have hmpos : 0 < motif.length := List.length_pos_iff.mpr hm
  obtain ⟨dsq, h1, h2, _⟩ := diam_spec motif x cell hD hx hm k
  rw [nearestNeighborsSq_eq_loop nearReal motif x cell k fuel dsq h1]
  have hnl := two_le_numLayers (k := k) hD hmpos
  rcases nnLoop_spec (cell := cell) hD hx hxm hk (nearReal_sound motif x dsq h2) fuel
    (numLayers D motif.length k) (by omega) (le_length_cloud motif cell hD hm k) with h | ⟨d, h3, _, h4, h5⟩
  · exact Or.inl h
  · right
    refine ⟨d, h3, h4, ?_, h5⟩
    refine (le_length_cloud motif cell hD hm k).trans ?_
    rw [length_cloudUpTo, length_cloudUpTo]
    apply Nat.mul_le_mul_right
    have : ∀ e, (layersUpTo D (numLayers D motif.length k)).length ≤
        (layersUpTo D (numLayers D motif.length k + e)).length := by
      intro e
      induction e with
      | zero => exact le_refl _
      | succ e ih => rw [← Nat.add_assoc, length_layersUpTo_succ]; omega
    have h := this (d - numLayers D motif.length k)
    rwa [Nat.add_sub_cancel' h3] at h

end Amd
