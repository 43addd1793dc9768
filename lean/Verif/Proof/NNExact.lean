import Verif.Proof.Descent
import Verif.Proof.NNMap
import Mathlib.Analysis.Real.Sqrt

/-! Helper lemmas: the results of `nearest_neighbors` over the reals, and transport from integers. -/

set_option linter.unusedSectionVars false

namespace Amd

variable {D : ℕ}

/-! ### Transport from integer coordinates -/

theorem sqrt_max (a : ℝ) : √(max a 0) = √a := by
  rcases le_total a 0 with h | h
  · rw [max_eq_right h, Real.sqrt_zero, Real.sqrt_eq_zero_of_nonpos h]
  · rw [max_eq_left h]

/-- The computable test is the code's test. -/
theorem nearInt_iff (l a b : ℤ) : nearReal (l : ℝ) (a : ℝ) (b : ℝ) = nearInt l a b := by
  have key : ∀ (l a b : ℝ), 0 ≤ a → 0 ≤ b →
      (l < (√a + √b) ^ 2 ↔ l < a + b ∨ (l - a - b) ^ 2 < 4 * a * b) := by
    intro l a b ha hb
    have e : (√a + √b) ^ 2 = a + b + 2 * (√a * √b) := by
      have h1 := Real.sq_sqrt ha
      have h2 := Real.sq_sqrt hb
      ring_nf
      rw [h1, h2]
    have hs : (√a * √b) ^ 2 = a * b := by
      rw [mul_pow, Real.sq_sqrt ha, Real.sq_sqrt hb]
    have hs0 : 0 ≤ √a * √b := by positivity
    rw [e]
    set s := √a * √b
    constructor
    · intro h
      by_cases h1 : l < a + b
      · exact Or.inl h1
      · right
        push Not at h1
        nlinarith
    · rintro (h | h)
      · linarith
      · by_contra hc
        push Not at hc
        nlinarith
  unfold nearReal nearInt
  rw [← Bool.decide_or]
  have h := key (l : ℝ) (max (a : ℝ) 0) (max (b : ℝ) 0) (le_max_right _ _) (le_max_right _ _)
  rw [sqrt_max, sqrt_max] at h
  rw [decide_eq_decide, h]
  constructor
  · rintro (h | h)
    · left; exact_mod_cast h
    · right; exact_mod_cast h
  · rintro (h | h)
    · left; exact_mod_cast h
    · right; exact_mod_cast h

/-- Integer points as real points. -/
def castPt (p : Pt D ℤ) : Pt D ℝ := fun j => (p j : ℝ)

theorem nnSim_cast (cell : Fin D → Pt D ℤ) :
    NNSim (K := ℤ) (K' := ℝ) (fun a => (a : ℝ)) nearInt nearReal cell (fun i => castPt (cell i)) castPt castPt where
  mono := Int.cast_strictMono
  lat n := by funext j; simp [latVec, castPt]
  add p n := by funext j; simp [castPt]
  dist p q := by simp [sqDist, castPt]
  norm n := by simp [sqNorm, castPt]
  near l a b := nearInt_iff l a b

/-- Running on integer data computes the run of the real model. -/
theorem nearestNeighbors_cast (motif x : List (Pt D ℤ)) (cell : Fin D → Pt D ℤ) (k fuel : ℕ)
    {rows : List (List ℤ)} (h : nearestNeighborsSq nearInt motif cell x k fuel = .ok rows) :
    nearestNeighbors (motif.map castPt) (fun i => castPt (cell i)) (x.map castPt) k fuel =
      .ok (rows.map fun r => r.map fun a : ℤ => √(a : ℝ)) := by
  unfold nearestNeighbors
  rw [(nnSim_cast cell).nearestNeighborsSq motif x k fuel, h]
  simp only [Except.map, List.map_map, Function.comp_def]

/-! ### Results of `nearest_neighbors` -/

theorem nearestNeighbors_ok {motif x : List (Pt D ℝ)} {cell : Fin D → Pt D ℝ} {k fuel : ℕ}
    (hD : 0 < D) (hx : x ≠ []) (hxm : ∀ p ∈ x, p ∈ motif) (hk : 0 < k) {rows : List (List ℝ)}
    (h : nearestNeighbors motif cell x k fuel = .ok rows) :
    ∃ d, numLayers D motif.length k ≤ d ∧
      rows = x.map (fun p => (kSmallest k ((cloudUpTo motif cell d).map (sqDist p))).map Real.sqrt) ∧
      k ≤ (cloudUpTo motif cell d).length ∧
      (∀ n ∈ intLayer D d, ∀ p ∈ x, ∀ q ∈ motif, ∀ row ∈ rowsUpTo motif cell x k d, ∀ r ∈ row,
        r ≤ sqDist p (q + latVec cell n)) := by
  rcases nearestNeighborsSq_spec motif x cell k fuel hD hx hxm hk with h' | ⟨d, h1, h2, h3, h4⟩
  · unfold nearestNeighbors at h
    rw [h'] at h
    cases h
  · refine ⟨d, h1, ?_, h3, h4⟩
    unfold nearestNeighbors at h
    rw [h2] at h
    simp only [Except.map, rowsUpTo, List.map_map] at h
    injection h with h
    rw [← h]
    rfl

theorem nearestNeighbors_cases (motif x : List (Pt D ℝ)) (cell : Fin D → Pt D ℝ) (k fuel : ℕ)
    (hD : 0 < D) (hx : x ≠ []) (hxm : ∀ p ∈ x, p ∈ motif) (hk : 0 < k) :
    nearestNeighbors motif cell x k fuel = .error .fuel ∨
      ∃ rows, nearestNeighbors motif cell x k fuel = .ok rows := by
  unfold nearestNeighbors
  rcases nearestNeighborsSq_spec motif x cell k fuel hD hx hxm hk with h' | ⟨d, h1, h2, h3, h4⟩
  · left; rw [h']; rfl
  · right; rw [h2]; exact ⟨_, rfl⟩

theorem nearestNeighbors_terminates {motif x : List (Pt D ℝ)} {cell : Fin D → Pt D ℝ} (k : ℕ)
    (hD : 0 < D) (hx : x ≠ []) (hxm : ∀ p ∈ x, p ∈ motif) (hk : 0 < k) (hcell : NonSingular cell) :
    ∃ F, ∀ fuel, F ≤ fuel → ∃ rows, nearestNeighbors motif cell x k fuel = .ok rows := by
  obtain ⟨F, hF⟩ := nearestNeighborsSq_terminates k hD hx hxm hk hcell
  refine ⟨F, fun fuel hf => ?_⟩
  rcases nearestNeighbors_cases motif x cell k fuel hD hx hxm hk with h | h
  · exfalso
    apply hF fuel hf
    unfold nearestNeighbors at h
    cases h' : nearestNeighborsSq nearReal motif cell x k fuel with
    | error e => rw [h'] at h; simp only [Except.map] at h; injection h with h; rw [h]
    | ok r => rw [h'] at h; cases h
  · exact h

/-- Whatever the cell: sorted, right length, genuine distances to distinct sites. -/
theorem nearestNeighbors_sound {motif x : List (Pt D ℝ)} {cell : Fin D → Pt D ℝ} {k fuel : ℕ}
    (hD : 0 < D) (hx : x ≠ []) (hxm : ∀ p ∈ x, p ∈ motif) (hk : 0 < k) {rows : List (List ℝ)}
    (h : nearestNeighbors motif cell x k fuel = .ok rows) :
    List.Forall₂ (fun p row => row.length = k ∧ row.Pairwise (· ≤ ·) ∧
      ∃ idx : List (Site motif.length D), idx.Nodup ∧ row = idx.map (fun s => eucl p (sitePos motif cell s)))
      x rows := by
  obtain ⟨d, _, rfl, hlen, _⟩ := nearestNeighbors_ok hD hx hxm hk h
  rw [List.forall₂_map_right_iff, List.forall₂_same]
  intro p _
  refine ⟨?_, ?_, ?_⟩
  · rw [List.length_map, length_kSmallest, List.length_map]; omega
  · rw [List.pairwise_map]
    exact (isKS_kSmallest k _).1.imp fun h => Real.sqrt_le_sqrt h
  · -- restrict the index type to the sites looked at
    have e : (cloudUpTo motif cell d).map (sqDist p) =
        (sitesUpTo motif.length D d).map (fun s => sqDist p (sitePos motif cell s)) := by
      rw [cloudUpTo_eq, List.map_map]; rfl
    let δ : {s : Site motif.length D // s ∈ sitesUpTo motif.length D d} → ℝ :=
      fun s => sqDist p (sitePos motif cell s.1)
    have e' : (cloudUpTo motif cell d).map (sqDist p) = (sitesUpTo motif.length D d).attach.map δ := by
      rw [e]
      exact (List.attach_map_val (l := sitesUpTo motif.length D d)
        (f := fun s => sqDist p (sitePos motif cell s))).symm
    obtain ⟨idx, n1, e1, _, _⟩ := isKNearest_of_list (δ := δ) (k := k)
      (r := kSmallest k ((cloudUpTo motif cell d).map (sqDist p)))
      (List.nodup_attach.mpr (nodup_sitesUpTo hD _ d))
      (by rw [e']; exact isKS_kSmallest k _) (fun j hj => absurd (List.mem_attach _ j) hj)
    refine ⟨idx.map Subtype.val, n1.map Subtype.val_injective, ?_⟩
    rw [e1, List.map_map, List.map_map]
    rfl

/-- With the descent property: exactly the nearest sites. -/
theorem nearestNeighbors_exact {motif x : List (Pt D ℝ)} {cell : Fin D → Pt D ℝ} {k fuel r : ℕ}
    {P : (Fin D → ℝ) → Prop}
    (hD : 0 < D) (hx : x ≠ []) (hxm : ∀ p ∈ x, p ∈ motif) (hk : 0 < k) {rows : List (List ℝ)}
    (hdes : Descends cell P r) (hfit : FracDiff motif cell P) (hr : r ≤ numLayers D motif.length k)
    (h : nearestNeighbors motif cell x k fuel = .ok rows) :
    List.Forall₂ (fun p row => row.length = k ∧ IsKNearest (fun s => eucl p (sitePos motif cell s)) row)
      x rows := by
  obtain ⟨d, hd, rfl, hlen, hstop⟩ := nearestNeighbors_ok hD hx hxm hk h
  rw [List.forall₂_map_right_iff, List.forall₂_same]
  intro p hp
  refine ⟨?_, ?_⟩
  · rw [List.length_map, length_kSmallest, List.length_map]; omega
  · refine (isKNearest_rows hD motif cell p k d ?_).map (φ := Real.sqrt) (fun _ _ h => Real.sqrt_le_sqrt h)
    intro n hn q hq a ha
    exact complete_of_descends (x := [p]) hD hdes (hr.trans hd) hfit (by simpa using hxm p hp)
      (fun n hn p' hp' q hq => by
        rw [List.mem_singleton] at hp'
        subst hp'
        exact hstop n hn p' hp q hq _ (List.mem_map.mpr ⟨p', hp, rfl⟩) a ha) n hn p (by simp) q hq

end Amd
