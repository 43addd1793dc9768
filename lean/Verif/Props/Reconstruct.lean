import Verif.Proof.ReconstructTerm
import Verif.Spec.Cells
import Mathlib.Tactic.NormNum
import Mathlib.Tactic.FinCases

/-!
# Properties of `reconstruct`

C52: the sphere intersection steps return points at the requested distances. C60: what `reconstruct` returns fits the PDD. C61: `reconstruct` comes to an end.
C62: a sphere intersection step finds a point if there is one.
-/

set_option linter.unusedSectionVars false

namespace Amd

/-! ## C52 -/

/-- C52, in the plane: the point returned has exactly the requested distances from both centres, and the requested distance from the origin within the
tolerance. -/
theorem C52_two_circles (p1 p2 q : Pt 2 ℝ) (r1 r2 absVal prec : ℝ) (h : bilaterate p1 p2 r1 r2 absVal prec = some q) :
    eucl q p1 = r1 ∧ eucl q p2 = r2 ∧ |eucl 0 q - absVal| < prec := by
  obtain ⟨h1, h2, h3⟩ := bilaterate_spec h
  exact ⟨h1, h2, by rw [eucl_zero]; exact h3⟩

/-- C52, in space: the point returned has exactly the requested distances from the three centres, and the requested distance from the origin within the
tolerance. -/
theorem C52_three_spheres (p1 p2 p3 q : Pt 3 ℝ) (r1 r2 r3 absVal prec : ℝ) (h1 : 0 ≤ r1) (h2 : 0 ≤ r2) (h3 : 0 ≤ r3)
    (h : trilaterate p1 p2 p3 r1 r2 r3 absVal prec = some q) :
    eucl q p1 = r1 ∧ eucl q p2 = r2 ∧ eucl q p3 = r3 ∧ |eucl 0 q - absVal| < prec := by
  obtain ⟨e1, e2, e3, e4⟩ := trilaterate_spec h1 h2 h3 h
  exact ⟨e1, e2, e3, by rw [eucl_zero]; exact e4⟩

/-! ## C62 -/

/-- C62, in the plane: for different centres, if any point has the requested distances then a point is returned (by C52 it has them too). -/
theorem C62_two_circles (p1 p2 q : Pt 2 ℝ) (r1 r2 absVal prec : ℝ) (hp : p1 ≠ p2) (h1 : eucl q p1 = r1) (h2 : eucl q p2 = r2)
    (h3 : |eucl 0 q - absVal| < prec) : ∃ q', bilaterate p1 p2 r1 r2 absVal prec = some q' := by
  rw [eucl_zero] at h3
  exact bilaterate_found hp h1 h2 h3

/-- C62, in space, partial: if a point has the requested distances, and it is not on a line with two of the four centres (all triangle inequalities hold with
the margin `prec`), then a point is returned. Without the margins this is false: `C62_false`. -/
theorem C62_three_spheres_partial (p1 p2 p3 q : Pt 3 ℝ) (r1 r2 r3 absVal prec : ℝ) (hp : LinearIndependent ℝ ![p2 - p1, p3 - p1])
    (h1 : eucl q p1 = r1) (h2 : eucl q p2 = r2) (h3 : eucl q p3 = r3) (h4 : |eucl 0 q - absVal| < prec)
    (m1 : eucl 0 p1 ≤ absVal + r1 - prec) (m2 : eucl 0 p2 ≤ absVal + r2 - prec) (m3 : eucl 0 p3 ≤ absVal + r3 - prec)
    (m12 : eucl p1 p2 ≤ r1 + r2 - prec) (m13 : eucl p1 p3 ≤ r1 + r3 - prec) (m23 : eucl p2 p3 ≤ r2 + r3 - prec) :
    ∃ q', trilaterate p1 p2 p3 r1 r2 r3 absVal prec = some q' := by
  rw [eucl_zero] at h4 m1 m2 m3
  rw [eucl_eq_vnorm] at m12 m13 m23
  refine trilaterate_found ?_ ?_ h1 h2 h3 h4
  · intro a b hab
    refine LinearIndependent.pair_iff.1 hp a b (funext fun t => ?_)
    simpa using hab t
  · simp only [triTooFar, Bool.or_eq_false_iff, decide_eq_false_iff_not, gt_iff_lt, not_lt]
    exact ⟨⟨⟨⟨⟨m1, m2⟩, m3⟩, m12⟩, m13⟩, m23⟩

/-- C62 is false in space: the point halfway between the origin and a centre has the requested distances but is not found. -/
theorem C62_false : ∃ (p1 p2 p3 q : Pt 3 ℝ) (r1 r2 r3 absVal : ℝ), LinearIndependent ℝ ![p1, p2, p3] ∧ eucl q p1 = r1 ∧ eucl q p2 = r2 ∧ eucl q p3 = r3 ∧
    eucl 0 q = absVal ∧ trilaterate p1 p2 p3 r1 r2 r3 absVal (1 / 10 ^ 10) = none := by
  refine ⟨![2, 0, 0], ![0, 2, 0], ![0, 0, 2], ![1, 0, 0], _, _, _, _, ?_, rfl, rfl, rfl, rfl, ?_⟩
  · have : (Matrix.of ![(![2, 0, 0] : Pt 3 ℝ), ![0, 2, 0], ![0, 0, 2]]).det ≠ 0 := by
      rw [Matrix.det_fin_three]; simp
    exact Matrix.linearIndependent_rows_of_det_ne_zero this
  · rw [trilaterate, if_pos]
    have e1 : vnorm (![2, 0, 0] : Pt 3 ℝ) = 2 := vnorm_eq (by norm_num) (by rw [sqNorm_three]; simp)
    have e2 : eucl (![1, 0, 0] : Pt 3 ℝ) ![2, 0, 0] = 1 := vnorm_eq (by norm_num) (by rw [sqNorm_three]; simp; norm_num)
    have e3 : eucl (0 : Pt 3 ℝ) ![1, 0, 0] = 1 := by
      rw [eucl_zero]; exact vnorm_eq (by norm_num) (by rw [sqNorm_three]; simp)
    simp only [triTooFar, Bool.or_eq_true, decide_eq_true_iff]
    rw [e1, e2, e3]
    left; left; left; left; left
    norm_num

/-! ## C60 -/

variable {D : ℕ} {cell : Fin D → Pt D ℝ}

/-- What is proved of `reconstruct` for C60, `lat` being the lengths that are removed from the rows. -/
theorem reconstruct_fits (memory : Option (List (List ℝ))) (order : List (Pt D ℝ) → Pt D ℝ → List ℕ) (pdd : List (List ℝ)) (fuel : ℕ) (motif : List (Pt D ℝ))
    (diam : ℝ) (hdiam : diameter D cell = .ok diam) (hpos : ∀ row ∈ pdd, ∀ x ∈ row, 0 ≤ x) (h : reconstruct memory order pdd cell fuel = .ok motif) :
    0 < D ∧ motif.length = pdd.length ∧ motif[0]? = some 0 ∧ (2 < pdd.length → ∀ q ∈ motif, InUnitCell cell q) ∧
    ∃ p : ℕ → Pt D ℝ, p 0 = 0 ∧ (∀ i (hi : i < motif.length), LatticeTranslate cell motif[i] (p i)) ∧ (pdd.length = 1 ∨ ∃ cloud lat,
      latticeCloud cell diam fuel 1 = some cloud ∧ lat = uniqueWithinTol ((cloud.map vnorm).filter fun x => decide (x ≤ diam)) (1 / 10 ^ 10) ∧
      (∀ i (hi : i < pdd.length), 1 ≤ i →
        Fits (1 / 10 ^ 10) diam cell (removeVals (pdd.getD 0 []) lat (1 / 10 ^ 10)) (removeVals pdd[i] lat (1 / 10 ^ 10)) (p i) ∧
        ∃ x, FirstShared (1 / 10 ^ 10) (removeVals (pdd.getD 0 []) lat (1 / 10 ^ 10)) (removeVals pdd[i] lat (1 / 10 ^ 10)) x ∧ |eucl 0 (p i) - x| < 1 / 10 ^ 10) ∧
      (∀ i (hi : i < pdd.length), 2 ≤ i → ∃ x, SharedDistance (1 / 10 ^ 10) (removeVals (pdd.getD 1 []) lat (1 / 10 ^ 10)) (removeVals pdd[i] lat (1 / 10 ^ 10)) x ∧
        |x - eucl (p 1) (p i)| < 1 / 10 ^ 10)) := by
  have same_self : ∀ p : Pt D ℝ, LatticeTranslate cell p p := fun p => ⟨0, by funext j; simp [latticePoint]⟩
  have hprec : (0 : ℝ) ≤ 1 / 10 ^ 10 := by positivity
  obtain ⟨hD, diam', hd', hcase⟩ := reconstruct_spec h
  refine ⟨hD, ?_⟩
  obtain rfl : diam' = diam := by rw [hdiam, Except.ok.injEq] at hd'; exact hd'.symm
  rcases hcase with ⟨h1, rfl⟩ | ⟨cloud, nn, row1, row2, rows, q, hcloud, hnn, rfl, lat, hlat, hq, hrest⟩
  · refine ⟨by rw [h1]; rfl, rfl, fun hlt => by omega, fun _ => 0, rfl, fun i hi => ?_, .inl h1⟩
    have : i = 0 := by rw [List.length_singleton] at hi; omega
    subst this
    exact same_self 0
  · have hnn' := neighborSet_lattice hnn
    have hpos1 : ∀ x ∈ removeVals row1 lat (1 / 10 ^ 10), 0 ≤ x := fun x hx => hpos row1 (by simp) x (mem_removeVals hx)
    have found : ∀ {row dists : List ℝ} {absQ : ℝ} {basis : List (Pt D ℝ)} {p : Pt D ℝ},
        (uniqueWithinTol (sharedVals (removeVals row1 lat (1 / 10 ^ 10)) (removeVals row lat (1 / 10 ^ 10)) (1 / 10 ^ 10)) (1 / 10 ^ 10)).head? = some absQ →
        (∀ x ∈ dists, x ∈ uniqueWithinTol (sharedVals (removeVals row1 lat (1 / 10 ^ 10)) (removeVals row lat (1 / 10 ^ 10)) (1 / 10 ^ 10)) (1 / 10 ^ 10)) →
        basis ∈ basesOf nn (1 / 10 ^ 10) → sphereIntersect D basis dists absQ (1 / 10 ^ 10) = some p → inVoronoi cloud absQ (1 / 10 ^ 10) p = true →
        Fits (1 / 10 ^ 10) diam' cell (removeVals row1 lat (1 / 10 ^ 10)) (removeVals row lat (1 / 10 ^ 10)) p ∧
        ∃ x, FirstShared (1 / 10 ^ 10) (removeVals row1 lat (1 / 10 ^ 10)) (removeVals row lat (1 / 10 ^ 10)) x ∧ |eucl 0 p - x| < 1 / 10 ^ 10 := by
      intro row dists absQ basis p g1 g2 g3 g4 g5
      have hf := head_shared g1
      refine ⟨fits_of_found hD hprec hnn' hcloud hpos1 hf.shared (fun x hx => mem_shared (g2 x hx)) g3 g4 g5, absQ, hf, ?_⟩
      rw [eucl_zero]
      exact (sphereIntersect_spec (fun x hx => hpos1 x (mem_shared (g2 x hx)).1) g4).2
    obtain ⟨absQ, dists, basis, g1, g2, g3, g4, g5⟩ := findSecondPoint_spec hq
    have fitq := found g1 g2 g3 g4 g5
    rcases hrest with ⟨rfl, rfl⟩ | ⟨ps, hps, hne, hdet, rfl⟩
    · refine ⟨rfl, rfl, fun hlt => by simp at hlt, fun i => [0, q].getD i 0, rfl, fun i hi => ?_, .inr ⟨cloud, lat, hcloud, hlat, fun i hi h1 => ?_, fun i hi h2 => ?_⟩⟩
      · dsimp only
        rw [List.getD_eq_getElem _ _ hi]
        exact same_self _
      · have : i = 1 := by simp only [List.length_cons, List.length_nil] at hi; omega
        subst this
        exact fitq
      · simp only [List.length_cons, List.length_nil] at hi; omega
    · have hF := furtherPoints_spec rows ps hps
      have hlen := hF.length_eq
      refine ⟨by simp [hlen], by simp [reduceToCell_zero], fun _ x hx => ?_, fun i => ([0, q] ++ ps).getD i 0, rfl, fun i hi => ?_,
        .inr ⟨cloud, lat, hcloud, hlat, fun i hi h1 => ?_, fun i hi h2 => ?_⟩⟩
      · obtain ⟨y, _, rfl⟩ := List.mem_map.1 hx
        exact reduceToCell_in y
      · rw [List.length_map] at hi
        dsimp only
        rw [List.getElem_map, List.getD_eq_getElem _ _ hi]
        exact reduceToCell_same hdet _
      · rcases Nat.lt_or_ge 1 i with h2 | h2
        · obtain ⟨j, rfl⟩ : ∃ j, i = j + 2 := ⟨i - 2, by omega⟩
          have hj : j < rows.length := by simpa using hi
          have hj' : j < ps.length := hlen ▸ hj
          have hf := (List.forall₂_iff_get.1 hF).2 j hj hj'
          obtain ⟨⟨absQ, dists, basis, g1, g2, g3, g4, g5⟩, _⟩ := findFurtherPoint_spec hf
          have e : ([0, q] ++ ps).getD (j + 2) 0 = ps[j] := by
            change ps.getD j 0 = _
            exact List.getD_eq_getElem _ _ hj'
          dsimp only
          rw [e]
          exact found g1 g2 g3 g4 g5
        · have : i = 1 := by omega
          subst this
          exact fitq
      · obtain ⟨j, rfl⟩ : ∃ j, i = j + 2 := ⟨i - 2, by omega⟩
        have hj : j < rows.length := by simpa using hi
        have hj' : j < ps.length := hlen ▸ hj
        have hf := (List.forall₂_iff_get.1 hF).2 j hj hj'
        obtain ⟨_, x, hx, hx'⟩ := findFurtherPoint_spec hf
        have e : ([0, q] ++ ps).getD (j + 2) 0 = ps[j] := by
          change ps.getD j 0 = _
          exact List.getD_eq_getElem _ _ hj'
        dsimp only
        rw [e]
        exact ⟨x, mem_shared hx, hx'⟩

/-- C60. `reconstruct` returns a point for each row of the PDD, the first at the origin. Up to translation by a lattice vector, the i-th point has a distance
from the origin, and distances from independent lattice points, that are shared by the first and i-th rows, it is (within the tolerance) not closer to a lattice
point nearby than to the origin, and from the third on its distance from the second point is shared by the second and i-th rows. With three or more rows all
points are in the unit cell. -/
theorem C60_reconstruct (memory : Option (List (List ℝ))) (order : List (Pt D ℝ) → Pt D ℝ → List ℕ) (pdd : List (List ℝ)) (fuel : ℕ) (motif : List (Pt D ℝ))
    (diam : ℝ) (hdiam : diameter D cell = .ok diam) (hpos : ∀ row ∈ pdd, ∀ x ∈ row, 0 ≤ x) (h : reconstruct memory order pdd cell fuel = .ok motif) :
    motif.length = pdd.length ∧ motif[0]? = some 0 ∧ (2 < pdd.length → ∀ q ∈ motif, InUnitCell cell q) ∧
    ∃ p : ℕ → Pt D ℝ, p 0 = 0 ∧ (∀ i (hi : i < motif.length), LatticeTranslate cell motif[i] (p i)) ∧
      (∀ i (hi : i < pdd.length), 1 ≤ i → Fits (1 / 10 ^ 10) diam cell (pdd.getD 0 []) pdd[i] (p i)) ∧
      (∀ i (hi : i < pdd.length), 2 ≤ i → ∃ x, SharedDistance (1 / 10 ^ 10) (pdd.getD 1 []) pdd[i] x ∧ |x - eucl (p 1) (p i)| < 1 / 10 ^ 10) := by
  obtain ⟨hD, h1, h2, h3, p, h4, h5, h6⟩ := reconstruct_fits memory order pdd fuel motif diam hdiam hpos h
  refine ⟨h1, h2, h3, p, h4, h5, ?_⟩
  rcases h6 with hl | ⟨cloud, lat, -, -, h6, h7⟩
  · exact ⟨fun i hi h => by omega, fun i hi h => by omega⟩
  · have sub : ∀ row : List ℝ, ∀ z ∈ removeVals row lat (1 / 10 ^ 10), z ∈ row := fun row z hz => mem_removeVals hz
    refine ⟨fun i hi h => ?_, fun i hi h => ?_⟩
    · obtain ⟨⟨⟨x, hx, hx'⟩, ⟨n, hn, hn'⟩, hdom⟩, -⟩ := h6 i hi h
      exact ⟨⟨x, hx.mono (sub _) (sub _), hx'⟩, ⟨n, hn, fun i => (hn' i).mono (sub _) (sub _)⟩, hdom⟩
    · obtain ⟨x, hx, hx'⟩ := h7 i hi h
      exact ⟨x, hx.mono (sub _) (sub _), hx'⟩

/-- C60. The distances that the points fit are not lengths of lattice vectors, and the distance from the origin is the first one that is shared, provided that different lengths of
lattice vectors differ by more than the tolerance. -/
theorem C60_off_lattice (memory : Option (List (List ℝ))) (order : List (Pt D ℝ) → Pt D ℝ → List ℕ) (pdd : List (List ℝ)) (fuel : ℕ) (motif : List (Pt D ℝ))
    (diam : ℝ) (hdiam : diameter D cell = .ok diam) (hsep : SeparateLengths (1 / 10 ^ 10) diam cell) (hpos : ∀ row ∈ pdd, ∀ x ∈ row, 0 ≤ x)
    (h : reconstruct memory order pdd cell fuel = .ok motif) :
    ∃ p : ℕ → Pt D ℝ, p 0 = 0 ∧ (∀ i (hi : i < motif.length), LatticeTranslate cell motif[i] (p i)) ∧
      (∀ i (hi : i < pdd.length), 1 ≤ i → Fits (1 / 10 ^ 10) diam cell (offLattice (1 / 10 ^ 10) diam cell (pdd.getD 0 [])) (offLattice (1 / 10 ^ 10) diam cell pdd[i]) (p i) ∧
        ∃ x, FirstShared (1 / 10 ^ 10) (offLattice (1 / 10 ^ 10) diam cell (pdd.getD 0 [])) (offLattice (1 / 10 ^ 10) diam cell pdd[i]) x ∧ |eucl 0 (p i) - x| < 1 / 10 ^ 10) ∧
      (∀ i (hi : i < pdd.length), 2 ≤ i → ∃ x, SharedDistance (1 / 10 ^ 10) (offLattice (1 / 10 ^ 10) diam cell (pdd.getD 1 [])) (offLattice (1 / 10 ^ 10) diam cell pdd[i]) x ∧
        |x - eucl (p 1) (p i)| < 1 / 10 ^ 10) := by
  obtain ⟨hD, -, -, -, p, h4, h5, h6⟩ := reconstruct_fits memory order pdd fuel motif diam hdiam hpos h
  refine ⟨p, h4, h5, ?_⟩
  rcases h6 with hl | ⟨cloud, lat, hc, rfl, h6, h7⟩
  · exact ⟨fun i hi h => by omega, fun i hi h => by omega⟩
  · simp only [removeVals_eq hD hc hsep] at h6 h7
    exact ⟨h6, h7⟩

/-! ## C61 -/

/-- C61. For every cell with independent vectors in two or three dimensions `reconstruct` comes to an end, whatever uninitialised memory contains and in whatever
order the k-d tree lists points. -/
theorem C61_terminates (hD : D = 2 ∨ D = 3) (hcell : NonSingular cell) (memory : Option (List (List ℝ))) (order : List (Pt D ℝ) → Pt D ℝ → List ℕ)
    (pdd : List (List ℝ)) : ∃ f₀, ∀ fuel, f₀ ≤ fuel → reconstruct memory order pdd cell fuel ≠ .error .fuel := by
  obtain ⟨diam, hdiam⟩ : ∃ diam, diameter D cell = .ok diam := by
    rcases hD with rfl | rfl
    · exact ⟨_, rfl⟩
    · exact ⟨_, rfl⟩
  obtain ⟨f₀, hf⟩ := reconstruct_loops hD hcell diam (1 / 10 ^ 10) memory order
  refine ⟨f₀, fun fuel hfuel h => ?_⟩
  obtain ⟨⟨cloud, hcloud⟩, nn, hnn⟩ := hf fuel hfuel
  exact reconstruct_no_fuel hdiam hcloud hnn h

/-! ## Examples -/

/-- The cell of the examples: a rectangle. -/
def recCell : Fin 2 → Pt 2 ℝ := ![![56, 0], ![0, 36]]

/-- The squared length of a lattice vector. -/
def recSq (v : Fin 2 → ℤ) : ℤ := (56 * v 0) ^ 2 + (36 * v 1) ^ 2

theorem rec_latVec (v : Fin 2 → ℤ) : latVec recCell v = ![56 * (v 0 : ℝ), 36 * (v 1 : ℝ)] := by
  funext j
  fin_cases j <;> simp [latVec, recCell, Fin.sum_univ_two, mul_comm]

theorem rec_sqNorm (v : Fin 2 → ℤ) : sqNorm (latVec recCell v) = (recSq v : ℝ) := by
  rw [rec_latVec, sqNorm_two, recSq]
  push_cast
  simp

theorem rec_sqDist (v : Fin 2 → ℤ) : sqNorm (latVec recCell v - ![20, 15]) = (((56 * v 0 - 20) ^ 2 + (36 * v 1 - 15) ^ 2 : ℤ) : ℝ) := by
  rw [rec_latVec, sqNorm_two]
  push_cast
  simp

theorem rec_diameter : diameter 2 recCell = .ok √4432 := by
  rw [diameter, sqNorm_two, sqNorm_two]
  simp [recCell]
  norm_num

theorem rec_le_diam (v : Fin 2 → ℤ) : vnorm (latVec recCell v) ≤ √4432 ↔ recSq v ≤ 4432 := by
  rw [vnorm, rec_sqNorm, Real.sqrt_le_sqrt_iff (by norm_num)]
  exact_mod_cast Iff.rfl

theorem rec_layer (d : ℕ) : (((intLayer 2 d).map (latVec recCell)).any fun p => decide (vnorm p ≤ √4432)) =
    (intLayer 2 d).any fun v => decide (recSq v ≤ 4432) := by
  rw [List.any_map]
  congr 1
  funext v
  exact decide_eq_decide.2 (rec_le_diam v)

/-- The first two layers. -/
def recCoeffs : List (Fin 2 → ℤ) := intLayer 2 1 ++ intLayer 2 2

theorem rec_cloud : latticeCloud recCell √4432 3 1 = some (recCoeffs.map (latVec recCell)) := by
  have h1 : ((intLayer 2 1).any fun v => decide (recSq v ≤ 4432)) = true := by decide +kernel
  have h2 : ((intLayer 2 2).any fun v => decide (recSq v ≤ 4432)) = true := by decide +kernel
  have h3 : ((intLayer 2 3).any fun v => decide (recSq v ≤ 4432)) = false := by decide +kernel
  rw [latticeCloud, rec_layer, h1, if_pos rfl, latticeCloud, rec_layer, h2, if_pos rfl, latticeCloud, rec_layer, h3, if_neg (by decide)]
  rw [recCoeffs, List.map_append]
  simp

/-- The intersection of two circles in the example. -/
theorem rec_bilaterate {p1 p2 : Pt 2 ℝ} (h1 : p1 0 = 0) (h2 : p1 1 = 36) (h3 : p2 0 = 56) (h4 : p2 1 = 0) :
    bilaterate p1 p2 29 39 25 (1 / 10 ^ 10) = some ![20, 15] := by
  have hd0 : 0 < √((p2 0 - p1 0) ^ 2 + (p2 1 - p1 1) ^ 2) := Real.sqrt_pos.2 (by rw [h1, h2, h3, h4]; norm_num)
  have hd : √((p2 0 - p1 0) ^ 2 + (p2 1 - p1 1) ^ 2) ^ 2 = 4432 := by rw [Real.sq_sqrt (by positivity), h1, h2, h3, h4]; norm_num
  unfold bilaterate
  generalize √((p2 0 - p1 0) ^ 2 + (p2 1 - p1 1) ^ 2) = d at *
  dsimp only
  have hu : d ≤ 68 := by nlinarith
  have hl : 10 ≤ d := by nlinarith
  have habs : |(29 : ℝ) - 39| = 10 := by rw [abs_of_neg (by norm_num)]; norm_num
  have hh : √((29 : ℝ) ^ 2 - ((29 ^ 2 - 39 ^ 2 + d ^ 2) / (2 * d)) ^ 2) = 456 / d := by
    rw [hd, Real.sqrt_eq_iff_mul_self_eq_of_pos (by positivity)]
    field_simp
    rw [hd]
    norm_num
  have hx : p1 0 + ((29 : ℝ) ^ 2 - 39 ^ 2 + d ^ 2) / (2 * d) * ((p2 0 - p1 0) / d) + 456 / d * ((p2 1 - p1 1) / d) = 20 := by
    rw [hd, h1, h2, h3, h4]
    field_simp
    rw [hd]
    norm_num
  have hy : p1 1 + ((29 : ℝ) ^ 2 - 39 ^ 2 + d ^ 2) / (2 * d) * ((p2 1 - p1 1) / d) - 456 / d * ((p2 0 - p1 0) / d) = 15 := by
    rw [hd, h1, h2, h3, h4]
    field_simp
    rw [hd]
    norm_num
  rw [← hh] at hx hy
  rw [if_neg (by norm_num; exact hu), if_neg (by rw [habs]; exact not_lt.2 hl), if_neg (by norm_num), if_pos]
  · rw [hx, hy]
  · rw [hx, hy]
    have : √((20 : ℝ) ^ 2 + 15 ^ 2) = 25 := by
      rw [show ((20 : ℝ) ^ 2 + 15 ^ 2) = 25 ^ 2 by norm_num, Real.sqrt_sq (by norm_num)]
    rw [this]
    norm_num

/-- The four shortest lattice vectors and the origin. -/
def recStart : List (Pt 2 ℝ) := (layersUpTo 2 2).map (latVec recCell)

/-- Memory in which the first loop of `_neighbor_set` ends at once. -/
noncomputable def recMemory : Option (List (List ℝ)) := some (neighborDists recStart (halfVecs recCell))

theorem rec_neighbors : ∃ rest, neighborSet recMemory (fun _ _ => [0, 1, 2, 3, 4]) recCell (1 / 10 ^ 10) 3 =
    some (latVec recCell ![0, 1] :: latVec recCell ![1, 0] :: rest) := by
  have hl : layersUpTo 2 2 = [![0, 0], ![0, 1], ![1, 0], ![-1, 0], ![0, -1]] := by decide +kernel
  have hs : ((signCoeffs 2).filter fun c => decide (c ≠ 0)).length = 8 := by decide +kernel
  have hfound : ((halfVecs recCell).flatMap fun _ => ([0, 1, 2, 3, 4].take 5).drop 1) = (List.replicate 8 [1, 2, 3, 4]).flatten := by
    rw [halfVecs, List.flatMap_map, ← hs]
    generalize ((signCoeffs 2).filter fun c => decide (c ≠ 0)) = l
    induction l with
    | nil => rfl
    | cons a l ih => rw [List.flatMap_cons, ih, List.length_cons, List.replicate_succ, List.flatten_cons]; rfl
  rw [neighborSet]
  dsimp only
  rw [neighborLoop, recMemory, recStart, if_pos (distsClose_self _), Option.map_some, hfound]
  have hinds : ((List.range 5).filter fun i => decide (i ≠ 0) && ((List.replicate 8 [1, 2, 3, 4]).flatten).contains i) = [1, 2, 3, 4] := by decide +kernel
  rw [hl, List.length_map]
  have h5 : [![(0 : ℤ), 0], ![0, 1], ![1, 0], ![-1, 0], ![0, -1]].length = 5 := rfl
  rw [h5, hinds]
  have hn : ([1, 2, 3, 4].map fun i => ([![(0 : ℤ), 0], ![0, 1], ![1, 0], ![-1, 0], ![0, -1]].map (latVec recCell)).getD i 0) =
      [latVec recCell ![0, 1], latVec recCell ![1, 0], latVec recCell ![-1, 0], latVec recCell ![0, -1]] := rfl
  rw [hn]
  have keep : ∀ v w : Pt 2 ℝ, sqNorm w / 4 ≤ sqNorm ((fun j => v j / 2) - w) →
      decide (eucl (fun j => v j / 2) w - vnorm w / 2 + 1 / 10 ^ 10 ≥ 0) = true := by
    intro v w h
    rw [decide_eq_true_iff, eucl_eq_vnorm]
    have : vnorm w / 2 ≤ vnorm ((fun j => v j / 2) - w) := by
      have e : vnorm w / 2 = √(sqNorm w / 4) := by
        rw [Real.sqrt_div' _ (by norm_num), show (4 : ℝ) = 2 ^ 2 by norm_num, Real.sqrt_sq (by norm_num), vnorm]
      rw [e]
      exact Real.sqrt_le_sqrt h
    have : (0 : ℝ) < 1 / 10 ^ 10 := by positivity
    linarith
  rw [List.filter_cons_of_pos, List.filter_cons_of_pos]
  · exact ⟨_, rfl⟩
  · rw [List.all_eq_true]
    intro w hw
    apply keep
    simp only [List.mem_cons, List.not_mem_nil, or_false] at hw
    rcases hw with rfl | rfl | rfl | rfl <;> rw [sqNorm_two, sqNorm_two] <;> simp [rec_latVec] <;> norm_num
  · rw [List.all_eq_true]
    intro w hw
    apply keep
    simp only [List.mem_cons, List.not_mem_nil, or_false] at hw
    rcases hw with rfl | rfl | rfl | rfl <;> rw [sqNorm_two, sqNorm_two] <;> simp [rec_latVec] <;> norm_num

theorem rec_bases (rest : List (Pt 2 ℝ)) : ∃ bs, basesOf (latVec recCell ![0, 1] :: latVec recCell ![1, 0] :: rest) (1 / 10 ^ 10) =
    [latVec recCell ![0, 1], latVec recCell ![1, 0]] :: bs := by
  rw [basesOf, combinations, List.flatMap_append, combinations, List.map_append, List.flatMap_append]
  simp only [combinations, List.map_cons, List.map_nil, List.flatMap_cons, List.flatMap_nil]
  rw [if_pos]
  · exact ⟨_, rfl⟩
  · rw [detRows, Matrix.det_fin_two]
    simp [rec_latVec]
    norm_num

theorem rec_cloud_norm : ∀ c ∈ recCoeffs.map (latVec recCell), vnorm c = 36 ∨ 56 ≤ vnorm c := by
  intro c hc
  obtain ⟨v, hv, rfl⟩ := List.mem_map.1 hc
  have h : ∀ v ∈ recCoeffs, recSq v = 1296 ∨ 3136 ≤ recSq v := by decide +kernel
  rcases h v hv with h | h
  · left
    exact vnorm_eq (by norm_num) (by rw [rec_sqNorm, h]; norm_num)
  · right
    rw [vnorm, rec_sqNorm, show (56 : ℝ) = √3136 by rw [show (3136 : ℝ) = 56 ^ 2 by norm_num, Real.sqrt_sq (by norm_num)]]
    exact Real.sqrt_le_sqrt (by exact_mod_cast h)

theorem rec_voronoi : inVoronoi (recCoeffs.map (latVec recCell)) 25 (1 / 10 ^ 10) ![20, 15] = true := by
  rw [inVoronoi, List.all_eq_true]
  intro c hc
  obtain ⟨v, hv, rfl⟩ := List.mem_map.1 hc
  have h : ∀ v ∈ recCoeffs, 625 ≤ (56 * v 0 - 20) ^ 2 + (36 * v 1 - 15) ^ 2 := by decide +kernel
  have h1 : (25 : ℝ) ≤ vnorm (latVec recCell v - ![20, 15]) := by
    rw [vnorm, rec_sqDist, show (25 : ℝ) = √625 by rw [show (625 : ℝ) = 25 ^ 2 by norm_num, Real.sqrt_sq (by norm_num)]]
    exact Real.sqrt_le_sqrt (by exact_mod_cast h v hv)
  rw [decide_eq_true_iff]
  have : (0 : ℝ) < 1 / 10 ^ 10 := by positivity
  linarith

theorem rec_shared {lat : List ℝ} (h : ∀ y ∈ lat, y = 36 ∨ 56 ≤ y) :
    uniqueWithinTol (sharedVals (removeVals [25, 29, 39] lat (1 / 10 ^ 10)) (removeVals [25, 29, 39] lat (1 / 10 ^ 10)) (1 / 10 ^ 10)) (1 / 10 ^ 10) = [25, 29, 39] := by
  have far : ∀ x : ℝ, (x = 25 ∨ x = 29 ∨ x = 39) → (lat.any fun y => decide (|x - y| < 1 / 10 ^ 10)) = false := by
    intro x hx
    rw [List.any_eq_false]
    intro y hy
    rw [decide_eq_true_iff, not_lt]
    rw [le_abs]
    have : (1 : ℝ) / 10 ^ 10 ≤ 1 := by norm_num
    rcases hx with rfl | rfl | rfl <;> rcases h y hy with h | h <;> first
      | (left; linarith)
      | (right; linarith)
  have hr : removeVals [25, 29, 39] lat (1 / 10 ^ 10) = [25, 29, 39] := by
    rw [removeVals, List.filter_eq_self]
    intro x hx
    rw [far x (by simpa using hx)]
    rfl
  rw [hr]
  have a1 : ¬|(25 : ℝ) - 29| < 1 / 10 ^ 10 := by norm_num [abs_of_neg]
  have a2 : ¬|(25 : ℝ) - 39| < 1 / 10 ^ 10 := by norm_num [abs_of_neg]
  have a3 : ¬|(29 : ℝ) - 39| < 1 / 10 ^ 10 := by norm_num [abs_of_neg]
  have b1 : ¬|(29 : ℝ) - 25| < 1 / 10 ^ 10 := by norm_num
  have b2 : ¬|(39 : ℝ) - 25| < 1 / 10 ^ 10 := by norm_num
  have b3 : ¬|(39 : ℝ) - 29| < 1 / 10 ^ 10 := by norm_num
  have c : ∀ x : ℝ, |x - x| < 1 / 10 ^ 10 := fun x => by rw [sub_self, abs_zero]; positivity
  have hs : sharedVals [25, 29, 39] [25, 29, 39] (1 / 10 ^ 10) = [25, 29, 39] := by
    simp only [sharedVals, List.flatMap_cons, List.flatMap_nil, List.filter_cons, List.filter_nil, decide_eq_true_iff, a1, a2, a3, b1, b2, b3, c]
    rfl
  rw [hs]
  simp only [uniqueWithinTol, uniqueTolFrom, List.any_nil, List.nil_append, List.any_cons, List.cons_append, Bool.or_false, Bool.or_eq_true, decide_eq_true_iff,
    a1, a2, a3]
  rfl

/-- The reconstruction of a motif of two points. -/
theorem rec_example : reconstruct recMemory (fun _ _ => [0, 1, 2, 3, 4]) [[25, 29, 39], [25, 29, 39]] recCell 3 = .ok [0, ![20, 15]] := by
  obtain ⟨rest, hn⟩ := rec_neighbors
  obtain ⟨bs, hb⟩ := rec_bases rest
  rw [reconstruct]
  dsimp only
  rw [if_neg (by decide), rec_diameter]
  dsimp only
  rw [if_neg (by decide), rec_cloud, hn]
  have hc : recCoeffs = ![0, 1] :: recCoeffs.tail := by decide +kernel
  rw [hc, List.map_cons]
  dsimp only
  rw [← List.map_cons, ← hc, rec_shared, hb]
  · rw [findSecondPoint]
    simp only [combinations, List.map_cons, List.map_nil, List.append_nil, List.findSome?_cons, List.findSome?_nil, sphereIntersect]
    rw [rec_bilaterate (by simp [rec_latVec]) (by simp [rec_latVec]) (by simp [rec_latVec]) (by simp [rec_latVec])]
    simp only [Option.bind_some, rec_voronoi, if_true, bind, Except.bind]
  · intro y hy
    have := List.mem_of_mem_filter (uniqueTolFrom_sub _ _ _ hy)
    obtain ⟨c, hc, rfl⟩ := List.mem_map.1 this
    exact rec_cloud_norm c hc

example : eucl (![20, 15] : Pt 2 ℝ) ![0, 36] = 29 ∧ eucl (![20, 15] : Pt 2 ℝ) ![56, 0] = 39 ∧ |eucl (0 : Pt 2 ℝ) ![20, 15] - 25| < 1 / 10 ^ 10 :=
  C52_two_circles _ _ _ _ _ _ _ (rec_bilaterate rfl rfl rfl rfl)

example : ∃ p : Pt 2 ℝ, LatticeTranslate recCell ![20, 15] p ∧ Fits (1 / 10 ^ 10) √4432 recCell [25, 29, 39] [25, 29, 39] p := by
  obtain ⟨_, _, _, p, _, hsame, hfit, _⟩ := C60_reconstruct recMemory (fun _ _ => [0, 1, 2, 3, 4]) [[25, 29, 39], [25, 29, 39]] 3 [0, ![20, 15]] √4432
    rec_diameter (by
      intro row hrow x hx
      simp only [List.mem_cons, List.not_mem_nil, or_false, or_self] at hrow
      subst hrow
      simp only [List.mem_cons, List.not_mem_nil, or_false] at hx
      rcases hx with rfl | rfl | rfl <;> norm_num) rec_example
  exact ⟨p 1, hsame 1 (by decide), hfit 1 (by decide) le_rfl⟩

/-- The lengths of lattice vectors of the example that are at most the diameter: 36, 56 and the diameter itself. -/
theorem rec_lengths {x : ℝ} (h : LatticeLength √4432 recCell x) : x = √(1296 : ℤ) ∨ x = √(3136 : ℤ) ∨ x = √(4432 : ℤ) := by
  obtain ⟨m, n, -, hn, -, rfl, hle⟩ := h
  have e : eucl 0 (latticePoint recCell n) = √(recSq n : ℤ) := by
    rw [eucl_zero, show latticePoint recCell n = latVec recCell n from rfl, vnorm, rec_sqNorm]
  rw [e] at hle ⊢
  rw [Real.sqrt_le_sqrt_iff (by norm_num)] at hle
  have h1 : recSq n ≤ 4432 := by exact_mod_cast hle
  have h2 : recSq n = 1296 ∨ recSq n = 3136 ∨ recSq n = 4432 := by
    unfold recSq at h1 ⊢
    have a0 : n 0 ≤ 1 := by nlinarith
    have a1 : -1 ≤ n 0 := by nlinarith
    have b0 : n 1 ≤ 1 := by nlinarith
    have b1 : -1 ≤ n 1 := by nlinarith
    have hne : n 0 ≠ 0 ∨ n 1 ≠ 0 := by
      by_contra hh
      push Not at hh
      exact hn (funext fun i => by fin_cases i <;> [exact hh.1; exact hh.2])
    have ha : n 0 = -1 ∨ n 0 = 0 ∨ n 0 = 1 := by omega
    have hb : n 1 = -1 ∨ n 1 = 0 ∨ n 1 = 1 := by omega
    rcases ha with ha | ha | ha <;> rcases hb with hb | hb | hb <;> rw [ha, hb] at h1 hne ⊢ <;> simp at h1 hne ⊢
  rcases h2 with h2 | h2 | h2 <;> rw [h2] <;> simp

theorem rec_separate : SeparateLengths (1 / 10 ^ 10) √4432 recCell := by
  have far : ∀ a b : ℤ, 0 ≤ a → a + 1000 ≤ b → b ≤ 4432 → (1 : ℝ) / 10 ^ 10 ≤ √(b : ℝ) - √(a : ℝ) := by
    intro a b ha hab hb
    have ha' : (0 : ℝ) ≤ a := by exact_mod_cast ha
    have hab' : (a : ℝ) + 1000 ≤ b := by exact_mod_cast hab
    have hb' : (b : ℝ) ≤ 4432 := by exact_mod_cast hb
    have s1 := Real.sq_sqrt ha'
    have s2 := Real.sq_sqrt (show (0 : ℝ) ≤ b by linarith)
    have p1 := Real.sqrt_nonneg (a : ℝ)
    have p2 := Real.sqrt_nonneg (b : ℝ)
    have h1 : √(b : ℝ) ≤ 100 := by nlinarith
    have h2 : √(a : ℝ) ≤ 100 := by nlinarith
    have h3 : 1 ≤ √(b : ℝ) - √(a : ℝ) := by
      by_contra hlt
      rw [not_le] at hlt
      nlinarith
    exact le_trans (by norm_num) h3
  have f1 := far 1296 3136 (by norm_num) (by norm_num) (by norm_num)
  have f2 := far 1296 4432 (by norm_num) (by norm_num) (by norm_num)
  have f3 := far 3136 4432 (by norm_num) (by norm_num) (by norm_num)
  intro x y hx hy
  rcases rec_lengths hx with rfl | rfl | rfl <;> rcases rec_lengths hy with rfl | rfl | rfl <;> first
    | exact .inl rfl
    | exact .inr (le_abs.2 (.inl (by assumption)))
    | exact .inr (le_abs.2 (.inr (by rw [neg_sub]; assumption)))

/-- The hypotheses of `C60_off_lattice` are met by the example. -/
example : ∃ p : Pt 2 ℝ, LatticeTranslate recCell ![20, 15] p ∧ ∃ x, FirstShared (1 / 10 ^ 10) (offLattice (1 / 10 ^ 10) √4432 recCell [25, 29, 39])
    (offLattice (1 / 10 ^ 10) √4432 recCell [25, 29, 39]) x ∧ |eucl 0 p - x| < 1 / 10 ^ 10 := by
  obtain ⟨p, _, hsame, hfit, _⟩ := C60_off_lattice recMemory (fun _ _ => [0, 1, 2, 3, 4]) [[25, 29, 39], [25, 29, 39]] 3 [0, ![20, 15]] √4432
    rec_diameter rec_separate (by
      intro row hrow x hx
      simp only [List.mem_cons, List.not_mem_nil, or_false, or_self] at hrow
      subst hrow
      simp only [List.mem_cons, List.not_mem_nil, or_false] at hx
      rcases hx with rfl | rfl | rfl <;> norm_num) rec_example
  exact ⟨p 1, hsame 1 (by decide), (hfit 1 (by decide) le_rfl).2⟩

theorem rec_nonSingular : NonSingular recCell := by
  have : (Matrix.of recCell).det ≠ 0 := by
    rw [Matrix.det_fin_two]
    simp [recCell]
  exact Matrix.linearIndependent_rows_of_det_ne_zero this

example : ∃ f₀, ∀ fuel, f₀ ≤ fuel → reconstruct none (fun _ _ => [0, 1, 2, 3, 4]) [[25, 29, 39], [25, 29, 39]] recCell fuel ≠ .error .fuel :=
  C61_terminates (.inl rfl) rec_nonSingular _ _ _

example : ∃ q, bilaterate ![0, 36] ![56, 0] 29 39 25 (1 / 10 ^ 10) = some q :=
  C62_two_circles _ _ ![20, 15] _ _ _ _ (fun h => by have := congrFun h 0; simp at this) (vnorm_eq (by norm_num) (by rw [sqNorm_two]; simp; norm_num))
    (vnorm_eq (by norm_num) (by rw [sqNorm_two]; simp; norm_num)) (by
      rw [eucl_zero, vnorm_eq (r := 25) (by norm_num) (by rw [sqNorm_two]; simp; norm_num)]; norm_num)

theorem vnorm_le {D : ℕ} {u : Pt D ℝ} {r : ℝ} (hr : 0 ≤ r) (h : sqNorm u ≤ r ^ 2) : vnorm u ≤ r := Real.sqrt_le_iff.2 ⟨hr, h⟩

/-- The point (2, 2, 1) has distance 3 from the origin and from three independent centres. -/
theorem tri_example : ∃ q : Pt 3 ℝ, trilaterate ![4, 0, 0] ![0, 4, 0] ![0, 0, 2] 3 3 3 3 (1 / 10 ^ 10) = some q := by
  refine C62_three_spheres_partial _ _ _ ![2, 2, 1] _ _ _ _ _ ?_ ?_ ?_ ?_ ?_ ?_ ?_ ?_ ?_ ?_ ?_
  · rw [LinearIndependent.pair_iff]
    intro a b h
    have h1 := congrFun h 1
    have h2 := congrFun h 2
    simp at h1 h2
    exact ⟨h1, h2⟩
  · exact vnorm_eq (by norm_num) (by rw [sqNorm_three]; simp; norm_num)
  · exact vnorm_eq (by norm_num) (by rw [sqNorm_three]; simp; norm_num)
  · exact vnorm_eq (by norm_num) (by rw [sqNorm_three]; simp; norm_num)
  · rw [eucl_zero, vnorm_eq (r := 3) (by norm_num) (by rw [sqNorm_three]; simp; norm_num)]
    norm_num
  · exact vnorm_le (by norm_num) (by rw [sqNorm_three]; simp; norm_num)
  · exact vnorm_le (by norm_num) (by rw [sqNorm_three]; simp; norm_num)
  · exact vnorm_le (by norm_num) (by rw [sqNorm_three]; simp; norm_num)
  · exact vnorm_le (by norm_num) (by rw [sqNorm_three]; simp; norm_num)
  · exact vnorm_le (by norm_num) (by rw [sqNorm_three]; simp; norm_num)
  · exact vnorm_le (by norm_num) (by rw [sqNorm_three]; simp; norm_num)

example : ∃ q : Pt 3 ℝ, eucl q ![4, 0, 0] = 3 ∧ eucl q ![0, 4, 0] = 3 ∧ eucl q ![0, 0, 2] = 3 ∧ |eucl 0 q - 3| < 1 / 10 ^ 10 := by
  obtain ⟨q, hq⟩ := tri_example
  exact ⟨q, C52_three_spheres _ _ _ _ _ _ _ _ _ (by norm_num) (by norm_num) (by norm_num) hq⟩

end Amd
