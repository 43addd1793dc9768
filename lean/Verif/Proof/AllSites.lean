import Verif.Proof.Assembled
import Verif.Spec.AllSites

/-! Expanding every site, without removal of overlaps. -/

namespace Amd

variable {D : ℕ} {tol : ℝ}

theorem reduceFrom_blocks (i : ℕ) (l : List (List (Pt D ℝ))) (f : ℕ → ℕ) : (reduceFrom tol i l).1 = l.flatMap (kept tol) ∧
    (reduceFrom tol i l).2.map f = (l.zipIdx i).flatMap fun x => List.replicate (kept tol x.1).length (f x.2) := by
  induction l generalizing i with
  | nil => exact ⟨rfl, rfl⟩
  | cons s l ih =>
    obtain ⟨h1, h2⟩ := ih (i + 1)
    rw [reduceFrom, select_uniqueSites]
    simp only
    rw [h1, List.map_append, h2, List.map_replicate, List.zipIdx_cons]
    exact ⟨rfl, rfl⟩

theorem asymInds_sums (l : List ℕ) : asymInds l = (List.range l.length).map fun i => (l.take i).sum := by
  induction l with
  | nil => rfl
  | cons c l ih =>
    rw [asymInds_cons, ih, List.length_cons, List.range_succ_eq_map]
    simp [Function.comp_def]

/-- The images of one site that are kept. -/
noncomputable def siteImages (tol : ℝ) (ops : List (AffineOp D)) (p : Pt D ℝ) : List (Pt D ℝ) := kept tol (ops.map fun o => o.apply p)

theorem types_blocks (ops : List (AffineOp D)) (pre types : List ℕ) (asym : List (Pt D ℝ)) (h : types.length = asym.length) :
    ((asym.map fun p => ops.map fun o => o.apply p).zipIdx pre.length).flatMap (fun x => List.replicate (kept tol x.1).length ((pre ++ types).getD x.2 0)) =
      (asym.zip types).flatMap fun x => List.replicate (siteImages tol ops x.1).length x.2 := by
  induction asym generalizing pre types with
  | nil => rfl
  | cons p asym ih =>
    cases types with
    | nil => cases h
    | cons t types =>
      rw [List.map_cons, List.zipIdx_cons, List.flatMap_cons, List.zip_cons_cons, List.flatMap_cons]
      have := ih (pre ++ [t]) types (by simpa using h)
      rw [List.length_append, List.length_singleton, List.append_assoc, List.singleton_append] at this
      rw [this]
      congr 1
      simp [siteImages]

theorem siteImages_expands (h0 : 0 ≤ tol) (h1 : tol < 1) {ops : List (AffineOp D)} {p : Pt D ℝ} (hx : ExactSites tol (opSet ops) {p}) :
    ∃ orbit, ExpandsTo (opSet ops) [p] (siteImages tol ops p) orbit := by
  have h := expandsTo h0 h1 [p] ops false (by simpa using hx)
  have e : (expandAsymUnit [p] ops tol false).1 = siteImages tol ops p := by
    simp [expandAsymUnit, expandSites, reduceFrom, select_uniqueSites, siteImages]
  rw [e] at h
  exact ⟨_, h⟩

theorem siteImages_nodup (h0 : 0 ≤ tol) (ops : List (AffineOp D)) (p : Pt D ℝ) : (siteImages tol ops p).Nodup :=
  (kept_apart _).imp fun {a b} h e => by
    subst e
    rw [siteClose_refl h0] at h
    cases h

variable {cell : Fin 3 → Pt 3 ℝ} {ops : List (AffineOp 3)}

/-- The set that is made without removal of overlaps lists the orbits of all sites. -/
theorem assemble_all {name : String} (hcell : NonSingular cell) (hops : ops ≠ []) (asym : List (Pt 3 ℝ)) (types : List ℕ) (ht : types.length = asym.length)
    (hx : ∀ p ∈ asym, ExactSites eqSiteTol (opSet ops) {p}) :
    ListsOrbits (opSet ops) ((asym.zip types).map fun x => ⟨x.1, x.2, (siteImages eqSiteTol ops x.1).map (toCartesian cell)⟩)
      (assemble name cell (expandAsymUnit asym ops eqSiteTol false).1 (expandAsymUnit asym ops eqSiteTol false).2.1 types).set ∧
      (assemble name cell (expandAsymUnit asym ops eqSiteTol false).1 (expandAsymUnit asym ops eqSiteTol false).2.1 types).types =
        orbitTypes ((asym.zip types).map fun x => ⟨x.1, x.2, (siteImages eqSiteTol ops x.1).map (toCartesian cell)⟩) := by
  have e1 : (expandAsymUnit asym ops eqSiteTol false).1 = asym.flatMap (siteImages eqSiteTol ops) := by
    simp only [expandAsymUnit, Bool.false_and, Bool.false_eq_true, if_false]
    rw [(reduceFrom_blocks 0 (expandSites asym ops) id).1, expandSites, List.flatMap_map]
    rfl
  have e2 : uniqueCounts (expandAsymUnit asym ops eqSiteTol false).2.1 = asym.map fun p => (siteImages eqSiteTol ops p).length := by
    simp only [expandAsymUnit, Bool.false_and, Bool.false_eq_true, if_false]
    rw [(reduceFrom_orbits 0 (expandSites asym ops) _).1, expandSites, List.map_map]
    · rfl
    · intro s hs
      obtain ⟨p, -, rfl⟩ := List.mem_map.1 hs
      simpa using hops
  have hz : (asym.zip types).map Prod.fst = asym := List.map_fst_zip (by omega)
  have hmem : ∀ x ∈ asym.zip types, x.1 ∈ asym := fun x hx => (List.of_mem_zip hx).1
  have e3 : asym.map (fun p => (siteImages eqSiteTol ops p).length) = (asym.zip types).map fun x => (siteImages eqSiteTol ops x.1).length := by
    conv_lhs => rw [← hz]
    rw [List.map_map]
    rfl
  refine ⟨⟨?_, ?_, ?_, ?_, ?_, ?_, ?_⟩, ?_⟩
  · simp only [assemble]
    rw [e1, List.flatMap_map, List.map_flatMap]
    conv_lhs => rw [← hz]
    rw [List.flatMap_map]
  · simp only [assemble]
    rw [e2, e3, List.map_map]
    simp [Function.comp_def]
  · simp only [assemble]
    rw [e2, e3, asymInds_sums, List.length_map, List.length_map]
    congr 1
    refine List.map_congr_left fun i _ => ?_
    rw [← List.map_take, ← List.map_take, List.map_map]
    simp [Function.comp_def]
  · intro x hx'
    obtain ⟨y, hy, rfl⟩ := List.mem_map.1 hx'
    simpa [siteImages] using kept_ne_nil (by simpa using hops)
  · intro x hx'
    obtain ⟨y, hy, rfl⟩ := List.mem_map.1 hx'
    obtain ⟨orbit, h⟩ := siteImages_expands eqSiteTol_nonneg eqSiteTol_lt (hx _ (hmem y hy))
    exact h.injective hcell (siteImages_nodup eqSiteTol_nonneg _ _)
  · intro x hx'
    obtain ⟨y, hy, rfl⟩ := List.mem_map.1 hx'
    obtain ⟨orbit, h⟩ := siteImages_expands eqSiteTol_nonneg eqSiteTol_lt (hx _ (hmem y hy))
    have e : {p | p ∈ [y.1]} = {y.1} := by
      ext
      simp
    have := h.points (cell := cell)
    rw [e] at this
    exact this
  · refine ⟨0, fun q hq => ?_⟩
    simp only [assemble] at hq ⊢
    rw [e1] at hq
    obtain ⟨y, hy, rfl⟩ := List.mem_map.1 hq
    obtain ⟨p, hp, hy⟩ := List.mem_flatMap.1 hy
    obtain ⟨orbit, h⟩ := siteImages_expands eqSiteTol_nonneg eqSiteTol_lt (hx _ hp)
    obtain ⟨t, ht, rfl⟩ := List.mem_iff_getElem.1 hy
    exact ⟨_, h.cellwise ht, by funext j; simp [toCartesian]⟩
  · simp only [assemble, expandAsymUnit, orbitTypes, Bool.false_and, Bool.false_eq_true, if_false]
    rw [(reduceFrom_blocks 0 (expandSites asym ops) fun i => types.getD i 0).2, List.flatMap_map, expandSites]
    refine Eq.trans (types_blocks ops [] types asym ht) ?_
    simp

end Amd
