import Verif.Proof.Calculate

/-! Helper lemmas: how results change under maps of the input; fuel monotonicity; permuted motifs. -/

set_option linter.unusedSectionVars false

namespace Amd

variable {D : ℕ}

/-! ### Fuel -/

section
variable {K : Type*} [CommRing K] [LinearOrder K]

theorem nnLoop_fuel (near : K → K → K → Bool) (motif : List (Pt D K)) (cell : Fin D → Pt D K)
    (x : List (Pt D K)) (k : ℕ) (diamSq : K) : ∀ (f d : ℕ) (rows : List (List K)) (out : List (List K)),
    nnLoop near motif cell x k diamSq f d rows = .ok out →
    nnLoop near motif cell x k diamSq (f + 1) d rows = .ok out
  | 0, _, _, _, h => by simp [nnLoop] at h
  | f + 1, d, rows, out, h => by
    rw [nnLoop] at h ⊢
    cases hm : maxLast rows with
    | error e => rw [hm] at h; cases h
    | ok a =>
      rw [hm] at h
      simp only [bind, Except.bind] at h ⊢
      split_ifs at h ⊢ with h1 h2
      · exact h
      · exact h
      · cases hmr : mergeRows rows (List.map (kSmallest k) (Amd.cdistSq x
            (List.filter (fun c => x.any fun p => decide (sqDist p c < a))
              (latticeToCloud motif
                (List.filter (fun l => near (sqNorm l) a diamSq) ((intLayer D d).map (latVec cell))))))) with
        | error e => rw [hmr] at h; cases h
        | ok rows' =>
          rw [hmr] at h
          simp only at h ⊢
          exact nnLoop_fuel near motif cell x k diamSq f (d + 1) rows' out h

theorem nearestNeighborsSq_fuel {near : K → K → K → Bool} {motif : List (Pt D K)} {cell : Fin D → Pt D K}
    {x : List (Pt D K)} {k f f' : ℕ} (hf : f ≤ f') {out : List (List K)}
    (h : nearestNeighborsSq near motif cell x k f = .ok out) :
    nearestNeighborsSq near motif cell x k f' = .ok out := by
  obtain ⟨e, rfl⟩ := Nat.exists_eq_add_of_le hf
  induction e with
  | zero => exact h
  | succ e ih =>
    have ih := ih (by omega)
    rw [nearestNeighborsSq] at ih ⊢
    cases hm : maxE ((cdistSq x (latticeToCloud motif ((layersUpTo D (numLayers D motif.length k)).map
      (latVec cell)))).flatMap (·.take motif.length)) with
    | error e => simp only [hm, bind, Except.bind] at ih; cases ih
    | ok a =>
      simp only [hm, bind, Except.bind] at ih ⊢
      exact nnLoop_fuel _ _ _ _ _ _ _ _ _ _ ih

end

theorem nearestNeighbors_fuel {motif : List (Pt D ℝ)} {cell : Fin D → Pt D ℝ}
    {x : List (Pt D ℝ)} {k f f' : ℕ} (hf : f ≤ f') {out : List (List ℝ)}
    (h : nearestNeighbors motif cell x k f = .ok out) : nearestNeighbors motif cell x k f' = .ok out := by
  unfold nearestNeighbors at h ⊢
  cases hs : nearestNeighborsSq nearReal motif cell x k f with
  | error e => rw [hs] at h; cases h
  | ok r => rw [hs] at h; rw [nearestNeighborsSq_fuel hf hs]; exact h

theorem AMD_fuel {S : PeriodicSet D} {k f f' : ℕ} (hf : f ≤ f') {a : List ℝ} (h : AMD S k f = .ok a) :
    AMD S k f' = .ok a := by
  unfold AMD at h ⊢
  cases ha : asymPoints S with
  | error e => rw [ha] at h; cases h
  | ok xm =>
    rw [ha] at h
    simp only [bind, Except.bind] at h ⊢
    cases hn : nearestNeighbors S.motif S.cell xm.1 (k + 1) f with
    | error e => rw [hn] at h; cases h
    | ok r => rw [hn] at h; rw [nearestNeighbors_fuel hf hn]; exact h

theorem PDD_fuel {S : PeriodicSet D} {k : ℕ} {lex col : Bool} {tol : ℝ} {f f' : ℕ} (hf : f ≤ f')
    {a : List (PRow ℝ)} (h : PDD S k lex col tol f = .ok a) :
    PDD S k lex col tol f' = .ok a := by
  unfold PDD at h ⊢
  cases ha : asymPoints S with
  | error e => rw [ha] at h; cases h
  | ok xm =>
    rw [ha] at h
    simp only [bind, Except.bind] at h ⊢
    cases hn : nearestNeighbors S.motif S.cell xm.1 (k + 1) f with
    | error e => rw [hn] at h; cases h
    | ok r => rw [hn] at h; rw [nearestNeighbors_fuel hf hn]; exact h

/-! ### Similarities -/

/-- A similarity with factor `c`: linear part `R` multiplying lengths by `c`, then a translation. -/
theorem nnSim_similarity (cell : Fin D → Pt D ℝ) (R : Pt D ℝ →ₗ[ℝ] Pt D ℝ) (v : Pt D ℝ) (c : ℝ) (hc : 0 < c)
    (hR : ∀ p, ∑ j, R p j ^ 2 = c ^ 2 * ∑ j, p j ^ 2) :
    NNSim (fun a => c ^ 2 * a) nearReal nearReal cell (fun i => R (cell i)) (fun p => R p + v) R where
  mono := fun a b h => by
    have : 0 < c ^ 2 := by positivity
    exact mul_lt_mul_of_pos_left h this
  lat n := by
    have e : ∀ (cl : Fin D → Pt D ℝ), latVec cl n = ∑ i, (n i : ℝ) • cl i := by
      intro cl
      funext j
      simp [latVec]
    rw [e, e, map_sum]
    simp
  add p n := by
    funext j
    simp only [map_add, Pi.add_apply]
    ring
  dist p q := by
    have := hR (p - q)
    rw [map_sub] at this
    simp only [sqDist, Pi.add_apply, add_sub_add_right_eq_sub]
    exact this
  norm n := hR _
  near l a b := by
    unfold nearReal
    have e : ∀ a : ℝ, √(c ^ 2 * a) = c * √a := by
      intro a
      rw [Real.sqrt_mul (by positivity), Real.sqrt_sq hc.le]
    rw [e, e, decide_eq_decide]
    have : (c * √a + c * √b) ^ 2 = c ^ 2 * (√a + √b) ^ 2 := by ring
    rw [this]
    exact mul_lt_mul_iff_right₀ (by positivity)

theorem nearestNeighbors_similarity (motif x : List (Pt D ℝ)) (cell : Fin D → Pt D ℝ)
    (R : Pt D ℝ →ₗ[ℝ] Pt D ℝ) (v : Pt D ℝ) (c : ℝ) (hc : 0 < c)
    (hR : ∀ p, ∑ j, R p j ^ 2 = c ^ 2 * ∑ j, p j ^ 2) (k fuel : ℕ) :
    nearestNeighbors (motif.map fun p => R p + v) (fun i => R (cell i)) (x.map fun p => R p + v) k fuel =
      (nearestNeighbors motif cell x k fuel).map fun rows => rows.map fun r => r.map fun a : ℝ => c * a := by
  unfold nearestNeighbors
  rw [(nnSim_similarity cell R v c hc hR).nearestNeighborsSq motif x k fuel]
  cases nearestNeighborsSq nearReal motif cell x k fuel with
  | error e => rfl
  | ok rows =>
    simp only [Except.map, List.map_map]
    congr 1
    apply List.map_congr_left
    intro r _
    simp only [Function.comp, List.map_map]
    apply List.map_congr_left
    intro a _
    simp only [Function.comp]
    rw [Real.sqrt_mul (by positivity), Real.sqrt_sq hc.le]

theorem takeInds_map_map {α β : Type*} (f : α → β) (a : List α) : ∀ inds : List ℕ,
    takeInds (a.map f) inds = (takeInds a inds).map (·.map f)
  | [] => rfl
  | i :: is => by
    rw [takeInds, takeInds, List.getElem?_map]
    cases a[i]? with
    | none => rfl
    | some v =>
      simp only [Option.map_some, takeInds_map_map f a is]
      cases takeInds a is <;> rfl

theorem asymPoints_image (S : PeriodicSet D) (R : Pt D ℝ →ₗ[ℝ] Pt D ℝ) (v : Pt D ℝ) :
    asymPoints (S.image R v) = (asymPoints S).map fun xm => (xm.1.map fun p => R p + v, xm.2) := by
  unfold asymPoints PeriodicSet.image
  simp only
  cases S.asymUnit with
  | none => simp [Except.map]
  | some inds =>
    cases S.multiplicities with
    | none => simp [Except.map]
    | some mult =>
      simp only [takeInds_map_map]
      cases takeInds S.motif inds <;> rfl

section
variable {K : Type*} [Field K] [LinearOrder K]

theorem addRows_scale (c : K) : ∀ (rows : List (List K)) (ws result : List K),
    addRows (rows.map fun r => r.map (c * ·)) ws (result.map (c * ·)) =
      (addRows rows ws result).map (·.map (c * ·))
  | [], _, _ => rfl
  | _ :: _, [], _ => rfl
  | row :: rows, w :: ws, result => by
    rw [List.map_cons, addRows, addRows, ← addRows_scale c rows ws]
    congr 1
    rw [← List.map_drop, List.zipWith_map, List.map_zipWith]
    congr 1
    funext a b
    ring

theorem averageColumns_scale (c : K) (k : ℕ) (rows : List (List K)) (ws : List K) :
    averageColumnsExceptFirst k (rows.map fun r => r.map (c * ·)) ws =
      (averageColumnsExceptFirst k rows ws).map (·.map (c * ·)) := by
  unfold averageColumnsExceptFirst
  have h := addRows_scale c rows ws (List.replicate (k - 1) 0)
  rw [List.map_replicate, mul_zero] at h
  rw [h]
  cases addRows rows ws (List.replicate (k - 1) 0) with
  | error e => rfl
  | ok r =>
    simp only [Except.map, bind, Except.bind, List.map_map]
    congr 1
    apply List.map_congr_left
    intro a _
    simp only [Function.comp]
    ring

/-- Multiply the distances of a PDD row. -/
def PRow.scale (c : K) (r : PRow K) : PRow K := { r with dists := r.dists.map (c * ·) }

variable [IsStrictOrderedRing K]

theorem chebyshev_scale {c : K} (hc : 0 < c) : ∀ r s : List K,
    chebyshev (r.map (c * ·)) (s.map (c * ·)) = c * chebyshev r s := by
  intro r s
  unfold chebyshev
  rw [List.zipWith_map]
  have : (fun a b : K => |c * a - c * b|) = fun a b => c * |a - b| := by
    funext a b
    rw [← mul_sub, abs_mul, abs_of_pos hc]
  rw [this, ← List.map_zipWith]
  generalize List.zipWith (fun a b => |a - b|) r s = l
  induction l with
  | nil => simp
  | cons a l ih => rw [List.map_cons, List.foldr_cons, List.foldr_cons, ih, mul_max_of_nonneg _ _ hc.le]

theorem overlapAt_scale {c : K} (hc : 0 < c) (tol : K) (dists : List (List K)) :
    overlapAt (c * tol) (dists.map fun r => r.map (c * ·)) = overlapAt tol dists := by
  funext i j
  unfold overlapAt
  have e : ∀ i, (dists.map fun r => r.map (c * ·)).getD i [] = (dists.getD i []).map (c * ·) := by
    intro i
    rw [List.getD_eq_getElem?_getD, List.getD_eq_getElem?_getD, List.getElem?_map]
    cases dists[i]? <;> rfl
  rw [e, e, chebyshev_scale hc]
  congr 1
  rw [decide_eq_decide]
  exact mul_le_mul_iff_right₀ hc

theorem getD_map_scale (c : K) (r : List K) (j : ℕ) : (r.map (c * ·)).getD j 0 = c * r.getD j 0 := by
  rw [List.getD_eq_getElem?_getD, List.getD_eq_getElem?_getD, List.getElem?_map]
  cases r[j]? <;> simp

theorem sum_map_mul_left' {α : Type*} (c : K) (l : List α) (f : α → K) :
    (l.map fun a => c * f a).sum = c * (l.map f).sum := by
  induction l with
  | nil => simp
  | cons a l ih => simp only [List.map_cons, List.sum_cons, ih]; ring

theorem meanRows_scale (c : K) (k : ℕ) (rows : List (List K)) :
    meanRows k (rows.map fun r => r.map (c * ·)) = (meanRows k rows).map (c * ·) := by
  unfold meanRows
  rw [List.map_map]
  apply List.map_congr_left
  intro j _
  simp only [Function.comp, List.map_map, List.length_map]
  rw [show (List.map ((fun r => r.getD j 0) ∘ fun r => List.map (fun x => c * x) r) rows) =
    rows.map (fun r => c * r.getD j 0) from List.map_congr_left fun r _ => getD_map_scale c r j]
  rw [sum_map_mul_left']
  ring

theorem collapseRows_scale {c : K} (hc : 0 < c) (k : ℕ) (col : Bool) (tol : K) (dists : List (List K))
    (ws : List K) :
    collapseRows k col (c * tol) (dists.map fun r => r.map (c * ·)) ws =
      (collapseRows k col tol dists ws).map (PRow.scale c) := by
  have e : ∀ i, (dists.map fun r => r.map (c * ·)).getD i [] = (dists.getD i []).map (c * ·) := by
    intro i
    rw [List.getD_eq_getElem?_getD, List.getD_eq_getElem?_getD, List.getElem?_map]
    cases dists[i]? <;> rfl
  unfold collapseRows
  simp only [overlapAt_scale hc, List.length_map]
  split_ifs with h
  · rw [List.map_map]
    apply List.map_congr_left
    intro g _
    simp only [Function.comp, PRow.scale, e]
    congr 1
    rw [← meanRows_scale, List.map_map]
    rfl
  · rw [List.map_map]
    apply List.map_congr_left
    intro i _
    simp only [Function.comp, PRow.scale, e]

theorem lexLe_scale {c : K} (hc : 0 < c) : ∀ r s : List K,
    lexLe (r.map (c * ·)) (s.map (c * ·)) = lexLe r s
  | [], _ => rfl
  | _ :: _, [] => rfl
  | a :: r, b :: s => by
    rw [List.map_cons, List.map_cons, lexLe, lexLe, lexLe_scale hc r s]
    simp only [mul_lt_mul_iff_right₀ hc, mul_right_inj' hc.ne']

theorem insertionSort_congr_map {α β : Type*} (f : α → β) (r : α → α → Prop) (s : β → β → Prop)
    [DecidableRel r] [DecidableRel s] (h : ∀ a b, s (f a) (f b) ↔ r a b) : ∀ l : List α,
    (l.map f).insertionSort s = (l.insertionSort r).map f := by
  intro l
  induction l with
  | nil => rfl
  | cons a l ih =>
    rw [List.map_cons, List.insertionSort_cons, List.insertionSort_cons, ih]
    generalize l.insertionSort r = l'
    induction l' with
    | nil => rfl
    | cons b l' ih' =>
      rw [List.map_cons, List.orderedInsert_cons, List.orderedInsert_cons]
      by_cases hab : r a b
      · rw [if_pos hab, if_pos ((h a b).mpr hab)]; rfl
      · rw [if_neg hab, if_neg (fun hh => hab ((h a b).mp hh)), ih']; rfl

theorem lexsortRows_scale {c : K} (hc : 0 < c) (lex : Bool) (rows : List (PRow K)) :
    lexsortRows lex (rows.map (PRow.scale c)) = (lexsortRows lex rows).map (PRow.scale c) := by
  unfold lexsortRows
  cases lex with
  | false => rfl
  | true =>
    simp only [if_true]
    apply insertionSort_congr_map
    intro a b
    simp only [PRow.scale, lexLe_scale hc]

end

theorem AMD_image (S : PeriodicSet D) (R : Pt D ℝ →ₗ[ℝ] Pt D ℝ) (v : Pt D ℝ) (c : ℝ) (hc : 0 < c)
    (hR : ∀ p, ∑ j, R p j ^ 2 = c ^ 2 * ∑ j, p j ^ 2) (k fuel : ℕ) :
    AMD (S.image R v) k fuel = (AMD S k fuel).map fun a => a.map fun t : ℝ => c * t := by
  unfold AMD
  rw [asymPoints_image]
  cases asymPoints S with
  | error e => rfl
  | ok xm =>
    simp only [Except.map, bind, Except.bind]
    have h := nearestNeighbors_similarity S.motif xm.1 S.cell R v c hc hR (k + 1) fuel
    rw [show (S.image R v).motif = S.motif.map (fun p => R p + v) from rfl,
      show (S.image R v).cell = fun i => R (S.cell i) from rfl, h]
    cases nearestNeighbors S.motif S.cell xm.1 (k + 1) fuel with
    | error e => rfl
    | ok rows =>
      simp only [Except.map]
      exact averageColumns_scale c (k + 1) rows _

theorem PDD_image (S : PeriodicSet D) (R : Pt D ℝ →ₗ[ℝ] Pt D ℝ) (v : Pt D ℝ) (c : ℝ) (hc : 0 < c)
    (hR : ∀ p, ∑ j, R p j ^ 2 = c ^ 2 * ∑ j, p j ^ 2) (k : ℕ) (lex col : Bool) (tol : ℝ) (fuel : ℕ) :
    PDD (S.image R v) k lex col (c * tol) fuel =
      (PDD S k lex col tol fuel).map fun a => a.map (PRow.scale c) := by
  unfold PDD
  rw [asymPoints_image]
  cases asymPoints S with
  | error e => rfl
  | ok xm =>
    simp only [Except.map, bind, Except.bind]
    have h := nearestNeighbors_similarity S.motif xm.1 S.cell R v c hc hR (k + 1) fuel
    rw [show (S.image R v).motif = S.motif.map (fun p => R p + v) from rfl,
      show (S.image R v).cell = fun i => R (S.cell i) from rfl, h]
    cases nearestNeighbors S.motif S.cell xm.1 (k + 1) fuel with
    | error e => rfl
    | ok rows =>
      simp only [Except.map, List.length_map]
      split_ifs with h1
      · rfl
      · congr 1
        rw [← lexsortRows_scale hc, ← collapseRows_scale hc]
        congr 2
        rw [List.map_map, List.map_map]
        apply List.map_congr_left
        intro r _
        simp only [Function.comp, List.map_drop]

end Amd
