import Verif.Proof.RoundingPdd
import Verif.Props.Isometry

/-!
# C82: rounding in collapsed PDDs and their distance

As C81 for `PDD` with collapsing and for `EMD`: `pddR` and `emdR` are the model with rounded operations, sums being evaluated in any order (`FloatSum`, `FloatDot`). Which rows are merged
and which pivots are made depends on the rounded numbers. What is not covered: overflow and underflow, and cells that are too oblique for the number of neighbours.
-/

namespace Amd

variable {D : ℕ} {S S' : PeriodicSet D} {inds : List (Fin S.motif.length)} {inds' : List (Fin S'.motif.length)} {mult mult' : List ℕ} {fl : ℝ → ℝ} {u κ κ' M M' : ℝ}
  {C : Computed S.motif.length D} {C' : Computed S'.motif.length D}

theorem Workable.le_half (h : Workable S inds mult fl u κ M) : u ≤ 1 / 2 := by
  have hu := h.rounding.nonneg
  have h1 := h.precise
  unfold precision at h1
  have h2 : 1 + u ≤ (1 + u) ^ (D + 2) := le_self_pow₀ (by linarith) (by omega)
  have h3 : 1 ≤ (1 + u) ^ D := one_le_pow₀ (by linarith)
  have h4 := mul_nonneg (sub_nonneg.2 h3) h.cancels.1
  nlinarith

theorem exists_truePDD (hD : 0 < D) (h : Workable S inds mult fl u κ M) (k : ℕ) : ∃ P, TruePDD S inds mult k P := by
  choose R hR using fun i : Fin S.motif.length => exists_neighbourRow hD h.cell i k
  refine ⟨(inds.zip mult).map fun v => { weight := (v.2 : ℝ) / S.motif.length, dists := R v.1, group := [] }, ?_⟩
  unfold TruePDD
  rw [List.forall₂_map_right_iff, List.forall₂_same]
  exact fun v _ => ⟨rfl, hR v.1⟩

theorem exists_rows_bound (P : List (PRow ℝ)) : ∃ B : ℝ, 0 ≤ B ∧ ∀ r ∈ P, ∀ x ∈ r.dists, x ≤ B := by
  have h : ∀ l : List ℝ, ∃ B : ℝ, 0 ≤ B ∧ ∀ x ∈ l, x ≤ B := by
    intro l
    induction l with
    | nil => exact ⟨0, le_rfl, by simp⟩
    | cons a l ih =>
      obtain ⟨B, h0, h⟩ := ih
      refine ⟨max a B, h0.trans (le_max_right _ _), fun x hx => ?_⟩
      rcases List.mem_cons.1 hx with rfl | hx
      · exact le_max_left _ _
      · exact (h x hx).trans (le_max_right _ _)
  obtain ⟨B, h0, h⟩ := h (P.flatMap fun r => r.dists)
  exact ⟨B, h0, fun r hr x hx => h x (List.mem_flatMap.2 ⟨r, hr, hx⟩)⟩

theorem emdRounding_mono (hu : 0 ≤ u) {N N' n n' : ℕ} {L E : ℝ} (hN : N ≤ N') (hn : n ≤ n') (hL : 0 ≤ L) (hE : 0 ≤ E) : emdRounding u N n L E ≤ emdRounding u N' n' L E := by
  unfold emdRounding emdTol
  have h1 : (N : ℝ) ≤ N' := by exact_mod_cast hN
  have h2 : (1 + u) ^ (n + 2) ≤ (1 + u) ^ (n' + 2) := pow_le_pow_right₀ (by linarith) (by omega)
  gcongr

theorem chebyshev_range {k : ℕ} {B : ℝ} (hB : 0 ≤ B) {r s : List ℝ} (hr : r.length = k) (hs : s.length = k) (h : ∀ x ∈ r, 0 ≤ x ∧ x ≤ B) (h' : ∀ x ∈ s, 0 ≤ x ∧ x ≤ B) :
    chebyshev r s ≤ B := by
  refine (chebyshev_le_iff (hr.trans hs.symm)).2 ⟨hB, fun j hj => ?_⟩
  rw [List.getD_eq_getElem _ _ hj, List.getD_eq_getElem _ _ (by omega), abs_le]
  have a := h _ (List.getElem_mem hj)
  have b := h' _ (List.getElem_mem (l := s) (n := j) (by omega))
  constructor <;> linarith [a.1, a.2, b.1, b.2]

/-- **C82** A bound for the true distances: `k` times the length of any vector of the cell. -/
theorem C82_range {motif : List (Pt D ℝ)} {cell : Fin D → Pt D ℝ} {i : Fin motif.length} {k : ℕ} {row : List ℝ} (h : IsNeighbourRow motif cell i k row) (a : Fin D) :
    ∀ x ∈ row, 0 ≤ x ∧ x ≤ k * eucl (cell a) 0 := by
  classical
  intro x hx
  refine ⟨neighbourRow_nonneg h x hx, ?_⟩
  obtain ⟨hl, idx, hnd, e, -, hfar⟩ := h
  let v : ℕ → Fin D → ℤ := fun n => Pi.single a ((n : ℤ) + 1)
  have hv : ∀ n, ((i, v n) : Site motif.length D) ≠ (i, 0) := fun n hc => by
    have := congrFun (Prod.ext_iff.1 hc).2 a
    simp only [v, Pi.single_eq_same, Pi.zero_apply] at this
    omega
  let s : ℕ → {s : Site motif.length D // s ≠ (i, 0)} := fun n => ⟨(i, v n), hv n⟩
  have hs : Function.Injective s := fun n m hnm => by
    have := congrFun (Prod.ext_iff.1 (Subtype.ext_iff.1 hnm)).2 a
    simp only [s, v, Pi.single_eq_same] at this
    omega
  have hd : ∀ n, eucl motif[i] (sitePos motif cell (s n)) = ((n : ℝ) + 1) * eucl (cell a) 0 := by
    intro n
    have e1 : ∀ j, motif[i] j - sitePos motif cell (i, v n) j = -(((n : ℝ) + 1) * cell a j) := by
      intro j
      simp only [sitePos, v]
      rw [Finset.sum_eq_single a]
      · simp only [Pi.single_eq_same]; push_cast; ring
      · intro b _ hb; simp [Pi.single_eq_of_ne hb]
      · simp
    have e2 : sqDist motif[i] (sitePos motif cell (i, v n)) = ((n : ℝ) + 1) ^ 2 * sqDist (cell a) 0 := by
      unfold sqDist
      rw [Finset.mul_sum]
      refine Finset.sum_congr rfl fun j _ => ?_
      rw [e1 j]
      simp only [Pi.zero_apply]
      ring
    show √(sqDist motif[i] (sitePos motif cell (i, v n))) = _
    rw [e2, Real.sqrt_mul (by positivity), Real.sqrt_sq (by positivity)]
    rfl
  have hle : ∀ n < k, eucl motif[i] (sitePos motif cell (s n)) ≤ k * eucl (cell a) 0 := by
    intro n hn
    rw [hd]
    have : (n : ℝ) + 1 ≤ k := by exact_mod_cast hn
    exact mul_le_mul_of_nonneg_right this (eucl_nonneg _ _)
  by_cases hall : ∀ n < k, s n ∈ idx
  · have hsub : (Finset.range k).image s ⊆ idx.toFinset := by
      intro y hy
      obtain ⟨n, hn, rfl⟩ := Finset.mem_image.1 hy
      exact List.mem_toFinset.2 (hall n (Finset.mem_range.1 hn))
    have hcard : idx.toFinset.card ≤ ((Finset.range k).image s).card := by
      rw [Finset.card_image_of_injective _ hs, Finset.card_range]
      refine (List.toFinset_card_le _).trans ?_
      rw [← hl, e, List.length_map]
    have heq := Finset.eq_of_subset_of_card_le hsub hcard
    rw [e] at hx
    obtain ⟨y, hy, rfl⟩ := List.mem_map.1 hx
    have hy' : y ∈ (Finset.range k).image s := by rw [heq]; exact List.mem_toFinset.2 hy
    obtain ⟨n, hn, rfl⟩ := Finset.mem_image.1 hy'
    exact hle n (Finset.mem_range.1 hn)
  · push Not at hall
    obtain ⟨n, hn, hn'⟩ := hall
    exact (hfar (s n) hn' x hx).trans (hle n hn)

/-- **C82** `PDD` with rounded operations ends, with or without collapsing. -/
theorem C82_pdd_terminates (hD : 0 < D) (h : Workable S inds mult fl u κ M) (hC : FloatCall fl S.motif S.cell inds C) (total : List ℝ → ℝ) (k : ℕ) (lexsort collapse : Bool) (tol : ℝ) :
    ∃ F, ∀ fuel, F ≤ fuel → ∃ pdd, pddR fl total S C k lexsort collapse tol fuel = .ok pdd := by
  obtain ⟨F, hF⟩ := nearestNeighborsR_terminates hD h.cell h.nonempty h.precise (C81_accurate hD h.rounding h.cancels h.size hC) (k := k + 1) (by omega)
  refine ⟨F, fun fuel hf => ?_⟩
  obtain ⟨rows, hr⟩ := hF fuel hf
  have hl := nearestNeighborsR_length hD (List.length_pos_iff.2 h.nonempty) (List.length_pos_iff.1 h.pos') (by omega) (C81_accurate hD h.rounding h.cancels h.size hC).selfZero hr
  rw [pddR_eq h.units, hr]
  simp only [Except.bind]
  rw [if_neg (by rw [hl, units_length h.units]; simp)]
  exact ⟨_, rfl⟩

/-- **C82** (partial) The PDD computed with rounded operations represents rows that differ from the true PDD by at most what merging allows: none without collapsing, and otherwise rows whose
computed distance to the first of the group is at most the tolerance. The rows that are represented have weights of at least `2e-8` and total weight 1. Missing: cells that are too oblique. -/
theorem C82_pdd_partial (hD : 0 < D) (h : Workable S inds mult fl u κ M) {total : List ℝ → ℝ} (htotal : FloatSum fl total) {k : ℕ} (hs : Covered S.motif S.cell (k + 1))
    (hC : FloatCall fl S.motif S.cell inds C) {P : List (PRow ℝ)} (hP : TruePDD S inds mult k P) {B : ℝ} (hB0 : 0 ≤ B) (hB : ∀ r ∈ P, ∀ x ∈ r.dists, x ≤ B) {lexsort collapse : Bool}
    {tol : ℝ} (htol : 0 ≤ tol) {fuel : ℕ} {pdd : List (PRow ℝ)} (hok : pddR fl total S C k lexsort collapse tol fuel = .ok pdd) :
    ∃ P', WeightedRows k P' ∧ P'.length ≤ inds.length ∧ exactEmd chebyshev P P' ≤ (if collapse then mergeError u tol (precision D u κ) M B else 0) ∧
      List.Forall₂ (Represents fl k (pddError inds.length u (precision D u κ) M B)) P' pdd := by
  obtain ⟨P', h1, h2, -, h4, h5⟩ := pddR_represents hD h h.le_half htotal hs hC hP hB0 hB htol hok
  exact ⟨P', h1, h2, h4, h5⟩

/-- What is proved about a distance of two computed PDDs. -/
theorem emd_of_pdds (hD : 0 < D) (hmono : Monotone fl) (h : Workable S inds mult fl u κ M) (h' : Workable S' inds' mult' fl u κ' M') {total total' : List ℝ → ℝ}
    (htotal : FloatSum fl total) (htotal' : FloatSum fl total') {dot : List (ℝ × ℝ) → ℝ} (hdot : FloatDot fl dot) {k : ℕ} (hs : Covered S.motif S.cell (k + 1))
    (hs' : Covered S'.motif S'.cell (k + 1)) (hC : FloatCall fl S.motif S.cell inds C) (hC' : FloatCall fl S'.motif S'.cell inds' C') {P P' : List (PRow ℝ)}
    (hP : TruePDD S inds mult k P) (hP' : TruePDD S' inds' mult' k P') {B : ℝ} (hB0 : 0 ≤ B) (hB : ∀ r ∈ P ++ P', ∀ x ∈ r.dists, x ≤ B) {lexsort lexsort' collapse collapse' : Bool}
    {tol tol' : ℝ} (htol : 0 ≤ tol) (htol' : 0 ≤ tol') {f f' : ℕ} {p p' : List (PRow ℝ)} (hp : pddR fl total S C k lexsort collapse tol f = .ok p)
    (hp' : pddR fl total' S' C' k lexsort' collapse' tol' f' = .ok p') :
    (∃ F, ∀ fuel, F ≤ fuel → ∃ r, emdR fl dot p p' fuel = .ok r) ∧ ∀ fuel d plan, emdR fl dot p p' fuel = .ok (d, plan) →
      0 ≤ d ∧ |d - exactEmd chebyshev P P'| ≤ emdRounding u (max inds.length inds'.length) (inds.length * inds'.length) B
          (pddError inds.length u (precision D u κ) M B + pddError inds'.length u (precision D u κ') M' B)
        + (if collapse then mergeError u tol (precision D u κ) M B else 0) + (if collapse' then mergeError u tol' (precision D u κ') M' B else 0) := by
  have hW := hP.weighted h
  have hW' := hP'.weighted h'
  obtain ⟨Q, a1, a2, a3, a4, a5⟩ := pddR_represents hD h h.le_half htotal hs hC hP hB0 (fun r hr => hB r (by simp [hr])) htol hp
  obtain ⟨Q', b1, b2, b3, b4, b5⟩ := pddR_represents hD h' h'.le_half htotal' hs' hC' hP' hB0 (fun r hr => hB r (by simp [hr])) htol' hp'
  have hu := h.rounding.nonneg
  have e1 := pddError_ge (n := inds.length) hu (precision_nonneg h.rounding h.cancels) (h.size.nonneg (List.length_pos_iff.1 h.pos')) hB0
  have e2 := pddError_ge (n := inds'.length) hu (precision_nonneg h'.rounding h'.cancels) (h'.size.nonneg (List.length_pos_iff.1 h'.pos')) hB0
  have g1 := e1.2.trans e1.1
  have g2 := e2.2.trans e2.1
  obtain ⟨t, n⟩ := emdR_near hu h.rounding.le_one h.rounding.error hmono hdot g1 g2 a1 b1 a5 b5
    (fun r hr s hs => chebyshev_range hB0 (a1.width r hr) (b1.width s hs) (a3 r hr) (b3 s hs))
  refine ⟨t, fun fuel d plan hd => ?_⟩
  obtain ⟨n0, n1⟩ := n fuel d plan hd
  refine ⟨n0, ?_⟩
  have m := emdRounding_mono hu (max_le_max a2 b2) (Nat.mul_le_mul a2 b2) hB0 (add_nonneg g1 g2)
  have t1 := exactEmd_triangle (chebyshev_metric k) hW a1 hW'
  have t2 := exactEmd_triangle (chebyshev_metric k) a1 b1 hW'
  have t3 := exactEmd_triangle (chebyshev_metric k) a1 hW b1
  have t4 := exactEmd_triangle (chebyshev_metric k) hW hW' b1
  rw [exactEmd_symm (chebyshev_metric k) hW' b1] at t2
  rw [exactEmd_symm (chebyshev_metric k) hW a1] at t3
  rw [abs_le] at *
  constructor <;> linarith [n1.1, n1.2]

/-- **C82** (partial) `EMD` of two PDDs, all computed with rounded operations, ends. Missing: cells that are too oblique for the number of neighbours. -/
theorem C82_emd_terminates_partial (hD : 0 < D) (hmono : Monotone fl) (h : Workable S inds mult fl u κ M) (h' : Workable S' inds' mult' fl u κ' M') {total total' : List ℝ → ℝ}
    (htotal : FloatSum fl total) (htotal' : FloatSum fl total') {dot : List (ℝ × ℝ) → ℝ} (hdot : FloatDot fl dot) {k : ℕ} (hs : Covered S.motif S.cell (k + 1))
    (hs' : Covered S'.motif S'.cell (k + 1)) (hC : FloatCall fl S.motif S.cell inds C) (hC' : FloatCall fl S'.motif S'.cell inds' C') {lexsort lexsort' collapse collapse' : Bool}
    {tol tol' : ℝ} (htol : 0 ≤ tol) (htol' : 0 ≤ tol') {f f' : ℕ} {p p' : List (PRow ℝ)} (hp : pddR fl total S C k lexsort collapse tol f = .ok p)
    (hp' : pddR fl total' S' C' k lexsort' collapse' tol' f' = .ok p') :
    ∃ F, ∀ fuel, F ≤ fuel → ∃ r, emdR fl dot p p' fuel = .ok r := by
  obtain ⟨P, hP⟩ := exists_truePDD hD h k
  obtain ⟨P', hP'⟩ := exists_truePDD hD h' k
  obtain ⟨B, hB0, hB⟩ := exists_rows_bound (P ++ P')
  exact (emd_of_pdds hD hmono h h' htotal htotal' hdot hs hs' hC hC' hP hP' hB0 hB htol htol' hp hp').1

/-- **C82** (partial) `EMD` of two PDDs, all computed with rounded operations, differs from the Earth mover's distance of the true PDDs by at most the error of rounding and, with
collapsing, what merging allows. Missing: cells that are too oblique for the number of neighbours. -/
theorem C82_emd_partial (hD : 0 < D) (hmono : Monotone fl) (h : Workable S inds mult fl u κ M) (h' : Workable S' inds' mult' fl u κ' M') {total total' : List ℝ → ℝ}
    (htotal : FloatSum fl total) (htotal' : FloatSum fl total') {dot : List (ℝ × ℝ) → ℝ} (hdot : FloatDot fl dot) {k : ℕ} (hs : Covered S.motif S.cell (k + 1))
    (hs' : Covered S'.motif S'.cell (k + 1)) (hC : FloatCall fl S.motif S.cell inds C) (hC' : FloatCall fl S'.motif S'.cell inds' C') {P P' : List (PRow ℝ)}
    (hP : TruePDD S inds mult k P) (hP' : TruePDD S' inds' mult' k P') {B : ℝ} (hB0 : 0 ≤ B) (hB : ∀ r ∈ P ++ P', ∀ x ∈ r.dists, x ≤ B) {lexsort lexsort' collapse collapse' : Bool}
    {tol tol' : ℝ} (htol : 0 ≤ tol) (htol' : 0 ≤ tol') {f f' : ℕ} {p p' : List (PRow ℝ)} (hp : pddR fl total S C k lexsort collapse tol f = .ok p)
    (hp' : pddR fl total' S' C' k lexsort' collapse' tol' f' = .ok p') {fuel : ℕ} {d : ℝ} {plan : List (List ℝ)} (hd : emdR fl dot p p' fuel = .ok (d, plan)) :
    0 ≤ d ∧ |d - exactEmd chebyshev P P'| ≤ emdRounding u (max inds.length inds'.length) (inds.length * inds'.length) B
        (pddError inds.length u (precision D u κ) M B + pddError inds'.length u (precision D u κ') M' B)
      + (if collapse then mergeError u tol (precision D u κ) M B else 0) + (if collapse' then mergeError u tol' (precision D u κ') M' B else 0) :=
  (emd_of_pdds hD hmono h h' htotal htotal' hdot hs hs' hC hC' hP hP' hB0 hB htol htol' hp hp').2 fuel d plan hd

theorem weightAt_truePDD (hd : IsDescription S inds mult) {k : ℕ} {R : Fin S.motif.length → List ℝ} (hR : ∀ i, IsNeighbourRow S.motif S.cell i k (R i)) {P : List (PRow ℝ)}
    (hP : TruePDD S inds mult k P) (x : List ℝ) : weightAt P x = (∑ i, (open Classical in if R i = x then (1 : ℝ) else 0)) / S.motif.length := by
  classical
  rw [weightAt_rows (f := R) (m := (S.motif.length : ℝ)) x (hP.imp fun u r hu => ⟨hu.1, hu.2.unique (hR u.1)⟩),
    isAsymUnit_sum_fun hd.once hd.asym hR fun r => if r = x then (1 : ℝ) else 0]

theorem exactEmd_truePDD (hD : 0 < D) (hd : IsDescription S inds mult) (hd' : IsDescription S' inds' mult') (hiso : Isometric S S') (h : Workable S inds mult fl u κ M)
    (h' : Workable S' inds' mult' fl u κ' M') {k : ℕ} {P P' : List (PRow ℝ)} (hP : TruePDD S inds mult k P) (hP' : TruePDD S' inds' mult' k P') : exactEmd chebyshev P P' = 0 := by
  classical
  obtain ⟨T, hT, hp⟩ := hiso
  choose R hR using fun i : Fin S.motif.length => exists_neighbourRow hD hd.cell i k
  choose R' hR' using fun i : Fin S'.motif.length => exists_neighbourRow hD hd'.cell i k
  refine exactEmd_zero (chebyshev_metric k) (hP.weighted h) (hP'.weighted h') fun x => ?_
  rw [weightAt_truePDD hd hR hP, weightAt_truePDD hd' hR' hP']
  exact mean_rows_isometry hT hd.once hd'.once hp hd.nonempty hd'.nonempty hR hR' fun r => if r = x then (1 : ℝ) else 0

/-- **C82** (partial) The computed `EMD` of computed PDDs of isometric periodic sets is at most the error of rounding and, with collapsing, what merging allows, whatever the two
descriptions. Missing: cells that are too oblique for the number of neighbours. -/
theorem C82_isometric_partial (hD : 0 < D) (hd : IsDescription S inds mult) (hd' : IsDescription S' inds' mult') (hiso : Isometric S S') (hmono : Monotone fl)
    (h : Workable S inds mult fl u κ M) (h' : Workable S' inds' mult' fl u κ' M') {total total' : List ℝ → ℝ}
    (htotal : FloatSum fl total) (htotal' : FloatSum fl total') {dot : List (ℝ × ℝ) → ℝ} (hdot : FloatDot fl dot) {k : ℕ} (hs : Covered S.motif S.cell (k + 1))
    (hs' : Covered S'.motif S'.cell (k + 1)) (hC : FloatCall fl S.motif S.cell inds C) (hC' : FloatCall fl S'.motif S'.cell inds' C') {P P' : List (PRow ℝ)}
    (hP : TruePDD S inds mult k P) (hP' : TruePDD S' inds' mult' k P') {B : ℝ} (hB0 : 0 ≤ B) (hB : ∀ r ∈ P ++ P', ∀ x ∈ r.dists, x ≤ B) {lexsort lexsort' collapse collapse' : Bool}
    {tol tol' : ℝ} (htol : 0 ≤ tol) (htol' : 0 ≤ tol') {f f' : ℕ} {p p' : List (PRow ℝ)} (hp : pddR fl total S C k lexsort collapse tol f = .ok p)
    (hp' : pddR fl total' S' C' k lexsort' collapse' tol' f' = .ok p') {fuel : ℕ} {d : ℝ} {plan : List (List ℝ)} (hd : emdR fl dot p p' fuel = .ok (d, plan)) :
    0 ≤ d ∧ d ≤ emdRounding u (max inds.length inds'.length) (inds.length * inds'.length) B
        (pddError inds.length u (precision D u κ) M B + pddError inds'.length u (precision D u κ') M' B)
      + (if collapse then mergeError u tol (precision D u κ) M B else 0) + (if collapse' then mergeError u tol' (precision D u κ') M' B else 0) := by
  obtain ⟨h0, h1⟩ := C82_emd_partial hD hmono h h' htotal htotal' hdot hs hs' hC hC' hP hP' hB0 hB htol htol' hp hp' hd
  rw [exactEmd_truePDD hD ‹IsDescription S inds mult› hd' hiso h h' hP hP', sub_zero] at h1
  exact ⟨h0, (le_abs_self d).trans h1⟩

/-! ### An example: pairs of points on the line, numbers above 5 being changed by the rounding -/

/-- A monotone rounding with errors of one part in `1e12` above 5. -/
noncomputable def stretch (x : ℝ) : ℝ := if x ≤ 5 then x else (1 + 1 / 1000000000000) * x

theorem stretch_mono : Monotone stretch := by
  intro a b hab
  unfold stretch
  split_ifs <;> nlinarith

theorem stretch_rounding {motif : List (Pt D ℝ)} (h : ∀ p ∈ motif, ∀ j, p j ≤ 5) : IsRounding stretch (1 / 1000000000000) motif := by
  refine ⟨by norm_num, by norm_num, fun x => ?_, fun p hp j => if_pos (h p hp j)⟩
  unfold stretch
  split_ifs
  · rw [sub_self, abs_zero]; positivity
  · have e : (1 + 1 / 1000000000000) * x - x = 1 / 1000000000000 * x := by ring
    rw [e, abs_mul, abs_of_pos (a := (1 : ℝ) / 1000000000000) (by norm_num)]

theorem stretch_linePairs : Workable linePairs (List.finRange 2) [1, 1] stretch (1 / 1000000000000) 1 1 := by
  have hd := linePairs_description
  refine ⟨hd.cell, hd.units, hd.inds_ne, hd.pos, hd.sum, stretch_rounding ?_, line_cancels, line_size ?_, by unfold precision; norm_num, ?_, ?_⟩
  · intro p hp j
    simp only [linePairs, List.mem_cons, List.not_mem_nil, or_false] at hp
    rcases hp with rfl | rfl <;> fin_cases j <;> norm_num
  · intro q hq
    simp only [linePairs, List.mem_cons, List.not_mem_nil, or_false] at hq
    rcases hq with rfl | rfl <;> norm_num
  · show 2 ≤ 50000000
    norm_num
  · show 100000000 * ((1 + 1 / 1000000000000) ^ (2 + 2) - 1) * ((2 : ℕ) : ℝ) < 1
    norm_num

theorem stretch_lineMirror : Workable lineMirror [(0 : Fin 4)] [4] stretch (1 / 1000000000000) 1 5 := by
  have hd := lineMirror_description
  refine ⟨hd.cell, hd.units, hd.inds_ne, hd.pos, hd.sum, stretch_rounding ?_, line_cancels, line_size ?_, by unfold precision; norm_num, ?_, ?_⟩
  · intro p hp j
    simp only [lineMirror, List.mem_cons, List.not_mem_nil, or_false] at hp
    rcases hp with rfl | rfl | rfl | rfl <;> fin_cases j <;> norm_num
  · intro q hq
    simp only [lineMirror, List.mem_cons, List.not_mem_nil, or_false] at hq
    rcases hq with rfl | rfl | rfl | rfl <;> norm_num
  · show 4 ≤ 50000000
    norm_num
  · show 100000000 * ((1 + 1 / 1000000000000) ^ (4 + 2) - 1) * ((4 : ℕ) : ℝ) < 1
    norm_num

/-- The hypotheses of the theorems are met, with rounding errors and with collapsing: here all rows of the first PDD are merged in exact arithmetic. The right-hand side is below
`1e-4`. -/
example : ∃ (C : Computed linePairs.motif.length 1) (C' : Computed lineMirror.motif.length 1) (total : List ℝ → ℝ) (dot : List (ℝ × ℝ) → ℝ) (f f' fuel : ℕ) (p p' : List (PRow ℝ)) (d : ℝ)
      (plan : List (List ℝ)),
    FloatCall stretch linePairs.motif linePairs.cell (List.finRange 2) C ∧ FloatCall stretch lineMirror.motif lineMirror.cell [(0 : Fin 4)] C' ∧ FloatSum stretch total ∧
    FloatDot stretch dot ∧ pddR stretch total linePairs C 5 true true 0 f = .ok p ∧ pddR stretch total lineMirror C' 5 true true 0 f' = .ok p' ∧ emdR stretch dot p p' fuel = .ok (d, plan) ∧
    stretch 6 ≠ 6 ∧ ∃ P P', TruePDD linePairs (List.finRange 2) [1, 1] 5 P ∧ TruePDD lineMirror [(0 : Fin 4)] [4] 5 P' ∧ 0 ≤ d ∧ d ≤ 1 / 10000 := by
  have hd := linePairs_description
  have hd' := lineMirror_description
  obtain ⟨C, hC⟩ := exists_floatCall stretch (by decide) linePairs.motif linePairs.cell (List.finRange 2)
  obtain ⟨C', hC'⟩ := exists_floatCall stretch (by decide) lineMirror.motif lineMirror.cell [(0 : Fin 4)]
  obtain ⟨total, htotal⟩ := exists_floatSum stretch
  obtain ⟨dot, hdot⟩ := exists_floatDot stretch
  have f1 : FitsInCell linePairs.motif linePairs.cell := line_fits (by norm_num) fun q hq => by
    simp only [linePairs, List.mem_cons, List.not_mem_nil, or_false] at hq
    rcases hq with rfl | rfl <;> norm_num
  have f2 : FitsInCell lineMirror.motif lineMirror.cell := line_fits (by norm_num) fun q hq => by
    simp only [lineMirror, List.mem_cons, List.not_mem_nil, or_false] at hq
    rcases hq with rfl | rfl | rfl | rfl <;> norm_num
  have c1 : Covered linePairs.motif linePairs.cell 6 := Or.inl ⟨f1, 1, 1, le_rfl, fun i => by fin_cases i; simp [linePairs, gram], by simp, Or.inl (by norm_num)⟩
  have c2 : Covered lineMirror.motif lineMirror.cell 6 := Or.inl ⟨f2, 1, 1, le_rfl, fun i => by fin_cases i; simp [lineMirror, gram], by simp, Or.inl (by norm_num)⟩
  obtain ⟨f, hf⟩ := C82_pdd_terminates (by decide) stretch_linePairs hC total 5 true true 0
  obtain ⟨f', hf'⟩ := C82_pdd_terminates (by decide) stretch_lineMirror hC' total 5 true true 0
  obtain ⟨p, hp⟩ := hf f le_rfl
  obtain ⟨p', hp'⟩ := hf' f' le_rfl
  obtain ⟨fuel, hfuel⟩ := C82_emd_terminates_partial (by decide) stretch_mono stretch_linePairs stretch_lineMirror htotal htotal hdot c1 c2 hC hC' le_rfl le_rfl hp hp'
  obtain ⟨⟨d, plan⟩, hr⟩ := hfuel fuel le_rfl
  obtain ⟨P, hP⟩ := exists_truePDD (by decide) stretch_linePairs 5
  obtain ⟨P', hP'⟩ := exists_truePDD (by decide) stretch_lineMirror 5
  refine ⟨C, C', total, dot, f, f', fuel, p, p', d, plan, hC, hC', htotal, hdot, hp, hp', hr, by norm_num [stretch], P, P', hP, hP', ?_⟩
  have hB : ∀ r ∈ P ++ P', ∀ x ∈ r.dists, x ≤ 30 := by
    intro r hr x hx
    rcases List.mem_append.1 hr with hr | hr
    · obtain ⟨i, hi, rfl⟩ := List.mem_iff_getElem.1 hr
      refine (C82_range (hP.row hd.units hi).2 0 x hx).2.trans ?_
      rw [show eucl (linePairs.cell 0) 0 = 3 by simp [eucl, sqDist, linePairs]]
      norm_num
    · obtain ⟨i, hi, rfl⟩ := List.mem_iff_getElem.1 hr
      refine (C82_range (hP'.row hd'.units hi).2 0 x hx).2.trans ?_
      rw [show eucl (lineMirror.cell 0) 0 = 6 by simp [eucl, sqDist, lineMirror]]
      norm_num
  obtain ⟨g0, g1⟩ := C82_isometric_partial (by decide) hd hd' line_isometric stretch_mono stretch_linePairs stretch_lineMirror htotal htotal hdot c1 c2 hC hC' hP hP' (by norm_num) hB le_rfl
    le_rfl hp hp' hr
  refine ⟨g0, g1.trans ?_⟩
  rw [if_pos rfl, if_pos rfl]
  show emdRounding _ (max 2 1) (2 * 1) _ (pddError 2 _ _ _ _ + pddError 1 _ _ _ _) + _ + _ ≤ _
  unfold emdRounding pddError mergeError emdTol precision
  norm_num

end Amd
