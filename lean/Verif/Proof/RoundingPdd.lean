import Verif.Proof.RoundingCollapse
import Verif.Props.Rounding

/-!
# The PDD computed with rounded arithmetic represents the true one
-/

namespace Amd

variable {D : ℕ} {S : PeriodicSet D} {inds : List (Fin S.motif.length)} {mult : List ℕ} {fl : ℝ → ℝ} {u κ M : ℝ}

theorem Workable.pos' (h : Workable S inds mult fl u κ M) : 0 < S.motif.length := by
  obtain ⟨i, _⟩ := List.exists_mem_of_ne_nil _ h.nonempty
  exact i.pos

theorem neighbourRow_nonneg {motif : List (Pt D ℝ)} {cell : Fin D → Pt D ℝ} {i : Fin motif.length} {k : ℕ} {r : List ℝ} (h : IsNeighbourRow motif cell i k r) : ∀ x ∈ r, 0 ≤ x := by
  obtain ⟨-, idx, -, rfl, -⟩ := h
  intro x hx
  obtain ⟨s, -, rfl⟩ := List.mem_map.1 hx
  exact Real.sqrt_nonneg _

theorem TruePDD.length {k : ℕ} {P : List (PRow ℝ)} (hP : TruePDD S inds mult k P) (hu : S.Units inds mult) : P.length = inds.length := by
  have := hP.length_eq
  rw [List.length_zip, ← units_length hu, min_self] at this
  exact this.symm

theorem TruePDD.row {k : ℕ} {P : List (PRow ℝ)} (hP : TruePDD S inds mult k P) (hu : S.Units inds mult) {i : ℕ} (hi : i < P.length) :
    P[i].weight = (mult.getD i 0 : ℕ) / (S.motif.length : ℝ) ∧ IsNeighbourRow S.motif S.cell (inds[i]'(hP.length hu ▸ hi)) k P[i].dists := by
  have hl := hP.length hu
  have hm := units_length hu
  unfold TruePDD at hP
  rw [List.forall₂_iff_get] at hP
  have := hP.2 i (by rw [List.length_zip]; omega) hi
  simp only [List.get_eq_getElem, List.getElem_zip] at this
  rw [List.getD_eq_getElem _ _ (by omega)]
  exact this

theorem TruePDD.weighted (h : Workable S inds mult fl u κ M) {k : ℕ} {P : List (PRow ℝ)} (hP : TruePDD S inds mult k P) : WeightedRows k P := by
  have hl := hP.length h.units
  have hm := units_length h.units
  have hm0 : (0 : ℝ) < S.motif.length := by exact_mod_cast h.pos'
  refine ⟨?_, ?_, ?_, ?_⟩
  · rintro rfl
    exact h.nonempty (List.length_eq_zero_iff.1 hl.symm)
  · intro r hr
    obtain ⟨i, hi, rfl⟩ := List.mem_iff_getElem.1 hr
    exact (hP.row h.units hi).2.1
  · intro r hr
    obtain ⟨i, hi, rfl⟩ := List.mem_iff_getElem.1 hr
    rw [(hP.row h.units hi).1, List.getD_eq_getElem _ _ (by omega), div_le_div_iff₀ (by norm_num) hm0]
    have h1 : (1 : ℝ) ≤ (mult[i]'(by omega) : ℕ) := by exact_mod_cast h.pos _ (List.getElem_mem _)
    have h2 : (S.motif.length : ℝ) ≤ 50000000 := by exact_mod_cast h.few
    nlinarith
  · have e : P.map (fun r => r.weight) = mult.map fun n : ℕ => (n : ℝ) / (S.motif.length : ℝ) := by
      refine List.ext_getElem (by simp [hl, hm]) fun i h1 h2 => ?_
      rw [List.getElem_map, List.getElem_map, (hP.row h.units (by simpa using h1)).1, List.getD_eq_getElem _ _ (by simpa using h2)]
    have e2 : ∀ l : List ℕ, (l.map fun n : ℕ => (n : ℝ) / (S.motif.length : ℝ)).sum = (l.sum : ℕ) / (S.motif.length : ℝ) := by
      intro l
      induction l with
      | nil => simp
      | cons n l ih => simp only [List.map_cons, List.sum_cons, ih, Nat.cast_add, add_div]
    rw [e, e2, h.sum, div_self hm0.ne']

theorem pddR_eq (h : S.Units inds mult) (C : Computed S.motif.length D) (total : List ℝ → ℝ) (k : ℕ) (lexsort collapse : Bool) (tol : ℝ) (fuel : ℕ) :
    pddR fl total S C k lexsort collapse tol fuel = (nearestNeighborsR C inds.length (k + 1) fuel).bind fun dists =>
      if mult.length ≠ dists.length then .error .bounds
      else .ok (lexsortRows lexsort (collapseRowsR fl total k collapse tol (dists.map (·.drop 1)) (mult.map fun n : ℕ => fl ((n : ℝ) / (S.motif.length : ℝ))))) := by
  unfold pddR
  rw [asymPoints_units h]
  simp only [bind, Except.bind, List.length_map]

theorem nearestNeighborsR_length (hD : 0 < D) {motif : List (Pt D ℝ)} {C : Computed motif.length D} {nx k fuel : ℕ} (hx : 0 < nx) (hm : motif ≠ []) (hk : 0 < k) (hC : SelfZero C nx)
    {rows : List (List ℝ)} (h : nearestNeighborsR C nx k fuel = .ok rows) : rows.length = nx := by
  obtain ⟨dsq, h1, h2, h3⟩ := diamR_spec hD (C := C) hx hm k
  rw [nearestNeighborsR_eq _ _ h1] at h
  rcases nnLoopR_spec hD hx hk hC fuel _ _ (searchedTo_start hD hm C nx k dsq) with hf | ⟨d, E, hd, hok, hE, hfar⟩
  · rw [hf] at h; cases h
  · rw [hok] at h
    injection h with h
    rw [← h]
    simp [rowsOf]

theorem pddError_ge {n : ℕ} {u ε M B : ℝ} (hu : 0 ≤ u) (hε : 0 ≤ ε) (hM : 0 ≤ M) (hB : 0 ≤ B) : 7 * ε * (B + M) ≤ pddError n u ε M B ∧ 0 ≤ 7 * ε * (B + M) := by
  have h1 : 1 ≤ (1 + u) ^ (n + 1) := one_le_pow₀ (by linarith)
  have h2 : 0 ≤ 7 * ε * (B + M) := by positivity
  have h3 : 0 ≤ ((1 + u) ^ (n + 1) - 1) * (B + 7 * ε * (B + M)) := mul_nonneg (by linarith) (by linarith)
  exact ⟨by unfold pddError; linarith, h2⟩

/-- What is computed represents rows that are the true ones, or merged from close ones. -/
theorem collapseR_represents (h : Workable S inds mult fl u κ M) (hu2 : u ≤ 1 / 2) {total : List ℝ → ℝ} (htotal : FloatSum fl total) {k : ℕ} {P : List (PRow ℝ)}
    (hP : TruePDD S inds mult k P) {B ε : ℝ} (hB0 : 0 ≤ B) (hM0 : 0 ≤ M) (hε : 0 ≤ ε) (hB : ∀ r ∈ P, ∀ x ∈ r.dists, x ≤ B) {dists : List (List ℝ)} (hdl : dists.length = P.length)
    (hdw : ∀ r ∈ dists, r.length = k) (hd : ∀ i < P.length, ∀ j < k, |(dists.getD i []).getD j 0 - ((P.map fun r => r.dists).getD i []).getD j 0| ≤ 7 * ε * (B + M))
    (collapse : Bool) {tol : ℝ} (htol : 0 ≤ tol) :
    ∃ P', WeightedRows k P' ∧ P'.length ≤ inds.length ∧ (∀ r ∈ P', ∀ x ∈ r.dists, 0 ≤ x ∧ x ≤ B) ∧
      exactEmd chebyshev P P' ≤ (if collapse then mergeError u tol ε M B else 0) ∧
      List.Forall₂ (Represents fl k (pddError inds.length u ε M B)) P'
        (collapseRowsR fl total k collapse tol dists (mult.map fun n : ℕ => fl ((n : ℝ) / (S.motif.length : ℝ)))) := by
  have hW := hP.weighted h
  have hl := hP.length h.units
  have hml := units_length h.units
  have hfl := h.rounding.error
  have hu := h.rounding.nonneg
  have hu1 := h.rounding.le_one
  obtain ⟨hE1, hE0⟩ := pddError_ge (n := inds.length) hu hε hM0 hB0
  have hrange : ∀ r ∈ P, ∀ x ∈ r.dists, 0 ≤ x ∧ x ≤ B := by
    intro r hr x hx
    refine ⟨?_, hB r hr x hx⟩
    obtain ⟨i, hi, rfl⟩ := List.mem_iff_getElem.1 hr
    exact neighbourRow_nonneg (hP.row h.units hi).2 x hx
  have hrange' : ∀ i < P.length, ∀ j < k, 0 ≤ ((P.map fun r => r.dists).getD i []).getD j 0 ∧ ((P.map fun r => r.dists).getD i []).getD j 0 ≤ B := by
    intro i hi j hj
    rw [base_dists hi, List.getD_eq_getElem _ _ (by rw [hW.width _ (List.getElem_mem _)]; exact hj)]
    exact hrange _ (List.getElem_mem _) _ (List.getElem_mem _)
  by_cases hc : (collapse && (List.range dists.length).any fun i => (List.range dists.length).any fun j => overlapAtR fl tol dists i j) = true
  · -- merged
    have hcol : collapse = true := by
      rw [Bool.and_eq_true] at hc
      exact hc.1
    have hG := collapseIntoGroups_spec dists.length (overlapAtR fl tol dists) (fun i => by simp [overlapAtR])
    set G := collapseIntoGroups dists.length (overlapAtR fl tol dists) with hGdef
    have hperm : G.flatten.Perm (List.range P.length) := hdl ▸ hG.perm
    have hcr : collapseRowsR fl total k collapse tol dists (mult.map fun n : ℕ => fl ((n : ℝ) / (S.motif.length : ℝ))) = G.map fun g =>
        { weight := total (g.map fun i => (mult.map fun n : ℕ => fl ((n : ℝ) / (S.motif.length : ℝ))).getD i 0)
          dists := (List.range k).map fun j => fl (total (g.map fun i => (dists.getD i []).getD j 0) / (g.length : ℝ))
          group := g } := by
      unfold collapseRowsR
      dsimp only
      rw [if_pos hc]
    refine ⟨mergedRows k P G, merged_weighted hW hperm hG.nonempty, ?_, merged_range hW.width hperm hG.nonempty hrange, ?_, ?_⟩
    · have h1 : (mergedRows k P G).length = G.length := by unfold mergedRows; rw [List.length_map]
      have h2 : G.length ≤ G.flatten.length := by
        rw [List.length_flatten]
        have := List.card_nsmul_le_sum (G.map List.length) 1 (by
          intro x hx
          obtain ⟨g, hg, rfl⟩ := List.mem_map.1 hx
          exact List.length_pos_iff.2 (hG.nonempty g hg))
        simpa using this
      rw [hperm.length_eq, List.length_range, hl] at h2
      omega
    · rw [if_pos hcol]
      have hc0 : 0 ≤ (1 + 2 * u) * tol + 2 * (7 * ε * (B + M)) := by positivity
      refine merged_near hW hperm hG.nonempty hc0 fun g hg => ?_
      obtain ⟨l, t, e⟩ := List.exists_cons_of_ne_nil (hG.nonempty g hg)
      refine ⟨l, by rw [e]; simp, fun i hi j hj => ?_⟩
      have hil := group_lt hperm hg hi
      have hll := group_lt hperm hg (show l ∈ g by rw [e]; simp)
      rw [e] at hi
      rcases List.mem_cons.mp hi with rfl | h'
      · simpa using hc0
      · have hov := hG.within _ hg l (by rw [e]; simp) i (by rw [e]; simpa using h')
        unfold overlapAtR at hov
        rw [Bool.and_eq_true, decide_eq_true_eq] at hov
        have hmin : min l i < dists.length := by omega
        have hmax : max l i < dists.length := by omega
        have hlenr : ∀ a < dists.length, (dists.getD a []).length = k := fun a ha => by
          rw [List.getD_eq_getElem _ _ ha]; exact hdw _ (List.getElem_mem _)
        obtain ⟨-, hce⟩ := chebyshevR_error hu hfl ((hlenr _ hmin).trans (hlenr _ hmax).symm)
        have hcle : chebyshev (dists.getD (min l i) []) (dists.getD (max l i) []) ≤ (1 + 2 * u) * tol := by
          have h0 := ((chebyshev_le_iff ((hlenr _ hmin).trans (hlenr _ hmax).symm)).1 le_rfl).1
          have h1 := (abs_le.1 hce).1
          have h2 := hov.2
          set c := chebyshev (dists.getD (min l i) []) (dists.getD (max l i) [])
          have h3 : (1 - u) * c ≤ tol := by linarith
          have h4 : 1 ≤ (1 + 2 * u) * (1 - u) := by nlinarith
          calc c ≤ (1 + 2 * u) * (1 - u) * c := le_mul_of_one_le_left h0 h4
            _ = (1 + 2 * u) * ((1 - u) * c) := by ring
            _ ≤ _ := mul_le_mul_of_nonneg_left h3 (by linarith)
        have hcj := ((chebyshev_le_iff ((hlenr _ hmin).trans (hlenr _ hmax).symm)).1 hcle).2 j (by rw [hlenr _ hmin]; exact hj)
        have hcj' : |(dists.getD i []).getD j 0 - (dists.getD l []).getD j 0| ≤ (1 + 2 * u) * tol := by
          rcases le_total l i with h1 | h1
          · rw [min_eq_left h1, max_eq_right h1, abs_sub_comm] at hcj
            exact hcj
          · rw [min_eq_right h1, max_eq_left h1] at hcj
            exact hcj
        have d1 := hd i hil j hj
        have d2 := hd l hll j hj
        rw [abs_le] at *
        constructor <;> linarith [d1.1, d1.2, d2.1, d2.2, hcj'.1, hcj'.2]
    · rw [hcr]
      have := merged_represents (base := P) hu hu1 hfl htotal h.pos h.sum h.few h.resolved (by omega)
        (fun i hi => by rw [base_weight hi]; exact (hP.row h.units hi).1) hrange' hd hperm hG.nonempty
      rw [hl] at this
      exact this
  · refine ⟨P, hW, hl.le, hrange, ?_, ?_⟩
    · have h0 : exactEmd chebyshev P P = 0 := exactEmd_zero (chebyshev_metric k) hW hW fun _ => rfl
      rw [h0]
      split_ifs
      · unfold mergeError; positivity
      · exact le_rfl
    · have hcr : collapseRowsR fl total k collapse tol dists (mult.map fun n : ℕ => fl ((n : ℝ) / (S.motif.length : ℝ))) = (List.range dists.length).map fun i =>
          { weight := (mult.map fun n : ℕ => fl ((n : ℝ) / (S.motif.length : ℝ))).getD i 0, dists := dists.getD i [], group := [i] } := by
        unfold collapseRowsR
        dsimp only
        rw [if_neg hc]
      rw [hcr, List.forall₂_iff_get]
      refine ⟨by simp [hdl], fun i h1 h2 => ?_⟩
      have hm : i < mult.length := by omega
      simp only [List.get_eq_getElem, List.getElem_map, List.getElem_range]
      have hwt : (mult.map fun n : ℕ => fl ((n : ℝ) / (S.motif.length : ℝ))).getD i 0 = fl ((mult[i] : ℝ) / (S.motif.length : ℝ)) := by
        rw [List.getD_eq_getElem _ _ (by simpa using hm), List.getElem_map]
      have hv0 : 0 ≤ fl ((mult[i] : ℝ) / (S.motif.length : ℝ)) := fl_nonneg hu1 hfl (by positivity)
      have hmi : mult[i] ≤ S.motif.length := by
        rw [← h.sum]
        exact List.single_le_sum (fun _ _ => Nat.zero_le _) _ (List.getElem_mem _)
      have hm1 := h.pos _ (List.getElem_mem hm)
      refine ⟨by show (dists.getD i []).length = k; rw [List.getD_eq_getElem _ _ (by omega)]; exact hdw _ (List.getElem_mem _), fun j hj => ?_, ?_, ?_⟩
      · have := hd i h1 j hj
        rw [base_dists h1] at this
        exact this.trans hE1
      · dsimp only
        rw [hwt]
        exact hv0
      · dsimp only
        rw [hwt, (hP.row h.units h1).1, List.getD_eq_getElem _ _ hm]
        have e2 : (mult[i] : ℝ) / (S.motif.length : ℝ) * 100000000 = ((mult[i] * 100000000 : ℕ) : ℝ) / S.motif.length := by push_cast; ring
        rw [e2]
        have hS : SumR fl ([mult[i]].map fun n : ℕ => fl ((n : ℝ) / (S.motif.length : ℝ))) (fl ((mult[i] : ℝ) / (S.motif.length : ℝ))) := .one _
        have := weight_close hu hfl h.pos' hS (by simpa using hmi) (by simpa using Nat.succ_le_of_lt h.pos') h.resolved
        rw [List.sum_singleton] at this
        exact floor_close h.pos' (fl_nonneg hu1 hfl (by positivity)) this (by have := h.few; omega)

/-- The computed PDD. -/
theorem pddR_represents (hD : 0 < D) (h : Workable S inds mult fl u κ M) (hu2 : u ≤ 1 / 2) {total : List ℝ → ℝ} (htotal : FloatSum fl total) {k : ℕ}
    (hs : Covered S.motif S.cell (k + 1)) {C : Computed S.motif.length D} (hC : FloatCall fl S.motif S.cell inds C) {P : List (PRow ℝ)} (hP : TruePDD S inds mult k P) {B : ℝ}
    (hB0 : 0 ≤ B) (hB : ∀ r ∈ P, ∀ x ∈ r.dists, x ≤ B) {lexsort collapse : Bool} {tol : ℝ} (htol : 0 ≤ tol) {fuel : ℕ} {pdd : List (PRow ℝ)}
    (hok : pddR fl total S C k lexsort collapse tol fuel = .ok pdd) :
    ∃ P', WeightedRows k P' ∧ P'.length ≤ inds.length ∧ (∀ r ∈ P', ∀ x ∈ r.dists, 0 ≤ x ∧ x ≤ B) ∧
      exactEmd chebyshev P P' ≤ (if collapse then mergeError u tol (precision D u κ) M B else 0) ∧
      List.Forall₂ (Represents fl k (pddError inds.length u (precision D u κ) M B)) P' pdd := by
  have hW := hP.weighted h
  have hl := hP.length h.units
  have hε := precision_nonneg h.rounding h.cancels
  have hM0 := h.size.nonneg (List.length_pos_iff.1 h.pos')
  rw [pddR_eq h.units] at hok
  cases hd : nearestNeighborsR C inds.length (k + 1) fuel with
  | error e => rw [hd] at hok; cases hok
  | ok dists =>
    rw [hd] at hok
    simp only [Except.bind] at hok
    have hrows := C81_rows_partial hD h.cell h.nonempty h.rounding h.cancels h.size h.precise hC hs hd
    have hlen : dists.length = inds.length := hrows.length_eq.symm
    rw [if_neg (by rw [hlen, units_length h.units]; simp)] at hok
    injection hok with hok
    rw [List.forall₂_iff_get] at hrows
    obtain ⟨-, hf⟩ := hrows
    obtain ⟨P', a1, a2, a3, a4, a5⟩ := collapseR_represents h hu2 htotal hP hB0 hM0 hε hB (dists := dists.map (·.drop 1)) (by rw [List.length_map]; omega)
      (by
        intro r hr
        obtain ⟨r', hr', rfl⟩ := List.mem_map.1 hr
        obtain ⟨i, hi, rfl⟩ := List.mem_iff_getElem.1 hr'
        have := (hf i (by omega) hi).1
        simp only [List.get_eq_getElem] at this
        rw [List.length_drop, this]
        rfl)
      (by
        intro i hi j hj
        obtain ⟨e1, -, r, e3, e4⟩ := hf i (by omega) (by omega)
        simp only [List.get_eq_getElem] at e1 e3 e4
        have hr := (hP.row h.units hi).2.unique e3
        rw [base_dists hi, hr, List.getD_eq_getElem (dists.map _) _ (by rw [List.length_map]; omega), List.getElem_map]
        have := e4 j hj
        rw [List.getD_eq_getElem _ _ (by rw [e1]; omega)] at this
        rw [List.getD_eq_getElem (List.drop 1 _) _ (by rw [List.length_drop, e1]; omega), List.getElem_drop]
        have e5 : |(dists[i]'(by omega))[1 + j]'(by rw [e1]; omega) - r.getD j 0| ≤ 7 * precision D u κ * (r.getD j 0 + M) := by
          simpa [Nat.add_comm] using this
        refine e5.trans ?_
        have : r.getD j 0 ≤ B := by
          rw [← hr, List.getD_eq_getElem _ _ (by rw [hW.width _ (List.getElem_mem _)]; exact hj)]
          exact hB _ (List.getElem_mem _) _ (List.getElem_mem _)
        have : 0 ≤ 7 * precision D u κ := by linarith
        gcongr)
      collapse htol
    have hperm := lexsortRows_perm lexsort (collapseRowsR fl total k collapse tol (dists.map (·.drop 1)) (mult.map fun n : ℕ => fl ((n : ℝ) / (S.motif.length : ℝ))))
    rw [hok] at hperm
    obtain ⟨P'', b1, b2⟩ : ∃ P'', P'.Perm P'' ∧ List.Forall₂ (Represents fl k (pddError inds.length u (precision D u κ) M B)) P'' pdd := by
      have := List.forall₂_comp_perm_eq_perm_comp_forall₂ (r := Represents fl k (pddError inds.length u (precision D u κ) M B))
      have := congrFun (congrFun this P') pdd
      have h2 : (Relation.Comp (List.Forall₂ (Represents fl k (pddError inds.length u (precision D u κ) M B))) List.Perm) P' pdd := ⟨_, a5, hperm.symm⟩
      rw [this] at h2
      obtain ⟨P'', c1, c2⟩ := h2
      exact ⟨P'', c1, c2⟩
    have hW'' : WeightedRows k P'' := by
      refine ⟨fun e => a1.nonempty (by rw [e] at b1; exact b1.eq_nil), fun r hr => a1.width r (b1.symm.subset hr), fun r hr => a1.weights r (b1.symm.subset hr), ?_⟩
      rw [← (b1.map _).sum_eq]
      exact a1.total
    refine ⟨P'', hW'', by rw [← b1.length_eq]; exact a2, fun r hr => a3 r (b1.symm.subset hr), ?_, b2⟩
    rw [exactEmd_symm (chebyshev_metric k) hW'' hW, exactEmd_perm (chebyshev_metric k) hW'' a1 hW b1.symm, exactEmd_symm (chebyshev_metric k) hW a1]
    exact a4

end Amd
