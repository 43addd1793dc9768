import Verif.Proof.MinvalTerm

/-! Helper lemmas: when the rows of `nearest_neighbors_minval` are complete. -/

set_option linter.unusedSectionVars false

namespace Amd

/-- If adding entries leaves the first `c + 1` sorted entries unchanged, the added ones are not smaller than entry `c`. -/
theorem le_of_take_eq {l l' : List ℝ} {c : ℕ} (hc : c < l.length)
    (h : (l.insertionSort (· ≤ ·)).take (c + 1) = ((l ++ l').insertionSort (· ≤ ·)).take (c + 1)) :
    ∀ a ∈ l', ((l ++ l').insertionSort (· ≤ ·)).getD c 0 ≤ a := by
  set s := l.insertionSort (· ≤ ·) with hs
  set s' := (l ++ l').insertionSort (· ≤ ·) with hs'
  have hl : s.length = l.length := by simp [hs]
  have hl' : s'.length = l.length + l'.length := by simp [hs']
  have hse : s.getD c 0 = s'.getD c 0 := by
    rw [← getD_take (r := s) (n := c + 1) (by omega), h, getD_take (by omega)]
  set w := s'.getD c 0
  have h1 := (sorted_ge_iff (c := c) (v := w) (sorted_insertionSort' (l ++ l')) (by rw [← hs']; omega)).mp le_rfl
  have h2 := (sorted_ge_iff (c := c) (v := w) (sorted_insertionSort' l) (by rw [← hs]; omega)).mp hse.ge
  -- both filters are the filter of the common prefix
  have key : ∀ t : List ℝ, t.Pairwise (· ≤ ·) → c < t.length → t.getD c 0 = w →
      t.filter (fun a => decide (a < w)) = (t.take (c + 1)).filter fun a => decide (a < w) := by
    intro t ht hct hw
    conv_lhs => rw [← List.take_append_drop (c + 1) t]
    rw [List.filter_append]
    have : (t.drop (c + 1)).filter (fun a => decide (a < w)) = [] := by
      rw [List.filter_eq_nil_iff]
      intro a ha
      rw [← List.take_append_drop (c + 1) t, List.pairwise_append] at ht
      have hm : t.getD c 0 ∈ t.take (c + 1) := by
        rw [← getD_take (r := t) (n := c + 1) (by omega), List.getD_eq_getElem _ _ (by rw [List.length_take]; omega)]
        exact List.getElem_mem _
      have := ht.2.2 _ hm a ha
      rw [hw] at this
      simpa using this
    rw [this, List.append_nil]
  have e1 := key s (sorted_insertionSort' l) (by omega) hse
  have e2 := key s' (sorted_insertionSort' (l ++ l')) (by omega) rfl
  rw [h, ← e2] at e1
  have e3 : (l.filter fun a => decide (a < w)).length = ((l ++ l').filter fun a => decide (a < w)).length := by
    rw [← ((List.perm_insertionSort (· ≤ ·) l).filter _).length_eq, ← ((List.perm_insertionSort (· ≤ ·) (l ++ l')).filter _).length_eq]
    exact congrArg List.length e1
  rw [List.filter_append, List.length_append] at e3
  have e4 : l'.filter (fun a => decide (a < w)) = [] := List.length_eq_zero_iff.mp (by omega)
  rw [List.filter_eq_nil_iff] at e4
  intro a ha
  simpa using e4 a ha

variable {D : ℕ} {motif : List (Pt D ℝ)} {cell : Fin D → Pt D ℝ}

/-- Lattice vectors left out from the layers before `d` are far. -/
def LeftOutFar (motif : List (Pt D ℝ)) (cell : Fin D → Pt D ℝ) (M : ℝ) (d : ℕ) (ns : List (Fin D → ℤ)) : Prop :=
  ∀ n ∈ layersUpTo D d, n ∉ ns → ∀ p ∈ motif, ∀ q ∈ motif, M ≤ eucl p (q + latVec cell n)

theorem le_maxCdist {p q : Pt D ℝ} (hp : p ∈ motif) (hq : q ∈ motif) : eucl p q ≤ maxCdist motif := by
  have key : ∀ (l : List ℝ) (a : ℝ), a ≤ l.foldl max a ∧ ∀ b ∈ l, b ≤ l.foldl max a := by
    intro l
    induction l with
    | nil => intro a; simp
    | cons x l ih =>
      intro a
      rw [List.foldl_cons]
      refine ⟨(le_max_left a x).trans (ih (max a x)).1, ?_⟩
      intro b hb
      rcases List.mem_cons.mp hb with rfl | hb
      · exact (le_max_right a b).trans (ih _).1
      · exact (ih _).2 b hb
  exact (key _ 0).2 _ (List.mem_flatMap.mpr ⟨p, hp, List.mem_map.mpr ⟨q, hq, rfl⟩⟩)

theorem norm_latVec (q : Pt D ℝ) (n : Fin D → ℤ) : √(sqNorm (latVec cell n)) = eucl q (q + latVec cell n) := by
  unfold eucl sqNorm sqDist
  congr 1
  apply Finset.sum_congr rfl
  intro j _
  simp

theorem norm_sub_le {p q : Pt D ℝ} (hp : p ∈ motif) (hq : q ∈ motif) (n : Fin D → ℤ) :
    √(sqNorm (latVec cell n)) - maxCdist motif ≤ eucl p (q + latVec cell n) := by
  have h1 := eucl_triangle q p (q + latVec cell n)
  have h2 := le_maxCdist hq hp
  rw [norm_latVec q]
  linarith

theorem complete_eucl (hD : 0 < D) {P : (Fin D → ℝ) → Prop} {r d : ℕ} (hdes : Descends cell P r) (hrd : r ≤ d)
    (hfit : FracDiff motif cell P) {p : Pt D ℝ} (hp : p ∈ motif) {m : ℝ}
    (hstop : ∀ n ∈ intLayer D d, ∀ q ∈ motif, m ≤ eucl p (q + latVec cell n)) :
    ∀ n, n ∉ layersUpTo D d → ∀ q ∈ motif, m ≤ eucl p (q + latVec cell n) := by
  have key : ∀ a : Pt D ℝ, m ≤ eucl p a ↔ (max m 0) ^ 2 ≤ sqDist p a := by
    intro a
    have h0 : 0 ≤ eucl p a := Real.sqrt_nonneg _
    constructor
    · intro h
      have : max m 0 ≤ eucl p a := max_le h h0
      unfold eucl at this
      rw [← Real.sq_sqrt (sqDist_nonneg p a)]
      exact pow_le_pow_left₀ (le_max_right m 0) this 2
    · intro h
      exact (le_max_left m 0).trans (Real.le_sqrt_of_sq_le h)
  intro n hn q hq
  refine (key _).mpr (complete_of_descends (x := [p]) hD hdes hrd hfit (by simpa using hp) ?_ n hn p (by simp) q hq)
  intro n hn p' hp' q hq
  obtain rfl : p' = p := by simpa using hp'
  exact (key _).mp (hstop n hn q hq)

theorem cloudOf_append (ns ms : List (Fin D → ℤ)) : cloudOf motif cell (ns ++ ms) = cloudOf motif cell ns ++ cloudOf motif cell ms := by
  unfold cloudOf
  rw [List.map_append, latticeToCloud_append]

theorem mem_cloudOf {ns : List (Fin D → ℤ)} {n : Fin D → ℤ} (hn : n ∈ ns) {q : Pt D ℝ} (hq : q ∈ motif) :
    q + latVec cell n ∈ cloudOf motif cell ns := by
  unfold cloudOf latticeToCloud
  simp only [List.mem_flatMap, List.mem_map]
  exact ⟨_, ⟨n, hn, rfl⟩, q, hq, rfl⟩

/-- All sites left out are at least as far as `M` or the last column. -/
theorem minvalLoop_complete (hD : 0 < D) {P : (Fin D → ℝ) → Prop} {r : ℕ} (hdes : Descends cell P r) (hfit : FracDiff motif cell P)
    (hm : motif ≠ []) {v M : ℝ} (hv : 0 < v) :
    ∀ (fuel d : ℕ) (ns : List (Fin D → ℤ)) (prev : List (List ℝ)) {prev' cur' : List (List ℝ)},
    r ≤ d → Used d ns → LeftOutFar motif cell M d ns →
    (∃ p ∈ motif, ∃ q ∈ cloudOf motif cell ns, M ≤ eucl p q) →
    ((∃ z : List (List ℝ), prev = z.map fun r => r.map fun _ => (0 : ℝ)) ∨
      ∃ ns₀ d₀ extra, d = d₀ + 1 ∧ r ≤ d₀ ∧ Used d₀ ns₀ ∧ prev = queryAll eucl motif (cloudOf motif cell ns₀) ∧ ns = ns₀ ++ extra) →
    minvalLoop eucl (fun l => √(sqNorm l)) (fun n mx => decide (n - maxCdist motif ≤ mx)) (fun x => decide (v ≤ x)) motif cell
      fuel d (cloudOf motif cell ns) prev (queryAll eucl motif (cloudOf motif cell ns)) = .ok (prev', cur') →
    ∃ d' ns', Used d' ns' ∧ cur' = queryAll eucl motif (cloudOf motif cell ns') ∧
      ∀ c, firstCol (fun x => decide (v ≤ x)) cur' = some c →
        ∀ n ∉ ns', ∀ p ∈ motif, ∀ q ∈ motif,
          min M ((((cloudOf motif cell ns').map (eucl p)).insertionSort (· ≤ ·)).getD c 0) ≤ eucl p (q + latVec cell n) := by
  intro fuel
  induction fuel with
  | zero => intro d ns prev prev' cur' _ _ _ _ _ h; simp [minvalLoop] at h
  | succ f ih =>
    intro d ns prev prev' cur' hrd hu hlo hM hprev h
    rw [minvalLoop] at h
    split_ifs at h with hs
    · injection h with h
      injection h with h1 h2
      refine ⟨d, ns, hu, h2.symm, ?_⟩
      intro c hc n hn p hp q hq
      rw [← h2] at hc
      obtain ⟨c', hc', htake⟩ := minvalStable_spec hs
      rw [hc] at hc'
      injection hc' with hc'
      subst hc'
      obtain ⟨hc1, hc2, _⟩ := firstCol_some hc
      have hcl : c < (cloudOf motif cell ns).length := by
        cases motif with
        | nil => exact absurd rfl hm
        | cons a l =>
          simpa only [queryAll, List.map_cons, List.headD_cons, List.length_insertionSort, List.length_map] using hc1
      rcases hprev with ⟨z, hz⟩ | ⟨ns₀, d₀, extra, hd, hrd₀, hu₀, hpv, hns⟩
      · exfalso
        have hpm : ((cloudOf motif cell ns).map (eucl p)).insertionSort (· ≤ ·) ∈ queryAll eucl motif (cloudOf motif cell ns) :=
          List.mem_map.mpr ⟨p, hp, rfl⟩
        have h3 := hc2 _ hpm
        simp only [decide_eq_true_eq] at h3
        have h4 : (((cloudOf motif cell ns).map (eucl p)).insertionSort (· ≤ ·)).take (c + 1) ∈ prev.map (·.take (c + 1)) := by
          rw [htake]; exact List.mem_map.mpr ⟨_, hpm, rfl⟩
        obtain ⟨y, hy, e⟩ := List.mem_map.mp h4
        rw [hz] at hy
        obtain ⟨y', _, rfl⟩ := List.mem_map.mp hy
        rw [← getD_take (n := c + 1) (by omega), ← e, getD_take (by omega)] at h3
        have h5 : ((y'.map fun _ => (0 : ℝ))).getD c 0 = 0 := by
          rw [List.getD_eq_getElem?_getD, List.getElem?_map]
          cases y'[c]? <;> rfl
        linarith
      · -- nothing in the last layer is near
        have hw : ∀ a ∈ cloudOf motif cell extra, (((cloudOf motif cell ns).map (eucl p)).insertionSort (· ≤ ·)).getD c 0 ≤ eucl p a := by
          intro a ha
          have htk : (((cloudOf motif cell ns₀).map (eucl p)).insertionSort (· ≤ ·)).take (c + 1) =
              (((cloudOf motif cell ns).map (eucl p)).insertionSort (· ≤ ·)).take (c + 1) := by
            rw [hpv] at htake
            unfold queryAll at htake
            rw [List.map_map, List.map_map] at htake
            exact (List.map_inj_left.mp htake) p hp
          rw [hns, cloudOf_append] at hcl
          rw [hns, cloudOf_append, List.map_append] at htk ⊢
          refine le_of_take_eq ?_ htk _ (List.mem_map.mpr ⟨a, ha, rfl⟩)
          have h6 := congrArg List.length htk
          rw [List.length_take, List.length_take, List.length_insertionSort, List.length_insertionSort, List.length_append,
            List.length_map, List.length_map] at h6
          rw [List.length_append] at hcl
          rw [List.length_map]
          omega
        have hlayer : ∀ n ∈ intLayer D d₀, ∀ q ∈ motif,
            min M ((((cloudOf motif cell ns).map (eucl p)).insertionSort (· ≤ ·)).getD c 0) ≤ eucl p (q + latVec cell n) := by
          intro n hn q hq
          have h0 : n ∉ ns₀ := by
            intro h0
            obtain ⟨d', hd', h'⟩ := hu₀.lt n h0
            have := intLayer_disjoint hD hn h'
            omega
          by_cases h1 : n ∈ ns
          · rw [hns, List.mem_append] at h1
            exact (min_le_right _ _).trans (hw _ (mem_cloudOf (h1.resolve_left h0) hq))
          · refine (min_le_left _ _).trans (hlo n ?_ h1 p hp q hq)
            rw [hd, layersUpTo_succ]
            exact List.mem_append_right _ hn
        by_cases hnl : n ∈ layersUpTo D d₀
        · refine (min_le_left _ _).trans (hlo n ?_ hn p hp q hq)
          rw [hd, layersUpTo_succ]
          exact List.mem_append_left _ hnl
        · exact complete_eucl hD hdes hrd₀ hfit hp hlayer n hnl q hq
    · cases hmx : ((queryAll eucl motif (cloudOf motif cell ns)).flatMap fun r => r.getLast?.toList).max? with
      | none => rw [hmx] at h; cases h
      | some mx =>
        rw [hmx] at h
        simp only at h
        have hMmx : M ≤ mx := by
          obtain ⟨p, hp, q, hq, hpq⟩ := hM
          have hrow : ((cloudOf motif cell ns).map (eucl p)).insertionSort (· ≤ ·) ∈ queryAll eucl motif (cloudOf motif cell ns) :=
            List.mem_map.mpr ⟨p, hp, rfl⟩
          have hqm : eucl p q ∈ ((cloudOf motif cell ns).map (eucl p)).insertionSort (· ≤ ·) :=
            (List.mem_insertionSort _).mpr (List.mem_map.mpr ⟨q, hq, rfl⟩)
          obtain ⟨z, hz⟩ := Option.isSome_iff_exists.mp (List.getLast?_isSome.mpr (List.ne_nil_of_mem hqm))
          have h1 : eucl p q ≤ z := by
            obtain ⟨i, hi, ei⟩ := List.mem_iff_getElem.mp hqm
            have := sorted_last_ge (v := eucl p q) (sorted_insertionSort' _) hi (by rw [List.getD_eq_getElem _ _ hi, ei])
            rw [hz] at this
            simpa using this
          have h2 : z ≤ mx := (List.max?_eq_some_iff.mp hmx).2 z (List.mem_flatMap.mpr ⟨_, hrow, by rw [hz]; simp⟩)
          linarith
        have hpruned : ∀ n, ¬ (√(sqNorm (latVec cell n)) - maxCdist motif ≤ mx) → ∀ p ∈ motif, ∀ q ∈ motif,
            M ≤ eucl p (q + latVec cell n) := by
          intro n hn p hp q hq
          have := norm_sub_le (cell := cell) hp hq n
          push Not at hn
          linarith
        split_ifs at h with he
        · injection h with h
          injection h with h1 h2
          refine ⟨d, ns, hu, h2.symm, ?_⟩
          intro c hc n hn p hp q hq
          refine (min_le_left _ _).trans ?_
          by_cases hnl : n ∈ layersUpTo D d
          · exact hlo n hnl hn p hp q hq
          · refine complete_eucl hD hdes hrd hfit hp ?_ n hnl q hq
            intro n hn q hq
            refine hpruned n ?_ p hp q hq
            intro hle
            rw [List.isEmpty_iff, List.filter_eq_nil_iff] at he
            exact he _ (List.mem_map.mpr ⟨n, hn, rfl⟩) (by simpa using hle)
        · have e : cloudOf motif cell ns ++ latticeToCloud motif (((intLayer D d).map (latVec cell)).filter
                fun l => decide (√(sqNorm l) - maxCdist motif ≤ mx)) =
              cloudOf motif cell (ns ++ (intLayer D d).filter fun n => decide (√(sqNorm (latVec cell n)) - maxCdist motif ≤ mx)) := by
            rw [cloudOf_append, List.filter_map]
            rfl
          rw [e] at h
          refine ih (d + 1) _ _ (by omega) (hu.next hD _) ?_ ?_ (Or.inr ⟨ns, d, _, rfl, hrd, hu, rfl, rfl⟩) h
          · intro n hn hnn p hp q hq
            rw [List.mem_append, not_or] at hnn
            rw [layersUpTo_succ, List.mem_append] at hn
            rcases hn with hn | hn
            · exact hlo n hn hnn.1 p hp q hq
            · refine hpruned n ?_ p hp q hq
              intro hle
              exact hnn.2 (List.mem_filter.mpr ⟨hn, by simpa using hle⟩)
          · obtain ⟨p, hp, q, hq, hpq⟩ := hM
            exact ⟨p, hp, q, by rw [cloudOf_append]; exact List.mem_append_left _ hq, hpq⟩

theorem length_cloudOf (motif : List (Pt D ℝ)) (cell : Fin D → Pt D ℝ) (ns : List (Fin D → ℤ)) (p : Pt D ℝ) :
    (((cloudOf motif cell ns).map (eucl p)).insertionSort (· ≤ ·)).length = (cloudOf motif cell ns).length := by
  rw [List.length_insertionSort, List.length_map]

/-- What a returned result looks like. -/
theorem minval_sites (hm : motif ≠ []) {v : ℝ} (hv : 0 < v) {cur : List (List ℝ)} {d k : ℕ} {ns : List (Fin D → ℤ)}
    (hu : Used d ns) (hcur : cur = queryAll eucl motif (cloudOf motif cell ns))
    (hk : firstCol (fun x => decide (v ≤ x)) cur = some k) :
    ∃ sites : Fin motif.length → List (Site motif.length D),
      cur.map (fun r => (r.take (k + 1)).drop 1) =
        (List.finRange motif.length).map (fun i => (sites i).map fun s => eucl motif[i] (sitePos motif cell s)) ∧
      0 < k ∧ (∀ i, (sites i).length = k) ∧ (∀ i, (sites i).Nodup ∧ (i, 0) ∉ sites i) ∧
      (∀ i, ((sites i).map fun s => eucl motif[i] (sitePos motif cell s)).Pairwise (· ≤ ·)) ∧
      (∀ i, ∀ s, s.2 ∈ ns → s ≠ (i, 0) → s ∉ sites i → ∀ s' ∈ sites i,
        eucl motif[i] (sitePos motif cell s') ≤ eucl motif[i] (sitePos motif cell s)) ∧
      (∀ i, ((sites i).map fun s => eucl motif[i] (sitePos motif cell s)).getD (k - 1) 0 =
        (((cloudOf motif cell ns).map (eucl motif[i])).insertionSort (· ≤ ·)).getD k 0) ∧
      (∀ i, v ≤ ((sites i).map fun s => eucl motif[i] (sitePos motif cell s)).getD (k - 1) 0) ∧
      ∀ c < k - 1, ∃ i, ((sites i).map fun s => eucl motif[i] (sitePos motif cell s)).getD c 0 < v := by
  have hq := fun i => query_row (cell := cell) hu.nodup hu.zero (motif := motif) i
  choose full hnd hmem hrow using hq
  obtain ⟨hk1, hk2, hk3⟩ := firstCol_some hk
  have hcl : k < (cloudOf motif cell ns).length := by
    rw [hcur] at hk1
    cases motif with
    | nil => exact absurd rfl hm
    | cons a l =>
      simpa only [queryAll, List.map_cons, List.headD_cons, List.length_insertionSort, List.length_map] using hk1
  rw [hcur, queryAll_eq] at hk2 hk3
  have hlen : ∀ i, k ≤ (full i).length := by
    intro i
    have := congrArg List.length (hrow i)
    rw [length_cloudOf, List.length_cons, List.length_map] at this
    omega
  have hcol : ∀ (i : Fin motif.length) c, (((cloudOf motif cell ns).map (eucl motif[i])).insertionSort (· ≤ ·)).getD (c + 1) 0 =
      ((full i).map fun s => eucl motif[i] (sitePos motif cell s)).getD c 0 := by
    intro i c
    rw [hrow i]
    rfl
  have hk0 : 0 < k := by
    rcases Nat.eq_zero_or_pos k with h0 | h0
    · exfalso
      obtain ⟨i⟩ : Nonempty (Fin motif.length) := ⟨⟨0, List.length_pos_iff.mpr hm⟩⟩
      have := hk2 _ (List.mem_map.mpr ⟨i, List.mem_finRange i, rfl⟩)
      rw [h0, hrow i] at this
      simp only [List.getD_cons_zero, decide_eq_true_eq] at this
      linarith
    · exact h0
  have hget : ∀ i c, c < k → (((full i).take k).map fun s => eucl motif[i] (sitePos motif cell s)).getD c 0 =
      ((full i).map fun s => eucl motif[i] (sitePos motif cell s)).getD c 0 := by
    intro i c hc
    rw [List.map_take, getD_take hc]
  have hsorted : ∀ i, ((full i).map fun s => eucl motif[i] (sitePos motif cell s)).Pairwise (· ≤ ·) := by
    intro i
    have := sorted_insertionSort' ((cloudOf motif cell ns).map (eucl motif[i]))
    rw [hrow i, List.pairwise_cons] at this
    exact this.2
  refine ⟨fun i => (full i).take k, ?_, hk0, ?_, ?_, ?_, ?_, ?_, ?_, ?_⟩
  · rw [hcur, queryAll_eq, List.map_map]
    apply List.map_congr_left
    intro i _
    rw [Function.comp_apply, hrow i, List.take_succ_cons, List.drop_succ_cons, List.drop_zero, List.map_take]
  · intro i
    rw [List.length_take]
    have := hlen i
    omega
  · intro i
    refine ⟨(List.take_sublist _ _).nodup (hnd i), fun h => ?_⟩
    exact ((hmem i _).mp (List.mem_of_mem_take h)).2 rfl
  · intro i
    rw [List.map_take]
    exact (hsorted i).sublist (List.take_sublist _ _)
  · intro i s hs hsi hnot s' hs'
    have h1 : s ∈ full i := (hmem i s).mpr ⟨hs, hsi⟩
    have h2 : s ∈ (full i).drop k := by
      rw [← List.take_append_drop k (full i), List.mem_append] at h1
      exact h1.resolve_left hnot
    have h3 := hsorted i
    rw [← List.take_append_drop k (full i), List.map_append, List.pairwise_append] at h3
    exact h3.2.2 _ (List.mem_map.mpr ⟨s', hs', rfl⟩) _ (List.mem_map.mpr ⟨s, h2, rfl⟩)
  · intro i
    rw [hget i _ (by omega), ← hcol i (k - 1), Nat.sub_add_cancel hk0]
  · intro i
    rw [hget i _ (by omega), ← hcol i (k - 1), Nat.sub_add_cancel hk0]
    simpa using hk2 _ (List.mem_map.mpr ⟨i, List.mem_finRange i, rfl⟩)
  · intro c hc
    obtain ⟨r, hr, hr'⟩ := hk3 (c + 1) (by omega)
    obtain ⟨i, _, rfl⟩ := List.mem_map.mp hr
    refine ⟨i, ?_⟩
    rw [hget i _ (by omega), ← hcol i c]
    simpa using hr'

theorem pddReconstructable_ok {S : PeriodicSet D} {lexsort : Bool} {fuel : ℕ} {pdd : List (List ℝ)}
    (h : pddReconstructable S lexsort fuel = .ok pdd) :
    (D = 2 ∨ D = 3) ∧ ∃ diam rows, diameter D S.cell = .ok diam ∧
      nearestNeighborsMinval S.motif S.cell (diam * 2) fuel = .ok rows ∧
      pdd = if lexsort then rows.insertionSort (fun a b => lexLe a b) else rows := by
  unfold pddReconstructable at h
  by_cases hD : D ≠ 2 ∧ D ≠ 3
  · rw [if_pos hD] at h; cases h
  rw [if_neg hD] at h
  refine ⟨by tauto, ?_⟩
  cases hd : diameter D S.cell with
  | error e => rw [hd] at h; cases h
  | ok diam =>
    rw [hd] at h
    simp only [bind, Except.bind] at h
    cases hr : nearestNeighborsMinval S.motif S.cell (diam * 2) fuel with
    | error e => rw [hr] at h; cases h
    | ok rows =>
      rw [hr] at h
      simp only at h
      injection h with h
      exact ⟨diam, rows, rfl, hr, h.symm⟩

end Amd
