import Verif.Proof.EstimateBound
import Verif.Props.Explicit
import Verif.Props.PPC
import Verif.Props.Utils

/-!
# C86: how far AMD_estimate is from AMD

`AMD_estimate` is within half the diameter of the unit cell of the AMD, for every number of neighbours.
-/

namespace Amd

variable {D : ℕ} {S : PeriodicSet D} {inds : List (Fin S.motif.length)} {mult : List ℕ} {k : ℕ} {d : ℝ}

theorem estimate_getD (S : PeriodicSet D) {j : ℕ} (hj : j < k) : (amdEstimate S k).getD j 0 = PPC S * ((j : ℝ) + 1) ^ (1 / (D : ℝ)) := by
  unfold amdEstimate
  rw [List.getD_eq_getElem _ _ (by simpa using hj)]
  simp

theorem weighted_ge {mult : List ℕ} {rows : List (List ℝ)} {f : List ℝ → ℝ} {L : ℝ} (hl : mult.length = rows.length) (hpos : 0 < mult.sum)
    (h : ∀ r ∈ rows, L ≤ f r) : L ≤ (List.zipWith (fun (n : ℕ) row => (n : ℝ) * f row) mult rows).sum / (mult.map fun n : ℕ => (n : ℝ)).sum := by
  rw [le_div_iff₀ (sum_pos_cast hpos)]
  clear hpos
  induction mult generalizing rows with
  | nil => simp
  | cons n mult ih =>
    cases rows with
    | nil => simp at hl
    | cons r rows =>
      have h1 := ih (rows := rows) (by simpa using hl) fun r hr => h r (List.mem_cons_of_mem _ hr)
      have h2 := mul_le_mul_of_nonneg_left (h r (by simp)) (Nat.cast_nonneg (α := ℝ) n)
      simp only [List.zipWith_cons_cons, List.map_cons, List.sum_cons]
      linarith

theorem weighted_le {mult : List ℕ} {rows : List (List ℝ)} {f : List ℝ → ℝ} {U : ℝ} (hl : mult.length = rows.length) (hpos : 0 < mult.sum)
    (h : ∀ r ∈ rows, f r ≤ U) : (List.zipWith (fun (n : ℕ) row => (n : ℝ) * f row) mult rows).sum / (mult.map fun n : ℕ => (n : ℝ)).sum ≤ U := by
  have h1 := weighted_ge (f := fun r => -f r) (L := -U) hl hpos fun r hr => neg_le_neg (h r hr)
  have e : ∀ (mult : List ℕ) (rows : List (List ℝ)), (List.zipWith (fun (n : ℕ) row => (n : ℝ) * -f row) mult rows).sum =
      -(List.zipWith (fun (n : ℕ) row => (n : ℝ) * f row) mult rows).sum := by
    intro mult
    induction mult with
    | nil => simp
    | cons n mult ih =>
      intro rows
      cases rows with
      | nil => simp
      | cons r rows => simp only [List.zipWith_cons_cons, List.sum_cons, ih]; ring
  rw [e, neg_div] at h1
  linarith

theorem Forall₂.exists_left {α β : Type*} {R : α → β → Prop} {l : List α} {m : List β} (h : List.Forall₂ R l m) {b : β} (hb : b ∈ m) : ∃ a ∈ l, R a b := by
  induction h with
  | nil => cases hb
  | cons h1 h2 ih =>
    rcases List.mem_cons.1 hb with rfl | hb
    · exact ⟨_, by simp, h1⟩
    · obtain ⟨a, ha, hr⟩ := ih hb
      exact ⟨a, List.mem_cons_of_mem _ ha, hr⟩

/-- The rows that are found for any cell, even if nearer points are missed. -/
theorem found_ge (hD : 0 < D) (hcell : NonSingular S.cell) {ρ : ℝ} (hρ : CellRadius S.cell ρ) (hne : inds ≠ []) {fuel : ℕ} {rows : List (List ℝ)}
    (hr : nearestNeighbors S.motif S.cell (inds.map fun i => S.motif[i]) (k + 1) fuel = .ok rows) {j : ℕ} (hj : j < k) :
    ∀ row ∈ rows, (row.drop 1).length = k ∧ PPC S * ((j : ℝ) + 2) ^ (1 / (D : ℝ)) - ρ ≤ (row.drop 1).getD j 0 := by
  classical
  intro row hrow
  have hs := nearestNeighbors_sound hD (by simpa using hne) (by
    intro p hp
    obtain ⟨i, _, rfl⟩ := List.mem_map.mp hp
    exact List.getElem_mem _) (Nat.succ_pos k) hr
  rw [List.forall₂_map_left_iff] at hs
  obtain ⟨i, -, hlen, hsort, idx, hnd, he⟩ := Forall₂.exists_left hs hrow
  have hlen' : (row.drop 1).length = k := by simp [hlen]
  refine ⟨hlen', ?_⟩
  have hj1 : j + 1 < row.length := by omega
  have e1 : (row.drop 1).getD j 0 = row[j + 1] := by
    rw [List.getD_eq_getElem _ _ (by omega), List.getElem_drop]
    simp [add_comm]
  rw [e1]
  have hil : idx.length = k + 1 := by
    have := congrArg List.length he
    rw [List.length_map] at this
    omega
  have hV := sphereVol_pos D
  have hm : (0 : ℝ) < S.motif.length := by have := i.2; exact_mod_cast (by omega : 0 < S.motif.length)
  have hdet : 0 < |cellDet S.cell| := abs_pos.mpr (cellDet_ne_zero hcell)
  have hx0 : 0 ≤ row[j + 1] := by
    have : row[j + 1] ∈ idx.map (fun s => eucl S.motif[i] (sitePos S.motif S.cell s)) := by rw [← he]; exact List.getElem_mem _
    obtain ⟨s, -, hs⟩ := List.mem_map.1 this
    rw [← hs]; exact eucl_nonneg _ _
  have hcount : j + 2 ≤ (siteBall S.motif S.cell S.motif[i] row[j + 1]).ncard := by
    have hc : j + 2 = (idx.take (j + 2)).toFinset.card := by
      rw [List.toFinset_card_of_nodup (hnd.sublist (List.take_sublist _ _)), List.length_take]; omega
    rw [hc, ← Set.ncard_coe_finset]
    apply Set.ncard_le_ncard _ (siteBall_finite hD hcell _ _)
    intro s hs
    rw [Finset.mem_coe, List.mem_toFinset] at hs
    obtain ⟨n, hn, e⟩ := List.getElem_of_mem hs
    have hn' : n < j + 2 := by rw [List.length_take] at hn; omega
    have hnr : n < row.length := by omega
    have : eucl S.motif[i] (sitePos S.motif S.cell s) = row[n] := by
      have : row[n] = (idx.map (fun s => eucl S.motif[i] (sitePos S.motif S.cell s)))[n]'(by rw [List.length_map]; omega) := by congr 1
      rw [this, List.getElem_map, ← e, List.getElem_take]
    change eucl S.motif[i] (sitePos S.motif S.cell s) ≤ row[j + 1]
    rw [this]
    rcases Nat.lt_or_ge n (j + 1) with h | h
    · exact List.pairwise_iff_getElem.1 hsort n (j + 1) hnr hj1 h
    · have : n = j + 1 := by omega
      subst this; exact le_rfl
  have h1 : ((j : ℝ) + 2) ≤ S.motif.length * ((row[j + 1] + ρ) ^ D * sphereVol D / |cellDet S.cell|) := by
    refine le_trans ?_ (ncard_siteBall_le_volume hD hcell hρ hx0 S.motif[i])
    exact_mod_cast hcount
  have h2 : PPC S * ((j : ℝ) + 2) ^ (1 / (D : ℝ)) ≤ row[j + 1] + ρ := by
    refine le_of_pow_le_pow_left₀ hD.ne' (by linarith [hρ.nonneg]) ?_
    rw [mul_pow, root_pow hD (by positivity), PPC_pow hD]
    calc |cellDet S.cell| / ((S.motif.length : ℝ) * sphereVol D) * ((j : ℝ) + 2)
        ≤ |cellDet S.cell| / ((S.motif.length : ℝ) * sphereVol D) * (S.motif.length * ((row[j + 1] + ρ) ^ D * sphereVol D / |cellDet S.cell|)) := by gcongr
      _ = (row[j + 1] + ρ) ^ D := by field_simp
  linarith

theorem estimate_mono (hD : 0 < D) (S : PeriodicSet D) (j : ℕ) : PPC S * ((j : ℝ) + 1) ^ (1 / (D : ℝ)) ≤ PPC S * ((j : ℝ) + 2) ^ (1 / (D : ℝ)) := by
  have := C22_nonneg S
  gcongr
  norm_num

/-- **C86** For every cell and every `k`: the AMD is not more than half the diameter of the unit cell below the estimate. -/
theorem C86_amd_lower (hD : 0 < D) (hcell : NonSingular S.cell) (hu : S.Units inds mult) (hne : inds ≠ []) (hmult : 0 < mult.sum)
    (hd : ∀ p ∈ closedCell S.cell, ∀ q ∈ closedCell S.cell, eucl p q ≤ d) {fuel : ℕ} {a : List ℝ} (ha : AMD S k fuel = .ok a) :
    a.length = k ∧ ∀ j < k, (amdEstimate S k).getD j 0 - d / 2 ≤ a.getD j 0 := by
  obtain ⟨rows, hr, hl, hv⟩ := AMD_rows hD hu hne ha
  refine ⟨hl, fun j hj => ?_⟩
  have hs := nearestNeighbors_sound hD (by simpa using hne) (by
    intro p hp
    obtain ⟨i, _, rfl⟩ := List.mem_map.mp hp
    exact List.getElem_mem _) (Nat.succ_pos k) hr
  rw [hv j hj, estimate_getD S hj]
  refine le_trans ?_ (weighted_ge (f := fun row => (row.drop 1).getD j 0) ?_ hmult
    fun row hrow => (found_ge hD hcell (CellRadius.of_diameter hd) hne hr hj row hrow).2)
  · linarith [estimate_mono hD S j]
  · rw [← units_length hu, ← hs.length_eq, List.length_map]

/-- C86 for the AMD whenever the search is complete. -/
theorem C86_amd_of_searchable (hD : 0 < D) (hcell : NonSingular S.cell) (hu : S.Units inds mult) (hne : inds ≠ []) (hmult : 0 < mult.sum)
    (hd : ∀ p ∈ closedCell S.cell, ∀ q ∈ closedCell S.cell, eucl p q ≤ d) (hs : Searchable S.motif S.cell (k + 1)) {fuel : ℕ} {a : List ℝ}
    (ha : AMD S k fuel = .ok a) : a.length = k ∧ ∀ j < k, |a.getD j 0 - (amdEstimate S k).getD j 0| ≤ d / 2 := by
  obtain ⟨hl, hlow⟩ := C86_amd_lower hD hcell hu hne hmult hd ha
  refine ⟨hl, fun j hj => abs_le.2 ⟨by linarith [hlow j hj], ?_⟩⟩
  obtain ⟨rows, hrows, -, hv⟩ := C02_amd_mean_of_searchable hD hu hne hs ha
  rw [hv j hj, estimate_getD S hj, sub_le_iff_le_add']
  refine weighted_le (f := fun row => row.getD j 0) ((units_length hu).symm.trans hrows.length_eq) hmult fun row hrow => ?_
  obtain ⟨i, -, hi⟩ := Forall₂.exists_left hrows hrow
  exact (neighbours_between hD hcell (CellRadius.of_diameter hd) hi hj).2

/-- **C86** (partial) The AMD and the estimate differ by at most half the diameter of the unit cell, in every entry. Missing: the upper bound for cells that are too oblique or do not
contain the motif, and in dimensions above 4. -/
theorem C86_amd_partial (hD : 0 < D) (hD4 : D ≤ 4) (hcell : NonSingular S.cell) (hu : S.Units inds mult) (hne : inds ≠ []) (hmult : 0 < mult.sum)
    (hd : ∀ p ∈ closedCell S.cell, ∀ q ∈ closedCell S.cell, eucl p q ≤ d) (hdom : HalfDominant S.cell) (hfit : FitsInCell S.motif S.cell) {fuel : ℕ} {a : List ℝ}
    (ha : AMD S k fuel = .ok a) : a.length = k ∧ ∀ j < k, |a.getD j 0 - (amdEstimate S k).getD j 0| ≤ d / 2 :=
  C86_amd_of_searchable hD hcell hu hne hmult hd (searchable_of_halfDominant hD4 hdom hfit _) ha

/-- **C86** (partial) The same for cells that are not too oblique for `k`. -/
theorem C86_amd_explicit_partial (hD : 0 < D) (hcell : NonSingular S.cell) (hu : S.Units inds mult) (hne : inds ≠ []) (hmult : 0 < mult.sum)
    (hd : ∀ p ∈ closedCell S.cell, ∀ q ∈ closedCell S.cell, eucl p q ≤ d) (hs : Covered S.motif S.cell (k + 1)) {fuel : ℕ} {a : List ℝ}
    (ha : AMD S k fuel = .ok a) : a.length = k ∧ ∀ j < k, |a.getD j 0 - (amdEstimate S k).getD j 0| ≤ d / 2 :=
  C86_amd_of_searchable hD hcell hu hne hmult hd (hs.searchable (motif_ne hne)) ha

/-- **C86** (partial) The same for all cells in all dimensions and sufficiently large `k`. -/
theorem C86_amd_large_k_partial (hD : 0 < D) (hcell : NonSingular S.cell) (hu : S.Units inds mult) (hne : inds ≠ []) (hmult : 0 < mult.sum) :
    ∃ k₀, ∀ k, k₀ ≤ k → ∀ d, (∀ p ∈ closedCell S.cell, ∀ q ∈ closedCell S.cell, eucl p q ≤ d) → ∀ fuel a, AMD S k fuel = .ok a →
      a.length = k ∧ ∀ j < k, |a.getD j 0 - (amdEstimate S k).getD j 0| ≤ d / 2 := by
  obtain ⟨k₀, h₀⟩ := searchable_eventually hcell S.motif
  exact ⟨k₀, fun k hk _ hd _ _ ha => C86_amd_of_searchable hD hcell hu hne hmult hd (h₀ _ (by omega)) ha⟩

/-- **C86** In two and three dimensions `diameter` returns such a bound `d`. -/
theorem C86_diameter (hD : D = 2 ∨ D = 3) (cell : Fin D → Pt D ℝ) :
    ∃ d, diameter D cell = .ok d ∧ ∀ p ∈ closedCell cell, ∀ q ∈ closedCell cell, eucl p q ≤ d := by
  obtain ⟨d, h, hg⟩ := C24_diameter hD cell
  exact ⟨d, h, fun p hp q hq => hg.2 ⟨p, hp, q, hq, rfl⟩⟩

/-- The hypotheses are met by the example set, one of whose two points represents both: with 5 neighbours its AMD is near the estimate. -/
example : ∃ fuel a d, AMD exampleAsym 5 fuel = .ok a ∧ diameter 2 exampleAsym.cell = .ok d ∧ ∀ j < 5, |a.getD j 0 - (amdEstimate exampleAsym 5).getD j 0| ≤ d / 2 := by
  obtain ⟨a, _, F, h⟩ := C10_terminates (S := exampleAsym) (by decide) exampleAsym_units (by decide) exampleSet_nonSingular 5 true false 0
  obtain ⟨d, hd, hb⟩ := C86_diameter (Or.inl rfl) exampleAsym.cell
  exact ⟨F, a, d, (h F le_rfl).1, hd, (C86_amd_partial (S := exampleAsym) (by decide) (by decide) exampleSet_nonSingular exampleAsym_units (by decide) (by decide) hb exampleSet_halfDominant exampleSet_fits
    (h F le_rfl).1).2⟩

/-! ### Rows of the PDD -/

/-- The entries of a row of a PDD are means of entries of rows that were found. -/
theorem PDD_entry (hD : 0 < D) (hu : S.Units inds mult) (hne : inds ≠ []) {lexsort collapse : Bool} {tol : ℝ} {fuel : ℕ} {pdd : List (PRow ℝ)}
    (hp : PDD S k lexsort collapse tol fuel = .ok pdd) {L U : ℝ} {j : ℕ} (hj : j < k) {rows : List (List ℝ)}
    (hr : nearestNeighbors S.motif S.cell (inds.map fun i => S.motif[i]) (k + 1) fuel = .ok rows)
    (h : ∀ row ∈ rows, (row.drop 1).length = k ∧ L ≤ (row.drop 1).getD j 0 ∧ (row.drop 1).getD j 0 ≤ U) :
    ∀ r ∈ pdd, r.dists.length = k ∧ L ≤ r.dists.getD j 0 ∧ r.dists.getD j 0 ≤ U := by
  intro r hmem
  obtain ⟨rows', hr', rfl⟩ := PDD_rows hD hu hne hp
  rw [hr] at hr'
  cases hr'
  have hlen : ∀ x ∈ rows.map (·.drop 1), x.length = k := by
    intro x hx
    obtain ⟨y, hy, rfl⟩ := List.mem_map.mp hx
    exact (h y hy).1
  have hmem' : r ∈ collapseRows k collapse tol (rows.map (·.drop 1)) (mult.map fun n : ℕ => (n : ℝ) / (S.motif.length : ℝ)) := by
    unfold lexsortRows at hmem
    split_ifs at hmem
    · exact (List.perm_insertionSort _ _).subset hmem
    · exact hmem
  rw [collapseRows_eq _ _ _ _ _ hlen] at hmem'
  obtain ⟨g, hg, e⟩ := List.mem_map.mp hmem'
  have hgne := rowGroups_nonempty _ _ _ g hg
  have hbound : ∀ i ∈ g, L ≤ ((rows.map (·.drop 1)).getD i []).getD j 0 ∧ ((rows.map (·.drop 1)).getD i []).getD j 0 ≤ U := by
    intro i hi
    have hi' := rowGroups_lt hg hi
    rw [List.getD_eq_getElem _ _ hi', List.getElem_map]
    exact (h _ (List.getElem_mem _)).2
  have hpos : (0 : ℝ) < g.length := by exact_mod_cast List.length_pos_iff.2 hgne
  have e1 : r.dists.getD j 0 = (g.map fun i => ((rows.map (·.drop 1)).getD i []).getD j 0).sum / g.length := by
    rw [← e]
    unfold groupRow meanRows
    simp only
    rw [List.getD_eq_getElem _ _ (by simpa using hj)]
    simp [Function.comp_def]
  refine ⟨by rw [← e]; simp [groupRow, meanRows], ?_, ?_⟩
  · rw [e1, le_div_iff₀ hpos]
    have := List.card_nsmul_le_sum (g.map fun i => ((rows.map (·.drop 1)).getD i []).getD j 0) L (by
      intro x hx
      obtain ⟨i, hi, rfl⟩ := List.mem_map.1 hx
      exact (hbound i hi).1)
    rw [List.length_map, nsmul_eq_mul] at this
    linarith
  · rw [e1, div_le_iff₀ hpos]
    have := List.sum_le_card_nsmul (g.map fun i => ((rows.map (·.drop 1)).getD i []).getD j 0) U (by
      intro x hx
      obtain ⟨i, hi, rfl⟩ := List.mem_map.1 hx
      exact (hbound i hi).2)
    rw [List.length_map, nsmul_eq_mul] at this
    linarith

/-- **C86** For every cell, every `k` and all options: no entry of a row of the PDD is more than half the diameter of the unit cell below the estimate. -/
theorem C86_pdd_lower (hD : 0 < D) (hcell : NonSingular S.cell) (hu : S.Units inds mult) (hne : inds ≠ [])
    (hd : ∀ p ∈ closedCell S.cell, ∀ q ∈ closedCell S.cell, eucl p q ≤ d) {lexsort collapse : Bool} {tol : ℝ} {fuel : ℕ} {pdd : List (PRow ℝ)}
    (hp : PDD S k lexsort collapse tol fuel = .ok pdd) : ∀ r ∈ pdd, ∀ j < k, (amdEstimate S k).getD j 0 - d / 2 ≤ r.dists.getD j 0 := by
  intro r hr j hj
  obtain ⟨rows, hrows, -⟩ := PDD_rows hD hu hne hp
  have hf := found_ge hD hcell (CellRadius.of_diameter hd) hne hrows hj
  have := PDD_entry (L := PPC S * ((j : ℝ) + 2) ^ (1 / (D : ℝ)) - d / 2) (U := (rows.map fun row => (row.drop 1).getD j 0).foldr max 0) hD hu hne hp hj hrows
    (fun row hrow => ⟨(hf row hrow).1, (hf row hrow).2, by
      have : ∀ l : List ℝ, ∀ a ∈ l, a ≤ l.foldr max 0 := by
        intro l
        induction l with
        | nil => simp
        | cons b l ih =>
          intro a ha
          rcases List.mem_cons.mp ha with rfl | ha
          · exact le_max_left _ _
          · exact le_max_of_le_right (ih a ha)
      exact this _ _ (List.mem_map.2 ⟨row, hrow, rfl⟩)⟩) r hr
  rw [estimate_getD S hj]
  linarith [this.2.1, estimate_mono hD S j]

/-- C86 for the PDD whenever the search is complete. -/
theorem C86_pdd_of_searchable (hD : 0 < D) (hcell : NonSingular S.cell) (hu : S.Units inds mult) (hne : inds ≠ [])
    (hd : ∀ p ∈ closedCell S.cell, ∀ q ∈ closedCell S.cell, eucl p q ≤ d) (hs : Searchable S.motif S.cell (k + 1)) {lexsort collapse : Bool} {tol : ℝ} {fuel : ℕ}
    {pdd : List (PRow ℝ)} (hp : PDD S k lexsort collapse tol fuel = .ok pdd) :
    ∀ r ∈ pdd, r.dists.length = k ∧ ∀ j < k, |r.dists.getD j 0 - (amdEstimate S k).getD j 0| ≤ d / 2 := by
  obtain ⟨rows, hrows, hpdd⟩ := PDD_rows hD hu hne hp
  have hf := nearestNeighbors_neighbourRow hD hne hs hrows
  have key : ∀ j < k, ∀ r ∈ pdd, r.dists.length = k ∧ PPC S * ((j : ℝ) + 1) ^ (1 / (D : ℝ)) - d / 2 ≤ r.dists.getD j 0 ∧
      r.dists.getD j 0 ≤ PPC S * ((j : ℝ) + 1) ^ (1 / (D : ℝ)) + d / 2 := by
    intro j hj
    refine PDD_entry hD hu hne hp hj hrows fun row hrow => ?_
    obtain ⟨i, -, -, -, hi⟩ := Forall₂.exists_left hf hrow
    have := neighbours_between hD hcell (CellRadius.of_diameter hd) hi hj
    exact ⟨hi.1, by linarith [this.1, estimate_mono hD S j], this.2⟩
  intro r hr
  refine ⟨?_, fun j hj => ?_⟩
  · rcases Nat.eq_zero_or_pos k with rfl | hk
    · rw [hpdd] at hr
      have hmem' : r ∈ collapseRows 0 collapse tol (rows.map (·.drop 1)) (mult.map fun n : ℕ => (n : ℝ) / (S.motif.length : ℝ)) := by
        unfold lexsortRows at hr
        split_ifs at hr
        · exact (List.perm_insertionSort _ _).subset hr
        · exact hr
      have hlen : ∀ x ∈ rows.map (·.drop 1), x.length = 0 := by
        intro x hx
        obtain ⟨y, hy, rfl⟩ := List.mem_map.mp hx
        obtain ⟨i, -, -, -, hi⟩ := Forall₂.exists_left hf hy
        exact hi.1
      rw [collapseRows_eq _ _ _ _ _ hlen] at hmem'
      obtain ⟨g, -, e⟩ := List.mem_map.mp hmem'
      rw [← e]
      simp [groupRow, meanRows]
    · exact (key 0 hk r hr).1
  · have := (key j hj r hr).2
    rw [estimate_getD S hj, abs_le]
    exact ⟨by linarith [this.1], by linarith [this.2]⟩

/-- **C86** (partial) All entries of all rows of the PDD, with any options, differ from the estimate by at most half the diameter of the unit cell. Missing as for the AMD. -/
theorem C86_pdd_partial (hD : 0 < D) (hD4 : D ≤ 4) (hcell : NonSingular S.cell) (hu : S.Units inds mult) (hne : inds ≠ [])
    (hd : ∀ p ∈ closedCell S.cell, ∀ q ∈ closedCell S.cell, eucl p q ≤ d) (hdom : HalfDominant S.cell) (hfit : FitsInCell S.motif S.cell)
    {lexsort collapse : Bool} {tol : ℝ} {fuel : ℕ} {pdd : List (PRow ℝ)} (hp : PDD S k lexsort collapse tol fuel = .ok pdd) :
    ∀ r ∈ pdd, r.dists.length = k ∧ ∀ j < k, |r.dists.getD j 0 - (amdEstimate S k).getD j 0| ≤ d / 2 :=
  C86_pdd_of_searchable hD hcell hu hne hd (searchable_of_halfDominant hD4 hdom hfit _) hp

/-- **C86** (partial) The same for cells that are not too oblique for `k`. -/
theorem C86_pdd_explicit_partial (hD : 0 < D) (hcell : NonSingular S.cell) (hu : S.Units inds mult) (hne : inds ≠ [])
    (hd : ∀ p ∈ closedCell S.cell, ∀ q ∈ closedCell S.cell, eucl p q ≤ d) (hs : Covered S.motif S.cell (k + 1))
    {lexsort collapse : Bool} {tol : ℝ} {fuel : ℕ} {pdd : List (PRow ℝ)} (hp : PDD S k lexsort collapse tol fuel = .ok pdd) :
    ∀ r ∈ pdd, r.dists.length = k ∧ ∀ j < k, |r.dists.getD j 0 - (amdEstimate S k).getD j 0| ≤ d / 2 :=
  C86_pdd_of_searchable hD hcell hu hne hd (hs.searchable (motif_ne hne)) hp

/-- **C86** (partial) The same for all cells in all dimensions and sufficiently large `k`. -/
theorem C86_pdd_large_k_partial (hD : 0 < D) (hcell : NonSingular S.cell) (hu : S.Units inds mult) (hne : inds ≠ []) :
    ∃ k₀, ∀ k, k₀ ≤ k → ∀ d, (∀ p ∈ closedCell S.cell, ∀ q ∈ closedCell S.cell, eucl p q ≤ d) → ∀ lexsort collapse tol fuel pdd,
      PDD S k lexsort collapse tol fuel = .ok pdd → ∀ r ∈ pdd, r.dists.length = k ∧ ∀ j < k, |r.dists.getD j 0 - (amdEstimate S k).getD j 0| ≤ d / 2 := by
  obtain ⟨k₀, h₀⟩ := searchable_eventually hcell S.motif
  exact ⟨k₀, fun k hk _ hd _ _ _ _ _ hp => C86_pdd_of_searchable hD hcell hu hne hd (h₀ _ (by omega)) hp⟩

/-! ### Examples: points on the line -/

/-- The even numbers. -/
noncomputable def evenNumbers : PeriodicSet 1 := { motif := [castPt ![0]], cell := fun i => castPt (![![2]] i) }

/-- The integers, with the odd ones given by a motif point that is far from the unit cell. -/
noncomputable def farMotif : PeriodicSet 1 := { motif := [castPt ![0], castPt ![2001]], cell := fun i => castPt (![![2]] i) }

theorem sqrt_four : √(4 : ℝ) = 2 := by
  rw [show (4 : ℝ) = 2 ^ 2 by norm_num]; exact Real.sqrt_sq (by norm_num)

theorem evenNumbers_amd {fuel : ℕ} (hf : 20 ≤ fuel) : AMD evenNumbers 1 fuel = .ok [2] := by
  have h : nearestNeighborsSq (K := ℤ) nearInt [![0]] ![![2]] [![0]] 2 20 = .ok [[0, 4]] := by decide
  have h2 := nearestNeighbors_cast _ _ _ _ _ h
  have e : ([[0, 4]] : List (List ℤ)).map (fun r => r.map fun a : ℤ => √(a : ℝ)) = [[0, 2]] := by simp [sqrt_four]
  rw [e] at h2
  have h3 : nearestNeighbors evenNumbers.motif evenNumbers.cell evenNumbers.motif 2 fuel = .ok [[0, 2]] := nearestNeighbors_fuel hf h2
  have hu : evenNumbers.asymUnit = none := rfl
  simp only [AMD, asymPoints, hu, bind, Except.bind, h3]
  simp [averageColumnsExceptFirst, addRows, bind, Except.bind, evenNumbers]

theorem line_nonSingular {S : PeriodicSet 1} (h : S.cell = fun i => castPt (![![2]] i)) : NonSingular S.cell := by
  rw [NonSingular, h, linearIndependent_unique_iff]
  intro h0
  have := congrFun h0 0
  simp [castPt] at this

theorem line_diameter {S : PeriodicSet 1} (h : S.cell = fun i => castPt (![![2]] i)) : ∀ p ∈ closedCell S.cell, ∀ q ∈ closedCell S.cell, eucl p q ≤ 2 := by
  rintro p ⟨t, ht, rfl⟩ q ⟨u, hu, rfl⟩
  rw [h, eucl, Real.sqrt_le_iff]
  have h1 := ht 0
  have h2 := hu 0
  refine ⟨by norm_num, ?_⟩
  simp only [sqDist, castPt, Finset.univ_unique, Fin.default_eq_zero, Finset.sum_singleton, Matrix.cons_val_fin_one, Int.cast_ofNat]
  nlinarith

theorem line_PPC {S : PeriodicSet 1} (h : S.cell = fun i => castPt (![![2]] i)) : PPC S = 1 / S.motif.length := by
  have e : cellDet S.cell = 2 := by
    rw [cellDet, Matrix.det_fin_one, h]
    simp [castPt]
  unfold PPC
  rw [e]
  simp only [sphereVol]
  norm_num
  rw [mul_comm, div_mul_cancel_left₀ (by norm_num)]

/-- **C86** Half the diameter cannot be replaced by less: for the even numbers, the first entry of the AMD is 2 and the estimate is 1. -/
theorem C86_tight : ∃ S : PeriodicSet 1, NonSingular S.cell ∧ (∀ p ∈ closedCell S.cell, ∀ q ∈ closedCell S.cell, eucl p q ≤ 2) ∧
    ∃ F, ∀ fuel, F ≤ fuel → ∃ a, AMD S 1 fuel = .ok a ∧ |a.getD 0 0 - (amdEstimate S 1).getD 0 0| = 2 / 2 := by
  refine ⟨evenNumbers, line_nonSingular rfl, line_diameter rfl, 20, fun fuel hf => ⟨_, evenNumbers_amd hf, ?_⟩⟩
  rw [estimate_getD _ Nat.one_pos, line_PPC rfl]
  norm_num [evenNumbers]

/-- **C86** is false in general: for motif points far outside the unit cell, nearer neighbours are missed, and the AMD can be larger. -/
theorem C86_false : ∃ S : PeriodicSet 1, NonSingular S.cell ∧ (∀ p ∈ closedCell S.cell, ∀ q ∈ closedCell S.cell, eucl p q ≤ 2) ∧
    ∃ F, ∀ fuel, F ≤ fuel → ∃ a, AMD S 1 fuel = .ok a ∧ ¬ |a.getD 0 0 - (amdEstimate S 1).getD 0 0| ≤ 2 / 2 := by
  have h : ∀ fuel, 20 ≤ fuel → AMD farMotif 1 fuel = .ok [2] := by
    intro fuel hf
    have h : nearestNeighborsSq (K := ℤ) nearInt [![0], ![2001]] ![![2]] [![0], ![2001]] 2 20 = .ok [[0, 4], [0, 4]] := by decide
    have h2 := nearestNeighbors_cast _ _ _ _ _ h
    have e : ([[0, 4], [0, 4]] : List (List ℤ)).map (fun r => r.map fun a : ℤ => √(a : ℝ)) = [[0, 2], [0, 2]] := by simp [sqrt_four]
    rw [e] at h2
    have h3 : nearestNeighbors farMotif.motif farMotif.cell farMotif.motif 2 fuel = .ok [[0, 2], [0, 2]] := nearestNeighbors_fuel hf h2
    have hu : farMotif.asymUnit = none := rfl
    simp only [AMD, asymPoints, hu, bind, Except.bind, h3]
    simp [averageColumnsExceptFirst, addRows, bind, Except.bind, farMotif]
    norm_num
  refine ⟨farMotif, line_nonSingular rfl, line_diameter rfl, 20, fun fuel hf => ⟨_, h fuel hf, ?_⟩⟩
  rw [estimate_getD _ Nat.one_pos, line_PPC rfl]
  norm_num [farMotif]

end Amd
