import Verif.Proof.MinvalExact
import Verif.Props.Utils
import Verif.Props.PddRows

/-!
# `PDD_reconstructable`: C21, C56, C57
-/

namespace Amd

variable {D : ℕ}

/-- The largest distance between two points of the closed unit cell is positive. -/
theorem diam_pos {cell : Fin D → Pt D ℝ} (hD : D = 2 ∨ D = 3) (hcell : NonSingular cell) {diam : ℝ}
    (h : diameter D cell = .ok diam) : 0 < diam := by
  obtain ⟨d, hd, hg⟩ := C24_diameter hD cell
  rw [h] at hd
  injection hd with hd
  subst hd
  let i₀ : Fin D := ⟨0, by omega⟩
  have h0 : (0 : Pt D ℝ) ∈ closedCell cell := ⟨0, by simp, by funext j; simp⟩
  have h1 : cell i₀ ∈ closedCell cell := by
    refine ⟨fun i => if i = i₀ then 1 else 0, ?_, ?_⟩
    · intro i; by_cases hi : i = i₀ <;> simp [hi]
    · funext j; simp
  have h2 := hg.2 ⟨_, h1, _, h0, rfl⟩
  have h3 : cell i₀ ≠ 0 := hcell.ne_zero i₀
  have h4 : 0 < eucl (cell i₀) 0 := by
    obtain ⟨j, hj⟩ := Function.ne_iff.mp h3
    unfold eucl sqDist
    apply Real.sqrt_pos.mpr
    refine Finset.sum_pos' (fun j _ => sq_nonneg _) ⟨j, Finset.mem_univ j, ?_⟩
    have : cell i₀ j - (0 : Pt D ℝ) j ≠ 0 := by simpa using hj
    positivity
  linarith

/-- **C21** Whenever `PDD_reconstructable` returns, it has a row for each motif point, all rows have the same positive length, the
last entry of each row is at least twice the diameter of the unit cell, and no earlier column has that property. -/
theorem C21_last_column {S : PeriodicSet D} (hm : S.motif ≠ []) (hcell : NonSingular S.cell) {lexsort : Bool} {fuel : ℕ}
    {pdd : List (List ℝ)} (h : pddReconstructable S lexsort fuel = .ok pdd) :
    ∃ (diam : ℝ) (k : ℕ), IsGreatest {r | ∃ p ∈ closedCell S.cell, ∃ q ∈ closedCell S.cell, r = eucl p q} diam ∧
      pdd.length = S.motif.length ∧ 0 < k ∧ (∀ row ∈ pdd, row.length = k) ∧
      (∀ row ∈ pdd, ∀ x, row.getLast? = some x → 2 * diam ≤ x) ∧
      ∀ c < k - 1, ∃ row ∈ pdd, ∃ x, row[c]? = some x ∧ x < 2 * diam := by
  obtain ⟨hD, diam, rows, hd, hr, rfl⟩ := pddReconstructable_ok h
  have hpos := diam_pos hD hcell hd
  obtain ⟨diam', hd', hg⟩ := C24_diameter hD S.cell
  rw [hd] at hd'
  injection hd' with hd'
  subst hd'
  obtain ⟨d, ns, k, hu, e, hk⟩ := minvalRows_ok (by omega) hr
  obtain ⟨sites, e1, hk0, hlen, _, _, _, _, hge, hlt⟩ := minval_sites hm (by linarith) hu rfl hk
  rw [e1] at e
  have hperm : (if lexsort then rows.insertionSort (fun a b => lexLe a b) else rows).Perm rows := by
    split_ifs
    · exact List.perm_insertionSort _ _
    · exact List.Perm.refl _
  refine ⟨diam, k, hg, ?_, hk0, ?_, ?_, ?_⟩
  · rw [hperm.length_eq, e]; simp
  · intro row hrow
    rw [hperm.mem_iff, e] at hrow
    obtain ⟨i, _, rfl⟩ := List.mem_map.mp hrow
    simp [hlen]
  · intro row hrow x hx
    rw [hperm.mem_iff, e] at hrow
    obtain ⟨i, _, rfl⟩ := List.mem_map.mp hrow
    have h1 := hge i
    rw [List.getLast?_eq_getElem?, List.length_map, hlen] at hx
    rw [List.getD_eq_getElem?_getD, hx, Option.getD_some] at h1
    linarith
  · intro c hc
    obtain ⟨i, hi⟩ := hlt c hc
    refine ⟨_, hperm.mem_iff.mpr (e ▸ List.mem_map.mpr ⟨i, List.mem_finRange i, rfl⟩), ?_⟩
    have hc' : c < ((sites i).map fun s => eucl S.motif[i] (sitePos S.motif S.cell s)).length := by
      rw [List.length_map, hlen]; omega
    refine ⟨_, List.getElem?_eq_getElem hc', ?_⟩
    rw [List.getD_eq_getElem _ _ hc'] at hi
    linarith

theorem lexsort_perm (lexsort : Bool) (rows : List (List ℝ)) :
    (if lexsort then rows.insertionSort (fun a b => lexLe a b) else rows).Perm rows := by
  split_ifs
  · exact List.perm_insertionSort _ _
  · exact List.Perm.refl _

theorem lexsort_sorted (rows : List (List ℝ)) : (rows.insertionSort (fun a b => lexLe a b)).Pairwise RowLexLe := by
  have : (rows.insertionSort (fun a b => lexLe a b)).Pairwise (fun a b => lexLe a b = true) := by
    have h1 : Std.Total (fun a b : List ℝ => lexLe a b = true) := ⟨fun a b => lexLe_total a b⟩
    have h2 : IsTrans (List ℝ) (fun a b => lexLe a b = true) := ⟨fun a b c h h' => lexLe_trans h h'⟩
    exact List.pairwise_insertionSort _ _
  exact this.imp fun h => rowLexLe_of_lexLe h

/-- **C57** The rows belong to the motif points, in their order unless sorted lexicographically; each lists, in increasing order,
distances from its motif point to distinct other sites of the set. What is missing: that they are the nearest ones. -/
theorem C57_real_distances_partial {S : PeriodicSet D} (hm : S.motif ≠ []) (hcell : NonSingular S.cell) {lexsort : Bool} {fuel : ℕ}
    {pdd : List (List ℝ)} (h : pddReconstructable S lexsort fuel = .ok pdd) :
    ∃ rows, pdd.Perm rows ∧ (lexsort = false → pdd = rows) ∧ (lexsort = true → pdd.Pairwise RowLexLe) ∧
      List.Forall₂ (fun i row => row.Pairwise (· ≤ ·) ∧ ∃ sites : List (Site S.motif.length D), sites.Nodup ∧ (i, 0) ∉ sites ∧
        row = sites.map fun s => eucl S.motif[i] (sitePos S.motif S.cell s)) (List.finRange S.motif.length) rows := by
  obtain ⟨hD, diam, rows, hd, hr, rfl⟩ := pddReconstructable_ok h
  have hpos := diam_pos hD hcell hd
  obtain ⟨d, ns, k, hu, e, hk⟩ := minvalRows_ok (by omega) hr
  obtain ⟨sites, e1, hk0, hlen, hnd, hsort, _, _, hge, hlt⟩ := minval_sites hm (by linarith) hu rfl hk
  rw [e1] at e
  refine ⟨rows, lexsort_perm lexsort rows, ?_, ?_, ?_⟩
  · rintro rfl; rfl
  · rintro rfl; exact lexsort_sorted rows
  · rw [e, List.forall₂_map_right_iff, List.forall₂_same]
    intro i _
    exact ⟨hsort i, sites i, (hnd i).1, (hnd i).2, rfl⟩

/-- **C57** If the cell is half dominant, the motif lies in one cell and no returned distance exceeds some distance seen in the three
layers the search starts with, the rows are the true nearest neighbour distances. -/
theorem C57_rows_partial {S : PeriodicSet D} (hm : S.motif ≠ []) (hcell : NonSingular S.cell) (hdom : HalfDominant S.cell)
    (hfit : FitsInCell S.motif S.cell) {lexsort : Bool} {fuel : ℕ}
    {pdd : List (List ℝ)} (h : pddReconstructable S lexsort fuel = .ok pdd)
    (i : Fin S.motif.length) (s : Site S.motif.length D) (hs : normSq s.2 ≤ 4)
    (hM : ∀ row ∈ pdd, ∀ x ∈ row, x ≤ eucl S.motif[i] (sitePos S.motif S.cell s)) :
    ∃ rows k, pdd.Perm rows ∧ (lexsort = false → pdd = rows) ∧ (lexsort = true → pdd.Pairwise RowLexLe) ∧
      List.Forall₂ (fun i row => IsNeighbourRow S.motif S.cell i k row) (List.finRange S.motif.length) rows := by
  obtain ⟨hD, diam, rows, hd, hr, rfl⟩ := pddReconstructable_ok h
  have hpos := diam_pos hD hcell hd
  have hD0 : 0 < D := by omega
  have hr' := hr
  unfold nearestNeighborsMinval minvalRows at hr
  simp only at hr
  set M := eucl S.motif[i] (sitePos S.motif S.cell s) with hMdef
  cases hl : minvalLoop eucl (fun l => √(sqNorm l)) (fun n mx => decide (n - maxCdist S.motif ≤ mx)) (fun v => decide (diam * 2 ≤ v))
    S.motif S.cell fuel 3 (cloudOf S.motif S.cell (layersUpTo D 3))
    ((queryAll eucl S.motif (cloudOf S.motif S.cell (layersUpTo D 3))).map fun r => r.map fun _ => (0 : ℝ))
    (queryAll eucl S.motif (cloudOf S.motif S.cell (layersUpTo D 3))) with
  | error e => unfold cloudOf at hl; rw [hl] at hr; cases hr
  | ok pc =>
    obtain ⟨prev, cur⟩ := pc
    obtain ⟨d', ns, hu, hcur, hcomp⟩ := minvalLoop_complete (M := M) hD0 (r := 2) (descends_of_halfDominant hdom (by omega))
      (fracDiff_of_fits hfit) hm (by linarith : 0 < diam * 2) fuel 3 (layersUpTo D 3) _ (by omega) (used_three hD0)
      (fun n hn hn' => absurd hn hn')
      ⟨S.motif[i], List.getElem_mem _, sitePos S.motif S.cell s, by
        have : s.2 ∈ layersUpTo D 3 := (mem_layersUpTo hD0 2 s.2).mpr hs
        have h2 := mem_cloudOf (cell := S.cell) this (List.getElem_mem s.1.2 : S.motif[s.1] ∈ S.motif)
        exact h2, le_rfl⟩ (Or.inl ⟨_, rfl⟩) hl
    obtain ⟨_, hst⟩ := minvalLoop_ok hD0 fuel 3 (layersUpTo D 3) _ (used_three hD0) hl
    unfold cloudOf at hl
    rw [hl] at hr
    simp only at hr
    cases hf : firstCol (fun v => decide (diam * 2 ≤ v)) prev with
    | none => rw [hf] at hr; cases hr
    | some k =>
      rw [hf] at hr
      injection hr with hr
      have hfc : firstCol (fun v => decide (diam * 2 ≤ v)) cur = some k := by
        rcases hst with hst | hst
        · rw [← hst]; exact hf
        · obtain ⟨c, h1, h2⟩ := minvalStable_spec hst
          have := firstCol_of_take h1 h2
          rw [hf] at this
          injection this with this
          rw [this]
          exact h1
      obtain ⟨sites, e1, hk0, hlen, hnd, hsort, hnear, hlast, _, _⟩ := minval_sites hm (by linarith) hu hcur hfc
      rw [e1] at hr
      refine ⟨rows, k, lexsort_perm lexsort rows, ?_, ?_, ?_⟩
      · rintro rfl; rfl
      · rintro rfl; exact lexsort_sorted rows
      · rw [← hr, List.forall₂_map_right_iff, List.forall₂_same]
        intro j _
        refine ⟨by rw [List.length_map, hlen], (sites j).pmap (fun s hs => ⟨s, hs⟩) (fun s hs e => (hnd j).2 (e ▸ hs)), ?_, ?_, hsort j, ?_⟩
        · exact (hnd j).1.pmap fun a _ b _ e => by simpa using e
        · rw [List.map_pmap]
          simp only [List.pmap_eq_map]
        · rintro ⟨s', hs'⟩ hnot x hx
          have hnot' : s' ∉ sites j := by
            intro hmem
            exact hnot (List.mem_pmap.mpr ⟨s', hmem, rfl⟩)
          have hxM : x ≤ M := by
            refine hM ((sites j).map fun s => eucl S.motif[j] (sitePos S.motif S.cell s)) ?_ x hx
            rw [(lexsort_perm lexsort rows).mem_iff, ← hr]
            exact List.mem_map.mpr ⟨j, List.mem_finRange j, rfl⟩
          obtain ⟨t, ht, rfl⟩ := List.mem_map.mp hx
          by_cases hns : s'.2 ∈ ns
          · exact hnear j s' hns hs' hnot' t ht
          · have h1 := hcomp k hfc s'.2 hns S.motif[j] (List.getElem_mem _) S.motif[s'.1] (List.getElem_mem _)
            rw [← hlast j] at h1
            have h2 : eucl S.motif[j] (sitePos S.motif S.cell t) ≤
                ((sites j).map fun s => eucl S.motif[j] (sitePos S.motif S.cell s)).getD (k - 1) 0 := by
              obtain ⟨a, ha, ea⟩ := List.mem_iff_getElem.mp hx
              rw [List.length_map, hlen] at ha
              rw [← ea, List.getD_eq_getElem _ _ (by rw [List.length_map, hlen]; omega)]
              rcases Nat.lt_or_ge a (k - 1) with hlt | hge
              · exact List.pairwise_iff_getElem.mp (hsort j) _ _ _ _ hlt
              · have : a = k - 1 := by omega
                simp only [this, le_refl]
            exact (le_min hxM h2).trans h1

/-! ### C56 -/

/-- **C56** (partial) For every set in two or three dimensions with at least one motif point and independent cell vectors,
`PDD_reconstructable` ends, with a result or with IndexError. -/
theorem C56_terminates_partial {S : PeriodicSet D} (hD : D = 2 ∨ D = 3) (hm : S.motif ≠ []) (hcell : NonSingular S.cell) (lexsort : Bool) :
    ∃ F res, (res = .error .bounds ∨ ∃ pdd, res = .ok pdd) ∧ ∀ fuel, F ≤ fuel → pddReconstructable S lexsort fuel = res := by
  obtain ⟨diam, hd, _⟩ := C24_diameter hD S.cell
  have hc : cloudOf S.motif S.cell (layersUpTo D 3) ≠ [] := by
    obtain ⟨q, hq⟩ := List.exists_mem_of_ne_nil _ hm
    exact List.ne_nil_of_mem (mem_cloudOf (n := 0) ((mem_layersUpTo (by omega) 2 0).mpr (by simp [normSq])) hq)
  obtain ⟨F, res, hF⟩ := minvalLoop_ends (nrm := fun l => √(sqNorm l)) (close := fun n mx => decide (n - maxCdist S.motif ≤ mx))
    (by omega) hcell hm (diam * 2) 3 _ hc
    ((queryAll eucl S.motif (cloudOf S.motif S.cell (layersUpTo D 3))).map fun r => r.map fun _ => (0 : ℝ))
  have key : ∀ fuel, F ≤ fuel → pddReconstructable S lexsort fuel =
      match firstCol (fun v => decide (diam * 2 ≤ v)) res.1 with
      | none => .error .bounds
      | some k => .ok (if lexsort then (res.2.map fun r => (r.take (k + 1)).drop 1).insertionSort (fun a b => lexLe a b)
          else res.2.map fun r => (r.take (k + 1)).drop 1) := by
    intro fuel hf
    have h1 := hF fuel hf
    unfold cloudOf at h1
    unfold pddReconstructable nearestNeighborsMinval minvalRows
    rw [if_neg (by omega), hd]
    simp only [bind, Except.bind]
    rw [h1]
    simp only
    cases firstCol (fun v => decide (diam * 2 ≤ v)) res.1 <;> rfl
  refine ⟨F, _, ?_, key⟩
  cases firstCol (fun v => decide (diam * 2 ≤ v)) res.1 with
  | none => exact Or.inl rfl
  | some k => exact Or.inr ⟨_, rfl⟩

/-! ### Concrete runs -/

theorem minvalLoop_fuel {K L : Type*} [CommRing K] [LinearOrder L] [Zero L] {δ : Pt D K → Pt D K → L} {nrm : Pt D K → L}
    {close : L → L → Bool} {ge : L → Bool} {motif : List (Pt D K)} {cell : Fin D → Pt D K} :
    ∀ (f f' d : ℕ) (cloud : List (Pt D K)) (prev cur : List (List L)) {res : List (List L) × List (List L)}, f ≤ f' →
    minvalLoop δ nrm close ge motif cell f d cloud prev cur = .ok res → minvalLoop δ nrm close ge motif cell f' d cloud prev cur = .ok res := by
  intro f
  induction f with
  | zero => intro f' d cloud prev cur res _ h; simp [minvalLoop] at h
  | succ f ih =>
    intro f' d cloud prev cur res hf h
    obtain ⟨g, rfl⟩ := Nat.exists_eq_add_of_le' (by omega : 1 ≤ f')
    rw [minvalLoop] at h ⊢
    split_ifs at h ⊢ with hs
    · exact h
    · cases hm : (cur.flatMap fun r => r.getLast?.toList).max? with
      | none => rw [hm] at h; cases h
      | some mx =>
        rw [hm] at h
        simp only at h ⊢
        split_ifs at h ⊢ with he
        · exact h
        · exact ih g _ _ _ _ (by omega) h

theorem minvalRows_fuel {K L : Type*} [CommRing K] [LinearOrder L] [Zero L] {δ : Pt D K → Pt D K → L} {nrm : Pt D K → L}
    {close : L → L → Bool} {ge : L → Bool} {motif : List (Pt D K)} {cell : Fin D → Pt D K} {f f' : ℕ} (hm : motif ≠ []) (hD : 0 < D)
    (hf : f ≤ f') {res : Except Err (List (List L))} (h : minvalRows δ nrm close ge motif cell f = res) (hr : res ≠ .error .fuel) :
    minvalRows δ nrm close ge motif cell f' = res := by
  unfold minvalRows at h ⊢
  simp only at h ⊢
  set loop := fun f => minvalLoop δ nrm close ge motif cell f 3 (latticeToCloud motif ((layersUpTo D 3).map (latVec cell)))
    ((queryAll δ motif (latticeToCloud motif ((layersUpTo D 3).map (latVec cell)))).map fun r => r.map fun _ => (0 : L))
    (queryAll δ motif (latticeToCloud motif ((layersUpTo D 3).map (latVec cell)))) with hl
  have hf1 : loop f = minvalLoop δ nrm close ge motif cell f 3 (latticeToCloud motif ((layersUpTo D 3).map (latVec cell)))
    ((queryAll δ motif (latticeToCloud motif ((layersUpTo D 3).map (latVec cell)))).map fun r => r.map fun _ => (0 : L))
    (queryAll δ motif (latticeToCloud motif ((layersUpTo D 3).map (latVec cell)))) := rfl
  have hf2 : loop f' = minvalLoop δ nrm close ge motif cell f' 3 (latticeToCloud motif ((layersUpTo D 3).map (latVec cell)))
    ((queryAll δ motif (latticeToCloud motif ((layersUpTo D 3).map (latVec cell)))).map fun r => r.map fun _ => (0 : L))
    (queryAll δ motif (latticeToCloud motif ((layersUpTo D 3).map (latVec cell)))) := rfl
  rw [← hf1] at h
  rw [← hf2]
  cases hc : loop f with
  | error e =>
    exfalso
    have hne : latticeToCloud motif ((layersUpTo D 3).map (latVec cell)) ≠ [] := by
      obtain ⟨q, hq⟩ := List.exists_mem_of_ne_nil _ hm
      have h0 : (0 : Fin D → ℤ) ∈ layersUpTo D 3 := (mem_layersUpTo hD 2 0).mpr (by simp [normSq])
      apply List.ne_nil_of_mem (a := q + latVec cell 0)
      unfold latticeToCloud
      simp only [List.mem_flatMap, List.mem_map]
      exact ⟨_, ⟨0, h0, rfl⟩, q, hq, rfl⟩
    have he : e = .fuel := minvalLoop_error f 3 _ _ hm hne hc
    rw [hc, he] at h
    exact hr h.symm
  | ok pc =>
    have : loop f' = .ok pc := minvalLoop_fuel f f' 3 _ _ _ hf hc
    rw [this]
    rw [hc] at h
    exact h

/-- Result of `PDD_reconstructable` on integer data, from a run on squared integer distances. -/
theorem pddReconstructable_int (motif : List (Pt 2 ℤ)) (cell : Fin 2 → Pt 2 ℤ) (hm : motif ≠ []) {mc mv F : ℕ}
    (hmc : maxCdist (motif.map castPt) = rootN mc)
    (hmv : √(max (sqNorm (castPt (cell 0) + castPt (cell 1))) (sqNorm (castPt (cell 0) - castPt (cell 1)) : ℝ)) * 2 = rootN mv)
    {res : Except Err (List (List ℕ))} (h : minvalRowsN mc mv motif cell F = res) (hr : res ≠ .error .fuel) (fuel : ℕ) (hf : F ≤ fuel) :
    pddReconstructable { motif := motif.map castPt, cell := fun i => castPt (cell i) } false fuel =
      res.map fun rows => rows.map (·.map rootN) := by
  have h1 := nearestNeighborsMinval_cast motif cell hmc hmv fuel
  have h2 : minvalRowsN mc mv motif cell fuel = res := minvalRows_fuel hm (by norm_num) hf h hr
  rw [h2] at h1
  unfold pddReconstructable
  rw [if_neg (by simp)]
  have hd : diameter 2 (fun i => castPt (cell i)) =
      .ok (√(max (sqNorm (castPt (cell 0) + castPt (cell 1))) (sqNorm (castPt (cell 0) - castPt (cell 1))))) := rfl
  simp only [hd, h1, bind, Except.bind]
  cases res <;> rfl

/-- One point in the unit square. -/
noncomputable def unitSquare : PeriodicSet 2 :=
  { motif := [castPt ![0, 0]], cell := fun i => castPt ((![![1, 0], ![0, 1]] : Fin 2 → Pt 2 ℤ) i) }

/-- Two points in a rectangle. -/
noncomputable def rectSet : PeriodicSet 2 :=
  { motif := [castPt ![0, 0], castPt ![0, 1]], cell := fun i => castPt ((![![4, 0], ![0, 3]] : Fin 2 → Pt 2 ℤ) i) }

/-- Two points in a square cell. -/
noncomputable def pairSet : PeriodicSet 2 :=
  { motif := [castPt ![0, 0], castPt ![9, 0]], cell := fun i => castPt ((![![10, 0], ![0, 10]] : Fin 2 → Pt 2 ℤ) i) }

theorem nonSingular_diag {a b : ℤ} (ha : a ≠ 0) (hb : b ≠ 0) :
    NonSingular (fun i => (castPt ((![![a, 0], ![0, b]] : Fin 2 → Pt 2 ℤ) i) : Pt 2 ℝ)) := by
  have e : (fun i => (castPt ((![![a, 0], ![0, b]] : Fin 2 → Pt 2 ℤ) i) : Pt 2 ℝ)) = ![(![(a : ℝ), 0] : Pt 2 ℝ), ![0, (b : ℝ)]] := by
    funext i j
    fin_cases i <;> fin_cases j <;> simp [castPt]
  rw [NonSingular, e, LinearIndependent.pair_iff' (by intro h; have := congrFun h 0; simp at this; exact ha this)]
  intro c h
  have := congrFun h 1
  simp at this
  exact hb (by exact_mod_cast this.symm)

theorem halfDominant_diag (a b : ℤ) :
    HalfDominant (fun i => (castPt ((![![a, 0], ![0, b]] : Fin 2 → Pt 2 ℤ) i) : Pt 2 ℝ)) := by
  intro i
  have h0 : (Finset.univ : Finset (Fin 2)).erase 0 = {1} := by decide
  have h1 : (Finset.univ : Finset (Fin 2)).erase 1 = {0} := by decide
  fin_cases i
  · simp [h0, gram, Fin.sum_univ_two, castPt, mul_self_nonneg]
  · simp [h1, gram, Fin.sum_univ_two, castPt, mul_self_nonneg]

theorem fits_diag {a b : ℤ} (ha : 0 < a) (hb : 0 < b) (motif : List (Pt 2 ℤ)) (h : ∀ p ∈ motif, 0 ≤ p 0 ∧ p 0 < a ∧ 0 ≤ p 1 ∧ p 1 < b) :
    FitsInCell (motif.map castPt) (fun i => (castPt ((![![a, 0], ![0, b]] : Fin 2 → Pt 2 ℤ) i) : Pt 2 ℝ)) := by
  have ha' : (0 : ℝ) < a := by exact_mod_cast ha
  have hb' : (0 : ℝ) < b := by exact_mod_cast hb
  refine ⟨0, fun q hq => ?_⟩
  obtain ⟨p, hp, rfl⟩ := List.mem_map.mp hq
  obtain ⟨h1, h2, h3, h4⟩ := h p hp
  refine ⟨![(p 0 : ℝ) / a, (p 1 : ℝ) / b], ?_, ?_⟩
  · intro i
    fin_cases i
    · refine ⟨div_nonneg (by exact_mod_cast h1) ha'.le, ?_⟩
      change (p 0 : ℝ) / a < 1
      rw [div_lt_one ha']; exact_mod_cast h2
    · refine ⟨div_nonneg (by exact_mod_cast h3) hb'.le, ?_⟩
      change (p 1 : ℝ) / b < 1
      rw [div_lt_one hb']; exact_mod_cast h4
  · funext j
    fin_cases j <;> simp [castPt, Fin.sum_univ_two, ha'.ne', hb'.ne']

set_option maxRecDepth 100000 in
/-- **C56** is false in general: for one point in the unit square `PDD_reconstructable` raises IndexError. -/
theorem C56_false : unitSquare.motif ≠ [] ∧ NonSingular unitSquare.cell ∧ HalfDominant unitSquare.cell ∧
    FitsInCell unitSquare.motif unitSquare.cell ∧ ∀ fuel, 3 ≤ fuel → pddReconstructable unitSquare false fuel = .error .bounds := by
  refine ⟨by simp [unitSquare], nonSingular_diag one_ne_zero one_ne_zero, halfDominant_diag 1 1,
    fits_diag one_pos one_pos [![0, 0]] (by simp), fun fuel hf => ?_⟩
  refine pddReconstructable_int [![0, 0]] ![![1, 0], ![0, 1]] (by simp) (mc := 0) (mv := 8) ?_ ?_ (res := .error .bounds) (F := 3) (by decide)
    (by simp) fuel hf
  · simp [maxCdist, rootN, eucl, sqDist]
  · have e : (√(8 : ℝ)) = √2 * 2 := by
      rw [show (8 : ℝ) = 2 * 2 ^ 2 by norm_num, Real.sqrt_mul (by norm_num), Real.sqrt_sq (by norm_num)]
    simp [rootN, sqNorm, Fin.sum_univ_two, castPt, e]
    norm_num

/-- The squares of the entries of the rows returned for `rectSet`. -/
def rectRow : List ℕ :=
  [1, 4, 9, 9, 16, 16, 16, 17, 17, 20, 20, 25, 25, 25, 25, 25, 32, 32, 36, 36, 41, 41, 49, 52, 52, 52, 52, 64, 64, 64, 65, 65, 65, 65,
    68, 68, 73, 73, 73, 73, 80, 80, 80, 80, 81, 81, 97, 97, 97, 97, 100]

/-- The squares of the entries of the rows returned for `pairSet`. -/
def pairRow : List ℕ :=
  [1, 81, 100, 100, 100, 100, 101, 101, 121, 181, 181, 200, 200, 200, 200, 221, 221, 361, 400, 400, 400, 400,
    401, 401, 441, 461, 461, 481, 481, 500, 500, 500, 500, 500, 500, 500, 500, 521, 521, 541, 541, 761, 761, 800]

set_option maxRecDepth 100000 in
theorem rectSet_run (fuel : ℕ) (hf : 6 ≤ fuel) :
    pddReconstructable rectSet false fuel = .ok [rectRow.map rootN, rectRow.map rootN] := by
  refine pddReconstructable_int [![0, 0], ![0, 1]] ![![4, 0], ![0, 3]] (by simp) (mc := 1) (mv := 100) ?_ ?_
    (res := .ok [rectRow, rectRow]) (F := 6) (by decide) (by simp) fuel hf
  · simp [maxCdist, rootN, eucl, sqDist, Fin.sum_univ_two, castPt]
  · have e : (√(100 : ℝ)) = 10 := by
      rw [show (100 : ℝ) = 10 ^ 2 by norm_num, Real.sqrt_sq (by norm_num)]
    have e2 : (√(25 : ℝ)) = 5 := by
      rw [show (25 : ℝ) = 5 ^ 2 by norm_num, Real.sqrt_sq (by norm_num)]
    simp [rootN, sqNorm, Fin.sum_univ_two, castPt, e]
    norm_num [e2]

set_option maxRecDepth 100000 in
theorem pairSet_run (fuel : ℕ) (hf : 6 ≤ fuel) :
    pddReconstructable pairSet false fuel = .ok [pairRow.map rootN, pairRow.map rootN] := by
  refine pddReconstructable_int [![0, 0], ![9, 0]] ![![10, 0], ![0, 10]] (by simp) (mc := 81) (mv := 800) ?_ ?_
    (res := .ok [pairRow, pairRow]) (F := 6) (by decide) (by simp) fuel hf
  · have e : (√(81 : ℝ)) = 9 := by
      rw [show (81 : ℝ) = 9 ^ 2 by norm_num, Real.sqrt_sq (by norm_num)]
    simp [maxCdist, rootN, eucl, sqDist, Fin.sum_univ_two, castPt, e]
  · have e : (√(800 : ℝ)) = √200 * 2 := by
      rw [show (800 : ℝ) = 200 * 2 ^ 2 by norm_num, Real.sqrt_mul (by norm_num), Real.sqrt_sq (by norm_num)]
    simp [rootN, sqNorm, Fin.sum_univ_two, castPt, e]
    norm_num

/-- **C57** is false in general, even for a rectangular cell: for the points (0, 0), (0, 1) in the 4 × 3 rectangle the rows returned
end with 10 but miss the two neighbours at distance √89. -/
theorem C57_false : rectSet.motif ≠ [] ∧ NonSingular rectSet.cell ∧ HalfDominant rectSet.cell ∧ FitsInCell rectSet.motif rectSet.cell ∧
    ∃ pdd, (∀ fuel, 6 ≤ fuel → pddReconstructable rectSet false fuel = .ok pdd) ∧
      ∀ row ∈ pdd, ∀ i k, ¬ IsNeighbourRow rectSet.motif rectSet.cell i k row := by
  refine ⟨by simp [rectSet], nonSingular_diag (by norm_num) (by norm_num), halfDominant_diag 4 3,
    fits_diag (by norm_num) (by norm_num) [![0, 0], ![0, 1]] (by simp), _, rectSet_run, ?_⟩
  have key : ∀ (i : Fin rectSet.motif.length) (s : Site rectSet.motif.length 2), s ≠ (i, 0) →
      eucl rectSet.motif[i] (sitePos rectSet.motif rectSet.cell s) = rootN 89 →
      ∀ k, ¬ IsNeighbourRow rectSet.motif rectSet.cell i k (rectRow.map rootN) := by
    rintro i s hne hs k ⟨_, idx, _, e, _, hout⟩
    have hnot : (⟨s, hne⟩ : {s : Site rectSet.motif.length 2 // s ≠ (i, 0)}) ∉ idx := by
      intro hmem
      have := List.mem_map_of_mem (f := fun s : {s : Site rectSet.motif.length 2 // s ≠ (i, 0)} =>
        eucl rectSet.motif[i] (sitePos rectSet.motif rectSet.cell s.1)) hmem
      rw [← e] at this
      simp only [hs] at this
      obtain ⟨a, ha, hh⟩ := List.mem_map.mp this
      rw [rootN_injective hh] at ha
      exact absurd ha (by decide)
    have h1 := hout _ hnot (rootN 100) (List.mem_map_of_mem (by decide))
    simp only [hs] at h1
    rw [rootN_le_iff] at h1
    omega
  intro row hrow i k
  have : row = rectRow.map rootN := by simpa using hrow
  subst this
  have h0 : (0 : ℕ) < rectSet.motif.length := by simp [rectSet]
  have h1 : (1 : ℕ) < rectSet.motif.length := by simp [rectSet]
  have hi : i = ⟨0, h0⟩ ∨ i = ⟨1, h1⟩ := by
    have : i.1 < 2 := i.2
    rcases (by omega : i.1 = 0 ∨ i.1 = 1) with h | h
    · exact Or.inl (Fin.ext h)
    · exact Or.inr (Fin.ext h)
  rcases hi with rfl | rfl
  · refine key _ (⟨1, h1⟩, ![2, -2]) ?_ ?_ k
    · intro h
      have := congrFun (congrArg Prod.snd h) 0
      simp at this
    · simp [eucl, sqDist, sitePos, rectSet, castPt, Fin.sum_univ_two, rootN]
      change √((((0 : ℤ) : ℝ) - (((0 : ℤ) : ℝ) + 2 * 4)) ^ 2 + (((0 : ℤ) : ℝ) - (((1 : ℤ) : ℝ) + -(2 * 3))) ^ 2) = _
      norm_num
  · refine key _ (⟨0, h0⟩, ![2, 2]) ?_ ?_ k
    · intro h
      have := congrFun (congrArg Prod.snd h) 0
      simp at this
    · simp [eucl, sqDist, sitePos, rectSet, castPt, Fin.sum_univ_two, rootN]
      change √((((0 : ℤ) : ℝ) - (((0 : ℤ) : ℝ) + 2 * 4)) ^ 2 + (((1 : ℤ) : ℝ) - (((0 : ℤ) : ℝ) + 2 * 3)) ^ 2) = _
      norm_num

/-- The hypotheses of C21 and of all C57 theorems are met by `pairSet`. -/
example : pairSet.motif ≠ [] ∧ NonSingular pairSet.cell ∧ HalfDominant pairSet.cell ∧ FitsInCell pairSet.motif pairSet.cell ∧
    ∃ pdd, (∀ fuel, 6 ≤ fuel → pddReconstructable pairSet false fuel = .ok pdd) ∧
      ∃ (i : Fin pairSet.motif.length) (s : Site pairSet.motif.length 2), normSq s.2 ≤ 4 ∧
        ∀ row ∈ pdd, ∀ x ∈ row, x ≤ eucl pairSet.motif[i] (sitePos pairSet.motif pairSet.cell s) := by
  refine ⟨by simp [pairSet], nonSingular_diag (by norm_num) (by norm_num), halfDominant_diag 10 10,
    fits_diag (by norm_num) (by norm_num) [![0, 0], ![9, 0]] (by simp), _, pairSet_run, ⟨0, by simp [pairSet]⟩, (⟨1, by simp [pairSet]⟩, ![2, 0]),
    by simp [normSq, Fin.sum_univ_two], ?_⟩
  have e : eucl (pairSet.motif[0]'(by simp [pairSet])) (sitePos pairSet.motif pairSet.cell (⟨1, by simp [pairSet]⟩, ![2, 0])) = rootN 841 := by
    simp [eucl, sqDist, sitePos, pairSet, castPt, Fin.sum_univ_two, rootN]
    change √((((0 : ℤ) : ℝ) - (((9 : ℤ) : ℝ) + 2 * 10)) ^ 2 + (((0 : ℤ) : ℝ) - ((0 : ℤ) : ℝ)) ^ 2) = _
    norm_num
  intro row hrow x hx
  have : row = pairRow.map rootN := by simpa using hrow
  subst this
  obtain ⟨a, ha, rfl⟩ := List.mem_map.mp hx
  refine le_trans ?_ e.ge
  rw [rootN_le_iff]
  exact (by decide : ∀ a ∈ pairRow, a ≤ 841) a ha

end Amd
