import Verif.Props.RoundingEmd

/-! The size of a PDD and the range of its entries. -/

namespace Amd

variable {D : ℕ} {S : PeriodicSet D} {inds : List (Fin S.motif.length)} {mult : List ℕ} {k : ℕ}

theorem PDD_range (hD : 0 < D) (hu : S.Units inds mult) (hne : inds ≠ []) (hpos : ∀ n ∈ mult, 0 < n) (hsum : mult.sum = S.motif.length) (hs : Searchable S.motif S.cell (k + 1)) {lexsort collapse : Bool} {tol : ℝ} {fuel : ℕ}
    {p : List (PRow ℝ)} (hp : PDD S k lexsort collapse tol fuel = .ok p) (a : Fin D) :
    p.length ≤ S.motif.length ∧ ∀ r ∈ p, ∀ x ∈ r.dists, 0 ≤ x ∧ x ≤ k * eucl (S.cell a) 0 := by
  obtain ⟨rows, hr, e⟩ := PDD_rows hD hu hne hp
  obtain ⟨hw, hml⟩ := units_dists hD hu hne hr
  have hrows := nearestNeighbors_neighbourRow hD hne hs hr
  have hl : rows.length = inds.length := hrows.length_eq.symm
  set dists := rows.map (·.drop 1) with hdists
  have hrange : ∀ r ∈ dists, ∀ x ∈ r, 0 ≤ x ∧ x ≤ k * eucl (S.cell a) 0 := by
    intro r hrm x hx
    obtain ⟨row, hrow, rfl⟩ := List.mem_map.1 hrm
    obtain ⟨i, hi, rfl⟩ := List.mem_iff_getElem.1 hrow
    have := (List.forall₂_iff_get.1 hrows).2 i (by omega) hi
    exact C82_range this.2.2 a x hx
  have hperm := lexsortRows_perm lexsort (collapseRows k collapse tol dists (mult.map fun n : ℕ => (n : ℝ) / (S.motif.length : ℝ)))
  rw [← e, collapseRows_eq k collapse tol dists _ hw] at hperm
  constructor
  · rw [hperm.length_eq, List.length_map]
    have h1 : (rowGroups collapse tol dists).length ≤ (rowGroups collapse tol dists).flatten.length := by
      have := rowGroups_nonempty collapse tol dists
      generalize rowGroups collapse tol dists = G at this
      induction G with
      | nil => simp
      | cons g G ih =>
        have h1 := List.length_pos_iff.2 (this g (by simp))
        have h2 := ih fun g hg => this g (by simp [hg])
        simp only [List.length_cons, List.flatten_cons, List.length_append]
        omega
    rw [(rowGroups_perm collapse tol dists).length_eq, List.length_range] at h1
    have h3 : dists.length = inds.length := by rw [hdists, List.length_map, hl]
    have h2 : mult.length ≤ mult.sum := by
      have := hpos
      clear hml hp hperm e
      generalize mult = l at this
      induction l with
      | nil => simp
      | cons n l ih =>
        have h1 := this n (by simp)
        have h2 := ih fun n hn => this n (by simp [hn])
        simp only [List.length_cons, List.sum_cons]
        omega
    rw [hsum, ← units_length hu] at h2
    omega
  · intro r hrp x hx
    obtain ⟨g, hg, rfl⟩ := List.mem_map.1 (hperm.subset hrp)
    obtain ⟨j, hj, rfl⟩ := List.mem_map.1 hx
    rw [List.mem_range] at hj
    have hlen : (0 : ℝ) < g.length := by exact_mod_cast List.length_pos_iff.mpr (rowGroups_nonempty collapse tol dists g hg)
    have hin : ∀ i ∈ g, 0 ≤ (dists.getD i []).getD j 0 ∧ (dists.getD i []).getD j 0 ≤ k * eucl (S.cell a) 0 := by
      intro i hi
      have hi' := rowGroups_lt hg hi
      rw [List.getD_eq_getElem dists _ hi', List.getD_eq_getElem _ _ (by rw [hw _ (List.getElem_mem _)]; exact hj)]
      exact hrange _ (List.getElem_mem _) _ (List.getElem_mem _)
    rw [List.map_map, List.length_map]
    constructor
    · refine div_nonneg (List.sum_nonneg fun x hx => ?_) hlen.le
      obtain ⟨i, hi, rfl⟩ := List.mem_map.1 hx
      exact (hin i hi).1
    · rw [div_le_iff₀ hlen]
      refine (list_sum_le (g := fun _ => (k : ℝ) * eucl (S.cell a) 0) fun i hi => (hin i hi).2).trans ?_
      rw [List.map_const', List.sum_replicate, nsmul_eq_mul, mul_comm]

end Amd
