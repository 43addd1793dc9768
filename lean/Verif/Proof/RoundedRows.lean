import Verif.Proof.Rounded
import Verif.Proof.DescribedNear
import Verif.Proof.RoundingBound

/-! Invariants of sets with displaced points. -/

namespace Amd

open Classical

/-! ### Rows of displaced points -/

section
variable {D k : ℕ} {cell : Fin D → Pt D ℝ} {motif motif₀ : List (Pt D ℝ)} {η : ℝ}

theorem eucl_displaced {p p₀ : Pt D ℝ} {x : Pt D ℝ} (hx : ∀ j, |x j| ≤ η) (hp : ∀ c, p c = p₀ c + cartesian cell x c) : eucl p₀ p ≤ η * ∑ i, eucl (cell i) 0 := by
  have e : ∀ s : Finset (Fin D), ∀ q : Pt D ℝ, eucl q (fun c => q c + ∑ i ∈ s, x i * cell i c) ≤ η * ∑ i ∈ s, eucl (cell i) 0 := by
    intro s
    induction s using Finset.induction_on with
    | empty =>
      intro q
      simp only [Finset.sum_empty, add_zero, mul_zero]
      exact (eucl_eq_zero.2 rfl).le
    | insert i s hi ih =>
      intro q
      rw [Finset.sum_insert hi, mul_add]
      refine (eucl_triangle q (fun c => q c + x i * cell i c) _).trans (add_le_add ?_ ?_)
      · have h1 : eucl q (fun c => q c + x i * cell i c) = |x i| * eucl (cell i) 0 := by
          unfold eucl
          rw [← Real.sqrt_sq_eq_abs, ← Real.sqrt_mul (sq_nonneg _)]
          congr 1
          simp only [sqDist, Finset.mul_sum]
          exact Finset.sum_congr rfl fun c _ => by simp; ring
        rw [h1]
        exact mul_le_mul_of_nonneg_right (hx i) (eucl_nonneg _ _)
      · have h2 : (fun c => q c + ∑ j ∈ insert i s, x j * cell j c) = fun c => (fun c => q c + x i * cell i c) c + ∑ j ∈ s, x j * cell j c := by
          funext c
          rw [Finset.sum_insert hi]
          ring
        rw [h2]
        exact ih _
  have h := e Finset.univ p₀
  have : p = fun c => p₀ c + ∑ i, x i * cell i c := funext hp
  rw [this]
  exact h

/-- The points of one list are those of the other, displaced. -/
def DisplacedList (cell : Fin D → Pt D ℝ) (η : ℝ) (motif motif₀ : List (Pt D ℝ)) : Prop :=
  List.Forall₂ (fun p p₀ => ∃ (n : Fin D → ℤ) (x : Pt D ℝ), (∀ j, |x j| ≤ η) ∧ ∀ c, p c = p₀ c + cartesian cell (fun i => n i + x i) c) motif motif₀

theorem displaced_row (h : DisplacedList cell η motif motif₀) (e : motif.length = motif₀.length) {i : Fin motif.length} {r r₀ : List ℝ} (hr : IsNeighbourRow motif cell i k r)
    (hr₀ : IsNeighbourRow motif₀ cell (i.cast e) k r₀) {t : ℕ} (ht : t < k) : |r.getD t 0 - r₀.getD t 0| ≤ 2 * (η * ∑ i, eucl (cell i) 0) := by
  have hd : ∀ j : Fin motif.length, ∃ (n : Fin D → ℤ) (x : Pt D ℝ), (∀ j, |x j| ≤ η) ∧ ∀ c, motif[j] c = motif₀[j.cast e] c + cartesian cell (fun i => n i + x i) c := by
    intro j
    exact (List.forall₂_iff_get.1 h).2 j j.2 (by rw [← e]; exact j.2)
  choose n x hx hp using hd
  let φ : Site motif.length D ≃ Site motif₀.length D := {
    toFun := fun s => (s.1.cast e, s.2 + n s.1 - n i)
    invFun := fun s => (s.1.cast e.symm, s.2 - n (s.1.cast e.symm) + n i)
    left_inv := fun s => Prod.ext rfl (by simp only [Fin.cast_cast, Fin.cast_eq_self]; abel)
    right_inv := fun s => Prod.ext rfl (by simp only; abel) }
  -- each site is displaced, together with a common translation
  let v : Pt D ℝ := fun c => ∑ a, (n i a : ℝ) * cell a c
  have hpos : ∀ s, eucl (sitePos motif₀ cell (φ s) + v) (sitePos motif cell s) ≤ η * ∑ i, eucl (cell i) 0 := by
    intro s
    refine eucl_displaced (hx s.1) fun c => ?_
    have := hp s.1 c
    simp only [sitePos, this, φ, v, cartesian, Equiv.coe_fn_mk, Pi.add_apply, Pi.sub_apply]
    push_cast
    simp only [add_mul, sub_mul, Finset.sum_add_distrib, Finset.sum_sub_distrib]
    ring
  have hi : eucl (motif₀[i.cast e] + v) motif[i] ≤ η * ∑ i, eucl (cell i) 0 := by
    refine eucl_displaced (hx i) fun c => ?_
    rw [hp i c]
    simp only [v, cartesian, Pi.add_apply, add_mul, Finset.sum_add_distrib]
    ring
  have htr : ∀ p q : Pt D ℝ, eucl (p + v) (q + v) = eucl p q := fun p q => eucl_add_right p q v
  have hφi : φ (i, 0) = (i.cast e, 0) := by simp [φ]
  have hk : IsKNearest (fun s : {s : Site motif.length D // s ≠ (i, 0)} => eucl motif₀[i.cast e] (sitePos motif₀ cell (φ s))) r₀ := by
    refine hr₀.2.equiv ((φ.subtypeEquiv fun s => by
      rw [not_iff_not, ← hφi]
      exact φ.apply_eq_iff_eq.symm).symm) ?_
    rintro ⟨s, hs⟩
    obtain ⟨s, rfl⟩ := φ.surjective s
    simp only [Equiv.subtypeEquiv_symm, Equiv.subtypeEquiv_apply, Equiv.symm_apply_apply]
  have hdist : ∀ s, |eucl motif[i] (sitePos motif cell s) - eucl motif₀[i.cast e] (sitePos motif₀ cell (φ s))| ≤ 2 * (η * ∑ i, eucl (cell i) 0) := by
    intro s
    rw [← htr motif₀[i.cast e]]
    have t1 := eucl_triangle (motif₀[i.cast e] + v) motif[i] (sitePos motif₀ cell (φ s) + v)
    have t2 := eucl_triangle motif[i] (sitePos motif cell s) (sitePos motif₀ cell (φ s) + v)
    have t3 := eucl_triangle motif[i] (motif₀[i.cast e] + v) (sitePos motif cell s)
    have t4 := eucl_triangle (motif₀[i.cast e] + v) (sitePos motif₀ cell (φ s) + v) (sitePos motif cell s)
    have s1 := hpos s
    rw [eucl_comm motif[i] (motif₀[i.cast e] + v)] at t3
    rw [eucl_comm (sitePos motif cell s) (sitePos motif₀ cell (φ s) + v)] at t2
    rw [abs_le]
    constructor <;> linarith
  have l1 : t < r.length := by rw [hr.1]; exact ht
  have l2 : t < r₀.length := by rw [hr₀.1]; exact ht
  have u := hk.getElem_le_map hr.2 (φ := fun x => x + 2 * (η * ∑ i, eucl (cell i) 0)) (fun x y h => add_le_add_left h _)
    (fun s => by have := (abs_le.1 (hdist s)).2; linarith) t l2 l1
  have l := hk.le_getElem_map hr.2 (φ := fun x => x - 2 * (η * ∑ i, eucl (cell i) 0)) (fun x y h => sub_le_sub_right h _)
    (fun s => by have := (abs_le.1 (hdist s)).1; linarith) t l2 l1
  rw [List.getD_eq_getElem _ _ l1, List.getD_eq_getElem _ _ l2, abs_le]
  constructor <;> linarith

end

/-! ### PDDs row by row -/

theorem exactEmd_rowwise {k : ℕ} {p q : List (PRow ℝ)} {c : ℝ} (hp : WeightedRows k p) (hq : WeightedRows k q) (l : p.length = q.length)
    (hw : ∀ i (h : i < p.length), p[i].weight = q[i].weight) (hd : ∀ i (h : i < p.length), chebyshev p[i].dists q[i].dists ≤ c) : exactEmd chebyshev p q ≤ c := by
  have M := chebyshev_metric k
  have hplan : IsPlan (fun i : Fin p.length => p[i].weight) (fun j : Fin q.length => q[j].weight) fun i j => if i.cast l = j then p[i].weight else 0 := by
    refine ⟨fun i j => ?_, fun i => ?_, fun j => ?_⟩
    · split
      · exact hp.nonneg i
      · exact le_rfl
    · rw [Finset.sum_ite_eq]
      simp
    · have : ∀ i : Fin p.length, (if i.cast l = j then p[i].weight else 0) = if i = j.cast l.symm then p[i].weight else 0 := by
        intro i
        congr 1
        rw [eq_iff_iff]
        constructor
        · rintro rfl; rfl
        · rintro rfl; rfl
      simp only [this]
      rw [Finset.sum_ite_eq']
      simp only [Finset.mem_univ, if_true]
      exact hw j (by omega)
  refine (wasserstein_le (fun i j => M.nonneg _ _ (hp.len i) (hq.len j)) hplan).trans ?_
  unfold planCost
  have : ∀ i : Fin p.length, ∑ j : Fin q.length, (if i.cast l = j then p[i].weight else 0) * chebyshev p[i].dists q[j].dists ≤ p[i].weight * c := by
    intro i
    simp only [ite_mul, zero_mul]
    rw [Finset.sum_ite_eq]
    simp only [Finset.mem_univ, if_true]
    exact mul_le_mul_of_nonneg_left (hd i i.2) (hp.nonneg i)
  refine (Finset.sum_le_sum fun i _ => this i).trans ?_
  rw [← Finset.sum_mul, hp.sum_eq, one_mul]

/-! ### Sets -/

section
variable {k : ℕ} {c : Described} {S : PeriodicSet 3} {η : ℝ}

/-- The set represents the crystal that is described, with displaced points. -/
structure RoundFacts (η : ℝ) (c : Described) (S : PeriodicSet 3) : Prop where
  cell : c.HasCell S.cell
  rounded : RoundedSet η c.ops c.sites S
  fits : FitsInCell S.motif S.cell

/-- How much a point may be displaced. -/
noncomputable def Described.shift (c : Described) (η : ℝ) : ℝ := η * (c.cell.a + c.cell.b + c.cell.c)

theorem Described.HasCell.edges {cell : Fin 3 → Pt 3 ℝ} (h : c.HasCell cell) : η * ∑ i, eucl (cell i) 0 = c.shift η := by
  have key : ∀ {v : Pt 3 ℝ} {a : ℝ}, HasLength v a → eucl v 0 = a := by
    rintro v a ⟨h1, h2⟩
    have : sqDist v 0 = a ^ 2 := by
      rw [← h2]
      unfold sqDist
      exact Finset.sum_congr rfl fun i _ => by simp
    unfold eucl
    rw [this, Real.sqrt_sq h1]
  obtain ⟨h1, h2, h3, -⟩ := h
  rw [Fin.sum_univ_three, key h1, key h2, key h3, Described.shift]

theorem DisplacedList.nonneg {D : ℕ} (hD : 0 < D) {cell : Fin D → Pt D ℝ} {motif motif₀ : List (Pt D ℝ)} (h : DisplacedList cell η motif motif₀) (hne : motif₀ ≠ []) : 0 ≤ η := by
  cases h with
  | nil => exact absurd rfl hne
  | cons hp _ =>
    obtain ⟨-, x, hx, -⟩ := hp
    exact (abs_nonneg _).trans (hx ⟨0, hD⟩)

theorem RoundFacts.units (h : RoundFacts η c S) : ∃ (S₀ : PeriodicSet 3) (inds : List (Fin S₀.motif.length)) (mult : List ℕ) (e : S.motif.length = S₀.motif.length),
    S₀.cell = S.cell ∧ IsDescription S₀ inds mult ∧ periodicPoints S₀.motif S₀.cell = c.points S.cell ∧ DisplacedList S.cell η S.motif S₀.motif ∧
    S.Units (inds.map (Fin.cast e.symm)) mult := by
  obtain ⟨S₀, inds, mult, hd, hp, e1, e2, e3, hf⟩ := h.rounded
  refine ⟨S₀, inds, mult, hf.length_eq, e1.symm, hd, by rw [hp, ← e1]; rfl, by rw [e1]; exact hf, ?_⟩
  rcases hd.units with ⟨u1, u2, u3⟩ | ⟨u1, u2, u3⟩
  · refine Or.inl ⟨?_, by rw [e3, u2], by rw [List.length_map, u3]⟩
    rw [e2, u1, List.map_map]
    rfl
  · refine Or.inr ⟨by rw [e2, e3]; exact u1, ?_, by rw [u3, hf.length_eq]⟩
    rw [u2]
    refine List.ext_getElem (by simp [hf.length_eq]) fun i h1 h2 => ?_
    simp

/-- AMD of what is read. -/
theorem RoundFacts.amd (h : RoundFacts η c S) (hs : Searchable S.motif S.cell (k + 1)) {fuel : ℕ} {a b : List ℝ} (ha : AMD S k fuel = .ok a) (hb : c.IsAMD k b) :
    a.length = k ∧ b.length = k ∧ ∀ j < k, |a.getD j 0 - b.getD j 0| ≤ 2 * c.shift η := by
  obtain ⟨S₀, inds, mult, e, hcell, hd, hp, hdis, hu⟩ := h.units
  have hns : NonSingular S.cell := by rw [← hcell]; exact hd.cell
  obtain ⟨R₀, hR₀, hn₀⟩ := hd.motifRows (by norm_num) k
  choose R hR using fun i : Fin S.motif.length => exists_neighbourRow (by norm_num) hns i k
  have hb' : b = (List.range k).map fun j => (List.zipWith (fun (n : ℕ) i => (n : ℝ) * (R₀ i).getD j 0) mult inds).sum / (mult.map fun n : ℕ => (n : ℝ)).sum := by
    obtain ⟨cell, hc, hb⟩ := hb
    obtain ⟨T, hT, hP⟩ := crystalPoints_congr (gram_of_cellpar h.cell hc) hns c.ops c.sites
    have h1 : IsCrystalAMD (periodicPoints S₀.motif S₀.cell) k ((List.range k).map fun j => (∑ i, (R₀ i).getD j 0) / S₀.motif.length) := ⟨_, _, _, hR₀, rfl⟩
    have hP' : c.points cell = T '' periodicPoints S₀.motif S₀.cell := by rw [hp]; exact hP
    rw [← h1.unique (by norm_num) hb hT hP']
    refine List.map_congr_left fun j _ => ?_
    rw [zipWith_swap, isAsymUnit_sum_fun hd.once hd.asym hn₀ fun r => r.getD j 0, isAsymUnit_mult hd.asym]
  have hne : inds.map (Fin.cast e.symm) ≠ [] := by simpa using hd.inds_ne
  rw [AMD_eq_rows (by norm_num) hu hne hs ha fun i _ => hR i, hb']
  refine ⟨by simp, by simp, fun j hj => ?_⟩
  have hrow : ∀ i : Fin S₀.motif.length, |(R (i.cast e.symm)).getD j 0 - (R₀ i).getD j 0| ≤ 2 * c.shift η := by
    intro i
    rw [← h.cell.edges]
    refine displaced_row hdis e (hR _) ?_ hj
    have := hn₀ i
    rw [hcell] at this
    exact this
  have hsum : 0 < (mult.map fun n : ℕ => (n : ℝ)).sum := by
    rw [isAsymUnit_mult hd.asym]
    exact_mod_cast List.length_pos_iff.2 hd.nonempty
  have key : ∀ (inds : List (Fin S₀.motif.length)) (mult : List ℕ), |(List.zipWith (fun (n : ℕ) i => (n : ℝ) * (R i).getD j 0) mult (inds.map (Fin.cast e.symm))).sum -
      (List.zipWith (fun (n : ℕ) i => (n : ℝ) * (R₀ i).getD j 0) mult inds).sum| ≤ (mult.map fun n : ℕ => (n : ℝ)).sum * (2 * c.shift η) := by
    intro inds
    have h0 : 0 ≤ 2 * c.shift η := (abs_nonneg _).trans (hrow ⟨0, List.length_pos_iff.2 hd.nonempty⟩)
    induction inds with
    | nil =>
      intro mult
      simp only [List.map_nil, List.zipWith_nil_right, List.sum_nil, sub_zero, abs_zero]
      exact mul_nonneg (List.sum_nonneg (by simp)) h0
    | cons i inds ih =>
      intro mult
      cases mult with
      | nil => simp
      | cons n mult =>
        simp only [List.map_cons, List.zipWith_cons_cons, List.sum_cons]
        have h1 := ih mult
        have h2 : |(n : ℝ) * (R (i.cast e.symm)).getD j 0 - n * (R₀ i).getD j 0| ≤ n * (2 * c.shift η) := by
          rw [← mul_sub, abs_mul, abs_of_nonneg (Nat.cast_nonneg n)]
          exact mul_le_mul_of_nonneg_left (hrow i) (Nat.cast_nonneg n)
        rw [abs_le] at h1 h2 ⊢
        constructor <;> linarith
  rw [List.getD_eq_getElem _ _ (by simpa using hj), List.getD_eq_getElem _ _ (by simpa using hj), List.getElem_map, List.getElem_map, List.getElem_range, ← sub_div, abs_div,
    abs_of_pos hsum, div_le_iff₀ hsum, mul_comm]
  exact key inds mult

/-- PDD of what is read. -/
theorem RoundFacts.pdd (h : RoundFacts η c S) (hl : S.motif.length ≤ 100000000) (hs : Searchable S.motif S.cell (k + 1)) {lexsort collapse : Bool} {tol : ℝ} (htol : 0 ≤ tol)
    {fuel : ℕ} {p q : List (PRow ℝ)} (hp : PDD S k lexsort collapse tol fuel = .ok p) (hq : c.IsPDD k q) :
    WeightedRows k p ∧ exactEmd chebyshev p q ≤ collapseError collapse tol + 2 * c.shift η := by
  obtain ⟨S₀, inds, mult, e, hcell, hd, hP, hdis, hu⟩ := h.units
  have hns : NonSingular S.cell := by rw [← hcell]; exact hd.cell
  obtain ⟨R₀, hR₀, hn₀⟩ := hd.motifRows (by norm_num) k
  choose R hR using fun i : Fin S.motif.length => exists_neighbourRow (by norm_num) hns i k
  have hne : inds.map (Fin.cast e.symm) ≠ [] := by simpa using hd.inds_ne
  have hsum : mult.sum = S.motif.length := by rw [hd.sum, e]
  have met := EMD_default_metric k
  have hw := EMD_input_of_PDD (by norm_num) hu hne hd.pos hsum hl hp
  refine ⟨hw, ?_⟩
  obtain ⟨rows, hr, -⟩ := PDD_rows (by norm_num) hu hne hp
  obtain ⟨b, hb⟩ := PDD_ok_of (by norm_num) hu hne k false false tol hr
  have hwb := EMD_input_of_PDD (by norm_num) hu hne hd.pos hsum hl hb
  have h1 : exactEmd chebyshev p b ≤ collapseError collapse tol := by
    cases collapse with
    | false =>
      have : p.Perm b := by
        obtain ⟨r1, hr1, e1⟩ := PDD_rows (by norm_num) hu hne hp
        obtain ⟨r2, hr2, e2⟩ := PDD_rows (by norm_num) hu hne hb
        obtain rfl := Except.ok.inj (hr1.symm.trans hr2)
        rw [e1, e2]
        exact (lexsortRows_perm _ _).trans (by simp [lexsortRows])
      rw [exactEmd_perm met hw hwb hwb this, exactEmd_zero met hwb hwb fun _ => rfl]
      simp [collapseError]
    | true =>
      have := exactEmd_collapse (by norm_num) hu hne htol hp hb hw hwb
      rw [exactEmd_symm met hw hwb] at this
      simpa [collapseError] using this
  -- the ideal rows, with the same weights
  obtain ⟨rows', -, hb', hf⟩ := PDD_uncollapsed (by norm_num) hu hne hb (fun i r => r = R i) fun rows hr => by
    have := nearestNeighbors_eq_rows (by norm_num) hne hs hr fun i _ => hR i
    have h0 : List.Forall₂ (fun i row => row = R i) (inds.map (Fin.cast e.symm)) (rows.map (·.drop 1)) := by
      rw [this, List.forall₂_map_right_iff, List.forall₂_same]
      exact fun _ _ => rfl
    exact List.forall₂_map_right_iff.1 h0
  obtain rfl := hb' rfl
  set q₀ : List (PRow ℝ) := (inds.zip mult).map fun u => ⟨(u.2 : ℝ) / S₀.motif.length, R₀ u.1, []⟩ with hq₀
  have hzip : (inds.map (Fin.cast e.symm)).zip mult = (inds.zip mult).map fun u => (u.1.cast e.symm, u.2) := by
    rw [List.zip_map_left]
    rfl
  rw [hzip, List.forall₂_map_left_iff] at hf
  have hlen : b.length = q₀.length := by rw [hq₀, List.length_map, hf.length_eq]
  have hrow : ∀ i (h1 : i < b.length), b[i].weight = q₀[i].weight ∧ ∃ (t : Fin S₀.motif.length), b[i].dists = R (t.cast e.symm) ∧ q₀[i].dists = R₀ t := by
    intro i h1
    have := (List.forall₂_iff_get.1 hf).2 i (by rw [hf.length_eq]; exact h1) h1
    simp only [List.get_eq_getElem] at this
    refine ⟨?_, ((inds.zip mult)[i]'(by rw [hf.length_eq]; exact h1)).1, this.2, by simp [hq₀]⟩
    rw [this.1]
    simp [hq₀, ← e]
  have hwq : WeightedRows k q₀ := by
    refine ⟨?_, ?_, ?_, ?_⟩
    · intro h0
      exact hwb.nonempty (List.length_eq_zero_iff.1 (by rw [hlen, h0]; rfl))
    · intro r hr
      obtain ⟨u, -, rfl⟩ := List.mem_map.1 hr
      exact (hn₀ u.1).1
    · intro r hr
      obtain ⟨i, hi, rfl⟩ := List.mem_iff_getElem.1 hr
      rw [← (hrow i (by omega)).1]
      exact hwb.weights _ (List.getElem_mem _)
    · rw [← hwb.total]
      congr 1
      refine List.ext_getElem (by simp [hlen]) fun i h1 h2 => ?_
      have := (hrow i (by simpa using h2)).1
      rw [List.getElem_map (f := fun r : PRow ℝ => r.weight) (l := q₀), List.getElem_map (f := fun r : PRow ℝ => r.weight) (l := b)]
      exact this.symm
  have h2 : exactEmd chebyshev b q₀ ≤ 2 * c.shift η := by
    refine exactEmd_rowwise hwb hwq hlen (fun i hi => (hrow i hi).1) fun i hi => ?_
    obtain ⟨-, t, e1, e2⟩ := hrow i hi
    rw [e1, e2]
    have hd' : ∀ j < k, |(R (t.cast e.symm)).getD j 0 - (R₀ t).getD j 0| ≤ 2 * c.shift η := by
      intro j hj
      rw [← h.cell.edges]
      refine displaced_row hdis e (hR _) ?_ hj
      have := hn₀ t
      rw [hcell] at this
      exact this
    refine (chebyshev_le_iff ((hR _).1.trans (hn₀ t).1.symm)).2 ⟨?_, fun j hj => hd' j (by rw [(hR _).1] at hj; exact hj)⟩
    rw [← h.cell.edges]
    have := hdis.nonneg (by norm_num) hd.nonempty
    have h4 : 0 ≤ ∑ i, eucl (S.cell i) 0 := Finset.sum_nonneg fun i _ => eucl_nonneg _ _
    positivity
  have h3 : exactEmd chebyshev q₀ q = 0 := by
    obtain ⟨cell, hc, hq⟩ := hq
    obtain ⟨T, hT, hP2⟩ := crystalPoints_congr (gram_of_cellpar h.cell hc) hns c.ops c.sites
    have hP' : c.points cell = T '' periodicPoints S₀.motif S₀.cell := by rw [hP]; exact hP2
    have h4 : IsCrystalPDD (periodicPoints S₀.motif S₀.cell) k q₀ := by
      refine ⟨hwq, _, _, R₀, hR₀, fun x => ?_⟩
      rw [weightAt_rows (f := R₀) (m := (S₀.motif.length : ℝ)) (inds := inds) (mult := mult) x (by
        rw [hq₀, List.forall₂_map_right_iff, List.forall₂_same]; exact fun u _ => ⟨rfl, rfl⟩),
        isAsymUnit_sum_fun hd.once hd.asym hn₀ fun r => if r = x then (1 : ℝ) else 0]
    exact exactEmd_zero met hwq hq.1 (h4.unique (by norm_num) hq hT hP')
  have hwq' : WeightedRows k q := by
    obtain ⟨cell, hc, hq⟩ := hq
    exact hq.1
  have t1 := exactEmd_triangle met hw hwb hwq'
  have t2 := exactEmd_triangle met hwb hwq hwq'
  linarith

end

end Amd
