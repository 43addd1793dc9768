import Verif.Spec.Matrices
import Verif.Proof.Metrics
import Verif.Proof.Described

/-! Relations between matrices of `compare`. -/

namespace Amd

open Classical

variable {D : ℕ}

/-! ### Fewer columns -/

theorem zipWith_take_sum_le {f : ℝ → ℝ → ℝ} (hf : ∀ a b, 0 ≤ f a b) : ∀ (k : ℕ) (r s : List ℝ), (List.zipWith f (r.take k) (s.take k)).sum ≤ (List.zipWith f r s).sum
  | 0, r, s => by
    simp only [List.take_zero, List.zipWith_nil_left, List.sum_nil]
    refine List.sum_nonneg fun x hx => ?_
    rw [List.mem_iff_getElem] at hx
    obtain ⟨i, hi, rfl⟩ := hx
    rw [List.getElem_zipWith]
    exact hf _ _
  | k + 1, [], s => by simp
  | k + 1, a :: r, [] => by simp
  | k + 1, a :: r, b :: s => by
    simp only [List.take_succ_cons, List.zipWith_cons_cons, List.sum_cons]
    linarith [zipWith_take_sum_le hf k r s]

theorem cityblock_shrinks : Shrinks cityblock := fun k r s _ => zipWith_take_sum_le (fun _ _ => abs_nonneg _) k r s

theorem euclidean_shrinks : Shrinks euclidean := fun k r s _ => Real.sqrt_le_sqrt (zipWith_take_sum_le (fun _ _ => sq_nonneg _) k r s)

theorem chebyshev_shrinks : Shrinks chebyshev := by
  intro k r s h
  have h0 := (chebyshev_le_iff h).1 le_rfl
  refine (chebyshev_le_iff (by simp [h])).2 ⟨h0.1, fun j hj => ?_⟩
  rw [List.length_take] at hj
  have := h0.2 j (by omega)
  rw [List.getD_eq_getElem _ _ (by omega), List.getD_eq_getElem _ _ (by omega)] at this
  rw [List.getD_eq_getElem _ _ (by rw [List.length_take]; omega), List.getD_eq_getElem _ _ (by rw [List.length_take]; omega), List.getElem_take, List.getElem_take]
  exact this

theorem weightAt_sum (p : List (PRow ℝ)) (x : List ℝ) : weightAt p x = (p.map fun r => if r.dists = x then r.weight else 0).sum := by
  unfold weightAt
  induction p with
  | nil => simp
  | cons a l ih => by_cases h : a.dists = x <;> simp [h, ih]

theorem sum_map_fin {α : Type} (l : List α) (f : α → ℝ) : (l.map f).sum = ∑ i : Fin l.length, f l[i] := by
  rw [← List.sum_ofFn]
  congr 1
  apply List.ext_getElem
  · simp
  · intro i h1 h2; simp

theorem weights_image {ι : Type} [Fintype ι] (g : ι → List ℝ) (w : ι → ℝ) (φ : List ℝ → List ℝ) {X : Finset (List ℝ)} (hX : ∀ i, g i ∈ X) (y : List ℝ) :
    ∑ i, (if φ (g i) = y then w i else 0) = ∑ x ∈ X.filter fun x => φ x = y, ∑ i, if g i = x then w i else 0 := by
  rw [Finset.sum_comm]
  refine Finset.sum_congr rfl fun i _ => ?_
  rw [Finset.sum_ite_eq]
  simp [hX i]

theorem firstColumns_weightAt {p : List (PRow ℝ)} {m : ℕ} {R : Fin m → List ℝ} {c : ℝ} (h : ∀ x, weightAt p x = (∑ i, if R i = x then (1 : ℝ) else 0) / c) (k : ℕ) (y : List ℝ) :
    weightAt (firstColumns k p) y = (∑ i, if (R i).take k = y then (1 : ℝ) else 0) / c := by
  set X : Finset (List ℝ) := (p.map fun r => r.dists).toFinset ∪ Finset.univ.image R with hX
  have e1 : weightAt (firstColumns k p) y = ∑ i : Fin p.length, if (p[i].dists).take k = y then p[i].weight else 0 := by
    rw [weightAt_sum, firstColumns, List.map_map, sum_map_fin]
    rfl
  rw [e1, weights_image (fun i : Fin p.length => p[i].dists) (fun i => p[i].weight) (fun r => r.take k) (X := X) (fun i => by
      rw [hX, Finset.mem_union, List.mem_toFinset]
      exact Or.inl (List.mem_map_of_mem (List.getElem_mem i.2))) y,
    weights_image R (fun _ => 1) (fun r => r.take k) (X := X) (fun i => by simp [hX]) y, Finset.sum_div]
  refine Finset.sum_congr rfl fun x _ => ?_
  rw [← h x, weightAt_sum, sum_map_fin]

theorem WeightedRows.firstColumns {k k' : ℕ} {p : List (PRow ℝ)} (h : WeightedRows k p) (hk : k' ≤ k) : WeightedRows k' (firstColumns k' p) := by
  refine ⟨by simpa [Amd.firstColumns] using h.nonempty, ?_, ?_, ?_⟩
  · intro r hr
    obtain ⟨s, hs, rfl⟩ := List.mem_map.1 hr
    simp only [List.length_take, h.width s hs]
    omega
  · intro r hr
    obtain ⟨s, hs, rfl⟩ := List.mem_map.1 hr
    exact h.weights s hs
  · rw [Amd.firstColumns, List.map_map]
    exact h.total

theorem exactEmd_le {d d' : List ℝ → List ℝ → ℝ} {k : ℕ} {p q p' q' : List (PRow ℝ)} (hp : WeightedRows k p) (hq : WeightedRows k q) (lp : p'.length = p.length) (lq : q'.length = q.length)
    (wp : ∀ i (h : i < p.length), p'[i].weight = p[i].weight) (wq : ∀ i (h : i < q.length), q'[i].weight = q[i].weight)
    (h0 : ∀ i (h : i < p.length) j (h' : j < q.length), 0 ≤ d' p'[i].dists q'[j].dists)
    (hle : ∀ i (h : i < p.length) j (h' : j < q.length), d' p'[i].dists q'[j].dists ≤ d p[i].dists q[j].dists) : exactEmd d' p' q' ≤ exactEmd d p q := by
  refine le_wasserstein hp.nonneg hq.nonneg (hp.sum_eq.trans hq.sum_eq.symm) fun g hg => ?_
  have hg' : IsPlan (fun i : Fin p'.length => p'[i].weight) (fun j : Fin q'.length => q'[j].weight) fun i j => g (i.cast lp) (j.cast lq) := by
    refine ⟨fun i j => hg.nonneg _ _, fun i => ?_, fun j => ?_⟩
    · refine (Equiv.sum_comp (finCongr lq) fun j => g (i.cast lp) j).trans ?_
      rw [hg.rows]
      exact (wp i (by omega)).symm
    · refine (Equiv.sum_comp (finCongr lp) fun i => g i (j.cast lq)).trans ?_
      rw [hg.cols]
      exact (wq j (by omega)).symm
  refine (wasserstein_le (fun (i : Fin p'.length) (j : Fin q'.length) => h0 i (by omega) j (by omega)) hg').trans ?_
  unfold planCost
  rw [← Equiv.sum_comp (finCongr lp)]
  refine Finset.sum_le_sum fun i _ => ?_
  rw [← Equiv.sum_comp (finCongr lq)]
  refine Finset.sum_le_sum fun j _ => ?_
  exact mul_le_mul_of_nonneg_left (hle i (by omega) j (by omega)) (hg.nonneg _ _)

theorem exactEmd_firstColumns {d : List ℝ → List ℝ → ℝ} {k k' : ℕ} {p q : List (PRow ℝ)} (hd : ∀ r s, r.length = k' → s.length = k' → 0 ≤ d r s) (hs : Shrinks d) (hk : k' ≤ k)
    (hp : WeightedRows k p) (hq : WeightedRows k q) : exactEmd d (firstColumns k' p) (firstColumns k' q) ≤ exactEmd d p q := by
  have len : ∀ r : PRow ℝ, r.dists.length = k → (r.dists.take k').length = k' := fun r hr => by rw [List.length_take, hr]; omega
  refine exactEmd_le hp hq (by simp [firstColumns]) (by simp [firstColumns]) (fun i h => by simp [firstColumns]) (fun i h => by simp [firstColumns]) (fun i h j h' => ?_) (fun i h j h' => ?_)
  · simp only [firstColumns, List.getElem_map]
    exact hd _ _ (len _ (hp.width _ (List.getElem_mem _))) (len _ (hq.width _ (List.getElem_mem _)))
  · simp only [firstColumns, List.getElem_map]
    exact hs _ _ _ ((hp.width _ (List.getElem_mem _)).trans (hq.width _ (List.getElem_mem _)).symm)

theorem IsPointRow.take {P : Set (Pt D ℝ)} {p : Pt D ℝ} {k k' : ℕ} {r : List ℝ} (h : IsPointRow P p k r) (hk : k' ≤ k) : IsPointRow P p k' (r.take k') :=
  ⟨by rw [List.length_take, h.1]; omega, h.2.take k'⟩

theorem MotifRows.take {P : Set (Pt D ℝ)} {k k' : ℕ} {motif : List (Pt D ℝ)} {cell : Fin D → Pt D ℝ} {R : Fin motif.length → List ℝ} (h : MotifRows P k motif cell R) (hk : k' ≤ k) :
    MotifRows P k' motif cell fun i => (R i).take k' := ⟨h.independent, h.nonempty, h.once, h.points, fun i => (h.rows i).take hk⟩

theorem ListedRows.take {times : Pt D ℝ → ℕ} {k k' : ℕ} {motif : List (Pt D ℝ)} {cell : Fin D → Pt D ℝ} {R : Fin motif.length → List ℝ} (h : ListedRows times k motif cell R) (hk : k' ≤ k) :
    ListedRows times k' motif cell fun i => (R i).take k' := ⟨h.independent, h.nonempty, h.times, fun i => (h.rows i).take hk⟩

theorem means_take {m : ℕ} {R : Fin m → List ℝ} {c : ℝ} {k k' : ℕ} (hk : k' ≤ k) :
    ((List.range k).map fun j => (∑ i, (R i).getD j 0) / c).take k' = (List.range k').map fun j => (∑ i, ((R i).take k').getD j 0) / c := by
  apply List.ext_getElem
  · simp [hk]
  · intro j h1 h2
    have hj : j < k' := by simpa using h2
    simp only [List.getElem_take, List.getElem_map, List.getElem_range]
    congr 1
    refine Finset.sum_congr rfl fun i _ => ?_
    simp [List.getD_eq_getElem?_getD, hj]

theorem Described.IsAMD.take {c : Described} {k k' : ℕ} {a : List ℝ} (h : c.IsAMD k a) (hk : k' ≤ k) : c.IsAMD k' (a.take k') := by
  obtain ⟨cell, hc, motif, cell', R, hR, rfl⟩ := h
  exact ⟨cell, hc, motif, cell', _, hR.take hk, means_take hk⟩

theorem Described.IsPDD.take {c : Described} {k k' : ℕ} {p : List (PRow ℝ)} (h : c.IsPDD k p) (hk : k' ≤ k) : c.IsPDD k' (firstColumns k' p) := by
  obtain ⟨cell, hc, hw, motif, cell', R, hR, hx⟩ := h
  exact ⟨cell, hc, hw.firstColumns hk, motif, cell', _, hR.take hk, firstColumns_weightAt hx k'⟩

theorem SitesDescribed.IsAMD.take {c : SitesDescribed} {k k' : ℕ} {a : List ℝ} (h : c.IsAMD k a) (hk : k' ≤ k) : c.IsAMD k' (a.take k') := by
  obtain ⟨cell, hc, motif, cell', R, hR, rfl⟩ := h
  exact ⟨cell, hc, motif, cell', _, hR.take hk, means_take hk⟩

theorem SitesDescribed.IsPDD.take {c : SitesDescribed} {k k' : ℕ} {p : List (PRow ℝ)} (h : c.IsPDD k p) (hk : k' ≤ k) : c.IsPDD k' (firstColumns k' p) := by
  obtain ⟨cell, hc, hw, motif, cell', R, hR, hx⟩ := h
  exact ⟨cell, hc, hw.firstColumns hk, motif, cell', _, hR.take hk, firstColumns_weightAt hx k'⟩

end Amd
