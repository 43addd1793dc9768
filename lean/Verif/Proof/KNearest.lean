import Verif.Proof.NNReal

/-! Helper lemmas about the specification `IsKNearest`. -/

set_option linter.unusedSectionVars false

namespace Amd

section
variable {ι κ α β : Type*} [LinearOrder α] [LinearOrder β]

/-- The `k` smallest values at a duplicate-free list of indices outside which no value is smaller. -/
theorem isKNearest_of_list {δ : ι → α} {l : List ι} (hl : l.Nodup) {k : ℕ} {r : List α}
    (hr : IsKS k (l.map δ) r) (hout : ∀ j, j ∉ l → ∀ a ∈ r, a ≤ δ j) : IsKNearest δ r := by
  classical
  let s := l.insertionSort (fun a b => δ a ≤ δ b)
  have hs : s.Pairwise (fun a b => δ a ≤ δ b) := by
    have : IsTrans ι (fun a b => δ a ≤ δ b) := ⟨fun _ _ _ h h' => le_trans h h'⟩
    have : Std.Total (fun a b : ι => δ a ≤ δ b) := ⟨fun _ _ => le_total _ _⟩
    exact List.pairwise_insertionSort _ _
  have hp : s.Perm l := List.perm_insertionSort _ _
  have hmap : s.map δ = (l.map δ).insertionSort (· ≤ ·) := by
    apply eq_of_perm_sorted
    · exact (hp.map δ).trans (List.perm_insertionSort _ _).symm
    · rw [List.pairwise_map]; exact hs
    · exact sorted_insertionSort' _
  have hreq : r = (s.take k).map δ := by rw [hr.eq, ← hmap, List.map_take]
  refine ⟨s.take k, (hp.nodup_iff.mpr hl).sublist (List.take_sublist _ _), hreq, hr.1, ?_⟩
  intro j hj a ha
  by_cases hjl : j ∈ l
  · have hjs : j ∈ s := hp.mem_iff.mpr hjl
    rw [← List.take_append_drop k s] at hjs hs
    rw [List.pairwise_append] at hs
    rcases List.mem_append.mp hjs with h | h
    · exact absurd h hj
    · rw [hreq] at ha
      obtain ⟨i, hi, rfl⟩ := List.mem_map.mp ha
      exact hs.2.2 i hi j h
  · exact hout j hjl a ha

/-- The specification determines the row. -/
theorem IsKNearest.unique {δ : ι → α} {r r' : List α} (h : IsKNearest δ r) (h' : IsKNearest δ r')
    (hlen : r.length = r'.length) : r = r' := by
  classical
  obtain ⟨idx, n1, e1, s1, o1⟩ := h
  obtain ⟨idx', n2, e2, s2, o2⟩ := h'
  have hl1 : idx.length = r.length := by rw [e1, List.length_map]
  have hl2 : idx'.length = r'.length := by rw [e2, List.length_map]
  have aux : ∀ (a b : List ι) (ra : List α), a.Nodup → b.Nodup → ra = a.map δ → ra.Pairwise (· ≤ ·) →
      (∀ j, j ∉ a → ∀ x ∈ ra, x ≤ δ j) →
      IsKS ra.length ((a ++ b.filter (fun j => j ∉ a)).map δ) ra := by
    intro a b ra _ _ e s o
    refine ⟨s, ?_, (b.filter (fun j => j ∉ a)).map δ, ?_, ?_⟩
    · rw [List.length_map, List.length_append, e, List.length_map]; omega
    · rw [List.map_append, e]
    · intro x hx y hy
      obtain ⟨j, hj, rfl⟩ := List.mem_map.mp hy
      have := (List.mem_filter.mp hj).2
      exact o j (by simpa using this) x hx
  have k1 := aux idx idx' r n1 n2 e1 s1 o1
  have k2 := aux idx' idx r' n2 n1 e2 s2 o2
  have hperm : (idx ++ idx'.filter (fun j => j ∉ idx)).Perm (idx' ++ idx.filter (fun j => j ∉ idx')) := by
    rw [List.perm_ext_iff_of_nodup]
    · intro j
      simp only [List.mem_append, List.mem_filter, decide_eq_true_eq]
      by_cases h1 : j ∈ idx <;> by_cases h2 : j ∈ idx' <;> simp [h1, h2]
    · rw [List.nodup_append]
      refine ⟨n1, n2.filter _, ?_⟩
      rintro a ha b hb rfl
      have := (List.mem_filter.mp hb).2
      simp at this
      exact this ha
    · rw [List.nodup_append]
      refine ⟨n2, n1.filter _, ?_⟩
      rintro a ha b hb rfl
      have := (List.mem_filter.mp hb).2
      simp at this
      exact this ha
  rw [← hlen] at k2
  exact k1.unique (k2.perm (hperm.symm.map δ))

/-- Monotone change of values. -/
theorem IsKNearest.map {δ : ι → α} {r : List α} (h : IsKNearest δ r) {φ : α → β} (hφ : Monotone φ) :
    IsKNearest (fun i => φ (δ i)) (r.map φ) := by
  obtain ⟨idx, n, e, s, o⟩ := h
  refine ⟨idx, n, by rw [e, List.map_map]; rfl, ?_, ?_⟩
  · rw [List.pairwise_map]; exact s.imp fun h => hφ h
  · intro j hj b hb
    obtain ⟨a, ha, rfl⟩ := List.mem_map.mp hb
    exact hφ (o j hj a ha)

/-- Reindexing. -/
theorem IsKNearest.equiv {δ : ι → α} {δ' : κ → α} {r : List α} (h : IsKNearest δ r) (e : ι ≃ κ)
    (he : ∀ i, δ' (e i) = δ i) : IsKNearest δ' r := by
  obtain ⟨idx, n, er, s, o⟩ := h
  refine ⟨idx.map e, n.map e.injective, ?_, s, ?_⟩
  · rw [er, List.map_map]
    apply List.map_congr_left
    intro i _
    exact (he i).symm
  · intro j hj a ha
    have h1 : e.symm j ∉ idx := fun h => hj (List.mem_map.mpr ⟨_, h, by simp⟩)
    have h2 := o _ h1 a ha
    rwa [← he, Equiv.apply_symm_apply] at h2

/-- Prefixes. -/
theorem IsKNearest.take {δ : ι → α} {r : List α} (h : IsKNearest δ r) (k : ℕ) : IsKNearest δ (r.take k) := by
  obtain ⟨idx, n, e, s, o⟩ := h
  refine ⟨idx.take k, n.sublist (List.take_sublist _ _), by rw [e, List.map_take],
    s.sublist (List.take_sublist _ _), ?_⟩
  intro j hj a ha
  by_cases hji : j ∈ idx
  · have hjd : j ∈ idx.drop k := by
      have hji' := hji
      rw [← List.take_append_drop k idx] at hji'
      rcases List.mem_append.mp hji' with h | h
      · exact absurd h hj
      · exact h
    rw [← List.take_append_drop k r, List.pairwise_append] at s
    refine s.2.2 a ha _ ?_
    rw [e, ← List.map_drop]
    exact List.mem_map.mpr ⟨j, hjd, rfl⟩
  · exact o j hji a ((List.take_sublist _ _).subset ha)

/-- Removing an index of least value removes the first entry. -/
theorem IsKNearest.tail {δ : ι → α} {r : List α} (h : IsKNearest δ r) (s₀ : ι)
    (hmin : ∀ i, δ s₀ ≤ δ i) (hr : r ≠ []) :
    IsKNearest (fun s : {s : ι // s ≠ s₀} => δ s) (r.drop 1) ∧ r.head? = some (δ s₀) := by
  classical
  obtain ⟨idx, n, e, s, o⟩ := h
  cases idx with
  | nil => simp at e; exact absurd e hr
  | cons i₀ idx =>
    have hval : δ i₀ = δ s₀ := by
      apply le_antisymm _ (hmin i₀)
      by_cases hs : s₀ ∈ i₀ :: idx
      · rcases List.mem_cons.mp hs with h | h
        · rw [h]
        · rw [e, List.map_cons, List.pairwise_cons] at s
          exact s.1 _ (List.mem_map.mpr ⟨s₀, h, rfl⟩)
      · exact o s₀ hs _ (by rw [e]; simp)
    -- exchange the two indices
    let σ : ι ≃ ι := Equiv.swap i₀ s₀
    have hσ : ∀ i, δ (σ i) = δ i := by
      intro i
      by_cases h1 : i = i₀
      · rw [h1]; simp [σ, hval]
      · by_cases h2 : i = s₀
        · rw [h2]; simp [σ, hval]
        · simp only [σ, Equiv.swap_apply_of_ne_of_ne h1 h2]
    rw [List.nodup_cons] at n
    refine ⟨⟨idx.attach.map (fun i => ⟨σ i.1, ?_⟩), ?_, ?_, ?_, ?_⟩, ?_⟩
    · intro hc
      have : i.1 = i₀ := by
        have := congrArg σ.symm hc
        simpa [σ] using this
      exact n.1 (this ▸ i.2)
    · apply List.Nodup.map _ (List.nodup_attach.mpr n.2)
      intro a b hab
      simp only [Subtype.mk.injEq] at hab
      exact Subtype.ext (σ.injective hab)
    · rw [e, List.map_cons, List.drop_one, List.tail_cons, List.map_map]
      conv_lhs => rw [← List.attach_map_subtype_val idx]
      rw [List.map_map]
      apply List.map_congr_left
      intro i _
      exact (hσ i.1).symm
    · exact s.sublist (List.drop_sublist _ _)
    · rintro ⟨j, hj⟩ hnot a ha
      simp only
      have ha' : a ∈ r := (List.drop_sublist _ _).subset ha
      by_cases hji : σ j ∈ i₀ :: idx
      · rcases List.mem_cons.mp hji with h | h
        · exfalso
          have := congrArg σ h
          simp [σ] at this
          exact hj this
        · exfalso
          apply hnot
          rw [List.mem_map]
          refine ⟨⟨σ j, h⟩, List.mem_attach _ _, ?_⟩
          apply Subtype.ext
          simp [σ]
      · rw [← hσ j]
        exact o _ hji a ha'
    · rw [e]; simp [hval]

end

section
variable {K : Type*} [CommRing K] [LinearOrder K] [IsStrictOrderedRing K] {D : ℕ}

/-- If the layers not looked at hold nothing nearer, a row is exactly the list of nearest sites. -/
theorem isKNearest_rows (hD : 0 < D) (motif : List (Pt D K)) (cell : Fin D → Pt D K) (p : Pt D K) (k d : ℕ)
    (hcomp : ∀ n, n ∉ layersUpTo D d → ∀ q ∈ motif,
      ∀ r ∈ kSmallest k ((cloudUpTo motif cell d).map (sqDist p)), r ≤ sqDist p (q + latVec cell n)) :
    IsKNearest (fun s => sqDist p (sitePos motif cell s))
      (kSmallest k ((cloudUpTo motif cell d).map (sqDist p))) := by
  have e : (cloudUpTo motif cell d).map (sqDist p) =
      (sitesUpTo motif.length D d).map (fun s => sqDist p (sitePos motif cell s)) := by
    rw [cloudUpTo_eq, List.map_map]; rfl
  rw [e] at hcomp ⊢
  refine isKNearest_of_list (nodup_sitesUpTo hD _ d) (isKS_kSmallest k _) ?_
  intro s hs a ha
  rw [mem_sitesUpTo] at hs
  exact hcomp s.2 hs motif[s.1] (List.getElem_mem _) a ha

end

end Amd
