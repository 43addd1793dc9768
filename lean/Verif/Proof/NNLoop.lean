import Verif.Proof.KSmallest
import Verif.Proof.LatticeReflect

/-! Helper lemmas: the loop invariant of `nearest_neighbors`. -/

set_option linter.unusedSectionVars false

namespace Amd

section Layers

theorem mem_layersUpTo {D : ℕ} (hD : 0 < D) (t : ℕ) (v : Fin D → ℤ) :
    v ∈ layersUpTo D (t + 1) ↔ normSq v ≤ (t : ℤ) ^ 2 := by
  induction t with
  | zero =>
    simp [layersUpTo, mem_intLayer hD, InShell]
  | succ t ih =>
    have e : layersUpTo D (t + 1 + 1) = layersUpTo D (t + 1) ++ intLayer D (t + 1) := by
      unfold layersUpTo
      rw [List.range_succ (n := t + 1), List.flatMap_append]
      simp
    rw [e, List.mem_append, ih, mem_intLayer hD, InShell]
    have e2 : ((t + 1 : ℕ) : ℤ) - 1 = t := by push_cast; ring
    rw [e2]
    constructor
    · rintro (h | h)
      · push_cast; nlinarith
      · exact h.1
    · intro h
      rcases le_or_gt (normSq v) ((t : ℤ) ^ 2) with h' | h'
      · exact Or.inl h'
      · exact Or.inr ⟨h, Or.inr h'⟩

theorem layersUpTo_succ (D t : ℕ) : layersUpTo D (t + 1) = layersUpTo D t ++ intLayer D t := by
  unfold layersUpTo
  rw [List.range_succ, List.flatMap_append]
  simp

theorem nodup_layersUpTo {D : ℕ} (hD : 0 < D) (t : ℕ) : (layersUpTo D t).Nodup := by
  induction t with
  | zero => simp [layersUpTo]
  | succ t ih =>
    rw [layersUpTo_succ, List.nodup_append]
    refine ⟨ih, nodup_intLayer D t, ?_⟩
    rintro a ha b hb rfl
    rw [mem_intLayer hD] at hb
    cases t with
    | zero => simp [layersUpTo] at ha
    | succ t =>
      rw [mem_layersUpTo hD] at ha
      rcases hb.2 with h | h
      · omega
      · push_cast at h
        simp at h
        omega

theorem exists_mem_intLayer {D : ℕ} (hD : 0 < D) (d : ℕ) : ∃ v, v ∈ intLayer D d := by
  refine ⟨fun i => if i = ⟨0, hD⟩ then (d : ℤ) else 0, ?_⟩
  rw [mem_intLayer hD]
  have e : normSq (fun i : Fin D => if i = ⟨0, hD⟩ then (d : ℤ) else 0) = (d : ℤ) ^ 2 := by
    unfold normSq
    rw [Finset.sum_eq_single ⟨0, hD⟩]
    · simp
    · intro b _ hb; simp [hb]
    · simp
  rw [InShell, e]
  refine ⟨le_refl _, ?_⟩
  rcases Nat.eq_zero_or_pos d with h | h
  · exact Or.inl h
  · right
    have : (1 : ℤ) ≤ d := by exact_mod_cast h
    nlinarith

theorem length_intLayer_pos {D : ℕ} (hD : 0 < D) (d : ℕ) : 0 < (intLayer D d).length := by
  obtain ⟨v, hv⟩ := exists_mem_intLayer hD d
  exact List.length_pos_of_mem hv

theorem length_layersUpTo_succ (D t : ℕ) :
    (layersUpTo D (t + 1)).length = (layersUpTo D t).length + (intLayer D t).length := by
  rw [layersUpTo_succ, List.length_append]

/-- The batch loop stops at the first number of layers with more than `k` points, plus one layer. -/
theorem batchLoop_spec {D m k : ℕ} (hD : 0 < D) (hm : 0 < m) : ∀ (f t nPoints : ℕ),
    nPoints = (layersUpTo D t).length → k + 1 < f + nPoints → 0 < f →
    ∃ s, t ≤ s ∧ batchLoop D m k f t nPoints = some (s + 1) ∧ k < (layersUpTo D s).length * m ∧
      ∀ s', t ≤ s' → s' < s → (layersUpTo D s').length * m ≤ k
  | 0, _, _, _, _, h => absurd h (by simp)
  | f + 1, t, nPoints, hn, hf, _ => by
    unfold batchLoop
    by_cases hc : nPoints * m ≤ k
    · rw [if_pos hc]
      have hpos := length_intLayer_pos hD t
      have hle : nPoints ≤ nPoints * m := Nat.le_mul_of_pos_right _ hm
      obtain ⟨s, h1, h2, h3, h4⟩ := batchLoop_spec (k := k) hD hm f (t + 1) (nPoints + (intLayer D t).length)
        (by rw [length_layersUpTo_succ, hn]) (by omega) (by
          have : nPoints ≤ k := hle.trans hc
          omega)
      refine ⟨s, by omega, h2, h3, ?_⟩
      intro s' h5 h6
      rcases Nat.eq_or_lt_of_le h5 with h | h
      · rw [← h, ← hn]; exact hc
      · exact h4 s' h h6
    · rw [if_neg hc]
      refine ⟨t, le_refl _, rfl, by rw [← hn]; omega, ?_⟩
      intro s' h5 h6; omega

theorem layersUpTo_one_length {D : ℕ} (hD : 0 < D) : (layersUpTo D 1).length = 1 := by
  have h : layersUpTo D 1 = [fun _ => 0] := by
    have hn := nodup_layersUpTo hD 1
    have hm := fun v => mem_layersUpTo hD 0 v
    have hp : (layersUpTo D 1).Perm [fun _ => 0] := by
      rw [List.perm_ext_iff_of_nodup hn (by simp)]
      intro v
      rw [hm, List.mem_singleton]
      constructor
      · intro h
        funext i
        have h1 : v i ^ 2 ≤ normSq v :=
          Finset.single_le_sum (f := fun j => v j ^ 2) (fun _ _ => sq_nonneg _) (Finset.mem_univ i)
        have : v i ^ 2 ≤ 0 := by
          refine h1.trans (h.trans ?_); simp
        exact pow_eq_zero_iff (two_ne_zero) |>.mp (le_antisymm this (sq_nonneg _))
      · rintro rfl; simp [normSq]
    exact List.perm_singleton.mp hp
  rw [h]; rfl

theorem layersUpTo_one {D : ℕ} (hD : 0 < D) : layersUpTo D 1 = [fun _ => 0] := by
  have hl := layersUpTo_one_length hD
  have hm : (fun _ => (0 : ℤ)) ∈ layersUpTo D 1 := by
    rw [mem_layersUpTo hD 0]; simp [normSq]
  obtain ⟨a, ha⟩ := List.length_eq_one_iff.mp hl
  rw [ha, List.mem_singleton] at hm
  rw [ha, hm]

/-- How many layers the initial batch has. -/
theorem numLayers_spec {D m k : ℕ} (hD : 0 < D) (hm : 0 < m) :
    ∃ s, 1 ≤ s ∧ numLayers D m k = s + 1 ∧ k < (layersUpTo D s).length * m ∧
      ∀ s', 1 ≤ s' → s' < s → (layersUpTo D s').length * m ≤ k := by
  obtain ⟨s, h1, h2, h3, h4⟩ := batchLoop_spec (k := k) hD hm (k + 1) 1 1
    (layersUpTo_one_length hD).symm (by omega) (by omega)
  exact ⟨s, h1, by rw [numLayers, h2]; rfl, h3, h4⟩

theorem two_le_numLayers {D m k : ℕ} (hD : 0 < D) (hm : 0 < m) : 2 ≤ numLayers D m k := by
  obtain ⟨s, h1, h2, _⟩ := numLayers_spec (k := k) hD hm
  omega

end Layers

section Loop
variable {K : Type*} [CommRing K] [LinearOrder K] {D : ℕ}

/-- The points of the periodic set with a translation in the first `d` layers. -/
def cloudUpTo (motif : List (Pt D K)) (cell : Fin D → Pt D K) (d : ℕ) : List (Pt D K) :=
  latticeToCloud motif ((layersUpTo D d).map (latVec cell))

/-- The corresponding sites. -/
def sitesUpTo (m D d : ℕ) : List (Site m D) :=
  (layersUpTo D d).flatMap fun n => (List.finRange m).map fun i => (i, n)

theorem cloudUpTo_eq (motif : List (Pt D K)) (cell : Fin D → Pt D K) (d : ℕ) :
    cloudUpTo motif cell d = (sitesUpTo motif.length D d).map (sitePos motif cell) := by
  unfold cloudUpTo latticeToCloud sitesUpTo
  rw [List.map_flatMap, List.flatMap_map]
  congr 1
  funext n
  rw [List.map_map]
  apply List.ext_getElem
  · simp
  · intro i h1 h2
    simp
    rfl

theorem nodup_sitesUpTo {D : ℕ} (hD : 0 < D) (m d : ℕ) : (sitesUpTo m D d).Nodup := by
  unfold sitesUpTo
  rw [List.nodup_flatMap]
  refine ⟨fun n _ => (List.nodup_finRange m).map (fun a b h => by simpa using h), ?_⟩
  refine (nodup_layersUpTo hD d).imp ?_
  intro a b hab
  simp only [Function.onFun, List.Disjoint, List.mem_map]
  rintro s ⟨i, _, rfl⟩ ⟨j, _, h⟩
  simp at h
  exact hab h.2.symm

theorem mem_sitesUpTo {m D d : ℕ} {s : Site m D} : s ∈ sitesUpTo m D d ↔ s.2 ∈ layersUpTo D d := by
  unfold sitesUpTo
  rw [List.mem_flatMap]
  constructor
  · rintro ⟨n, hn, h⟩
    rw [List.mem_map] at h
    obtain ⟨i, _, rfl⟩ := h
    exact hn
  · intro h
    exact ⟨s.2, h, List.mem_map.mpr ⟨s.1, List.mem_finRange _, rfl⟩⟩

theorem length_sitesUpTo (m D d : ℕ) : (sitesUpTo m D d).length = (layersUpTo D d).length * m := by
  unfold sitesUpTo
  rw [List.length_flatMap]
  simp

theorem length_cloudUpTo (motif : List (Pt D K)) (cell : Fin D → Pt D K) (d : ℕ) :
    (cloudUpTo motif cell d).length = (layersUpTo D d).length * motif.length := by
  rw [cloudUpTo_eq, List.length_map, length_sitesUpTo]

theorem cloudUpTo_succ (motif : List (Pt D K)) (cell : Fin D → Pt D K) (d : ℕ) :
    cloudUpTo motif cell (d + 1) =
      cloudUpTo motif cell d ++ latticeToCloud motif ((intLayer D d).map (latVec cell)) := by
  unfold cloudUpTo latticeToCloud
  rw [layersUpTo_succ, List.map_append, List.flatMap_append]

theorem foldl_max_spec : ∀ (l : List K) (a : K),
    (l.foldl max a = a ∨ l.foldl max a ∈ l) ∧ a ≤ l.foldl max a ∧ ∀ b ∈ l, b ≤ l.foldl max a
  | [], a => by simp
  | b :: l, a => by
    rw [List.foldl_cons]
    obtain ⟨h1, h2, h3⟩ := foldl_max_spec l (max a b)
    refine ⟨?_, (le_max_left _ _).trans h2, ?_⟩
    · rcases h1 with h | h
      · rw [h]
        rcases max_choice a b with h' | h'
        · exact Or.inl h'
        · right; rw [h']; simp
      · right; exact List.mem_cons_of_mem _ h
    · intro c hc
      rcases List.mem_cons.mp hc with rfl | hc
      · exact (le_max_right _ _).trans h2
      · exact h3 c hc

theorem maxE_spec {l : List K} (h : l ≠ []) : ∃ a, maxE l = .ok a ∧ a ∈ l ∧ ∀ b ∈ l, b ≤ a := by
  cases l with
  | nil => exact absurd rfl h
  | cons a l =>
    obtain ⟨h1, h2, h3⟩ := foldl_max_spec l a
    refine ⟨_, rfl, ?_, ?_⟩
    · rcases h1 with h | h
      · rw [h]; simp
      · exact List.mem_cons_of_mem _ h
    · intro b hb
      rcases List.mem_cons.mp hb with rfl | hb
      · exact h2
      · exact h3 b hb

theorem mergeRows_map {α : Type*} (f g h : α → List K) : ∀ (x : List α),
    (∀ p ∈ x, mergeRow (f p) (g p) = .ok (h p)) → mergeRows (x.map f) (x.map g) = .ok (x.map h)
  | [], _ => rfl
  | p :: x, hx => by
    rw [List.map_cons, List.map_cons, mergeRows, hx p (by simp),
      mergeRows_map f g h x (fun q hq => hx q (List.mem_cons_of_mem _ hq))]
    rfl

theorem isKS_kSmallest (k : ℕ) (l : List K) : IsKS k l (kSmallest k l) := isKS_sort_take k l

theorem getLast?_ge {r : List K} (h : r.Pairwise (· ≤ ·)) {a : K} (ha : r.getLast? = some a) :
    ∀ b ∈ r, b ≤ a := by
  intro b hb
  obtain ⟨l, rfl⟩ : ∃ l, r = l ++ [a] := List.getLast?_eq_some_iff.mp ha
  rw [List.pairwise_append] at h
  rcases List.mem_append.mp hb with hb | hb
  · exact h.2.2 b hb a (by simp)
  · simp at hb; rw [hb]

/-- Rows of exact `k` smallest squared distances within the first `d` layers. -/
def rowsUpTo (motif : List (Pt D K)) (cell : Fin D → Pt D K) (x : List (Pt D K)) (k d : ℕ) :
    List (List K) :=
  x.map fun p => kSmallest k ((cloudUpTo motif cell d).map (sqDist p))

theorem length_kSmallest (k : ℕ) (l : List K) : (kSmallest k l).length = min k l.length :=
  (isKS_kSmallest k l).2.1

theorem maxLast_rowsUpTo (motif : List (Pt D K)) (cell : Fin D → Pt D K) {x : List (Pt D K)} {k d : ℕ}
    (hx : x ≠ []) (hk : 0 < k) (hlen : k ≤ (cloudUpTo motif cell d).length) :
    ∃ a, maxLast (rowsUpTo motif cell x k d) = .ok a ∧
      (∀ row ∈ rowsUpTo motif cell x k d, ∀ r ∈ row, r ≤ a) ∧
      (∃ row ∈ rowsUpTo motif cell x k d, row.getLast? = some a) := by
  have hlast : ∀ p ∈ x, ∃ v, (kSmallest k ((cloudUpTo motif cell d).map (sqDist p))).getLast? = some v := by
    intro p _
    have hl := length_kSmallest k ((cloudUpTo motif cell d).map (sqDist p))
    rw [List.length_map, min_eq_left hlen] at hl
    cases hc : (kSmallest k ((cloudUpTo motif cell d).map (sqDist p))).getLast? with
    | some v => exact ⟨v, rfl⟩
    | none =>
      rw [List.getLast?_eq_none_iff] at hc
      rw [hc] at hl; simp at hl; omega
  have hne : ((rowsUpTo motif cell x k d).flatMap fun r => r.getLast?.toList) ≠ [] := by
    obtain ⟨p, hp⟩ := List.exists_mem_of_ne_nil x hx
    obtain ⟨v, hv⟩ := hlast p hp
    apply List.ne_nil_of_mem (a := v)
    rw [List.mem_flatMap]
    exact ⟨_, List.mem_map.mpr ⟨p, hp, rfl⟩, by rw [hv]; simp⟩
  obtain ⟨a, h1, h2, h3⟩ := maxE_spec hne
  refine ⟨a, h1, ?_, ?_⟩
  · intro row hrow r hr
    obtain ⟨p, hp, rfl⟩ := List.mem_map.mp hrow
    obtain ⟨v, hv⟩ := hlast p hp
    refine (getLast?_ge (isKS_kSmallest k _).1 hv r hr).trans (h3 v ?_)
    rw [List.mem_flatMap]
    exact ⟨_, hrow, by rw [hv]; simp⟩
  · rw [List.mem_flatMap] at h2
    obtain ⟨row, hrow, ha⟩ := h2
    exact ⟨row, hrow, by simpa using ha⟩

/-- The pruning test only discards lattice points which are too far from every query point. -/
def NearSound (near : K → K → K → Bool) (motif : List (Pt D K)) (x : List (Pt D K)) (diamSq : K) : Prop :=
  ∀ (maxSqd : K) (l : Pt D K), 0 ≤ maxSqd → near (sqNorm l) maxSqd diamSq = false →
    ∀ p ∈ x, ∀ q ∈ motif, maxSqd ≤ sqDist p (q + l)

variable [IsStrictOrderedRing K]

theorem sqDist_nonneg (p q : Pt D K) : 0 ≤ sqDist p q := Finset.sum_nonneg fun _ _ => sq_nonneg _

theorem sqDist_self (p : Pt D K) : sqDist p p = 0 := by simp [sqDist]

theorem mem_cloudUpTo_self {motif : List (Pt D K)} (cell : Fin D → Pt D K) {d : ℕ} (hD : 0 < D)
    (hd : 0 < d) {p : Pt D K} (hp : p ∈ motif) : p ∈ cloudUpTo motif cell d := by
  unfold cloudUpTo latticeToCloud
  rw [List.mem_flatMap]
  refine ⟨latVec cell (fun _ => 0), List.mem_map.mpr ⟨_, ?_, rfl⟩, List.mem_map.mpr ⟨p, hp, ?_⟩⟩
  · obtain ⟨e, rfl⟩ : ∃ e, d = e + 1 := ⟨d - 1, by omega⟩
    rw [mem_layersUpTo hD]
    simp [normSq]
  · funext j; simp [latVec]

theorem head_rowsUpTo {motif : List (Pt D K)} (cell : Fin D → Pt D K) {d k : ℕ} (hD : 0 < D)
    (hd : 0 < d) (hk : 0 < k) {p : Pt D K} (hp : p ∈ motif) :
    (kSmallest k ((cloudUpTo motif cell d).map (sqDist p)))[0]? = some 0 := by
  obtain ⟨h1, h2, rest, h3, h4⟩ := isKS_kSmallest k ((cloudUpTo motif cell d).map (sqDist p))
  have hmem : (0 : K) ∈ (cloudUpTo motif cell d).map (sqDist p) :=
    List.mem_map.mpr ⟨p, mem_cloudUpTo_self cell hD hd hp, sqDist_self p⟩
  have hnn : ∀ a ∈ (cloudUpTo motif cell d).map (sqDist p), (0 : K) ≤ a := by
    intro a ha
    obtain ⟨q, _, rfl⟩ := List.mem_map.mp ha
    exact sqDist_nonneg _ _
  have hpos := List.length_pos_of_mem hmem
  generalize kSmallest k ((cloudUpTo motif cell d).map (sqDist p)) = r at *
  cases r with
  | nil => rw [List.length_nil] at h2; omega
  | cons a r =>
    simp only [List.getElem?_cons_zero, Option.some.injEq]
    apply le_antisymm
    · rcases List.mem_append.mp (h3.subset hmem) with h | h
      · rcases List.mem_cons.mp h with h | h
        · rw [← h]
        · exact (List.pairwise_cons.mp h1).1 0 h
      · exact h4 a (by simp) 0 h
    · exact hnn a (h3.symm.subset (by simp))

theorem rowsUpTo_le (motif x : List (Pt D K)) (cell : Fin D → Pt D K) {k d : ℕ} {b : K}
    (hlen : k ≤ (cloudUpTo motif cell d).length)
    (h : ∀ row ∈ rowsUpTo motif cell x k d, ∀ r ∈ row, r ≤ b) :
    ∀ row ∈ rowsUpTo motif cell x k (d + 1), ∀ r ∈ row, r ≤ b := by
  intro row hrow r hr
  obtain ⟨p, hp, rfl⟩ := List.mem_map.mp hrow
  have hks := isKS_kSmallest k ((cloudUpTo motif cell d).map (sqDist p))
  have hks' := isKS_kSmallest k ((cloudUpTo motif cell (d + 1)).map (sqDist p))
  have hb := h _ (List.mem_map.mpr ⟨p, hp, rfl⟩)
  obtain ⟨_, e2, rest, e3, _⟩ := hks
  have hperm : ((cloudUpTo motif cell (d + 1)).map (sqDist p)).Perm
      (kSmallest k ((cloudUpTo motif cell d).map (sqDist p)) ++
        (rest ++ (latticeToCloud motif ((intLayer D d).map (latVec cell))).map (sqDist p))) := by
    rw [cloudUpTo_succ, List.map_append, ← List.append_assoc]
    exact e3.append_right _
  exact (hks'.perm hperm).le_of_left (by rw [e2, List.length_map]; omega) hb r hr

/-- One iteration: either the loop stops, or it goes on with the exact rows of one more layer. -/
theorem nnLoop_step {near : K → K → K → Bool} {motif : List (Pt D K)} {cell : Fin D → Pt D K}
    {x : List (Pt D K)} {k : ℕ} {diamSq : K} (hD : 0 < D) (hx : x ≠ []) (hxm : ∀ p ∈ x, p ∈ motif)
    (hk : 0 < k) (hnear : NearSound near motif x diamSq)
    (d : ℕ) (hd : 0 < d) (hlen : k ≤ (cloudUpTo motif cell d).length) :
    ((∀ f, nnLoop near motif cell x k diamSq (f + 1) d (rowsUpTo motif cell x k d) =
        .ok (rowsUpTo motif cell x k d)) ∧
      (∀ n ∈ intLayer D d, ∀ p ∈ x, ∀ q ∈ motif, ∀ row ∈ rowsUpTo motif cell x k d, ∀ r ∈ row,
        r ≤ sqDist p (q + latVec cell n))) ∨
    ((∀ f, nnLoop near motif cell x k diamSq (f + 1) d (rowsUpTo motif cell x k d) =
        nnLoop near motif cell x k diamSq f (d + 1) (rowsUpTo motif cell x k (d + 1))) ∧
      ∃ n ∈ intLayer D d, ∃ a, 0 ≤ a ∧ (∃ row ∈ rowsUpTo motif cell x k d, a ∈ row) ∧
        near (sqNorm (latVec cell n)) a diamSq = true) := by
  obtain ⟨a, ha, hage, harow⟩ := maxLast_rowsUpTo motif cell hx hk hlen
  have ha0 : 0 ≤ a := by
    obtain ⟨p, hp⟩ := List.exists_mem_of_ne_nil x hx
    refine hage _ (List.mem_map.mpr ⟨p, hp, rfl⟩) 0 ?_
    have := head_rowsUpTo cell hD hd hk (hxm p hp)
    exact List.mem_of_getElem? this
  by_cases hlat : (((intLayer D d).map (latVec cell)).filter
      fun l => near (sqNorm l) a diamSq).isEmpty = true
  · left
    refine ⟨fun f => by unfold nnLoop; rw [ha]; simp only [bind, Except.bind]; rw [if_pos hlat], ?_⟩
    intro n hn p hp q hq row hrow r hr
    refine (hage row hrow r hr).trans ?_
    apply hnear a _ ha0 ?_ p hp q hq
    rw [List.isEmpty_iff, List.filter_eq_nil_iff] at hlat
    have := hlat (latVec cell n) (List.mem_map.mpr ⟨n, hn, rfl⟩)
    simpa using this
  · by_cases hclose : ((latticeToCloud motif (((intLayer D d).map (latVec cell)).filter
        fun l => near (sqNorm l) a diamSq)).filter
        fun c => x.any fun p => decide (sqDist p c < a)).isEmpty = true
    · left
      refine ⟨fun f => by
        unfold nnLoop; rw [ha]; simp only [bind, Except.bind]; rw [if_neg hlat, if_pos hclose], ?_⟩
      intro n hn p hp q hq row hrow r hr
      refine (hage row hrow r hr).trans ?_
      by_cases hnn : near (sqNorm (latVec cell n)) a diamSq = true
      · rw [List.isEmpty_iff, List.filter_eq_nil_iff] at hclose
        have := hclose (q + latVec cell n) (by
          unfold latticeToCloud
          rw [List.mem_flatMap]
          exact ⟨latVec cell n, List.mem_filter.mpr ⟨List.mem_map.mpr ⟨n, hn, rfl⟩, hnn⟩,
            List.mem_map.mpr ⟨q, hq, rfl⟩⟩)
        rw [List.any_eq_true] at this
        by_contra hc
        exact this ⟨p, hp, by simpa using hc⟩
      · exact hnear a _ ha0 (by simpa using hnn) p hp q hq
    · right
      constructor
      swap
      · rw [List.isEmpty_iff, List.filter_eq_nil_iff] at hlat
        push Not at hlat
        obtain ⟨l, hl, hl'⟩ := hlat
        obtain ⟨n, hn, rfl⟩ := List.mem_map.mp hl
        obtain ⟨row, hrow, hlast⟩ := harow
        exact ⟨n, hn, a, ha0, ⟨row, hrow, List.mem_of_getLast? hlast⟩, hl'⟩
      intro f
      rw [nnLoop, ha]
      simp only [bind, Except.bind]
      rw [if_neg hlat, if_neg hclose]
      -- the new rows are merged correctly
      generalize hcl : (latticeToCloud motif (((intLayer D d).map (latVec cell)).filter
        fun l => near (sqNorm l) a diamSq)).filter
        (fun c => x.any fun p => decide (sqDist p c < a)) = close at hclose ⊢
      have hcne : close ≠ [] := by simpa using hclose
      -- the layer is, up to order, the close points and points which are too far
      have hsplit : ∃ far, (latticeToCloud motif ((intLayer D d).map (latVec cell))).Perm (close ++ far)
          ∧ ∀ c ∈ far, ∀ p ∈ x, a ≤ sqDist p c := by
        refine ⟨(latticeToCloud motif (((intLayer D d).map (latVec cell)).filter
            fun l => near (sqNorm l) a diamSq)).filter
            (fun c => !(x.any fun p => decide (sqDist p c < a))) ++
          latticeToCloud motif (((intLayer D d).map (latVec cell)).filter
            fun l => !(near (sqNorm l) a diamSq)), ?_, ?_⟩
        · rw [← List.append_assoc]
          have e1 : (latticeToCloud motif ((intLayer D d).map (latVec cell))).Perm
              (latticeToCloud motif (((intLayer D d).map (latVec cell)).filter
                fun l => near (sqNorm l) a diamSq) ++
              latticeToCloud motif (((intLayer D d).map (latVec cell)).filter
                fun l => !(near (sqNorm l) a diamSq))) := by
            unfold latticeToCloud
            rw [← List.flatMap_append]
            exact List.Perm.flatMap_right _ (List.filter_append_perm _ _).symm
          refine e1.trans (List.Perm.append_right _ ?_)
          rw [← hcl]
          exact (List.filter_append_perm _ _).symm
        · intro c hc p hp
          rcases List.mem_append.mp hc with hc | hc
          · have := (List.mem_filter.mp hc).2
            rw [Bool.not_eq_true', List.any_eq_false] at this
            have := this p hp
            simpa using this
          · unfold latticeToCloud at hc
            rw [List.mem_flatMap] at hc
            obtain ⟨l, hl, hc⟩ := hc
            obtain ⟨q, hq, rfl⟩ := List.mem_map.mp hc
            have := (List.mem_filter.mp hl).2
            exact hnear a l ha0 (by simpa using this) p hp q hq
      obtain ⟨far, hperm, hfar⟩ := hsplit
      have hlen' : k ≤ (cloudUpTo motif cell (d + 1)).length := by
        rw [cloudUpTo_succ, List.length_append]; omega
      have hmerge : mergeRows (rowsUpTo motif cell x k d) ((cdistSq x close).map (kSmallest k)) =
          .ok (rowsUpTo motif cell x k (d + 1)) := by
        unfold rowsUpTo cdistSq
        rw [List.map_map]
        apply mergeRows_map
        intro p hp
        simp only [Function.comp]
        have hks := isKS_kSmallest k ((cloudUpTo motif cell d).map (sqDist p))
        have hks' := isKS_kSmallest k (close.map (sqDist p))
        have hhead := head_rowsUpTo cell hD hd hk (hxm p hp)
        have hnew : ∃ w, (kSmallest k (close.map (sqDist p)))[0]? = some w ∧ 0 ≤ w := by
          have hl := hks'.2.1
          obtain ⟨_, _, rest, h3, _⟩ := hks'
          have hcpos : 0 < close.length := List.length_pos_iff.mpr hcne
          generalize kSmallest k (close.map (sqDist p)) = r at *
          cases r with
          | nil => simp at hl; omega
          | cons w r =>
            refine ⟨w, rfl, ?_⟩
            have := h3.symm.subset (List.mem_append_left rest (List.mem_cons_self (a := w) (l := r)))
            obtain ⟨c, _, rfl⟩ := List.mem_map.mp this
            exact sqDist_nonneg _ _
        obtain ⟨w, hw, hw0⟩ := hnew
        obtain ⟨r, hr, hrks⟩ := mergeRow_spec hks.1 hks'.1 hhead hw hw0
        rw [hr]
        have hkl : (kSmallest k ((cloudUpTo motif cell d).map (sqDist p))).length = k := by
          rw [hks.2.1, List.length_map]; omega
        rw [hkl] at hrks
        have hm := hks.merge hks' hrks
        rw [← List.map_append] at hm
        have hall : IsKS k (((cloudUpTo motif cell d ++ close) ++ far).map (sqDist p)) r := by
          rw [List.map_append]
          apply hm.append_of_ge
          · rw [List.length_map, List.length_append]; omega
          · intro u hu v hv
            obtain ⟨c, hc, rfl⟩ := List.mem_map.mp hv
            refine le_trans ?_ (hfar c hc p hp)
            -- entries of the merged row are at most the old last entry
            obtain ⟨b, hb⟩ : ∃ b, (kSmallest k ((cloudUpTo motif cell d).map (sqDist p))).getLast? = some b := by
              cases hc : (kSmallest k ((cloudUpTo motif cell d).map (sqDist p))).getLast? with
              | some v => exact ⟨v, rfl⟩
              | none =>
                rw [List.getLast?_eq_none_iff] at hc
                rw [hc] at hkl; simp at hkl; omega
            have hba : b ≤ a := by
              refine hage _ (List.mem_map.mpr ⟨p, hp, rfl⟩) b ?_
              exact List.mem_of_getLast? hb
            refine le_trans ?_ hba
            exact hrks.le_of_left hkl (fun y hy => getLast?_ge hks.1 hb y hy) u hu
        have hfinal : IsKS k ((cloudUpTo motif cell (d + 1)).map (sqDist p)) r := by
          refine hall.perm ?_
          apply List.Perm.map
          rw [cloudUpTo_succ, List.append_assoc]
          exact hperm.symm.append_left _
        rw [hfinal.unique (isKS_kSmallest k _)]
      rw [hmerge]

theorem nnLoop_spec {near : K → K → K → Bool} {motif : List (Pt D K)} {cell : Fin D → Pt D K}
    {x : List (Pt D K)} {k : ℕ} {diamSq : K} (hD : 0 < D) (hx : x ≠ []) (hxm : ∀ p ∈ x, p ∈ motif)
    (hk : 0 < k) (hnear : NearSound near motif x diamSq) :
    ∀ (f d : ℕ), 0 < d → k ≤ (cloudUpTo motif cell d).length →
    nnLoop near motif cell x k diamSq f d (rowsUpTo motif cell x k d) = .error .fuel ∨
    ∃ d', d ≤ d' ∧ d' < d + f ∧
      nnLoop near motif cell x k diamSq f d (rowsUpTo motif cell x k d) =
        .ok (rowsUpTo motif cell x k d') ∧
      (∀ n ∈ intLayer D d', ∀ p ∈ x, ∀ q ∈ motif, ∀ row ∈ rowsUpTo motif cell x k d', ∀ r ∈ row,
        r ≤ sqDist p (q + latVec cell n))
  | 0, d, _, _ => Or.inl rfl
  | f + 1, d, hd, hlen => by
    rcases nnLoop_step (cell := cell) hD hx hxm hk hnear d hd hlen with ⟨h1, h2⟩ | ⟨h1, _⟩
    · exact Or.inr ⟨d, le_refl _, by omega, h1 f, h2⟩
    · rw [h1 f]
      have hlen' : k ≤ (cloudUpTo motif cell (d + 1)).length := by
        rw [cloudUpTo_succ, List.length_append]; omega
      rcases nnLoop_spec hD hx hxm hk hnear f (d + 1) (by omega) hlen' with h | ⟨d', h1, h2, h3, h4⟩
      · exact Or.inl h
      · exact Or.inr ⟨d', by omega, by omega, h3, h4⟩

/-- Once no entry exceeds `b` and layer `dstar` is pruned completely for every bound up to `b`, the loop
stops there at the latest. -/
theorem nnLoop_terminates {near : K → K → K → Bool} {motif : List (Pt D K)} {cell : Fin D → Pt D K}
    {x : List (Pt D K)} {k : ℕ} {diamSq b : K} (hD : 0 < D) (hx : x ≠ []) (hxm : ∀ p ∈ x, p ∈ motif)
    (hk : 0 < k) (hnear : NearSound near motif x diamSq) (dstar : ℕ)
    (hstar : ∀ n ∈ intLayer D dstar, ∀ a, 0 ≤ a → a ≤ b → near (sqNorm (latVec cell n)) a diamSq = false) :
    ∀ (f d : ℕ), 0 < d → k ≤ (cloudUpTo motif cell d).length → d ≤ dstar → dstar < d + f →
    (∀ row ∈ rowsUpTo motif cell x k d, ∀ r ∈ row, r ≤ b) →
    nnLoop near motif cell x k diamSq f d (rowsUpTo motif cell x k d) ≠ .error .fuel
  | 0, d, _, _, h1, h2, _ => by omega
  | f + 1, d, hd, hlen, h1, h2, hb => by
    rcases nnLoop_step (cell := cell) hD hx hxm hk hnear d hd hlen with ⟨h3, _⟩ | ⟨h3, n, hn, a, ha0, ⟨row, hrow, har⟩, hnr⟩
    · rw [h3 f]; simp
    · rw [h3 f]
      have hne : d ≠ dstar := by
        rintro rfl
        rw [hstar n hn a ha0 (hb row hrow a har)] at hnr
        cases hnr
      have hlen' : k ≤ (cloudUpTo motif cell (d + 1)).length := by
        rw [cloudUpTo_succ, List.length_append]; omega
      refine nnLoop_terminates hD hx hxm hk hnear dstar hstar f (d + 1) (by omega) hlen' (by omega)
        (by omega) (rowsUpTo_le motif x cell hlen hb)

end Loop

end Amd
