import Verif.Proof.Equivariance

/-! Helper lemmas: reordering motif and query points. -/

set_option linter.unusedSectionVars false

namespace Amd

variable {D : ℕ}

section
variable {K : Type*} [CommRing K] [LinearOrder K]

theorem kSmallest_perm {l l' : List K} (h : l.Perm l') (k : ℕ) : kSmallest k l = kSmallest k l' := by
  unfold kSmallest
  congr 1
  apply eq_of_perm_sorted
  · exact (List.perm_insertionSort _ _).trans (h.trans (List.perm_insertionSort _ _).symm)
  · exact sorted_insertionSort' _
  · exact sorted_insertionSort' _

theorem maxE_perm {l l' : List K} (h : l.Perm l') : maxE l = maxE l' := by
  by_cases hl : l = []
  · subst hl
    rw [List.nil_perm.mp h]
  · have hl' : l' ≠ [] := by rintro rfl; exact hl (List.perm_nil.mp h)
    obtain ⟨a, e, ha, hb⟩ := maxE_spec hl
    obtain ⟨a', e', ha', hb'⟩ := maxE_spec hl'
    rw [e, e']
    congr 1
    exact le_antisymm (hb' a (h.mem_iff.mp ha)) (hb a' (h.mem_iff.mpr ha'))

theorem maxLast_perm {x x' : List (Pt D K)} (h : x.Perm x') (g : Pt D K → List K) :
    maxLast (x.map g) = maxLast (x'.map g) := by
  unfold maxLast
  apply maxE_perm
  exact (h.map g).flatMap_right _

theorem mergeRow_error {r s : List K} {e : Err} (h : mergeRow r s = .error e) : e = .bounds := by
  unfold mergeRow at h
  split at h
  · cases h; rfl
  · split at h
    · cases h; rfl
    · split at h
      · cases h; rfl
      · cases h

theorem mergeRows_error {α : Type*} (f g : α → List K) : ∀ (x : List α),
    (∃ p ∈ x, ∃ e, mergeRow (f p) (g p) = .error e) → mergeRows (x.map f) (x.map g) = .error .bounds
  | [], h => by obtain ⟨p, hp, _⟩ := h; cases hp
  | p :: x, h => by
    rw [List.map_cons, List.map_cons, mergeRows]
    cases hp : mergeRow (f p) (g p) with
    | error e => rw [mergeRow_error hp]; rfl
    | ok r =>
      obtain ⟨q, hq, e, he⟩ := h
      rcases List.mem_cons.mp hq with rfl | hq
      · rw [hp] at he; cases he
      · simp only [bind, Except.bind]
        rw [mergeRows_error f g x ⟨q, hq, e, he⟩]

/-- Merging rows indexed by points gives rows indexed by points, whatever the order of the points. -/
theorem mergeRows_perm {x x' : List (Pt D K)} (h : x.Perm x') (f g : Pt D K → List K) :
    ∃ r : Except Err (Pt D K → List K), mergeRows (x.map f) (x.map g) = r.map (fun u => x.map u) ∧
      mergeRows (x'.map f) (x'.map g) = r.map (fun u => x'.map u) := by
  by_cases hall : ∃ p ∈ x, ∃ e, mergeRow (f p) (g p) = .error e
  · refine ⟨.error .bounds, mergeRows_error f g x hall, mergeRows_error f g x' ?_⟩
    obtain ⟨p, hp, e⟩ := hall
    exact ⟨p, h.mem_iff.mp hp, e⟩
  · have hok : ∀ p ∈ x, mergeRow (f p) (g p) =
        .ok (match mergeRow (f p) (g p) with | .ok r => r | .error _ => []) := by
      intro p hp
      cases hm : mergeRow (f p) (g p) with
      | error e => exact absurd ⟨p, hp, e, hm⟩ hall
      | ok r => rfl
    exact ⟨.ok fun p => (match mergeRow (f p) (g p) with | .ok r => r | .error _ => []),
      mergeRows_map f g _ x hok, mergeRows_map f g _ x' fun p hp => hok p (h.mem_iff.mpr hp)⟩

theorem latticeToCloud_perm {motif motif' : List (Pt D K)} (h : motif.Perm motif') (l : List (Pt D K)) :
    (latticeToCloud motif l).Perm (latticeToCloud motif' l) := by
  unfold latticeToCloud
  exact List.Perm.flatMap_left l fun t _ => h.map _

theorem isEmpty_perm {α : Type*} {l l' : List α} (h : l.Perm l') : l.isEmpty = l'.isEmpty := by
  have := h.length_eq
  cases l <;> cases l' <;> simp_all

theorem nnLoop_perm (near : K → K → K → Bool) {motif motif' x x' : List (Pt D K)} (hm : motif.Perm motif')
    (hx : x.Perm x') (cell : Fin D → Pt D K) (k : ℕ) (diamSq : K) : ∀ (f d : ℕ) (g : Pt D K → List K),
    ∃ r : Except Err (Pt D K → List K),
      nnLoop near motif cell x k diamSq f d (x.map g) = r.map (fun u => x.map u) ∧
      nnLoop near motif' cell x' k diamSq f d (x'.map g) = r.map (fun u => x'.map u)
  | 0, _, _ => ⟨.error .fuel, rfl, rfl⟩
  | f + 1, d, g => by
    rw [nnLoop, nnLoop, ← maxLast_perm hx g]
    cases maxLast (x.map g) with
    | error e => exact ⟨.error e, rfl, rfl⟩
    | ok a =>
      simp only [bind, Except.bind]
      set lattice := List.filter (fun l => near (sqNorm l) a diamSq) ((intLayer D d).map (latVec cell))
      have hany : ∀ c, (x.any fun p => decide (sqDist p c < a)) = x'.any fun p => decide (sqDist p c < a) :=
        fun c => hx.any_eq
      have hclose : (List.filter (fun c => x.any fun p => decide (sqDist p c < a))
          (latticeToCloud motif lattice)).Perm
          (List.filter (fun c => x'.any fun p => decide (sqDist p c < a)) (latticeToCloud motif' lattice)) := by
        simp only [hany]
        exact (latticeToCloud_perm hm lattice).filter _
      rw [isEmpty_perm hclose]
      split_ifs with h1 h2
      · exact ⟨.ok g, rfl, rfl⟩
      · exact ⟨.ok g, rfl, rfl⟩
      · set close := List.filter (fun c => x.any fun p => decide (sqDist p c < a)) (latticeToCloud motif lattice)
        set close' := List.filter (fun c => x'.any fun p => decide (sqDist p c < a)) (latticeToCloud motif' lattice)
        have e1 : (cdistSq x close).map (kSmallest k) =
            x.map fun p => kSmallest k (close.map fun q => sqDist p q) := by
          rw [cdistSq, List.map_map]; rfl
        have e2 : (cdistSq x' close').map (kSmallest k) =
            x'.map fun p => kSmallest k (close.map fun q => sqDist p q) := by
          rw [cdistSq, List.map_map]
          apply List.map_congr_left
          intro p _
          exact kSmallest_perm (hclose.symm.map _) k
        rw [e1, e2]
        obtain ⟨r, h3, h4⟩ := mergeRows_perm hx g fun p => kSmallest k (close.map fun q => sqDist p q)
        rw [h3, h4]
        cases r with
        | error e => exact ⟨.error e, rfl, rfl⟩
        | ok u => exact nnLoop_perm near hm hx cell k diamSq f (d + 1) u

theorem cdist_take_perm {motif motif' x x' : List (Pt D K)} (hm : motif.Perm motif')
    (hx : x.Perm x') (cell : Fin D → Pt D K) (hD : 0 < D) (t : ℕ) :
    ((cdistSq x (cloudUpTo motif cell (t + 1))).flatMap (·.take motif.length)).Perm
      ((cdistSq x' (cloudUpTo motif' cell (t + 1))).flatMap (·.take motif'.length)) := by
  -- the first `m` columns are the distances to the motif itself
  have hfirst : ∀ (mo : List (Pt D K)) (y : List (Pt D K)),
      (cdistSq y (cloudUpTo mo cell (t + 1))).flatMap (·.take mo.length) =
        y.flatMap fun p => mo.map fun q => sqDist p q := by
    intro mo y
    have hc : ∃ rest, cloudUpTo mo cell (t + 1) = mo ++ rest := by
      have : ∃ ls, layersUpTo D (t + 1) = (fun _ => 0) :: ls := by
        have h1 := layersUpTo_one hD
        unfold layersUpTo at h1 ⊢
        rw [List.range_succ_eq_map, List.flatMap_cons]
        simp at h1
        rw [h1]
        exact ⟨_, rfl⟩
      obtain ⟨ls, hls⟩ := this
      refine ⟨latticeToCloud mo (ls.map (latVec cell)), ?_⟩
      unfold cloudUpTo latticeToCloud
      rw [hls, List.map_cons, List.flatMap_cons]
      congr 1
      have h0 : latVec cell (fun _ => 0) = 0 := by funext j; simp [latVec]
      rw [h0]
      simp
    obtain ⟨rest, hrest⟩ := hc
    rw [hrest, cdistSq, List.flatMap_map]
    congr 1
    funext p
    rw [List.map_append, List.take_append_of_le_length (by simp), List.take_of_length_le (by simp)]
  rw [hfirst, hfirst]
  exact (hx.flatMap_right _).trans (List.Perm.flatMap_left x' fun p _ => hm.map _)

/-- Reordering the motif and the query points reorders the rows. -/
theorem nearestNeighborsSq_perm (near : K → K → K → Bool) {motif motif' x x' : List (Pt D K)}
    (hm : motif.Perm motif') (hx : x.Perm x') (cell : Fin D → Pt D K) (hD : 0 < D) (hne : motif ≠ [])
    (k fuel : ℕ) :
    ∃ r : Except Err (Pt D K → List K),
      nearestNeighborsSq near motif cell x k fuel = r.map (fun u => x.map u) ∧
      nearestNeighborsSq near motif' cell x' k fuel = r.map (fun u => x'.map u) := by
  unfold nearestNeighborsSq
  have hmpos : 0 < motif.length := List.length_pos_iff.mpr hne
  simp only [← hm.length_eq]
  obtain ⟨t, ht⟩ : ∃ t, numLayers D motif.length k = t + 1 :=
    ⟨numLayers D motif.length k - 1, by have := two_le_numLayers (k := k) hD hmpos; omega⟩
  rw [ht]
  have h1 := cdist_take_perm hm hx cell hD t
  rw [← hm.length_eq] at h1
  unfold cloudUpTo at h1
  rw [maxE_perm h1]
  cases maxE ((cdistSq x' (latticeToCloud motif' ((layersUpTo D (t + 1)).map (latVec cell)))).flatMap
    (·.take motif.length)) with
  | error e => exact ⟨.error e, rfl, rfl⟩
  | ok dsq =>
    simp only [bind, Except.bind]
    have hcl := latticeToCloud_perm hm ((layersUpTo D (t + 1)).map (latVec cell))
    set cloud := latticeToCloud motif ((layersUpTo D (t + 1)).map (latVec cell))
    set cloud' := latticeToCloud motif' ((layersUpTo D (t + 1)).map (latVec cell))
    have e1 : (cdistSq x cloud).map (kSmallest k) =
        x.map fun p => kSmallest k (cloud.map fun q => sqDist p q) := by
      rw [cdistSq, List.map_map]; rfl
    have e2 : (cdistSq x' cloud').map (kSmallest k) =
        x'.map fun p => kSmallest k (cloud.map fun q => sqDist p q) := by
      rw [cdistSq, List.map_map]
      apply List.map_congr_left
      intro p _
      exact kSmallest_perm (hcl.symm.map _) k
    rw [e1, e2]
    exact nnLoop_perm near hm hx cell k dsq fuel (t + 1) _

end

theorem nearestNeighbors_perm {motif motif' x x' : List (Pt D ℝ)}
    (hm : motif.Perm motif') (hx : x.Perm x') (cell : Fin D → Pt D ℝ) (hD : 0 < D) (hne : motif ≠ [])
    (k fuel : ℕ) :
    ∃ r : Except Err (Pt D ℝ → List ℝ),
      nearestNeighbors motif cell x k fuel = r.map (fun u => x.map u) ∧
      nearestNeighbors motif' cell x' k fuel = r.map (fun u => x'.map u) := by
  obtain ⟨r, h1, h2⟩ := nearestNeighborsSq_perm nearReal hm hx cell hD hne k fuel
  refine ⟨r.map fun u p => (u p).map Real.sqrt, ?_, ?_⟩
  · unfold nearestNeighbors
    rw [h1]
    cases r with
    | error e => rfl
    | ok u => simp [Except.map]
  · unfold nearestNeighbors
    rw [h2]
    cases r with
    | error e => rfl
    | ok u => simp [Except.map]

section
variable {K : Type*} [Field K] [LinearOrder K]

theorem addRows_perm (w : K) {rows rows' : List (List K)} (h : rows.Perm rows') : ∀ result,
    addRows rows (List.replicate rows.length w) result = addRows rows' (List.replicate rows'.length w) result := by
  induction h with
  | nil => intro _; rfl
  | cons a _ ih =>
    intro result
    rw [List.length_cons, List.replicate_succ, addRows, List.length_cons, List.replicate_succ, addRows]
    exact ih _
  | swap a b l =>
    intro result
    simp only [List.length_cons, List.replicate_succ, addRows]
    congr 1
    generalize a.drop 1 = a'
    generalize b.drop 1 = b'
    clear a b l
    induction result generalizing a' b' with
    | nil => simp
    | cons r result ih =>
      cases a' with
      | nil => cases b' <;> simp
      | cons a a' =>
        cases b' with
        | nil => simp
        | cons b b' =>
          simp only [List.zipWith_cons_cons, ih a' b']
          congr 1
          ring
  | trans _ _ ih1 ih2 => intro result; rw [ih1, ih2]

theorem averageColumns_perm (w : K) {rows rows' : List (List K)} (h : rows.Perm rows') (k : ℕ) :
    averageColumnsExceptFirst k rows (List.replicate rows.length w) =
      averageColumnsExceptFirst k rows' (List.replicate rows'.length w) := by
  unfold averageColumnsExceptFirst
  rw [addRows_perm w h, h.length_eq]

/-! ### Lexicographic order -/

theorem lexLe_total : ∀ r s : List K, lexLe r s = true ∨ lexLe s r = true
  | [], _ => Or.inl rfl
  | _ :: _, [] => Or.inr rfl
  | a :: r, b :: s => by
    rw [lexLe, lexLe]
    rcases lt_trichotomy a b with h | h | h
    · left; simp [h]
    · subst h
      rcases lexLe_total r s with h | h
      · left; simp [h]
      · right; simp [h]
    · right; simp [h]

theorem lexLe_trans : ∀ {r s t : List K}, lexLe r s = true → lexLe s t = true → lexLe r t = true
  | [], _, _, _, _ => by simp [lexLe]
  | _ :: _, [], _, h, _ => by simp [lexLe] at h
  | _ :: _, _ :: _, [], _, h => by simp [lexLe] at h
  | a :: r, b :: s, c :: t, h1, h2 => by
    simp only [lexLe, Bool.or_eq_true, Bool.and_eq_true, decide_eq_true_eq] at h1 h2 ⊢
    rcases h1 with h1 | ⟨rfl, h1⟩
    · rcases h2 with h2 | ⟨rfl, h2⟩
      · exact Or.inl (h1.trans h2)
      · exact Or.inl h1
    · rcases h2 with h2 | ⟨rfl, h2⟩
      · exact Or.inl h2
      · exact Or.inr ⟨rfl, lexLe_trans h1 h2⟩

theorem lexLe_antisymm : ∀ {r s : List K}, lexLe r s = true → lexLe s r = true → r = s
  | [], [], _, _ => rfl
  | [], _ :: _, _, h => by simp [lexLe] at h
  | _ :: _, [], h, _ => by simp [lexLe] at h
  | a :: r, b :: s, h1, h2 => by
    simp only [lexLe, Bool.or_eq_true, Bool.and_eq_true, decide_eq_true_eq] at h1 h2
    rcases h1 with h1 | ⟨rfl, h1⟩
    · rcases h2 with h2 | ⟨rfl, h2⟩
      · exact absurd h1 (not_lt.mpr h2.le)
      · exact absurd h1 (lt_irrefl _)
    · rcases h2 with h2 | ⟨_, h2⟩
      · exact absurd h2 (lt_irrefl _)
      · rw [lexLe_antisymm h1 h2]

theorem lexsortRows_perm (lex : Bool) (rows : List (PRow K)) : (lexsortRows lex rows).Perm rows := by
  unfold lexsortRows
  split_ifs
  · exact List.perm_insertionSort _ _
  · exact List.Perm.refl _

theorem lexsortRows_sorted (rows : List (PRow K)) :
    (lexsortRows true rows).Pairwise (fun a b => lexLe a.dists b.dists = true) := by
  unfold lexsortRows
  rw [if_pos rfl]
  have : IsTrans (PRow K) (fun a b => lexLe a.dists b.dists = true) := ⟨fun _ _ _ h h' => lexLe_trans h h'⟩
  have : Std.Total (fun a b : PRow K => lexLe a.dists b.dists = true) := ⟨fun _ _ => lexLe_total _ _⟩
  exact List.pairwise_insertionSort _ _

end

end Amd
