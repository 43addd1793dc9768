import Verif.Model.Cache
import Verif.Proof.NNLoop
import Mathlib.Data.List.TakeWhile

/-! Helper lemmas: the invariant of the lattice caches. -/

set_option linter.unusedSectionVars false

namespace Amd

/-- Nothing in the caches has been advanced, and what they hold is what it should be. -/
structure CacheInv (s : CacheState) : Prop where
  gen : ∀ dims it, s.gen dims = some it → s.iters[it]? = some (dims, 0)
  batch : ∀ dims n rows it, s.batch (dims, n) = some (rows, it) → s.iters[it]? = some (dims, n) ∧
    rows = (layersUpTo dims n).map List.ofFn ∧ n ≤ (s.npoints dims).length
  npoints : ∀ dims, s.npoints dims =
    (List.range (s.npoints dims).length).map fun t => (layersUpTo dims (t + 1)).length

/-- An iterator no cache refers to. -/
structure CacheFree (s : CacheState) (it : ℕ) : Prop where
  lt : it < s.iters.length
  gen : ∀ dims, s.gen dims ≠ some it
  batch : ∀ key rows, s.batch key ≠ some (rows, it)

theorem cacheInv_empty : CacheInv {} := by
  constructor
  · intro dims it h; simp at h
  · intro dims n rows it h; simp at h
  · intro dims; simp

theorem next_spec {s : CacheState} (hi : CacheInv s) {it dims pos : ℕ} (hf : CacheFree s it)
    (h : s.iters[it]? = some (dims, pos)) :
    ∃ s', s.next it = some (layerRows dims pos, s') ∧ CacheInv s' ∧ (∀ j, CacheFree s j → CacheFree s' j) ∧
      s'.iters[it]? = some (dims, pos + 1) ∧ s'.gen = s.gen ∧ s'.batch = s.batch ∧ s'.npoints = s.npoints := by
  refine ⟨{ s with iters := s.iters.set it (dims, pos + 1) }, by unfold CacheState.next; rw [h], ?_, ?_, ?_, rfl, rfl, rfl⟩
  · constructor
    · intro d j hj
      have hne : it ≠ j := by rintro rfl; exact hf.gen d hj
      simp only [List.getElem?_set_ne hne]
      exact hi.gen d j hj
    · intro d n rows j hj
      have hne : it ≠ j := by rintro rfl; exact hf.batch _ _ hj
      simp only [List.getElem?_set_ne hne]
      exact hi.batch d n rows j hj
    · exact hi.npoints
  · intro j hj
    exact ⟨by simpa using hj.lt, hj.gen, hj.batch⟩
  · simp only [List.getElem?_set_self hf.lt]

theorem tee_spec {s : CacheState} (hi : CacheInv s) {it : ℕ} {e : ℕ × ℕ} (h : s.iters[it]? = some e) :
    ∃ s', s.tee it = some (s.iters.length, s') ∧ CacheInv s' ∧ (∀ j, CacheFree s j → CacheFree s' j) ∧
      CacheFree s' s.iters.length ∧ s'.iters[s.iters.length]? = some e ∧
      s'.gen = s.gen ∧ s'.batch = s.batch ∧ s'.npoints = s.npoints := by
  have hlt : ∀ {j : ℕ} {u : ℕ × ℕ}, s.iters[j]? = some u → j < s.iters.length := fun h =>
    (List.getElem?_eq_some_iff.mp h).1
  refine ⟨{ s with iters := s.iters ++ [e] }, by unfold CacheState.tee; rw [h], ?_, ?_, ?_, ?_, rfl, rfl, rfl⟩
  · constructor
    · intro d j hj
      have := hi.gen d j hj
      simp only [List.getElem?_append_left (hlt this)]
      exact this
    · intro d n rows j hj
      have := hi.batch d n rows j hj
      simp only [List.getElem?_append_left (hlt this.1)]
      exact this
    · exact hi.npoints
  · intro j hj
    exact ⟨by simpa using Nat.lt_succ_of_lt hj.lt, hj.gen, hj.batch⟩
  · refine ⟨by simp, ?_, ?_⟩
    · intro d hd
      have := hlt (hi.gen d _ hd)
      omega
    · rintro ⟨d, n⟩ rows hd
      have := hlt (hi.batch d n rows _ hd).1
      omega
  · simp

theorem generator_spec {s : CacheState} (hi : CacheInv s) (dims : ℕ) :
    ∃ it s', s.generator dims = some (it, s') ∧ CacheInv s' ∧ (∀ j, CacheFree s j → CacheFree s' j) ∧
      CacheFree s' it ∧ s'.iters[it]? = some (dims, 0) ∧ s'.batch = s.batch ∧ s'.npoints = s.npoints ∧
      s.iters.length ≤ it := by
  unfold CacheState.generator
  cases hg : s.gen dims with
  | some it =>
    obtain ⟨s', h1, h2, h3, h4, h5, _, h7, h8⟩ := tee_spec hi (hi.gen dims it hg)
    exact ⟨_, s', h1, h2, h3, h4, h5, h7, h8, le_refl _⟩
  | none =>
    have hlt : ∀ {j : ℕ} {u : ℕ × ℕ}, s.iters[j]? = some u → j < s.iters.length := fun h =>
      (List.getElem?_eq_some_iff.mp h).1
    set s0 : CacheState := { s with iters := s.iters ++ [(dims, 0)], gen := Function.update s.gen dims (some s.iters.length) }
      with hs0
    have hi0 : CacheInv s0 := by
      constructor
      · intro d j hj
        simp only [hs0, Function.update_apply] at hj ⊢
        split_ifs at hj with hd
        · injection hj with hj
          subst hj
          simp [hd]
        · have := hi.gen d j hj
          rw [List.getElem?_append_left (hlt this)]
          exact this
      · intro d n rows j hj
        have := hi.batch d n rows j hj
        simp only [hs0, List.getElem?_append_left (hlt this.1)]
        exact this
      · exact hi.npoints
    have hfree : ∀ j, CacheFree s j → CacheFree s0 j := by
      intro j hj
      refine ⟨by simpa [hs0] using Nat.lt_succ_of_lt hj.lt, ?_, hj.batch⟩
      intro d
      simp only [hs0, Function.update_apply]
      split_ifs
      · have := hj.lt
        intro h
        injection h with h
        omega
      · exact hj.gen d
    obtain ⟨s', h1, h2, h3, h4, h5, _, h7, h8⟩ := tee_spec hi0 (it := s.iters.length) (e := (dims, 0)) (by simp [hs0])
    exact ⟨_, s', h1, h2, fun j hj => h3 j (hfree j hj), h4, h5, h7, h8, by simp [hs0]⟩

theorem length_layerRows (dims d : ℕ) : (layerRows dims d).length = (intLayer dims d).length := by
  simp [layerRows]

theorem batchesLoop_spec {dims m k it : ℕ} : ∀ (f t nPoints T : ℕ) (s : CacheState), CacheInv s → CacheFree s it →
    s.iters[it]? = some (dims, t) → batchLoop dims m k f t nPoints = some T →
    ∃ s', batchesLoop m k it f s nPoints ((List.range t).map (layerRows dims)) =
        some ((List.range T).map (layerRows dims), s') ∧ CacheInv s' ∧ (∀ j, CacheFree s j → CacheFree s' j) ∧
      s'.iters[it]? = some (dims, T) ∧ s'.gen = s.gen ∧ s'.batch = s.batch ∧ s'.npoints = s.npoints
  | 0, _, _, _, _, _, _, _, h => by rw [batchLoop] at h; cases h
  | f + 1, t, nPoints, T, s, hi, hf, hit, h => by
    rw [batchLoop] at h
    rw [batchesLoop]
    obtain ⟨s', h1, h2, h3, h4, h5, h6, h7⟩ := next_spec hi hf hit
    have hr : (List.range t).map (layerRows dims) ++ [layerRows dims t] = (List.range (t + 1)).map (layerRows dims) := by
      rw [List.range_succ, List.map_append]; rfl
    split_ifs at h ⊢ with hc
    · rw [h1]
      simp only
      rw [hr, length_layerRows]
      obtain ⟨s'', g1, g2, g3, g4, g5, g6, g7⟩ := batchesLoop_spec f (t + 1) _ T s' h2 (h3 it hf) h4 h
      exact ⟨s'', g1, g2, fun j hj => g3 j (h3 j hj), g4, g5.trans h5, g6.trans h6, g7.trans h7⟩
    · rw [h1]
      injection h with h
      subst h
      simp only
      rw [hr]
      exact ⟨s', rfl, h2, h3, h4, h5, h6, h7⟩

theorem batchLoop_numLayers {D m k : ℕ} (hD : 0 < D) (hm : 0 < m) :
    batchLoop D m k (k + 1) 1 1 = some (numLayers D m k) := by
  obtain ⟨s, _, h2, _⟩ := batchLoop_spec (k := k) hD hm (k + 1) 1 1 (layersUpTo_one_length hD).symm (by omega) (by omega)
  rw [numLayers, h2]; rfl

theorem batchesFn_spec {dims m k : ℕ} (hD : 0 < dims) (hm : 0 < m) {s : CacheState} (hi : CacheInv s) :
    ∃ it s', s.batchesFn dims m k = some ((List.range (numLayers dims m k)).map (layerRows dims), it, s') ∧
      CacheInv s' ∧ (∀ j, CacheFree s j → CacheFree s' j) ∧ CacheFree s' it ∧
      s'.iters[it]? = some (dims, numLayers dims m k) ∧ s.iters.length ≤ it := by
  unfold CacheState.batchesFn
  obtain ⟨it, s1, a1, a2, a3, a4, a5, a6, a7, a8⟩ := generator_spec hi dims
  rw [a1]
  simp only
  obtain ⟨s2, b1, b2, b3, b4, b5, b6, b7⟩ := next_spec a2 a4 a5
  rw [b1]
  simp only
  obtain ⟨s3, c1, c2, c3, c4, c5, c6, c7⟩ := batchesLoop_spec (k + 1) 1 1 _ s2 b2 (b3 it a4) b4
    (batchLoop_numLayers (m := m) (k := k) hD hm)
  have e : (List.range 1).map (layerRows dims) = [layerRows dims 0] := rfl
  rw [e] at c1
  rw [c1]
  exact ⟨it, s3, rfl, c2, fun j hj => c3 j (b3 j (a3 j hj)), c3 it (b3 it a4), c4, a8⟩

theorem length_takeWhile_range (p : ℕ → Bool) (a L : ℕ) (h1 : ∀ t < a, p t = true) (h2 : p a = false) :
    ((List.range L).takeWhile p).length = min a L := by
  rcases Nat.lt_or_ge a L with h | h
  · have e : List.range L = List.range a ++ (a :: List.range' (a + 1) (L - a - 1)) := by
      rw [List.range_eq_range', List.range_eq_range', show L = a + (1 + (L - a - 1)) by omega, ← List.range'_append_1]
      congr 1
      rw [Nat.add_comm 1, List.range'_succ]
      congr 2 <;> omega
    rw [e, List.takeWhile_append_of_pos (by intro t ht; exact h1 t (List.mem_range.mp ht)), List.takeWhile_cons,
      if_neg (by rw [h2]; simp), List.append_nil, List.length_range]
    omega
  · rw [List.takeWhile_eq_self_iff.mpr (by intro t ht; exact h1 t (by have := List.mem_range.mp ht; omega)), List.length_range]
    omega

theorem guessLayers_spec {dims m k : ℕ} (hD : 0 < dims) (hm : 0 < m) {np : List ℕ}
    (hnp : np = (List.range np.length).map fun t => (layersUpTo dims (t + 1)).length) :
    guessLayers np m k = min (numLayers dims m k) (np.length + 2) := by
  obtain ⟨s, h1, h2, h3, h4⟩ := numLayers_spec (k := k) hD hm
  have key : ((List.range np.length).takeWhile fun t => decide ((layersUpTo dims (t + 1)).length * m ≤ k)).length =
      min (s - 1) np.length := by
    apply length_takeWhile_range
    · intro t ht
      exact decide_eq_true (h4 (t + 1) (by omega) (by omega))
    · apply decide_eq_false
      rw [show s - 1 + 1 = s by omega]
      omega
  have e : (np.takeWhile fun n => decide (n * m ≤ k)).length = min (s - 1) np.length := by
    rw [← key]
    conv_lhs => rw [hnp]
    rw [List.takeWhile_map, List.length_map]
    rfl
  unfold guessLayers
  rw [e, h2]
  omega

theorem flatten_layers (dims T : ℕ) :
    ((List.range T).map (layerRows dims)).flatten = (layersUpTo dims T).map List.ofFn := by
  unfold layersUpTo layerRows
  rw [List.map_flatMap, List.flatMap_def]

theorem accumulate_layers (dims T : ℕ) : accumulate (((List.range T).map (layerRows dims)).map (·.length)) =
    (List.range T).map fun t => (layersUpTo dims (t + 1)).length := by
  unfold accumulate
  simp only [List.length_map, List.length_range]
  apply List.map_congr_left
  intro t ht
  rw [List.mem_range] at ht
  rw [List.map_map, ← List.map_take, List.take_range, min_eq_left (by omega)]
  unfold layersUpTo
  rw [List.length_flatMap]
  congr 1
  apply List.map_congr_left
  intro d _
  exact length_layerRows dims d

/-- Whatever happened before, the cached function returns the right layers and a new iterator at the right position. -/
theorem batches_spec {dims m k : ℕ} (hD : 0 < dims) (hm : 0 < m) {s : CacheState} (hi : CacheInv s) :
    ∃ it s', s.batches dims m k = some ((layersUpTo dims (numLayers dims m k)).map List.ofFn, it, s') ∧
      CacheInv s' ∧ (∀ j, CacheFree s j → CacheFree s' j) ∧ CacheFree s' it ∧
      s'.iters[it]? = some (dims, numLayers dims m k) := by
  have hg := guessLayers_spec (k := k) hD hm (hi.npoints dims)
  unfold CacheState.batches
  simp only
  cases hb : s.batch (dims, guessLayers (s.npoints dims) m k) with
  | some v =>
    obtain ⟨rows, it⟩ := v
    obtain ⟨b1, b2, b3⟩ := hi.batch _ _ _ _ hb
    have e : guessLayers (s.npoints dims) m k = numLayers dims m k := by omega
    simp only
    unfold CacheState.fetch
    rw [hb]
    simp only
    obtain ⟨s', h1, h2, h3, h4, h5, _⟩ := tee_spec hi b1
    rw [h1]
    exact ⟨_, s', by rw [b2, e], h2, h3, h4, by rw [h5, e]⟩
  | none =>
    simp only
    obtain ⟨it, s1, a1, a2, a3, a4, a5, a6⟩ := batchesFn_spec (m := m) (k := k) hD hm hi
    rw [a1]
    simp only [List.length_map, List.length_range]
    generalize hT : numLayers dims m k = T at *
    set s2 := (if (s1.npoints dims).length < T then
          { s1 with npoints := Function.update s1.npoints dims (accumulate (((List.range T).map (layerRows dims)).map (·.length))) }
        else s1) with hs2
    have e1 : s2.iters = s1.iters := by rw [hs2]; split_ifs <;> rfl
    have e2 : s2.gen = s1.gen := by rw [hs2]; split_ifs <;> rfl
    have e3 : s2.batch = s1.batch := by rw [hs2]; split_ifs <;> rfl
    have e4 : ∀ d, s2.npoints d = (List.range (s2.npoints d).length).map (fun t => (layersUpTo d (t + 1)).length) ∧
        (s1.npoints d).length ≤ (s2.npoints d).length ∧ (d = dims → T ≤ (s2.npoints d).length) := by
      intro d
      by_cases hlt : (s1.npoints dims).length < T
      · have : s2.npoints = Function.update s1.npoints dims (accumulate (((List.range T).map (layerRows dims)).map (·.length))) := by
          rw [hs2, if_pos hlt]
        rw [this, Function.update_apply]
        split_ifs with hd
        · subst hd
          rw [accumulate_layers]
          simp [hlt.le]
        · exact ⟨a2.npoints d, le_refl _, fun h => absurd h hd⟩
      · have : s2.npoints = s1.npoints := by rw [hs2, if_neg hlt]
        rw [this]
        exact ⟨a2.npoints d, le_refl _, fun h => by subst h; omega⟩
    set newBatch := Function.update s2.batch (dims, T) (some (((List.range T).map (layerRows dims)).flatten, it)) with hnb
    set s3 : CacheState := { s2 with batch := newBatch } with hs3
    have hi3 : CacheInv s3 := by
      constructor
      · intro d j hj
        simp only [hs3, e1, e2] at hj ⊢
        exact a2.gen d j hj
      · intro d n rows j hj
        simp only [hs3, hnb, e1, e3, Function.update_apply] at hj ⊢
        split_ifs at hj with hd
        · injection hd with hd1 hd2
          injection hj with hj
          injection hj with hj1 hj2
          subst hd1 hd2 hj1 hj2
          exact ⟨a5, flatten_layers _ _, (e4 d).2.2 rfl⟩
        · obtain ⟨b1, b2, b3⟩ := a2.batch d n rows j hj
          exact ⟨b1, b2, b3.trans (e4 d).2.1⟩
      · intro d
        exact (e4 d).1
    have hfree : ∀ j, CacheFree s1 j → j ≠ it → CacheFree s3 j := by
      intro j hj hne
      refine ⟨by simp only [hs3, e1]; exact hj.lt, by simp only [hs3, e2]; exact hj.gen, ?_⟩
      intro key rows
      simp only [hs3, hnb, e3, Function.update_apply]
      split_ifs
      · intro h
        injection h with h
        injection h with _ h
        exact hne h.symm
      · exact hj.batch key rows
    have hit3 : s3.iters[it]? = some (dims, T) := by simp only [hs3, e1]; exact a5
    unfold CacheState.fetch
    have hb3 : s3.batch (dims, T) = some (((List.range T).map (layerRows dims)).flatten, it) := by simp [hs3, hnb]
    rw [hb3]
    simp only
    obtain ⟨s', h1, h2, h3, h4, h5, _⟩ := tee_spec hi3 hit3
    rw [h1]
    refine ⟨_, s', by rw [flatten_layers], h2, ?_, h4, h5⟩
    intro j hj
    refine h3 j (hfree j (a3 j hj) ?_)
    -- the new iterator was not there before
    rintro rfl
    have := hj.lt
    omega

end Amd
