import Verif.Proof.Cache
import Verif.Props.Neighbours

/-! # The caches do not influence results: C11 -/

set_option linter.unusedSectionVars false

namespace Amd

theorem CacheReachable.inv {s : CacheState} {handed : List ℕ} (h : CacheReachable s handed) :
    CacheInv s ∧ ∀ it ∈ handed, CacheFree s it := by
  induction h with
  | init => exact ⟨cacheInv_empty, by simp⟩
  | batches _ hD hm hb ih =>
    obtain ⟨it, s', h1, h2, h3, h4, _⟩ := batches_spec hD hm ih.1
    rw [h1] at hb
    injection hb with hb
    injection hb with _ hb
    injection hb with hb1 hb2
    subst hb1 hb2
    refine ⟨h2, ?_⟩
    intro j hj
    rcases List.mem_cons.mp hj with rfl | hj
    · exact h4
    · exact h3 j (ih.2 j hj)
  | @generator s handed dims it0 s0 _ hD hb ih =>
    obtain ⟨it, s', h1, h2, h3, h4, _⟩ := generator_spec ih.1 dims
    rw [h1] at hb
    injection hb with hb
    injection hb with hb1 hb2
    subst hb1 hb2
    refine ⟨h2, ?_⟩
    intro j hj
    rcases List.mem_cons.mp hj with rfl | hj
    · exact h4
    · exact h3 j (ih.2 j hj)
  | @next s handed it layer s0 _ hit hb ih =>
    have hf := ih.2 it hit
    obtain ⟨dims, pos⟩ := s.iters[it]'hf.lt |> id
    obtain ⟨s', h1, h2, h3, _⟩ := next_spec ih.1 hf (List.getElem?_eq_getElem hf.lt)
    rw [h1] at hb
    injection hb with hb
    injection hb with _ hb
    subst hb
    exact ⟨h2, fun j hj => h3 j (ih.2 j hj)⟩

theorem matMul_layerRows {K : Type*} [CommRing K] {D : ℕ} (cell : Fin D → Pt D K) (l : List (Fin D → ℤ)) :
    matMul cell (l.map List.ofFn) = l.map (latVec cell) := by
  unfold matMul
  rw [List.map_map]
  apply List.map_congr_left
  intro v _
  simp only [Function.comp]
  congr 1
  funext i
  rw [List.getD_eq_getElem _ _ (by simp)]
  simp

theorem nnLoopS_spec {K : Type*} [CommRing K] [LinearOrder K] {D : ℕ} (near : K → K → K → Bool) (motif : List (Pt D K))
    (cell : Fin D → Pt D K) (x : List (Pt D K)) (k : ℕ) (diamSq : K) {it : ℕ} {handed : List ℕ} (hit : it ∈ handed) :
    ∀ (f d : ℕ) (s : CacheState) (rows : List (List K)), CacheReachable s handed → s.iters[it]? = some (D, d) →
      (nnLoopS near motif cell x k diamSq it f s rows).1 = nnLoop near motif cell x k diamSq f d rows ∧
      CacheReachable (nnLoopS near motif cell x k diamSq it f s rows).2 handed
  | 0, _, _, _, h, _ => ⟨rfl, h⟩
  | f + 1, d, s, rows, h, hpos => by
    rw [nnLoopS, nnLoop]
    cases hm : maxLast rows with
    | error e => exact ⟨rfl, h⟩
    | ok a =>
      obtain ⟨s', h1, _, _, h4, _⟩ := next_spec h.inv.1 (h.inv.2 it hit) hpos
      have hr : CacheReachable s' handed := .next h hit h1
      simp only [h1, bind, Except.bind]
      have e : matMul cell (layerRows D d) = (intLayer D d).map (latVec cell) := matMul_layerRows cell _
      rw [e]
      split_ifs
      · exact ⟨rfl, hr⟩
      · exact ⟨rfl, hr⟩
      · cases hmr : mergeRows rows _ with
        | error e => exact ⟨rfl, hr⟩
        | ok rows' => exact nnLoopS_spec near motif cell x k diamSq hit f (d + 1) s' rows' hr h4

theorem nearestNeighborsSqS_spec {K : Type*} [CommRing K] [LinearOrder K] {D : ℕ} (hD : 0 < D) (near : K → K → K → Bool)
    {motif : List (Pt D K)} (hm : motif ≠ []) (cell : Fin D → Pt D K) (x : List (Pt D K)) (k fuel : ℕ) {s : CacheState}
    {handed : List ℕ} (h : CacheReachable s handed) :
    (nearestNeighborsSqS near motif cell x k fuel s).1 = nearestNeighborsSq near motif cell x k fuel ∧
    ∃ it, CacheReachable (nearestNeighborsSqS near motif cell x k fuel s).2 (it :: handed) := by
  have hml : 0 < motif.length := List.length_pos_iff.mpr hm
  obtain ⟨it, s', h1, _, _, _, h5⟩ := batches_spec (k := k) hD hml h.inv.1
  have hr : CacheReachable s' (it :: handed) := .batches h hD hml h1
  unfold nearestNeighborsSqS nearestNeighborsSq
  rw [h1]
  simp only [matMul_layerRows, bind, Except.bind]
  cases maxE (List.flatMap (fun l : List K => l.take motif.length)
      (cdistSq x (latticeToCloud motif ((layersUpTo D (numLayers D motif.length k)).map (latVec cell))))) with
  | error e => exact ⟨rfl, it, hr⟩
  | ok dsq =>
    obtain ⟨g1, g2⟩ := nnLoopS_spec near motif cell x k dsq (it := it) (by simp) fuel _ s'
      ((cdistSq x (latticeToCloud motif ((layersUpTo D (numLayers D motif.length k)).map (latVec cell)))).map (kSmallest k)) hr h5
    exact ⟨g1, it, g2⟩

variable {D : ℕ}

/-- **C11** Started in any state which earlier calls and partly consumed generators can have left, `nearest_neighbors` returns the result
of the cache-free model, and leaves a state of the same kind. -/
theorem C11_nearest_neighbors (hD : 0 < D) {motif : List (Pt D ℝ)} (hm : motif ≠ []) (cell : Fin D → Pt D ℝ)
    (x : List (Pt D ℝ)) (k fuel : ℕ) {s : CacheState} {handed : List ℕ} (h : CacheReachable s handed) :
    (nearestNeighborsS motif cell x k fuel s).1 = nearestNeighbors motif cell x k fuel ∧
    ∃ it, CacheReachable (nearestNeighborsS motif cell x k fuel s).2 (it :: handed) := by
  obtain ⟨h1, h2⟩ := nearestNeighborsSqS_spec hD nearReal hm cell x k fuel h
  exact ⟨by unfold nearestNeighborsS nearestNeighbors; simp only [h1], h2⟩

/-- **C11** The result of `AMD` is the same after any two histories. -/
theorem C11_amd (hD : 0 < D) {S : PeriodicSet D} (hm : S.motif ≠ []) (k fuel : ℕ) {s s' : CacheState}
    {handed handed' : List ℕ} (h : CacheReachable s handed) (h' : CacheReachable s' handed') :
    (amdS S k fuel s).1 = (amdS S k fuel s').1 ∧ (amdS S k fuel s).1 = AMD S k fuel := by
  have key : ∀ {s : CacheState} {handed : List ℕ}, CacheReachable s handed → (amdS S k fuel s).1 = AMD S k fuel := by
    intro s handed h
    unfold amdS AMD
    cases asymPoints S with
    | error e => rfl
    | ok xm =>
      obtain ⟨x, mult⟩ := xm
      simp only [bind, (C11_nearest_neighbors hD hm S.cell x (k + 1) fuel h).1]
      rfl
  exact ⟨(key h).trans (key h').symm, key h⟩

/-- **C11** The result of `PDD` is the same after any two histories. -/
theorem C11_pdd (hD : 0 < D) {S : PeriodicSet D} (hm : S.motif ≠ []) (k : ℕ) (lexsort collapse : Bool) (tol : ℝ)
    (fuel : ℕ) {s s' : CacheState} {handed handed' : List ℕ} (h : CacheReachable s handed)
    (h' : CacheReachable s' handed') :
    (pddS S k lexsort collapse tol fuel s).1 = (pddS S k lexsort collapse tol fuel s').1 ∧
    (pddS S k lexsort collapse tol fuel s).1 = PDD S k lexsort collapse tol fuel := by
  have key : ∀ {s : CacheState} {handed : List ℕ}, CacheReachable s handed →
      (pddS S k lexsort collapse tol fuel s).1 = PDD S k lexsort collapse tol fuel := by
    intro s handed h
    unfold pddS PDD
    cases asymPoints S with
    | error e => rfl
    | ok xm =>
      obtain ⟨x, mult⟩ := xm
      simp only [bind, (C11_nearest_neighbors hD hm S.cell x (k + 1) fuel h).1]
      rfl
  exact ⟨(key h).trans (key h').symm, key h⟩

theorem generator_iters {s s' : CacheState} {dims it : ℕ} (h : s.generator dims = some (it, s')) :
    ∃ extra, s'.iters = s.iters ++ extra := by
  unfold CacheState.generator at h
  cases hg : s.gen dims with
  | some i =>
    rw [hg] at h
    simp only [CacheState.tee] at h
    cases hi : s.iters[i]? with
    | none => rw [hi] at h; cases h
    | some e => rw [hi] at h; cases h; exact ⟨_, rfl⟩
  | none =>
    rw [hg] at h
    simp only [CacheState.tee] at h
    rw [List.getElem?_append_right (le_refl _), Nat.sub_self] at h
    cases h
    exact ⟨_, List.append_assoc _ _ _⟩

/-- The layer which iterator `it` yields next. -/
def CacheState.peek (s : CacheState) (it : ℕ) : Option (List (List ℤ)) := (s.next it).map (·.1)

theorem peek_of_iters {s s' : CacheState} {it : ℕ} (h : s'.iters[it]? = s.iters[it]?) : s'.peek it = s.peek it := by
  unfold CacheState.peek CacheState.next
  rw [h]
  cases s.iters[it]? <;> rfl

/-- **C11** A generator handed out (to `nearest_neighbors_minval` or `generate_concentric_cloud`) starts at the first layer after any
history, and creating it or advancing it has no effect on what another one yields next. -/
theorem C11_generators (dims : ℕ) {s : CacheState} {handed : List ℕ} (h : CacheReachable s handed) :
    ∃ it s', s.generator dims = some (it, s') ∧ it ∉ handed ∧ s'.peek it = some (layerRows dims 0) ∧
      (∀ j ∈ handed, s'.peek j = s.peek j) ∧
      ∀ j ∈ handed, ∀ layer s'', s'.next it = some (layer, s'') → s''.peek j = s.peek j := by
  obtain ⟨it, s', h1, h2, h3, h4, h5, _, _, h8⟩ := generator_spec h.inv.1 dims
  obtain ⟨extra, he⟩ := generator_iters h1
  have hlt : ∀ j ∈ handed, j < s.iters.length := fun j hj => (h.inv.2 j hj).lt
  have hpk : ∀ j ∈ handed, s'.iters[j]? = s.iters[j]? := by
    intro j hj
    rw [he, List.getElem?_append_left (hlt j hj)]
  refine ⟨it, s', h1, fun hm => by have := hlt it hm; omega, ?_, fun j hj => peek_of_iters (hpk j hj), ?_⟩
  · unfold CacheState.peek CacheState.next
    rw [h5]
    rfl
  · intro j hj layer s'' hn
    apply peek_of_iters
    rw [← hpk j hj]
    unfold CacheState.next at hn
    rw [h5] at hn
    cases hn
    have : it ≠ j := by have := hlt j hj; omega
    simp [this]

/-- Two reachable states with different caches: nothing done yet, and after two searches with different `m` and `k` and a partly
consumed generator. -/
example : ∃ s handed, CacheReachable s handed ∧ CacheReachable {} [] ∧
    s.npoints 1 ≠ ({} : CacheState).npoints 1 ∧ 2 < s.iters.length := by
  have h0 := CacheReachable.init
  have h1 := CacheReachable.batches (dims := 1) (m := 1) (k := 3) h0 (by decide) (by decide) rfl
  have h2 := CacheReachable.batches (dims := 1) (m := 2) (k := 1) h1 (by decide) (by decide) rfl
  have h3 := CacheReachable.generator (dims := 1) h2 (by decide) rfl
  have h4 := CacheReachable.next h3 (List.mem_cons_self) rfl
  exact ⟨_, _, h4, h0, by decide, by decide⟩

end Amd
