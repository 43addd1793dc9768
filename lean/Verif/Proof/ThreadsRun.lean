import Verif.Proof.Threads

/-! Iterator objects: calls made one after the other. -/

namespace Amd

theorem batchesLoop_run {dims m k t : ℕ} : ∀ (f d nPoints T : ℕ) (h : Heap), Good h → FreeTee h t → TeeAt h t dims d → batchLoop dims m k f d nPoints = some T →
    ∃ h', (batchesLoopP m k t f nPoints ((List.range d).map (layerRows dims))).run h = (some ((List.range T).map (layerRows dims)), h') ∧ Good h' ∧ Later h h' ∧ FreeTee h' t ∧
      TeeAt h' t dims T ∧ SameCaches h h'
  | 0, _, _, _, _, _, _, _, e => by rw [batchLoop] at e; cases e
  | f + 1, d, nPoints, T, h, hg, hf, ha, e => by
    rw [batchLoop] at e
    rw [batchesLoopP]
    obtain ⟨h', h1, h2, h3, h4, h5, h6⟩ := next_good hg hf ha
    have hr : (List.range d).map (layerRows dims) ++ [layerRows dims d] = (List.range (d + 1)).map (layerRows dims) := by
      rw [List.range_succ, List.map_append]; rfl
    split_ifs at e ⊢ with hc
    · rw [run_next h1, hr, length_layerRows]
      obtain ⟨h'', g1, g2, g3, g4, g5, g6⟩ := batchesLoop_run f (d + 1) _ T h' h2 h4 h5 e
      exact ⟨h'', g1, g2, h3.trans g3, g4, g5, ⟨g6.gen.trans h6.gen, g6.batch.trans h6.batch, g6.npoints.trans h6.npoints⟩⟩
    · rw [run_next h1]
      injection e with e
      subst e
      rw [hr]
      exact ⟨h', rfl, h2, h3, h4, h5, h6⟩

theorem batchesFn_run {dims m k : ℕ} (hD : 0 < dims) (hm : 0 < m) {h : Heap} (hg : Good h) :
    ∃ t h', (batchesFnP dims m k).run h = (some ((List.range (numLayers dims m k)).map (layerRows dims), t), h') ∧ Good h' ∧ Later h h' ∧ FreeTee h' t ∧
      TeeAt h' t dims (numLayers dims m k) ∧ h'.batch = h.batch ∧ h'.npoints = h.npoints ∧ h.tees.length ≤ t := by
  unfold batchesFnP
  obtain ⟨t, h1, a1, a2, a3, a4, a5, a6, a7, a8⟩ := generator_run hg dims
  rw [run_next a1]
  obtain ⟨h2, b1, b2, b3, b4, b5, b6⟩ := next_good a2 a4 a5
  rw [run_next b1]
  obtain ⟨h3, c1, c2, c3, c4, c5, c6⟩ := batchesLoop_run (k + 1) 1 1 _ h2 b2 b4 b5 (batchLoop_numLayers (m := m) (k := k) hD hm)
  rw [show [layerRows dims 0] = (List.range 1).map (layerRows dims) from rfl, run_next c1]
  exact ⟨t, h3, rfl, c2, (a3.trans b3).trans c3, c4, c5, by rw [c6.batch, b6.batch, a6], by rw [c6.npoints, b6.npoints, a7], a8⟩

/-- `npoints_cache` may be changed to a longer list of the right numbers. -/
theorem setNpoints_good {h : Heap} (hg : Good h) {dims : ℕ} {l : List ℕ} (hl : l = (List.range l.length).map fun t => (layersUpTo dims (t + 1)).length)
    (hle : ((h.npoints dims).getD []).length ≤ l.length) : Good (h.setNpoints dims l) ∧ Later h (h.setNpoints dims l) := by
  refine ⟨⟨⟨hg.objects.bufs, hg.objects.source, hg.objects.tees⟩, hg.quiet, hg.gen, ?_, ?_, hg.known, hg.one⟩, ⟨fun t d p hf ha => ⟨⟨hf.gen, hf.batch⟩, p, ha⟩, fun _ hk => hk, fun _ _ hr => hr⟩⟩
  · intro d n rows r hr
    obtain ⟨t, e, ha, e1, e2⟩ := hg.batch d n rows r hr
    refine ⟨t, e, ha, e1, ?_⟩
    show n ≤ ((Function.update h.npoints dims (some l) d).getD []).length
    rw [Function.update_apply]
    split_ifs with hd
    · subst hd
      exact e2.trans hle
    · exact e2
  · intro d l' hl'
    have hl'' : Function.update h.npoints dims (some l) d = some l' := hl'
    rw [Function.update_apply] at hl''
    split_ifs at hl'' with hd
    · subst hd
      obtain rfl := Option.some.inj hl''
      exact hl
    · exact hg.npoints d l' hl''

theorem setBatch_good {h : Heap} (hg : Good h) {dims n t : ℕ} {rows : List (List ℤ)} (ha : TeeAt h t dims n) (hr : rows = (layersUpTo dims n).map List.ofFn)
    (hn : n ≤ ((h.npoints dims).getD []).length) : Good (h.setBatch (dims, n) rows (.tee t)) ∧ ∀ key, h.batch key ≠ none → (h.setBatch (dims, n) rows (.tee t)).batch key ≠ none := by
  refine ⟨⟨⟨hg.objects.bufs, hg.objects.source, hg.objects.tees⟩, hg.quiet, hg.gen, ?_, hg.npoints, hg.known, hg.one⟩, ?_⟩
  · intro d n' rows' r e
    have e' : Function.update h.batch (dims, n) (some (rows, IterRef.tee t)) (d, n') = some (rows', r) := e
    rw [Function.update_apply] at e'
    split_ifs at e' with hd
    · obtain ⟨rfl, rfl⟩ := Prod.mk.inj hd
      obtain ⟨rfl, rfl⟩ := Prod.mk.inj (Option.some.inj e')
      exact ⟨t, rfl, ha, hr, hn⟩
    · exact hg.batch d n' rows' r e'
  · intro key hk
    show Function.update h.batch (dims, n) (some (rows, IterRef.tee t)) key ≠ none
    rw [Function.update_apply]
    split_ifs
    · simp
    · exact hk

theorem fetch_run {dims n : ℕ} {h : Heap} (hg : Good h) {rows : List (List ℤ)} {r : IterRef} (e : h.batch (dims, n) = some (rows, r)) :
    ∃ t h', (fetchP dims n).run h = (some ((layersUpTo dims n).map List.ofFn, t), h') ∧ Good h' ∧ Later h h' ∧ FreeTee h' t ∧ TeeAt h' t dims n ∧ h'.batch (dims, n) ≠ none := by
  obtain ⟨t, rfl, ha, rfl, -⟩ := hg.batch dims n rows r e
  obtain ⟨h1, h2, h3, h4, h5⟩ := tee_good hg ha
  refine ⟨h.tees.length, h.teed (.tee t), ?_, h1, h2, h3, h4, by rw [h5.batch, e]; simp⟩
  simp only [fetchP, readP, writeP, teeP, Prog.bind, Prog.run, e, id, Heap.teeResult]
  rw [setIter_same (rows := (layersUpTo dims n).map List.ofFn) (h5.batch ▸ e)]

theorem fill_run {dims m k : ℕ} (hD : 0 < dims) (hm : 0 < m) {h : Heap} (hg : Good h) :
    ∃ h', (fillP dims m k).run h = (some (numLayers dims m k), h') ∧ Good h' ∧ Later h h' ∧ h'.batch (dims, numLayers dims m k) ≠ none := by
  unfold fillP
  obtain ⟨t, h1, a1, a2, a3, a4, a5, a6, a7, a8⟩ := batchesFn_run (m := m) (k := k) hD hm hg
  rw [run_next a1]
  generalize hT : numLayers dims m k = T at *
  have el : ((List.range T).map (layerRows dims)).length = T := by simp
  simp only [el]
  -- `npoints_cache`
  obtain ⟨h2, b1, b2, b3, b4, b5⟩ : ∃ h2, ((readP fun h => h.npoints dims).bind fun np =>
      if (np.getD []).length < T then writeP fun h => h.setNpoints dims (accumulate (((List.range T).map (layerRows dims)).map (·.length))) else .ret ()).run h1 = (some (), h2) ∧
      Good h2 ∧ Later h1 h2 ∧ TeeAt h2 t dims T ∧ T ≤ ((h2.npoints dims).getD []).length ∧ h2.gens = h1.gens ∧ h2.gen = h1.gen ∧ h2.batch = h1.batch ∧ FreeTee h2 t := by
    simp only [readP, Prog.bind, Prog.run, id]
    by_cases hlt : ((h1.npoints dims).getD []).length < T
    · rw [if_pos hlt]
      obtain ⟨c1, c2⟩ := setNpoints_good a2 (dims := dims) (l := accumulate (((List.range T).map (layerRows dims)).map (·.length))) (by rw [accumulate_layers]; simp)
        (by rw [accumulate_layers]; simpa using hlt.le)
      refine ⟨_, rfl, c1, c2, a5, ?_, rfl, rfl, rfl, ⟨a4.gen, a4.batch⟩⟩
      simp only [Heap.setNpoints, Function.update_self, Option.getD_some]
      rw [accumulate_layers]
      simp
    · rw [if_neg hlt]
      exact ⟨h1, rfl, a2, .refl _, a5, by omega, rfl, rfl, rfl, a4⟩
  obtain ⟨b5, b6, b7, b8, b9⟩ := b5
  obtain ⟨c1, c2⟩ := setBatch_good b2 b4 (flatten_layers dims T) b5
  refine ⟨h2.setBatch (dims, T) ((List.range T).map (layerRows dims)).flatten (.tee t), ?_, c1, ⟨?_, ?_, ?_⟩, ?_⟩
  · simp only [readP, writeP, Prog.bind, Prog.run, id] at b1 ⊢
    rw [Prog.run_bind, b1]
    rfl
  · intro t' d p hf ha
    obtain ⟨hf2, p', ha2⟩ := (a3.trans b3).free t' d p hf ha
    refine ⟨⟨hf2.gen, ?_⟩, p', ha2⟩
    intro key rows
    show Function.update h2.batch (dims, T) (some (_, IterRef.tee t)) key ≠ _
    rw [Function.update_apply]
    split_ifs
    · intro e
      injection e with e
      injection e with _ e
      injection e with e
      have := ha.lt
      omega
    · exact hf2.batch key rows
  · exact fun key hk => c2 key ((a3.trans b3).batch key hk)
  · exact fun d n hr => (a3.trans b3).reaches d n hr
  · simp [Heap.setBatch]

theorem batches_run {dims m k : ℕ} (hD : 0 < dims) (hm : 0 < m) {h : Heap} (hg : Good h) :
    ∃ t h', (batchesP dims m k).run h = (some ((layersUpTo dims (numLayers dims m k)).map List.ofFn, t), h') ∧ Good h' ∧ Later h h' ∧ FreeTee h' t ∧
      TeeAt h' t dims (numLayers dims m k) ∧ h'.batch (dims, numLayers dims m k) ≠ none := by
  unfold batchesP
  obtain ⟨h1, a1, a2, a3, l, a4⟩ : ∃ h1, ((readP fun h => h.npoints dims).bind fun np =>
      match np with | none => writeP fun h => h.setNpoints dims [] | some _ => .ret ()).run h = (some (), h1) ∧ Good h1 ∧ Later h h1 ∧ ∃ l, h1.npoints dims = some l := by
    simp only [readP, Prog.bind, Prog.run, id]
    cases hn : h.npoints dims with
    | none =>
      obtain ⟨c1, c2⟩ := setNpoints_good hg (dims := dims) (l := []) (by simp) (by rw [hn]; simp)
      exact ⟨_, rfl, c1, c2, [], by simp [Heap.setNpoints]⟩
    | some l => exact ⟨h, rfl, hg, .refl h, l, hn⟩
  have hguess := guessLayers_spec (k := k) hD hm (a2.npoints dims l a4)
  simp only [readP, Prog.bind, Prog.run, id] at a1 ⊢
  erw [run_next a1]
  simp only [Prog.run, id, a4, Option.getD_some]
  cases hb : h1.batch (dims, guessLayers l m k) with
  | some v =>
    obtain ⟨rows, r⟩ := v
    obtain ⟨t₀, -, -, -, e2⟩ := a2.batch _ _ _ _ hb
    rw [a4] at e2
    have e : guessLayers l m k = numLayers dims m k := by
      simp only [Option.getD_some] at e2
      omega
    rw [e] at hb
    simp only [e]
    obtain ⟨t, h2, b1, b2, b3, b4, b5, b6⟩ := fetch_run a2 hb
    exact ⟨t, h2, b1, b2, a3.trans b3, b4, b5, b6⟩
  | none =>
    simp only
    obtain ⟨h2, b1, b2, b3, b4⟩ := fill_run (m := m) (k := k) hD hm a2
    obtain ⟨⟨rows, r⟩, hv⟩ := Option.ne_none_iff_exists'.1 b4
    obtain ⟨t, h3, c1, c2, c3, c4, c5, c6⟩ := fetch_run b2 hv
    rw [run_next b1]
    exact ⟨t, h3, c1, c2, (a3.trans b3).trans c3, c4, c5, c6⟩

variable {D : ℕ}

/-- How many layers have been taken when the loop of `nearest_neighbors` ends. -/
noncomputable def nnStop (motif : List (Pt D ℝ)) (cell : Fin D → Pt D ℝ) (x : List (Pt D ℝ)) (k : ℕ) (diamSq : ℝ) : ℕ → ℕ → List (List ℝ) → ℕ
  | 0, d, _ => d
  | f + 1, d, rows =>
    match maxLast rows with
    | .error _ => d
    | .ok maxSqd =>
      if (((intLayer D d).map (latVec cell)).filter fun l => nearReal (sqNorm l) maxSqd diamSq).isEmpty then d + 1
      else if ((latticeToCloud motif (((intLayer D d).map (latVec cell)).filter fun l => nearReal (sqNorm l) maxSqd diamSq)).filter fun c => x.any fun p => decide (sqDist p c < maxSqd)).isEmpty then
        d + 1
      else
        match mergeRows rows ((cdistSq x ((latticeToCloud motif (((intLayer D d).map (latVec cell)).filter fun l => nearReal (sqNorm l) maxSqd diamSq)).filter fun c =>
            x.any fun p => decide (sqDist p c < maxSqd))).map (kSmallest k)) with
        | .error _ => d + 1
        | .ok rows' => nnStop motif cell x k diamSq f (d + 1) rows'

theorem nnLoop_run (motif : List (Pt D ℝ)) (cell : Fin D → Pt D ℝ) (x : List (Pt D ℝ)) (k : ℕ) (diamSq : ℝ) {t : ℕ} :
    ∀ (f d : ℕ) (h : Heap) (rows : List (List ℝ)), Good h → FreeTee h t → TeeAt h t D d →
      ∃ h', (nnLoopP motif cell x k diamSq t f rows).run h = (some (nnLoop nearReal motif cell x k diamSq f d rows), h') ∧ Good h' ∧ Later h h' ∧
        Reaches h' D (nnStop motif cell x k diamSq f d rows)
  | 0, _, h, _, hg, _, ha => ⟨h, rfl, hg, .refl h, ha.reach hg⟩
  | f + 1, d, h, rows, hg, hf, ha => by
    rw [nnLoopP, nnLoop, nnStop]
    cases hm : maxLast rows with
    | error e => exact ⟨h, rfl, hg, .refl h, ha.reach hg⟩
    | ok a =>
      obtain ⟨h', h1, h2, h3, h4, h5, h6⟩ := next_good hg hf ha
      have e : matMul cell (layerRows D d) = (intLayer D d).map (latVec cell) := matMul_layerRows cell _
      simp only [bind, Except.bind]
      rw [run_next h1, e]
      split_ifs
      · exact ⟨h', rfl, h2, h3, h5.reach h2⟩
      · exact ⟨h', rfl, h2, h3, h5.reach h2⟩
      · cases hmr : mergeRows rows _ with
        | error e => exact ⟨h', rfl, h2, h3, h5.reach h2⟩
        | ok rows' =>
          obtain ⟨h'', g1, g2, g3, g4⟩ := nnLoop_run motif cell x k diamSq f (d + 1) h' rows' h2 h4 h5
          exact ⟨h'', g1, g2, h3.trans g3, g4⟩

/-- How many layers `nearest_neighbors` takes. -/
noncomputable def nnNeeds (motif : List (Pt D ℝ)) (cell : Fin D → Pt D ℝ) (x : List (Pt D ℝ)) (k fuel : ℕ) : ℕ :=
  match maxE ((cdistSq x (latticeToCloud motif ((layersUpTo D (numLayers D motif.length k)).map (latVec cell)))).flatMap (·.take motif.length)) with
  | .error _ => 0
  | .ok diamSq => nnStop motif cell x k diamSq fuel (numLayers D motif.length k)
      ((cdistSq x (latticeToCloud motif ((layersUpTo D (numLayers D motif.length k)).map (latVec cell)))).map (kSmallest k))

theorem nearestNeighbors_run (hD : 0 < D) {motif : List (Pt D ℝ)} (hm : motif ≠ []) (cell : Fin D → Pt D ℝ) (x : List (Pt D ℝ)) (k fuel : ℕ) {h : Heap} (hg : Good h) :
    ∃ h', (nearestNeighborsP motif cell x k fuel).run h = (some (nearestNeighbors motif cell x k fuel), h') ∧ Good h' ∧ Later h h' ∧
      h'.batch (D, numLayers D motif.length k) ≠ none ∧ Reaches h' D (nnNeeds motif cell x k fuel) := by
  obtain ⟨t, h1, a1, a2, a3, a4, a5, a6⟩ := batches_run (k := k) hD (List.length_pos_iff.mpr hm) hg
  unfold nearestNeighborsP nearestNeighbors nearestNeighborsSq nnNeeds
  rw [run_next a1]
  simp only [matMul_layerRows, bind, Except.bind]
  cases maxE (List.flatMap (fun l : List ℝ => l.take motif.length)
      (cdistSq x (latticeToCloud motif ((layersUpTo D (numLayers D motif.length k)).map (latVec cell))))) with
  | error e => exact ⟨h1, rfl, a2, a3, a6, (a5.reach a2).1, fun _ _ _ _ => Nat.zero_le _⟩
  | ok dsq =>
    obtain ⟨h2, b1, b2, b3, b4⟩ := nnLoop_run motif cell x k dsq (t := t) fuel _ h1
      ((cdistSq x (latticeToCloud motif ((layersUpTo D (numLayers D motif.length k)).map (latVec cell)))).map (kSmallest k)) a2 a4 a5
    simp only
    rw [run_next b1]
    exact ⟨h2, rfl, b2, a3.trans b3, b3.batch _ a6, b4⟩

/-- What calls with these points and this `k` leave behind. -/
def Ready (h : Heap) (S : PeriodicSet D) (k fuel : ℕ) : Prop :=
  match asymPoints S with
  | .error _ => True
  | .ok (x, _) => h.batch (D, numLayers D S.motif.length (k + 1)) ≠ none ∧ Reaches h D (nnNeeds S.motif S.cell x (k + 1) fuel)

theorem Ready.later {h h' : Heap} {S : PeriodicSet D} {k fuel : ℕ} (hr : Ready h S k fuel) (hl : Later h h') : Ready h' S k fuel := by
  unfold Ready at hr ⊢
  cases ha : asymPoints S with
  | error e => trivial
  | ok xm =>
    rw [ha] at hr
    exact ⟨hl.batch _ hr.1, hl.reaches _ _ hr.2⟩

theorem amd_run (hD : 0 < D) {S : PeriodicSet D} (hm : S.motif ≠ []) (k fuel : ℕ) {h : Heap} (hg : Good h) :
    ∃ h', (amdP S k fuel).run h = (some (AMD S k fuel), h') ∧ Good h' ∧ Later h h' ∧ Ready h' S k fuel := by
  unfold amdP AMD Ready
  cases asymPoints S with
  | error e => exact ⟨h, rfl, hg, .refl h, trivial⟩
  | ok xm =>
    obtain ⟨x, mult⟩ := xm
    obtain ⟨h', h1, h2, h3, h4, h5⟩ := nearestNeighbors_run hD hm S.cell x (k + 1) fuel hg
    simp only
    rw [run_next h1]
    exact ⟨h', rfl, h2, h3, h4, h5⟩

theorem pdd_run (hD : 0 < D) {S : PeriodicSet D} (hm : S.motif ≠ []) (k : ℕ) (lexsort collapse : Bool) (tol : ℝ) (fuel : ℕ) {h : Heap} (hg : Good h) :
    ∃ h', (pddP S k lexsort collapse tol fuel).run h = (some (PDD S k lexsort collapse tol fuel), h') ∧ Good h' ∧ Later h h' ∧ Ready h' S k fuel := by
  unfold pddP PDD Ready
  cases asymPoints S with
  | error e => exact ⟨h, rfl, hg, .refl h, trivial⟩
  | ok xm =>
    obtain ⟨x, mult⟩ := xm
    obtain ⟨h', h1, h2, h3, h4, h5⟩ := nearestNeighbors_run hD hm S.cell x (k + 1) fuel hg
    simp only
    rw [run_next h1]
    exact ⟨h', rfl, h2, h3, h4, h5⟩

end Amd
