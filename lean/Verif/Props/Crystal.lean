import Verif.Proof.Crystal
import Verif.Props.GemmiBlock
import Verif.Props.Invariance

/-!
# From the file to the invariant: C65

The set that the reader makes of a CIF block is the infinite crystal that the block describes, and its AMD is that of the crystal.
-/

namespace Amd

open Classical

variable {D : ℕ} {tol : ℝ} {env : GemmiEnv} {b : GemmiBlock} {tags : List String} {rows : List (List String)} {rh : Bool} {d : String}

/-- The operations as pairs of a matrix and a vector. -/
def opSet (ops : List (AffineOp D)) : Set (FracOp D) := {g | ∃ o ∈ ops, g = (o.rot, o.trans)}

/-- The sites of the table: the points of the rows that are used (C46, C47). -/
def cifSites (env : GemmiEnv) (tags : List String) (rows : List (List String)) (rh : Bool) (d : String) : Set (Pt 3 ℝ) :=
  {p | ∃ r ∈ rows, UsedRow env tags rh d r ∧ RowPoint tags r p}

/-! ### Helpers -/

theorem exact_image {G : Set (FracOp D)} {P : Set (Pt D ℝ)} (hx : ExactSites tol G P) {p q a c : Pt D ℝ} (hp : p ∈ P) (hq : q ∈ P) {g h : FracOp D}
    (hg : g ∈ G) (hh : h ∈ G) (ha : IsImage g.1 g.2 p a) (hc : IsImage h.1 h.2 q c) (hs : SameSite tol a c) : a = c := by
  obtain ⟨ha1, n, hn⟩ := isImage_intEq.1 ha
  obtain ⟨hc1, m, hm⟩ := isImage_intEq.1 hc
  have hn : ∀ i, opPoint g p i = a i + n i := hn
  have hm : ∀ i, opPoint h q i = c i + m i := hm
  have key := hx p hp q hq g hg h hh fun i => by
    obtain ⟨k, hk⟩ := hs i
    refine ⟨k + n i - m i, ?_⟩
    rw [hn i, hm i]
    push_cast
    have e : a i + n i - (c i + m i) - ((k : ℝ) + n i - m i) = a i - c i - k := by ring
    rw [e]
    exact hk
  choose k hk using key
  refine IntEq.eq_of_cell ⟨fun i => k i - n i + m i, fun i => ?_⟩ ha1 hc1
  have h1 := hk i
  rw [hn i, hm i] at h1
  push_cast
  linarith

theorem expandsTo (h0 : 0 ≤ tol) (h1 : tol < 1) (asym : List (Pt D ℝ)) (ops : List (AffineOp D)) (u : Bool) (hx : ExactSites tol (opSet ops) {p | p ∈ asym}) :
    ExpandsTo (opSet ops) asym (expandAsymUnit asym ops tol u).1 (expandAsymUnit asym ops tol u).2.1 := by
  obtain ⟨hl, hi⟩ := C44_images asym ops tol u
  have himg : ∀ a c, IsImageOf asym ops a → IsImageOf asym ops c → SameSite tol a c → a = c := by
    rintro a c ⟨p, hp, o, ho, ha⟩ ⟨q, hq, o', ho', hc⟩ hs
    exact exact_image hx hp hq ⟨o, ho, rfl⟩ ⟨o', ho', rfl⟩ ha hc hs
  refine ⟨hl, fun t h h' => ?_, ?_⟩
  · obtain ⟨hi', o, ho, hx⟩ := hi t h h'
    exact ⟨hi', _, ⟨o, ho, rfl⟩, hx⟩
  · rintro p hp g ⟨o, ho, rfl⟩ q hq
    have hqi : IsImageOf asym ops q := ⟨p, hp, o, ho, hq⟩
    obtain ⟨q', hq', hs⟩ := C44_cover_partial h0 h1 asym ops u (fun a b c ha hb hc hab hbc => by rw [himg a b ha hb hab]; exact hbc) hqi
    rw [himg q q' hqi (motif_image hq') hs]
    exact hq'

theorem expand_nodup (h0 : 0 ≤ tol) (h1 : tol < 1) (asym : List (Pt D ℝ)) (ops : List (AffineOp D)) : (expandAsymUnit asym ops tol true).1.Nodup :=
  (C44_distinct h1 asym ops).imp fun h e => h (by subst e; intro j; exact ⟨0, by simpa using h0⟩)

/-- Among exact sites, the removal of overlapping ones removes only repetitions. -/
theorem kept_exact {G : Set (FracOp D)} {cell : Fin D → Pt D ℝ} (hG : IsSpaceGroup cell G) (h1 : tol < 1) {asym : List (Pt D ℝ)}
    (hc : ∀ p ∈ asym, ∀ i, 0 ≤ p i ∧ p i < 1) (hx : ExactSites tol G {p | p ∈ asym}) : {p | p ∈ kept tol asym} = {p | p ∈ asym} := by
  ext p
  constructor
  · exact fun h => (kept_sublist _).subset h
  · intro hp
    obtain ⟨m, hm, hr⟩ := kept_chain' (tol := tol) hp
    obtain ⟨g, hg, n, hn⟩ := hG.one
    have key : ∀ a c, Linked tol asym a c → a = c := by
      rintro a c ⟨ha, hc', hac⟩
      have hia : ∀ q ∈ asym, IsImage g.1 g.2 q q := fun q hq => isImage_intEq.2 ⟨hc q hq, n, hn q⟩
      exact exact_image hx ha hc' hg hg (hia a ha) (hia c hc') ((siteClose_iff_sameSite h1 (hc a ha) (hc c hc')).1 hac)
    have : p = m := by
      clear hm
      induction hr with
      | refl => rfl
      | tail _ h2 ih => rw [ih, key _ _ h2]
    exact this ▸ hm

theorem rowPoint_unique {r : List String} {p q : Pt 3 ℝ} (hp : RowPoint tags r p) (hq : RowPoint tags r q) : p = q := by
  refine IntEq.eq_of_cell ?_ (fun i => ⟨(hp i).1, (hp i).2.1⟩) (fun i => ⟨(hq i).1, (hq i).2.1⟩)
  choose s x n h1 h2 h3 using fun i => (hp i).2.2
  choose s' x' n' h1' h2' h3' using fun i => (hq i).2.2
  refine ⟨fun i => n' i - n i, fun i => ?_⟩
  have e1 : s i = s' i := Option.some.inj ((h1 i).symm.trans (h1' i))
  have e2 : x i = x' i := by
    have := (h2 i).symm.trans ((congrArg str2float e1).trans (h2' i))
    simpa using this
  have e3 := h3 i
  rw [e2, h3' i] at e3
  push_cast
  linarith

/-- The points of the used rows. -/
noncomputable def usedPoints (env : GemmiEnv) (tags : List String) (rows : List (List String)) (rh : Bool) (d : String) : List (Pt 3 ℝ) :=
  (rows.filter fun r => decide (UsedRow env tags rh d r)).map fun r => toPt (rowCoord tags r)

theorem usedPoints_spec (ht : AtomTable tags rows) {r : List String} (h : UsedRow env tags rh d r) : RowPoint tags r (toPt (rowCoord tags r)) :=
  rowPoint_spec ht.x ht.y ht.z h.1

theorem cifSites_eq (ht : AtomTable tags rows) : cifSites env tags rows rh d = {p | p ∈ usedPoints env tags rows rh d} := by
  ext p
  simp only [cifSites, usedPoints, Set.mem_ofPred_eq, List.mem_map, List.mem_filter, decide_eq_true_iff]
  constructor
  · rintro ⟨r, hr, hu, hp⟩
    exact ⟨r, ⟨hr, hu⟩, rowPoint_unique (usedPoints_spec ht hu) hp⟩
  · rintro ⟨r, ⟨hr, hu⟩, rfl⟩
    exact ⟨r, hr, hu, usedPoints_spec ht hu⟩

theorem usedPoints_cell (ht : AtomTable tags rows) : ∀ p ∈ usedPoints env tags rows rh d, ∀ i, 0 ≤ p i ∧ p i < 1 := by
  intro p hp i
  obtain ⟨r, hr, rfl⟩ := List.mem_map.1 hp
  have := usedPoints_spec ht (by simpa using (List.mem_filter.1 hr).2) i
  exact ⟨this.1, this.2.1⟩

theorem convert_shape (ht : AtomTable tags rows) (hr : Readable tags rows) {ws ws' : List Warning} {s : ReadSet} {ops : List (AffineOp 3)}
    (h : gemmiConvert env (b.withRows tags rows) rh d = (ws, .ok s)) (hsym : blockSymmetry env b = (ws', .ok ops)) :
    usedPoints env tags rows rh d ≠ [] ∧ ∃ cell types, s = assemble b.name cell
      (expandAsymUnit (if d = "all_sites" then usedPoints env tags rows rh d else kept eqSiteTol (usedPoints env tags rows rh d)) ops eqSiteTol
        (decide (d ≠ "all_sites"))).1
      (expandAsymUnit (if d = "all_sites" then usedPoints env tags rows rh d else kept eqSiteTol (usedPoints env tags rows rh d)) ops eqSiteTol
        (decide (d ≠ "all_sites"))).2.1 types := by
  have hd : d = "skip" → ∀ r ∈ rows, ¬ DisorderedRow env.asString tags r := by
    rintro rfl r hr' hx
    rcases C46_skip_rejects (b := b) (rh := rh) ht hr ⟨r, hr', hx⟩ with ⟨e, -, h'⟩ | h' <;> rw [h'] at h <;> cases h
  rw [convert_used ht hr hd, convertUsed] at h
  cases hc : blockCell b with
  | error e => rw [hc] at h; cases h
  | ok cell =>
    rw [hc] at h
    simp only at h
    split at h
    · cases h
    · rename_i hne
      refine ⟨by simpa [usedPoints] using hne, cell, ?_⟩
      rw [finishBlock] at h
      simp only [hsym] at h
      have hs := (Except.ok.inj (congrArg Prod.snd h)).symm
      have hk : ∀ l t, (removeOverlaps d l t).2.1 = if d = "all_sites" then l else kept eqSiteTol l := by
        intro l t
        by_cases hall : d = "all_sites"
        · simp [removeOverlaps, hall]
        · simp [removeOverlaps, hall, select_uniqueSites]
      rw [hk] at hs
      exact ⟨_, hs⟩

theorem toCartesian_eq (cell : Fin D → Pt D ℝ) : toCartesian cell = cartesian cell := rfl

/-- What the reader returns, in terms of `ExpandsTo`. -/
theorem convert_expandsTo (ht : AtomTable tags rows) (hr : Readable tags rows) {ws ws' : List Warning} {s : ReadSet} {ops : List (AffineOp 3)}
    (h : gemmiConvert env (b.withRows tags rows) rh d = (ws, .ok s)) (hsym : blockSymmetry env b = (ws', .ok ops))
    (hG : IsSpaceGroup s.set.cell (opSet ops)) (hx : ExactSites (1 / 1000) (opSet ops) (cifSites env tags rows rh d)) :
    ∃ asym F orbit mult, asym ≠ [] ∧ {p | p ∈ asym} = cifSites env tags rows rh d ∧ ExpandsTo (opSet ops) asym F orbit ∧
      s.set.motif = F.map (cartesian s.set.cell) ∧ s.set.asymUnit = some (asymInds mult) ∧ s.set.multiplicities = some mult ∧
      Orbits orbit (asymInds mult) mult ∧ (d ≠ "all_sites" → F.Nodup) := by
  obtain ⟨hne, cell, types, rfl⟩ := convert_shape ht hr h hsym
  rw [cifSites_eq ht] at hx ⊢
  have h0 : (0 : ℝ) ≤ eqSiteTol := by rw [eqSiteTol]; norm_num
  have h1 : eqSiteTol < 1 := by rw [eqSiteTol]; norm_num
  have hA : {p | p ∈ (if d = "all_sites" then usedPoints env tags rows rh d else kept eqSiteTol (usedPoints env tags rows rh d))} =
      {p | p ∈ usedPoints env tags rows rh d} := by
    split
    · rfl
    · exact kept_exact hG h1 (usedPoints_cell ht) hx
  refine ⟨_, _, _, _, ?_, hA, expandsTo h0 h1 _ ops _ (by rw [hA]; exact hx), rfl, rfl, rfl, orbits_of_sorted _ _ le_rfl (expand_reduction _ _ _ _).sorted, ?_⟩
  · split
    · exact hne
    · exact kept_ne_nil hne
  · intro hd
    simp only [ne_eq, hd, not_false_eq_true, decide_true]
    exact expand_nodup h0 h1 _ _

/-! ### C65 -/

/-- **C65** The points of the set that the reader makes of a block are those of the crystal that the block describes: the images of the sites of the table
under the symmetry operations of the block, and their lattice translates. The operations form a space group of the cell, and different images of sites are
not within the tolerance 0.001 of each other. -/
theorem C65_points (ht : AtomTable tags rows) (hr : Readable tags rows) {ws ws' : List Warning} {s : ReadSet} {ops : List (AffineOp 3)}
    (h : gemmiConvert env (b.withRows tags rows) rh d = (ws, .ok s)) (hsym : blockSymmetry env b = (ws', .ok ops))
    (hG : IsSpaceGroup s.set.cell (opSet ops)) (hx : ExactSites (1 / 1000) (opSet ops) (cifSites env tags rows rh d)) :
    periodicPoints s.set.motif s.set.cell = crystalPoints s.set.cell (opSet ops) (cifSites env tags rows rh d) := by
  obtain ⟨asym, F, orbit, mult, -, e, hE, hm, -⟩ := convert_expandsTo ht hr h hsym hG hx
  rw [hm, hE.points, e]

/-- **C65** No point of the crystal is listed twice, except with `disorder='all_sites'`. -/
theorem C65_once (ht : AtomTable tags rows) (hr : Readable tags rows) (hd : d ≠ "all_sites") {ws ws' : List Warning} {s : ReadSet} {ops : List (AffineOp 3)}
    (h : gemmiConvert env (b.withRows tags rows) rh d = (ws, .ok s)) (hsym : blockSymmetry env b = (ws', .ok ops)) (hcell : NonSingular s.set.cell)
    (hG : IsSpaceGroup s.set.cell (opSet ops)) (hx : ExactSites (1 / 1000) (opSet ops) (cifSites env tags rows rh d)) :
    Function.Injective (sitePos s.set.motif s.set.cell) := by
  obtain ⟨asym, F, orbit, mult, -, e, hE, hm, -, -, -, hn⟩ := convert_expandsTo ht hr h hsym hG hx
  rw [hm]
  exact hE.injective hcell (hn hd)

/-- **C65** The asymmetric unit of the set is one of the crystal: each point of the motif is carried by a symmetry of the crystal to the representative of
its orbit, and the multiplicities count the points of each orbit. -/
theorem C65_asym_unit (ht : AtomTable tags rows) (hr : Readable tags rows) {ws ws' : List Warning} {s : ReadSet} {ops : List (AffineOp 3)}
    (h : gemmiConvert env (b.withRows tags rows) rh d = (ws, .ok s)) (hsym : blockSymmetry env b = (ws', .ok ops)) (hcell : NonSingular s.set.cell)
    (hG : IsSpaceGroup s.set.cell (opSet ops)) (hx : ExactSites (1 / 1000) (opSet ops) (cifSites env tags rows rh d)) :
    ∃ inds mult, s.set.asymUnit = some (inds.map Fin.val) ∧ s.set.multiplicities = some mult ∧ IsAsymUnit s.set.motif s.set.cell inds mult := by
  obtain ⟨asym, F, orbit, mult, -, e, hE, hm, ha, hmu, ho, -⟩ := convert_expandsTo ht hr h hsym hG hx
  rw [hm]
  obtain ⟨inds, h1, h2⟩ := hE.asymUnit hcell hG ho
  exact ⟨inds, mult, by rw [h1]; exact ha, hmu, h2⟩

theorem convert_ne_nil (ht : AtomTable tags rows) (hr : Readable tags rows) {ws ws' : List Warning} {s : ReadSet} {ops : List (AffineOp 3)}
    (h : gemmiConvert env (b.withRows tags rows) rh d = (ws, .ok s)) (hsym : blockSymmetry env b = (ws', .ok ops))
    (hG : IsSpaceGroup s.set.cell (opSet ops)) (hx : ExactSites (1 / 1000) (opSet ops) (cifSites env tags rows rh d)) :
    s.set.motif ≠ [] ∧ FitsInCell s.set.motif s.set.cell := by
  obtain ⟨asym, F, orbit, mult, hne, e, hE, hm, -⟩ := convert_expandsTo ht hr h hsym hG hx
  rw [hm]
  refine ⟨?_, hE.fits⟩
  obtain ⟨p, l, rfl⟩ := List.exists_cons_of_ne_nil hne
  obtain ⟨g, hg, -⟩ := hG.one
  obtain ⟨q, hq, e'⟩ := exists_fract (opPoint g p)
  have := hE.all p (by simp) g hg q (isImage_intEq.2 ⟨hq, e'⟩)
  intro h
  rw [List.map_eq_nil_iff] at h
  rw [h] at this
  cases this

theorem amd_of_unit {S : PeriodicSet 3} (hcell : NonSingular S.cell) (hinj0 : Function.Injective (sitePos S.motif S.cell)) (hne0 : S.motif ≠ [])
    {inds : List (Fin S.motif.length)} {mult : List ℕ} (e1 : S.asymUnit = some (inds.map Fin.val)) (e2 : S.multiplicities = some mult)
    (hu : IsAsymUnit S.motif S.cell inds mult)
    {motif : List (Pt 3 ℝ)} {cell : Fin 3 → Pt 3 ℝ} (hcell' : NonSingular cell) (hinj : Function.Injective (sitePos motif cell)) (hne : motif ≠ [])
    (hP : periodicPoints S.motif S.cell = periodicPoints motif cell)
    {k fuel fuel' : ℕ} (hs : Searchable S.motif S.cell (k + 1)) (hs' : Searchable motif cell (k + 1)) {a a' : List ℝ}
    (ha : AMD S k fuel = .ok a) (ha' : AMD { motif := motif, cell := cell } k fuel' = .ok a') : a = a' := by
  have hi : inds ≠ [] := by
    rintro rfl
    obtain ⟨orb, -⟩ := hu
    exact (orb ⟨0, List.length_pos_iff.2 hne0⟩).elim0
  choose R hR using fun i : Fin S.motif.length => exists_neighbourRow (by decide : 0 < 3) hcell i k
  choose R' hR' using fun i : Fin motif.length => exists_neighbourRow (by decide : 0 < 3) hcell' i k
  have hlen : inds.length = mult.length := by
    obtain ⟨orb, hm, -⟩ := hu
    simp [hm]
  rw [AMD_eq_rows (S := S) (by decide) (inds := inds) (mult := mult) (Or.inl ⟨e1, e2, hlen⟩) hi hs ha fun i _ => hR i,
    AMD_eq_mean (S := { motif := motif, cell := cell }) (by decide) (Or.inl rfl) hne hs' ha' hR']
  refine List.map_congr_left fun j _ => ?_
  rw [isAsymUnit_sum hinj0 hu hR j, isAsymUnit_mult hu]
  exact mean_rows_eq hinj0 hinj hP hne0 hne hR hR' j

/-- C65 for the AMD whenever the searches are complete. -/
theorem C65_amd_of_searchable (ht : AtomTable tags rows) (hr : Readable tags rows) (hd : d ≠ "all_sites") {ws ws' : List Warning} {s : ReadSet}
    {ops : List (AffineOp 3)} (h : gemmiConvert env (b.withRows tags rows) rh d = (ws, .ok s)) (hsym : blockSymmetry env b = (ws', .ok ops))
    (hcell : NonSingular s.set.cell) (hG : IsSpaceGroup s.set.cell (opSet ops)) (hx : ExactSites (1 / 1000) (opSet ops) (cifSites env tags rows rh d))
    {motif : List (Pt 3 ℝ)} {cell : Fin 3 → Pt 3 ℝ} (hcell' : NonSingular cell) (hinj : Function.Injective (sitePos motif cell)) (hne : motif ≠ [])
    (hP : periodicPoints motif cell = crystalPoints s.set.cell (opSet ops) (cifSites env tags rows rh d))
    {k fuel fuel' : ℕ} (hs : Searchable s.set.motif s.set.cell (k + 1)) (hs' : Searchable motif cell (k + 1)) {a a' : List ℝ}
    (ha : AMD s.set k fuel = .ok a) (ha' : AMD { motif := motif, cell := cell } k fuel' = .ok a') : a = a' := by
  obtain ⟨hne0, -⟩ := convert_ne_nil ht hr h hsym hG hx
  have hinj0 := C65_once ht hr hd h hsym hcell hG hx
  obtain ⟨inds, mult, e1, e2, hu⟩ := C65_asym_unit ht hr h hsym hcell hG hx
  have hpts := C65_points ht hr h hsym hG hx
  exact amd_of_unit hcell hinj0 hne0 e1 e2 hu hcell' hinj hne (hpts.trans hP.symm) hs hs' ha ha'

/-- **C65** (partial) The AMD of the set that the reader makes of a block, computed with its asymmetric unit, is the AMD of any other description of the
crystal by a motif and a cell. Missing: cells that are too oblique (`C07_false`). -/
theorem C65_amd_partial (ht : AtomTable tags rows) (hr : Readable tags rows) (hd : d ≠ "all_sites") {ws ws' : List Warning} {s : ReadSet}
    {ops : List (AffineOp 3)} (h : gemmiConvert env (b.withRows tags rows) rh d = (ws, .ok s)) (hsym : blockSymmetry env b = (ws', .ok ops))
    (hcell : NonSingular s.set.cell) (hG : IsSpaceGroup s.set.cell (opSet ops)) (hx : ExactSites (1 / 1000) (opSet ops) (cifSites env tags rows rh d))
    (hdom : HalfDominant s.set.cell)
    {motif : List (Pt 3 ℝ)} {cell : Fin 3 → Pt 3 ℝ} (hcell' : NonSingular cell) (hinj : Function.Injective (sitePos motif cell)) (hne : motif ≠ [])
    (hdom' : HalfDominant cell) (hfit' : FitsInCell motif cell)
    (hP : periodicPoints motif cell = crystalPoints s.set.cell (opSet ops) (cifSites env tags rows rh d))
    {k fuel fuel' : ℕ} {a a' : List ℝ}
    (ha : AMD s.set k fuel = .ok a) (ha' : AMD { motif := motif, cell := cell } k fuel' = .ok a') : a = a' :=
  C65_amd_of_searchable ht hr hd h hsym hcell hG hx hcell' hinj hne hP
    (searchable_of_halfDominant (by decide) hdom (convert_ne_nil ht hr h hsym hG hx).2 _) (searchable_of_halfDominant (by decide) hdom' hfit' _) ha ha'

/-- **C65** (partial) The same for all cells and sufficiently large `k`. -/
theorem C65_amd_large_k_partial (ht : AtomTable tags rows) (hr : Readable tags rows) (hd : d ≠ "all_sites") {ws ws' : List Warning} {s : ReadSet}
    {ops : List (AffineOp 3)} (h : gemmiConvert env (b.withRows tags rows) rh d = (ws, .ok s)) (hsym : blockSymmetry env b = (ws', .ok ops))
    (hcell : NonSingular s.set.cell) (hG : IsSpaceGroup s.set.cell (opSet ops)) (hx : ExactSites (1 / 1000) (opSet ops) (cifSites env tags rows rh d))
    {motif : List (Pt 3 ℝ)} {cell : Fin 3 → Pt 3 ℝ} (hcell' : NonSingular cell) (hinj : Function.Injective (sitePos motif cell)) (hne : motif ≠ [])
    (hP : periodicPoints motif cell = crystalPoints s.set.cell (opSet ops) (cifSites env tags rows rh d)) :
    ∃ k₀, ∀ k, k₀ ≤ k → ∀ fuel fuel' a a', AMD s.set k fuel = .ok a → AMD { motif := motif, cell := cell } k fuel' = .ok a' → a = a' := by
  obtain ⟨k₁, h₁⟩ := searchable_eventually hcell s.set.motif
  obtain ⟨k₂, h₂⟩ := searchable_eventually hcell' motif
  exact ⟨max k₁ k₂, fun k hk _ _ _ _ ha ha' =>
    C65_amd_of_searchable ht hr hd h hsym hcell hG hx hcell' hinj hne hP (h₁ _ (by omega)) (h₂ _ (by omega)) ha ha'⟩

/-! ### An example: a cube with a centre of symmetry -/

/-- The unit cube with the operations `x,y,z` and `-x,-y,-z`. -/
def centredBlock : GemmiBlock := { exampleBlock with find := fun t => if t = "_symmetry_equiv_pos_as_xyz" then ["x,y,z", "-x,-y,-z"] else [] }

/-- Multiplication by `c`. -/
noncomputable def scaleOp (c : ℝ) : AffineOp 3 := ⟨fun i j => if i = j then c else 0, fun _ => 0⟩

theorem parsed (c : ℤ) (x : String)
    (h : (match parseSitesym x with | .ok o => decide (∀ i, o.trans i = 0 ∧ ∀ j, o.rot i j = if i = j then c else 0) | .error _ => false) = true) :
    ∃ o, parseSitesym x = .ok o ∧ o.affine = scaleOp c := by
  cases hp : parseSitesym x with
  | error e => rw [hp] at h; cases h
  | ok o =>
    rw [hp] at h
    simp only [decide_eq_true_iff] at h
    refine ⟨o, rfl, ?_⟩
    rw [SymOp.affine, scaleOp]
    congr 1
    · funext i j
      rw [(h i).2 j]
      split <;> simp
    · funext i
      rw [(h i).1]
      simp

theorem centred_symmetry : blockSymmetry exampleGemmi centredBlock = ([], .ok [scaleOp 1, scaleOp (-1)]) := by
  obtain ⟨o1, h1, e1⟩ := parsed 1 "x,y,z" (by decide +kernel)
  obtain ⟨o2, h2, e2⟩ := parsed (-1) "-x,-y,-z" (by decide +kernel)
  have hf : (symopTags.map centredBlock.find).find? (fun l => !l.isEmpty) = some ["x,y,z", "-x,-y,-z"] := by decide +kernel
  rw [blockSymmetry, hf]
  simp only [List.mapM_cons, List.mapM_nil, h1, h2]
  push_cast at e1 e2
  simp only [bind, Except.bind, pure, Except.pure, Except.map, List.map_cons, List.map_nil, e1, e2]

theorem scaleOp_point (c : ℝ) (x : Pt 3 ℝ) : opPoint ((scaleOp c).rot, (scaleOp c).trans) x = fun i => c * x i := by
  funext i
  simp [opPoint, scaleOp]

theorem mem_centred {g : FracOp 3} (h : g ∈ opSet [scaleOp 1, scaleOp (-1)]) : ∃ c : ℝ, (c = 1 ∨ c = -1) ∧ g = ((scaleOp c).rot, (scaleOp c).trans) := by
  obtain ⟨o, ho, rfl⟩ := h
  simp only [List.mem_cons, List.not_mem_nil, or_false] at ho
  rcases ho with rfl | rfl
  · exact ⟨1, Or.inl rfl, rfl⟩
  · exact ⟨-1, Or.inr rfl, rfl⟩

theorem centred_mem {c : ℝ} (h : c = 1 ∨ c = -1) : ((scaleOp c).rot, (scaleOp c).trans) ∈ opSet [scaleOp 1, scaleOp (-1)] := by
  rcases h with rfl | rfl
  · exact ⟨_, by simp, rfl⟩
  · exact ⟨_, by simp, rfl⟩

/-- The two operations form a space group of every cell. -/
theorem centred_group (cell : Fin 3 → Pt 3 ℝ) : IsSpaceGroup cell (opSet [scaleOp 1, scaleOp (-1)]) where
  isometry := by
    intro g hg x y
    obtain ⟨c, hc, rfl⟩ := mem_centred hg
    simp only [scaleOp_point]
    have e : ∀ z : Pt 3 ℝ, cartesian cell (fun i => c * z i) = fun j => c * cartesian cell z j := by
      intro z
      funext j
      simp only [cartesian, Finset.mul_sum, mul_assoc]
    have hc2 : c ^ 2 = 1 := by rcases hc with rfl | rfl <;> norm_num
    rw [e, e, eucl, eucl]
    congr 1
    refine Finset.sum_congr rfl fun j _ => ?_
    rw [← mul_sub, mul_pow, hc2, one_mul]
  lattice := by
    intro g hg i j
    obtain ⟨c, hc, rfl⟩ := mem_centred hg
    simp only [scaleOp]
    split
    · rcases hc with rfl | rfl
      · exact ⟨1, by simp⟩
      · exact ⟨-1, by simp⟩
    · exact ⟨0, by simp⟩
  one := ⟨_, centred_mem (Or.inl rfl), 0, fun x i => by simp [scaleOp_point]⟩
  mul := by
    intro g hg h hh
    obtain ⟨c, hc, rfl⟩ := mem_centred hg
    obtain ⟨c', hc', rfl⟩ := mem_centred hh
    refine ⟨_, centred_mem (c := c * c') (by rcases hc with rfl | rfl <;> rcases hc' with rfl | rfl <;> norm_num), 0, fun x i => ?_⟩
    simp [scaleOp_point, mul_assoc]
  inv := by
    intro g hg
    obtain ⟨c, hc, rfl⟩ := mem_centred hg
    refine ⟨_, centred_mem hc, ⟨0, fun x i => ?_⟩, ⟨0, fun x i => ?_⟩⟩ <;>
      rcases hc with rfl | rfl <;> simp [scaleOp_point]

/-- One carbon. -/
def centredRows : List (List String) := [["C1", "0.25", "0", "0", "1"]]

theorem centred_sites : cifSites exampleGemmi exampleTags centredRows false "skip" ⊆ {![1 / 4, 0, 0]} := by
  rintro p ⟨r, hr, -, hp⟩
  rw [centredRows, List.mem_singleton] at hr
  subst hr
  refine rowPoint_unique hp fun i => ?_
  fin_cases i
  · exact ⟨by norm_num, by norm_num, "0.25", 1 / 4, 0, by decide +kernel, by decide +kernel, by norm_num⟩
  · exact ⟨by norm_num, by norm_num, "0", 0, 0, by decide +kernel, by decide +kernel, by norm_num⟩
  · exact ⟨by norm_num, by norm_num, "0", 0, 0, by decide +kernel, by decide +kernel, by norm_num⟩

theorem centred_exact : ExactSites (1 / 1000) (opSet [scaleOp 1, scaleOp (-1)]) (cifSites exampleGemmi exampleTags centredRows false "skip") := by
  intro p hp q hq g hg h hh hc
  obtain rfl := Set.mem_singleton_iff.1 (centred_sites hp)
  obtain rfl := Set.mem_singleton_iff.1 (centred_sites hq)
  obtain ⟨c, hc1, rfl⟩ := mem_centred hg
  obtain ⟨c', hc2, rfl⟩ := mem_centred hh
  simp only [scaleOp_point] at hc ⊢
  have hn : ∀ x : ℝ, x = 1 / 2 ∨ x = - (1 / 2) → ¬ ∃ n : ℤ, |x - n| ≤ 1 / 1000 := by
    rintro x hx ⟨n, hn⟩
    rw [abs_le] at hn
    rcases hx with rfl | rfl
    · have h1 : (n : ℝ) < 1 := by linarith [hn.1]
      have h2 : (0 : ℝ) < n := by linarith [hn.2]
      have h1' : n < 1 := by exact_mod_cast h1
      have h2' : 0 < n := by exact_mod_cast h2
      omega
    · have h1 : (n : ℝ) < 0 := by linarith [hn.1]
      have h2 : (-1 : ℝ) < n := by linarith [hn.2]
      have h1' : n < 0 := by exact_mod_cast h1
      have h2' : -1 < n := by exact_mod_cast h2
      omega
  have h0 := hc 0
  simp only [Matrix.cons_val_zero] at h0
  rcases hc1 with rfl | rfl <;> rcases hc2 with rfl | rfl
  · exact fun i => ⟨0, by simp⟩
  · exact absurd h0 (hn _ (by norm_num))
  · exact absurd h0 (hn _ (by norm_num))
  · exact fun i => ⟨0, by simp⟩

theorem cube_cell : NonSingular (![![1, 0, 0], ![0, 1, 0], ![0, 0, 1]] : Fin 3 → Pt 3 ℝ) := by
  rw [NonSingular, Fintype.linearIndependent_iff]
  intro g hg i
  have h0 := congrFun hg 0
  have h1 := congrFun hg 1
  have h2 := congrFun hg 2
  simp [Fin.sum_univ_three] at h0 h1 h2
  fin_cases i <;> assumption

theorem cube_dominant : HalfDominant (![![1, 0, 0], ![0, 1, 0], ![0, 0, 1]] : Fin 3 → Pt 3 ℝ) := by
  intro i
  have : ∀ j ∈ Finset.univ.erase i, |gram (![![1, 0, 0], ![0, 1, 0], ![0, 0, 1]] : Fin 3 → Pt 3 ℝ) i j| = 0 := by
    intro j hj
    have hj := Finset.ne_of_mem_erase hj
    fin_cases i <;> fin_cases j <;> simp_all [gram, Fin.sum_univ_three]
  rw [Finset.sum_eq_zero this]
  fin_cases i <;> simp [gram, Fin.sum_univ_three]

theorem centred_table : AtomTable exampleTags centredRows := example_table (by simp [centredRows])

theorem centred_readable : Readable exampleTags centredRows := example_readable (by simp [centredRows]) (by decide)

theorem centred_coordinates : HasCoordinates exampleTags ["C1", "0.25", "0", "0", "1"] := by
  intro tag htag
  simp only [List.mem_cons, List.not_mem_nil, or_false] at htag
  rcases htag with rfl | rfl | rfl
  · exact ⟨"0.25", 1 / 4, by decide +kernel, by decide +kernel⟩
  · exact ⟨"0", 0, by decide +kernel, by decide +kernel⟩
  · exact ⟨"0", 0, by decide +kernel, by decide +kernel⟩

/-- The block is accepted and its cell is the cube. -/
theorem centred_converts : ∃ ws s, gemmiConvert exampleGemmi (centredBlock.withRows exampleTags centredRows) false "skip" = (ws, .ok s) ∧
    s.set.cell = ![![1, 0, 0], ![0, 1, 0], ![0, 0, 1]] := by
  have t1 := centred_table
  have r1 := centred_readable
  have hcell : blockCell centredBlock = .ok ![![1, 0, 0], ![0, 1, 0], ![0, 0, 1]] := example_cell
  have d1 : ∀ r ∈ centredRows, ¬ DisorderedRow exampleGemmi.asString exampleTags r := by
    intro r hr
    have hr' := hr
    rw [centredRows, List.mem_singleton] at hr'
    rw [← rowDis_iff exampleGemmi t1.nodup (t1.width r hr), hr']
    decide +kernel
  have hc := centred_coordinates
  obtain ⟨ws, s, h⟩ := (C47_accepted (rh := false) (d := "skip") t1 r1 hcell centred_symmetry fun _ => d1).1
    ⟨_, List.mem_singleton_self _, hc, fun h => absurd h (by decide), fun h => absurd h (by decide)⟩
  refine ⟨ws, s, h, ?_⟩
  have h' := h
  rw [convert_used t1 r1 fun _ => d1, convertUsed, hcell] at h'
  simp only at h'
  split at h'
  · cases h'
  · rw [finishBlock] at h'
    simp only [centred_symmetry] at h'
    rw [← Except.ok.inj (congrArg Prod.snd h')]
    rfl

/-- All hypotheses hold for a carbon atom and its image in the centred cube: the set that is read contains the image, each point once, with an asymmetric
unit, and its AMD is that of every other description of the crystal. -/
example : ∃ ws s, gemmiConvert exampleGemmi (centredBlock.withRows exampleTags centredRows) false "skip" = (ws, .ok s) ∧
    (![-(1 / 4), 0, 0] : Pt 3 ℝ) ∈ periodicPoints s.set.motif s.set.cell ∧ Function.Injective (sitePos s.set.motif s.set.cell) ∧
    (∃ inds mult, s.set.asymUnit = some (inds.map Fin.val) ∧ s.set.multiplicities = some mult ∧ IsAsymUnit s.set.motif s.set.cell inds mult) ∧
    ∀ (motif : List (Pt 3 ℝ)) (cell : Fin 3 → Pt 3 ℝ), NonSingular cell → Function.Injective (sitePos motif cell) → motif ≠ [] → HalfDominant cell →
      FitsInCell motif cell → periodicPoints motif cell = crystalPoints s.set.cell (opSet [scaleOp 1, scaleOp (-1)]) {![1 / 4, 0, 0]} →
      ∀ k fuel fuel' a a', AMD s.set k fuel = .ok a → AMD { motif := motif, cell := cell } k fuel' = .ok a' → a = a' := by
  have t1 := centred_table
  have r1 := centred_readable
  have hc := centred_coordinates
  obtain ⟨ws, s, h, hsc⟩ := centred_converts
  have hns : NonSingular s.set.cell := by rw [hsc]; exact cube_cell
  have hp : (![1 / 4, 0, 0] : Pt 3 ℝ) ∈ cifSites exampleGemmi exampleTags centredRows false "skip" := by
    have hm : ["C1", "0.25", "0", "0", "1"] ∈ centredRows := List.mem_singleton_self _
    have hs : RowPoint exampleTags ["C1", "0.25", "0", "0", "1"] (toPt (rowCoord exampleTags ["C1", "0.25", "0", "0", "1"])) :=
      rowPoint_spec t1.x t1.y t1.z hc
    have hu : UsedRow exampleGemmi exampleTags false "skip" ["C1", "0.25", "0", "0", "1"] := ⟨hc, fun h => absurd h (by decide), fun h => absurd h (by decide)⟩
    have := centred_sites ⟨_, hm, hu, hs⟩
    rw [Set.mem_singleton_iff] at this
    rw [← this]
    exact ⟨_, hm, hu, hs⟩
  have hsites : cifSites exampleGemmi exampleTags centredRows false "skip" = {![1 / 4, 0, 0]} :=
    Set.Subset.antisymm centred_sites (Set.singleton_subset_iff.2 hp)
  refine ⟨ws, s, h, ?_, C65_once t1 r1 (by decide) h centred_symmetry hns (centred_group _) centred_exact,
    C65_asym_unit t1 r1 h centred_symmetry hns (centred_group _) centred_exact, fun motif cell h1 h2 h3 h4 h5 h6 k fuel fuel' a a' ha ha' => ?_⟩
  · rw [C65_points t1 r1 h centred_symmetry (centred_group _) centred_exact]
    refine ⟨_, hp, _, centred_mem (Or.inr rfl), 0, ?_⟩
    rw [hsc]
    funext j
    fin_cases j <;> simp [scaleOp_point, cartesian, Fin.sum_univ_three]
  · exact C65_amd_partial t1 r1 (by decide) h centred_symmetry hns (centred_group _) centred_exact (by rw [hsc]; exact cube_dominant) h1 h2 h3 h4 h5
      (by rw [hsites]; exact h6) ha ha'

end Amd
