import Verif.Proof.Assembled
import Mathlib.Data.List.GetD

/-!
# ase Atoms objects: C68, C69, C70
-/

namespace Amd

variable {basis : AseAtoms → Except Exc (List (Pt 3 ℝ))} {atoms a' : AseAtoms} {rh : Bool} {ws : List Warning} {s : FullSet}

/-! ### Helpers -/

theorem strip_atoms (a : AseAtoms) (rh : Bool) : (a.strip rh).atoms = keptAtoms rh a.atoms := by
  cases rh with
  | false => simp [AseAtoms.strip, keptAtoms]
  | true =>
    simp only [AseAtoms.strip, if_true, AseAtoms.hydrogens, keptAtoms]
    rw [popAll_indicesOf fun x : ℕ × Pt 3 ℝ => decide (x.1 = 1)]
    refine List.filter_congr fun x _ => ?_
    simp

theorem strip_cell (a : AseAtoms) (rh : Bool) : (a.strip rh).cell = a.cell := by cases rh <;> rfl

theorem strip_spacegroup (a : AseAtoms) (rh : Bool) : (a.strip rh).spacegroup = a.spacegroup := by cases rh <;> rfl

theorem strip_eq (a : AseAtoms) (rh : Bool) : a.strip rh = { a with atoms := keptAtoms rh a.atoms } := by
  have h := strip_atoms a rh
  have hc := strip_cell a rh
  have hs := strip_spacegroup a rh
  generalize a.strip rh = b at *
  cases b
  simp only at h hc hs
  rw [h, hc, hs]

theorem strip_strip (a : AseAtoms) (rh : Bool) : (a.strip rh).strip rh = a.strip rh := by
  have h : ((a.strip rh).strip rh).atoms = (a.strip rh).atoms := by rw [strip_atoms, strip_atoms]; simp [keptAtoms]
  cases rh with
  | false => rfl
  | true =>
    simp only [AseAtoms.strip, if_true] at h ⊢
    rw [h]

theorem ase_fst (basis : AseAtoms → Except Exc (List (Pt 3 ℝ))) (atoms : AseAtoms) (rh : Bool) : (aseAtomsConvert basis atoms rh).1 = atoms.strip rh := by
  simp only [aseAtomsConvert]
  split
  · rfl
  · split <;> rfl

/-- What the converter returns. -/
theorem ase_ok (h : aseAtomsConvert basis atoms rh = (a', ws, .ok s)) :
    ∃ asym, basis { atoms with atoms := keptAtoms rh atoms.atoms } = .ok asym ∧ s.set = expandedSet atoms.cell asym (atoms.spacegroup.getD [identityOp]) true ∧
      s.types = some ((keptAtoms rh atoms.atoms).map Prod.fst) ∧ keptAtoms rh atoms.atoms ≠ [] := by
  simp only [aseAtomsConvert] at h
  split at h
  · cases h
  · rename_i hne
    split at h
    · cases h
    · rename_i asym hb
      refine ⟨asym, by rw [← strip_eq]; exact hb, ?_⟩
      simp only [Prod.mk.injEq, Except.ok.injEq] at h
      obtain ⟨-, -, rfl⟩ := h
      refine ⟨?_, ?_, ?_⟩
      · rw [strip_cell, strip_spacegroup]
        simp only [expandedSet]
        cases atoms.spacegroup <;> rfl
      · simp [strip_atoms]
      · rw [strip_atoms] at hne
        intro e
        rw [e] at hne
        exact hne rfl

/-! ### C68 -/

/-- **C68** If no atom is left, a ParseError is raised. -/
theorem C68_empty (h : ∀ a ∈ atoms.atoms, rh = true ∧ a.1 = 1) :
    (aseAtomsConvert basis atoms rh).2 = ([], .error (.parse "ase Atoms object has no valid sites")) := by
  have : (atoms.strip rh).atoms.length = 0 := by
    rw [strip_atoms, List.length_eq_zero_iff, keptAtoms, List.filter_eq_nil_iff]
    intro a ha
    simp [h a ha]
  simp [aseAtomsConvert, this]

/-- **C68** If an atom is left and `get_basis` raises nothing, a set is returned. -/
theorem C68_ok {a : ℕ × Pt 3 ℝ} (ha : a ∈ atoms.atoms) (hn : rh = true → a.1 ≠ 1) {asym : List (Pt 3 ℝ)} (hb : basis { atoms with atoms := keptAtoms rh atoms.atoms } = .ok asym) :
    ∃ ws s, aseAtomsConvert basis atoms rh = ({ atoms with atoms := keptAtoms rh atoms.atoms }, ws, .ok s) := by
  rw [← strip_eq] at hb ⊢
  have : (atoms.strip rh).atoms.length ≠ 0 := by
    rw [strip_atoms]
    intro e
    have hm : a ∈ keptAtoms rh atoms.atoms := by simp only [keptAtoms, List.mem_filter, decide_eq_true_eq]; exact ⟨ha, hn⟩
    rw [List.length_eq_zero_iff.1 e] at hm
    cases hm
  simp only [aseAtomsConvert, if_neg this, hb]
  exact ⟨_, _, rfl⟩

theorem basis_points {cell : Fin 3 → Pt 3 ℝ} {G : Set (FracOp 3)} {l : List (ℕ × Pt 3 ℝ)} {asym : List (Pt 3 ℝ)} (hinv : InvariantUnder G l)
    (hb : IsBasis G (l.map Prod.snd) asym) : crystalPoints cell G {p | p ∈ asym} = atomPoints cell (l.map Prod.snd) := by
  ext q
  constructor
  · rintro ⟨p, hp, g, hg, n, rfl⟩
    obtain ⟨a, ha, rfl⟩ := List.mem_map.1 (hb.atom p hp)
    obtain ⟨b, hb, -, m, hm⟩ := hinv a ha g hg
    refine ⟨b.2, List.mem_map_of_mem hb, fun i => m i + n i, ?_⟩
    congr 1
    funext i
    rw [hm i]
    push_cast
    ring
  · rintro ⟨p, hp, n, rfl⟩
    obtain ⟨b, hbm, g, hg, m, hm⟩ := hb.covers p hp
    refine ⟨b, hbm, g, hg, fun i => n i - m i, ?_⟩
    congr 1
    funext i
    rw [hm i]
    push_cast
    ring

/-- **C68** (partial) The points of the set are the atoms, without the hydrogens if these are to be removed. Assumed: the operations stored in the object, or
the identity if none are stored, are symmetries of the atoms, and `get_basis` returns one atom from each of their orbits; different atoms are not within the
tolerance of each other. Missing: `get_basis` may have chosen one atom from each orbit of a larger group (`C68_false`). -/
theorem C68_points_partial (h : aseAtomsConvert basis atoms rh = (a', ws, .ok s)) {ops : List (AffineOp 3)} (hops : ops = atoms.spacegroup.getD [identityOp])
    (hinv : InvariantUnder (opSet ops) (keptAtoms rh atoms.atoms))
    (hb : ∀ asym, basis { atoms with atoms := keptAtoms rh atoms.atoms } = .ok asym → IsBasis (opSet ops) ((keptAtoms rh atoms.atoms).map Prod.snd) asym)
    (hx : ExactSites (1 / 1000) (opSet ops) {p | p ∈ (keptAtoms rh atoms.atoms).map Prod.snd}) :
    s.set.cell = atoms.cell ∧ periodicPoints s.set.motif s.set.cell = atomPoints atoms.cell ((keptAtoms rh atoms.atoms).map Prod.snd) := by
  obtain ⟨asym, ha, hs, -⟩ := ase_ok h
  rw [← hops] at hs
  rw [hs]
  refine ⟨rfl, ?_⟩
  have hb := hb asym ha
  rw [← basis_points hinv hb]
  exact expandedSet_points fun p hp q hq => hx p (hb.atom p hp) q (hb.atom q hq)

/-- **C68** (partial) Then the set is a description of the crystal of the atoms: no point is listed twice, the asymmetric unit and the multiplicities are those of
symmetries of the crystal. Together with C66: its AMD and PDD are those of any other description of the crystal. -/
theorem C68_description_partial (h : aseAtomsConvert basis atoms rh = (a', ws, .ok s)) {ops : List (AffineOp 3)} (hops : ops = atoms.spacegroup.getD [identityOp])
    (hcell : NonSingular atoms.cell) (hG : IsSpaceGroup atoms.cell (opSet ops))
    (hb : ∀ asym, basis { atoms with atoms := keptAtoms rh atoms.atoms } = .ok asym → IsBasis (opSet ops) ((keptAtoms rh atoms.atoms).map Prod.snd) asym)
    (hx : ExactSites (1 / 1000) (opSet ops) {p | p ∈ (keptAtoms rh atoms.atoms).map Prod.snd}) :
    ∃ inds mult, IsDescription s.set inds mult := by
  obtain ⟨asym, ha, hs, -, hne⟩ := ase_ok h
  rw [← hops] at hs
  rw [hs]
  have hb := hb asym ha
  refine expandedSet_description hcell hG (fun p hp q hq => hx p (hb.atom p hp) q (hb.atom q hq)) fun e => ?_
  obtain ⟨x, l, e'⟩ := List.exists_cons_of_ne_nil hne
  obtain ⟨p, hp, -⟩ := hb.covers x.2 (by rw [e']; simp)
  rw [e] at hp
  cases hp

/-- **C68** (partial) The AMD of the set is that of the crystal of the atoms, given by all atoms. Missing: as above, and cells that are too oblique. -/
theorem C68_amd_partial (h : aseAtomsConvert basis atoms rh = (a', ws, .ok s)) {ops : List (AffineOp 3)} (hops : ops = atoms.spacegroup.getD [identityOp])
    (hcell : NonSingular atoms.cell) (hG : IsSpaceGroup atoms.cell (opSet ops)) (hinv : InvariantUnder (opSet ops) (keptAtoms rh atoms.atoms))
    (hb : ∀ asym, basis { atoms with atoms := keptAtoms rh atoms.atoms } = .ok asym → IsBasis (opSet ops) ((keptAtoms rh atoms.atoms).map Prod.snd) asym)
    (hx : ExactSites (1 / 1000) (opSet ops) {p | p ∈ (keptAtoms rh atoms.atoms).map Prod.snd}) (hdom : HalfDominant atoms.cell)
    {S' : PeriodicSet 3} {inds' : List (Fin S'.motif.length)} {mult' : List ℕ} (h' : IsDescription S' inds' mult')
    (hdom' : HalfDominant S'.cell) (hfit' : FitsInCell S'.motif S'.cell)
    (hP : periodicPoints S'.motif S'.cell = atomPoints atoms.cell ((keptAtoms rh atoms.atoms).map Prod.snd))
    {k fuel fuel' : ℕ} {r r' : List ℝ} (hr : AMD s.set k fuel = .ok r) (hr' : AMD S' k fuel' = .ok r') : r = r' := by
  obtain ⟨inds, mult, hd⟩ := C68_description_partial h hops hcell hG hb hx
  obtain ⟨hc, hp⟩ := C68_points_partial h hops hinv hb hx
  obtain ⟨asym, ha, hs, -⟩ := ase_ok h
  have hb := hb asym ha
  have hf : FitsInCell s.set.motif s.set.cell := by
    rw [hs, ← hops]
    exact expandedSet_fits fun p hp q hq => hx p (hb.atom p hp) q (hb.atom q hq)
  refine C66_amd_partial (by decide) (by decide) hd h' ⟨id, fun _ _ => rfl, ?_⟩ (by rw [hc]; exact hdom) hf hdom' hfit' hr hr'
  rw [hp, hP, Set.image_id]

/-! ### Helpers for C69 -/

theorem sorted_blocks {m : ℕ} {l : List ℕ} (hs : l.Pairwise (· ≤ ·)) (hm : ∀ k ∈ l, k < m) :
    l = (List.range m).flatMap fun k => List.replicate (l.count k) k := by
  refine List.Perm.eq_of_pairwise (le := (· ≤ ·)) (fun a b _ _ h1 h2 => le_antisymm h1 h2) hs ?_ ?_
  · rw [List.pairwise_flatMap]
    refine ⟨fun k _ => by simp [List.pairwise_replicate], ?_⟩
    refine List.pairwise_lt_range.imp fun {a b} hab x hx y hy => ?_
    rw [(List.mem_replicate.1 hx).2, (List.mem_replicate.1 hy).2]
    exact hab.le
  · rw [List.perm_iff_count]
    intro k
    rw [List.count_flatMap]
    have e : ((List.range m).map (List.count k ∘ fun j => List.replicate (l.count j) j)) = (List.range m).map fun j => if j = k then l.count k else 0 := by
      refine List.map_congr_left fun j _ => ?_
      simp only [Function.comp_apply, List.count_replicate, beq_iff_eq]
      split
      · rename_i h; rw [h]
      · rfl
    rw [e]
    by_cases hk : k ∈ l
    · have e2 : ((List.range m).map fun j => if j = k then l.count k else 0).sum = ∑ j ∈ Finset.range m, if j = k then l.count k else 0 := rfl
      rw [e2, Finset.sum_ite_eq']
      simp [hm k hk]
    · rw [List.count_eq_zero_of_not_mem hk]
      simp

theorem InOrbit.trans {cell : Fin 3 → Pt 3 ℝ} {G : Set (FracOp 3)} (hG : IsSpaceGroup cell G) {p q r : Pt 3 ℝ} (h : InOrbit G p q) (h' : InOrbit G q r) :
    InOrbit G p r := by
  obtain ⟨g, hg, n, hn⟩ := h
  obtain ⟨k, hk, m, hm⟩ := h'
  obtain ⟨l, hl, o, ho⟩ := hG.mul k hk g hg
  obtain ⟨w, hw⟩ := opPoint_congr hG.lattice hk (x := opPoint g p) (y := q) ⟨n, hn⟩
  refine ⟨l, hl, fun i => w i + m i - o i, fun i => ?_⟩
  have h1 := ho p i
  have h2 := hw i
  have h3 := hm i
  push_cast
  linarith

theorem InOrbit.symm {cell : Fin 3 → Pt 3 ℝ} {G : Set (FracOp 3)} (hG : IsSpaceGroup cell G) {p q : Pt 3 ℝ} (h : InOrbit G p q) : InOrbit G q p := by
  obtain ⟨g, hg, n, hn⟩ := h
  obtain ⟨k, hk, -, m, hm⟩ := hG.inv g hg
  obtain ⟨w, hw⟩ := opPoint_congr hG.lattice hk (x := opPoint g p) (y := q) ⟨n, hn⟩
  refine ⟨k, hk, fun i => m i - w i, fun i => ?_⟩
  have h1 := hm p i
  have h2 := hw i
  push_cast
  linarith

theorem inOrbit_image {G : Set (FracOp 3)} {p x : Pt 3 ℝ} {g : FracOp 3} (hg : g ∈ G) (h : IsImage g.1 g.2 p x) : InOrbit G p x := ⟨g, hg, (isImage_intEq.1 h).2⟩

theorem InOrbit.congr {G : Set (FracOp 3)} {p x y : Pt 3 ℝ} (h : InOrbit G p x) (e : IntEq x y) : InOrbit G p y := by
  obtain ⟨g, hg, n, hn⟩ := h
  obtain ⟨m, hm⟩ := e
  refine ⟨g, hg, fun i => n i + m i, fun i => ?_⟩
  rw [hn i, hm i]
  push_cast
  ring

theorem fractPt_intEq (p : Pt 3 ℝ) : IntEq p (fractPt p) := ⟨fun i => ⌊p i⌋, fun i => by simp only [fractPt]; rw [Int.fract_add_floor]⟩

theorem fractPt_cell (p : Pt 3 ℝ) (i : Fin 3) : 0 ≤ fractPt p i ∧ fractPt p i < 1 := ⟨Int.fract_nonneg _, Int.fract_lt_one _⟩

/-- The motif points of one orbit. -/
def orbitPart (F : List (Pt 3 ℝ)) (orbit : List ℕ) (k : ℕ) : List (Pt 3 ℝ) := ((F.zip orbit).filter fun x => decide (x.2 = k)).map Prod.fst

theorem orbitPart_nodup {F : List (Pt 3 ℝ)} {orbit : List ℕ} (h : F.Nodup) (hl : orbit.length = F.length) (k : ℕ) : (orbitPart F orbit k).Nodup := by
  refine h.sublist ?_
  have : F = (F.zip orbit).map Prod.fst := (List.map_fst_zip (by omega)).symm
  conv_rhs => rw [this]
  exact (List.filter_sublist).map _

theorem orbitPart_length {F : List (Pt 3 ℝ)} {orbit : List ℕ} (hl : orbit.length = F.length) (k : ℕ) : (orbitPart F orbit k).length = orbit.count k := by
  rw [orbitPart, List.length_map, ← List.countP_eq_length_filter, List.count]
  conv_rhs => rw [← List.map_snd_zip (l₁ := F) (l₂ := orbit) (by omega)]
  rw [List.countP_map]
  rfl

theorem mem_orbitPart {F : List (Pt 3 ℝ)} {orbit : List ℕ} {k : ℕ} {x : Pt 3 ℝ} :
    x ∈ orbitPart F orbit k ↔ ∃ t, ∃ (h : t < F.length) (h' : t < orbit.length), F[t] = x ∧ orbit[t] = k := by
  simp only [orbitPart, List.mem_map, List.mem_filter, decide_eq_true_eq, Prod.exists, exists_and_right, exists_eq_right]
  constructor
  · intro hj
    obtain ⟨t, ht, e⟩ := List.mem_iff_getElem.1 hj
    rw [List.length_zip] at ht
    rw [List.getElem_zip, Prod.mk.injEq] at e
    exact ⟨t, by omega, by omega, e.1, e.2⟩
  · rintro ⟨t, h, h', rfl, rfl⟩
    exact List.mem_iff_getElem.2 ⟨t, by rw [List.length_zip]; omega, by rw [List.getElem_zip]⟩

/-! ### C69 -/

/-- **C69** (partial) If the atoms are listed orbit by orbit, in the order of the result of `get_basis`, the types of the set are the atomic numbers of the
atoms at the points of its motif. Missing: atoms in another order (`C69_false`), and the assumptions of `C68_points_partial`. -/
theorem C69_types_partial (h : aseAtomsConvert basis atoms rh = (a', ws, .ok s)) {ops : List (AffineOp 3)} (hops : ops = atoms.spacegroup.getD [identityOp])
    (hG : IsSpaceGroup atoms.cell (opSet ops)) (hinv : InvariantUnder (opSet ops) (keptAtoms rh atoms.atoms)) {asym : List (Pt 3 ℝ)}
    (hasym : basis { atoms with atoms := keptAtoms rh atoms.atoms } = .ok asym) (hb : IsBasis (opSet ops) ((keptAtoms rh atoms.atoms).map Prod.snd) asym)
    (hx : ExactSites (1 / 1000) (opSet ops) {p | p ∈ (keptAtoms rh atoms.atoms).map Prod.snd})
    (hdist : (keptAtoms rh atoms.atoms).Pairwise fun a b : ℕ × Pt 3 ℝ => ¬∃ n : Fin 3 → ℤ, ∀ i, a.2 i = b.2 i + n i)
    {blocks : List (List (ℕ × Pt 3 ℝ))} (hbl : keptAtoms rh atoms.atoms = blocks.flatten)
    (hf : List.Forall₂ (fun p B => ∀ b ∈ B, InOrbit (opSet ops) p b.2) asym blocks) :
    ∃ types, s.types = some types ∧ TypesMatch atoms.cell (keptAtoms rh atoms.atoms) s.set.motif types := by
  obtain ⟨asym', ha, hs, ht, hne⟩ := ase_ok h
  rw [hasym] at ha
  obtain rfl := Except.ok.inj ha
  rw [← hops] at hs
  refine ⟨_, ht, ?_⟩
  generalize keptAtoms rh atoms.atoms = kept at *
  generalize hGG : opSet ops = G at *
  have hE := expandsTo eqSiteTol_nonneg eqSiteTol_lt asym ops true (by rw [hGG]; exact fun p hp q hq => hx p (hb.atom p hp) q (hb.atom q hq))
  have hnd := expand_nodup eqSiteTol_nonneg eqSiteTol_lt asym ops
  have hsorted := (expand_reduction asym ops eqSiteTol true).sorted
  rw [hs]
  simp only [expandedSet]
  generalize (expandAsymUnit asym ops eqSiteTol true).1 = F at *
  generalize (expandAsymUnit asym ops eqSiteTol true).2.1 = orbit at *
  rw [hGG] at hE
  have hlt : ∀ k ∈ orbit, k < asym.length := by
    intro k hk
    obtain ⟨t, ht, rfl⟩ := List.mem_iff_getElem.1 hk
    exact (hE.image t (by rw [← hE.length]; exact ht) ht).1
  have hlen : blocks.length = asym.length := hf.length_eq.symm
  -- the atoms of the basis
  have hat : ∀ k : Fin asym.length, ∃ a ∈ kept, a.2 = asym[k] := fun k => by
    obtain ⟨a, h1, h2⟩ := List.mem_map.1 (hb.atom asym[k] (List.getElem_mem _))
    exact ⟨a, h1, h2⟩
  choose z hz hzp using hat
  have heq : ∀ a ∈ kept, ∀ b ∈ kept, IntEq a.2 b.2 → a = b := by
    intro a ha b hb' e
    obtain ⟨i, hi, rfl⟩ := List.mem_iff_getElem.1 ha
    obtain ⟨j, hj, rfl⟩ := List.mem_iff_getElem.1 hb'
    rcases lt_trichotomy i j with hij | rfl | hij
    · exact absurd e (List.pairwise_iff_getElem.1 hdist i j hi hj hij)
    · rfl
    · exact absurd e.symm (List.pairwise_iff_getElem.1 hdist j i hj hi hij)
  have hsame : ∀ (k j : Fin asym.length) x, InOrbit G asym[k] x → InOrbit G asym[j] x → k = j := by
    intro k j x hk hj
    have hkj : InOrbit G asym[k] asym[j] := hk.trans hG (hj.symm hG)
    rcases lt_trichotomy k j with hlt | e | hlt
    · exact absurd hkj (List.pairwise_iff_getElem.1 hb.once k j k.2 j.2 hlt)
    · exact e
    · exact absurd (hkj.symm hG) (List.pairwise_iff_getElem.1 hb.once j k j.2 k.2 hlt)
  have hblk : ∀ (k : ℕ) (hk : k < asym.length) (hk' : k < blocks.length), ∀ b ∈ blocks[k], b ∈ kept ∧ InOrbit G asym[k] b.2 := by
    intro k hk hk' b hb'
    exact ⟨by rw [hbl]; exact List.mem_flatten.2 ⟨_, List.getElem_mem hk', hb'⟩, (List.forall₂_iff_get.1 hf).2 k hk hk' b hb'⟩
  have horb : ∀ (k : Fin asym.length) x, InOrbit G asym[k] x → ∃ b ∈ kept, b.1 = (z k).1 ∧ IntEq x b.2 := by
    rintro k x ⟨g, hg, n, hn⟩
    obtain ⟨b, hb1, hb2, m, hm⟩ := hinv (z k) (hz k) g hg
    refine ⟨b, hb1, hb2, fun i => m i - n i, fun i => ?_⟩
    have h1 := hn i
    have h2 := hm i
    rw [hzp k] at h2
    push_cast
    linarith
  have hcount : ∀ (k : ℕ) (hk : k < asym.length) (hk' : k < blocks.length), blocks[k].length = orbit.count k := by
    intro k hk hk'
    rw [← orbitPart_length hE.length, ← List.length_map (as := blocks[k]) (fun b : ℕ × Pt 3 ℝ => fractPt b.2)]
    refine List.Perm.length_eq ((List.perm_ext_iff_of_nodup ?_ (orbitPart_nodup hnd hE.length k)).2 fun x => ?_)
    · have hp : blocks[k].Pairwise fun a b => ¬IntEq a.2 b.2 := by
        rw [hbl] at hdist
        exact hdist.sublist (List.sublist_flatten_of_mem (List.getElem_mem hk'))
      refine List.pairwise_map.2 (hp.imp fun {a b} hab e => hab ?_)
      exact (fractPt_intEq a.2).trans (by rw [e]; exact (fractPt_intEq b.2).symm)
    · rw [mem_orbitPart]
      constructor
      · intro hxm
        obtain ⟨b, hbm, rfl⟩ := List.mem_map.1 hxm
        have ho : InOrbit G asym[k] (fractPt b.2) := (hblk k hk hk' b hbm).2.congr (fractPt_intEq b.2)
        obtain ⟨g, hg, e⟩ := ho
        have hi : IsImage g.1 g.2 asym[k] (fractPt b.2) := isImage_intEq.2 ⟨fractPt_cell b.2, e⟩
        obtain ⟨t, ht, et⟩ := List.mem_iff_getElem.1 (hE.all _ (List.getElem_mem hk) g hg _ hi)
        have ht' : t < orbit.length := by rw [hE.length]; exact ht
        obtain ⟨hi', g', hg', him⟩ := hE.image t ht ht'
        rw [et] at him
        have := hsame ⟨orbit[t], hi'⟩ ⟨k, hk⟩ _ (inOrbit_image hg' him) (inOrbit_image hg hi)
        exact ⟨t, ht, ht', et, congrArg Fin.val this⟩
      · rintro ⟨t, ht, ht', rfl, rfl⟩
        obtain ⟨hi', g', hg', him⟩ := hE.image t ht ht'
        have ho := inOrbit_image hg' him
        obtain ⟨b, hbk, -, e⟩ := horb ⟨orbit[t], hi'⟩ _ ho
        have hbk' := hbk
        rw [hbl] at hbk'
        obtain ⟨B, hB, hbB⟩ := List.mem_flatten.1 hbk'
        obtain ⟨j, hj, rfl⟩ := List.mem_iff_getElem.1 hB
        have hj' : j < asym.length := by omega
        have := hsame ⟨j, hj'⟩ ⟨orbit[t], hi'⟩ _ (hblk j hj' hj b hbB).2 (ho.congr e)
        have hjt : j = orbit[t] := congrArg Fin.val this
        subst hjt
        exact List.mem_map.2 ⟨b, hbB, ((e.trans (fractPt_intEq b.2)).eq_of_cell (hE.cellwise ht) (fractPt_cell b.2)).symm⟩
  let Z : ℕ → ℕ := fun j => if hj : j < asym.length then (z ⟨j, hj⟩).1 else 0
  have hZ : ∀ (j : ℕ) (hj : j < asym.length), Z j = (z ⟨j, hj⟩).1 := fun j hj => dif_pos hj
  have htypes : kept.map Prod.fst = orbit.map Z := by
    have e1 : blocks = (List.range asym.length).map fun k => blocks.getD k [] := by
      refine List.ext_getElem (by simp [hlen]) fun i h1 h2 => ?_
      simp [List.getElem?_eq_getElem h1]
    conv_rhs => rw [sorted_blocks hsorted hlt]
    rw [hbl, e1, ← List.flatMap_def, List.map_flatMap, List.map_flatMap]
    refine List.flatMap_congr fun k hk => ?_
    have hk := List.mem_range.1 hk
    have hk' : k < blocks.length := by omega
    rw [List.map_replicate, List.getD_eq_getElem _ _ hk', List.eq_replicate_iff]
    refine ⟨by rw [List.length_map]; exact hcount k hk hk', fun n hn => ?_⟩
    obtain ⟨b, hbm, rfl⟩ := List.mem_map.1 hn
    obtain ⟨h1, h2⟩ := hblk k hk hk' b hbm
    obtain ⟨b', hb1, hb2, e⟩ := horb ⟨k, hk⟩ _ h2
    rw [heq b h1 b' hb1 e, hZ k hk, hb2]
  rw [htypes]
  refine ⟨by simp [hE.length], fun i h1 h2 => ?_⟩
  have hi : i < orbit.length := by simpa using h1
  have hi' : i < F.length := by simpa using h2
  obtain ⟨hk, g, hg, him⟩ := hE.image i hi' hi
  obtain ⟨b, hb1, hb2, n, hn⟩ := horb ⟨orbit[i], hk⟩ _ (inOrbit_image hg him)
  refine ⟨b, hb1, ?_, b.2, by simp, n, ?_⟩
  · rw [List.getElem_map, hZ _ hk, hb2]
  · rw [List.getElem_map]
    show cartesian atoms.cell F[i] = _
    congr 1
    funext j
    exact hn j

/-! ### A crystal with a translation by half a cell vector -/

/-- The translation by `c` in the direction of the first cell vector. -/
noncomputable def shiftOp (c : ℝ) : AffineOp 3 := ⟨fun i j => if i = j then 1 else 0, ![c, 0, 0]⟩

/-- The translations by nothing and by half a cell vector. -/
noncomputable def halfOps : List (AffineOp 3) := [shiftOp 0, shiftOp (1 / 2)]

/-- The unit cube. -/
def cubeCell : Fin 3 → Pt 3 ℝ := ![![1, 0, 0], ![0, 1, 0], ![0, 0, 1]]

/-- The point at `k` quarters of the first cell vector. -/
noncomputable def quarter (k : ℤ) : Pt 3 ℝ := ![k / 4, 0, 0]

theorem shiftOp_point (c : ℝ) (x : Pt 3 ℝ) : opPoint ((shiftOp c).rot, (shiftOp c).trans) x = fun i => x i + ![c, 0, 0] i := by
  funext i
  simp [opPoint, shiftOp]

theorem mem_halfOps {g : FracOp 3} (h : g ∈ opSet halfOps) : ∃ k : ℤ, (k = 0 ∨ k = 1) ∧ g = ((shiftOp (k / 2)).rot, (shiftOp (k / 2)).trans) := by
  obtain ⟨o, ho, rfl⟩ := h
  simp only [halfOps, List.mem_cons, List.not_mem_nil, or_false] at ho
  rcases ho with rfl | rfl
  · exact ⟨0, Or.inl rfl, by simp⟩
  · exact ⟨1, Or.inr rfl, by simp⟩

theorem halfOps_mem {k : ℤ} (h : k = 0 ∨ k = 1) : ((shiftOp (k / 2)).rot, (shiftOp (k / 2)).trans) ∈ opSet halfOps := by
  rcases h with rfl | rfl
  · exact ⟨shiftOp 0, by simp [halfOps], by simp⟩
  · exact ⟨shiftOp (1 / 2), by simp [halfOps], by simp⟩

theorem halfOps_group (cell : Fin 3 → Pt 3 ℝ) : IsSpaceGroup cell (opSet halfOps) where
  isometry := by
    intro g hg x y
    obtain ⟨c, hc, rfl⟩ := mem_halfOps hg
    rw [shiftOp_point, shiftOp_point, cartesian_add x, cartesian_add y, eucl_add_right]
  lattice := by
    intro g hg i j
    obtain ⟨c, hc, rfl⟩ := mem_halfOps hg
    simp only [shiftOp]
    split
    · exact ⟨1, by simp⟩
    · exact ⟨0, by simp⟩
  one := ⟨_, halfOps_mem (Or.inl rfl), 0, fun x i => by rw [shiftOp_point]; fin_cases i <;> simp⟩
  mul := by
    intro g hg h hh
    obtain ⟨c, hc, rfl⟩ := mem_halfOps hg
    obtain ⟨c', hc', rfl⟩ := mem_halfOps hh
    rcases hc with rfl | rfl <;> rcases hc' with rfl | rfl
    · exact ⟨_, halfOps_mem (Or.inl rfl), 0, fun x i => by simp only [shiftOp_point]; fin_cases i <;> simp⟩
    · exact ⟨_, halfOps_mem (Or.inr rfl), 0, fun x i => by simp only [shiftOp_point]; fin_cases i <;> simp⟩
    · exact ⟨_, halfOps_mem (Or.inr rfl), 0, fun x i => by simp only [shiftOp_point]; fin_cases i <;> simp⟩
    · exact ⟨_, halfOps_mem (Or.inl rfl), ![1, 0, 0], fun x i => by simp only [shiftOp_point]; fin_cases i <;> simp; ring⟩
  inv := by
    intro g hg
    obtain ⟨c, hc, rfl⟩ := mem_halfOps hg
    rcases hc with rfl | rfl
    · exact ⟨_, halfOps_mem (Or.inl rfl), ⟨0, fun x i => by simp only [shiftOp_point]; fin_cases i <;> simp⟩,
        ⟨0, fun x i => by simp only [shiftOp_point]; fin_cases i <;> simp⟩⟩
    · exact ⟨_, halfOps_mem (Or.inr rfl), ⟨![1, 0, 0], fun x i => by simp only [shiftOp_point]; fin_cases i <;> simp; ring⟩,
        ⟨![1, 0, 0], fun x i => by simp only [shiftOp_point]; fin_cases i <;> simp; ring⟩⟩

theorem quarter_shift (k c : ℤ) : opPoint ((shiftOp (c / 2)).rot, (shiftOp (c / 2)).trans) (quarter k) = quarter (k + 2 * c) := by
  rw [shiftOp_point]
  funext i
  fin_cases i <;> simp [quarter]
  ring

theorem quarter_near {k l : ℤ} {n : ℤ} (h : |quarter k 0 - quarter l 0 - n| ≤ 1 / 1000) : k - l = 4 * n := by
  simp only [quarter, Matrix.cons_val_zero] at h
  rw [abs_le] at h
  have h1 : ((k - l - 4 * n : ℤ) : ℝ) < 1 := by push_cast; linarith [h.2]
  have h2 : (-1 : ℝ) < ((k - l - 4 * n : ℤ) : ℝ) := by push_cast; linarith [h.1]
  have h1' : k - l - 4 * n < 1 := by exact_mod_cast h1
  have h2' : -1 < k - l - 4 * n := by exact_mod_cast h2
  omega

theorem quarter_exact {P : Set (Pt 3 ℝ)} (hP : ∀ p ∈ P, ∃ k, p = quarter k) : ExactSites (1 / 1000) (opSet halfOps) P := by
  intro p hp q hq g hg h hh hc
  obtain ⟨k, rfl⟩ := hP p hp
  obtain ⟨l, rfl⟩ := hP q hq
  obtain ⟨c, -, rfl⟩ := mem_halfOps hg
  obtain ⟨c', -, rfl⟩ := mem_halfOps hh
  rw [quarter_shift, quarter_shift] at hc ⊢
  obtain ⟨n, hn⟩ := hc 0
  have := quarter_near hn
  intro i
  fin_cases i
  · refine ⟨n, ?_⟩
    have e : (((k + 2 * c : ℤ) : ℝ) - ((l + 2 * c' : ℤ) : ℝ)) = 4 * n := by exact_mod_cast this
    simp [quarter] at e ⊢
    linarith
  · exact ⟨0, by simp [quarter]⟩
  · exact ⟨0, by simp [quarter]⟩

theorem quarter_orbit {k l : ℤ} : InOrbit (opSet halfOps) (quarter k) (quarter l) ↔ (2 : ℤ) ∣ k - l := by
  constructor
  · rintro ⟨g, hg, n, hn⟩
    obtain ⟨c, hc, rfl⟩ := mem_halfOps hg
    have h0 := hn 0
    rw [quarter_shift] at h0
    have := quarter_near (k := k + 2 * c) (l := l) (n := n 0) (by rw [h0]; simp)
    omega
  · intro h
    obtain ⟨m, hm⟩ := h
    rcases Int.emod_two_eq_zero_or_one m with h2 | h2
    · refine ⟨_, halfOps_mem (Or.inl rfl), ![m / 2, 0, 0], fun i => ?_⟩
      rw [quarter_shift]
      have e : (k : ℝ) - l = 4 * ((m / 2 : ℤ) : ℝ) := by exact_mod_cast (by omega : k - l = 4 * (m / 2))
      fin_cases i <;> simp [quarter]
      linarith
    · refine ⟨_, halfOps_mem (Or.inr rfl), ![m / 2 + 1, 0, 0], fun i => ?_⟩
      rw [quarter_shift]
      have e : (k : ℝ) - l + 2 = 4 * ((m / 2 : ℤ) : ℝ) + 4 := by exact_mod_cast (by omega : k - l + 2 = 4 * (m / 2) + 4)
      fin_cases i <;> simp [quarter]
      linarith

theorem quarter_ne {k l : ℤ} (h : ¬(4 : ℤ) ∣ k - l) : ¬∃ n : Fin 3 → ℤ, ∀ i, quarter k i = quarter l i + n i := by
  rintro ⟨n, hn⟩
  exact h ⟨n 0, quarter_near (by rw [hn 0]; simp)⟩

theorem quarter_invariant {atoms : List (ℕ × Pt 3 ℝ)} (h : ∀ a ∈ atoms, ∃ k, a.2 = quarter k ∧ ∃ b ∈ atoms, b.1 = a.1 ∧ ∃ l, b.2 = quarter l ∧ (4 : ℤ) ∣ k + 2 - l) :
    InvariantUnder (opSet halfOps) atoms := by
  intro a ha g hg
  obtain ⟨c, hc, rfl⟩ := mem_halfOps hg
  obtain ⟨k, hk, b, hb, hba, l, hl, m, hm⟩ := h a ha
  rcases hc with rfl | rfl
  · refine ⟨a, ha, rfl, 0, fun i => ?_⟩
    rw [hk, quarter_shift]
    simp
  · refine ⟨b, hb, hba, ![m, 0, 0], fun i => ?_⟩
    have e : (k : ℝ) + 2 - l = 4 * m := by exact_mod_cast hm
    rw [hk, hl, quarter_shift]
    fin_cases i <;> simp [quarter]
    linarith

/-- Two carbons that a translation by half a cell vector exchanges. The object has no space group. -/
noncomputable def carbonChain : AseAtoms := ⟨cubeCell, [(6, quarter 0), (6, quarter 2)], none⟩

/-- **C68** is false: for atoms without a stored space group, only the identity is applied to the result of `get_basis`, which contains one atom from each orbit of
the symmetries of the atoms. Of two carbons that a translation exchanges, one is lost. -/
theorem C68_false : ∃ (basis : AseAtoms → Except Exc (List (Pt 3 ℝ))) (asym : List (Pt 3 ℝ)) (ws : List Warning) (s : FullSet),
    basis carbonChain = .ok asym ∧ IsSpaceGroup carbonChain.cell (opSet halfOps) ∧ InvariantUnder (opSet halfOps) carbonChain.atoms ∧
    IsBasis (opSet halfOps) (carbonChain.atoms.map Prod.snd) asym ∧ ExactSites (1 / 1000) (opSet halfOps) {p | p ∈ carbonChain.atoms.map Prod.snd} ∧
    aseAtomsConvert basis carbonChain false = (carbonChain, ws, .ok s) ∧
    periodicPoints s.set.motif s.set.cell ≠ atomPoints carbonChain.cell (carbonChain.atoms.map Prod.snd) := by
  obtain ⟨ws, s, h⟩ := C68_ok (basis := fun _ => .ok [quarter 0]) (atoms := carbonChain) (rh := false) (a := (6, quarter 0)) (by simp [carbonChain]) (by simp) rfl
  refine ⟨fun _ => .ok [quarter 0], [quarter 0], ws, s, rfl, halfOps_group _, quarter_invariant ?_, ⟨by simp [carbonChain], ?_, by simp⟩, quarter_exact ?_, h, ?_⟩
  · simp only [carbonChain, List.mem_cons, List.not_mem_nil, or_false]
    rintro a (rfl | rfl)
    · exact ⟨0, rfl, _, Or.inr rfl, rfl, 2, rfl, by decide⟩
    · exact ⟨2, rfl, _, Or.inl rfl, rfl, 0, rfl, by decide⟩
  · simp only [carbonChain, List.map_cons, List.map_nil, List.mem_cons, List.not_mem_nil, or_false]
    rintro q (rfl | rfl)
    · exact ⟨_, rfl, quarter_orbit.2 (by decide)⟩
    · exact ⟨_, rfl, quarter_orbit.2 (by decide)⟩
  · simp only [carbonChain, List.map_cons, List.map_nil, List.mem_cons, List.not_mem_nil, or_false, Set.mem_ofPred_eq]
    rintro q (rfl | rfl)
    · exact ⟨0, rfl⟩
    · exact ⟨2, rfl⟩
  · obtain ⟨asym, ha, hs, -⟩ := ase_ok h
    obtain rfl := Except.ok.inj ha
    have hid : ∀ g ∈ opSet [identityOp], ∀ x, opPoint g x = x := by
      rintro g ⟨o, ho, rfl⟩ x
      rw [List.mem_singleton.1 ho]
      funext i
      simp [opPoint, identityOp]
    have hp : periodicPoints s.set.motif s.set.cell = crystalPoints cubeCell (opSet [identityOp]) {p | p ∈ [quarter 0]} := by
      rw [hs]
      refine expandedSet_points fun p hp q hq g hg k hk _ i => ?_
      rw [List.mem_singleton.1 hp, List.mem_singleton.1 hq, hid g hg, hid k hk]
      exact ⟨0, by simp⟩
    rw [hp]
    intro e
    have hm : cartesian cubeCell (quarter 2) ∈ atomPoints carbonChain.cell (carbonChain.atoms.map Prod.snd) :=
      ⟨quarter 2, by simp [carbonChain], 0, by simp [carbonChain]⟩
    rw [← e] at hm
    obtain ⟨p, hp, g, hg, n, hn⟩ := hm
    rw [List.mem_singleton.1 hp, hid g hg] at hn
    have := congrFun (cartesian_injective cube_cell hn)
    exact quarter_ne (k := 2) (l := 0) (by decide) ⟨n, this⟩

theorem shift_apply (k c : ℤ) : (shiftOp (c / 2)).apply (quarter k) = quarter ((k + 2 * c) % 4) := by
  have h := quarter_shift k c
  have e : ∀ i, (shiftOp (c / 2)).apply (quarter k) i = Int.fract (quarter (k + 2 * c) i) := fun i => by rw [← h]; rfl
  funext i
  rw [e i]
  have hm : (k + 2 * c : ℤ) = (k + 2 * c) % 4 + 4 * ((k + 2 * c) / 4) := by omega
  have h1 := Int.emod_nonneg (k + 2 * c) (by decide : (4 : ℤ) ≠ 0)
  have h2 := Int.emod_lt_of_pos (k + 2 * c) (by decide : (0 : ℤ) < 4)
  fin_cases i
  · simp only [quarter, Fin.zero_eta, Matrix.cons_val_zero]
    rw [Int.fract_eq_iff]
    have h1' : (0 : ℝ) ≤ ((k + 2 * c) % 4 : ℤ) := by exact_mod_cast h1
    have h2' : (((k + 2 * c) % 4 : ℤ) : ℝ) < 4 := by exact_mod_cast h2
    have hm' : ((k + 2 * c : ℤ) : ℝ) = (((k + 2 * c) % 4 : ℤ) : ℝ) + 4 * (((k + 2 * c) / 4 : ℤ) : ℝ) := by exact_mod_cast hm
    refine ⟨by linarith, by linarith, (k + 2 * c) / 4, ?_⟩
    rw [hm']
    ring
  · simp [quarter]
  · simp [quarter]

theorem quarter_close {k l : ℤ} (h : ¬(4 : ℤ) ∣ k - l) : siteClose eqSiteTol (quarter k) (quarter l) = false := by
  rw [siteClose, decide_eq_false_iff_not]
  intro hc
  have h0 := hc 0
  rw [eqSiteTol] at h0
  rcases h0 with h0 | h0
  · exact h ⟨0, quarter_near (by simpa using h0)⟩
  · rcases abs_cases (quarter k 0 - quarter l 0) with ⟨e, -⟩ | ⟨e, -⟩
    · rw [e] at h0
      exact h ⟨1, quarter_near (by simpa using h0)⟩
    · rw [e] at h0
      refine h ⟨-1, quarter_near ?_⟩
      rw [abs_le] at h0 ⊢
      push_cast
      constructor <;> linarith [h0.1, h0.2]

theorem half_expand : expandAsymUnit [quarter 0, quarter 1] halfOps eqSiteTol true = ([quarter 0, quarter 2, quarter 1, quarter 3], [0, 0, 1, 1], []) := by
  have a0 : ∀ k : ℤ, (shiftOp 0).apply (quarter k) = quarter (k % 4) := fun k => by simpa using shift_apply k 0
  have a1 : ∀ k : ℤ, (shiftOp (1 / 2)).apply (quarter k) = quarter ((k + 2) % 4) := fun k => by simpa using shift_apply k 1
  have he : expandSites [quarter 0, quarter 1] halfOps = [[quarter 0, quarter 2], [quarter 1, quarter 3]] := by
    simp only [expandSites, halfOps, List.map_cons, List.map_nil, a0, a1]
    norm_num
  have c02 := quarter_close (k := 0) (l := 2) (by decide)
  have c13 := quarter_close (k := 1) (l := 3) (by decide)
  have c01 := quarter_close (k := 0) (l := 1) (by decide)
  have c21 := quarter_close (k := 2) (l := 1) (by decide)
  have c03 := quarter_close (k := 0) (l := 3) (by decide)
  have c23 := quarter_close (k := 2) (l := 3) (by decide)
  simp [expandAsymUnit, he, reduceFrom, uniqueSites, uniqueFrom, selectMask, c02, c13, c01, c21, c03, c23]

/-- The chain of sodium and chlorine, in the order of the positions. -/
noncomputable def saltChain : AseAtoms := ⟨cubeCell, [(11, quarter 0), (17, quarter 1), (11, quarter 2), (17, quarter 3)], some halfOps⟩

/-- The same atoms, first the sodium. -/
noncomputable def saltBlocks : AseAtoms := ⟨cubeCell, [(11, quarter 0), (11, quarter 2), (17, quarter 1), (17, quarter 3)], some halfOps⟩

theorem salt_basis {atoms : List (ℕ × Pt 3 ℝ)} (h : atoms.Perm [(11, quarter 0), (11, quarter 2), (17, quarter 1), (17, quarter 3)]) :
    InvariantUnder (opSet halfOps) atoms ∧ IsBasis (opSet halfOps) (atoms.map Prod.snd) [quarter 0, quarter 1] ∧
      ExactSites (1 / 1000) (opSet halfOps) {p | p ∈ atoms.map Prod.snd} := by
  have hm := h.map Prod.snd
  refine ⟨quarter_invariant fun a ha => ?_, ⟨fun p hp => ?_, fun q hq => ?_, ?_⟩, quarter_exact fun p hp => ?_⟩
  · simp only [h.mem_iff, List.mem_cons, List.not_mem_nil, or_false] at ha ⊢
    rcases ha with rfl | rfl | rfl | rfl
    · exact ⟨0, rfl, _, Or.inr (Or.inl rfl), rfl, 2, rfl, by decide⟩
    · exact ⟨2, rfl, _, Or.inl rfl, rfl, 0, rfl, by decide⟩
    · exact ⟨1, rfl, _, Or.inr (Or.inr (Or.inr rfl)), rfl, 3, rfl, by decide⟩
    · exact ⟨3, rfl, _, Or.inr (Or.inr (Or.inl rfl)), rfl, 1, rfl, by decide⟩
  · rw [hm.mem_iff]
    simp only [List.map_cons, List.map_nil, List.mem_cons, List.not_mem_nil, or_false] at hp ⊢
    rcases hp with rfl | rfl
    · exact Or.inl rfl
    · exact Or.inr (Or.inr (Or.inl rfl))
  · rw [hm.mem_iff] at hq
    simp only [List.map_cons, List.map_nil, List.mem_cons, List.not_mem_nil, or_false] at hq
    rcases hq with rfl | rfl | rfl | rfl
    · exact ⟨quarter 0, by simp, quarter_orbit.2 (by decide)⟩
    · exact ⟨quarter 0, by simp, quarter_orbit.2 (by decide)⟩
    · exact ⟨quarter 1, by simp, quarter_orbit.2 (by decide)⟩
    · exact ⟨quarter 1, by simp, quarter_orbit.2 (by decide)⟩
  · simp [quarter_orbit]
  · have hp : p ∈ atoms.map Prod.snd := hp
    rw [hm.mem_iff] at hp
    simp only [List.map_cons, List.map_nil, List.mem_cons, List.not_mem_nil, or_false] at hp
    rcases hp with rfl | rfl | rfl | rfl
    exacts [⟨_, rfl⟩, ⟨_, rfl⟩, ⟨_, rfl⟩, ⟨_, rfl⟩]

theorem salt_perm : saltChain.atoms.Perm [(11, quarter 0), (11, quarter 2), (17, quarter 1), (17, quarter 3)] :=
  (List.Perm.swap _ _ _).cons _

/-- **C69** is false: the types are listed in the order of the atoms, but the points of the motif orbit by orbit. -/
theorem C69_false : ∃ (basis : AseAtoms → Except Exc (List (Pt 3 ℝ))) (asym : List (Pt 3 ℝ)) (ws : List Warning) (s : FullSet) (types : List ℕ),
    basis saltChain = .ok asym ∧ IsSpaceGroup saltChain.cell (opSet halfOps) ∧ InvariantUnder (opSet halfOps) saltChain.atoms ∧
    IsBasis (opSet halfOps) (saltChain.atoms.map Prod.snd) asym ∧ ExactSites (1 / 1000) (opSet halfOps) {p | p ∈ saltChain.atoms.map Prod.snd} ∧
    aseAtomsConvert basis saltChain false = (saltChain, ws, .ok s) ∧ s.types = some types ∧
    ¬TypesMatch saltChain.cell saltChain.atoms s.set.motif types := by
  obtain ⟨ws, s, h⟩ := C68_ok (basis := fun _ => .ok [quarter 0, quarter 1]) (atoms := saltChain) (rh := false) (a := (11, quarter 0)) (by simp [saltChain])
    (by simp) rfl
  obtain ⟨h1, h2, h3⟩ := salt_basis salt_perm
  obtain ⟨asym, ha, hs, ht, -⟩ := ase_ok h
  obtain rfl := Except.ok.inj ha
  have htypes : s.types = some [11, 17, 11, 17] := by rw [ht]; simp [saltChain, keptAtoms]
  refine ⟨fun _ => .ok [quarter 0, quarter 1], _, ws, s, _, rfl, halfOps_group _, h1, h2, h3, h, htypes, fun hT => ?_⟩
  have hmo : s.set.motif = [quarter 0, quarter 2, quarter 1, quarter 3].map (cartesian cubeCell) := by
    rw [hs]
    simp only [expandedSet, saltChain, Option.getD_some, half_expand]
    rfl
  obtain ⟨a, ha, e1, e2⟩ := hT.2 1 (by simp) (by rw [hmo]; simp)
  obtain ⟨p, hp, n, hn⟩ := e2
  rw [List.mem_singleton.1 hp] at hn
  simp only [hmo, List.map_cons, List.getElem_cons_succ, List.getElem_cons_zero] at hn
  have hn := congrFun (cartesian_injective cube_cell hn)
  simp only [saltChain, List.mem_cons, List.not_mem_nil, or_false] at ha
  rcases ha with rfl | rfl | rfl | rfl
  · simp at e1
  · exact quarter_ne (k := 2) (l := 1) (by decide) ⟨n, hn⟩
  · simp at e1
  · exact quarter_ne (k := 2) (l := 3) (by decide) ⟨n, hn⟩

/-- The hypotheses of C68 and C69 are met when the sodium atoms come first. -/
example : ∃ (basis : AseAtoms → Except Exc (List (Pt 3 ℝ))) (ws : List Warning) (s : FullSet) (types : List ℕ),
    aseAtomsConvert basis saltBlocks false = (saltBlocks, ws, .ok s) ∧ s.types = some types ∧ TypesMatch saltBlocks.cell saltBlocks.atoms s.set.motif types ∧
    periodicPoints s.set.motif s.set.cell = atomPoints saltBlocks.cell (saltBlocks.atoms.map Prod.snd) ∧ ∃ inds mult, IsDescription s.set inds mult := by
  obtain ⟨ws, s, h⟩ := C68_ok (basis := fun _ => .ok [quarter 0, quarter 1]) (atoms := saltBlocks) (rh := false) (a := (11, quarter 0)) (by simp [saltBlocks])
    (by simp) rfl
  obtain ⟨h1, h2, h3⟩ := salt_basis (atoms := saltBlocks.atoms) (List.Perm.refl _)
  have hk : keptAtoms false saltBlocks.atoms = saltBlocks.atoms := by simp [keptAtoms]
  have hd : saltBlocks.atoms.Pairwise fun a b : ℕ × Pt 3 ℝ => ¬∃ n : Fin 3 → ℤ, ∀ i, a.2 i = b.2 i + n i := by
    simp only [saltBlocks, List.pairwise_cons, List.mem_cons, List.not_mem_nil, or_false]
    refine ⟨?_, ?_, ?_, by simp, by simp⟩
    · rintro a (rfl | rfl | rfl) <;> exact quarter_ne (by decide)
    · rintro a (rfl | rfl) <;> exact quarter_ne (by decide)
    · rintro a rfl
      exact quarter_ne (by decide)
  have hf : List.Forall₂ (fun p B => ∀ b ∈ B, InOrbit (opSet halfOps) p b.2) [quarter 0, quarter 1]
      [[((11 : ℕ), quarter 0), (11, quarter 2)], [(17, quarter 1), (17, quarter 3)]] := by
    refine .cons (fun b hb => ?_) (.cons (fun b hb => ?_) .nil) <;> simp only [List.mem_cons, List.not_mem_nil, or_false] at hb <;> rcases hb with rfl | rfl <;>
      exact quarter_orbit.2 (by decide)
  obtain ⟨types, ht, hT⟩ := C69_types_partial h (ops := halfOps) rfl (halfOps_group _) (by rw [hk]; exact h1) rfl (by rw [hk]; exact h2) (by rw [hk]; exact h3)
    (by rw [hk]; exact hd) (by rw [hk]; rfl) hf
  refine ⟨_, ws, s, types, h, ht, by rw [hk] at hT; exact hT, ?_, ?_⟩
  · have := C68_points_partial h (ops := halfOps) rfl (by rw [hk]; exact h1) (fun asym ha => by rw [hk, ← Except.ok.inj ha]; exact h2) (by rw [hk]; exact h3)
    rw [hk] at this
    exact this.2
  · exact C68_description_partial h (ops := halfOps) rfl cube_cell (halfOps_group _) (fun asym ha => by rw [hk, ← Except.ok.inj ha]; exact h2) (by rw [hk]; exact h3)

/-! ### C70 -/

/-- **C70** (partial) Without `remove_hydrogens` the object passed to the converter is not changed. Missing: with it, the hydrogens are removed from the object
(`C70_ase_false`). -/
theorem C70_ase_partial : (aseAtomsConvert basis atoms false).1 = atoms := by rw [ase_fst]; rfl

/-- **C70** is false: with `remove_hydrogens`, the hydrogens are removed from the object that was passed. -/
theorem C70_ase_false : ∃ atoms : AseAtoms, ∀ basis, (aseAtomsConvert basis atoms true).1 ≠ atoms := by
  refine ⟨⟨cubeCell, [(1, quarter 0), (6, quarter 1)], none⟩, fun basis h => ?_⟩
  rw [ase_fst] at h
  have := congrArg AseAtoms.atoms h
  rw [strip_atoms] at this
  simp [keptAtoms] at this

/-- **C70** Converting the object again gives the same result, also if it was changed. -/
theorem C70_ase_again : (aseAtomsConvert basis (aseAtomsConvert basis atoms rh).1 rh) = aseAtomsConvert basis atoms rh := by
  rw [ase_fst]
  simp only [aseAtomsConvert, strip_strip]

/-! ### C72 -/

/-- **C72** With `remove_hydrogens` the object is converted like the object without its atoms of atomic number 1 (which is what is left of it); everything else
is kept, in the same order. -/
theorem C72_ase : aseAtomsConvert basis atoms true = aseAtomsConvert basis { atoms with atoms := atoms.atoms.filter fun a => decide (a.1 ≠ 1) } false := by
  have h : atoms.strip true = { atoms with atoms := atoms.atoms.filter fun a => decide (a.1 ≠ 1) } := by rw [strip_eq]; simp [keptAtoms]
  simp only [aseAtomsConvert, h]
  rfl

end Amd
