import Verif.Props.CcdcWritten
import Verif.Props.CifBlocks
import Verif.Spec.CifEntry
import Verif.Props.CrystalPdd
import Verif.Proof.AllSites
import Verif.Proof.Rounded

/-! Blocks of ase and pymatgen are read like a block of gemmi. -/

namespace Amd

open Classical

variable {asString : String → String} {rh : Bool} {d : String} {e : CifEntry}

/-! ### Symmetry operations -/

theorem parseOps_written {texts : List String} {G : Set (FracOp 3)} (h1 : ∀ s ∈ texts, ∃ g ∈ G, WritesOp s g) (h2 : ∀ g ∈ G, ∃ s ∈ texts, WritesOp s g) :
    ∃ ops, parseOps texts = .ok ops ∧ opSet ops = G := by
  obtain ⟨ops, ho, hs⟩ := mapM_written fun s hs => (h1 s hs).imp fun g hg => hg.2
  refine ⟨ops.map SymOp.affine, by rw [parseOps, ho]; rfl, ?_⟩
  ext g
  refine (hs g).trans ⟨?_, h2 g⟩
  rintro ⟨s, hs', hg⟩
  obtain ⟨g', hg', hw⟩ := h1 s hs'
  obtain ⟨o, e1, rfl⟩ := parse_written hg
  obtain ⟨o', e2, rfl⟩ := parse_written hw
  rw [e1] at e2
  rw [Except.ok.inj e2]
  exact hg'

theorem single_written {s : String} {g : FracOp 3} (h : WritesOp s g) : ∃ ops, parseOps [s] = .ok ops ∧ opSet ops = {g} :=
  parseOps_written (fun t ht => ⟨g, rfl, by rw [List.mem_singleton.1 ht]; exact h⟩) (fun g' hg => ⟨s, by simp, by rw [hg]; exact h⟩)

theorem lower_tags : spacegroupNameTags.map String.toLower ++ spacegroupNumberTags.map String.toLower =
    ["_space_group_name_h-m_alt", "_symmetry_space_group_name_h-m", "_space_group_it_number", "_symmetry_int_tables_number"] := by decide +kernel

theorem ase_described {env : AseEnv} {a : AseBlock} {G : Set (FracOp 3)} (h : AseDescribesOps env a G) :
    ∃ ops, (a.symmetry env).2 = .ok ops ∧ opSet ops = G := by
  cases h with
  | listed pre post tag texts G h h0 ht h1 h2 =>
    obtain ⟨ops, ho, hs⟩ := parseOps_written h1 h2
    refine ⟨ops, ?_, hs⟩
    rw [AseBlock.symmetry, show symopTags = pre ++ tag :: post from h, findSome_first h0 ht]
    simp only [mapM_symop]
    exact ho
  | single pre post tag s g h h0 ht h1 =>
    obtain ⟨ops, ho, hs⟩ := single_written h1
    refine ⟨ops, ?_, hs⟩
    rw [AseBlock.symmetry, show symopTags = pre ++ tag :: post from h, findSome_first h0 ht]
    simp only
    rw [show [AseItem.str s] = [s].map AseItem.str from rfl, mapM_symop]
    exact ho
  | group pre post tag v ops h0 h h1 ht h2 =>
    refine ⟨ops, ?_, rfl⟩
    have hf : (spacegroupNameTags.map String.toLower ++ spacegroupNumberTags.map String.toLower).findSome? a.get = some v := by
      rw [lower_tags, h]
      exact findSome_first h1 ht
    rw [List.findSome?_append] at hf
    rw [AseBlock.symmetry, show symopTags.findSome? a.get = none from List.findSome?_eq_none_iff.2 h0]
    simp only
    cases h3 : (spacegroupNameTags.map String.toLower).findSome? a.get with
    | some v' =>
      rw [h3] at hf
      obtain rfl : v' = v := Option.some.inj hf
      exact h2
    | none =>
      rw [h3] at hf
      simp only [Option.none_or] at hf
      simp only [hf]
      exact h2
  | primitive ops h0 h1 h2 =>
    refine ⟨ops, ?_, rfl⟩
    rw [← lower_tags] at h1
    rw [AseBlock.symmetry, show symopTags.findSome? a.get = none from List.findSome?_eq_none_iff.2 h0]
    simp only
    rw [List.findSome?_eq_none_iff.2 fun t ht => h1 t (List.mem_append_left _ ht)]
    simp only
    rw [List.findSome?_eq_none_iff.2 fun t ht => h1 t (List.mem_append_right _ ht)]
    exact h2

theorem PmgNothing.filter {b : PmgBlock} {t : String} (h : PmgNothing b t) : ((b.get t).filter fun v => !v.isEmpty) = none := by
  rcases h with h | h | h <;> rw [h] <;> rfl

theorem pmg_symops_none {b : PmgBlock}
    (h : ∀ t ∈ ["_space_group_symop_operation_xyz", "_space_group_symop.operation_xyz", "_symmetry_equiv_pos_as_xyz"], PmgNothing b t) : b.symops = none :=
  List.findSome?_eq_none_iff.2 fun t ht => (h t ht).filter

theorem symbolSearch_skip {env : PmgEnv} {b : PmgBlock} {t : String} (h : PmgUnnamed env b t) (l : List String) :
    symbolSearch env b (t :: l) = symbolSearch env b l := by
  rw [symbolSearch]
  rcases h with (h | h | h) | ⟨s, h, h1⟩
  · rw [h]
  · rw [h]; rfl
  · rw [h]; rfl
  · rw [h]
    simp only [h1]
    split <;> rfl

theorem symbolSearch_append {env : PmgEnv} {b : PmgBlock} {pre : List String} (h : ∀ t ∈ pre, PmgUnnamed env b t) (l : List String) :
    symbolSearch env b (pre ++ l) = symbolSearch env b l := by
  induction pre with
  | nil => rfl
  | cons t pre ih => rw [List.cons_append, symbolSearch_skip (h t (by simp)), ih fun t ht => h t (by simp [ht])]

theorem numberSearch_append {env : PmgEnv} {b : PmgBlock} {pre : List String} (h : ∀ t ∈ pre, PmgNothing b t) (l : List String) :
    numberSearch env b (pre ++ l) = numberSearch env b l := by
  induction pre with
  | nil => rfl
  | cons t pre ih =>
    rw [List.cons_append, numberSearch]
    rcases h t (by simp) with h0 | h0 | h0 <;> rw [h0] <;> exact ih fun t ht => h t (by simp [ht])

theorem WritesOp.ne_empty {s : String} {g : FracOp 3} (h : WritesOp s g) : s ≠ "" := by
  obtain ⟨t, w, -, -, rfl, -⟩ := h
  intro h
  have := congrArg String.toList h
  simp at this

theorem pyFloat_written {s : String} {q : ℚ} (h : WritesNumber s q) : pyFloat (removeBrackets s.toList) = some (.num q) := by
  obtain ⟨n, hn, rfl, rfl | ⟨x, hx, rfl⟩⟩ := h
  · rw [String.toList_ofList, removeBrackets_self (Numeral.not_mem_text (by decide) (by decide)), pyFloat_numeral hn]
  · have : (String.ofList n.text ++ "(" ++ x ++ ")").toList = n.text ++ '(' :: (x.toList ++ [')']) := by simp
    rw [this, removeBrackets_append (Numeral.not_mem_text (by decide) (by decide)), removeBrackets_bracket (by simp [hx]) (by simp), List.append_nil, pyFloat_numeral hn]

theorem WritesNumber.ne_empty {s : String} {q : ℚ} (h : WritesNumber s q) : s ≠ "" := by
  rintro rfl
  have := pyFloat_written h
  rw [show pyFloat (removeBrackets "".toList) = none by decide +kernel] at this
  cases this

theorem pmg_described {env : PmgEnv} {b : PmgBlock} {G : Set (FracOp 3)} (h : PmgDescribesOps env b G) :
    ∃ ops, (b.symmetry env).2 = .ok ops ∧ opSet ops = G := by
  cases h with
  | listed pre post tag texts G h h0 ht hne h1 h2 =>
    obtain ⟨ops, ho, hs⟩ := parseOps_written h1 h2
    refine ⟨ops, ?_, hs⟩
    have : b.symops = some (.list texts) := by
      rw [PmgBlock.symops, show symopTags = pre ++ tag :: post from h]
      refine findSome_first (fun t ht => (h0 t ht).filter) ?_
      rw [ht]
      simp [PmgVal.isEmpty, hne]
    rw [PmgBlock.symmetry, this]
    exact ho
  | single pre post tag s g h h0 ht h1 =>
    obtain ⟨ops, ho, hs⟩ := single_written h1
    refine ⟨ops, ?_, hs⟩
    have : b.symops = some (.str s) := by
      rw [PmgBlock.symops, show symopTags = pre ++ tag :: post from h]
      refine findSome_first (fun t ht => (h0 t ht).filter) ?_
      rw [ht]
      simp [PmgVal.isEmpty, h1.ne_empty]
    rw [PmgBlock.symmetry, this]
    exact ho
  | named pre post tag s spg ops h0 h h1 ht hs h2 h3 hne =>
    refine ⟨ops, ?_, rfl⟩
    rw [PmgBlock.symmetry, pmg_symops_none h0]
    simp only
    rw [show spacegroupNameTags = pre ++ tag :: post from h, symbolSearch_append h1, symbolSearch, ht]
    simp only [hs, h2, h3, if_false, if_neg hne, opsOrP1]
  | cod pre post tag s spg texts G h0 h h1 ht hs h2 h3 h4 h5 h6 =>
    obtain ⟨ops, ho, hG⟩ := parseOps_written h5 h6
    refine ⟨ops, ?_, hG⟩
    rw [PmgBlock.symmetry, pmg_symops_none h0]
    simp only
    rw [show spacegroupNameTags = pre ++ tag :: post from h, symbolSearch_append h1, symbolSearch, ht]
    simp only [hs, h2, h3, h4, ho, if_false]
  | numbered pre post tag s n ops h0 h1 h h2 ht hn h3 hne =>
    refine ⟨ops, ?_, rfl⟩
    rw [PmgBlock.symmetry, pmg_symops_none h0]
    simp only
    rw [← List.append_nil spacegroupNameTags, symbolSearch_append (pre := spacegroupNameTags) h1, symbolSearch]
    simp only [if_true]
    rw [show spacegroupNumberTags = pre ++ tag :: post from h, numberSearch_append h2, numberSearch, ht]
    have e1 : (PmgVal.str s).isEmpty = false := by simp [PmgVal.isEmpty, hn.ne_empty]
    have e2 : (PmgVal.str s).toFloat = .ok (.num (n : ℚ)) := str2float_written hn
    simp only [e1, e2, PyFloat.toInt]
    simp [h3, opsOrP1, hne]
  | primitive h0 h1 h2 =>
    obtain ⟨ops, ho, hG⟩ := identity_parse
    refine ⟨ops, ?_, hG⟩
    rw [PmgBlock.symmetry, pmg_symops_none h0]
    simp only
    rw [← List.append_nil spacegroupNameTags, symbolSearch_append (pre := spacegroupNameTags) h1, symbolSearch]
    simp only [if_true]
    rw [← List.append_nil spacegroupNumberTags, numberSearch_append (pre := spacegroupNumberTags) h2, numberSearch]
    exact ho

/-! ### gemmi -/

theorem ListsOrbits.moved {α : Type} {G : Set (FracOp 3)} {cell : Fin 3 → Pt 3 ℝ} (hG : IsSpaceGroup cell G) {l : List α} {f g : α → SiteOrbit} {S : PeriodicSet 3}
    (h : ListsOrbits G (l.map f) S)
    (hf : ∀ x ∈ l, (g x).points = (f x).points ∧ (g x).number = (f x).number ∧ IntEq (g x).site (f x).site) : ListsOrbits G (l.map g) S where
  motif := by
    rw [h.motif, List.flatMap_map, List.flatMap_map]
    exact List.flatMap_congr fun x hx => (hf x hx).1.symm
  mult := by
    rw [h.mult, List.map_map, List.map_map]
    exact congrArg some (List.map_congr_left fun x hx => by simp [(hf x hx).1])
  asym := by
    rw [h.asym, List.length_map, List.length_map]
    congr 1
    refine List.map_congr_left fun i _ => ?_
    rw [← List.map_take, ← List.map_take, List.map_map, List.map_map]
    exact congrArg List.sum (List.map_congr_left fun x hx => by simp [(hf x (List.mem_of_mem_take hx)).1])
  nonempty := by
    intro x hx
    obtain ⟨y, hy, rfl⟩ := List.mem_map.1 hx
    rw [(hf y hy).1]
    exact h.nonempty _ (List.mem_map_of_mem hy)
  once := by
    intro x hx
    obtain ⟨y, hy, rfl⟩ := List.mem_map.1 hx
    rw [(hf y hy).1]
    exact h.once _ (List.mem_map_of_mem hy)
  orbit := by
    intro x hx
    obtain ⟨y, hy, rfl⟩ := List.mem_map.1 hx
    rw [(hf y hy).1, h.orbit _ (List.mem_map_of_mem hy)]
    refine Set.Subset.antisymm (crystal_intEq hG.lattice ?_) (crystal_intEq hG.lattice ?_)
    · rintro _ rfl
      exact ⟨_, rfl, (hf y hy).2.2.symm⟩
    · rintro _ rfl
      exact ⟨_, rfl, (hf y hy).2.2⟩
  inside := h.inside

theorem written_all {env : GemmiEnv} {b : GemmiBlock} {tags : List String} {rows : List (List String)} {p : CellNumbers} {G : Set (FracOp 3)}
    (h : WrittenBlock env b tags rows p G) {ws : List Warning} {s : ReadSet} (hs : gemmiConvert env (b.withRows tags rows) rh "all_sites" = (ws, .ok s))
    (hcell : NonSingular s.set.cell) (hG : IsSpaceGroup s.set.cell G) (hx : ∀ x ∈ WrittenSites env.asString tags rows rh "all_sites", ExactSites (1 / 1000) G {x}) :
    ∃ orbits, ListsOrbits G orbits s.set ∧ s.types = orbitTypes orbits ∧
      List.Forall₂ (fun r x => WrittenPoint tags r x.site ∧ ∃ sym, ElementText (rowText env.asString tags r) sym ∧ IsAtomicNumber sym x.number)
        (rows.filter fun r => WrittenUsed env.asString tags rh "all_sites" r) orbits := by
  obtain ⟨ws', ops, hops, rfl⟩ := described_ops h.ops
  have hne : ops ≠ [] := by
    rintro rfl
    obtain ⟨g, ⟨o, ho, -⟩, -⟩ := hG.one
    cases ho
  have hf : (rows.filter fun r => decide (UsedRow env tags rh "all_sites" r)) = rows.filter fun r => WrittenUsed env.asString tags rh "all_sites" r :=
    List.filter_congr fun r hr => by simp [written_used h hr]
  rw [convert_used h.table h.readable (skip_ordered h hs), convertUsed, hf] at hs
  have hU : ∀ r ∈ rows.filter fun r => WrittenUsed env.asString tags rh "all_sites" r, r ∈ rows ∧ UsedRow env tags rh "all_sites" r := by
    intro r hr
    rw [← hf] at hr
    have := List.mem_filter.1 hr
    exact ⟨this.1, by simpa using this.2⟩
  have hU2 : ∀ r ∈ rows.filter fun r => WrittenUsed env.asString tags rh "all_sites" r, ∃ x ∈ WrittenSites env.asString tags rows rh "all_sites",
      WrittenPoint tags r x ∧ IntEq x (toPt (rowCoord tags r)) := by
    intro r hr
    obtain ⟨x, hx⟩ := written_point h (hU r hr).1
    exact ⟨x, ⟨r, (hU r hr).1, (written_used h (hU r hr).1).1 (hU r hr).2, hx⟩, hx, rowPoint_written (usedPoints_spec h.table (hU r hr).2) hx⟩
  generalize (rows.filter fun r => WrittenUsed env.asString tags rh "all_sites" r) = used at hs hU hU2 ⊢
  cases hc : blockCell b with
  | error e => rw [hc] at hs; cases hs
  | ok cell =>
    rw [hc] at hs
    simp only at hs
    split at hs
    · cases hs
    · rw [finishBlock] at hs
      simp only [hops, removeOverlaps, ne_eq, not_true_eq_false, if_false, decide_false] at hs
      have e := (Except.ok.inj (congrArg Prod.snd hs)).symm
      subst e
      have hcell : NonSingular cell := hcell
      have hG : IsSpaceGroup cell (opSet ops) := hG
      obtain ⟨hL, hT⟩ := assemble_all (name := b.name) hcell hne (used.map fun r => toPt (rowCoord tags r)) (used.map (rowType env tags)) (by simp) (by
        intro q hq
        obtain ⟨r, hr, rfl⟩ := List.mem_map.1 hq
        obtain ⟨x, hx1, -, hx2⟩ := hU2 r hr
        exact exact_intEq hG.lattice (by rintro _ rfl; exact ⟨x, rfl, hx2⟩) (hx x hx1))
      rw [List.zip_map', List.map_map] at hL hT
      let point : List String → Pt 3 ℝ := fun r => if hr : ∃ x ∈ WrittenSites env.asString tags rows rh "all_sites", WrittenPoint tags r x ∧ IntEq x (toPt (rowCoord tags r))
        then Classical.choose hr else 0
      have hp : ∀ r ∈ used, WrittenPoint tags r (point r) ∧ IntEq (point r) (toPt (rowCoord tags r)) := by
        intro r hr
        have := hU2 r hr
        simp only [point, dif_pos this]
        exact (Classical.choose_spec this).2
      refine ⟨_, hL.moved hG (g := fun r => ⟨point r, rowType env tags r, (siteImages eqSiteTol ops (toPt (rowCoord tags r))).map (toCartesian cell)⟩) fun r hr => ⟨rfl, rfl, (hp r hr).2⟩, ?_, ?_⟩
      · exact hT.trans (by rw [orbitTypes, orbitTypes, List.flatMap_map, List.flatMap_map]; rfl)
      rw [List.forall₂_map_right_iff, List.forall₂_same]
      intro r hr
      refine ⟨(hp r hr).1, _, elementSymbol_spec _, ?_⟩
      simp only
      rw [rowType_text env h.table.nodup (h.table.width r (hU r hr).1)]
      exact C80_elements _

theorem written_reading {env : GemmiEnv} {b : GemmiBlock} {tags : List String} {rows : List (List String)} {p : CellNumbers} {G : Set (FracOp 3)}
    (h : WrittenBlock env b tags rows p G) : ReadAsWritten env.asString rh d ⟨b.name, tags, rows, p, G⟩ (gemmiConvert env (b.withRows tags rows) rh d).2 := by
  have full : ∀ s, (gemmiConvert env (b.withRows tags rows) rh d).2 = .ok s →
      gemmiConvert env (b.withRows tags rows) rh d = ((gemmiConvert env (b.withRows tags rows) rh d).1, .ok s) := fun s hs => Prod.ext rfl hs
  refine ⟨?_, ?_, ?_, ?_, ?_, ?_, ?_, ?_, ?_, ?_, ?_⟩
  · intro hk
    rw [CifEntry.Skipped, not_or] at hk
    obtain ⟨ws, s, hs⟩ := C80_accepted (rh := rh) (d := d) h (fun hd r hr hx => hk.1 ⟨hd, r, hr, hx⟩) (Set.nonempty_iff_ne_empty.2 hk.2)
    exact ⟨s, by rw [hs]⟩
  · rintro rfl hx
    rw [C80_disordered h hx]
  · intro hd hs
    rw [C80_empty h hd hs]
  · intro s hs
    obtain ⟨ws', ops, hops, -⟩ := described_ops h.ops
    obtain ⟨-, A, T, e', -⟩ := written_shape h (full s hs) hops rfl
    rw [e']
    rfl
  · exact fun s hs => C80_cell h (full s hs)
  · exact fun s hs hG hx => C80_points h (full s hs) hG hx
  · intro s hs hG hx
    obtain ⟨ws', ops, hops, hop⟩ := described_ops h.ops
    have hx' := exact_intEq hG.lattice (sites_written (rh := rh) (d := d) h).2 hx
    have hop : opSet ops = G := hop
    subst hop
    exact (convert_ne_nil h.table h.readable (full s hs) hops hG hx').2
  · intro s hs hd hc hG hx
    obtain ⟨ws', ops, hops, hop⟩ := described_ops h.ops
    have hx' := exact_intEq hG.lattice (sites_written (rh := rh) (d := d) h).2 hx
    have hop : opSet ops = G := hop
    subst hop
    exact C65_description h.table h.readable hd (full s hs) hops hc hG hx'
  · exact fun s hs hG => C80_types h (full s hs) hG
  · rintro s hs rfl hc hG hx
    exact written_all h (full s hs) hc hG hx
  · exact fun s hs hd hc δ G₀ P₀ h0 h1 hG hP hsg hu hx => written_rounded h (full s hs) hd hc h0 h1 hG hP hsg hu hx

theorem GemmiHolds.written {env : GemmiEnv} {b : GemmiBlock} (h : GemmiHolds env asString b e) (hw : e.Written) :
    WrittenBlock env b e.tags e.rows e.cell e.ops where
  table := hw.table
  numbers := hw.numbers
  len_a := h.cell ("_cell_length_a", e.cell.a) (by simp [CellNumbers.tagged])
  len_b := h.cell ("_cell_length_b", e.cell.b) (by simp [CellNumbers.tagged])
  len_c := h.cell ("_cell_length_c", e.cell.c) (by simp [CellNumbers.tagged])
  alpha := h.cell ("_cell_angle_alpha", e.cell.α) (by simp [CellNumbers.tagged])
  beta := h.cell ("_cell_angle_beta", e.cell.β) (by simp [CellNumbers.tagged])
  gamma := h.cell ("_cell_angle_gamma", e.cell.γ) (by simp [CellNumbers.tagged])
  valid := hw.valid
  ops := h.ops

theorem GemmiHolds.eq {env : GemmiEnv} {b : GemmiBlock} (h : GemmiHolds env asString b e) : b.withRows e.tags e.rows = b := by
  have := h.table
  cases b
  simp only [GemmiBlock.withRows] at this ⊢
  rw [this]

/-! ### A block of gemmi that says the same -/

/-- gemmi with these operations for each space group. -/
def plainEnv (asString : String → String) (ops : List (AffineOp 3)) : GemmiEnv := ⟨asString, fun _ => .error (.other ""), fun _ => none, fun _ => .ok ops⟩

theorem plain_written (hw : e.Written) (asString : String → String) {ops : List (AffineOp 3)} (ho : opSet ops = e.ops) :
    ∃ b, b.name = e.name ∧ WrittenBlock (plainEnv asString ops) b e.tags e.rows e.cell e.ops ∧ (blockSymmetry (plainEnv asString ops) b).2 = .ok ops := by
  obtain ⟨s1, w1⟩ := hw.decimal ("_cell_length_a", e.cell.a) (by simp [CellNumbers.tagged])
  obtain ⟨s2, w2⟩ := hw.decimal ("_cell_length_b", e.cell.b) (by simp [CellNumbers.tagged])
  obtain ⟨s3, w3⟩ := hw.decimal ("_cell_length_c", e.cell.c) (by simp [CellNumbers.tagged])
  obtain ⟨s4, w4⟩ := hw.decimal ("_cell_angle_alpha", e.cell.α) (by simp [CellNumbers.tagged])
  obtain ⟨s5, w5⟩ := hw.decimal ("_cell_angle_beta", e.cell.β) (by simp [CellNumbers.tagged])
  obtain ⟨s6, w6⟩ := hw.decimal ("_cell_angle_gamma", e.cell.γ) (by simp [CellNumbers.tagged])
  let b : GemmiBlock := ⟨e.name, fun t => [("_cell_length_a", s1), ("_cell_length_b", s2), ("_cell_length_c", s3), ("_cell_angle_alpha", s4), ("_cell_angle_beta", s5),
    ("_cell_angle_gamma", s6)].lookup t, fun _ => [], none, false⟩
  have hd : DescribesOps (plainEnv asString ops) b (asOps ops) := .primitive ⟨rfl, rfl, rfl⟩ (by simp [groupNames, b]) ops rfl rfl
  refine ⟨b, rfl, ⟨hw.table, hw.numbers, ⟨_, rfl, w1⟩, ⟨_, rfl, w2⟩, ⟨_, rfl, w3⟩, ⟨_, rfl, w4⟩, ⟨_, rfl, w5⟩, ⟨_, rfl, w6⟩, hw.valid, ?_⟩, rfl⟩
  rw [← ho]
  exact hd

/-! ### ase -/

/-- What ase makes of a text. -/
noncomputable def aseConv (asString : String → String) (s : String) : AseItem := if h : ∃ q, WritesNumber s q then .num (choose h) else .str (asString s)

theorem aseConv_num {s : String} {q : ℚ} (h : WritesNumber s q) : aseConv asString s = .num q := by
  have hx : ∃ q, WritesNumber s q := ⟨q, h⟩
  rw [aseConv, dif_pos hx, (choose_spec hx).unique h]

theorem aseConv_str {s : String} (h : ∀ q, ¬ WritesNumber s q) : aseConv asString s = .str (asString s) := dif_neg fun ⟨q, hq⟩ => h q hq

theorem AseValue.eq {s : String} {i : AseItem} (h : AseValue asString s i) : i = aseConv asString s := by
  rcases h with ⟨q, h, rfl⟩ | ⟨h, rfl⟩
  · rw [aseConv_num h]
  · rw [aseConv_str h]

theorem aseConv_reads : AseReads asString (aseConv asString) := by
  intro s
  by_cases hx : ∃ q, WritesNumber s q
  · obtain ⟨q, h⟩ := hx
    rw [aseConv_num h]
    exact ⟨(fun q' e => (by cases e; exact str2float_written h)), (fun t e => (by cases e))⟩
  · rw [aseConv_str fun q hq => hx ⟨q, hq⟩]
    exact ⟨(fun q e => (by cases e)), (fun t e => (by cases e; rfl))⟩

theorem forall₂_eq_map {α β : Type} {R : α → β → Prop} {f : α → β} {l : List α} {m : List β} (h : List.Forall₂ R l m) (hf : ∀ x ∈ l, ∀ y, R x y → y = f x) :
    m = l.map f := by
  induction h with
  | nil => rfl
  | cons h _ ih =>
    rw [List.map_cons, ← hf _ (by simp) _ h, ← ih fun x hx => hf x (by simp [hx])]

theorem AseHolds.eq {env : AseEnv} {a : AseBlock} (h : AseHolds env asString a e) : a.withRows (aseConv asString) e.tags e.rows = a := by
  cases a with
  | mk name get =>
    rw [AseBlock.withRows]
    congr 1
    funext t
    by_cases h1 : t ∈ siteTags
    · rw [if_pos h1]
      by_cases h2 : t ∈ e.tags
      · rw [if_pos h2]
        obtain ⟨l, hl, hf⟩ := h.columns t h1 h2
        simp only at hl
        rw [hl, forall₂_eq_map (f := fun r => aseConv asString ((field e.tags r t).getD "")) hf]
        rintro r - i ⟨s, hs, hi⟩
        rw [hs, hi.eq]
        rfl
      · rw [if_neg h2]
        exact (h.absent t h1 h2).symm
    · rw [if_neg h1]

theorem ase_table (hw : e.Written)
    (hwords : ∀ r ∈ e.rows, ∀ t ∈ ["_atom_site_label", "_atom_site_type_symbol"], ∀ s, field e.tags r t = some s → ∀ q, ¬ WritesNumber s q) :
    AseTable (aseConv asString) e.tags e.rows where
  toAtomTable := hw.table
  coordinates := fun r hr t ht s hs => by
    obtain ⟨q, hq⟩ := hw.numbers r hr t (by simp only [fractTags, List.mem_cons, List.not_mem_nil, or_false] at ht ⊢; tauto) s hs
    exact ⟨q, by rw [aseConv_num hq]; rfl⟩
  occupancies := fun r hr s hs => by
    obtain ⟨q, hq⟩ := hw.numbers r hr _ (by simp) s hs
    exact Or.inl ⟨q, aseConv_num hq⟩
  labels := fun r hr s hs => ⟨_, aseConv_str (hwords r hr _ (by simp) s hs)⟩
  symbols := fun r hr s hs => ⟨_, aseConv_str (hwords r hr _ (by simp) s hs)⟩

theorem AseHolds.cell_eq {env : AseEnv} {a : AseBlock} (h : AseHolds env asString a e) :
    a.cell = cellOfNumbers [e.cell.a, e.cell.b, e.cell.c, e.cell.α, e.cell.β, e.cell.γ] := by
  have hm : cellparTags.mapM a.cellValue = .ok [.num e.cell.a, .num e.cell.b, .num e.cell.c, .num e.cell.α, .num e.cell.β, .num e.cell.γ] := by
    have key : ∀ x ∈ e.cell.tagged, a.cellValue x.1 = .ok (.num x.2) := fun x hx => by
      rw [AseBlock.cellValue, h.cell x hx]
      rfl
    have h1 := key ("_cell_length_a", e.cell.a) (by simp [CellNumbers.tagged])
    have h2 := key ("_cell_length_b", e.cell.b) (by simp [CellNumbers.tagged])
    have h3 := key ("_cell_length_c", e.cell.c) (by simp [CellNumbers.tagged])
    have h4 := key ("_cell_angle_alpha", e.cell.α) (by simp [CellNumbers.tagged])
    have h5 := key ("_cell_angle_beta", e.cell.β) (by simp [CellNumbers.tagged])
    have h6 := key ("_cell_angle_gamma", e.cell.γ) (by simp [CellNumbers.tagged])
    simp [cellparTags, h1, h2, h3, h4, h5, h6]
    rfl
  rw [AseBlock.cell, hm]
  rfl

theorem ase_core {env : AseEnv} {a : AseBlock} {ops : List (AffineOp 3)} (hw : e.Written) (hname : a.name = e.name)
    (hcell : a.cell = cellOfNumbers [e.cell.a, e.cell.b, e.cell.c, e.cell.α, e.cell.β, e.cell.γ]) (hops : (a.symmetry env).2 = .ok ops) (hG : opSet ops = e.ops)
    (hsymb : "_atom_site_type_symbol" ∈ e.tags)
    (hwords : ∀ r ∈ e.rows, ∀ t ∈ ["_atom_site_label", "_atom_site_type_symbol"], ∀ s, field e.tags r t = some s → ∀ q, ¬ WritesNumber s q)
    (hh : e.OrderedHydrogens asString rh d) : ReadAsWritten asString rh d e (aseConvert env (a.withRows (aseConv asString) e.tags e.rows) rh d).2 := by
  obtain ⟨b, hn, hb, hsym⟩ := plain_written hw asString hG
  have key : (aseConvert env (a.withRows (aseConv asString) e.tags e.rows) rh d).2 = (gemmiConvert (plainEnv asString ops) (b.withRows e.tags e.rows) rh d).2 := by
    refine ase_agree (hname.trans hn.symm) (hcell.trans (written_numbers hb).symm) (hops.trans hsym.symm) (ase_table hw hwords) aseConv_reads ?_ ?_ hsymb ?_
    · intro r hr t h1 h2
      obtain ⟨q, hq⟩ := hw.numbers r hr t (by simp only [fractTags, List.mem_cons, List.not_mem_nil, or_false] at h1 ⊢; tauto) _ (field_fieldD hw.table hr h2)
      exact ⟨q, by rw [aseConv_num hq]; rfl, str2float_written hq⟩
    · intro r hr s hs
      obtain ⟨q, hq⟩ := hw.numbers r hr _ (by simp) s hs
      exact ⟨q, aseConv_num hq⟩
    · intro h1 h2 r hr hy hx
      refine hh h1 h2 r hr ?_ ?_
      · obtain ⟨s, t, hs, ht, hy⟩ := hy
        rw [(aseConv_reads (asString := asString) s).2 t ht] at hy
        exact Or.inl ⟨s, hs, hy⟩
      · rcases hx with ⟨s, q, hs, hq, hlt⟩ | ⟨s, t, l, hs, ht, hl⟩
        · obtain ⟨q', hq'⟩ := hw.numbers r hr _ (by simp) s hs
          rw [aseConv_num hq'] at hq
          cases hq
          exact Or.inl ⟨s, q, hs, hq', hlt⟩
        · rw [(aseConv_reads (asString := asString) s).2 t ht] at hl
          exact Or.inr ⟨s, hs, l, hl⟩
  rw [key]
  have := written_reading (rh := rh) (d := d) hb
  rw [hn] at this
  exact this

theorem ase_reading {env : AseEnv} {a : AseBlock} (hw : e.Written) (h : AseHolds env asString a e) (hh : e.OrderedHydrogens asString rh d) :
    ReadAsWritten asString rh d e (aseConvert env a rh d).2 := by
  obtain ⟨ops, hops, hG⟩ := ase_described h.ops
  have := ase_core hw h.name h.cell_eq hops hG h.symbols h.words hh
  rwa [h.eq] at this

theorem CifEntry.Written.filter (hw : e.Written) (p : List String → Bool) : CifEntry.Written { e with rows := e.rows.filter p } where
  table := ⟨hw.table.nodup, fun r hr => hw.table.width r (List.mem_filter.1 hr).1, hw.table.x, hw.table.y, hw.table.z⟩
  numbers := fun r hr => hw.numbers r (List.mem_filter.1 hr).1
  decimal := hw.decimal
  valid := hw.valid
  finite := hw.finite

theorem ase_removed {env : AseEnv} {a : AseBlock} (hw : e.Written) (h : AseHolds env asString a e) :
    ReadAsWritten asString false d (e.withoutHydrogens asString) (aseConvert env a true d).2 := by
  obtain ⟨ops, hops, hG⟩ := ase_described h.ops
  have he : ∀ r ∈ e.rows, AseHydrogen (aseConv asString) e.tags r ↔ HydrogenRow asString e.tags r := by
    intro r hr
    constructor
    · rintro ⟨s, t, hs, ht, hy⟩
      rw [(aseConv_reads (asString := asString) s).2 t ht] at hy
      exact Or.inl ⟨s, hs, hy⟩
    · rintro (⟨s, hs, hy⟩ | ⟨hx, -⟩)
      · exact ⟨s, _, hs, aseConv_str (h.words r hr _ (by simp) s hs), hy⟩
      · exact absurd h.symbols hx
  have := ase_core (rh := false) (d := d) (e := e.withoutHydrogens asString) (asString := asString) (hw.filter _) h.name h.cell_eq hops hG h.symbols
    (fun r hr => h.words r (List.mem_filter.1 hr).1) (fun hx => by cases hx)
  have h2 := C47_ase_removed (env := env) (b := a) (d := d) (ase_table (asString := asString) hw h.words)
  rw [h.eq] at h2
  rw [h2]
  have e2 : e.rows.filter (fun r => decide (¬ AseHydrogen (aseConv asString) e.tags r)) = (e.withoutHydrogens asString).rows :=
    List.filter_congr fun r hr => by rw [he r hr]
  rw [e2]
  exact this

/-! ### pymatgen -/

theorem PmgHolds.eq {env : PmgEnv} {b : PmgBlock} (h : PmgHolds env asString b e) : b.withRows asString e.tags e.rows = b := by
  cases b with
  | mk name get =>
    rw [PmgBlock.withRows]
    congr 1
    funext t
    by_cases h1 : t ∈ siteTags
    · rw [if_pos h1]
      by_cases h2 : t ∈ e.tags
      · rw [if_pos h2]
        obtain ⟨l, hl, hf⟩ := h.columns t h1 h2
        simp only at hl
        rw [hl, forall₂_eq_map (f := fun r => asString ((field e.tags r t).getD "")) hf]
        rintro r - i ⟨s, hs, rfl⟩
        rw [hs]
        rfl
      · rw [if_neg h2]
        exact (h.absent t h1 h2).symm
    · rw [if_neg h1]

theorem pmg_table (hw : e.Written) (hp : PlainNumbers asString e.tags e.rows) : PmgTable asString e.tags e.rows where
  toAtomTable := hw.table
  coordinates := fun r hr t ht s hs => by
    have ht' : t ∈ ["_atom_site_fract_x", "_atom_site_fract_y", "_atom_site_fract_z", "_atom_site_occupancy"] := by
      simp only [fractTags, List.mem_cons, List.not_mem_nil, or_false] at ht ⊢; tauto
    obtain ⟨q, hq⟩ := hw.numbers r hr t ht' s hs
    exact ⟨q, by rw [hp r hr t ht' s hs]; exact str2float_written hq⟩
  occupancies := fun r hr s hs => by
    obtain ⟨q, hq⟩ := hw.numbers r hr _ (by simp) s hs
    exact ⟨q, by rw [hp r hr _ (by simp) s hs]; exact str2float_written hq⟩

theorem number_known {s : String} {q : ℚ} (h : WritesNumber s q) : (PmgVal.str s).unknown = false := by
  have h' := pyFloat_written h
  rw [PmgVal.unknown, decide_eq_false_iff_not]
  rintro (rfl | rfl)
  · rw [show pyFloat (removeBrackets "?".toList) = none by decide +kernel] at h'
    cases h'
  · rw [show pyFloat (removeBrackets ".".toList) = none by decide +kernel] at h'
    cases h'

theorem PmgHolds.cell_eq {env : PmgEnv} {b : PmgBlock} (h : PmgHolds env asString b e) :
    b.cell = cellOfNumbers [e.cell.a, e.cell.b, e.cell.c, e.cell.α, e.cell.β, e.cell.γ] := by
  obtain ⟨s1, e1, w1⟩ := h.cell ("_cell_length_a", e.cell.a) (by simp [CellNumbers.tagged])
  obtain ⟨s2, e2, w2⟩ := h.cell ("_cell_length_b", e.cell.b) (by simp [CellNumbers.tagged])
  obtain ⟨s3, e3, w3⟩ := h.cell ("_cell_length_c", e.cell.c) (by simp [CellNumbers.tagged])
  obtain ⟨s4, e4, w4⟩ := h.cell ("_cell_angle_alpha", e.cell.α) (by simp [CellNumbers.tagged])
  obtain ⟨s5, e5, w5⟩ := h.cell ("_cell_angle_beta", e.cell.β) (by simp [CellNumbers.tagged])
  obtain ⟨s6, e6, w6⟩ := h.cell ("_cell_angle_gamma", e.cell.γ) (by simp [CellNumbers.tagged])
  have hm : cellparTags.mapM b.get = some [.str s1, .str s2, .str s3, .str s4, .str s5, .str s6] := by
    simp only at e1 e2 e3 e4 e5 e6
    simp [cellparTags, e1, e2, e3, e4, e5, e6]
  have hu : [PmgVal.str s1, .str s2, .str s3, .str s4, .str s5, .str s6].any PmgVal.unknown = false := by
    simp [number_known w1, number_known w2, number_known w3, number_known w4, number_known w5, number_known w6]
  have hf : [PmgVal.str s1, .str s2, .str s3, .str s4, .str s5, .str s6].mapM PmgVal.toFloat =
      .ok [.num e.cell.a, .num e.cell.b, .num e.cell.c, .num e.cell.α, .num e.cell.β, .num e.cell.γ] := by
    simp [PmgVal.toFloat, str2float_written w1, str2float_written w2, str2float_written w3, str2float_written w4, str2float_written w5, str2float_written w6]
    rfl
  rw [PmgBlock.cell, hm]
  simp only [hu, hf]
  rfl

theorem pmg_core {env : PmgEnv} {b : PmgBlock} {ops : List (AffineOp 3)} (hw : e.Written) (hname : b.header = e.name)
    (hcell : b.cell = cellOfNumbers [e.cell.a, e.cell.b, e.cell.c, e.cell.α, e.cell.β, e.cell.γ]) (hops : (b.symmetry env).2 = .ok ops) (hG : opSet ops = e.ops)
    (hsymb : "_atom_site_type_symbol" ∈ e.tags) (hp : PlainNumbers asString e.tags e.rows)
    (hh : e.OrderedHydrogens asString rh d) : ReadAsWritten asString rh d e (pymatgenConvert env (b.withRows asString e.tags e.rows) rh d).2 := by
  obtain ⟨g, hn, hb, hsym⟩ := plain_written hw asString hG
  have key : (pymatgenConvert env (b.withRows asString e.tags e.rows) rh d).2 = (gemmiConvert (plainEnv asString ops) (g.withRows e.tags e.rows) rh d).2 := by
    refine pmg_agree (genv := plainEnv asString ops) (hname.trans hn.symm) (hcell.trans (written_numbers hb).symm) (hops.trans hsym.symm) (pmg_table hw hp) hp hsymb ?_
    intro h1 h2 r hr hy hx
    refine hh h1 h2 r hr (Or.inl hy) ?_
    rcases hx with ⟨s, q, hs, hq, hlt⟩ | ⟨s, l, hs, hl⟩
    · obtain ⟨q', hq'⟩ := hw.numbers r hr _ (by simp) s hs
      change str2float (asString s) = _ at hq
      rw [hp r hr _ (by simp) s hs, str2float_written hq'] at hq
      cases hq
      exact Or.inl ⟨s, q, hs, hq', hlt⟩
    · exact Or.inr ⟨s, hs, l, hl⟩
  rw [key]
  have := written_reading (rh := rh) (d := d) hb
  rw [hn] at this
  exact this

theorem pmg_reading {env : PmgEnv} {b : PmgBlock} (hw : e.Written) (h : PmgHolds env asString b e) (hh : e.OrderedHydrogens asString rh d) :
    ReadAsWritten asString rh d e (pymatgenConvert env b rh d).2 := by
  obtain ⟨ops, hops, hG⟩ := pmg_described h.ops
  have := pmg_core hw h.name h.cell_eq hops hG h.symbols h.plain hh
  rwa [h.eq] at this

theorem pmg_removed {env : PmgEnv} {b : PmgBlock} (hw : e.Written) (h : PmgHolds env asString b e) :
    ReadAsWritten asString false d (e.withoutHydrogens asString) (pymatgenConvert env b true d).2 := by
  obtain ⟨ops, hops, hG⟩ := pmg_described h.ops
  have he : ∀ r ∈ e.rows, PmgHydrogen asString e.tags r ↔ HydrogenRow asString e.tags r := by
    intro r hr
    refine ⟨Or.inl, ?_⟩
    rintro (hy | ⟨hx, -⟩)
    · exact hy
    · exact absurd h.symbols hx
  have := pmg_core (rh := false) (d := d) (e := e.withoutHydrogens asString) (asString := asString) (hw.filter _) h.name h.cell_eq hops hG h.symbols
    (fun r hr => h.plain r (List.mem_filter.1 hr).1) (fun hx => by cases hx)
  have h2 := C47_pmg_removed (env := env) (b := b) (d := d) (pmg_table (asString := asString) hw h.plain)
  rw [h.eq] at h2
  rw [h2]
  have e2 : e.rows.filter (fun r => decide (¬ PmgHydrogen asString e.tags r)) = (e.withoutHydrogens asString).rows :=
    List.filter_congr fun r hr => by rw [he r hr]
  rw [e2]
  exact this

end Amd
