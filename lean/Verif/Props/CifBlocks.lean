import Verif.Proof.CifBlocks
import Verif.Props.GemmiBlock
import Verif.Props.Reader

/-!
# The ase and pymatgen backends: C46 and C47 for them, C63, C64
-/

set_option linter.unusedSectionVars false

namespace Amd

open Classical

variable {tags : List String} {rows : List (List String)} {rh : Bool} {d : String}

theorem ase_coord_num {conv : String → AseItem} (h : AseTable conv tags rows) {r : List String} (hr : r ∈ rows) {t : String} (ht : t ∈ fractTags) (htt : t ∈ tags) :
    (conv (fieldD tags r t)).toFloat = .ok (.num (itemNum (conv (fieldD tags r t)))) := by
  obtain ⟨q, hq⟩ := h.coordinates r hr t ht _ (field_some h.nodup (h.width r hr) htt)
  rw [itemNum, hq]

theorem pmg_coord_num {unquote : String → String} (h : PmgTable unquote tags rows) {r : List String} (hr : r ∈ rows) {t : String} (ht : t ∈ fractTags)
    (htt : t ∈ tags) : str2float (unquote (fieldD tags r t)) = .ok (.num (textNum (unquote (fieldD tags r t)))) := pmg_num h hr ht htt

/-! ### Disorder and hydrogens with ase -/

section

variable {env : AseEnv} {b : AseBlock} {conv : String → AseItem}

theorem ase_filter_dis (ht : AseTable conv tags rows) :
    (rows.filter fun r => decide (¬ AseDisordered conv tags r)) = rows.filter fun r => !aseDis conv tags r := by
  refine List.filter_congr fun r hr => ?_
  rw [Bool.eq_iff_iff, decide_eq_true_iff, ← aseDis_iff ht hr]
  simp

theorem ase_filter_hyd (ht : AseTable conv tags rows) :
    (rows.filter fun r => decide (¬ AseHydrogen conv tags r)) = rows.filter fun r => !decide (aseType conv tags r = 1) := by
  refine List.filter_congr fun r hr => ?_
  rw [Bool.eq_iff_iff, decide_eq_true_iff, ← aseType_iff ht hr]
  simp

/-- **C46** with ase, `disorder='skip'`: a crystal with a disordered site, that is not a hydrogen to be removed, is rejected with ParseError (unless its cell
cannot be read). -/
theorem C46_ase_skip_rejects (ht : AseTable conv tags rows) (h : ∃ r ∈ rows, AseDisordered conv tags r ∧ ¬ (rh = true ∧ AseHydrogen conv tags r)) :
    (∃ e, b.cell = .error e ∧ aseConvert env (b.withRows conv tags rows) rh "skip" = ([], .error e)) ∨
    aseConvert env (b.withRows conv tags rows) rh "skip" =
      ([], .error (.parse (b.name ++ " has disorder, pass disorder='ordered_sites' or 'all_sites' to remove/ignore disorder"))) := by
  rw [aseConvert_rows env b ht]
  cases b.cell with
  | error e => exact Or.inl ⟨e, rfl, rfl⟩
  | ok cell =>
    right
    obtain ⟨r, hr, h1, h2⟩ := h
    exact convertRows_rejects ⟨r, hr, (aseDis_iff ht hr).2 h1, fun hx => h2 ⟨hx.1, (aseType_iff ht hr).1 hx.2⟩⟩

/-- **C46** with ase, `disorder='skip'`: a crystal without such sites is converted as with `'ordered_sites'`. -/
theorem C46_ase_skip_accepts (ht : AseTable conv tags rows) (h : ∀ r ∈ rows, AseDisordered conv tags r → rh = true ∧ AseHydrogen conv tags r) :
    aseConvert env (b.withRows conv tags rows) rh "skip" = aseConvert env (b.withRows conv tags rows) rh "ordered_sites" := by
  rw [aseConvert_rows env b ht, aseConvert_rows env b ht]
  cases b.cell with
  | error e => rfl
  | ok cell =>
    exact convertRows_skip fun r hr hx => ⟨(h r hr ((aseDis_iff ht hr).1 hx)).1, (aseType_iff ht hr).2 (h r hr ((aseDis_iff ht hr).1 hx)).2⟩

/-- **C46** with ase, `disorder='ordered_sites'`: the result is that for the crystal without the disordered sites, which `'skip'` accepts. -/
theorem C46_ase_ordered (ht : AseTable conv tags rows) :
    aseConvert env (b.withRows conv tags rows) rh "ordered_sites" =
      aseConvert env (b.withRows conv tags (rows.filter fun r => decide (¬ AseDisordered conv tags r))) rh "skip" := by
  rw [ase_filter_dis ht, aseConvert_rows env b ht, aseConvert_rows env b (ht.filter _)]
  cases b.cell with
  | error e => rfl
  | ok cell => exact convertRows_ordered

/-- **C47** with ase, `remove_hydrogens=True`: the result is that for the crystal without the hydrogens, also if these are disordered. -/
theorem C47_ase_removed (ht : AseTable conv tags rows) :
    aseConvert env (b.withRows conv tags rows) true d =
      aseConvert env (b.withRows conv tags (rows.filter fun r => decide (¬ AseHydrogen conv tags r))) false d := by
  rw [ase_filter_hyd ht, aseConvert_rows env b ht, aseConvert_rows env b (ht.filter _)]
  cases b.cell with
  | error e => rfl
  | ok cell => exact convertRows_hydrogens

/-- **C47** with ase: the crystal is accepted if and only if a site is left; else it is rejected with ParseError. -/
theorem C47_ase_accepted (ht : AseTable conv tags rows) {cell : Fin 3 → Pt 3 ℝ} (hcell : b.cell = .ok cell) {ws : List Warning} {ops : List (AffineOp 3)}
    (hsym : b.symmetry env = (ws, .ok ops)) (hd : d = "skip" → ∀ r ∈ rows, AseDisordered conv tags r → rh = true ∧ AseHydrogen conv tags r) :
    ((∃ r ∈ rows, (d = "ordered_sites" → ¬ AseDisordered conv tags r) ∧ (rh = true → ¬ AseHydrogen conv tags r)) →
      ∃ ws s, aseConvert env (b.withRows conv tags rows) rh d = (ws, .ok s)) ∧
    ((¬ ∃ r ∈ rows, (d = "ordered_sites" → ¬ AseDisordered conv tags r) ∧ (rh = true → ¬ AseHydrogen conv tags r)) →
      aseConvert env (b.withRows conv tags rows) rh d = ([], .error (.parse (b.name ++ " has no valid sites")))) := by
  rw [aseConvert_rows env b ht, hcell]
  have key : (∃ r ∈ rows, (d = "ordered_sites" → ¬ AseDisordered conv tags r) ∧ (rh = true → ¬ AseHydrogen conv tags r)) ↔
      ∃ r ∈ rows, siteRemoved (aseType conv tags) (aseDis conv tags) rh d r = false := by
    refine exists_congr fun r => and_congr_right fun hr => ?_
    rw [← aseDis_iff ht hr, ← aseType_iff ht hr, siteRemoved, Bool.or_eq_false_iff, Bool.and_eq_false_iff, Bool.and_eq_false_iff]
    by_cases h1 : d = "ordered_sites" <;> cases rh <;> simp [h1, and_comm]
  rw [key]
  refine convertRows_accepted ?_ hsym
  rintro ⟨h1, h2⟩
  rw [any_rejected] at h2
  · simp at h2
  · exact fun r hr hx => ⟨(hd h1 r hr ((aseDis_iff ht hr).1 hx)).1, (aseType_iff ht hr).2 (hd h1 r hr ((aseDis_iff ht hr).1 hx)).2⟩

/-- **C46** with ase, `disorder='all_sites'`: every site gives an orbit, in the order of the table, also if it is disordered or overlaps others; the first
point of the orbit is the image of the site under the first symmetry operation and the type of the point is that of the row. -/
theorem C46_ase_all (ht : AseTable conv tags rows) {ws ws' : List Warning} {s : ReadSet} {ops : List (AffineOp 3)} (hs : b.symmetry env = (ws', .ok ops)) (hne : ops ≠ [])
    (h : aseConvert env (b.withRows conv tags rows) false "all_sites" = (ws, .ok s)) :
    ∃ a m, ∃ o : AffineOp 3, s.set.asymUnit = some a ∧ s.set.multiplicities = some m ∧ a.length = rows.length ∧ m.length = rows.length ∧
      ∀ i (hi : i < rows.length) (hi' : i < a.length), ∃ p q n, AsePoint conv tags rows[i] p ∧ IsImage (D := 3) o.rot o.trans p q ∧
        s.set.motif[a[i]]? = some (fun j => ∑ l, q l * s.set.cell l j) ∧ AseTypeOf conv tags rows[i] n ∧ s.types[a[i]]? = some n := by
  rw [aseConvert_rows env b ht] at h
  cases hcell : b.cell with
  | error e => rw [hcell] at h; cases h
  | ok cell =>
    rw [hcell] at h
    obtain ⟨h0, a, m, h1, h2, h3, h4, h5⟩ := convertRows_all hs hne h
    refine ⟨a, m, ops.head hne, h1, h2, h3, h4, fun i hi hi' => ?_⟩
    obtain ⟨⟨q, h6, h7⟩, h8⟩ := h5 i hi hi'
    have hr := List.getElem_mem hi
    refine ⟨_, q, _, fun k => ?_, h6, by rw [h0]; exact h7, ?_, h8⟩
    · obtain ⟨g1, g2, n, g3⟩ := modOne_spec (aseCoord conv tags rows[i]) k
      refine ⟨g1, g2, fieldD tags rows[i] (["_atom_site_fract_x", "_atom_site_fract_y", "_atom_site_fract_z"][k]), _, n, ?_, ?_, g3⟩
      · fin_cases k
        · exact field_some ht.nodup (ht.width _ hr) ht.x
        · exact field_some ht.nodup (ht.width _ hr) ht.y
        · exact field_some ht.nodup (ht.width _ hr) ht.z
      · fin_cases k
        · exact ase_coord_num ht hr (t := "_atom_site_fract_x") (by decide) ht.x
        · exact ase_coord_num ht hr (t := "_atom_site_fract_y") (by decide) ht.y
        · exact ase_coord_num ht hr (t := "_atom_site_fract_z") (by decide) ht.z
    · rw [aseType]
      by_cases hty : "_atom_site_type_symbol" ∈ tags
      · rw [if_pos hty]
        left
        have hs := field_some ht.nodup (ht.width _ hr) hty
        obtain ⟨t, hq⟩ := ht.symbols _ hr _ hs
        refine ⟨_, t, _, hs, hq, elementSymbol_spec t, ?_⟩
        rw [hq, itemText, symbolFromLabel_eq]
      · rw [if_neg hty]
        exact Or.inr ⟨hty, rfl⟩

end

/-! ### Disorder and hydrogens with pymatgen -/

section

variable {env : PmgEnv} {b : PmgBlock} {unquote : String → String}

theorem pmg_filter_dis (ht : PmgTable unquote tags rows) :
    (rows.filter fun r => decide (¬ PmgDisordered unquote tags r)) = rows.filter fun r => !pmgDis unquote tags r := by
  refine List.filter_congr fun r hr => ?_
  rw [Bool.eq_iff_iff, decide_eq_true_iff, ← pmgDis_iff ht hr]
  simp

theorem pmg_filter_hyd (ht : PmgTable unquote tags rows) :
    (rows.filter fun r => decide (¬ PmgHydrogen unquote tags r)) = rows.filter fun r => !decide (pmgType unquote tags r = 1) := by
  refine List.filter_congr fun r hr => ?_
  rw [Bool.eq_iff_iff, decide_eq_true_iff, ← pmgType_iff ht hr]
  simp

/-- **C46** with pymatgen, `disorder='skip'`: a crystal with a disordered site, that is not a hydrogen to be removed, is rejected with ParseError (unless its cell
cannot be read). -/
theorem C46_pmg_skip_rejects (ht : PmgTable unquote tags rows) (h : ∃ r ∈ rows, PmgDisordered unquote tags r ∧ ¬ (rh = true ∧ PmgHydrogen unquote tags r)) :
    (∃ e, b.cell = .error e ∧ pymatgenConvert env (b.withRows unquote tags rows) rh "skip" = ([], .error e)) ∨
    pymatgenConvert env (b.withRows unquote tags rows) rh "skip" =
      ([], .error (.parse (b.header ++ " has disorder, pass disorder='ordered_sites' or 'all_sites' to remove/ignore disorder"))) := by
  rw [pmgConvert_rows env b ht]
  cases b.cell with
  | error e => exact Or.inl ⟨e, rfl, rfl⟩
  | ok cell =>
    right
    obtain ⟨r, hr, h1, h2⟩ := h
    exact convertRows_rejects ⟨r, hr, (pmgDis_iff ht hr).2 h1, fun hx => h2 ⟨hx.1, (pmgType_iff ht hr).1 hx.2⟩⟩

/-- **C46** with pymatgen, `disorder='skip'`: a crystal without such sites is converted as with `'ordered_sites'`. -/
theorem C46_pmg_skip_accepts (ht : PmgTable unquote tags rows) (h : ∀ r ∈ rows, PmgDisordered unquote tags r → rh = true ∧ PmgHydrogen unquote tags r) :
    pymatgenConvert env (b.withRows unquote tags rows) rh "skip" = pymatgenConvert env (b.withRows unquote tags rows) rh "ordered_sites" := by
  rw [pmgConvert_rows env b ht, pmgConvert_rows env b ht]
  cases b.cell with
  | error e => rfl
  | ok cell =>
    exact convertRows_skip fun r hr hx => ⟨(h r hr ((pmgDis_iff ht hr).1 hx)).1, (pmgType_iff ht hr).2 (h r hr ((pmgDis_iff ht hr).1 hx)).2⟩

/-- **C46** with pymatgen, `disorder='ordered_sites'`: the result is that for the crystal without the disordered sites, which `'skip'` accepts. -/
theorem C46_pmg_ordered (ht : PmgTable unquote tags rows) :
    pymatgenConvert env (b.withRows unquote tags rows) rh "ordered_sites" =
      pymatgenConvert env (b.withRows unquote tags (rows.filter fun r => decide (¬ PmgDisordered unquote tags r))) rh "skip" := by
  rw [pmg_filter_dis ht, pmgConvert_rows env b ht, pmgConvert_rows env b (ht.filter _)]
  cases b.cell with
  | error e => rfl
  | ok cell => exact convertRows_ordered

/-- **C47** with pymatgen, `remove_hydrogens=True`: the result is that for the crystal without the hydrogens, also if these are disordered. -/
theorem C47_pmg_removed (ht : PmgTable unquote tags rows) :
    pymatgenConvert env (b.withRows unquote tags rows) true d =
      pymatgenConvert env (b.withRows unquote tags (rows.filter fun r => decide (¬ PmgHydrogen unquote tags r))) false d := by
  rw [pmg_filter_hyd ht, pmgConvert_rows env b ht, pmgConvert_rows env b (ht.filter _)]
  cases b.cell with
  | error e => rfl
  | ok cell => exact convertRows_hydrogens

/-- **C47** with pymatgen: the crystal is accepted if and only if a site is left; else it is rejected with ParseError. -/
theorem C47_pmg_accepted (ht : PmgTable unquote tags rows) {cell : Fin 3 → Pt 3 ℝ} (hcell : b.cell = .ok cell) {ws : List Warning} {ops : List (AffineOp 3)}
    (hsym : b.symmetry env = (ws, .ok ops)) (hd : d = "skip" → ∀ r ∈ rows, PmgDisordered unquote tags r → rh = true ∧ PmgHydrogen unquote tags r) :
    ((∃ r ∈ rows, (d = "ordered_sites" → ¬ PmgDisordered unquote tags r) ∧ (rh = true → ¬ PmgHydrogen unquote tags r)) →
      ∃ ws s, pymatgenConvert env (b.withRows unquote tags rows) rh d = (ws, .ok s)) ∧
    ((¬ ∃ r ∈ rows, (d = "ordered_sites" → ¬ PmgDisordered unquote tags r) ∧ (rh = true → ¬ PmgHydrogen unquote tags r)) →
      pymatgenConvert env (b.withRows unquote tags rows) rh d = ([], .error (.parse (b.header ++ " has no valid sites")))) := by
  rw [pmgConvert_rows env b ht, hcell]
  have key : (∃ r ∈ rows, (d = "ordered_sites" → ¬ PmgDisordered unquote tags r) ∧ (rh = true → ¬ PmgHydrogen unquote tags r)) ↔
      ∃ r ∈ rows, siteRemoved (pmgType unquote tags) (pmgDis unquote tags) rh d r = false := by
    refine exists_congr fun r => and_congr_right fun hr => ?_
    rw [← pmgDis_iff ht hr, ← pmgType_iff ht hr, siteRemoved, Bool.or_eq_false_iff, Bool.and_eq_false_iff, Bool.and_eq_false_iff]
    by_cases h1 : d = "ordered_sites" <;> cases rh <;> simp [h1, and_comm]
  rw [key]
  refine convertRows_accepted ?_ hsym
  rintro ⟨h1, h2⟩
  rw [any_rejected] at h2
  · simp at h2
  · exact fun r hr hx => ⟨(hd h1 r hr ((pmgDis_iff ht hr).1 hx)).1, (pmgType_iff ht hr).2 (hd h1 r hr ((pmgDis_iff ht hr).1 hx)).2⟩

/-- **C46** with pymatgen, `disorder='all_sites'`: every site gives an orbit, in the order of the table, also if it is disordered or overlaps others; the first
point of the orbit is the image of the site under the first symmetry operation and the type of the point is that of the row. -/
theorem C46_pmg_all (ht : PmgTable unquote tags rows) {ws ws' : List Warning} {s : ReadSet} {ops : List (AffineOp 3)} (hs : b.symmetry env = (ws', .ok ops)) (hne : ops ≠ [])
    (h : pymatgenConvert env (b.withRows unquote tags rows) false "all_sites" = (ws, .ok s)) :
    ∃ a m, ∃ o : AffineOp 3, s.set.asymUnit = some a ∧ s.set.multiplicities = some m ∧ a.length = rows.length ∧ m.length = rows.length ∧
      ∀ i (hi : i < rows.length) (hi' : i < a.length), ∃ p q n, PmgPoint unquote tags rows[i] p ∧ IsImage (D := 3) o.rot o.trans p q ∧
        s.set.motif[a[i]]? = some (fun j => ∑ l, q l * s.set.cell l j) ∧ PmgTypeOf unquote tags rows[i] n ∧ s.types[a[i]]? = some n := by
  rw [pmgConvert_rows env b ht] at h
  cases hcell : b.cell with
  | error e => rw [hcell] at h; cases h
  | ok cell =>
    rw [hcell] at h
    obtain ⟨h0, a, m, h1, h2, h3, h4, h5⟩ := convertRows_all hs hne h
    refine ⟨a, m, ops.head hne, h1, h2, h3, h4, fun i hi hi' => ?_⟩
    obtain ⟨⟨q, h6, h7⟩, h8⟩ := h5 i hi hi'
    have hr := List.getElem_mem hi
    refine ⟨_, q, _, fun k => ?_, h6, by rw [h0]; exact h7, ?_, h8⟩
    · obtain ⟨g1, g2, n, g3⟩ := modOne_spec (pmgCoord unquote tags rows[i]) k
      refine ⟨g1, g2, fieldD tags rows[i] (["_atom_site_fract_x", "_atom_site_fract_y", "_atom_site_fract_z"][k]), _, n, ?_, ?_, g3⟩
      · fin_cases k
        · exact field_some ht.nodup (ht.width _ hr) ht.x
        · exact field_some ht.nodup (ht.width _ hr) ht.y
        · exact field_some ht.nodup (ht.width _ hr) ht.z
      · fin_cases k
        · exact pmg_coord_num ht hr (t := "_atom_site_fract_x") (by decide) ht.x
        · exact pmg_coord_num ht hr (t := "_atom_site_fract_y") (by decide) ht.y
        · exact pmg_coord_num ht hr (t := "_atom_site_fract_z") (by decide) ht.z
    · rw [pmgType]
      by_cases hty : "_atom_site_type_symbol" ∈ tags
      · rw [if_pos hty]
        left
        refine ⟨_, _, field_some ht.nodup (ht.width _ hr) hty, elementSymbol_spec _, ?_⟩
        rw [symbolFromLabel_eq]
      · rw [if_neg hty]
        exact Or.inr ⟨hty, rfl⟩

end

/-! ### C63: the backends agree -/

/-- ase reads a text as a number only if it is that number; else it only takes off quotes. -/
def AseReads (asString : String → String) (conv : String → AseItem) : Prop :=
  ∀ s, (∀ q, conv s = .num q → str2float s = .ok (.num q)) ∧ ∀ t, conv s = .str t → t = asString s

/-- Numbers are not in quotes. -/
def PlainNumbers (asString : String → String) (tags : List String) (rows : List (List String)) : Prop :=
  ∀ r ∈ rows, ∀ t ∈ ["_atom_site_fract_x", "_atom_site_fract_y", "_atom_site_fract_z", "_atom_site_occupancy"], ∀ s, field tags r t = some s → asString s = s

theorem mapM_finite (qs : List ℚ) : (qs.map PyFloat.num).mapM PyFloat.finite = some qs := by
  induction qs with
  | nil => rfl
  | cons q qs ih => rw [List.map_cons, List.mapM_cons, ih]; rfl

theorem nanSum_nums (qs : List ℚ) : nanSum (qs.map PyFloat.num) = false := by simp [nanSum]

theorem mapM_option {α β : Type} {f : α → Option β} {g : α → β} : ∀ {l : List α}, (∀ x ∈ l, f x = some (g x)) → l.mapM f = some (l.map g)
  | [], _ => rfl
  | a :: l, h => by rw [List.mapM_cons, h a (by simp), mapM_option fun x hx => h x (by simp [hx])]; rfl

theorem ase_same_cell {g : GemmiBlock} {a : AseBlock} (h : AseSame g a) : a.cell = blockCell g := by
  choose! s i q h1 h2 h3 h4 using h.cell
  have e1 : cellparTags.mapM g.findValue = some (cellparTags.map s) := mapM_option h1
  have e2 : (cellparTags.map s).mapM str2float = .ok ((cellparTags.map q).map PyFloat.num) := by
    rw [mapM_ok (g := fun x => .num (textNum x)), List.map_map, List.map_map]
    · congr 1
      refine List.map_congr_left fun t ht => ?_
      simp only [Function.comp, textNum, h3 t ht]
    · intro x hx
      obtain ⟨t, ht, rfl⟩ := List.mem_map.1 hx
      rw [textNum, h3 t ht]
  have e3 : cellparTags.mapM a.cellValue = .ok ((cellparTags.map q).map PyFloat.num) := by
    rw [mapM_ok (g := fun t => .num (q t)), List.map_map]
    · rfl
    · intro t ht
      rw [AseBlock.cellValue, h2 t ht]
      exact h4 t ht
  rw [AseBlock.cell, blockCell, e1, e3]
  simp only [e2, nanSum_nums, mapM_finite]
  rfl

theorem pmg_same_cell {g : GemmiBlock} {p : PmgBlock} (h : PmgSame g p) : p.cell = blockCell g := by
  choose! s q h1 h2 h3 h4 h5 using h.cell
  have e1 : cellparTags.mapM g.findValue = some (cellparTags.map s) := mapM_option h3
  have e0 : cellparTags.mapM p.get = some (cellparTags.map fun t => .str (s t)) := mapM_option h4
  have e2 : (cellparTags.map s).mapM str2float = .ok ((cellparTags.map q).map PyFloat.num) := by
    rw [mapM_ok (g := fun x => .num (textNum x)), List.map_map, List.map_map]
    · congr 1
      refine List.map_congr_left fun t ht => ?_
      simp only [Function.comp, textNum, h5 t ht]
    · intro x hx
      obtain ⟨t, ht, rfl⟩ := List.mem_map.1 hx
      rw [textNum, h5 t ht]
  have e3 : (cellparTags.map fun t => PmgVal.str (s t)).mapM PmgVal.toFloat = .ok ((cellparTags.map q).map PyFloat.num) := by
    rw [← e2]
    generalize cellparTags = l
    induction l with
    | nil => rfl
    | cons t l ih => rw [List.map_cons, List.map_cons, List.mapM_cons, List.mapM_cons, ih]; rfl
  have e4 : (cellparTags.map fun t => PmgVal.str (s t)).any PmgVal.unknown = false := by
    rw [List.any_eq_false]
    intro x hx
    obtain ⟨t, ht, rfl⟩ := List.mem_map.1 hx
    simp [PmgVal.unknown, h1 t ht, h2 t ht]
  rw [PmgBlock.cell, blockCell, e1, e0]
  simp only [e2, e3, e4, nanSum_nums, mapM_finite]
  rfl

theorem mapM_symop (l : List String) : (l.map AseItem.str).mapM AseItem.symop = l.mapM parseSitesym := by
  induction l with
  | nil => rfl
  | cons a l ih => rw [List.map_cons, List.mapM_cons, List.mapM_cons, ih]; rfl

theorem ase_same_symmetry {g : GemmiBlock} {a : AseBlock} (h : AseSame g a) (genv : GemmiEnv) (aenv : AseEnv) :
    (a.symmetry aenv).2 = (blockSymmetry genv g).2 := by
  have key : ∀ l : List String, (∀ t ∈ l, (g.find t = [] ∧ a.get t = none) ∨ ∃ m, m ≠ [] ∧ g.find t = m ∧ a.get t = some (.list (m.map .str))) →
      (∃ t ∈ l, g.find t ≠ []) → ∃ m, ((l.map g.find).find? fun x => !x.isEmpty) = some m ∧ l.findSome? a.get = some (.list (m.map .str)) := by
    intro l
    induction l with
    | nil => rintro - ⟨t, ht, -⟩; cases ht
    | cons t l ih =>
      rintro h1 ⟨t', ht', h2⟩
      rcases h1 t (by simp) with ⟨e1, e2⟩ | ⟨m, hm, e1, e2⟩
      · rcases List.mem_cons.1 ht' with rfl | ht'
        · exact absurd e1 h2
        · obtain ⟨m, h3, h4⟩ := ih (fun t ht => h1 t (by simp [ht])) ⟨t', ht', h2⟩
          refine ⟨m, ?_, ?_⟩
          · rw [List.map_cons, List.find?_cons, e1]; exact h3
          · rw [List.findSome?_cons, e2]; exact h4
      · refine ⟨m, ?_, ?_⟩
        · rw [List.map_cons, List.find?_cons, e1]
          cases m with
          | nil => exact absurd rfl hm
          | cons x m => rfl
        · rw [List.findSome?_cons, e2]
  obtain ⟨m, h1, h2⟩ := key symopTags h.symops h.symmetry
  rw [AseBlock.symmetry, blockSymmetry, h1, h2]
  simp only [mapM_symop]

theorem pmg_same_symmetry {g : GemmiBlock} {p : PmgBlock} (h : PmgSame g p) (genv : GemmiEnv) (penv : PmgEnv) :
    (p.symmetry penv).2 = (blockSymmetry genv g).2 := by
  have key : ∀ l : List String, (∀ t ∈ l, (g.find t = [] ∧ p.get t = none) ∨ ∃ m, m ≠ [] ∧ g.find t = m ∧ p.get t = some (.list m)) →
      (∃ t ∈ l, g.find t ≠ []) → ∃ m, ((l.map g.find).find? fun x => !x.isEmpty) = some m ∧
        (l.findSome? fun t => (p.get t).filter fun v => !v.isEmpty) = some (.list m) := by
    intro l
    induction l with
    | nil => rintro - ⟨t, ht, -⟩; cases ht
    | cons t l ih =>
      rintro h1 ⟨t', ht', h2⟩
      rcases h1 t (by simp) with ⟨e1, e2⟩ | ⟨m, hm, e1, e2⟩
      · rcases List.mem_cons.1 ht' with rfl | ht'
        · exact absurd e1 h2
        · obtain ⟨m, h3, h4⟩ := ih (fun t ht => h1 t (by simp [ht])) ⟨t', ht', h2⟩
          refine ⟨m, ?_, ?_⟩
          · rw [List.map_cons, List.find?_cons, e1]; exact h3
          · rw [List.findSome?_cons, e2]; exact h4
      · cases m with
        | nil => exact absurd rfl hm
        | cons x m =>
          refine ⟨x :: m, ?_, ?_⟩
          · rw [List.map_cons, List.find?_cons, e1]; rfl
          · rw [List.findSome?_cons, e2]; rfl
  obtain ⟨m, h1, h2⟩ := key symopTags h.symops h.symmetry
  rw [PmgBlock.symmetry, PmgBlock.symops, blockSymmetry, h1, h2]
  rfl

/-- Rows that are the same for two backends give the same result. -/
theorem rows_agree {α : Type} {typ : α → ℕ} {dis : α → Bool} {coord : α → ℚ × ℚ × ℚ} {l : List α} {genv : GemmiEnv} {g : GemmiBlock} {w : String}
    {sym : Conversion (List (AffineOp 3))} (hs : sym.2 = (blockSymmetry genv g).2) {cell : Fin 3 → Pt 3 ℝ} {x : α → Fin 3 → Option ℝ}
    (hx : ∀ r ∈ l, modOne (coord r) = toPt (x r)) (hn : ∀ r ∈ l, hasNan (x r) = false)
    (hh : rh = true → d = "skip" → ∀ r ∈ l, typ r = 1 → dis r = false) :
    (convertRows typ dis coord g.name cell d w rh l sym).2 =
      (if d = "skip" ∧ (l.any dis) = true then
          (([], .error (.parse (g.name ++ " has disorder, pass disorder='ordered_sites' or 'all_sites' to remove/ignore disorder"))) : Conversion ReadSet)
        else if l.filter (fun r => !(hasNan (x r) || (decide (d = "ordered_sites") && dis r) || (rh && decide (typ r = 1)))) = [] then
          ([], .error (.parse (g.name ++ " has no valid sites")))
        else finishBlock genv g cell d
          ((l.filter fun r => !(hasNan (x r) || (decide (d = "ordered_sites") && dis r) || (rh && decide (typ r = 1)))).map fun r => toPt (x r))
          ((l.filter fun r => !(hasNan (x r) || (decide (d = "ordered_sites") && dis r) || (rh && decide (typ r = 1)))).map typ)).2 := by
  have e1 : (d = "skip" ∧ l.any (siteRejected typ dis rh) = true) ↔ (d = "skip" ∧ l.any dis = true) := by
    refine and_congr_right fun hd => ?_
    rw [List.any_eq_true, List.any_eq_true]
    refine exists_congr fun r => and_congr_right fun hr => ?_
    rw [siteRejected]
    cases hrh : rh with
    | false => simp
    | true =>
      by_cases ht : typ r = 1
      · simp [ht, hh hrh hd r hr ht]
      · simp [ht]
  have e2 : (l.filter fun r => !(hasNan (x r) || (decide (d = "ordered_sites") && dis r) || (rh && decide (typ r = 1)))) =
      l.filter fun r => !siteRemoved typ dis rh d r := by
    refine List.filter_congr fun r hr => ?_
    rw [hn r hr, siteRemoved, Bool.false_or, Bool.or_comm]
  rw [convertRows, e2]
  by_cases hc : d = "skip" ∧ l.any dis = true
  · rw [if_pos (e1.2 hc), if_pos hc]
  · rw [if_neg (fun h => hc (e1.1 h)), if_neg hc]
    split
    · rfl
    · have e3 : ((l.filter fun r => !siteRemoved typ dis rh d r).map fun r => modOne (coord r)) =
          (l.filter fun r => !siteRemoved typ dis rh d r).map fun r => toPt (x r) := List.map_congr_left fun r hr => hx r (List.mem_filter.1 hr).1
      rw [finishSites_eq genv g cell d w _ _ (by simp) hs, e3]

theorem field_fieldD (ht : AtomTable tags rows) {r : List String} (hr : r ∈ rows) {t : String} (h : t ∈ tags) : field tags r t = some (fieldD tags r t) :=
  field_some ht.nodup (ht.width r hr) h

/-- The result of ase is that of gemmi if cell, name, symmetry operations and numbers are the same. -/
theorem ase_agree {g : GemmiBlock} {a : AseBlock} {genv : GemmiEnv} {aenv : AseEnv} {conv : String → AseItem} (hname : a.name = g.name)
    (hcell : a.cell = blockCell g) (hsym : (a.symmetry aenv).2 = (blockSymmetry genv g).2) (ht : AseTable conv tags rows) (hc : AseReads genv.asString conv)
    (hnum : ∀ r ∈ rows, ∀ t ∈ fractTags, t ∈ tags → ∃ q, (conv (fieldD tags r t)).toFloat = .ok (.num q) ∧ str2float (fieldD tags r t) = .ok (.num q))
    (ho : ∀ r ∈ rows, ∀ s, field tags r "_atom_site_occupancy" = some s → ∃ q, conv s = .num q) (hty : "_atom_site_type_symbol" ∈ tags)
    (hh : rh = true → d = "skip" → ∀ r ∈ rows, AseHydrogen conv tags r → ¬ AseDisordered conv tags r) :
    (aseConvert aenv (a.withRows conv tags rows) rh d).2 = (gemmiConvert genv (g.withRows tags rows) rh d).2 := by
  have hread : Readable tags rows := by
    intro r hr t h1 s hs
    have htt : t ∈ tags := by by_contra hx; rw [field_none hx] at hs; cases hs
    rw [field_fieldD ht.toAtomTable hr htt] at hs
    obtain rfl := Option.some.inj hs
    by_cases h2 : t ∈ fractTags
    · obtain ⟨q, -, hq⟩ := hnum r hr t h2 htt
      exact ⟨_, hq⟩
    · have h3 : t = "_atom_site_occupancy" := by simp only [fractTags, List.mem_cons, List.not_mem_nil, or_false] at h1 h2; tauto
      subst h3
      obtain ⟨q, hq⟩ := ho r hr _ (field_fieldD ht.toAtomTable hr htt)
      exact ⟨_, (hc _).1 q hq⟩
  have hcoord : ∀ r ∈ rows, ∀ t ∈ fractTags, t ∈ tags → (fieldNum tags r t).coord = some (Int.fract (itemNum (conv (fieldD tags r t)) : ℝ)) := by
    intro r hr t h1 h2
    obtain ⟨q, h3, h4⟩ := hnum r hr t h1 h2
    rw [itemNum, h3, fieldNum, h4]
    rfl
  rw [aseConvert_rows aenv a ht, gemmiConvert_rows genv g ht.toAtomTable hread, hcell, hname]
  cases blockCell g with
  | error e => rfl
  | ok cell =>
    simp only
    have hdis : ∀ r ∈ rows, aseDis conv tags r = rowDis genv tags r := by
      intro r hr
      rw [aseDis, rowDis]
      congr 1
      · rw [aseLabel, rowLabel]
        by_cases hl : "_atom_site_label" ∈ tags
        · obtain ⟨t, h1⟩ := ht.labels r hr _ (field_fieldD ht.toAtomTable hr hl)
          rw [if_pos hl, if_pos hl, h1, itemText]
          exact (hc _).2 t h1
        · rw [if_neg hl, if_neg hl]
      · rw [aseOcc, rowOcc]
        by_cases hl : "_atom_site_occupancy" ∈ tags
        · obtain ⟨q, hq⟩ := ho r hr _ (field_fieldD ht.toAtomTable hr hl)
          rw [if_pos hl, if_pos hl, hq, fieldNum, (hc _).1 q hq]
          rfl
        · rw [if_neg hl, if_neg hl]
    have htyp : ∀ r ∈ rows, aseType conv tags r = rowType genv tags r := by
      intro r hr
      obtain ⟨t, h1⟩ := ht.symbols r hr _ (field_fieldD ht.toAtomTable hr hty)
      rw [aseType, rowType, if_pos hty, if_pos hty, h1, itemText, symbolFromLabel_eq, (hc _).2 t h1]
    rw [rows_agree (x := rowCoord tags) hsym]
    · have e1 : rows.any (aseDis conv tags) = rows.any (rowDis genv tags) := by
        rw [Bool.eq_iff_iff, List.any_eq_true, List.any_eq_true]
        exact exists_congr fun r => and_congr_right fun hr => by rw [hdis r hr]
      have e2 : (rows.filter fun r => !(hasNan (rowCoord tags r) || (decide (d = "ordered_sites") && aseDis conv tags r) || (rh && decide (aseType conv tags r = 1)))) =
          rows.filter fun r => !rowRemoved genv tags rh d r :=
        List.filter_congr fun r hr => by rw [rowRemoved, hdis r hr, htyp r hr]
      have e3 : ((rows.filter fun r => !rowRemoved genv tags rh d r).map (aseType conv tags)) = (rows.filter fun r => !rowRemoved genv tags rh d r).map (rowType genv tags) :=
        List.map_congr_left fun r hr => htyp r (List.mem_filter.1 hr).1
      rw [e1, e2, e3]
    · intro r hr
      funext i
      fin_cases i
      · simp [modOne, toPt, rowCoord, aseCoord, hcoord r hr _ (by decide) ht.x]
      · simp [modOne, toPt, rowCoord, aseCoord, hcoord r hr _ (by decide) ht.y]
      · simp [modOne, toPt, rowCoord, aseCoord, hcoord r hr _ (by decide) ht.z]
    · intro r hr
      simp [hasNan, rowCoord, hcoord r hr "_atom_site_fract_x" (by decide) ht.x, hcoord r hr "_atom_site_fract_y" (by decide) ht.y,
        hcoord r hr "_atom_site_fract_z" (by decide) ht.z]
    · intro h1 h2 r hr h3
      rw [← Bool.not_eq_true, aseDis_iff ht hr]
      exact hh h1 h2 r hr ((aseType_iff ht hr).1 h3)

/-- **C63** ase and gemmi give the same result for a file: same crystal, or the same exception. This is for a table of sites with type symbols where occupancies
are known numbers, symmetry operations are listed, and (with `disorder='skip'`) hydrogens that are removed are not disordered. -/
theorem C63_ase_partial {g : GemmiBlock} {a : AseBlock} {genv : GemmiEnv} {aenv : AseEnv} {conv : String → AseItem} (hsame : AseSame g a)
    (ht : AseTable conv tags rows) (hc : AseReads genv.asString conv) (hp : PlainNumbers genv.asString tags rows)
    (ho : ∀ r ∈ rows, ∀ s, field tags r "_atom_site_occupancy" = some s → ∃ q, conv s = .num q) (hty : "_atom_site_type_symbol" ∈ tags)
    (hh : rh = true → d = "skip" → ∀ r ∈ rows, AseHydrogen conv tags r → ¬ AseDisordered conv tags r) :
    (aseConvert aenv (a.withRows conv tags rows) rh d).2 = (gemmiConvert genv (g.withRows tags rows) rh d).2 := by
  have hnum : ∀ r ∈ rows, ∀ t ∈ fractTags, t ∈ tags → ∃ q, (conv (fieldD tags r t)).toFloat = .ok (.num q) ∧ str2float (fieldD tags r t) = .ok (.num q) := by
    intro r hr t h1 h2
    have hf := field_fieldD ht.toAtomTable hr h2
    obtain ⟨q, hq⟩ := ht.coordinates r hr t h1 _ hf
    refine ⟨q, hq, ?_⟩
    cases hcv : conv (fieldD tags r t) with
    | num q' =>
      rw [hcv] at hq
      rw [(hc _).1 q' hcv]
      exact hq
    | str s =>
      rw [hcv] at hq
      have e := (hc _).2 s hcv
      rw [hp r hr t (by simp only [fractTags, List.mem_cons, List.not_mem_nil, or_false] at h1 ⊢; tauto) _ hf] at e
      rw [← e]
      exact hq
  exact ase_agree hsame.name (ase_same_cell hsame) (ase_same_symmetry hsame genv aenv) ht hc hnum ho hty hh

/-- The result of pymatgen is that of gemmi if cell, name and symmetry operations are the same. -/
theorem pmg_agree {g : GemmiBlock} {p : PmgBlock} {genv : GemmiEnv} {penv : PmgEnv} (hname : p.header = g.name) (hcell : p.cell = blockCell g)
    (hsym : (p.symmetry penv).2 = (blockSymmetry genv g).2) (ht : PmgTable genv.asString tags rows) (hp : PlainNumbers genv.asString tags rows)
    (hty : "_atom_site_type_symbol" ∈ tags) (hh : rh = true → d = "skip" → ∀ r ∈ rows, PmgHydrogen genv.asString tags r → ¬ PmgDisordered genv.asString tags r) :
    (pymatgenConvert penv (p.withRows genv.asString tags rows) rh d).2 = (gemmiConvert genv (g.withRows tags rows) rh d).2 := by
  have hnum : ∀ r ∈ rows, ∀ t ∈ fractTags, t ∈ tags → ∃ q, genv.asString (fieldD tags r t) = fieldD tags r t ∧ str2float (fieldD tags r t) = .ok (.num q) := by
    intro r hr t h1 h2
    have hf := field_fieldD ht.toAtomTable hr h2
    obtain ⟨q, hq⟩ := ht.coordinates r hr t h1 _ hf
    have e := hp r hr t (by simp only [fractTags, List.mem_cons, List.not_mem_nil, or_false] at h1 ⊢; tauto) _ hf
    rw [e] at hq
    exact ⟨q, e, hq⟩
  have hocc : ∀ r ∈ rows, "_atom_site_occupancy" ∈ tags → ∃ q, genv.asString (fieldD tags r "_atom_site_occupancy") = fieldD tags r "_atom_site_occupancy" ∧
      str2float (fieldD tags r "_atom_site_occupancy") = .ok (.num q) := by
    intro r hr h2
    have hf := field_fieldD ht.toAtomTable hr h2
    obtain ⟨q, hq⟩ := ht.occupancies r hr _ hf
    have e := hp r hr _ (by simp) _ hf
    rw [e] at hq
    exact ⟨q, e, hq⟩
  have hread : Readable tags rows := by
    intro r hr t h1 s hs
    have htt : t ∈ tags := by by_contra hx; rw [field_none hx] at hs; cases hs
    rw [field_fieldD ht.toAtomTable hr htt] at hs
    obtain rfl := Option.some.inj hs
    by_cases h2 : t ∈ fractTags
    · obtain ⟨q, -, hq⟩ := hnum r hr t h2 htt
      exact ⟨_, hq⟩
    · have h3 : t = "_atom_site_occupancy" := by simp only [fractTags, List.mem_cons, List.not_mem_nil, or_false] at h1 h2; tauto
      subst h3
      obtain ⟨q, -, hq⟩ := hocc r hr htt
      exact ⟨_, hq⟩
  have hcoord : ∀ r ∈ rows, ∀ t ∈ fractTags, t ∈ tags → (fieldNum tags r t).coord = some (Int.fract (textNum (genv.asString (fieldD tags r t)) : ℝ)) := by
    intro r hr t h1 h2
    obtain ⟨q, h3, h4⟩ := hnum r hr t h1 h2
    rw [h3, textNum, fieldNum, h4]
    rfl
  rw [pmgConvert_rows penv p ht, gemmiConvert_rows genv g ht.toAtomTable hread, hcell, hname]
  cases blockCell g with
  | error e => rfl
  | ok cell =>
    simp only
    have hdis : ∀ r ∈ rows, pmgDis genv.asString tags r = rowDis genv tags r := by
      intro r hr
      rw [pmgDis, rowDis]
      congr 1
      rw [pmgOcc, rowOcc]
      by_cases hl : "_atom_site_occupancy" ∈ tags
      · obtain ⟨q, h1, hq⟩ := hocc r hr hl
        rw [if_pos hl, if_pos hl, h1, textNum, fieldNum, hq]
        rfl
      · rw [if_neg hl, if_neg hl]
    have htyp : ∀ r ∈ rows, pmgType genv.asString tags r = rowType genv tags r := by
      intro r hr
      rw [pmgType, rowType, if_pos hty, if_pos hty, symbolFromLabel_eq]
    rw [rows_agree (x := rowCoord tags) hsym]
    · have e1 : rows.any (pmgDis genv.asString tags) = rows.any (rowDis genv tags) := by
        rw [Bool.eq_iff_iff, List.any_eq_true, List.any_eq_true]
        exact exists_congr fun r => and_congr_right fun hr => by rw [hdis r hr]
      have e2 : (rows.filter fun r => !(hasNan (rowCoord tags r) || (decide (d = "ordered_sites") && pmgDis genv.asString tags r) || (rh && decide (pmgType genv.asString tags r = 1)))) =
          rows.filter fun r => !rowRemoved genv tags rh d r :=
        List.filter_congr fun r hr => by rw [rowRemoved, hdis r hr, htyp r hr]
      have e3 : ((rows.filter fun r => !rowRemoved genv tags rh d r).map (pmgType genv.asString tags)) = (rows.filter fun r => !rowRemoved genv tags rh d r).map (rowType genv tags) :=
        List.map_congr_left fun r hr => htyp r (List.mem_filter.1 hr).1
      rw [e1, e2, e3]
    · intro r hr
      funext i
      fin_cases i
      · simp [modOne, toPt, rowCoord, pmgCoord, hcoord r hr _ (by decide) ht.x]
      · simp [modOne, toPt, rowCoord, pmgCoord, hcoord r hr _ (by decide) ht.y]
      · simp [modOne, toPt, rowCoord, pmgCoord, hcoord r hr _ (by decide) ht.z]
    · intro r hr
      simp [hasNan, rowCoord, hcoord r hr "_atom_site_fract_x" (by decide) ht.x, hcoord r hr "_atom_site_fract_y" (by decide) ht.y,
        hcoord r hr "_atom_site_fract_z" (by decide) ht.z]
    · intro h1 h2 r hr h3
      rw [← Bool.not_eq_true, pmgDis_iff ht hr]
      exact hh h1 h2 r hr ((pmgType_iff ht hr).1 h3)

/-- **C63** pymatgen and gemmi give the same result for a file: same crystal, or the same exception. This is for a table of sites with type symbols where
symmetry operations are listed, and (with `disorder='skip'`) hydrogens that are removed are not disordered. -/
theorem C63_pmg_partial {g : GemmiBlock} {p : PmgBlock} {genv : GemmiEnv} {penv : PmgEnv} (hsame : PmgSame g p)
    (ht : PmgTable genv.asString tags rows) (hp : PlainNumbers genv.asString tags rows) (hty : "_atom_site_type_symbol" ∈ tags)
    (hh : rh = true → d = "skip" → ∀ r ∈ rows, PmgHydrogen genv.asString tags r → ¬ PmgDisordered genv.asString tags r) :
    (pymatgenConvert penv (p.withRows genv.asString tags rows) rh d).2 = (gemmiConvert genv (g.withRows tags rows) rh d).2 :=
  pmg_agree hsame.name (pmg_same_cell hsame) (pmg_same_symmetry hsame genv penv) ht hp hty hh

/-! ### Examples for the two backends -/

/-- Texts of numbers become numbers, others stay as they are. -/
def exampleConv (s : String) : AseItem :=
  match pyFloat (removeBrackets s.toList) with
  | some (.num q) => .num q
  | _ => .str s

theorem example_reads : AseReads id exampleConv := by
  intro s
  rw [exampleConv]
  constructor
  · intro q h
    split at h
    · rename_i q' h'
      cases h
      rw [str2float, h']
    · cases h
  · intro t h
    split at h
    · cases h
    · cases h; rfl

/-- The gemmi block of a unit cube with the identity as symmetry operation. -/
def exampleCube : GemmiBlock := { exampleBlock with find := fun t => if t = "_symmetry_equiv_pos_as_xyz" then ["x,y,z"] else [] }

/-- The ase block of the unit cube. -/
def exampleAse : AseBlock where
  name := "cube"
  get := fun t => if t ∈ ["_cell_length_a", "_cell_length_b", "_cell_length_c"] then some (.item (.num 1))
    else if t ∈ ["_cell_angle_alpha", "_cell_angle_beta", "_cell_angle_gamma"] then some (.item (.num 90))
    else if t = "_symmetry_equiv_pos_as_xyz" then some (.list [.str "x,y,z"]) else none

/-- The pymatgen block of the unit cube. -/
def examplePmg : PmgBlock where
  header := "cube"
  get := fun t => if t ∈ ["_cell_length_a", "_cell_length_b", "_cell_length_c"] then some (.str "1.000(2)")
    else if t ∈ ["_cell_angle_alpha", "_cell_angle_beta", "_cell_angle_gamma"] then some (.str "90")
    else if t = "_symmetry_equiv_pos_as_xyz" then some (.list ["x,y,z"]) else none

theorem example_ase_same : AseSame exampleCube exampleAse where
  name := rfl
  cell := by
    intro t ht
    simp only [cellparTags, List.mem_cons, List.not_mem_nil, or_false] at ht
    rcases ht with rfl | rfl | rfl | rfl | rfl | rfl
    · exact ⟨"1.000(2)", .num 1, 1, by decide +kernel, rfl, by decide +kernel, rfl⟩
    · exact ⟨"1.000(2)", .num 1, 1, by decide +kernel, rfl, by decide +kernel, rfl⟩
    · exact ⟨"1.000(2)", .num 1, 1, by decide +kernel, rfl, by decide +kernel, rfl⟩
    · exact ⟨"90", .num 90, 90, by decide +kernel, rfl, by decide +kernel, rfl⟩
    · exact ⟨"90", .num 90, 90, by decide +kernel, rfl, by decide +kernel, rfl⟩
    · exact ⟨"90", .num 90, 90, by decide +kernel, rfl, by decide +kernel, rfl⟩
  symops := by
    intro t ht
    simp only [symopTags, List.mem_cons, List.not_mem_nil, or_false] at ht
    rcases ht with rfl | rfl | rfl
    · exact Or.inl ⟨rfl, rfl⟩
    · exact Or.inl ⟨rfl, rfl⟩
    · exact Or.inr ⟨["x,y,z"], by simp, rfl, rfl⟩
  symmetry := ⟨"_symmetry_equiv_pos_as_xyz", by decide, by decide⟩

theorem example_pmg_same : PmgSame exampleCube examplePmg where
  name := rfl
  cell := by
    intro t ht
    simp only [cellparTags, List.mem_cons, List.not_mem_nil, or_false] at ht
    rcases ht with rfl | rfl | rfl | rfl | rfl | rfl
    · exact ⟨"1.000(2)", 1, by decide, by decide, by decide +kernel, rfl, by decide +kernel⟩
    · exact ⟨"1.000(2)", 1, by decide, by decide, by decide +kernel, rfl, by decide +kernel⟩
    · exact ⟨"1.000(2)", 1, by decide, by decide, by decide +kernel, rfl, by decide +kernel⟩
    · exact ⟨"90", 90, by decide, by decide, by decide +kernel, rfl, by decide +kernel⟩
    · exact ⟨"90", 90, by decide, by decide, by decide +kernel, rfl, by decide +kernel⟩
    · exact ⟨"90", 90, by decide, by decide, by decide +kernel, rfl, by decide +kernel⟩
  symops := by
    intro t ht
    simp only [symopTags, List.mem_cons, List.not_mem_nil, or_false] at ht
    rcases ht with rfl | rfl | rfl
    · exact Or.inl ⟨rfl, rfl⟩
    · exact Or.inl ⟨rfl, rfl⟩
    · exact Or.inr ⟨["x,y,z"], by simp, rfl, rfl⟩
  symmetry := ⟨"_symmetry_equiv_pos_as_xyz", by decide, by decide⟩

theorem example_cube_cell : blockCell exampleCube = .ok ![![1, 0, 0], ![0, 1, 0], ![0, 0, 1]] := example_cell

theorem example_cube_ops : ∃ o, (blockSymmetry exampleGemmi exampleCube).2 = .ok [o] := by
  have : ∃ o, parseSitesym "x,y,z" = .ok o := by
    have h : (match parseSitesym "x,y,z" with | .ok _ => true | .error _ => false) = true := by decide +kernel
    split at h
    · exact ⟨_, by assumption⟩
    · cases h
  obtain ⟨o, ho⟩ := this
  refine ⟨o.affine, ?_⟩
  have : (symopTags.map exampleCube.find).find? (fun l => !l.isEmpty) = some ["x,y,z"] := by decide
  rw [blockSymmetry, this]
  simp only [List.mapM_cons, List.mapM_nil, ho]
  rfl

/-- The environments of the examples, without space groups. -/
def exampleAseEnv : AseEnv := ⟨fun _ => .error (.other "not needed")⟩

/-- The environments of the examples, without space groups. -/
def examplePmgEnv : PmgEnv := ⟨fun _ => none, fun _ => none, fun _ => none, fun _ => none⟩

theorem example_ase_ops : ∃ ws o, exampleAse.symmetry exampleAseEnv = (ws, .ok [o]) := by
  obtain ⟨o, ho⟩ := example_cube_ops
  exact ⟨_, o, Prod.ext rfl (by rw [ase_same_symmetry example_ase_same exampleGemmi, ho])⟩

theorem example_pmg_ops : ∃ ws o, examplePmg.symmetry examplePmgEnv = (ws, .ok [o]) := by
  obtain ⟨o, ho⟩ := example_cube_ops
  exact ⟨_, o, Prod.ext rfl (by rw [pmg_same_symmetry example_pmg_same exampleGemmi, ho])⟩

/-- Whether a text is a number for `toFloat`. -/
def isNum : Except Exc PyFloat → Bool
  | .ok (.num _) => true
  | _ => false

theorem isNum_spec {x : Except Exc PyFloat} (h : isNum x = true) : ∃ q, x = .ok (.num q) := by
  match x, h with
  | .ok (.num q), _ => exact ⟨q, rfl⟩

/-- Whether ase reads a text as a number. -/
def AseItem.isNum : AseItem → Bool
  | .num _ => true
  | .str _ => false

theorem isNumItem_spec {x : AseItem} (h : x.isNum = true) : ∃ q, x = .num q := by
  match x, h with
  | .num q, _ => exact ⟨q, rfl⟩

theorem isStr_spec {x : AseItem} (h : x.isNum = false) : ∃ t, x = .str t := by
  match x, h with
  | .str t, _ => exact ⟨t, rfl⟩

/-- All conditions of `AseTable` for `exampleConv` on a concrete table. -/
def aseCheck (tags : List String) (rows : List (List String)) : Bool :=
  decide tags.Nodup && fractTags.all (fun t => decide (t ∈ tags)) && rows.all fun r =>
    decide (r.length = tags.length) && fractTags.all (fun t => (field tags r t).all fun s => isNum (exampleConv s).toFloat) &&
    (field tags r "_atom_site_occupancy").all (fun s => (exampleConv s).isNum || decide (exampleConv s = .str "?") || decide (exampleConv s = .str ".")) &&
    (field tags r "_atom_site_label").all (fun s => !(exampleConv s).isNum) && (field tags r "_atom_site_type_symbol").all (fun s => !(exampleConv s).isNum)

theorem aseCheck_spec (h : aseCheck tags rows = true) : AseTable exampleConv tags rows := by
  simp only [aseCheck, fractTags, Bool.and_eq_true, decide_eq_true_eq, List.all_eq_true, List.mem_cons, List.not_mem_nil, or_false, Option.all_eq_true,
    Bool.or_eq_true, Bool.not_eq_true'] at h
  obtain ⟨⟨h1, h2⟩, h3⟩ := h
  exact {
    nodup := h1
    width := fun r hr => (h3 r hr).1.1.1.1
    x := h2 _ (by simp)
    y := h2 _ (by simp)
    z := h2 _ (by simp)
    coordinates := fun r hr t ht s hs => isNum_spec ((h3 r hr).1.1.1.2 t (by simpa [fractTags] using ht) s hs)
    occupancies := fun r hr s hs => by
      rcases (h3 r hr).1.1.2 s hs with (h | h) | h
      · exact Or.inl (isNumItem_spec h)
      · exact Or.inr (Or.inl h)
      · exact Or.inr (Or.inr h)
    labels := fun r hr s hs => isStr_spec ((h3 r hr).1.2 s hs)
    symbols := fun r hr s hs => isStr_spec ((h3 r hr).2 s hs) }

/-- All conditions of `PmgTable` on a concrete table without quotes. -/
def pmgCheck (tags : List String) (rows : List (List String)) : Bool :=
  decide tags.Nodup && fractTags.all (fun t => decide (t ∈ tags)) && rows.all fun r =>
    decide (r.length = tags.length) && fractTags.all (fun t => (field tags r t).all fun s => isNum (str2float s)) &&
    (field tags r "_atom_site_occupancy").all (fun s => isNum (str2float s))

theorem pmgCheck_spec (h : pmgCheck tags rows = true) : PmgTable id tags rows := by
  simp only [pmgCheck, fractTags, Bool.and_eq_true, decide_eq_true_eq, List.all_eq_true, List.mem_cons, List.not_mem_nil, or_false, Option.all_eq_true] at h
  obtain ⟨⟨h1, h2⟩, h3⟩ := h
  exact {
    nodup := h1
    width := fun r hr => (h3 r hr).1.1
    x := h2 _ (by simp)
    y := h2 _ (by simp)
    z := h2 _ (by simp)
    coordinates := fun r hr t ht s hs => isNum_spec ((h3 r hr).1.2 t (by simpa [fractTags] using ht) s hs)
    occupancies := fun r hr s hs => isNum_spec ((h3 r hr).2 s hs) }

/-- Tags with type symbols. -/
def symbolTags : List String :=
  ["_atom_site_label", "_atom_site_type_symbol", "_atom_site_fract_x", "_atom_site_fract_y", "_atom_site_fract_z", "_atom_site_occupancy"]

/-- A disordered carbon, a nitrogen and a hydrogen: ase and pymatgen remove the carbon and the hydrogen like gemmi, and the three results are the same crystal. -/
example : ∃ s, (gemmiConvert exampleGemmi (exampleCube.withRows symbolTags [["C1?", "C", "0.25", "0", "0", "1"], ["N1", "N", "0.5(1)", "0", "0", "1"],
      ["H1", "H", "1", "0.25", "0", "1"]]) true "ordered_sites").2 = .ok s ∧
    (aseConvert exampleAseEnv (exampleAse.withRows exampleConv symbolTags [["C1?", "C", "0.25", "0", "0", "1"], ["N1", "N", "0.5(1)", "0", "0", "1"],
      ["H1", "H", "1", "0.25", "0", "1"]]) true "ordered_sites").2 = .ok s ∧
    (pymatgenConvert examplePmgEnv (examplePmg.withRows id symbolTags [["C1?", "C", "0.25", "0", "0", "1"], ["N1", "N", "0.5(1)", "0", "0", "1"],
      ["H1", "H", "1", "0.25", "0", "1"]]) true "ordered_sites").2 = .ok s := by
  have ta : AseTable exampleConv symbolTags [["C1?", "C", "0.25", "0", "0", "1"], ["N1", "N", "0.5(1)", "0", "0", "1"], ["H1", "H", "1", "0.25", "0", "1"]] :=
    aseCheck_spec (by decide +kernel)
  have tp : PmgTable id symbolTags [["C1?", "C", "0.25", "0", "0", "1"], ["N1", "N", "0.5(1)", "0", "0", "1"], ["H1", "H", "1", "0.25", "0", "1"]] :=
    pmgCheck_spec (by decide +kernel)
  have hplain : PlainNumbers id symbolTags [["C1?", "C", "0.25", "0", "0", "1"], ["N1", "N", "0.5(1)", "0", "0", "1"], ["H1", "H", "1", "0.25", "0", "1"]] :=
    fun _ _ _ _ _ _ => rfl
  have ea := C63_ase_partial (rh := true) (d := "ordered_sites") (genv := exampleGemmi) (aenv := exampleAseEnv) example_ase_same ta example_reads hplain
    (by
      intro r hr s hs
      have : (exampleConv "1").isNum = true := by decide +kernel
      have hs1 : s = "1" := by
        simp only [List.mem_cons, List.not_mem_nil, or_false] at hr
        rcases hr with rfl | rfl | rfl
        · exact (Option.some.inj hs).symm
        · exact (Option.some.inj hs).symm
        · exact (Option.some.inj hs).symm
      rw [hs1]
      exact isNumItem_spec this)
    (by decide) (fun _ h => absurd h (by decide))
  have ep := C63_pmg_partial (rh := true) (d := "ordered_sites") (genv := exampleGemmi) (penv := examplePmgEnv) example_pmg_same tp hplain
    (by decide) (fun _ h => absurd h (by decide))
  obtain ⟨ws, o, ho⟩ := example_ase_ops
  obtain ⟨ws', s, hs⟩ := (C47_ase_accepted (rh := true) (d := "ordered_sites") ta (by rw [ase_same_cell example_ase_same]; exact example_cube_cell) ho
    (fun h => absurd h (by decide))).1 ⟨["N1", "N", "0.5(1)", "0", "0", "1"], by simp, fun _ h => by
      rw [← aseDis_iff ta (by simp)] at h
      exact absurd h (by decide +kernel), fun _ h => by
      rw [← aseType_iff ta (by simp)] at h
      exact absurd h (by decide +kernel)⟩
  rw [hs] at ea
  refine ⟨s, ea.symm, by rw [hs], ?_⟩
  exact ep.trans ea.symm

/-- A carbon at half occupancy and a hydrogen: with ase and with pymatgen, `'skip'` rejects the crystal and `'all_sites'` gives two orbits. -/
example : aseConvert exampleAseEnv (exampleAse.withRows exampleConv symbolTags [["C1", "C", "0", "0", "0", "0.5(1)"], ["H1", "H", "0.25", "0", "0", "1"]]) true "skip" =
      ([], .error (.parse "cube has disorder, pass disorder='ordered_sites' or 'all_sites' to remove/ignore disorder")) ∧
    pymatgenConvert examplePmgEnv (examplePmg.withRows id symbolTags [["C1", "C", "0", "0", "0", "0.5(1)"], ["H1", "H", "0.25", "0", "0", "1"]]) true "skip" =
      ([], .error (.parse "cube has disorder, pass disorder='ordered_sites' or 'all_sites' to remove/ignore disorder")) ∧
    (∃ ws s a, aseConvert exampleAseEnv (exampleAse.withRows exampleConv symbolTags [["C1", "C", "0", "0", "0", "0.5(1)"], ["H1", "H", "0.25", "0", "0", "1"]]) false
      "all_sites" = (ws, .ok s) ∧ s.set.asymUnit = some a ∧ a.length = 2) ∧
    ∃ ws s a, pymatgenConvert examplePmgEnv (examplePmg.withRows id symbolTags [["C1", "C", "0", "0", "0", "0.5(1)"], ["H1", "H", "0.25", "0", "0", "1"]]) false
      "all_sites" = (ws, .ok s) ∧ s.set.asymUnit = some a ∧ a.length = 2 := by
  have ta : AseTable exampleConv symbolTags [["C1", "C", "0", "0", "0", "0.5(1)"], ["H1", "H", "0.25", "0", "0", "1"]] := aseCheck_spec (by decide +kernel)
  have tp : PmgTable id symbolTags [["C1", "C", "0", "0", "0", "0.5(1)"], ["H1", "H", "0.25", "0", "0", "1"]] := pmgCheck_spec (by decide +kernel)
  have ca : exampleAse.cell = _ := (ase_same_cell example_ase_same).trans example_cube_cell
  have cp : examplePmg.cell = _ := (pmg_same_cell example_pmg_same).trans example_cube_cell
  obtain ⟨wa, oa, ha⟩ := example_ase_ops
  obtain ⟨wp, op, hp⟩ := example_pmg_ops
  refine ⟨?_, ?_, ?_, ?_⟩
  · rcases C46_ase_skip_rejects (env := exampleAseEnv) (b := exampleAse) (rh := true) ta ⟨["C1", "C", "0", "0", "0", "0.5(1)"], by simp,
      (aseDis_iff ta (by simp)).1 (by decide +kernel), fun h => absurd ((aseType_iff ta (by simp)).2 h.2) (by decide +kernel)⟩ with ⟨e, he, -⟩ | h
    · rw [ca] at he; cases he
    · exact h
  · rcases C46_pmg_skip_rejects (env := examplePmgEnv) (b := examplePmg) (rh := true) tp ⟨["C1", "C", "0", "0", "0", "0.5(1)"], by simp,
      (pmgDis_iff tp (by simp)).1 (by decide +kernel), fun h => absurd ((pmgType_iff tp (by simp)).2 h.2) (by decide +kernel)⟩ with ⟨e, he, -⟩ | h
    · rw [cp] at he; cases he
    · exact h
  · obtain ⟨ws, s, h⟩ := (C47_ase_accepted (rh := false) (d := "all_sites") ta ca ha (fun h => absurd h (by decide))).1
      ⟨_, List.mem_cons_self, fun h => absurd h (by decide), fun h => absurd h (by decide)⟩
    obtain ⟨a, m, o, h1, h2, h3, -⟩ := C46_ase_all ta ha (by simp) h
    exact ⟨ws, s, a, h, h1, h3⟩
  · obtain ⟨ws, s, h⟩ := (C47_pmg_accepted (rh := false) (d := "all_sites") tp cp hp (fun h => absurd h (by decide))).1
      ⟨_, List.mem_cons_self, fun h => absurd h (by decide), fun h => absurd h (by decide)⟩
    obtain ⟨a, m, o, h1, h2, h3, -⟩ := C46_pmg_all tp hp (by simp) h
    exact ⟨ws, s, a, h, h1, h3⟩

/-! ### Where the backends do not agree -/

/-- **C63 does not hold** for files without type symbols: gemmi takes the elements from the labels, ase and pymatgen do not and keep the hydrogens. -/
theorem C63_false_hydrogens : ∃ rows,
    gemmiConvert exampleGemmi (exampleCube.withRows exampleTags rows) true "skip" = ([], .error (.parse "cube has no valid sites")) ∧
    (∃ ws s, aseConvert exampleAseEnv (exampleAse.withRows exampleConv exampleTags rows) true "skip" = (ws, .ok s)) ∧
    ∃ ws s, pymatgenConvert examplePmgEnv (examplePmg.withRows id exampleTags rows) true "skip" = (ws, .ok s) := by
  refine ⟨[["H1", "0.25", "0", "0", "1"]], ?_, ?_, ?_⟩
  · have t1 : AtomTable exampleTags [["H1", "0.25", "0", "0", "1"]] := example_table (by simp)
    have r1 : Readable exampleTags [["H1", "0.25", "0", "0", "1"]] := example_readable (by simp) (by decide)
    obtain ⟨o, ho⟩ := example_cube_ops
    have hsym : blockSymmetry exampleGemmi exampleCube = ((blockSymmetry exampleGemmi exampleCube).1, .ok [o]) := by rw [← ho]
    refine (C47_accepted (b := exampleCube) t1 r1 example_cube_cell hsym fun _ r hr => ?_).2 ?_
    · rw [List.mem_singleton.1 hr, ← rowDis_iff exampleGemmi t1.nodup (by rfl)]
      decide +kernel
    · rintro ⟨r, hr, -, -, h3⟩
      rw [List.mem_singleton.1 hr] at h3
      exact h3 rfl ((rowType_iff exampleGemmi t1.nodup (by rfl)).1 (by decide +kernel))
  · have ta : AseTable exampleConv exampleTags [["H1", "0.25", "0", "0", "1"]] := aseCheck_spec (by decide +kernel)
    obtain ⟨wa, oa, ha⟩ := example_ase_ops
    refine (C47_ase_accepted ta ((ase_same_cell example_ase_same).trans example_cube_cell) ha fun _ r hr h => ?_).1
      ⟨_, List.mem_cons_self, fun h => absurd h (by decide), fun _ h => ?_⟩
    · rw [← aseDis_iff ta hr, List.mem_singleton.1 hr] at h
      exact absurd h (by decide +kernel)
    · rw [← aseType_iff ta (by simp)] at h
      exact absurd h (by decide +kernel)
  · have tp : PmgTable id exampleTags [["H1", "0.25", "0", "0", "1"]] := pmgCheck_spec (by decide +kernel)
    obtain ⟨wp, op, hp⟩ := example_pmg_ops
    refine (C47_pmg_accepted tp ((pmg_same_cell example_pmg_same).trans example_cube_cell) hp fun _ r hr h => ?_).1
      ⟨_, List.mem_cons_self, fun h => absurd h (by decide), fun _ h => ?_⟩
    · rw [← pmgDis_iff tp hr, List.mem_singleton.1 hr] at h
      exact absurd h (by decide +kernel)
    · rw [← pmgType_iff tp (by simp)] at h
      exact absurd h (by decide +kernel)

/-- **C63 does not hold** for unknown occupancies: gemmi takes them as 0, which is disorder, ase as 1. -/
theorem C63_false_occupancy : ∃ rows,
    gemmiConvert exampleGemmi (exampleCube.withRows symbolTags rows) false "skip" =
      ([], .error (.parse "cube has disorder, pass disorder='ordered_sites' or 'all_sites' to remove/ignore disorder")) ∧
    ∃ ws s, aseConvert exampleAseEnv (exampleAse.withRows exampleConv symbolTags rows) false "skip" = (ws, .ok s) := by
  refine ⟨[["C1", "C", "0.25", "0", "0", "?"]], ?_, ?_⟩
  · have t1 : AtomTable symbolTags [["C1", "C", "0.25", "0", "0", "?"]] := (pmgCheck_spec (by decide +kernel)).toAtomTable
    have tp : PmgTable id symbolTags [["C1", "C", "0.25", "0", "0", "?"]] := pmgCheck_spec (by decide +kernel)
    have r1 : Readable symbolTags [["C1", "C", "0.25", "0", "0", "?"]] := by
      intro r hr t ht s hs
      by_cases h : t ∈ fractTags
      · obtain ⟨q, hq⟩ := tp.coordinates r hr t h s hs
        exact ⟨_, hq⟩
      · have h3 : t = "_atom_site_occupancy" := by simp only [fractTags, List.mem_cons, List.not_mem_nil, or_false] at ht h; tauto
        subst h3
        obtain ⟨q, hq⟩ := tp.occupancies r hr s hs
        exact ⟨_, hq⟩
    rcases C46_skip_rejects (env := exampleGemmi) (b := exampleCube) (rh := false) t1 r1
      ⟨_, List.mem_singleton_self _, (rowDis_iff exampleGemmi t1.nodup (by rfl)).1 (by decide +kernel)⟩ with ⟨e, he, -⟩ | h
    · rw [example_cube_cell] at he; cases he
    · exact h
  · have ta : AseTable exampleConv symbolTags [["C1", "C", "0.25", "0", "0", "?"]] := aseCheck_spec (by decide +kernel)
    obtain ⟨wa, oa, ha⟩ := example_ase_ops
    refine (C47_ase_accepted ta ((ase_same_cell example_ase_same).trans example_cube_cell) ha fun _ r hr h => ?_).1
      ⟨_, List.mem_cons_self, fun h => absurd h (by decide), fun h => absurd h (by decide)⟩
    rw [← aseDis_iff ta hr, List.mem_singleton.1 hr] at h
    exact absurd h (by decide +kernel)

/-- **C63 does not hold** for disordered hydrogens that are removed, with `disorder='skip'`: gemmi rejects the crystal because of them, ase and pymatgen do
not. -/
theorem C63_false_disordered_hydrogen : ∃ rows,
    gemmiConvert exampleGemmi (exampleCube.withRows symbolTags rows) true "skip" =
      ([], .error (.parse "cube has disorder, pass disorder='ordered_sites' or 'all_sites' to remove/ignore disorder")) ∧
    (∃ ws s, aseConvert exampleAseEnv (exampleAse.withRows exampleConv symbolTags rows) true "skip" = (ws, .ok s)) ∧
    ∃ ws s, pymatgenConvert examplePmgEnv (examplePmg.withRows id symbolTags rows) true "skip" = (ws, .ok s) := by
  refine ⟨[["C1", "C", "0", "0", "0", "1"], ["H1", "H", "0.25", "0", "0", "0.5(1)"]], ?_, ?_, ?_⟩
  · have tp : PmgTable id symbolTags [["C1", "C", "0", "0", "0", "1"], ["H1", "H", "0.25", "0", "0", "0.5(1)"]] := pmgCheck_spec (by decide +kernel)
    have r1 : Readable symbolTags [["C1", "C", "0", "0", "0", "1"], ["H1", "H", "0.25", "0", "0", "0.5(1)"]] := by
      intro r hr t ht s hs
      by_cases h : t ∈ fractTags
      · obtain ⟨q, hq⟩ := tp.coordinates r hr t h s hs
        exact ⟨_, hq⟩
      · have h3 : t = "_atom_site_occupancy" := by simp only [fractTags, List.mem_cons, List.not_mem_nil, or_false] at ht h; tauto
        subst h3
        obtain ⟨q, hq⟩ := tp.occupancies r hr s hs
        exact ⟨_, hq⟩
    rcases C46_skip_rejects (env := exampleGemmi) (b := exampleCube) (rh := true) tp.toAtomTable r1
      ⟨["H1", "H", "0.25", "0", "0", "0.5(1)"], by simp, (rowDis_iff exampleGemmi tp.nodup (by rfl)).1 (by decide +kernel)⟩ with ⟨e, he, -⟩ | h
    · rw [example_cube_cell] at he; cases he
    · exact h
  · have ta : AseTable exampleConv symbolTags [["C1", "C", "0", "0", "0", "1"], ["H1", "H", "0.25", "0", "0", "0.5(1)"]] := aseCheck_spec (by decide +kernel)
    obtain ⟨wa, oa, ha⟩ := example_ase_ops
    refine (C47_ase_accepted ta ((ase_same_cell example_ase_same).trans example_cube_cell) ha fun _ r hr h => ⟨rfl, ?_⟩).1
      ⟨_, List.mem_cons_self, fun h => absurd h (by decide), fun _ h => ?_⟩
    · rw [← aseDis_iff ta hr] at h
      rw [← aseType_iff ta hr]
      simp only [List.mem_cons, List.not_mem_nil, or_false] at hr
      rcases hr with rfl | rfl
      · exact absurd h (by decide +kernel)
      · decide +kernel
    · rw [← aseType_iff ta (by simp)] at h
      exact absurd h (by decide +kernel)
  · have tp : PmgTable id symbolTags [["C1", "C", "0", "0", "0", "1"], ["H1", "H", "0.25", "0", "0", "0.5(1)"]] := pmgCheck_spec (by decide +kernel)
    obtain ⟨wp, op, hp⟩ := example_pmg_ops
    refine (C47_pmg_accepted tp ((pmg_same_cell example_pmg_same).trans example_cube_cell) hp fun _ r hr h => ⟨rfl, ?_⟩).1
      ⟨_, List.mem_cons_self, fun h => absurd h (by decide), fun _ h => ?_⟩
    · rw [← pmgDis_iff tp hr] at h
      rw [← pmgType_iff tp hr]
      simp only [List.mem_cons, List.not_mem_nil, or_false] at hr
      rcases hr with rfl | rfl
      · exact absurd h (by decide +kernel)
      · decide +kernel
    · rw [← pmgType_iff tp (by simp)] at h
      exact absurd h (by decide +kernel)

/-- The pymatgen block with one site that is given by tags, not in a loop. -/
def exampleSingle (x y z : String) : PmgBlock :=
  { examplePmg with get := fun t => if t = "_atom_site_fract_x" then some (.str x) else if t = "_atom_site_fract_y" then some (.str y)
      else if t = "_atom_site_fract_z" then some (.str z) else examplePmg.get t }

/-- **C63 does not hold** for pymatgen and a site that is not in a loop: its coordinates are read character by character. A site at (0.25, 0.5, 0.75) is read
as three sites at the origin. -/
theorem C63_false_single_site :
    (pymatgenConvert examplePmgEnv (exampleSingle "0.25" "0.5" "0.75") false "all_sites") =
      pymatgenConvert examplePmgEnv (examplePmg.withRows id fractTags [["0", "0", "0"], ["0", "0", "0"], ["0", "0", "0"]]) false "all_sites" ∧
    ∃ ws s, pymatgenConvert examplePmgEnv (exampleSingle "0.25" "0.5" "0.75") false "all_sites" = (ws, .ok s) := by
  have tp : PmgTable id fractTags [["0", "0", "0"], ["0", "0", "0"], ["0", "0", "0"]] := pmgCheck_spec (by decide +kernel)
  have ca : examplePmg.cell = .ok _ := (pmg_same_cell example_pmg_same).trans example_cube_cell
  obtain ⟨wp, op, hp⟩ := example_pmg_ops
  have key : pymatgenConvert examplePmgEnv (exampleSingle "0.25" "0.5" "0.75") false "all_sites" =
      pymatgenConvert examplePmgEnv (examplePmg.withRows id fractTags [["0", "0", "0"], ["0", "0", "0"], ["0", "0", "0"]]) false "all_sites" := by
    have e0 : (exampleSingle "0.25" "0.5" "0.75").cell = examplePmg.cell := rfl
    have e1 : (exampleSingle "0.25" "0.5" "0.75").symmetry examplePmgEnv = examplePmg.symmetry examplePmgEnv := rfl
    have e2 : (exampleSingle "0.25" "0.5" "0.75").coords = .ok [(.num 0, .num 0, .num 0), (.num 0, .num 0, .num 0), (.num 2, .num 5, .num 7)] := by
      decide +kernel
    rw [pmgConvert_rows _ _ tp, pymatgenConvert, e0, ca, e1, e2]
    simp only [PmgBlock.disorder, ne_eq, not_true_eq_false, if_false]
    have e3 : [(PyFloat.num 0, PyFloat.num 0, PyFloat.num 0), (.num 0, .num 0, .num 0), (.num 2, .num 5, .num 7)].mapM siteOf =
        some [(0, 0, 0), (0, 0, 0), (2, 5, 7)] := rfl
    rw [e3]
    simp only
    have e4 : (exampleSingle "0.25" "0.5" "0.75").types [(PyFloat.num 0, PyFloat.num 0, PyFloat.num 0), (.num 0, .num 0, .num 0), (.num 2, .num 5, .num 7)].length =
      [0, 0, 0] := rfl
    have e5 : pmgCoord id fractTags ["0", "0", "0"] = (0, 0, 0) := by decide +kernel
    have e6 : pmgType id fractTags ["0", "0", "0"] = 0 := by decide +kernel
    have e7 : modOne (2, 5, 7) = modOne (0, 0, 0) := by
      have h : ∀ n : ℕ, Int.fract (((n : ℚ)) : ℝ) = 0 := fun n => by simp
      simp only [modOne]
      rw [show ((2 : ℚ) : ℝ) = (((2 : ℕ) : ℚ) : ℝ) by norm_num, show ((5 : ℚ) : ℝ) = (((5 : ℕ) : ℚ) : ℝ) by norm_num,
        show ((7 : ℚ) : ℝ) = (((7 : ℕ) : ℚ) : ℝ) by norm_num, h, h, h]
      simp
    rw [e4, convertSites, convertRows, if_neg (fun hx => absurd hx.1 (by decide))]
    have e8 : removeSites [0, 0, 0] [] false "all_sites" = some [] := by decide
    have e9 : (exampleSingle "0.25" "0.5" "0.75").header = examplePmg.header := rfl
    have e10 : ∀ l : List (List String), (l.filter fun r => !siteRemoved (pmgType id fractTags) (pmgDis id fractTags) false "all_sites" r) = l := by
      intro l
      rw [List.filter_eq_self]
      intro r hr
      simp [siteRemoved]
    have e11 : ∀ {α : Type} (l : List α), deleteAt l [] = l := by
      intro α l
      simp [deleteAt]
    rw [e8, e10, e9]
    simp only [e11, List.map_cons, List.map_nil, e5, e6, e7, reduceCtorEq, if_false]
  refine ⟨key, ?_⟩
  rw [key]
  exact (C47_pmg_accepted tp ca hp (fun h => absurd h (by decide))).1 ⟨_, List.mem_cons_self, fun h => absurd h (by decide), fun h => absurd h (by decide)⟩

/-! ### C64: files that cannot be read are skipped -/

/-- **C64** With pymatgen: if a cell parameter is missing, unknown or not a number, or if the coordinates are missing or not numbers, the block is rejected
with ParseError, so that the reader skips it (C41). -/
theorem C64_pmg_partial {env : PmgEnv} {b : PmgBlock} :
    ((∃ t ∈ cellparTags, b.get t = none ∨ b.get t = some (.str "?") ∨ b.get t = some (.str ".") ∨ ∃ s e, b.get t = some (.str s) ∧ str2float s = .error e) →
      ∃ text, pymatgenConvert env b rh d = ([], .error (.parse text))) ∧
    (∀ cell, b.cell = .ok cell → (∃ t ∈ ["_atom_site_fract_x", "_atom_site_fract_y", "_atom_site_fract_z"], b.get t = none) →
      ∃ text, pymatgenConvert env b rh d = ([], .error (.parse text))) ∧
    ∀ cell xs ys zs, b.cell = .ok cell → b.get "_atom_site_fract_x" = some (.list xs) → b.get "_atom_site_fract_y" = some (.list ys) →
      b.get "_atom_site_fract_z" = some (.list zs) → xs.length = ys.length → ys.length = zs.length → (∃ s ∈ xs ++ ys ++ zs, ∃ e, str2float s = .error e) →
        ∃ text, pymatgenConvert env b rh d = ([], .error (.parse text)) := by
  refine ⟨?_, ?_, ?_⟩
  · rintro ⟨t, ht, h⟩
    have key : ∃ text, b.cell = .error (.parse text) := by
      rw [PmgBlock.cell]
      cases hm : cellparTags.mapM b.get with
      | none => exact ⟨_, rfl⟩
      | some pars =>
        simp only
        split
        · exact ⟨_, rfl⟩
        · rename_i hu
          have hget : ∀ (l : List String) (pars : List PmgVal), l.mapM b.get = some pars → ∀ t ∈ l, ∃ v ∈ pars, b.get t = some v := by
            intro l
            induction l with
            | nil => intro _ _ t ht; cases ht
            | cons a l ih =>
              intro pars hm t ht
              rw [List.mapM_cons] at hm
              cases ha : b.get a with
              | none => rw [ha] at hm; cases hm
              | some v =>
                cases hl : l.mapM b.get with
                | none => rw [ha, hl] at hm; cases hm
                | some vs =>
                  rw [ha, hl] at hm
                  cases hm
                  rcases List.mem_cons.1 ht with rfl | ht
                  · exact ⟨v, by simp, ha⟩
                  · obtain ⟨v', h1, h2⟩ := ih vs hl t ht
                    exact ⟨v', by simp [h1], h2⟩
          obtain ⟨v, hv, hvt⟩ := hget _ _ hm t ht
          rcases h with h | h | h | ⟨s, e, h, he⟩
          · rw [h] at hvt; cases hvt
          · rw [h] at hvt; cases hvt
            exact absurd (List.any_eq_true.2 ⟨_, hv, rfl⟩) hu
          · rw [h] at hvt; cases hvt
            exact absurd (List.any_eq_true.2 ⟨_, hv, rfl⟩) hu
          · rw [h] at hvt; cases hvt
            have hbad : ∀ l : List PmgVal, .str s ∈ l → ∃ e, l.mapM PmgVal.toFloat = .error e := by
              intro l
              induction l with
              | nil => intro hx; cases hx
              | cons a l ih =>
                intro hx
                rw [List.mapM_cons]
                rcases List.mem_cons.1 hx with rfl | hx
                · exact ⟨e, by rw [PmgVal.toFloat, he]; rfl⟩
                · obtain ⟨e', he'⟩ := ih hx
                  cases a.toFloat with
                  | error e2 => exact ⟨e2, rfl⟩
                  | ok x => exact ⟨e', by rw [he']; rfl⟩
            obtain ⟨e', he'⟩ := hbad pars hv
            rw [he']
            exact ⟨_, rfl⟩
    obtain ⟨text, hk⟩ := key
    rw [pymatgenConvert, hk]
    exact ⟨text, rfl⟩
  · rintro cell hc ⟨t, ht, h⟩
    have key : ∃ text, b.coords = .error (.parse text) := by
      rw [PmgBlock.coords]
      have : ∀ (x y z : Option PmgVal), (x = none ∨ y = none ∨ z = none) → ∃ text, (match x, y, z with
          | some x, some y, some z =>
            match (zip3 x.iter y.iter z.iter).mapM floats3 with
            | .error _ => .error (.parse (b.header ++ " could not be parsed"))
            | .ok l => .ok l
          | _, _, _ =>
            if cartnTags.all fun t => (b.get t).isSome then
              .error (.parse (b.header ++ " uses _atom_site_Cartn_ tags for coordinates, only _atom_site_fract_ is supported"))
            else .error (.parse (b.header ++ " has missing coordinates")) : Except Exc (List (PyFloat × PyFloat × PyFloat))) = .error (.parse text) := by
        intro x y z hx
        have hif : ∃ text, (if cartnTags.all fun t => (b.get t).isSome then
              .error (.parse (b.header ++ " uses _atom_site_Cartn_ tags for coordinates, only _atom_site_fract_ is supported"))
            else .error (.parse (b.header ++ " has missing coordinates")) : Except Exc (List (PyFloat × PyFloat × PyFloat))) = .error (.parse text) := by
          split
          · exact ⟨_, rfl⟩
          · exact ⟨_, rfl⟩
        match x, y, z, hx with
        | none, _, _, _ => exact hif
        | some _, none, _, _ => exact hif
        | some _, some _, none, _ => exact hif
        | some _, some _, some _, hx => simp at hx
      refine this _ _ _ ?_
      simp only [List.mem_cons, List.not_mem_nil, or_false] at ht
      rcases ht with rfl | rfl | rfl
      · exact Or.inl h
      · exact Or.inr (Or.inl h)
      · exact Or.inr (Or.inr h)
    obtain ⟨text, hk⟩ := key
    rw [pymatgenConvert, hc, hk]
    exact ⟨text, rfl⟩
  · rintro cell xs ys zs hc hx hy hz h1 h2 ⟨s, hs, e, he⟩
    have key : ∃ e, (zip3 xs ys zs).mapM floats3 = .error e := by
      clear hx hy hz
      induction xs generalizing ys zs with
      | nil =>
        cases ys with
        | nil => cases zs with
          | nil => simp at hs
          | cons z zs => simp at h2
        | cons y ys => simp at h1
      | cons x xs ih =>
        cases ys with
        | nil => simp at h1
        | cons y ys =>
          cases zs with
          | nil => simp at h2
          | cons z zs =>
            have hz3 : zip3 (x :: xs) (y :: ys) (z :: zs) = (x, y, z) :: zip3 xs ys zs := rfl
            rw [hz3, List.mapM_cons]
            cases hf : floats3 (x, y, z) with
            | error e => exact ⟨e, rfl⟩
            | ok v =>
              have : s ∈ xs ++ ys ++ zs := by
                have hne : s ≠ x ∧ s ≠ y ∧ s ≠ z := by
                  rw [floats3] at hf
                  refine ⟨?_, ?_, ?_⟩
                  · rintro rfl
                    simp only [he] at hf
                    cases hf
                  · rintro rfl
                    simp only [he] at hf
                    cases hx' : str2float x with
                    | error e => rw [hx'] at hf; cases hf
                    | ok a => rw [hx'] at hf; cases hf
                  · rintro rfl
                    simp only [he] at hf
                    cases hx' : str2float x with
                    | error e => rw [hx'] at hf; cases hf
                    | ok a =>
                      cases hy' : str2float y with
                      | error e => rw [hx', hy'] at hf; cases hf
                      | ok b => rw [hx', hy'] at hf; cases hf
                simp only [List.mem_append, List.mem_cons] at hs ⊢
                tauto
              obtain ⟨e', he'⟩ := ih ys zs (by simpa using h1) (by simpa using h2) this
              exact ⟨e', by rw [he']; rfl⟩
    obtain ⟨e', hk⟩ := key
    have hco : b.coords = .error (.parse (b.header ++ " could not be parsed")) := by
      rw [PmgBlock.coords, hx, hy, hz]
      simp only [PmgVal.iter, hk]
    rw [pymatgenConvert, hc, hco]
    exact ⟨_, rfl⟩

/-- **C64** With gemmi: if a cell parameter is missing, or the table of coordinates is, the block is rejected with ParseError. -/
theorem C64_gemmi_partial {env : GemmiEnv} {b : GemmiBlock} :
    ((∃ t ∈ ["_cell_length_a", "_cell_length_b", "_cell_length_c", "_cell_angle_alpha", "_cell_angle_beta", "_cell_angle_gamma"], b.findValue t = none) →
      ∃ text, gemmiConvert env b rh d = ([], .error (.parse text))) ∧
    ∀ cell, blockCell b = .ok cell → b.fractLoop = none → ∃ text, gemmiConvert env b rh d = ([], .error (.parse text)) := by
  refine ⟨fun ⟨t, ht, h⟩ => ⟨_, C48_cell_partial ht h⟩, fun cell hc h => ?_⟩
  rw [gemmiConvert, hc, h]
  simp only
  split
  · exact ⟨_, rfl⟩
  · exact ⟨_, rfl⟩

/-- **C64 does not hold** with ase: a file where the cell parameter a is missing raises ValueError, and reading a list of files with such a file in it fails,
whatever crystals the other files have. -/
theorem C64_false_ase {env : AseEnv} {b : AseBlock} (h : b.get "_cell_length_a" = none) {r : Reader AseBlock ReadSet} {w : World}
    (hr : r.converter = fun b => aseConvert env b rh d) {pre post : List AseBlock} (he : r.events = (pre ++ b :: post).map Event.item)
    (hw : r.showWarnings = true → ∀ x, w.action x ≠ .error) (hpre : ∀ b ∈ pre, ∃ s, (aseConvert env b rh d).2 = .ok s) :
    (r.toList w).2 = .error (.other "ValueError") := by
  refine C41_raises he hw (fun j hj => Or.inl ?_) ?_
  · rw [hr]; exact hpre j hj
  · rw [hr]
    have : b.cell = .error (.other "ValueError") := by
      rw [AseBlock.cell, cellparTags, List.mapM_cons, AseBlock.cellValue, h]
      rfl
    simp only [aseConvert, this]

/-- **C64 does not hold** with gemmi: a coordinate that is not a number raises ValueError, and the reader fails. -/
theorem C64_false_gemmi {r : Reader GemmiBlock ReadSet} {w : World} (hr : r.converter = fun b => gemmiConvert exampleGemmi b false "skip")
    {post : List GemmiBlock} (he : r.events = (exampleCube.withRows fractTags [["x", "0", "0"]] :: post).map Event.item)
    (hw : r.showWarnings = true → ∀ x, w.action x ≠ .error) : (r.toList w).2 = .error (.other "ValueError") := by
  refine C41_raises (pre := []) he hw (fun j hj => by cases hj) ?_
  rw [hr]
  have h1 : blockCell (exampleCube.withRows fractTags [["x", "0", "0"]]) = .ok ![![1, 0, 0], ![0, 1, 0], ![0, 0, 1]] := example_cell
  have h2 : loopCoords ⟨fractTags, [["x", "0", "0"]].flatten⟩ = .error (.other "ValueError") := by
    have g1 : CifLoop.get ⟨fractTags, [["x", "0", "0"]].flatten⟩ "_atom_site_fract_x" = some ["x"] := by decide +kernel
    have g2 : CifLoop.get ⟨fractTags, [["x", "0", "0"]].flatten⟩ "_atom_site_fract_y" = some ["0"] := by decide +kernel
    have g3 : CifLoop.get ⟨fractTags, [["x", "0", "0"]].flatten⟩ "_atom_site_fract_z" = some ["0"] := by decide +kernel
    have s1 : str2float "x" = .error (.other "ValueError") := by decide +kernel
    rw [loopCoords, g1, g2, g3]
    have m1 : ["x"].mapM str2float = .error (.other "ValueError") := by
      rw [List.mapM_cons, s1]; rfl
    simp only [m1]
  simp only [gemmiConvert, h1]
  show (match loopCoords ⟨fractTags, [["x", "0", "0"]].flatten⟩ with | .error e => _ | .ok coords => _ : Conversion ReadSet).2 = _
  rw [h2]

/-- A cube without the parameter a is rejected by pymatgen and by gemmi; with ase, reading it raises an exception. -/
example : (∃ text, pymatgenConvert examplePmgEnv { examplePmg with get := fun t => if t = "_cell_length_a" then none else examplePmg.get t } false "skip" =
      ([], .error (.parse text))) ∧
    (∃ text, gemmiConvert exampleGemmi { exampleCube with findValue := fun t => if t = "_cell_length_a" then none else exampleCube.findValue t } false "skip" =
      ([], .error (.parse text))) ∧
    (Reader.toList ⟨[.item { exampleAse with get := fun t => if t = "_cell_length_a" then none else exampleAse.get t }],
      fun b => aseConvert exampleAseEnv b false "skip", fun _ => "", false⟩ ⟨[], []⟩).2 = .error (.other "ValueError") :=
  ⟨C64_pmg_partial.1 ⟨"_cell_length_a", by decide, Or.inl rfl⟩, C64_gemmi_partial.1 ⟨"_cell_length_a", by decide, rfl⟩,
    C64_false_ase (rh := false) (d := "skip") (pre := []) (post := []) rfl rfl rfl (fun h => (by cases h)) (fun b h => (by cases h))⟩

end Amd
