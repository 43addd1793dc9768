import Verif.Spec.CifBlocks
import Verif.Proof.GemmiBlock
import Verif.Props.Sites

/-!
# Lemmas about the conversion of ase and pymatgen blocks
-/

set_option linter.unusedSectionVars false

namespace Amd

open Classical

/-! ### Selection of rows -/

section Rows

variable {α : Type} (typ : α → ℕ) (dis : α → Bool) (coord : α → ℚ × ℚ × ℚ)

/-- The row is taken out because of hydrogen or disorder. -/
def siteRemoved (rh : Bool) (d : String) (r : α) : Bool := (rh && decide (typ r = 1)) || (decide (d = "ordered_sites") && dis r)

/-- The row leads to rejection. -/
def siteRejected (rh : Bool) (r : α) : Bool := dis r && !(rh && decide (typ r = 1))

/-- The list of disorder as the code has it. -/
def disList (d : String) (rows : List α) : List Bool := if d ≠ "all_sites" then rows.map dis else []

theorem mem_hyd {rh : Bool} {rows : List α} {i : ℕ} {r : α} (hr : rows[i]? = some r) :
    i ∈ (if rh then indicesOf ((rows.map typ).map fun n => decide (n = 1)) else []) ↔ (rh && decide (typ r = 1)) = true := by
  cases rh with
  | false => simp
  | true =>
    rw [if_pos rfl, List.map_map, mem_indicesOf, hr]
    simp

theorem removeSites_rows (rh : Bool) (d : String) (rows : List α) :
    (d = "skip" ∧ rows.any (siteRejected typ dis rh) = true ∧ removeSites (rows.map typ) (disList dis d rows) rh d = none) ∨
    (¬ (d = "skip" ∧ rows.any (siteRejected typ dis rh) = true) ∧ ∃ rem, removeSites (rows.map typ) (disList dis d rows) rh d = some rem ∧
      ∀ i r, rows[i]? = some r → (i ∈ rem ↔ siteRemoved typ dis rh d r = true)) := by
  rw [removeSites]
  set hyd := (if rh then indicesOf ((rows.map typ).map fun n => decide (n = 1)) else []) with hh
  have mh : ∀ i r, rows[i]? = some r → (i ∈ hyd ↔ (rh && decide (typ r = 1)) = true) := fun i r hr => mem_hyd typ hr
  by_cases ha : d = "all_sites"
  · right
    subst ha
    refine ⟨fun h => absurd h.1 (by decide), hyd, by simp, fun i r hr => ?_⟩
    rw [mh i r hr, siteRemoved]
    simp
  · have hl : disList dis d rows = rows.map dis := by rw [disList, if_pos ha]
    rw [hl]
    set rest := (indicesOf (rows.map dis)).filter fun i => decide (i ∉ hyd) with hrest
    have mr : ∀ i r, rows[i]? = some r → (i ∈ rest ↔ siteRejected typ dis rh r = true) := by
      intro i r hr
      rw [hrest, List.mem_filter, mem_indicesOf, hr, siteRejected, decide_eq_true_iff, mh i r hr]
      cases rh <;> simp
    by_cases hs : d = "skip"
    · subst hs
      by_cases he : rows.any (siteRejected typ dis rh) = true
      · left
        refine ⟨rfl, he, ?_⟩
        have : rest ≠ [] := by
          obtain ⟨r, hr, hx⟩ := List.any_eq_true.1 he
          obtain ⟨i, hi⟩ := List.mem_iff_getElem?.1 hr
          exact List.ne_nil_of_mem ((mr i r hi).2 hx)
        simp only [ne_eq, show ("skip" : String) ≠ "all_sites" by decide, not_false_eq_true, if_true, this, if_false]
      · right
        refine ⟨fun h => he h.2, hyd, ?_, fun i r hr => ?_⟩
        · have : rest = [] := by
            rw [List.eq_nil_iff_forall_not_mem]
            intro i hi
            have h1 := hi
            rw [hrest, List.mem_filter, mem_indicesOf] at h1
            obtain ⟨⟨r, hr, -⟩, -⟩ := h1
            exact he (List.any_eq_true.2 ⟨r, List.mem_of_getElem? hr, (mr i r hr).1 hi⟩)
          simp only [ne_eq, show ("skip" : String) ≠ "all_sites" by decide, not_false_eq_true, if_true, this]
        · rw [mh i r hr, siteRemoved]
          simp
    · right
      refine ⟨fun h => hs h.1, ?_⟩
      by_cases ho : d = "ordered_sites"
      · subst ho
        refine ⟨hyd ++ rest, ?_, fun i r hr => ?_⟩
        · simp only [ne_eq, ha, not_false_eq_true, if_true, hs, if_false]
        · rw [List.mem_append, mh i r hr, mr i r hr, siteRemoved, siteRejected]
          cases hx : (rh && decide (typ r = 1)) <;> simp
      · refine ⟨hyd, ?_, fun i r hr => ?_⟩
        · simp only [ne_eq, ha, not_false_eq_true, if_true, hs, ho, if_false]
        · rw [mh i r hr, siteRemoved]
          simp [ho]

/-- What the conversion of sites does, by rows. -/
noncomputable def convertRows (name : String) (cell : Fin 3 → Pt 3 ℝ) (d warning : String) (rh : Bool) (rows : List α) (sym : Conversion (List (AffineOp 3))) :
    Conversion ReadSet :=
  if d = "skip" ∧ rows.any (siteRejected typ dis rh) = true then
    ([], .error (.parse (name ++ " has disorder, pass disorder='ordered_sites' or 'all_sites' to remove/ignore disorder")))
  else if rows.filter (fun r => !siteRemoved typ dis rh d r) = [] then ([], .error (.parse (name ++ " has no valid sites")))
  else finishSites name cell d warning ((rows.filter fun r => !siteRemoved typ dis rh d r).map fun r => modOne (coord r))
    ((rows.filter fun r => !siteRemoved typ dis rh d r).map typ) sym

theorem convertSites_rows (name : String) (cell : Fin 3 → Pt 3 ℝ) (d warning : String) (rh : Bool) (rows : List α) (sym : Conversion (List (AffineOp 3))) :
    convertSites name cell d warning rh (rows.map coord) (rows.map typ) (disList dis d rows) sym = convertRows typ dis coord name cell d warning rh rows sym := by
  rw [convertSites, convertRows]
  rcases removeSites_rows typ dis rh d rows with ⟨h1, h2, h3⟩ | ⟨h1, rem, h3, h4⟩
  · rw [h3, if_pos ⟨h1, h2⟩]
  · rw [h3, if_neg h1]
    simp only
    have d1 := deleteAt_filter (f := coord) (p := siteRemoved typ dis rh d) (inds := rem) rows 0 (by simpa using h4)
    have d2 := deleteAt_filter (f := typ) (p := siteRemoved typ dis rh d) (inds := rem) rows 0 (by simpa using h4)
    rw [deleteAt, deleteAt, d1, d2, List.map_map]
    simp only [List.map_eq_nil_iff]
    rfl

end Rows

/-! ### After the selection -/

theorem length_selectMask {α β : Type} : ∀ (a : List α) (b : List β) (m : List Bool), a.length = b.length → (selectMask a m).length = (selectMask b m).length
  | [], [], _, _ => by simp [selectMask]
  | _ :: _, _ :: _, [], _ => by simp [selectMask]
  | x :: a, y :: b, c :: m, h => by
    have ih := length_selectMask a b m (by simpa using h)
    cases c <;> simp [selectMask, ih]
  | [], _ :: _, _, h => by simp at h
  | _ :: _, [], _, h => by simp at h

/-- With one type for each site there is no IndexError, and the result is that of the end of the gemmi converter. -/
theorem finishSites_eq (env : GemmiEnv) (b : GemmiBlock) (cell : Fin 3 → Pt 3 ℝ) (d warning : String) (asym : List (Pt 3 ℝ)) (types : List ℕ)
    (hl : asym.length = types.length) {sym : Conversion (List (AffineOp 3))} (hs : sym.2 = (blockSymmetry env b).2) :
    (finishSites b.name cell d warning asym types sym).2 = (finishBlock env b cell d asym types).2 := by
  rw [finishSites, finishBlock, removeOverlaps, hs]
  cases (blockSymmetry env b).2 with
  | error e => rfl
  | ok ops =>
    by_cases hd : d ≠ "all_sites"
    · simp only [if_pos hd]
      rw [if_neg]
      rw [Bool.not_eq_true, List.any_eq_false]
      intro i hi
      obtain ⟨t, ht, rfl⟩ := List.mem_iff_getElem.1 hi
      obtain ⟨h1, h2⟩ := C44_images (selectMask asym (uniqueSites eqSiteTol asym)) ops eqSiteTol (decide (d ≠ "all_sites"))
      obtain ⟨h3, -⟩ := h2 t (by rw [← h1]; exact ht) ht
      rw [length_selectMask _ _ _ hl] at h3
      simp only [decide_eq_true_eq]
      omega
    · simp only [if_neg hd]
      rw [if_neg]
      rw [Bool.not_eq_true, List.any_eq_false]
      intro i hi
      obtain ⟨t, ht, rfl⟩ := List.mem_iff_getElem.1 hi
      obtain ⟨h1, h2⟩ := C44_images asym ops eqSiteTol (decide (d ≠ "all_sites"))
      obtain ⟨h3, -⟩ := h2 t (by rw [← h1]; exact ht) ht
      rw [hl] at h3
      simp only [decide_eq_true_eq]
      omega

theorem finishSites_disorder (name : String) (cell : Fin 3 → Pt 3 ℝ) (w : String) {d d' : String} (h : d ≠ "all_sites") (h' : d' ≠ "all_sites")
    (asym : List (Pt 3 ℝ)) (types : List ℕ) (sym : Conversion (List (AffineOp 3))) :
    finishSites name cell d w asym types sym = finishSites name cell d' w asym types sym := by
  simp only [finishSites, h, h', ne_eq, not_false_eq_true, if_true]

/-! ### Tables of ase -/

variable {conv : String → AseItem} {unquote : String → String} {tags : List String} {rows : List (List String)}

/-- The number of a value, 0 if it is none. -/
def itemNum (i : AseItem) : ℚ :=
  match i.toFloat with
  | .ok (.num q) => q
  | _ => 0

/-- The coordinates of a row. -/
def aseCoord (conv : String → AseItem) (tags row : List String) : ℚ × ℚ × ℚ :=
  (itemNum (conv (fieldD tags row "_atom_site_fract_x")), itemNum (conv (fieldD tags row "_atom_site_fract_y")),
    itemNum (conv (fieldD tags row "_atom_site_fract_z")))

/-- The text of a value. -/
def itemText : AseItem → String
  | .str s => s
  | .num _ => ""

/-- The type of a row. -/
def aseType (conv : String → AseItem) (tags row : List String) : ℕ :=
  if "_atom_site_type_symbol" ∈ tags then atomicNumber (symbolFromLabel (itemText (conv (fieldD tags row "_atom_site_type_symbol")))) else 0

/-- The label of a row. -/
def aseLabel (conv : String → AseItem) (tags row : List String) : String :=
  if "_atom_site_label" ∈ tags then itemText (conv (fieldD tags row "_atom_site_label")) else ""

/-- The occupancy of a row. -/
def aseOcc (conv : String → AseItem) (tags row : List String) : PyFloat :=
  if "_atom_site_occupancy" ∈ tags then (conv (fieldD tags row "_atom_site_occupancy")).occupancy else .num 1

/-- The row is disordered. -/
def aseDis (conv : String → AseItem) (tags row : List String) : Bool := hasDisorder (aseLabel conv tags row) (aseOcc conv tags row)

theorem ase_get (b : AseBlock) {t : String} (ht : t ∈ siteTags) :
    (b.withRows conv tags rows).get t = if t ∈ tags then some (.list (rows.map fun r => conv (fieldD tags r t))) else none := by
  show (if t ∈ siteTags then _ else _) = _
  rw [if_pos ht]
  rfl

theorem ase_get_other (b : AseBlock) {t : String} (ht : t ∉ siteTags) : (b.withRows conv tags rows).get t = b.get t := by
  show (if t ∈ siteTags then _ else _) = _
  rw [if_neg ht]

theorem ase_column (h : AseTable conv tags rows) (b : AseBlock) {t : String} (ht : t ∈ fractTags) (htt : t ∈ tags) :
    (b.withRows conv tags rows).column t = .ok (rows.map fun r => .num (itemNum (conv (fieldD tags r t)))) := by
  have hs : t ∈ siteTags := by
    simp only [fractTags, List.mem_cons, List.not_mem_nil, or_false] at ht
    rcases ht with rfl | rfl | rfl <;> decide
  rw [AseBlock.column, ase_get b hs, if_pos htt]
  simp only [AseVal.iter]
  rw [mapM_ok (g := fun i => PyFloat.num (itemNum i)), List.map_map]
  · rfl
  · intro i hi
    obtain ⟨r, hr, rfl⟩ := List.mem_map.1 hi
    obtain ⟨q, hq⟩ := h.coordinates r hr t ht _ (field_some h.nodup (h.width r hr) htt)
    rw [itemNum, hq]

theorem zip3_map {α β : Type} (l : List α) (f g h : α → β) : zip3 (l.map f) (l.map g) (l.map h) = l.map fun x => (f x, g x, h x) := by
  induction l with
  | nil => rfl
  | cons a l ih => rw [zip3] at ih ⊢; simp [ih]

theorem ase_coords (h : AseTable conv tags rows) (b : AseBlock) :
    (b.withRows conv tags rows).coords =
      .ok (rows.map fun r => (.num (aseCoord conv tags r).1, .num (aseCoord conv tags r).2.1, .num (aseCoord conv tags r).2.2)) := by
  rw [AseBlock.coords, ase_column h b (by decide) h.x, ase_column h b (by decide) h.y, ase_column h b (by decide) h.z]
  simp only [zip3_map]
  rfl

theorem siteOf_rows {α : Type} (l : List α) (f : α → ℚ × ℚ × ℚ) :
    (l.map fun r => (PyFloat.num (f r).1, PyFloat.num (f r).2.1, PyFloat.num (f r).2.2)).mapM siteOf = some (l.map f) := by
  induction l with
  | nil => rfl
  | cons a l ih =>
    rw [List.map_cons, List.mapM_cons, ih]
    rfl

theorem ase_types (h : AseTable conv tags rows) (b : AseBlock) : (b.withRows conv tags rows).types rows.length = .ok (rows.map (aseType conv tags)) := by
  rw [AseBlock.types, ase_get b (by decide)]
  by_cases ht : "_atom_site_type_symbol" ∈ tags
  · rw [if_pos ht]
    simp only [AseVal.iter]
    rw [mapM_ok (g := fun i => symbolFromLabel (itemText i))]
    · simp only [Except.map, List.map_map]
      congr 1
      refine List.map_congr_left fun r hr => ?_
      rw [aseType, if_pos ht]
      rfl
    · intro i hi
      obtain ⟨r, hr, rfl⟩ := List.mem_map.1 hi
      obtain ⟨t, hq⟩ := h.symbols r hr _ (field_some h.nodup (h.width r hr) ht)
      rw [hq]
      rfl
  · rw [if_neg ht]
    simp only
    have : aseType conv tags = fun _ => 0 := by funext r; rw [aseType, if_neg ht]
    rw [this, List.map_const']

theorem zip_map_same {α β γ : Type} (f : α → β) (g : α → γ) (l : List α) : (l.map f).zip (l.map g) = l.map fun x => (f x, g x) := by
  induction l with
  | nil => rfl
  | cons a l ih => simp [ih]

theorem ase_disorder (h : AseTable conv tags rows) (b : AseBlock) (d : String) :
    (b.withRows conv tags rows).disorder rows.length d = .ok (disList (aseDis conv tags) d rows) := by
  rw [AseBlock.disorder, disList]
  by_cases hd : d ≠ "all_sites"
  · rw [if_pos hd, if_pos hd]
    have hlab : (b.withRows conv tags rows).getD "_atom_site_label" rows.length (.str "") = .ok (rows.map fun r => .str (aseLabel conv tags r)) := by
      rw [AseBlock.getD, ase_get b (by decide)]
      by_cases ht : "_atom_site_label" ∈ tags
      · rw [if_pos ht]
        simp only [AseVal.iter]
        congr 1
        refine List.map_congr_left fun r hr => ?_
        obtain ⟨t, hq⟩ := h.labels r hr _ (field_some h.nodup (h.width r hr) ht)
        rw [aseLabel, if_pos ht, hq]
        rfl
      · rw [if_neg ht]
        simp only
        have : (fun r => AseItem.str (aseLabel conv tags r)) = fun _ => AseItem.str "" := by funext r; rw [aseLabel, if_neg ht]
        rw [this, List.map_const']
    have hocc : ∃ f : List String → AseItem, (b.withRows conv tags rows).getD "_atom_site_occupancy" rows.length (.num 1) = .ok (rows.map f) ∧
        ∀ r, (f r).occupancy = aseOcc conv tags r := by
      rw [AseBlock.getD, ase_get b (by decide)]
      by_cases ht : "_atom_site_occupancy" ∈ tags
      · rw [if_pos ht]
        simp only [AseVal.iter]
        exact ⟨_, rfl, fun r => by rw [aseOcc, if_pos ht]⟩
      · rw [if_neg ht]
        simp only
        exact ⟨fun _ => .num 1, by rw [List.map_const'], fun r => by rw [aseOcc, if_neg ht]; rfl⟩
    obtain ⟨f, hf, hfo⟩ := hocc
    rw [hlab, hf]
    simp only
    rw [zip_map_same, mapM_ok (g := fun x => Amd.hasDisorder (itemText x.1) x.2.occupancy), List.map_map]
    · congr 1
      refine List.map_congr_left fun r hr => ?_
      simp only [Function.comp, itemText]
      rw [hfo]
      rfl
    · intro x hx
      obtain ⟨r, hr, rfl⟩ := List.mem_map.1 hx
      simp only [AseItem.hasDisorder, itemText, Amd.hasDisorder]
      split
      · rename_i h1; rw [h1]; rfl
      · rename_i h1
        rw [Bool.not_eq_true] at h1
        rw [h1]; rfl
  · rw [if_neg hd, if_neg hd]

theorem cellpar_not_site : ∀ t ∈ cellparTags, t ∉ siteTags := by decide

theorem mapM_congr' {α β : Type} {m : Type → Type} [Monad m] [LawfulMonad m] {f g : α → m β} : ∀ {l : List α}, (∀ x ∈ l, f x = g x) → l.mapM f = l.mapM g
  | [], _ => rfl
  | a :: l, h => by
    rw [List.mapM_cons, List.mapM_cons, h a (by simp), mapM_congr' fun x hx => h x (by simp [hx])]

theorem ase_cell (b : AseBlock) : (b.withRows conv tags rows).cell = b.cell := by
  have : cellparTags.mapM (b.withRows conv tags rows).cellValue = cellparTags.mapM b.cellValue :=
    mapM_congr' fun t ht => by rw [AseBlock.cellValue, AseBlock.cellValue, ase_get_other b (cellpar_not_site t ht)]
  rw [AseBlock.cell, AseBlock.cell, this]

theorem findSome_congr {α β : Type} {f g : α → Option β} : ∀ {l : List α}, (∀ x ∈ l, f x = g x) → l.findSome? f = l.findSome? g
  | [], _ => rfl
  | a :: l, h => by
    rw [List.findSome?_cons, List.findSome?_cons, h a (by simp), findSome_congr fun x hx => h x (by simp [hx])]

theorem ase_symmetry (env : AseEnv) (b : AseBlock) : (b.withRows conv tags rows).symmetry env = b.symmetry env := by
  have h1 : symopTags.findSome? (b.withRows conv tags rows).get = symopTags.findSome? b.get :=
    findSome_congr fun t ht => ase_get_other b (show t ∉ siteTags by revert t; decide)
  have h2 : (spacegroupNameTags.map String.toLower).findSome? (b.withRows conv tags rows).get = (spacegroupNameTags.map String.toLower).findSome? b.get :=
    findSome_congr fun t ht => ase_get_other b (show t ∉ siteTags by revert t; decide +kernel)
  have h3 : (spacegroupNumberTags.map String.toLower).findSome? (b.withRows conv tags rows).get = (spacegroupNumberTags.map String.toLower).findSome? b.get :=
    findSome_congr fun t ht => ase_get_other b (show t ∉ siteTags by revert t; decide +kernel)
  rw [AseBlock.symmetry, AseBlock.symmetry, h1, h2, h3]

/-- The conversion of a table by ase, row by row. -/
theorem aseConvert_rows (env : AseEnv) (b : AseBlock) (h : AseTable conv tags rows) (rh : Bool) (d : String) :
    aseConvert env (b.withRows conv tags rows) rh d =
      match b.cell with
      | .error e => ([], .error e)
      | .ok cell => convertRows (aseType conv tags) (aseDis conv tags) (aseCoord conv tags) b.name cell d
          "may have overlapping sites, duplicates will be removed" rh rows (b.symmetry env) := by
  rw [aseConvert, ase_cell]
  cases b.cell with
  | error e => rfl
  | ok cell =>
    simp only
    rw [ase_coords h b]
    simp only [List.length_map]
    rw [ase_types h b, ase_disorder h b, siteOf_rows, ase_symmetry]
    simp only
    exact convertSites_rows _ _ _ _ _ _ _ _ _ _

/-! ### Tables of pymatgen -/

/-- The number in a text, 0 if there is none. -/
def textNum (s : String) : ℚ :=
  match str2float s with
  | .ok (.num q) => q
  | _ => 0

/-- The coordinates of a row. -/
def pmgCoord (unquote : String → String) (tags row : List String) : ℚ × ℚ × ℚ :=
  (textNum (unquote (fieldD tags row "_atom_site_fract_x")), textNum (unquote (fieldD tags row "_atom_site_fract_y")),
    textNum (unquote (fieldD tags row "_atom_site_fract_z")))

/-- The type of a row. -/
def pmgType (unquote : String → String) (tags row : List String) : ℕ :=
  if "_atom_site_type_symbol" ∈ tags then atomicNumber (symbolFromLabel (unquote (fieldD tags row "_atom_site_type_symbol"))) else 0

/-- The label of a row. -/
def pmgLabel (unquote : String → String) (tags row : List String) : String :=
  if "_atom_site_label" ∈ tags then unquote (fieldD tags row "_atom_site_label") else ""

/-- The occupancy of a row. -/
def pmgOcc (unquote : String → String) (tags row : List String) : PyFloat :=
  if "_atom_site_occupancy" ∈ tags then .num (textNum (unquote (fieldD tags row "_atom_site_occupancy"))) else .num 1

/-- The row is disordered. -/
def pmgDis (unquote : String → String) (tags row : List String) : Bool := hasDisorder (pmgLabel unquote tags row) (pmgOcc unquote tags row)

theorem pmg_get (b : PmgBlock) {t : String} (ht : t ∈ siteTags) :
    (b.withRows unquote tags rows).get t = if t ∈ tags then some (.list (rows.map fun r => unquote (fieldD tags r t))) else none := by
  show (if t ∈ siteTags then _ else _) = _
  rw [if_pos ht]
  rfl

theorem pmg_get_other (b : PmgBlock) {t : String} (ht : t ∉ siteTags) : (b.withRows unquote tags rows).get t = b.get t := by
  show (if t ∈ siteTags then _ else _) = _
  rw [if_neg ht]

theorem pmg_num (h : PmgTable unquote tags rows) {r : List String} (hr : r ∈ rows) {t : String} (ht : t ∈ fractTags) (htt : t ∈ tags) :
    str2float (unquote (fieldD tags r t)) = .ok (.num (textNum (unquote (fieldD tags r t)))) := by
  obtain ⟨q, hq⟩ := h.coordinates r hr t ht _ (field_some h.nodup (h.width r hr) htt)
  rw [textNum, hq]

theorem pmg_coords (h : PmgTable unquote tags rows) (b : PmgBlock) :
    (b.withRows unquote tags rows).coords =
      .ok (rows.map fun r => (.num (pmgCoord unquote tags r).1, .num (pmgCoord unquote tags r).2.1, .num (pmgCoord unquote tags r).2.2)) := by
  rw [PmgBlock.coords, pmg_get b (by decide), pmg_get b (by decide), pmg_get b (by decide), if_pos h.x, if_pos h.y, if_pos h.z]
  simp only [PmgVal.iter, zip3_map]
  rw [mapM_ok (g := fun p => (PyFloat.num (textNum p.1), PyFloat.num (textNum p.2.1), PyFloat.num (textNum p.2.2)))]
  · simp only [List.map_map]
    rfl
  · intro p hp
    obtain ⟨r, hr, rfl⟩ := List.mem_map.1 hp
    rw [floats3]
    simp only [pmg_num h hr (t := "_atom_site_fract_x") (by decide) h.x, pmg_num h hr (t := "_atom_site_fract_y") (by decide) h.y,
      pmg_num h hr (t := "_atom_site_fract_z") (by decide) h.z]
    rfl

theorem pmg_types (b : PmgBlock) : (b.withRows unquote tags rows).types rows.length = rows.map (pmgType unquote tags) := by
  rw [PmgBlock.types, pmg_get b (by decide)]
  by_cases ht : "_atom_site_type_symbol" ∈ tags
  · rw [if_pos ht]
    simp only [PmgVal.iter, List.map_map]
    refine List.map_congr_left fun r hr => ?_
    rw [pmgType, if_pos ht]
    rfl
  · rw [if_neg ht]
    simp only
    have : pmgType unquote tags = fun _ => 0 := by funext r; rw [pmgType, if_neg ht]
    rw [this, List.map_const']

theorem pmg_disorder (h : PmgTable unquote tags rows) (b : PmgBlock) (d : String) :
    (b.withRows unquote tags rows).disorder rows.length d = .ok (disList (pmgDis unquote tags) d rows) := by
  rw [PmgBlock.disorder, disList]
  by_cases hd : d ≠ "all_sites"
  · rw [if_pos hd, if_pos hd]
    have hlab : (b.withRows unquote tags rows).labels rows.length = rows.map (pmgLabel unquote tags) := by
      rw [PmgBlock.labels, pmg_get b (by decide)]
      by_cases ht : "_atom_site_label" ∈ tags
      · rw [if_pos ht]
        simp only [PmgVal.iter]
        refine List.map_congr_left fun r hr => ?_
        rw [pmgLabel, if_pos ht]
      · rw [if_neg ht]
        simp only
        have : pmgLabel unquote tags = fun _ => "" := by funext r; rw [pmgLabel, if_neg ht]
        rw [this, List.map_const']
    have hocc : (b.withRows unquote tags rows).occupancies rows.length = .ok (rows.map (pmgOcc unquote tags)) := by
      rw [PmgBlock.occupancies, pmg_get b (by decide)]
      by_cases ht : "_atom_site_occupancy" ∈ tags
      · rw [if_pos ht]
        simp only [PmgVal.iter]
        rw [mapM_ok (g := fun s => PyFloat.num (textNum s)), List.map_map]
        · congr 1
          refine List.map_congr_left fun r hr => ?_
          rw [pmgOcc, if_pos ht]
          rfl
        · intro s hs
          obtain ⟨r, hr, rfl⟩ := List.mem_map.1 hs
          obtain ⟨q, hq⟩ := h.occupancies r hr _ (field_some h.nodup (h.width r hr) ht)
          rw [textNum, hq]
      · rw [if_neg ht]
        simp only
        have : pmgOcc unquote tags = fun _ => .num 1 := by funext r; rw [pmgOcc, if_neg ht]
        rw [this, List.map_const']
    rw [hlab, hocc]
    simp only
    rw [zipWith_map_same]
    rfl
  · rw [if_neg hd, if_neg hd]

theorem pmg_cell (b : PmgBlock) : (b.withRows unquote tags rows).cell = b.cell := by
  have : cellparTags.mapM (b.withRows unquote tags rows).get = cellparTags.mapM b.get :=
    mapM_congr' fun t ht => pmg_get_other b (cellpar_not_site t ht)
  rw [PmgBlock.cell, PmgBlock.cell, this]
  rfl

theorem pmg_symbolSearch (env : PmgEnv) (b : PmgBlock) : ∀ {l : List String}, (∀ t ∈ l, t ∉ siteTags) →
    symbolSearch env (b.withRows unquote tags rows) l = symbolSearch env b l
  | [], _ => rfl
  | t :: l, h => by
    rw [symbolSearch, symbolSearch, pmg_get_other b (h t (by simp)), pmg_symbolSearch env b fun t ht => h t (by simp [ht])]

theorem pmg_numberSearch (env : PmgEnv) (b : PmgBlock) : ∀ {l : List String}, (∀ t ∈ l, t ∉ siteTags) →
    numberSearch env (b.withRows unquote tags rows) l = numberSearch env b l
  | [], _ => rfl
  | t :: l, h => by
    rw [numberSearch, numberSearch, pmg_get_other b (h t (by simp)), pmg_numberSearch env b fun t ht => h t (by simp [ht])]

theorem pmg_symmetry (env : PmgEnv) (b : PmgBlock) : (b.withRows unquote tags rows).symmetry env = b.symmetry env := by
  have h1 : (b.withRows unquote tags rows).symops = b.symops :=
    findSome_congr fun t ht => by rw [pmg_get_other b (show t ∉ siteTags by revert t; decide)]
  rw [PmgBlock.symmetry, PmgBlock.symmetry, h1, pmg_symbolSearch env b (by decide), pmg_numberSearch env b (by decide)]

/-- The conversion of a table by pymatgen, row by row. -/
theorem pmgConvert_rows (env : PmgEnv) (b : PmgBlock) (h : PmgTable unquote tags rows) (rh : Bool) (d : String) :
    pymatgenConvert env (b.withRows unquote tags rows) rh d =
      match b.cell with
      | .error e => ([], .error e)
      | .ok cell => convertRows (pmgType unquote tags) (pmgDis unquote tags) (pmgCoord unquote tags) b.header cell d
          "may have overlapping sites; duplicates will be removed" rh rows (b.symmetry env) := by
  rw [pymatgenConvert, pmg_cell]
  cases b.cell with
  | error e => rfl
  | ok cell =>
    simp only
    rw [pmg_coords h b]
    simp only [List.length_map]
    rw [pmg_disorder h b, siteOf_rows, pmg_symmetry, pmg_types b]
    simp only
    exact convertSites_rows _ _ _ _ _ _ _ _ _ _

/-! ### Rows and their specification -/

theorem AseTable.filter (h : AseTable conv tags rows) (p : List String → Bool) : AseTable conv tags (rows.filter p) where
  nodup := h.nodup
  width := fun r hr => h.width r (List.mem_filter.1 hr).1
  x := h.x
  y := h.y
  z := h.z
  coordinates := fun r hr => h.coordinates r (List.mem_filter.1 hr).1
  occupancies := fun r hr => h.occupancies r (List.mem_filter.1 hr).1
  labels := fun r hr => h.labels r (List.mem_filter.1 hr).1
  symbols := fun r hr => h.symbols r (List.mem_filter.1 hr).1

theorem PmgTable.filter (h : PmgTable unquote tags rows) (p : List String → Bool) : PmgTable unquote tags (rows.filter p) where
  nodup := h.nodup
  width := fun r hr => h.width r (List.mem_filter.1 hr).1
  x := h.x
  y := h.y
  z := h.z
  coordinates := fun r hr => h.coordinates r (List.mem_filter.1 hr).1
  occupancies := fun r hr => h.occupancies r (List.mem_filter.1 hr).1

theorem aseDis_iff (h : AseTable conv tags rows) {r : List String} (hr : r ∈ rows) : aseDis conv tags r = true ↔ AseDisordered conv tags r := by
  have hw := h.width r hr
  rw [aseDis, Amd.hasDisorder, Bool.or_eq_true, AseDisordered]
  refine or_congr ?_ ?_
  · rw [aseOcc]
    by_cases ht : "_atom_site_occupancy" ∈ tags
    · have hs := field_some h.nodup hw ht
      rw [if_pos ht, hs]
      rcases h.occupancies r hr _ hs with ⟨q, hq⟩ | hq | hq
      · rw [hq]
        simp [AseItem.occupancy, PyFloat.ltOne, hq]
      · have e : (AseItem.str "?").occupancy.ltOne = false := by decide +kernel
        rw [hq, e]
        simp [hq]
      · have e : (AseItem.str ".").occupancy.ltOne = false := by decide +kernel
        rw [hq, e]
        simp [hq]
    · rw [if_neg ht, field_none ht]
      simp [PyFloat.ltOne]
  · rw [aseLabel, decide_eq_true_eq]
    by_cases ht : "_atom_site_label" ∈ tags
    · have hs := field_some h.nodup hw ht
      obtain ⟨t, hq⟩ := h.labels r hr _ hs
      rw [if_pos ht, hs, hq, itemText]
      simp only [Option.some.injEq, exists_and_left, exists_eq_left', hq, AseItem.str.injEq]
      exact List.getLast?_eq_some_iff
    · rw [if_neg ht, field_none ht]
      simp

theorem aseType_iff (h : AseTable conv tags rows) {r : List String} (hr : r ∈ rows) : aseType conv tags r = 1 ↔ AseHydrogen conv tags r := by
  have hw := h.width r hr
  rw [aseType, AseHydrogen]
  by_cases ht : "_atom_site_type_symbol" ∈ tags
  · have hs := field_some h.nodup hw ht
    obtain ⟨t, hq⟩ := h.symbols r hr _ hs
    rw [if_pos ht, hs, hq, symbolFromLabel_eq, atomicNumber_one, elementSymbol_hydrogen, itemText]
    simp [hq]
  · rw [if_neg ht, field_none ht]
    simp

theorem pmgDis_iff (h : PmgTable unquote tags rows) {r : List String} (hr : r ∈ rows) : pmgDis unquote tags r = true ↔ PmgDisordered unquote tags r := by
  have hw := h.width r hr
  rw [pmgDis, Amd.hasDisorder, Bool.or_eq_true, PmgDisordered]
  refine or_congr ?_ ?_
  · rw [pmgOcc]
    by_cases ht : "_atom_site_occupancy" ∈ tags
    · have hs := field_some h.nodup hw ht
      obtain ⟨q, hq⟩ := h.occupancies r hr _ hs
      rw [if_pos ht, hs, textNum, hq]
      simp [PyFloat.ltOne, hq]
    · rw [if_neg ht, field_none ht]
      simp [PyFloat.ltOne]
  · rw [pmgLabel, decide_eq_true_eq]
    by_cases ht : "_atom_site_label" ∈ tags
    · have hs := field_some h.nodup hw ht
      rw [if_pos ht, hs]
      simp only [Option.some.injEq, exists_and_left, exists_eq_left']
      exact List.getLast?_eq_some_iff
    · rw [if_neg ht, field_none ht]
      simp

theorem pmgType_iff (h : PmgTable unquote tags rows) {r : List String} (hr : r ∈ rows) : pmgType unquote tags r = 1 ↔ PmgHydrogen unquote tags r := by
  have hw := h.width r hr
  rw [pmgType, PmgHydrogen]
  by_cases ht : "_atom_site_type_symbol" ∈ tags
  · have hs := field_some h.nodup hw ht
    rw [if_pos ht, hs, symbolFromLabel_eq, atomicNumber_one, elementSymbol_hydrogen]
    simp
  · rw [if_neg ht, field_none ht]
    simp

/-! ### Disorder and hydrogens, for rows -/

section Rows

variable {α : Type} {typ : α → ℕ} {dis : α → Bool} {coord : α → ℚ × ℚ × ℚ} {name : String} {cell : Fin 3 → Pt 3 ℝ} {w : String}
  {sym : Conversion (List (AffineOp 3))} {l l' : List α}

theorem convertRows_congr {rh rh' : Bool} {d d' : String} (h : ¬ (d = "skip" ∧ l.any (siteRejected typ dis rh) = true))
    (h' : ¬ (d' = "skip" ∧ l'.any (siteRejected typ dis rh') = true))
    (hf : (l.filter fun r => !siteRemoved typ dis rh d r) = l'.filter fun r => !siteRemoved typ dis rh' d' r)
    (hd : d = d' ∨ (d ≠ "all_sites" ∧ d' ≠ "all_sites")) :
    convertRows typ dis coord name cell d w rh l sym = convertRows typ dis coord name cell d' w rh' l' sym := by
  rw [convertRows, convertRows, if_neg h, if_neg h', hf]
  rcases hd with rfl | ⟨h1, h2⟩
  · rfl
  · rw [finishSites_disorder name cell w h1 h2]

theorem convertRows_rejects {rh : Bool} (h : ∃ r ∈ l, dis r = true ∧ ¬ (rh = true ∧ typ r = 1)) :
    convertRows typ dis coord name cell "skip" w rh l sym =
      ([], .error (.parse (name ++ " has disorder, pass disorder='ordered_sites' or 'all_sites' to remove/ignore disorder"))) := by
  rw [convertRows, if_pos]
  obtain ⟨r, hr, h1, h2⟩ := h
  refine ⟨rfl, List.any_eq_true.2 ⟨r, hr, ?_⟩⟩
  rw [siteRejected, h1]
  cases rh <;> simp at h2 ⊢
  exact h2

theorem any_rejected {rh : Bool} (h : ∀ r ∈ l, dis r = true → rh = true ∧ typ r = 1) : l.any (siteRejected typ dis rh) = false := by
  rw [List.any_eq_false]
  intro r hr
  rw [siteRejected]
  cases hx : dis r with
  | false => simp
  | true => obtain ⟨h1, h2⟩ := h r hr hx; simp [h1, h2]

theorem convertRows_skip {rh : Bool} (h : ∀ r ∈ l, dis r = true → rh = true ∧ typ r = 1) :
    convertRows typ dis coord name cell "skip" w rh l sym = convertRows typ dis coord name cell "ordered_sites" w rh l sym := by
  refine convertRows_congr (by rw [any_rejected h]; simp) (fun hx => absurd hx.1 (by decide)) ?_ (Or.inr ⟨by decide, by decide⟩)
  refine List.filter_congr fun r hr => ?_
  simp only [siteRemoved, show decide (("skip" : String) = "ordered_sites") = false by decide, decide_true, Bool.false_and, Bool.or_false, Bool.true_and]
  cases hx : dis r with
  | false => simp
  | true => obtain ⟨h1, h2⟩ := h r hr hx; simp [h1, h2]

theorem convertRows_ordered {rh : Bool} :
    convertRows typ dis coord name cell "ordered_sites" w rh l sym =
      convertRows typ dis coord name cell "skip" w rh (l.filter fun r => !dis r) sym := by
  refine convertRows_congr (fun hx => absurd hx.1 (by decide)) ?_ ?_ (Or.inr ⟨by decide, by decide⟩)
  · rw [any_rejected]
    · simp
    · intro r hr hx
      have := (List.mem_filter.1 hr).2
      rw [hx] at this
      simp at this
  · rw [List.filter_filter]
    refine List.filter_congr fun r hr => ?_
    simp only [siteRemoved, show decide (("skip" : String) = "ordered_sites") = false by decide, decide_true, Bool.false_and, Bool.or_false, Bool.true_and,
      Bool.not_or]

theorem convertRows_hydrogens {d : String} :
    convertRows typ dis coord name cell d w true l sym = convertRows typ dis coord name cell d w false (l.filter fun r => !decide (typ r = 1)) sym := by
  have h1 : (l.filter fun r => !decide (typ r = 1)).any (siteRejected typ dis false) = l.any (siteRejected typ dis true) := by
    rw [List.any_filter]
    congr 1
    funext r
    simp only [siteRejected, Bool.true_and, Bool.false_and, Bool.not_false, Bool.and_true]
    rw [Bool.and_comm]
  have h2 : ((l.filter fun r => !decide (typ r = 1)).filter fun r => !siteRemoved typ dis false d r) = l.filter fun r => !siteRemoved typ dis true d r := by
    rw [List.filter_filter]
    refine List.filter_congr fun r hr => ?_
    simp only [siteRemoved, Bool.true_and, Bool.false_and, Bool.false_or, Bool.not_or]
    rw [Bool.and_comm]
  rw [convertRows, convertRows, h1, h2]

theorem convertRows_accepted {rh : Bool} {d : String} (hl : ¬ (d = "skip" ∧ l.any (siteRejected typ dis rh) = true)) {ws : List Warning}
    {ops : List (AffineOp 3)} (hs : sym = (ws, .ok ops)) :
    ((∃ r ∈ l, siteRemoved typ dis rh d r = false) → ∃ ws s, convertRows typ dis coord name cell d w rh l sym = (ws, .ok s)) ∧
    ((¬ ∃ r ∈ l, siteRemoved typ dis rh d r = false) →
      convertRows typ dis coord name cell d w rh l sym = ([], .error (.parse (name ++ " has no valid sites")))) := by
  rw [convertRows, if_neg hl]
  constructor
  · rintro ⟨r, hr, hx⟩
    rw [if_neg (by intro h; rw [List.filter_eq_nil_iff] at h; exact h r hr (by simp [hx]))]
    have e := finishSites_eq (sym := sym) ⟨id, fun _ => .ok 1, fun _ => none, fun _ => .ok ops⟩ ⟨name, fun _ => none, fun _ => [], none, false⟩ cell d w
      ((l.filter fun r => !siteRemoved typ dis rh d r).map fun r => modOne (coord r)) ((l.filter fun r => !siteRemoved typ dis rh d r).map typ)
      (by simp) (by rw [hs]; rfl)
    have e2 : (blockSymmetry ⟨id, fun _ => .ok 1, fun _ => none, fun _ => .ok ops⟩ ⟨name, fun _ => none, fun _ => [], none, false⟩).2 = .ok ops := rfl
    rw [finishBlock] at e
    simp only [e2] at e
    exact ⟨_, _, Prod.ext rfl e⟩
  · intro h
    rw [if_pos]
    rw [List.filter_eq_nil_iff]
    intro r hr hx
    exact h ⟨r, hr, by simpa using hx⟩

theorem convertRows_all {ws ws' : List Warning} {s : ReadSet} {ops : List (AffineOp 3)} (hs : sym = (ws', .ok ops)) (hne : ops ≠ [])
    (h : convertRows typ dis coord name cell "all_sites" w false l sym = (ws, .ok s)) :
    s.set.cell = cell ∧ ∃ a m, s.set.asymUnit = some a ∧ s.set.multiplicities = some m ∧ a.length = l.length ∧ m.length = l.length ∧
      ∀ i (hi : i < l.length) (hi' : i < a.length), (∃ q, IsImage (D := 3) (ops.head hne).rot (ops.head hne).trans (modOne (coord l[i])) q ∧
        s.set.motif[a[i]]? = some (fun j => ∑ k, q k * cell k j)) ∧ s.types[a[i]]? = some (typ l[i]) := by
  rw [convertRows, if_neg (fun hx => absurd hx.1 (by decide))] at h
  have hf : (l.filter fun r => !siteRemoved typ dis false "all_sites" r) = l := by
    rw [List.filter_eq_self]
    intro r hr
    simp [siteRemoved]
  rw [hf] at h
  split at h
  · cases h
  · rw [finishSites, hs] at h
    simp only [ne_eq, not_true_eq_false, if_false, decide_false] at h
    split at h
    · cases h
    · have hs := (Except.ok.inj (congrArg Prod.snd h)).symm
      obtain ⟨a, m, h1, h2, h3, h4, h5⟩ := C45_every_site (tol := eqSiteTol) name cell (l.map typ) (l.map fun r => modOne (coord r)) ops hne
        (by rw [eqSiteTol]; norm_num) false (Or.inl rfl) s hs
      rw [List.length_map] at h3 h4
      refine ⟨by rw [hs]; rfl, a, m, h1, h2, h3, h4, fun i hi hi' => ?_⟩
      obtain ⟨h6, q, h7, h8⟩ := h5 i (by simpa using hi) hi'
      refine ⟨⟨q, by simpa using h7, h8⟩, ?_⟩
      rw [hs]
      simp only [assemble, List.getElem?_map, h6, Option.map_some]
      rw [List.getD_eq_getElem _ _ (by simpa using hi), List.getElem_map]

end Rows

theorem modOne_spec (p : ℚ × ℚ × ℚ) (i : Fin 3) : 0 ≤ modOne p i ∧ modOne p i < 1 ∧ ∃ n : ℤ, (((![p.1, p.2.1, p.2.2] : Fin 3 → ℚ) i : ℚ) : ℝ) = modOne p i + n := by
  fin_cases i
  · exact ⟨Int.fract_nonneg _, Int.fract_lt_one _, ⌊(p.1 : ℝ)⌋, (Int.fract_add_floor _).symm⟩
  · exact ⟨Int.fract_nonneg _, Int.fract_lt_one _, ⌊(p.2.1 : ℝ)⌋, (Int.fract_add_floor _).symm⟩
  · exact ⟨Int.fract_nonneg _, Int.fract_lt_one _, ⌊(p.2.2 : ℝ)⌋, (Int.fract_add_floor _).symm⟩

end Amd
