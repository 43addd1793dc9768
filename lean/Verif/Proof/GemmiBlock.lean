import Verif.Spec.Cif
import Mathlib.Data.List.GetD
import Mathlib.Data.List.Nodup
import Mathlib.Data.List.TakeWhile

/-!
# Lemmas about the conversion of a block
-/

set_option linter.unusedSectionVars false

namespace Amd

/-! ### Columns -/

theorem zipIdx_filter {α : Type} : ∀ (r : List α) (m k : ℕ), ((r.zipIdx m).filter fun x => x.2 = m + k).map Prod.fst = (r[k]?).toList
  | [], _, _ => by simp
  | a :: r, m, k => by
    rw [List.zipIdx_cons, List.filter_cons]
    rcases k with _ | k
    · have : (r.zipIdx (m + 1)).filter (fun x => decide (x.2 = m)) = [] := by
        rw [List.filter_eq_nil_iff]
        rintro ⟨b, i⟩ hb
        have := List.le_snd_of_mem_zipIdx hb
        simp at this ⊢
        omega
      simp [this]
    · have ih := zipIdx_filter r (m + 1) k
      rw [if_neg (by simp)]
      rw [show m + 1 + k = m + (k + 1) by omega] at ih
      rw [ih]
      simp

theorem column_rows {w k : ℕ} (hk : k < w) : ∀ (rows : List (List String)) (n : ℕ), (∀ r ∈ rows, r.length = w) →
    ((rows.flatten.zipIdx (n * w)).filter fun x => x.2 % w = k).map Prod.fst = rows.map fun r => r.getD k ""
  | [], _, _ => by simp
  | r :: rows, n, h => by
    have hr : r.length = w := h r (by simp)
    rw [List.flatten_cons, List.zipIdx_append, List.filter_append, List.map_append, hr, show n * w + w = (n + 1) * w by ring]
    rw [column_rows hk rows (n + 1) fun r hr => h r (by simp [hr]), List.map_cons]
    have e : (r.zipIdx (n * w)).filter (fun x => decide (x.2 % w = k)) = (r.zipIdx (n * w)).filter fun x => decide (x.2 = n * w + k) := by
      refine List.filter_congr fun x hx => ?_
      obtain ⟨a, i⟩ := x
      have h1 := List.le_snd_of_mem_zipIdx hx
      have h2 := List.snd_lt_add_of_mem_zipIdx hx
      simp only at h1 h2
      obtain ⟨j, rfl⟩ := Nat.exists_eq_add_of_le h1
      have hj : j < w := by omega
      have : (n * w + j) % w = j := by rw [Nat.mul_comm, Nat.mul_add_mod, Nat.mod_eq_of_lt hj]
      simp only [this]
      congr 1
      rw [eq_iff_iff]; omega
    rw [e, zipIdx_filter, List.getD_eq_getElem _ _ (by omega), List.getElem?_eq_getElem (by omega)]
    rfl

theorem lookup_zip {tag : String} : ∀ (tags row : List String), tags.Nodup → row.length = tags.length → tag ∈ tags →
    (tags.zip row).lookup tag = some (row.getD (tags.idxOf tag) "")
  | [], _, _, _, h => by cases h
  | t :: tags, [], _, h, _ => by simp at h
  | t :: tags, a :: row, hn, hl, hm => by
    rw [List.zip_cons_cons, List.lookup_cons]
    by_cases ht : tag = t
    · subst ht; simp
    · have hb : (tag == t) = false := by simpa using ht
      have hm' : tag ∈ tags := by simpa [ht] using hm
      rw [hb]
      simp only
      rw [lookup_zip tags row (List.nodup_cons.1 hn).2 (by simpa using hl) hm', List.idxOf_cons_ne _ (Ne.symm ht)]
      simp

theorem lookup_zip_none {tag : String} {tags row : List String} (h : tag ∉ tags) : (tags.zip row).lookup tag = none := by
  rw [List.lookup_eq_none_iff]
  rintro ⟨a, b⟩ hab
  have : a ∈ tags := (List.of_mem_zip hab).1
  simp only [bne_iff_ne, ne_eq]
  rintro rfl
  exact h this

theorem zipIdx_tag {tag : String} : ∀ (tags : List String) (m : ℕ), tags.Nodup → tag ∈ tags →
    (tags.zipIdx m).filter (fun x => decide (x.1 = tag)) = [(tag, m + tags.idxOf tag)]
  | [], _, _, h => by cases h
  | t :: tags, m, hn, hm => by
    rw [List.zipIdx_cons, List.filter_cons]
    by_cases ht : t = tag
    · subst ht
      have : (tags.zipIdx (m + 1)).filter (fun x => decide (x.1 = t)) = [] := by
        rw [List.filter_eq_nil_iff]
        rintro ⟨a, i⟩ ha
        have := List.fst_mem_of_mem_zipIdx ha
        simp only [decide_eq_true_eq]
        rintro rfl
        exact (List.nodup_cons.1 hn).1 this
      simp [this]
    · rw [if_neg (by simpa using ht), zipIdx_tag tags (m + 1) (List.nodup_cons.1 hn).2 (by simpa [Ne.symm ht] using hm), List.idxOf_cons_ne _ ht]
      congr 2
      omega

/-- The field, empty if there is none. -/
def fieldD (tags row : List String) (tag : String) : String := (field tags row tag).getD ""

theorem get_rows {tags : List String} {rows : List (List String)} (hn : tags.Nodup) (hw : ∀ r ∈ rows, r.length = tags.length) (tag : String) :
    (CifLoop.mk tags rows.flatten).get tag = if tag ∈ tags then some (rows.map fun r => fieldD tags r tag) else none := by
  rw [CifLoop.get]
  split
  · rename_i h
    simp only
    rw [zipIdx_tag tags 0 hn h]
    simp only [List.getLast?_singleton, Option.map_some, Option.some.injEq, Nat.zero_add]
    have hk := List.idxOf_lt_length_of_mem h
    have := column_rows hk rows 0 hw
    rw [Nat.zero_mul] at this
    rw [CifLoop.column]
    simp only
    rw [this]
    refine List.map_congr_left fun r hr => ?_
    rw [fieldD, field, lookup_zip tags r hn (hw r hr) h]
    rfl
  · rename_i h
    have : tags.zipIdx.filter (fun x => decide (x.1 = tag)) = [] := by
      rw [List.filter_eq_nil_iff]
      rintro ⟨a, i⟩ ha
      have := List.fst_mem_of_mem_zipIdx ha
      simp only [decide_eq_true_eq]
      rintro rfl
      exact h this
    simp only [this]
    rfl

theorem length_rows {tags : List String} {rows : List (List String)} (ht : tags ≠ []) (hw : ∀ r ∈ rows, r.length = tags.length) :
    (CifLoop.mk tags rows.flatten).length = rows.length := by
  have : rows.flatten.length = rows.length * tags.length := by
    induction rows with
    | nil => simp
    | cons r rows ih =>
      rw [List.flatten_cons, List.length_append, ih fun r hr => hw r (by simp [hr]), hw r (by simp), List.length_cons]
      ring
  rw [CifLoop.length]
  simp only
  rw [this, Nat.mul_div_cancel _ (List.length_pos_iff.2 ht)]

/-! ### Rows -/

/-- The number in a field, NaN if it is not a number. -/
def fieldNum (tags row : List String) (tag : String) : PyFloat :=
  match str2float (fieldD tags row tag) with
  | .ok x => x
  | .error _ => .nan

noncomputable def rowCoord (tags row : List String) : Fin 3 → Option ℝ :=
  ![(fieldNum tags row "_atom_site_fract_x").coord, (fieldNum tags row "_atom_site_fract_y").coord, (fieldNum tags row "_atom_site_fract_z").coord]

def rowLabel (env : GemmiEnv) (tags row : List String) : String := if "_atom_site_label" ∈ tags then env.asString (fieldD tags row "_atom_site_label") else ""

def rowType (env : GemmiEnv) (tags row : List String) : ℕ :=
  if "_atom_site_type_symbol" ∈ tags then atomicNumber (elementSymbol (env.asString (fieldD tags row "_atom_site_type_symbol")))
  else atomicNumber (symbolFromLabel (rowLabel env tags row))

def rowOcc (tags row : List String) : PyFloat :=
  if "_atom_site_occupancy" ∈ tags then (fieldNum tags row "_atom_site_occupancy").occupancy else .num 1

theorem mapM_ok {α β : Type} {f : α → Except Exc β} {g : α → β} : ∀ {l : List α}, (∀ x ∈ l, f x = .ok (g x)) → l.mapM f = .ok (l.map g)
  | [], _ => rfl
  | a :: l, h => by
    rw [List.mapM_cons, h a (by simp), mapM_ok fun x hx => h x (by simp [hx])]
    rfl

theorem field_some {tags row : List String} (hn : tags.Nodup) (hw : row.length = tags.length) {tag : String} (h : tag ∈ tags) :
    field tags row tag = some (fieldD tags row tag) := by
  rw [fieldD, field, lookup_zip tags row hn hw h]
  rfl

theorem field_none {tags row : List String} {tag : String} (h : tag ∉ tags) : field tags row tag = none := lookup_zip_none h

theorem mapM_fields {tags : List String} {rows : List (List String)} (ht : AtomTable tags rows) (hr : Readable tags rows) {tag : String}
    (hm : tag ∈ ["_atom_site_fract_x", "_atom_site_fract_y", "_atom_site_fract_z", "_atom_site_occupancy"]) (h : tag ∈ tags) :
    (rows.map fun r => fieldD tags r tag).mapM str2float = .ok (rows.map fun r => fieldNum tags r tag) := by
  rw [mapM_ok (g := fun s => match str2float s with | .ok x => x | .error _ => .nan)]
  · rw [List.map_map]
    rfl
  · intro s hs
    obtain ⟨r, hr', rfl⟩ := List.mem_map.1 hs
    obtain ⟨x, hx⟩ := hr r hr' tag hm _ (field_some ht.nodup (ht.width r hr') h)
    rw [hx]

theorem loopCoords_rows {tags : List String} {rows : List (List String)} (ht : AtomTable tags rows) (hr : Readable tags rows) :
    loopCoords ⟨tags, rows.flatten⟩ = .ok (rows.map (rowCoord tags)) := by
  rw [loopCoords, get_rows ht.nodup ht.width, get_rows ht.nodup ht.width, get_rows ht.nodup ht.width, if_pos ht.x, if_pos ht.y, if_pos ht.z]
  simp only
  rw [mapM_fields ht hr (by simp) ht.x, mapM_fields ht hr (by simp) ht.y, mapM_fields ht hr (by simp) ht.z]
  simp only [List.length_map, and_self, if_true]
  congr 1
  clear hr ht
  induction rows with
  | nil => rfl
  | cons r rows ih =>
    simp only [List.map_cons, List.zip_cons_cons, List.zipWith_cons_cons]
    rw [ih]
    rfl

theorem tags_ne_nil {tags : List String} {rows : List (List String)} (ht : AtomTable tags rows) : tags ≠ [] := List.ne_nil_of_mem ht.x

theorem loopLabels_rows (env : GemmiEnv) {tags : List String} {rows : List (List String)} (ht : AtomTable tags rows) :
    loopLabels env ⟨tags, rows.flatten⟩ = rows.map (rowLabel env tags) := by
  rw [loopLabels, get_rows ht.nodup ht.width]
  by_cases h : "_atom_site_label" ∈ tags
  · rw [if_pos h]
    simp only [List.map_map]
    refine List.map_congr_left fun r hr => ?_
    rw [rowLabel, if_pos h]
    rfl
  · rw [if_neg h]
    simp only
    rw [length_rows (tags_ne_nil ht) ht.width]
    have : rowLabel env tags = fun _ => "" := by funext r; rw [rowLabel, if_neg h]
    rw [this, List.map_const']

theorem loopTypes_rows (env : GemmiEnv) {tags : List String} {rows : List (List String)} (ht : AtomTable tags rows) :
    loopTypes env ⟨tags, rows.flatten⟩ = rows.map (rowType env tags) := by
  rw [loopTypes, get_rows ht.nodup ht.width, loopLabels_rows env ht]
  by_cases h : "_atom_site_type_symbol" ∈ tags
  · rw [if_pos h]
    simp only [List.map_map]
    refine List.map_congr_left fun r hr => ?_
    rw [rowType, if_pos h]
    rfl
  · rw [if_neg h]
    simp only [List.map_map]
    refine List.map_congr_left fun r hr => ?_
    rw [rowType, if_neg h]
    rfl

theorem loopOccupancies_rows {tags : List String} {rows : List (List String)} (ht : AtomTable tags rows) (hr : Readable tags rows) :
    loopOccupancies ⟨tags, rows.flatten⟩ = .ok (rows.map (rowOcc tags)) := by
  rw [loopOccupancies, get_rows ht.nodup ht.width]
  by_cases h : "_atom_site_occupancy" ∈ tags
  · rw [if_pos h]
    simp only
    rw [mapM_fields ht hr (by simp) h]
    simp only [Except.map, List.map_map]
    congr 1
    refine List.map_congr_left fun r hr => ?_
    rw [rowOcc, if_pos h]
    rfl
  · rw [if_neg h]
    simp only
    rw [length_rows (tags_ne_nil ht) ht.width]
    have : rowOcc tags = fun _ => .num 1 := by funext r; rw [rowOcc, if_neg h]
    rw [this, List.map_const']

/-! ### Selection -/

theorem deleteAt_filter {α β : Type} {f : α → β} {p : α → Bool} {inds : List ℕ} : ∀ (l : List α) (n : ℕ),
    (∀ i x, l[i]? = some x → (n + i ∈ inds ↔ p x = true)) →
    (((l.map f).zipIdx n).filter fun x => decide (x.2 ∉ inds)).map Prod.fst = (l.filter fun x => !p x).map f
  | [], _, _ => rfl
  | a :: l, n, h => by
    have h0 := h 0 a rfl
    have ih := deleteAt_filter (f := f) (p := p) (inds := inds) l (n + 1) fun i x hx => by
      have := h (i + 1) x hx
      rwa [show n + (i + 1) = n + 1 + i by omega] at this
    rw [List.map_cons, List.zipIdx_cons, List.filter_cons, List.filter_cons]
    by_cases hp : p a = true
    · have : n ∈ inds := by simpa using h0.2 hp
      simp only [this, hp, not_true_eq_false, decide_false, Bool.not_true, Bool.false_eq_true, if_false]
      exact ih
    · have hn : n ∉ inds := fun hx => hp (h0.1 (by simpa using hx))
      have hp' : p a = false := by simpa using hp
      simp only [hn, hp', not_false_eq_true, decide_true, Bool.not_false, if_true, List.map_cons]
      rw [ih]

theorem mem_indicesOf {α : Type} {p : α → Bool} {l : List α} {i : ℕ} : i ∈ indicesOf (l.map p) ↔ ∃ x, l[i]? = some x ∧ p x = true := by
  rw [indicesOf, List.mem_map]
  constructor
  · rintro ⟨⟨b, j⟩, h, rfl⟩
    rw [List.mem_filter, List.mem_zipIdx_iff_getElem?, List.getElem?_map, Option.map_eq_some_iff] at h
    obtain ⟨⟨x, hx, rfl⟩, hb⟩ := h
    exact ⟨x, hx, hb⟩
  · rintro ⟨x, hx, hp⟩
    refine ⟨(p x, i), ?_, rfl⟩
    rw [List.mem_filter, List.mem_zipIdx_iff_getElem?, List.getElem?_map, hx]
    exact ⟨rfl, hp⟩

/-- The row is disordered. -/
def rowDis (env : GemmiEnv) (tags row : List String) : Bool := hasDisorder (rowLabel env tags row) (rowOcc tags row)

/-- The row is removed. -/
noncomputable def rowRemoved (env : GemmiEnv) (tags : List String) (rh : Bool) (disorder : String) (row : List String) : Bool :=
  hasNan (rowCoord tags row) || (decide (disorder = "ordered_sites") && rowDis env tags row) || (rh && decide (rowType env tags row = 1))

theorem zipWith_map_same {α β γ δ : Type} (f : β → γ → δ) (g : α → β) (h : α → γ) (l : List α) :
    List.zipWith f (l.map g) (l.map h) = l.map fun x => f (g x) (h x) := by
  induction l with
  | nil => rfl
  | cons a l ih => simp [ih]

theorem selectSites_rows (env : GemmiEnv) (name : String) (tags : List String) (rows : List (List String)) (rh : Bool) (disorder : String) :
    selectSites name (rows.map (rowCoord tags)) (rows.map (rowLabel env tags)) (rows.map (rowType env tags)) (rows.map (rowOcc tags)) rh disorder =
      if disorder = "skip" ∧ (rows.any (rowDis env tags)) = true then
        .error (.parse (name ++ " has disorder, pass disorder='ordered_sites' or 'all_sites' to remove/ignore disorder"))
      else if rows.filter (fun r => !rowRemoved env tags rh disorder r) = [] then .error (.parse (name ++ " has no valid sites"))
      else .ok ((rows.filter fun r => !rowRemoved env tags rh disorder r).map (fun r => toPt (rowCoord tags r)),
        (rows.filter fun r => !rowRemoved env tags rh disorder r).map (rowType env tags)) := by
  rw [selectSites, zipWith_map_same]
  have e1 : (rows.map fun r => hasDisorder (rowLabel env tags r) (rowOcc tags r)).any id = rows.any (rowDis env tags) := by
    rw [List.any_map]; rfl
  simp only [e1]
  split
  · rfl
  · set rem := indicesOf ((rows.map (rowCoord tags)).map hasNan) ++
      (if disorder = "ordered_sites" then indicesOf (rows.map fun r => hasDisorder (rowLabel env tags r) (rowOcc tags r)) else []) ++
      (if rh = true then indicesOf ((rows.map (rowType env tags)).map fun n => decide (n = 1)) else []) with hrem
    have hm : ∀ i r, rows[i]? = some r → (0 + i ∈ rem ↔ rowRemoved env tags rh disorder r = true) := by
      intro i r hr
      rw [Nat.zero_add, hrem, List.map_map, List.map_map, List.mem_append, List.mem_append, mem_indicesOf, rowRemoved, Bool.or_eq_true, Bool.or_eq_true]
      refine or_congr (or_congr ?_ ?_) ?_
      · rw [hr]; simp
      · split
        · rename_i hd
          rw [mem_indicesOf, hr]
          simp [hd, rowDis]
        · rename_i hd
          simp [hd]
      · split
        · rename_i hd
          rw [mem_indicesOf, hr]
          simp [hd]
        · rename_i hd
          simp [hd]
    have d1 := deleteAt_filter (f := rowCoord tags) rows 0 hm
    have d2 := deleteAt_filter (f := rowType env tags) rows 0 hm
    rw [deleteAt, deleteAt, d1, d2, List.map_map]
    simp only [List.map_eq_nil_iff]
    rfl

/-! ### The conversion of a table -/

theorem gemmiConvert_rows (env : GemmiEnv) (b : GemmiBlock) {tags : List String} {rows : List (List String)} (ht : AtomTable tags rows) (hr : Readable tags rows)
    (rh : Bool) (disorder : String) :
    gemmiConvert env (b.withRows tags rows) rh disorder =
      match blockCell b with
      | .error e => ([], .error e)
      | .ok cell =>
        if disorder = "skip" ∧ (rows.any (rowDis env tags)) = true then
          ([], .error (.parse (b.name ++ " has disorder, pass disorder='ordered_sites' or 'all_sites' to remove/ignore disorder")))
        else if rows.filter (fun r => !rowRemoved env tags rh disorder r) = [] then ([], .error (.parse (b.name ++ " has no valid sites")))
        else finishBlock env b cell disorder ((rows.filter fun r => !rowRemoved env tags rh disorder r).map (fun r => toPt (rowCoord tags r)))
          ((rows.filter fun r => !rowRemoved env tags rh disorder r).map (rowType env tags)) := by
  rw [gemmiConvert]
  have h1 : blockCell (b.withRows tags rows) = blockCell b := rfl
  have h2 : (b.withRows tags rows).fractLoop = some ⟨tags, rows.flatten⟩ := rfl
  have h3 : (b.withRows tags rows).name = b.name := rfl
  have h4 : ∀ cell d a t, finishBlock env (b.withRows tags rows) cell d a t = finishBlock env b cell d a t := fun _ _ _ _ => rfl
  rw [h1, h2]
  cases blockCell b with
  | error e => rfl
  | ok cell =>
    simp only
    rw [loopCoords_rows ht hr, loopOccupancies_rows ht hr]
    simp only
    rw [loopLabels_rows env ht, loopTypes_rows env ht, h3, selectSites_rows]
    split
    · rename_i h
      split at h
      · rename_i hc
        cases h
        rw [if_pos hc]
      · rename_i hc
        split at h
        · rename_i hc'
          cases h
          rw [if_neg hc, if_pos hc']
        · cases h
    · rename_i asym types h
      split at h
      · cases h
      · rename_i hc
        split at h
        · cases h
        · rename_i hc'
          cases h
          rw [if_neg hc, if_neg hc', h4]

theorem finishBlock_disorder (env : GemmiEnv) (b : GemmiBlock) (cell : Fin 3 → Pt 3 ℝ) {d d' : String} (h : d ≠ "all_sites") (h' : d' ≠ "all_sites")
    (asym : List (Pt 3 ℝ)) (types : List ℕ) : finishBlock env b cell d asym types = finishBlock env b cell d' asym types := by
  simp only [finishBlock, removeOverlaps, h, h', ne_eq, not_false_eq_true, if_true]

/-! ### Rows and their specification -/

theorem rowDis_iff (env : GemmiEnv) {tags row : List String} (hn : tags.Nodup) (hw : row.length = tags.length) :
    rowDis env tags row = true ↔ DisorderedRow env.asString tags row := by
  rw [rowDis, hasDisorder, Bool.or_eq_true, DisorderedRow]
  refine or_congr ?_ ?_
  · rw [rowOcc]
    by_cases h : "_atom_site_occupancy" ∈ tags
    · rw [if_pos h, fieldNum, field_some hn hw h]
      simp only [Option.some.injEq, exists_eq_left']
      cases str2float (fieldD tags row "_atom_site_occupancy") with
      | error e => simp [PyFloat.occupancy, PyFloat.ltOne]
      | ok x =>
        cases x with
        | num q => simp [PyFloat.occupancy, PyFloat.ltOne]
        | nan => simp [PyFloat.occupancy, PyFloat.ltOne]
        | inf neg => simp [PyFloat.occupancy, PyFloat.ltOne]
    · rw [if_neg h, field_none h]
      simp [PyFloat.ltOne]
  · rw [rowLabel, decide_eq_true_eq]
    by_cases h : "_atom_site_label" ∈ tags
    · rw [if_pos h, field_some hn hw h]
      simp only [Option.some.injEq, exists_eq_left']
      exact List.getLast?_eq_some_iff
    · rw [if_neg h, field_none h]
      simp

theorem atomicNumber_one (s : String) : atomicNumber s = 1 ↔ s = "H" ∨ s = "D" := by
  have hall : atomicNumbers.all (fun x => decide (x.2 = 1 → x.1 = "H" ∨ x.1 = "D")) = true := by decide +kernel
  constructor
  · intro h
    rw [atomicNumber] at h
    cases hl : atomicNumbers.lookup s with
    | none => rw [hl] at h; simp at h
    | some n =>
      rw [hl] at h
      simp only [Option.getD_some] at h
      subst h
      have := List.lookup_eq_some_iff.1 hl
      obtain ⟨l₁, l₂, e, -⟩ := this
      have hm : (s, 1) ∈ atomicNumbers := by rw [e]; simp
      have := List.all_eq_true.1 hall _ hm
      simpa using this
  · rintro (rfl | rfl) <;> decide +kernel

theorem symbolFromLabel_eq (s : String) : symbolFromLabel s = elementSymbol s := by
  rw [symbolFromLabel]
  split
  · rename_i h
    rcases h with rfl | rfl | rfl <;> decide +kernel
  · rfl

theorem isLetter_iff {c : Char} : isLetter c = true ↔ c.isUpper ∨ c.isLower := by
  rw [isLetter, Bool.or_eq_true]

theorem toUpper_cases {c u v : Char} (h : c.toUpper = u) (hv : v.val = u.val - ('A'.val - 'a'.val)) : c = u ∨ c = v := by
  rw [Char.toUpper] at h
  split at h
  · right
    have h1 := congrArg Char.val h
    dsimp only at h1
    refine Char.ext ?_
    rw [hv, ← h1, UInt32.add_sub_cancel]
  · exact Or.inl h

theorem hydrogen_upper {c : Char} : (c.toUpper = 'H' ∨ c.toUpper = 'D') ↔ c ∈ ['H', 'h', 'D', 'd'] := by
  constructor
  · rintro (h | h)
    · rcases toUpper_cases (v := 'h') h (by decide) with rfl | rfl <;> simp
    · rcases toUpper_cases (v := 'd') h (by decide) with rfl | rfl <;> simp
  · intro h
    simp only [List.mem_cons, List.not_mem_nil, or_false] at h
    rcases h with rfl | rfl | rfl | rfl <;> decide

theorem dropWhile_letter {pre post : List Char} {c : Char} (hp : ∀ d ∈ pre, isLetter d = false) (hc : isLetter c = true) :
    (pre ++ c :: post).dropWhile (fun c => !isLetter c) = c :: post := by
  rw [List.dropWhile_append_of_pos fun d hd => by simp [hp d hd], List.dropWhile_cons]
  simp [hc]

theorem elementSymbol_hydrogen (s : String) : (elementSymbol s = "H" ∨ elementSymbol s = "D") ↔ HydrogenText s := by
  have hofList : ∀ c u : Char, String.ofList [c.toUpper] = String.ofList [u] ↔ c.toUpper = u := fun c u => by
    rw [String.ofList_inj]; simp
  have hofList2 : ∀ c d u : Char, String.ofList [c.toUpper, d.toLower] ≠ String.ofList [u] := fun c d u h => by
    rw [String.ofList_inj] at h; simp at h
  have hH : "H" = String.ofList ['H'] := rfl
  have hD : "D" = String.ofList ['D'] := rfl
  constructor
  · intro h
    rw [elementSymbol] at h
    have htd := List.takeWhile_append_dropWhile (p := fun c => !isLetter c) (l := s.toList)
    have htw : ∀ d ∈ s.toList.takeWhile (fun c => !isLetter c), ¬ (d.isUpper ∨ d.isLower) := by
      intro d hd
      have := List.mem_takeWhile_imp hd
      rw [← isLetter_iff]
      simpa using this
    split at h
    · rcases h with h | h <;> exact absurd h (by decide)
    · rename_i c cs e
      rw [e] at htd
      split at h
      · refine ⟨_, c, [], htd.symm, htw, hydrogen_upper.1 ?_, fun d hd => by cases hd⟩
        rwa [hH, hD, hofList, hofList] at h
      · rename_i d cs'
        split at h
        · rw [hH, hD] at h
          rcases h with h | h <;> exact absurd h (hofList2 _ _ _)
        · rename_i hd
          refine ⟨_, c, d :: cs', htd.symm, htw, hydrogen_upper.1 ?_, fun d' hd' => ?_⟩
          · rwa [hH, hD, hofList, hofList] at h
          · simp only [List.head?_cons, Option.some.injEq] at hd'
            subst hd'
            rwa [← isLetter_iff]
  · rintro ⟨pre, c, post, e, hp, hc, hq⟩
    have hl : isLetter c = true := by
      simp only [List.mem_cons, List.not_mem_nil, or_false] at hc
      rcases hc with rfl | rfl | rfl | rfl <;> decide
    rw [elementSymbol, e, dropWhile_letter (fun d hd => by
      have := hp d hd
      rw [← isLetter_iff] at this
      simpa using this) hl]
    have hu := hydrogen_upper.2 hc
    rcases post with _ | ⟨d, post⟩
    · rw [hH, hD]
      simp only
      rwa [hofList, hofList]
    · have := hq d rfl
      rw [← isLetter_iff] at this
      simp only
      rw [if_neg this, hH, hD, hofList, hofList]
      exact hu

theorem rowType_iff (env : GemmiEnv) {tags row : List String} (hn : tags.Nodup) (hw : row.length = tags.length) :
    rowType env tags row = 1 ↔ HydrogenRow env.asString tags row := by
  rw [rowType, HydrogenRow]
  by_cases h : "_atom_site_type_symbol" ∈ tags
  · rw [if_pos h, atomicNumber_one, elementSymbol_hydrogen, field_some hn hw h]
    simp [h]
  · rw [if_neg h, symbolFromLabel_eq, atomicNumber_one, elementSymbol_hydrogen, field_none h, rowLabel]
    by_cases hl : "_atom_site_label" ∈ tags
    · rw [if_pos hl, field_some hn hw hl]
      simp [h]
    · rw [if_neg hl, field_none hl]
      simp only [reduceCtorEq, false_and, exists_false, and_false, or_false, iff_false]
      rintro ⟨pre, c, post, e, -⟩
      simp at e

theorem hasNan_iff {tags row : List String} (hn : tags.Nodup) (hw : row.length = tags.length) (hx : "_atom_site_fract_x" ∈ tags)
    (hy : "_atom_site_fract_y" ∈ tags) (hz : "_atom_site_fract_z" ∈ tags) : hasNan (rowCoord tags row) = false ↔ HasCoordinates tags row := by
  have key : ∀ tag ∈ tags, (fieldNum tags row tag).coord.isNone = false ↔ ∃ s q, field tags row tag = some s ∧ str2float s = .ok (.num q) := by
    intro tag h
    rw [fieldNum, field_some hn hw h]
    simp only [Option.some.injEq, exists_and_left, exists_eq_left']
    cases str2float (fieldD tags row tag) with
    | error e => simp [PyFloat.coord]
    | ok x => cases x <;> simp [PyFloat.coord]
  rw [hasNan, Bool.or_eq_false_iff, Bool.or_eq_false_iff]
  simp only [rowCoord, Matrix.cons_val_zero, Matrix.cons_val_one, Matrix.cons_val]
  rw [key _ hx, key _ hy, key _ hz, HasCoordinates]
  simp only [List.mem_cons, List.not_mem_nil, or_false, forall_eq_or_imp, forall_eq, and_assoc]

theorem rowPoint_spec {tags row : List String} (hx : "_atom_site_fract_x" ∈ tags)
    (hy : "_atom_site_fract_y" ∈ tags) (hz : "_atom_site_fract_z" ∈ tags) (h : HasCoordinates tags row) : RowPoint tags row (toPt (rowCoord tags row)) := by
  have key : ∀ tag ∈ tags, tag ∈ ["_atom_site_fract_x", "_atom_site_fract_y", "_atom_site_fract_z"] →
      0 ≤ ((fieldNum tags row tag).coord).getD 0 ∧ ((fieldNum tags row tag).coord).getD 0 < 1 ∧ ∃ s q, ∃ n : ℤ, field tags row tag = some s ∧
        str2float s = .ok (.num q) ∧ (q : ℝ) = ((fieldNum tags row tag).coord).getD 0 + n := by
    intro tag h1 h2
    obtain ⟨s, q, e1, e2⟩ := h tag h2
    have e3 : fieldD tags row tag = s := by rw [fieldD, e1]; rfl
    have e4 : fieldNum tags row tag = .num q := by rw [fieldNum, e3, e2]
    rw [e4]
    exact ⟨Int.fract_nonneg _, Int.fract_lt_one _, s, q, ⌊(q : ℝ)⌋, e1, e2, (Int.fract_add_floor _).symm⟩
  intro i
  fin_cases i
  · exact key _ hx (by simp)
  · exact key _ hy (by simp)
  · exact key _ hz (by simp)

theorem elementSymbol_spec (s : String) : ElementText s (elementSymbol s) := by
  have htd := List.takeWhile_append_dropWhile (p := fun c => !isLetter c) (l := s.toList)
  have htw : ∀ d ∈ s.toList.takeWhile (fun c => !isLetter c), ¬ (d.isUpper ∨ d.isLower) := by
    intro d hd
    have := List.mem_takeWhile_imp hd
    rw [← isLetter_iff]
    simpa using this
  rw [elementSymbol]
  split
  · rename_i e
    rw [e, List.append_nil] at htd
    rw [htd] at htw
    exact Or.inl ⟨htw, rfl⟩
  · rename_i c cs e
    right
    have hc : isLetter c = true := by
      have := List.head?_dropWhile_not (fun c => !isLetter c) s.toList
      rw [e] at this
      simpa using this
    rw [e] at htd
    refine ⟨_, c, cs, htd.symm, htw, isLetter_iff.1 hc, ?_⟩
    split
    · exact Or.inl ⟨fun d hd => by simp at hd, rfl⟩
    · rename_i d cs'
      split
      · rename_i hd
        exact Or.inr ⟨d, rfl, isLetter_iff.1 hd, rfl⟩
      · rename_i hd
        refine Or.inl ⟨fun d' hd' => ?_, rfl⟩
        simp only [List.head?_cons, Option.some.injEq] at hd'
        subst hd'
        rwa [← isLetter_iff]

theorem rowType_text (env : GemmiEnv) {tags row : List String} (hn : tags.Nodup) (hw : row.length = tags.length) :
    rowType env tags row = atomicNumber (elementSymbol (rowText env.asString tags row)) := by
  rw [rowType, rowText]
  by_cases h : "_atom_site_type_symbol" ∈ tags
  · rw [if_pos h, field_some hn hw h]
  · rw [if_neg h, field_none h, symbolFromLabel_eq, rowLabel]
    by_cases hl : "_atom_site_label" ∈ tags
    · rw [if_pos hl, field_some hn hw hl]
    · rw [if_neg hl, field_none hl]

end Amd
