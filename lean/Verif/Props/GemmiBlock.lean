import Verif.Proof.GemmiBlock
import Verif.Props.Sites

/-!
# Disorder, hydrogens and missing data: C46, C47, C48
-/

namespace Amd

open Classical

variable {env : GemmiEnv} {b : GemmiBlock} {tags : List String} {rows : List (List String)} {rh : Bool} {d : String}

/-! ### Which rows are used -/

/-- The rows that are used: those with coordinates, without the disordered ones for `'ordered_sites'` and without hydrogens if these are removed. -/
def UsedRow (env : GemmiEnv) (tags : List String) (rh : Bool) (d : String) (r : List String) : Prop :=
  HasCoordinates tags r ∧ (d = "ordered_sites" → ¬ DisorderedRow env.asString tags r) ∧ (rh = true → ¬ HydrogenRow env.asString tags r)

theorem removed_iff (ht : AtomTable tags rows) {r : List String} (hr : r ∈ rows) : rowRemoved env tags rh d r = false ↔ UsedRow env tags rh d r := by
  have hw := ht.width r hr
  rw [rowRemoved, Bool.or_eq_false_iff, Bool.or_eq_false_iff, hasNan_iff ht.nodup hw ht.x ht.y ht.z, UsedRow, and_assoc]
  refine and_congr Iff.rfl (and_congr ?_ ?_)
  · rw [Bool.and_eq_false_iff, ← rowDis_iff env ht.nodup hw]
    by_cases h : d = "ordered_sites" <;> simp [h]
  · rw [Bool.and_eq_false_iff, ← rowType_iff env ht.nodup hw]
    by_cases h : rh = true <;> simp [h]

theorem filter_used (ht : AtomTable tags rows) : (rows.filter fun r => !rowRemoved env tags rh d r) = rows.filter fun r => decide (UsedRow env tags rh d r) := by
  refine List.filter_congr fun r hr => ?_
  rw [Bool.eq_iff_iff, Bool.not_eq_true', removed_iff ht hr, decide_eq_true_iff]

theorem any_dis (ht : AtomTable tags rows) : rows.any (rowDis env tags) = true ↔ ∃ r ∈ rows, DisorderedRow env.asString tags r := by
  rw [List.any_eq_true]
  exact exists_congr fun r => and_congr_right fun hr => rowDis_iff env ht.nodup (ht.width r hr)

theorem AtomTable.filter (ht : AtomTable tags rows) (p : List String → Bool) : AtomTable tags (rows.filter p) :=
  ⟨ht.nodup, fun r hr => ht.width r (List.mem_filter.1 hr).1, ht.x, ht.y, ht.z⟩

theorem Readable.filter (h : Readable tags rows) (p : List String → Bool) : Readable tags (rows.filter p) :=
  fun r hr => h r (List.mem_filter.1 hr).1

/-- What remains of the conversion if disorder does not matter. -/
noncomputable def convertUsed (env : GemmiEnv) (b : GemmiBlock) (tags : List String) (used : List (List String)) (d : String) : Conversion ReadSet :=
  match blockCell b with
  | .error e => ([], .error e)
  | .ok cell =>
    if used = [] then ([], .error (.parse (b.name ++ " has no valid sites")))
    else finishBlock env b cell d (used.map (fun r => toPt (rowCoord tags r))) (used.map (rowType env tags))

theorem convert_used (ht : AtomTable tags rows) (hr : Readable tags rows) (hd : d = "skip" → ∀ r ∈ rows, ¬ DisorderedRow env.asString tags r) :
    gemmiConvert env (b.withRows tags rows) rh d = convertUsed env b tags (rows.filter fun r => decide (UsedRow env tags rh d r)) d := by
  rw [gemmiConvert_rows env b ht hr, convertUsed]
  cases blockCell b with
  | error e => rfl
  | ok cell =>
    simp only
    rw [if_neg (by rintro ⟨h, hx⟩; obtain ⟨r, hr, hx⟩ := (any_dis ht).1 hx; exact hd h r hr hx), filter_used ht]

/-- Two tables that use the same rows give the same result. -/
theorem convert_congr {rows' : List (List String)} {rh' : Bool} {d' : String} (ht : AtomTable tags rows) (hr : Readable tags rows)
    (ht' : AtomTable tags rows') (hr' : Readable tags rows')
    (hu : (rows.filter fun r => decide (UsedRow env tags rh d r)) = rows'.filter fun r => decide (UsedRow env tags rh' d' r))
    (hd : d = "skip" → ∀ r ∈ rows, ¬ DisorderedRow env.asString tags r) (hd' : d' = "skip" → ∀ r ∈ rows', ¬ DisorderedRow env.asString tags r)
    (ha : d = d' ∨ (d ≠ "all_sites" ∧ d' ≠ "all_sites")) :
    gemmiConvert env (b.withRows tags rows) rh d = gemmiConvert env (b.withRows tags rows') rh' d' := by
  rw [convert_used ht hr hd, convert_used ht' hr' hd', hu]
  rcases ha with rfl | ⟨h1, h2⟩
  · rfl
  · rw [convertUsed, convertUsed]
    cases blockCell b with
    | error e => rfl
    | ok cell => simp only [finishBlock_disorder env b cell h1 h2]

/-! ### C46 -/

/-- **C46** `disorder='skip'`: a crystal with a disordered site is rejected with ParseError (unless its cell cannot be read). -/
theorem C46_skip_rejects (ht : AtomTable tags rows) (hr : Readable tags rows) (h : ∃ r ∈ rows, DisorderedRow env.asString tags r) :
    (∃ e, blockCell b = .error e ∧ gemmiConvert env (b.withRows tags rows) rh "skip" = ([], .error e)) ∨
    gemmiConvert env (b.withRows tags rows) rh "skip" =
      ([], .error (.parse (b.name ++ " has disorder, pass disorder='ordered_sites' or 'all_sites' to remove/ignore disorder"))) := by
  rw [gemmiConvert_rows env b ht hr]
  cases blockCell b with
  | error e => exact Or.inl ⟨e, rfl, rfl⟩
  | ok cell => right; simp [(any_dis ht).2 h]

/-- **C46** `disorder='skip'`: a crystal without disordered sites is converted as with `'ordered_sites'`. -/
theorem C46_skip_accepts (ht : AtomTable tags rows) (hr : Readable tags rows) (h : ∀ r ∈ rows, ¬ DisorderedRow env.asString tags r) :
    gemmiConvert env (b.withRows tags rows) rh "skip" = gemmiConvert env (b.withRows tags rows) rh "ordered_sites" := by
  refine convert_congr ht hr ht hr ?_ (fun _ => h) (fun hx => absurd hx (by decide)) (Or.inr ⟨by decide, by decide⟩)
  refine List.filter_congr fun r hr => ?_
  refine decide_eq_decide.2 (and_congr Iff.rfl (and_congr ?_ Iff.rfl))
  exact ⟨fun _ _ => h r hr, fun _ hx => absurd hx (by decide)⟩

/-- **C46** `disorder='ordered_sites'`: the result is that for the crystal without the disordered sites, which `'skip'` accepts. -/
theorem C46_ordered (ht : AtomTable tags rows) (hr : Readable tags rows) :
    gemmiConvert env (b.withRows tags rows) rh "ordered_sites" =
      gemmiConvert env (b.withRows tags (rows.filter fun r => decide (¬ DisorderedRow env.asString tags r))) rh "skip" := by
  refine convert_congr ht hr (ht.filter _) (hr.filter _) ?_ (fun hx => absurd hx (by decide)) (fun _ r hr => ?_) (Or.inr ⟨by decide, by decide⟩)
  · rw [List.filter_filter]
    refine List.filter_congr fun r hr => ?_
    rw [Bool.eq_iff_iff, Bool.and_eq_true, decide_eq_true_iff, decide_eq_true_iff, decide_eq_true_iff, UsedRow, UsedRow]
    constructor
    · rintro ⟨h1, h2, h3⟩
      exact ⟨⟨h1, fun hx => absurd hx (by decide), h3⟩, h2 rfl⟩
    · rintro ⟨⟨h1, -, h3⟩, h2⟩
      exact ⟨h1, fun _ => h2, h3⟩
  · simpa using (List.mem_filter.1 hr).2

/-- gemmi's space groups have operations. -/
def HasOperations (env : GemmiEnv) : Prop := (∀ n ops, env.byName n = some ops → ops ≠ []) ∧ ∀ n ops, env.byNumber n = .ok ops → ops ≠ []

theorem mapM_length {α β : Type} {f : α → Except Exc β} : ∀ {l : List α} {r : List β}, l.mapM f = .ok r → r.length = l.length
  | [], r, h => by cases h; rfl
  | a :: l, r, h => by
    rw [List.mapM_cons] at h
    cases ha : f a with
    | error e => rw [ha] at h; cases h
    | ok x =>
      cases hl : l.mapM f with
      | error e => rw [ha, hl] at h; cases h
      | ok xs =>
        rw [ha, hl] at h
        cases h
        simp [mapM_length hl]

theorem symmetry_ne_nil (he : HasOperations env) {ws : List Warning} {ops : List (AffineOp 3)} (h : blockSymmetry env b = (ws, .ok ops)) : ops ≠ [] := by
  rw [blockSymmetry] at h
  split at h
  · rename_i syms hs
    have hne := List.find?_some hs
    have h2 := congrArg Prod.snd h
    simp only at h2
    cases hm : syms.mapM parseSitesym with
    | error e => rw [hm] at h2; cases h2
    | ok r =>
      rw [hm] at h2
      cases h2
      have := mapM_length hm
      intro hx
      rw [List.map_eq_nil_iff] at hx
      rw [hx] at this
      have hs : syms = [] := List.length_eq_zero_iff.1 this.symm
      rw [hs] at hne
      simp at hne
  · split at h
    · rename_i ops' ho
      cases h
      obtain ⟨n, -, hn⟩ := List.exists_of_findSome?_eq_some ho
      exact he.1 n _ hn
    · split at h
      · split at h
        · rename_i n _
          have h2 := congrArg Prod.snd h
          exact he.2 _ _ h2
        · cases h
      · have h2 := congrArg Prod.snd h
        exact he.2 _ _ h2

/-- **C46** `disorder='all_sites'`: every site with coordinates gives an orbit, in the order of the table, also if it is disordered or overlaps others; the
first point of the orbit is the image of the site under the first symmetry operation and the type of the point is that of the row. -/
theorem C46_all (ht : AtomTable tags rows) (hr : Readable tags rows) (he : HasOperations env) (hc : ∀ r ∈ rows, HasCoordinates tags r)
    {ws : List Warning} {s : ReadSet} (h : gemmiConvert env (b.withRows tags rows) false "all_sites" = (ws, .ok s)) :
    ∃ a m, ∃ o : AffineOp 3, s.set.asymUnit = some a ∧ s.set.multiplicities = some m ∧ a.length = rows.length ∧ m.length = rows.length ∧
      ∀ i (hi : i < rows.length) (hi' : i < a.length), ∃ p q sym, RowPoint tags rows[i] p ∧ IsImage (D := 3) o.rot o.trans p q ∧
        s.set.motif[a[i]]? = some (fun j => ∑ l, q l * s.set.cell l j) ∧ ElementText (rowText env.asString tags rows[i]) sym ∧
        s.types[a[i]]? = some (atomicNumber sym) := by
  rw [gemmiConvert_rows env b ht hr] at h
  cases hcell : blockCell b with
  | error e => rw [hcell] at h; cases h
  | ok cell =>
    rw [hcell] at h
    simp only at h
    rw [if_neg (by rintro ⟨hx, -⟩; exact absurd hx (by decide)), filter_used ht] at h
    have hf : (rows.filter fun r => decide (UsedRow env tags false "all_sites" r)) = rows := by
      rw [List.filter_eq_self]
      intro r hr
      rw [decide_eq_true_iff]
      exact ⟨hc r hr, fun hx => absurd hx (by decide), fun hx => absurd hx (by decide)⟩
    rw [hf] at h
    split at h
    · cases h
    · rw [finishBlock] at h
      simp only [removeOverlaps, ne_eq, not_true_eq_false, if_false] at h
      cases ho : blockSymmetry env b with
      | mk ws' r =>
        rw [ho] at h
        cases r with
        | error e => cases h
        | ok ops =>
          simp only at h
          have hne := symmetry_ne_nil he ho
          have hs := (Except.ok.inj (congrArg Prod.snd h)).symm
          simp only [decide_false] at hs
          obtain ⟨a, m, h1, h2, h3, h4, h5⟩ := C45_every_site (tol := eqSiteTol) b.name cell (rows.map (rowType env tags))
            (rows.map fun r => toPt (rowCoord tags r)) ops hne (by rw [eqSiteTol]; norm_num) false (Or.inl rfl) s hs
          rw [List.length_map] at h3 h4
          refine ⟨a, m, ops.head hne, h1, h2, h3, h4, fun i hi hi' => ?_⟩
          obtain ⟨h6, q, h7, h8⟩ := h5 i (by simpa using hi) hi'
          have hmem := List.getElem_mem hi
          refine ⟨_, q, _, rowPoint_spec ht.x ht.y ht.z (hc _ hmem), by simpa using h7, ?_, elementSymbol_spec _, ?_⟩
          · rw [h8, hs]; rfl
          · rw [hs]
            simp only [assemble, List.getElem?_map, h6, Option.map_some]
            rw [List.getD_eq_getElem _ _ (by simpa using hi), List.getElem_map, rowType_text env ht.nodup (ht.width _ hmem)]

/-! ### C47 -/

/-- **C47** `remove_hydrogens=True`: the result is that for the crystal without the hydrogens. (With `disorder='skip'` a disordered hydrogen still leads to
rejection, C46.) -/
theorem C47_removed (ht : AtomTable tags rows) (hr : Readable tags rows)
    (hd : d = "skip" → ∀ r ∈ rows, ¬ DisorderedRow env.asString tags r) :
    gemmiConvert env (b.withRows tags rows) true d =
      gemmiConvert env (b.withRows tags (rows.filter fun r => decide (¬ HydrogenRow env.asString tags r))) false d := by
  refine convert_congr ht hr (ht.filter _) (hr.filter _) ?_ hd (fun h r hr => hd h r (List.mem_filter.1 hr).1) (Or.inl rfl)
  rw [List.filter_filter]
  refine List.filter_congr fun r hr => ?_
  rw [Bool.eq_iff_iff, Bool.and_eq_true, decide_eq_true_iff, decide_eq_true_iff, decide_eq_true_iff, UsedRow, UsedRow]
  constructor
  · rintro ⟨h1, h2, h3⟩
    exact ⟨⟨h1, h2, fun hx => absurd hx (by decide)⟩, h3 rfl⟩
  · rintro ⟨⟨h1, h2, -⟩, h3⟩
    exact ⟨h1, h2, fun _ => h3⟩

/-- **C47** The crystal is accepted if and only if a site is left; else it is rejected with ParseError. -/
theorem C47_accepted (ht : AtomTable tags rows) (hr : Readable tags rows) {cell : Fin 3 → Pt 3 ℝ} (hcell : blockCell b = .ok cell)
    {ws : List Warning} {ops : List (AffineOp 3)} (hsym : blockSymmetry env b = (ws, .ok ops))
    (hd : d = "skip" → ∀ r ∈ rows, ¬ DisorderedRow env.asString tags r) :
    ((∃ r ∈ rows, HasCoordinates tags r ∧ (d = "ordered_sites" → ¬ DisorderedRow env.asString tags r) ∧ (rh = true → ¬ HydrogenRow env.asString tags r)) →
      ∃ ws s, gemmiConvert env (b.withRows tags rows) rh d = (ws, .ok s)) ∧
    ((¬ ∃ r ∈ rows, HasCoordinates tags r ∧ (d = "ordered_sites" → ¬ DisorderedRow env.asString tags r) ∧ (rh = true → ¬ HydrogenRow env.asString tags r)) →
      gemmiConvert env (b.withRows tags rows) rh d = ([], .error (.parse (b.name ++ " has no valid sites")))) := by
  rw [gemmiConvert_rows env b ht hr, hcell]
  simp only
  rw [if_neg (by rintro ⟨h, hx⟩; obtain ⟨r, hr, hx⟩ := (any_dis ht).1 hx; exact hd h r hr hx), filter_used ht]
  constructor
  · rintro ⟨r, hr, hu⟩
    rw [if_neg]
    · rw [finishBlock]
      simp only [hsym]
      exact ⟨_, _, rfl⟩
    · intro h
      rw [List.filter_eq_nil_iff] at h
      exact h r hr (by rw [decide_eq_true_iff]; exact hu)
  · intro h
    rw [if_pos]
    rw [List.filter_eq_nil_iff]
    intro r hr hu
    rw [decide_eq_true_iff] at hu
    exact h ⟨r, hr, hu⟩

/-! ### C48 -/

/-- **C48** If one of the six cell parameters is missing from the file the block is rejected with ParseError. -/
theorem C48_cell_partial {tag : String}
    (hm : tag ∈ ["_cell_length_a", "_cell_length_b", "_cell_length_c", "_cell_angle_alpha", "_cell_angle_beta", "_cell_angle_gamma"])
    (h : b.findValue tag = none) : gemmiConvert env b rh d = ([], .error (.parse (b.name ++ " has missing cell data"))) := by
  have key : ∀ l : List String, tag ∈ l → l.mapM b.findValue = none := by
    intro l
    induction l with
    | nil => intro hx; cases hx
    | cons t l ih =>
      intro hx
      rw [List.mapM_cons]
      rcases List.mem_cons.1 hx with rfl | hx
      · rw [h]; rfl
      · rw [ih hx]
        cases b.findValue t <;> rfl
  rw [gemmiConvert, blockCell, key cellparTags hm]

/-- **C48** Sites whose coordinates are not numbers (`nan`, `inf`) are left out. -/
theorem C48_coordinates_partial (ht : AtomTable tags rows) (hr : Readable tags rows)
    (hd : d = "skip" → ∀ r ∈ rows, ¬ DisorderedRow env.asString tags r) :
    gemmiConvert env (b.withRows tags rows) rh d = gemmiConvert env (b.withRows tags (rows.filter fun r => decide (HasCoordinates tags r))) rh d := by
  refine convert_congr ht hr (ht.filter _) (hr.filter _) ?_ hd (fun h r hr => hd h r (List.mem_filter.1 hr).1) (Or.inl rfl)
  rw [List.filter_filter]
  refine List.filter_congr fun r hr => ?_
  rw [Bool.eq_iff_iff, Bool.and_eq_true, decide_eq_true_iff, decide_eq_true_iff]
  exact ⟨fun h => ⟨h, h.1⟩, fun h => h.1⟩

/-- **C48** An occupancy `nan` does not count as disorder. -/
theorem C48_occupancy_partial {r : List String} (ho : ∀ s, field tags r "_atom_site_occupancy" = some s → str2float s = .ok .nan)
    (hl : field tags r "_atom_site_label" = none) : ¬ DisorderedRow env.asString tags r := by
  rintro (⟨s, hs, h⟩ | ⟨s, hs, -⟩)
  · rw [ho s hs] at h
    rcases h with h | ⟨q, h, -⟩
    · cases h
    · cases h
  · rw [hl] at hs; cases hs

/-- The environment of the examples: P1 for every number. -/
def exampleGemmi : GemmiEnv := ⟨id, fun _ => .ok 1, fun _ => none, fun _ => .ok [⟨fun i j => if i = j then 1 else 0, fun _ => 0⟩]⟩

/-- A block with a unit cube and no symmetry. -/
def exampleBlock : GemmiBlock where
  name := "cube"
  findValue := fun t => if t ∈ ["_cell_length_a", "_cell_length_b", "_cell_length_c"] then some "1.000(2)"
    else if t ∈ ["_cell_angle_alpha", "_cell_angle_beta", "_cell_angle_gamma"] then some "90" else none
  find := fun _ => []
  fractLoop := none
  cartnLoop := false

theorem example_cell : blockCell exampleBlock = .ok ![![1, 0, 0], ![0, 1, 0], ![0, 0, 1]] := by
  have h1 : str2float "1.000(2)" = .ok (.num 1) := by decide +kernel
  have h2 : str2float "90" = .ok (.num 90) := by decide +kernel
  have h3 : cellparTags.mapM exampleBlock.findValue = some ["1.000(2)", "1.000(2)", "1.000(2)", "90", "90", "90"] := by decide +kernel
  have h4 : ["1.000(2)", "1.000(2)", "1.000(2)", "90", "90", "90"].mapM str2float =
      .ok [.num 1, .num 1, .num 1, .num 90, .num 90, .num 90] := by
    simp only [List.mapM_cons, List.mapM_nil, h1, h2]
    rfl
  have h5 : nanSum [.num 1, .num 1, .num 1, .num 90, .num 90, .num 90] = false := by decide +kernel
  have h6 : [PyFloat.num 1, .num 1, .num 1, .num 90, .num 90, .num 90].mapM PyFloat.finite = some [1, 1, 1, 90, 90, 90] := rfl
  rw [blockCell, h3]
  simp only [h4, h5, h6]
  have e : (0 : ℝ) < angleEps := by norm_num [angleEps]
  simp only [Bool.false_eq_true, if_false, cellOfNumbers, cellparToCell, snapCos, snapSin]
  norm_num [e]

theorem example_symmetry : blockSymmetry exampleGemmi exampleBlock =
    ([⟨"UserWarning", "no symmetry data found, defaulting to P1"⟩], .ok [⟨fun i j => if i = j then 1 else 0, fun _ => 0⟩]) := rfl

/-- The tags of the examples. -/
def exampleTags : List String := ["_atom_site_label", "_atom_site_fract_x", "_atom_site_fract_y", "_atom_site_fract_z", "_atom_site_occupancy"]

theorem example_table {rows : List (List String)} (h : ∀ r ∈ rows, r.length = 5) : AtomTable exampleTags rows :=
  ⟨by decide, h, by decide, by decide, by decide⟩

theorem example_readable {rows : List (List String)} (hw : ∀ r ∈ rows, r.length = 5)
    (h : ∀ r ∈ rows, ∀ s ∈ r.tail, s ∈ ["?", "0", "1", "1/2", "0.5(1)", "0.25", "nan"] ∧ s ≠ "1/2") : Readable exampleTags rows := by
  intro r hr tag htag s hs
  have h5 := hw r hr
  obtain ⟨a, b, c, e, f, rfl⟩ : ∃ a b c e f, r = [a, b, c, e, f] := by
    match r, h5 with
    | [a, b, c, e, f], _ => exact ⟨a, b, c, e, f, rfl⟩
  have hmem : s ∈ [b, c, e, f] := by
    simp only [List.mem_cons, List.not_mem_nil, or_false] at htag ⊢
    rcases htag with rfl | rfl | rfl | rfl
    · left; exact (Option.some.inj hs).symm
    · right; left; exact (Option.some.inj hs).symm
    · right; right; left; exact (Option.some.inj hs).symm
    · right; right; right; exact (Option.some.inj hs).symm
  obtain ⟨h1, h2⟩ := h _ hr s hmem
  simp only [List.mem_cons, List.not_mem_nil, or_false] at h1
  rcases h1 with rfl | rfl | rfl | rfl | rfl | rfl | rfl
  · exact ⟨.num 0, by decide +kernel⟩
  · exact ⟨.num 0, by decide +kernel⟩
  · exact ⟨.num 1, by decide +kernel⟩
  · exact absurd rfl h2
  · exact ⟨.num (1 / 2), by decide +kernel⟩
  · exact ⟨.num (1 / 4), by decide +kernel⟩
  · exact ⟨.nan, by decide +kernel⟩

/-- **C48 does not hold** for coordinates: a site whose coordinates are unknown is not removed but put at the origin. The conversion succeeds, with the same
result as for a site at the origin. -/
theorem C48_false_coordinates :
    (∃ ws s, gemmiConvert exampleGemmi (exampleBlock.withRows exampleTags [["C1", "?", "?", "?", "1"]]) false "skip" = (ws, .ok s)) ∧
    gemmiConvert exampleGemmi (exampleBlock.withRows exampleTags [["C1", "?", "?", "?", "1"]]) false "skip" =
      gemmiConvert exampleGemmi (exampleBlock.withRows exampleTags [["C1", "0", "0", "0", "1"]]) false "skip" := by
  have t1 : AtomTable exampleTags [["C1", "?", "?", "?", "1"]] := example_table (by simp)
  have t2 : AtomTable exampleTags [["C1", "0", "0", "0", "1"]] := example_table (by simp)
  have r1 : Readable exampleTags [["C1", "?", "?", "?", "1"]] := example_readable (by simp) (by decide)
  have r2 : Readable exampleTags [["C1", "0", "0", "0", "1"]] := example_readable (by simp) (by decide)
  have d1 : rowDis exampleGemmi exampleTags ["C1", "?", "?", "?", "1"] = false := by decide +kernel
  have d2 : rowDis exampleGemmi exampleTags ["C1", "0", "0", "0", "1"] = false := by decide +kernel
  have f0 : ∀ x ∈ ["_atom_site_fract_x", "_atom_site_fract_y", "_atom_site_fract_z"], fieldNum exampleTags ["C1", "?", "?", "?", "1"] x = .num 0 := by decide +kernel
  have f1 : ∀ x ∈ ["_atom_site_fract_x", "_atom_site_fract_y", "_atom_site_fract_z"], fieldNum exampleTags ["C1", "0", "0", "0", "1"] x = .num 0 := by decide +kernel
  have c1 : rowCoord exampleTags ["C1", "?", "?", "?", "1"] = rowCoord exampleTags ["C1", "0", "0", "0", "1"] := by
    rw [rowCoord, rowCoord, f0 _ (by simp), f0 _ (by simp), f0 _ (by simp), f1 _ (by simp), f1 _ (by simp), f1 _ (by simp)]
  have y1 : rowType exampleGemmi exampleTags ["C1", "?", "?", "?", "1"] = rowType exampleGemmi exampleTags ["C1", "0", "0", "0", "1"] := by decide +kernel
  have e1 : rowRemoved exampleGemmi exampleTags false "skip" ["C1", "?", "?", "?", "1"] = rowRemoved exampleGemmi exampleTags false "skip" ["C1", "0", "0", "0", "1"] := by
    rw [rowRemoved, rowRemoved, c1, d1, d2, y1]
  refine ⟨?_, ?_⟩
  · refine (C47_accepted t1 r1 example_cell example_symmetry fun _ r hr => ?_).1 ⟨_, List.mem_singleton_self _, ?_, fun h => absurd h (by decide),
      fun h => absurd h (by decide)⟩
    · rw [List.mem_singleton.1 hr, ← rowDis_iff exampleGemmi t1.nodup (show (["C1", "?", "?", "?", "1"] : List String).length = exampleTags.length from rfl), d1]
      decide
    · intro tag htag
      simp only [List.mem_cons, List.not_mem_nil, or_false] at htag
      rcases htag with rfl | rfl | rfl <;> exact ⟨"?", 0, by decide +kernel, by decide +kernel⟩
  · rw [gemmiConvert_rows _ _ t1 r1, gemmiConvert_rows _ _ t2 r2]
    simp only [List.any_cons, List.any_nil, d1, d2, List.filter_cons, List.filter_nil, e1]
    cases rowRemoved exampleGemmi exampleTags false "skip" ["C1", "0", "0", "0", "1"] <;>
      simp only [Bool.not_true, Bool.not_false, Bool.false_eq_true, if_true, if_false, List.map_cons, List.map_nil, c1, y1, reduceCtorEq]

/-- **C48 does not hold** for occupancies: an unknown occupancy is read as 0, so the crystal is rejected as disordered. -/
theorem C48_false_occupancy : gemmiConvert exampleGemmi (exampleBlock.withRows exampleTags [["C1", "0", "0", "0", "?"]]) false "skip" =
    ([], .error (.parse "cube has disorder, pass disorder='ordered_sites' or 'all_sites' to remove/ignore disorder")) := by
  have t1 : AtomTable exampleTags [["C1", "0", "0", "0", "?"]] := example_table (by simp)
  have r1 : Readable exampleTags [["C1", "0", "0", "0", "?"]] := example_readable (by simp) (by decide)
  rcases C46_skip_rejects (env := exampleGemmi) (b := exampleBlock) (rh := false) t1 r1
    ⟨_, List.mem_singleton_self _, Or.inl ⟨"?", by decide +kernel, Or.inr ⟨0, by decide +kernel, by norm_num⟩⟩⟩ with ⟨e, he, -⟩ | h
  · rw [example_cell] at he; cases he
  · exact h

/-- **C48 does not hold** for the cell: an unknown length is read as 0 and gives a cell with a zero vector. -/
theorem C48_false_cell : blockCell { exampleBlock with findValue := fun t => if t = "_cell_length_a" then some "?" else exampleBlock.findValue t } =
    .ok ![![0, 0, 0], ![0, 1, 0], ![0, 0, 1]] := by
  have h0 : str2float "?" = .ok (.num 0) := by decide +kernel
  have h1 : str2float "1.000(2)" = .ok (.num 1) := by decide +kernel
  have h2 : str2float "90" = .ok (.num 90) := by decide +kernel
  have h3 : cellparTags.mapM (fun t => if t = "_cell_length_a" then some "?" else exampleBlock.findValue t) =
      some ["?", "1.000(2)", "1.000(2)", "90", "90", "90"] := by decide +kernel
  have h4 : ["?", "1.000(2)", "1.000(2)", "90", "90", "90"].mapM str2float = .ok [.num 0, .num 1, .num 1, .num 90, .num 90, .num 90] := by
    simp only [List.mapM_cons, List.mapM_nil, h0, h1, h2]
    rfl
  have h5 : nanSum [.num 0, .num 1, .num 1, .num 90, .num 90, .num 90] = false := by decide +kernel
  have h6 : [PyFloat.num 0, .num 1, .num 1, .num 90, .num 90, .num 90].mapM PyFloat.finite = some [0, 1, 1, 90, 90, 90] := rfl
  rw [blockCell, h3]
  simp only [h4, h5, h6]
  have e : (0 : ℝ) < angleEps := by norm_num [angleEps]
  simp only [Bool.false_eq_true, if_false, cellOfNumbers, cellparToCell, snapCos, snapSin]
  norm_num [e]

/-- A carbon at half occupancy and a hydrogen in the unit cube: `'skip'` rejects them, `'ordered_sites'` without hydrogens leaves nothing, `'all_sites'`
gives an orbit for each. -/
example : gemmiConvert exampleGemmi (exampleBlock.withRows exampleTags [["C1", "0.25", "0", "0", "0.5(1)"], ["h2", "0", "0.25", "0", "1"]]) false "skip" =
      ([], .error (.parse "cube has disorder, pass disorder='ordered_sites' or 'all_sites' to remove/ignore disorder")) ∧
    gemmiConvert exampleGemmi (exampleBlock.withRows exampleTags [["C1", "0.25", "0", "0", "0.5(1)"], ["h2", "0", "0.25", "0", "1"]]) true "ordered_sites" =
      ([], .error (.parse "cube has no valid sites")) ∧
    ∃ ws s a m, gemmiConvert exampleGemmi (exampleBlock.withRows exampleTags [["C1", "0.25", "0", "0", "0.5(1)"], ["h2", "0", "0.25", "0", "1"]]) false "all_sites" =
      (ws, .ok s) ∧ s.set.asymUnit = some a ∧ s.set.multiplicities = some m ∧ a.length = 2 ∧ m.length = 2 := by
  have t1 : AtomTable exampleTags [["C1", "0.25", "0", "0", "0.5(1)"], ["h2", "0", "0.25", "0", "1"]] := example_table (by simp)
  have r1 : Readable exampleTags [["C1", "0.25", "0", "0", "0.5(1)"], ["h2", "0", "0.25", "0", "1"]] := example_readable (by simp) (by decide)
  have dC : DisorderedRow exampleGemmi.asString exampleTags ["C1", "0.25", "0", "0", "0.5(1)"] :=
    Or.inl ⟨"0.5(1)", by decide +kernel, Or.inr ⟨1 / 2, by decide +kernel, by norm_num⟩⟩
  have hH : HydrogenRow exampleGemmi.asString exampleTags ["h2", "0", "0.25", "0", "1"] :=
    Or.inr ⟨by decide, "h2", by decide +kernel, [], 'h', ['2'], by decide +kernel, by simp, by decide, by simp⟩
  have hc : ∀ r ∈ [["C1", "0.25", "0", "0", "0.5(1)"], ["h2", "0", "0.25", "0", "1"]], HasCoordinates exampleTags r := by
    intro r hr tag htag
    simp only [List.mem_cons, List.not_mem_nil, or_false] at hr htag
    rcases hr with rfl | rfl <;> rcases htag with rfl | rfl | rfl
    · exact ⟨"0.25", 1 / 4, by decide +kernel, by decide +kernel⟩
    · exact ⟨"0", 0, by decide +kernel, by decide +kernel⟩
    · exact ⟨"0", 0, by decide +kernel, by decide +kernel⟩
    · exact ⟨"0", 0, by decide +kernel, by decide +kernel⟩
    · exact ⟨"0.25", 1 / 4, by decide +kernel, by decide +kernel⟩
    · exact ⟨"0", 0, by decide +kernel, by decide +kernel⟩
  refine ⟨?_, ?_, ?_⟩
  · rcases C46_skip_rejects (env := exampleGemmi) (b := exampleBlock) (rh := false) t1 r1 ⟨_, by simp, dC⟩ with ⟨e, he, -⟩ | h
    · rw [example_cell] at he; cases he
    · exact h
  · refine (C47_accepted t1 r1 example_cell example_symmetry fun h => absurd h (by decide)).2 ?_
    rintro ⟨r, hr, -, h2, h3⟩
    simp only [List.mem_cons, List.not_mem_nil, or_false] at hr
    rcases hr with rfl | rfl
    · exact h2 rfl dC
    · exact h3 rfl hH
  · obtain ⟨ws, s, h⟩ := (C47_accepted (rh := false) (d := "all_sites") t1 r1 example_cell example_symmetry fun h => absurd h (by decide)).1
      ⟨_, List.mem_cons_self, hc _ (by simp), fun h => absurd h (by decide), fun h => absurd h (by decide)⟩
    obtain ⟨a, m, o, h1, h2, h3, h4, -⟩ := C46_all t1 r1 ⟨fun n ops h => (by cases h), fun n ops h => (by cases h; simp)⟩ hc h
    exact ⟨ws, s, a, m, h, h1, h2, h3, h4⟩

end Amd
