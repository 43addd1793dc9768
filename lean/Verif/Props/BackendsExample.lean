import Verif.Props.Backends
import Verif.Props.WrittenExample

/-!
# Examples and counterexamples for C87

The monoclinic crystal of the example for C80 as an entry, in blocks of gemmi, ase and pymatgen, with operations or with the name of the space group.
-/

namespace Amd

open Classical

/-- The operations. -/
noncomputable def screwOps : Set (FracOp 3) := {screwOne, screwOp}

/-- An entry with the tags, cell and operations of the example. -/
noncomputable def screwLike (name : String) (rows : List (List String)) : CifEntry := ⟨name, screwTags, rows, screwNumbers, screwOps⟩

/-- The block of gemmi. -/
def screwGemmi (name : String) (rows : List (List String)) : GemmiBlock := { screwBlock with name := name, fractLoop := some ⟨screwTags, rows.flatten⟩ }

/-- The block of ase; `ops` is what it has under other tags. -/
def screwAse (name : String) (rows : List (List String)) (ops : String → Option AseVal) : AseBlock :=
  AseBlock.withRows { name := name, get := fun t =>
    if t = "_cell_length_a" then some (.item (.num 4)) else if t = "_cell_length_b" then some (.item (.num 5)) else if t = "_cell_length_c" then some (.item (.num 6))
    else if t = "_cell_angle_alpha" then some (.item (.num 90)) else if t = "_cell_angle_beta" then some (.item (.num 105))
    else if t = "_cell_angle_gamma" then some (.item (.num 90)) else ops t } exampleConv screwTags rows

/-- The block of pymatgen; `ops` is what it has under other tags. -/
def screwPmg (name : String) (rows : List (List String)) (ops : String → Option PmgVal) : PmgBlock :=
  PmgBlock.withRows { header := name, get := fun t =>
    if t = "_cell_length_a" then some (.str "4.0") else if t = "_cell_length_b" then some (.str "5.00(1)") else if t = "_cell_length_c" then some (.str "6")
    else if t = "_cell_angle_alpha" then some (.str "90") else if t = "_cell_angle_beta" then some (.str "105.(2)")
    else if t = "_cell_angle_gamma" then some (.str "90") else ops t } id screwTags rows

/-- Operations as ase has them. -/
def aseListed (t : String) : Option AseVal := if t = "_symmetry_equiv_pos_as_xyz" then some (.list [.str "x,y,z", .str "-x, 1/2+Y, -z"]) else none

/-- Operations as pymatgen has them; another tag is there, without anything. -/
def pmgListed (t : String) : Option PmgVal :=
  if t = "_symmetry_equiv_pos_as_xyz" then some (.list ["x,y,z", "-x, 1/2+Y, -z"]) else if t = "_space_group_symop_operation_xyz" then some (.list []) else none

/-- Only the number of the space group. -/
def aseNumbered (t : String) : Option AseVal := if t = "_space_group_it_number" then some (.item (.num 4)) else none

/-- Only the name of the space group. -/
def pmgNamed (t : String) : Option PmgVal := if t = "_symmetry_space_group_name_H-M" then some (.str "P 2_1") else none

/-- The operations of P2₁. -/
noncomputable def screwAffine : List (AffineOp 3) := [⟨screwOne.1, screwOne.2⟩, ⟨screwOp.1, screwOp.2⟩]

/-- ase knows space group 4. -/
noncomputable def aseGroups : AseEnv where
  spacegroup := fun v => match v with
    | .item (.num q) => if q = 4 then .ok screwAffine else .error (.other "not found")
    | _ => .error (.other "not found")

/-- pymatgen knows P2₁. -/
noncomputable def pmgGroups : PmgEnv where
  spaceGroups := fun s => if s = "P21" then some "P2_1" else none
  symbolOps := fun s => if s = "P2_1" then some screwAffine else none
  cod := fun _ => none
  numberOps := fun _ => none

theorem screwAffine_ops : asOps screwAffine = screwOps := by
  ext g
  constructor
  · rintro ⟨o, ho, rfl⟩
    simp only [screwAffine, List.mem_cons, List.not_mem_nil, or_false] at ho
    rcases ho with rfl | rfl
    · exact Or.inl rfl
    · exact Or.inr rfl
  · rintro (rfl | rfl)
    · exact ⟨_, List.mem_cons_self, rfl⟩
    · exact ⟨_, List.mem_cons_of_mem _ List.mem_cons_self, rfl⟩

theorem screw_texts : (∀ s ∈ ["x,y,z", "-x, 1/2+Y, -z"], ∃ g ∈ screwOps, WritesOp s g) ∧ ∀ g ∈ screwOps, ∃ s ∈ ["x,y,z", "-x, 1/2+Y, -z"], WritesOp s g := by
  constructor
  · intro s hs
    simp only [List.mem_cons, List.not_mem_nil, or_false] at hs
    rcases hs with rfl | rfl
    · exact ⟨_, Or.inl rfl, writes_one⟩
    · exact ⟨_, Or.inr rfl, writes_screw⟩
  · rintro g (rfl | rfl)
    · exact ⟨_, by simp, writes_one⟩
    · exact ⟨_, by simp, writes_screw⟩

/-- Coordinates and occupancies are numbers. -/
def NumberRows (rows : List (List String)) : Prop :=
  ∀ r ∈ rows, ∀ tag ∈ ["_atom_site_fract_x", "_atom_site_fract_y", "_atom_site_fract_z", "_atom_site_occupancy"], ∀ s, field screwTags r tag = some s → ∃ q, WritesNumber s q

theorem screwLike_written (name : String) {rows : List (List String)} (hw : ∀ r ∈ rows, r.length = 6) (hn : NumberRows rows) : (screwLike name rows).Written where
  table := show AtomTable screwTags rows from ⟨by decide, hw, by decide, by decide, by decide⟩
  numbers := hn
  decimal := by
    intro x hx
    simp only [screwLike, CellNumbers.tagged, screwNumbers, List.mem_cons, List.not_mem_nil, or_false] at hx
    rcases hx with rfl | rfl | rfl | rfl | rfl | rfl
    exacts [⟨_, w4⟩, ⟨_, w5⟩, ⟨_, w6⟩, ⟨_, w90⟩, ⟨_, w105⟩, ⟨_, w90⟩]
  valid := screw_valid
  finite := (Set.finite_singleton _).insert _

theorem screwGemmi_holds (env : GemmiEnv) (henv : env.asString = id) (name : String) (rows : List (List String)) :
    GemmiHolds env id (screwGemmi name rows) (screwLike name rows) where
  unquote := henv
  name := rfl
  table := rfl
  cell := by
    intro x hx
    simp only [screwLike, CellNumbers.tagged, screwNumbers, List.mem_cons, List.not_mem_nil, or_false] at hx
    rcases hx with rfl | rfl | rfl | rfl | rfl | rfl
    exacts [⟨_, rfl, w4⟩, ⟨_, rfl, w5⟩, ⟨_, rfl, w6⟩, ⟨_, rfl, w90⟩, ⟨_, rfl, w105⟩, ⟨_, rfl, w90⟩]
  ops := .listed ["x,y,z", "-x, 1/2+Y, -z"] _ ⟨by simp, ["_space_group_symop_operation_xyz", "_space_group_symop.operation_xyz"], _, [], rfl,
    show ∀ t ∈ ["_space_group_symop_operation_xyz", "_space_group_symop.operation_xyz"], screwBlock.find t = [] by decide +kernel,
    show screwBlock.find "_symmetry_equiv_pos_as_xyz" = _ by decide +kernel⟩ screw_texts.1 screw_texts.2

/-! ### ase -/

theorem aseValue_number {s : String} {q : ℚ} (h : WritesNumber s q) : AseValue id s (exampleConv s) := by
  refine Or.inl ⟨q, h, ?_⟩
  rw [exampleConv, pyFloat_written h]

theorem aseValue_word {s : String} (h : ∀ q, ¬ WritesNumber s q) (h' : ∀ q, pyFloat (removeBrackets s.toList) ≠ some (.num q)) : AseValue id s (exampleConv s) := by
  refine Or.inr ⟨h, ?_⟩
  rw [exampleConv]
  split
  · rename_i q hq
    exact absurd hq (h' q)
  · rfl

/-- Labels and symbols are no numbers. -/
def WordRows (rows : List (List String)) : Bool :=
  rows.all fun r => ["_atom_site_label", "_atom_site_type_symbol"].all fun t => (field screwTags r t).all fun s =>
    match pyFloat (removeBrackets s.toList) with
    | some (.num _) => false
    | _ => true

theorem WordRows.spec {rows : List (List String)} (h : WordRows rows = true) {r : List String} (hr : r ∈ rows) {t s : String}
    (ht : t ∈ ["_atom_site_label", "_atom_site_type_symbol"]) (hs : field screwTags r t = some s) (q : ℚ) : pyFloat (removeBrackets s.toList) ≠ some (.num q) := by
  have h1 := List.all_eq_true.1 (List.all_eq_true.1 h r hr) t ht
  rw [hs] at h1
  intro hq
  simp only [Option.all_some, hq] at h1
  cases h1

theorem screwAse_holds {env : AseEnv} {name : String} {rows : List (List String)} {ops : String → Option AseVal} (hl : ∀ r ∈ rows, r.length = 6) (hn : NumberRows rows)
    (hw : WordRows rows = true) (ho : AseDescribesOps env (screwAse name rows ops) screwOps) : AseHolds env id (screwAse name rows ops) (screwLike name rows) where
  name := rfl
  symbols := by simp only [screwLike]; decide
  words := fun r hr t ht s hs q hq => WordRows.spec hw hr ht hs q (pyFloat_written hq)
  columns := by
    intro t ht hm
    have hm : t ∈ screwTags := hm
    refine ⟨rows.map fun r => exampleConv ((field screwTags r t).getD ""), ?_, ?_⟩
    · rw [screwAse, AseBlock.withRows]
      simp only
      rw [if_pos ht, if_pos hm]
    · rw [List.forall₂_map_right_iff]
      refine (List.forall₂_same (l := rows)).2 fun r hr => ?_
      have hf := field_some (show screwTags.Nodup by decide) (hl r hr) hm
      obtain ⟨s, hs⟩ : ∃ s, field screwTags r t = some s := Option.isSome_iff_exists.1 (by rw [hf]; rfl)
      refine ⟨s, hs, ?_⟩
      rw [hs, Option.getD_some]
      by_cases h1 : t ∈ ["_atom_site_label", "_atom_site_type_symbol"]
      · exact aseValue_word (fun q hq => WordRows.spec hw hr h1 hs q (pyFloat_written hq)) (WordRows.spec hw hr h1 hs)
      · obtain ⟨q, hq⟩ := hn r hr t (by simp only [siteTags, List.mem_cons, List.not_mem_nil, or_false] at ht h1 ⊢; tauto) s hs
        exact aseValue_number hq
  absent := by
    intro t ht hm
    have : ∀ t ∈ siteTags, t ∈ screwTags := by decide
    exact absurd (this t ht) hm
  cell := by
    intro x hx
    simp only [screwLike, CellNumbers.tagged, screwNumbers, List.mem_cons, List.not_mem_nil, or_false] at hx
    rcases hx with rfl | rfl | rfl | rfl | rfl | rfl <;> rfl
  ops := ho

theorem screwAse_listed (env : AseEnv) (name : String) (rows : List (List String)) : AseDescribesOps env (screwAse name rows aseListed) screwOps :=
  .listed ["_space_group_symop_operation_xyz", "_space_group_symop.operation_xyz"] [] _ ["x,y,z", "-x, 1/2+Y, -z"] _ rfl
    (by intro t ht; simp only [List.mem_cons, List.not_mem_nil, or_false] at ht; rcases ht with rfl | rfl <;> rfl) rfl screw_texts.1 screw_texts.2

theorem screwAse_numbered (name : String) (rows : List (List String)) : AseDescribesOps aseGroups (screwAse name rows aseNumbered) screwOps := by
  rw [← screwAffine_ops]
  refine .group ["_space_group_name_h-m_alt", "_symmetry_space_group_name_h-m"] ["_symmetry_int_tables_number"] _ (.item (.num 4)) _ ?_ rfl ?_ rfl ?_
  · intro t ht
    simp only [List.mem_cons, List.not_mem_nil, or_false] at ht
    rcases ht with rfl | rfl | rfl <;> rfl
  · intro t ht
    simp only [List.mem_cons, List.not_mem_nil, or_false] at ht
    rcases ht with rfl | rfl <;> rfl
  · simp only [aseGroups, if_true]

/-! ### pymatgen -/

theorem screwPmg_holds {env : PmgEnv} {name : String} {rows : List (List String)} {ops : String → Option PmgVal} (hl : ∀ r ∈ rows, r.length = 6)
    (ho : PmgDescribesOps env (screwPmg name rows ops) screwOps) : PmgHolds env id (screwPmg name rows ops) (screwLike name rows) where
  name := rfl
  symbols := by simp only [screwLike]; decide
  plain := fun r hr t ht s hs => rfl
  columns := by
    intro t ht hm
    have hm : t ∈ screwTags := hm
    refine ⟨rows.map fun r => id ((field screwTags r t).getD ""), ?_, ?_⟩
    · rw [screwPmg, PmgBlock.withRows]
      simp only
      rw [if_pos ht, if_pos hm]
    · rw [List.forall₂_map_right_iff]
      refine (List.forall₂_same (l := rows)).2 fun r hr => ?_
      have hf := field_some (show screwTags.Nodup by decide) (hl r hr) hm
      obtain ⟨s, hs⟩ : ∃ s, field screwTags r t = some s := Option.isSome_iff_exists.1 (by rw [hf]; rfl)
      exact ⟨s, hs, by rw [hs]; rfl⟩
  absent := by
    intro t ht hm
    have : ∀ t ∈ siteTags, t ∈ screwTags := by decide
    exact absurd (this t ht) hm
  cell := by
    intro x hx
    simp only [screwLike, CellNumbers.tagged, screwNumbers, List.mem_cons, List.not_mem_nil, or_false] at hx
    rcases hx with rfl | rfl | rfl | rfl | rfl | rfl
    exacts [⟨_, rfl, w4⟩, ⟨_, rfl, w5⟩, ⟨_, rfl, w6⟩, ⟨_, rfl, w90⟩, ⟨_, rfl, w105⟩, ⟨_, rfl, w90⟩]
  ops := ho

theorem screwPmg_listed (env : PmgEnv) (name : String) (rows : List (List String)) : PmgDescribesOps env (screwPmg name rows pmgListed) screwOps :=
  .listed ["_space_group_symop_operation_xyz", "_space_group_symop.operation_xyz"] [] _ ["x,y,z", "-x, 1/2+Y, -z"] _ rfl
    (by
      intro t ht
      simp only [List.mem_cons, List.not_mem_nil, or_false] at ht
      rcases ht with rfl | rfl
      · exact Or.inr (Or.inr rfl)
      · exact Or.inl rfl) rfl (by simp) screw_texts.1 screw_texts.2

theorem screwPmg_named (name : String) (rows : List (List String)) : PmgDescribesOps pmgGroups (screwPmg name rows pmgNamed) screwOps := by
  rw [← screwAffine_ops]
  refine .named ["_space_group_name_H-M_alt"] [] _ "P 2_1" "P2_1" _ ?_ rfl ?_ rfl (by decide) ?_ (by simp only [pmgGroups, if_true]) (by simp [screwAffine])
  · intro t ht
    simp only [List.mem_cons, List.not_mem_nil, or_false] at ht
    rcases ht with rfl | rfl | rfl <;> exact Or.inl rfl
  · intro t ht
    rw [List.mem_singleton.1 ht]
    exact Or.inl (Or.inl rfl)
  · have : squeeze "P 2_1" = "P21" := by decide +kernel
    simp only [pmgGroups, this, if_true]

/-! ### The three backends read the crystal -/

/-- The entry of the example. -/
noncomputable def screwEntry : CifEntry := screwLike "screw" screwRows

theorem screw_lengths : ∀ r ∈ screwRows, r.length = 6 := by decide

theorem screw_isWritten : screwEntry.Written := screwLike_written _ screw_lengths screw_numbers

theorem screw_allOrdered : ∀ r ∈ screwRows, ¬ WrittenDisordered id screwTags r := by
  intro r hr hx
  rw [← show exampleGemmi.asString = id from rfl, ← written_disordered (screw_written exampleGemmi) hr,
    ← rowDis_iff exampleGemmi screw_table.nodup (screw_table.width r hr)] at hx
  have : ∀ r ∈ screwRows, rowDis exampleGemmi screwTags r = false := by decide +kernel
  rw [this r hr] at hx
  cases hx

theorem screw_kept : ¬ screwEntry.Skipped id true "skip" := by
  rintro (⟨-, r, hr, hx⟩ | h)
  · exact screw_allOrdered r hr hx
  · have : screwEntry.sites id true "skip" = {![1 / 4, -1 / 10, 13 / 10]} := screw_sites
    rw [this] at h
    exact Set.singleton_ne_empty _ h

/-- Whichever backend reads the file, and whether operations are listed or the space group is given by its number or name: a set with the points that are written. -/
example : ∀ r ∈ [(gemmiConvert exampleGemmi (screwGemmi "screw" screwRows) true "skip").2, (aseConvert exampleAseEnv (screwAse "screw" screwRows aseListed) true "skip").2,
    (aseConvert aseGroups (screwAse "screw" screwRows aseNumbered) true "skip").2, (pymatgenConvert examplePmgEnv (screwPmg "screw" screwRows pmgListed) true "skip").2,
    (pymatgenConvert pmgGroups (screwPmg "screw" screwRows pmgNamed) true "skip").2],
    ∃ s, r = .ok s ∧ s.name = "screw" ∧ HasCellpar s.set.cell 4 5 6 90 105 90 ∧
      periodicPoints s.set.motif s.set.cell = crystalPoints s.set.cell {screwOne, screwOp} {![1 / 4, -1 / 10, 13 / 10]} := by
  have key : ∀ r, ReadAsWritten id true "skip" screwEntry r → ∃ s, r = .ok s ∧ s.name = "screw" ∧ HasCellpar s.set.cell 4 5 6 90 105 90 ∧
      periodicPoints s.set.motif s.set.cell = crystalPoints s.set.cell {screwOne, screwOp} {![1 / 4, -1 / 10, 13 / 10]} := by
    intro r h
    obtain ⟨s, hs⟩ := h.accepted screw_kept
    have hc : HasCellpar s.set.cell 4 5 6 90 105 90 := by
      have := h.cell s hs
      simp only [CifEntry.HasCell, screwEntry, screwLike, screwNumbers] at this
      norm_num at this
      exact this
    refine ⟨s, hs, h.name s hs, hc, ?_⟩
    rw [h.points s hs (screw_group hc) screw_exact]
    have e1 : screwEntry.sites id true "skip" = {![1 / 4, -1 / 10, 13 / 10]} := screw_sites
    rw [e1]
    rfl
  have ho : screwEntry.OrderedHydrogens id true "skip" := fun _ _ r hr _ => screw_allOrdered r hr
  have hw : WordRows screwRows = true := by decide +kernel
  intro r hr
  simp only [List.mem_cons, List.not_mem_nil, or_false] at hr
  rcases hr with rfl | rfl | rfl | rfl | rfl
  · exact key _ (C87_gemmi screw_isWritten (screwGemmi_holds _ rfl _ _))
  · exact key _ (C87_ase_partial screw_isWritten (screwAse_holds screw_lengths screw_numbers hw (screwAse_listed _ _ _)) ho)
  · exact key _ (C87_ase_partial screw_isWritten (screwAse_holds screw_lengths screw_numbers hw (screwAse_numbered _ _)) ho)
  · exact key _ (C87_pymatgen_partial screw_isWritten (screwPmg_holds screw_lengths (screwPmg_listed _ _ _)) ho)
  · exact key _ (C87_pymatgen_partial screw_isWritten (screwPmg_holds screw_lengths (screwPmg_named _ _)) ho)

/-! ### Disordered hydrogens -/

/-- The hydrogen is disordered. -/
def looseRows : List (List String) := [["C1", "C", "0.25", "-0.1(2)", "1.3", "1.0"], ["H1", "H", ".1", "0.2", "4e-1", "0.2"]]

theorem loose_numbers : NumberRows looseRows := by
  have key : ∀ r ∈ looseRows, ∀ tag ∈ ["_atom_site_fract_x", "_atom_site_fract_y", "_atom_site_fract_z", "_atom_site_occupancy"], ∀ s ∈ field screwTags r tag,
      s ∈ ["0.25", "-0.1(2)", "1.3", "1.0", ".1", "0.2", "4e-1"] := by decide +kernel
  intro r hr tag htag s hs
  have := key r hr tag htag s hs
  simp only [List.mem_cons, List.not_mem_nil, or_false] at this
  rcases this with rfl | rfl | rfl | rfl | rfl | rfl | rfl
  exacts [⟨_, wx⟩, ⟨_, wy⟩, ⟨_, wz⟩, ⟨_, wo⟩, ⟨_, wx'⟩, ⟨_, wy'⟩, ⟨_, wz'⟩]

theorem loose_lengths : ∀ r ∈ looseRows, r.length = 6 := by decide

theorem loose_hydrogen {r : List String} (hr : r ∈ looseRows) (h : ¬ HydrogenRow id screwTags r) : r = ["C1", "C", "0.25", "-0.1(2)", "1.3", "1.0"] := by
  simp only [looseRows, List.mem_cons, List.not_mem_nil, or_false] at hr
  rcases hr with rfl | rfl
  · rfl
  · exact absurd (Or.inl ⟨"H", by decide +kernel, [], 'H', [], by decide +kernel, by simp, by simp, by simp⟩) h

/-- Without the hydrogen the entry is not passed over. -/
theorem loose_removed : ¬ ((screwLike "loose" looseRows).withoutHydrogens id).Skipped id false "skip" := by
  have hC : ∀ r ∈ ((screwLike "loose" looseRows).withoutHydrogens id).rows, r = ["C1", "C", "0.25", "-0.1(2)", "1.3", "1.0"] := by
    intro r hr
    obtain ⟨h1, h2⟩ := List.mem_filter.1 hr
    have h2 : ¬ HydrogenRow id (screwLike "loose" looseRows).tags r := by simpa using h2
    exact loose_hydrogen h1 h2
  rintro (⟨-, r, hr, hx⟩ | h)
  · rw [hC r hr] at hx
    exact (screw_used "ordered_sites").1 rfl hx
  · have : ![1 / 4, -1 / 10, 13 / 10] ∈ ((screwLike "loose" looseRows).withoutHydrogens id).sites id false "skip" := by
      refine ⟨["C1", "C", "0.25", "-0.1(2)", "1.3", "1.0"], List.mem_filter.2 ⟨List.mem_cons_self, ?_⟩, ⟨(screw_used "skip").1, (fun h => by cases h)⟩, screw_point⟩
      have : ¬ HydrogenRow id (screwLike "loose" looseRows).tags ["C1", "C", "0.25", "-0.1(2)", "1.3", "1.0"] := (screw_used "skip").2 rfl
      simpa using this
    rw [h] at this
    exact this

theorem loose_disordered : ∃ r ∈ (screwLike "loose" looseRows).rows, WrittenDisordered id (screwLike "loose" looseRows).tags r :=
  ⟨["H1", "H", ".1", "0.2", "4e-1", "0.2"], by simp [screwLike, looseRows], Or.inl ⟨"0.2", 1 / 5, by simp only [screwLike]; decide +kernel, wy', by norm_num⟩⟩

/-- **C87** With ase, `remove_hydrogens=True` and the default `disorder='skip'`, an entry with a disordered hydrogen is read, although it has disorder. -/
theorem C87_false_ase : ∃ (env : AseEnv) (a : AseBlock) (e : CifEntry), e.Written ∧ AseHolds env id a e ∧ ¬ ReadAsWritten id true "skip" e (aseConvert env a true "skip").2 := by
  have hw := screwLike_written "loose" loose_lengths loose_numbers
  have h := screwAse_holds (env := exampleAseEnv) (name := "loose") loose_lengths loose_numbers (by decide +kernel) (screwAse_listed _ _ _)
  refine ⟨_, _, _, hw, h, fun hr => ?_⟩
  obtain ⟨s, hs⟩ := (C87_ase_removed (d := "skip") hw h).accepted loose_removed
  rw [hr.disordered rfl loose_disordered] at hs
  cases hs

/-- **C87** The same with pymatgen. -/
theorem C87_false_pymatgen : ∃ (env : PmgEnv) (b : PmgBlock) (e : CifEntry), e.Written ∧ PmgHolds env id b e ∧
    ¬ ReadAsWritten id true "skip" e (pymatgenConvert env b true "skip").2 := by
  have hw := screwLike_written "loose" loose_lengths loose_numbers
  have h := screwPmg_holds (env := examplePmgEnv) (name := "loose") loose_lengths (screwPmg_listed _ _ _)
  refine ⟨_, _, _, hw, h, fun hr => ?_⟩
  obtain ⟨s, hs⟩ := (C87_pymatgen_removed (d := "skip") hw h).accepted loose_removed
  rw [hr.disordered rfl loose_disordered] at hs
  cases hs

end Amd
