import Verif.Props.CcdcWritten

/-!
# Examples for C80, a monoclinic crystal with a screw axis, and C77
-/

namespace Amd

/-- A carbon and a hydrogen in a monoclinic cell, with the operations of P2₁. -/
def screwBlock : GemmiBlock where
  name := "screw"
  findValue := fun t =>
    if t = "_cell_length_a" then some "4.0" else if t = "_cell_length_b" then some "5.00(1)" else if t = "_cell_length_c" then some "6"
    else if t = "_cell_angle_beta" then some "105.(2)" else if t = "_cell_angle_alpha" ∨ t = "_cell_angle_gamma" then some "90" else none
  find := fun t => if t = "_symmetry_equiv_pos_as_xyz" then ["x,y,z", "-x, 1/2+Y, -z"] else []
  fractLoop := none
  cartnLoop := false

/-- The tags of its table. -/
def screwTags : List String :=
  ["_atom_site_label", "_atom_site_type_symbol", "_atom_site_fract_x", "_atom_site_fract_y", "_atom_site_fract_z", "_atom_site_occupancy"]

/-- Its sites. -/
def screwRows : List (List String) := [["C1", "C", "0.25", "-0.1(2)", "1.3", "1.0"], ["H1", "H", ".1", "0.2", "4e-1", "1"]]

/-- Lengths 4, 5, 6, angles 90, 105, 90. -/
def screwNumbers : CellNumbers := ⟨4, 5, 6, 90, 105, 90⟩

/-- The identity. -/
noncomputable def screwOne : FracOp 3 := (fun i j => if i = j then 1 else 0, fun _ => 0)

/-- The screw rotation about the second axis. -/
noncomputable def screwOp : FracOp 3 := (fun i j => if i = j then (if i = 1 then 1 else -1) else 0, fun i => if i = 1 then 1 / 2 else 0)

/-! ### Texts -/

theorem writes_plain {s : String} {q : ℚ} (n : Numeral) (h1 : n.decimal.int ≠ [] ∨ ∃ f, n.decimal.frac = some f ∧ f ≠ [])
    (h2 : ∀ e, n.exponent = some e → e.digits ≠ []) (hv : n.value = q) (hs : s = String.ofList n.text) : WritesNumber s q :=
  ⟨n, ⟨h1, h2⟩, hv, Or.inl hs⟩

theorem writes_bracket {s : String} {q : ℚ} (n : Numeral) (e : String) (h1 : n.decimal.int ≠ []) (h2 : n.exponent = none) (hv : n.value = q)
    (he : '\n' ∉ e.toList) (hs : s = String.ofList n.text ++ "(" ++ e ++ ")") : WritesNumber s q :=
  ⟨n, ⟨Or.inl h1, fun e h => by rw [h2] at h; cases h⟩, hv, Or.inr ⟨e, he, hs⟩⟩

macro "numeral_value" : tactic =>
  `(tactic| norm_num [Numeral.value, Sign.value, Decimal.value, exponentFactor, fracValue, digitsValue, Nat.ofDigits, Exponent.value])

theorem w4 : WritesNumber "4.0" 4 := writes_plain ⟨.none, ⟨[4], some [0]⟩, none⟩ (by simp) (by simp) (by numeral_value) (by decide +kernel)
theorem w5 : WritesNumber "5.00(1)" 5 := writes_bracket ⟨.none, ⟨[5], some [0, 0]⟩, none⟩ "1" (by simp) rfl (by numeral_value) (by decide) (by decide +kernel)
theorem w6 : WritesNumber "6" 6 := writes_plain ⟨.none, ⟨[6], none⟩, none⟩ (by simp) (by simp) (by numeral_value) (by decide +kernel)
theorem w90 : WritesNumber "90" 90 := writes_plain ⟨.none, ⟨[9, 0], none⟩, none⟩ (by simp) (by simp) (by numeral_value) (by decide +kernel)
theorem w105 : WritesNumber "105.(2)" 105 := writes_bracket ⟨.none, ⟨[1, 0, 5], some []⟩, none⟩ "2" (by simp) rfl (by numeral_value) (by decide) (by decide +kernel)
theorem wx : WritesNumber "0.25" (1 / 4) := writes_plain ⟨.none, ⟨[0], some [2, 5]⟩, none⟩ (by simp) (by simp) (by numeral_value) (by decide +kernel)
theorem wy : WritesNumber "-0.1(2)" (-1 / 10) := writes_bracket ⟨.minus, ⟨[0], some [1]⟩, none⟩ "2" (by simp) rfl (by numeral_value) (by decide) (by decide +kernel)
theorem wz : WritesNumber "1.3" (13 / 10) := writes_plain ⟨.none, ⟨[1], some [3]⟩, none⟩ (by simp) (by simp) (by numeral_value) (by decide +kernel)
theorem wx' : WritesNumber ".1" (1 / 10) := writes_plain ⟨.none, ⟨[], some [1]⟩, none⟩ (by simp) (by simp) (by numeral_value) (by decide +kernel)
theorem wy' : WritesNumber "0.2" (1 / 5) := writes_plain ⟨.none, ⟨[0], some [2]⟩, none⟩ (by simp) (by simp) (by numeral_value) (by decide +kernel)
theorem wz' : WritesNumber "4e-1" (2 / 5) :=
  writes_plain ⟨.none, ⟨[4], none⟩, some ⟨false, .minus, [1]⟩⟩ (by simp) (by simp) (by numeral_value) (by decide +kernel)
theorem wo : WritesNumber "1.0" 1 := writes_plain ⟨.none, ⟨[1], some [0]⟩, none⟩ (by simp) (by simp) (by numeral_value) (by decide +kernel)
theorem wo' : WritesNumber "1" 1 := writes_plain ⟨.none, ⟨[1], none⟩, none⟩ (by simp) (by simp) (by numeral_value) (by decide +kernel)

/-- An element with one axis. -/
theorem axis_wf (s : Sign) (a : Fin 3) : ElementWF [⟨s, .axis a⟩] := by
  refine ⟨fun t ht => ?_, fun t ht => by simp at ht, fun c => ?_, by simp [Term.isTranslation]⟩
  · rw [List.mem_singleton] at ht
    rw [ht]
    trivial
  · exact List.countP_le_length

/-- `1/2+y`. -/
def halfY : List Term := [⟨.none, .fraction ⟨[1], none⟩ ⟨[2], none⟩⟩, ⟨.plus, .axis 1⟩]

theorem halfY_wf : ElementWF halfY := by
  refine ⟨fun t ht => ?_, fun t ht => ?_, fun a => ?_, by decide⟩
  · simp only [halfY, List.mem_cons, List.not_mem_nil, or_false] at ht
    rcases ht with rfl | rfl
    · refine ⟨Or.inl (by simp), Or.inl (by simp), ?_⟩
      norm_num [Decimal.value, fracValue, digitsValue, Nat.ofDigits]
    · trivial
  · simp only [halfY, List.tail_cons, List.mem_cons, List.not_mem_nil, or_false] at ht
    rw [ht]
    decide
  · fin_cases a <;> decide

theorem writes_one : WritesOp "x,y,z" screwOne := by
  refine ⟨fun i => [⟨.none, .axis i⟩], ![("x" : String), "y", "z"], fun i => axis_wf _ i, fun i => ?_, by decide +kernel, ?_⟩
  · fin_cases i <;> (rw [Writes]; decide +kernel)
  · refine Prod.ext (funext fun i => funext fun j => ?_) (funext fun i => ?_)
    · fin_cases i <;> fin_cases j <;> simp [screwOne, elementCoefficient, Term.coefficient, Sign.value]
    · simp [screwOne, elementTranslation, Term.translation]

theorem writes_screw : WritesOp "-x, 1/2+Y, -z" screwOp := by
  refine ⟨![[⟨.minus, .axis 0⟩], halfY, [⟨.minus, .axis 2⟩]], ![("-x" : String), " 1/2+Y", " -z"], fun i => ?_, fun i => ?_, by decide +kernel, ?_⟩
  · fin_cases i
    exacts [axis_wf _ 0, halfY_wf, axis_wf _ 2]
  · fin_cases i <;> (rw [Writes]; decide +kernel)
  · refine Prod.ext (funext fun i => funext fun j => ?_) (funext fun i => ?_)
    · fin_cases i <;> fin_cases j <;> simp [screwOp, halfY, elementCoefficient, Term.coefficient, Sign.value]
    · fin_cases i <;>
        norm_num [screwOp, halfY, elementTranslation, Term.translation, Sign.value, Decimal.value, fracValue, digitsValue, Nat.ofDigits]

/-! ### The block -/

theorem screw_table : AtomTable screwTags screwRows := ⟨by decide, by decide, by decide, by decide, by decide⟩

theorem screw_valid : screwNumbers.Valid := by
  refine ⟨by norm_num [screwNumbers], by norm_num [screwNumbers], fun θ hθ => ?_,
    ![![4, 0, 0], ![0, 5, 0], ![6 * Real.cos (105 * (Real.pi / 180)), 0, 6 * Real.sin (105 * (Real.pi / 180))]], ?_⟩
  · simp only [screwNumbers, List.mem_cons, List.not_mem_nil, or_false] at hθ
    rcases hθ with rfl | rfl | rfl
    · exact Or.inl rfl
    · right; norm_num [abs_of_pos]
    · exact Or.inl rfl
  · have h90 : Real.cos (90 * (Real.pi / 180)) = 0 := by
      rw [show (90 : ℝ) * (Real.pi / 180) = Real.pi / 2 by ring, Real.cos_pi_div_two]
    have hs := Real.sin_sq_add_cos_sq (105 * (Real.pi / 180))
    refine ⟨⟨?_, ?_⟩, ⟨?_, ?_⟩, ⟨?_, ?_⟩, ⟨?_, ?_, ?_⟩, ⟨?_, ?_, ?_⟩, ?_, ?_, ?_⟩ <;> simp [screwNumbers, Fin.sum_univ_three, h90] <;> try norm_num
    · linear_combination 36 * hs
    · ring

theorem screw_ops (env : GemmiEnv) : DescribesOps env screwBlock {screwOne, screwOp} := by
  refine .listed ["x,y,z", "-x, 1/2+Y, -z"] _ ⟨by simp, ["_space_group_symop_operation_xyz", "_space_group_symop.operation_xyz"], _, [], rfl, by decide +kernel,
    by decide +kernel⟩ ?_ ?_
  · intro s hs
    simp only [List.mem_cons, List.not_mem_nil, or_false] at hs
    rcases hs with rfl | rfl
    · exact ⟨_, Or.inl rfl, writes_one⟩
    · exact ⟨_, Or.inr rfl, writes_screw⟩
  · rintro g (rfl | rfl)
    · exact ⟨_, by simp, writes_one⟩
    · exact ⟨_, by simp, writes_screw⟩

theorem screw_numbers : ∀ r ∈ screwRows, ∀ tag ∈ ["_atom_site_fract_x", "_atom_site_fract_y", "_atom_site_fract_z", "_atom_site_occupancy"], ∀ s,
    field screwTags r tag = some s → ∃ q, WritesNumber s q := by
  have key : ∀ r ∈ screwRows, ∀ tag ∈ ["_atom_site_fract_x", "_atom_site_fract_y", "_atom_site_fract_z", "_atom_site_occupancy"], ∀ s ∈ field screwTags r tag,
      s ∈ ["0.25", "-0.1(2)", "1.3", "1.0", ".1", "0.2", "4e-1", "1"] := by decide +kernel
  intro r hr tag htag s hs
  have := key r hr tag htag s hs
  simp only [List.mem_cons, List.not_mem_nil, or_false] at this
  rcases this with rfl | rfl | rfl | rfl | rfl | rfl | rfl | rfl
  exacts [⟨_, wx⟩, ⟨_, wy⟩, ⟨_, wz⟩, ⟨_, wo⟩, ⟨_, wx'⟩, ⟨_, wy'⟩, ⟨_, wz'⟩, ⟨_, wo'⟩]

theorem screw_written (env : GemmiEnv) : WrittenBlock env screwBlock screwTags screwRows screwNumbers {screwOne, screwOp} where
  table := screw_table
  numbers := screw_numbers
  len_a := ⟨_, rfl, w4⟩
  len_b := ⟨_, rfl, w5⟩
  len_c := ⟨_, rfl, w6⟩
  alpha := ⟨_, rfl, w90⟩
  beta := ⟨_, rfl, w105⟩
  gamma := ⟨_, rfl, w90⟩
  valid := screw_valid
  ops := screw_ops env

/-! ### The space group -/

theorem opPoint_one (x : Pt 3 ℝ) : opPoint screwOne x = x := by
  funext i
  fin_cases i <;> simp [opPoint, screwOne]

theorem opPoint_screw (x : Pt 3 ℝ) : opPoint screwOp x = ![-x 0, x 1 + 1 / 2, -x 2] := by
  funext i
  fin_cases i <;> simp [opPoint, screwOp]

theorem screw_isometry {cell : Fin 3 → Pt 3 ℝ} (h01 : ∑ j, cell 0 j * cell 1 j = 0) (h12 : ∑ j, cell 1 j * cell 2 j = 0) (x y : Pt 3 ℝ) :
    eucl (cartesian cell (opPoint screwOp x)) (cartesian cell (opPoint screwOp y)) = eucl (cartesian cell x) (cartesian cell y) := by
  rw [opPoint_screw, opPoint_screw, eucl, eucl]
  congr 1
  simp only [sqDist, cartesian, Fin.sum_univ_three] at h01 h12 ⊢
  simp only [Matrix.cons_val_zero, Matrix.cons_val_one, Matrix.cons_val]
  linear_combination -4 * (x 0 - y 0) * (x 1 - y 1) * h01 - 4 * (x 1 - y 1) * (x 2 - y 2) * h12

theorem screw_group {cell : Fin 3 → Pt 3 ℝ} (hc : HasCellpar cell 4 5 6 90 105 90) : IsSpaceGroup cell {screwOne, screwOp} := by
  have h90 : Real.cos (90 * (Real.pi / 180)) = 0 := by
    rw [show (90 : ℝ) * (Real.pi / 180) = Real.pi / 2 by ring, Real.cos_pi_div_two]
  obtain ⟨-, -, -, a12, -, a01⟩ := hc
  have h01 : ∑ j, cell 0 j * cell 1 j = 0 := by rw [a01.2.2, h90, mul_zero]
  have h12 : ∑ j, cell 1 j * cell 2 j = 0 := by rw [a12.2.2, h90, mul_zero]
  refine ⟨?_, ?_, ⟨screwOne, Or.inl rfl, 0, fun x i => by simp [opPoint_one]⟩, ?_, ?_⟩
  · rintro g (rfl | rfl) x y
    · rw [opPoint_one, opPoint_one]
    · exact screw_isometry h01 h12 x y
  · rintro g (rfl | rfl) i j
    · refine ⟨if i = j then 1 else 0, ?_⟩
      by_cases h : i = j <;> simp [screwOne, h]
    · refine ⟨if i = j then (if i = 1 then 1 else -1) else 0, ?_⟩
      by_cases h : i = j <;> by_cases h' : i = 1 <;> simp [screwOp, h, h']
  · rintro g (rfl | rfl) h (rfl | rfl)
    · exact ⟨screwOne, Or.inl rfl, 0, fun x i => by simp [opPoint_one]⟩
    · exact ⟨screwOp, Or.inr rfl, 0, fun x i => by simp [opPoint_one]⟩
    · exact ⟨screwOp, Or.inr rfl, 0, fun x i => by simp [opPoint_one]⟩
    · refine ⟨screwOne, Or.inl rfl, ![0, 1, 0], fun x i => ?_⟩
      rw [opPoint_one, opPoint_screw, opPoint_screw]
      fin_cases i <;> simp
      norm_num [add_assoc]
  · rintro g (rfl | rfl)
    · exact ⟨screwOne, Or.inl rfl, ⟨0, fun x i => by simp [opPoint_one]⟩, 0, fun x i => by simp [opPoint_one]⟩
    · have : ∃ n : Fin 3 → ℤ, ∀ x i, opPoint screwOp (opPoint screwOp x) i = x i + n i := by
        refine ⟨![0, 1, 0], fun x i => ?_⟩
        rw [opPoint_screw, opPoint_screw]
        fin_cases i <;> simp
        norm_num [add_assoc]
      exact ⟨screwOp, Or.inr rfl, this, this⟩

theorem screw_hydrogen {r : List String} (hr : r ∈ screwRows) (h : ¬ HydrogenRow id screwTags r) : r = ["C1", "C", "0.25", "-0.1(2)", "1.3", "1.0"] := by
  simp only [screwRows, List.mem_cons, List.not_mem_nil, or_false] at hr
  rcases hr with rfl | rfl
  · rfl
  · exact absurd (Or.inl ⟨"H", by decide +kernel, [], 'H', [], by decide +kernel, by simp, by simp, by simp⟩) h

theorem screw_point : WrittenPoint screwTags ["C1", "C", "0.25", "-0.1(2)", "1.3", "1.0"] ![1 / 4, -1 / 10, 13 / 10] := by
  intro i
  fin_cases i
  · exact ⟨_, _, by decide +kernel, wx, by norm_num⟩
  · exact ⟨_, _, by decide +kernel, wy, by norm_num⟩
  · exact ⟨_, _, by decide +kernel, wz, by norm_num⟩

theorem writtenPoint_unique {tags r : List String} {x y : Pt 3 ℝ} (hx : WrittenPoint tags r x) (hy : WrittenPoint tags r y) : x = y := by
  funext i
  obtain ⟨s, q, h1, h2, h3⟩ := hx i
  obtain ⟨s', q', h1', h2', h3'⟩ := hy i
  obtain rfl : s = s' := Option.some.inj (h1.symm.trans h1')
  rw [h3, h3', h2.unique h2']

theorem screw_used (d : String) : WrittenUsed id screwTags true d ["C1", "C", "0.25", "-0.1(2)", "1.3", "1.0"] := by
  constructor
  · rintro - (⟨s, q, h1, h2, h3⟩ | ⟨s, h1, l, h2⟩)
    · have e : field screwTags ["C1", "C", "0.25", "-0.1(2)", "1.3", "1.0"] "_atom_site_occupancy" = some "1.0" := by decide +kernel
      rw [e] at h1
      obtain rfl := Option.some.inj h1
      rw [h2.unique wo] at h3
      exact lt_irrefl _ h3
    · have e : field screwTags ["C1", "C", "0.25", "-0.1(2)", "1.3", "1.0"] "_atom_site_label" = some "C1" := by decide +kernel
      rw [e] at h1
      obtain rfl := Option.some.inj h1
      have := congrArg List.getLast? h2
      simp at this
  · rintro - (⟨s, h1, pre, c, post, h2, h3, h4, h5⟩ | ⟨h, -⟩)
    · have e : field screwTags ["C1", "C", "0.25", "-0.1(2)", "1.3", "1.0"] "_atom_site_type_symbol" = some "C" := by decide +kernel
      rw [e] at h1
      obtain rfl := Option.some.inj h1
      have e' : (id "C" : String).toList = ['C'] := by decide +kernel
      rw [e'] at h2
      cases pre with
      | nil =>
        simp only [List.nil_append, List.cons.injEq] at h2
        rw [← h2.1] at h4
        simp at h4
      | cons a l => simp at h2
    · exact h (by decide)

theorem screw_sites : WrittenSites id screwTags screwRows true "skip" = {![1 / 4, -1 / 10, 13 / 10]} := by
  refine Set.Subset.antisymm ?_ ?_
  · rintro x ⟨r, hr, hu, hx⟩
    obtain rfl := screw_hydrogen hr (hu.2 rfl)
    exact writtenPoint_unique hx screw_point
  · rintro x rfl
    exact ⟨_, by simp [screwRows], screw_used _, screw_point⟩

theorem far_half {x : ℝ} (hx : x = 1 / 2 ∨ x = -(1 / 2)) (n : ℤ) (h : |x - n| ≤ 1 / 1000) : False := by
  rw [abs_le] at h
  rcases hx with rfl | rfl
  · have h1 : n < 1 := by exact_mod_cast (by linarith [h.1] : (n : ℝ) < 1)
    have h2 : 0 < n := by exact_mod_cast (by linarith [h.2] : (0 : ℝ) < n)
    omega
  · have h1 : n < 0 := by exact_mod_cast (by linarith [h.1] : (n : ℝ) < 0)
    have h2 : -1 < n := by exact_mod_cast (by linarith [h.2] : (-1 : ℝ) < n)
    omega

theorem screw_exact : ExactSites (1 / 1000) {screwOne, screwOp} (WrittenSites id screwTags screwRows true "skip") := by
  rw [screw_sites]
  rintro p rfl q rfl g (rfl | rfl) h (rfl | rfl) hc i
  · exact ⟨0, by simp⟩
  · obtain ⟨n, hn⟩ := hc 0
    rw [opPoint_one, opPoint_screw] at hn
    refine (far_half (Or.inl ?_) n hn).elim
    simp; norm_num
  · obtain ⟨n, hn⟩ := hc 0
    rw [opPoint_one, opPoint_screw] at hn
    refine (far_half (Or.inr ?_) n hn).elim
    simp; norm_num
  · exact ⟨0, by simp⟩

/-- All hypotheses hold: without hydrogen, the carbon atom and its image under the screw axis are read, in a cell with the written lengths and angles, and each point
of the motif is a carbon. -/
example : ∃ ws s, gemmiConvert exampleGemmi (screwBlock.withRows screwTags screwRows) true "skip" = (ws, .ok s) ∧ HasCellpar s.set.cell 4 5 6 90 105 90 ∧
    periodicPoints s.set.motif s.set.cell = crystalPoints s.set.cell {screwOne, screwOp} {![1 / 4, -1 / 10, 13 / 10]} ∧
    ∀ i (h : i < s.types.length), ∃ sym, ElementText "C" sym ∧ IsAtomicNumber sym s.types[i] := by
  have hd : ("skip" : String) = "skip" → ∀ r ∈ screwRows, ¬ WrittenDisordered exampleGemmi.asString screwTags r := by
    intro _ r hr hx
    rw [← written_disordered (screw_written exampleGemmi) hr, ← rowDis_iff exampleGemmi screw_table.nodup (screw_table.width r hr)] at hx
    have : ∀ r ∈ screwRows, rowDis exampleGemmi screwTags r = false := by decide +kernel
    rw [this r hr] at hx
    cases hx
  have hne : (WrittenSites exampleGemmi.asString screwTags screwRows true "skip").Nonempty := by
    rw [show exampleGemmi.asString = id from rfl, screw_sites]
    exact Set.singleton_nonempty _
  have hw := screw_written exampleGemmi
  obtain ⟨ws, s, h⟩ := C80_accepted hw hd hne
  have hc : HasCellpar s.set.cell 4 5 6 90 105 90 := by
    have := C80_cell hw h
    norm_num [screwNumbers] at this
    exact this
  have hG := screw_group hc
  refine ⟨ws, s, h, hc, ?_, fun i hi => ?_⟩
  · rw [C80_points hw h hG screw_exact]
    rw [show exampleGemmi.asString = id from rfl, screw_sites]
  · obtain ⟨h1, h2⟩ := C80_types hw h hG
    obtain ⟨r, hr, hu, -, sym, h3, h4⟩ := h2 i hi (h1 ▸ hi)
    have := screw_hydrogen hr (hu.2 rfl)
    subst this
    exact ⟨sym, h3, h4⟩

/-! ### An example for C77 -/

/-- `x+1/2`. -/
def shiftX : List Term := [⟨.none, .axis 0⟩, ⟨.plus, .fraction ⟨[1], none⟩ ⟨[2], none⟩⟩]

theorem shiftX_wf : ElementWF shiftX := by
  refine ⟨fun t ht => ?_, fun t ht => ?_, fun a => ?_, by decide⟩
  · simp only [shiftX, List.mem_cons, List.not_mem_nil, or_false] at ht
    rcases ht with rfl | rfl
    · trivial
    · refine ⟨Or.inl (by simp), Or.inl (by simp), ?_⟩
      norm_num [Decimal.value, fracValue, digitsValue, Nat.ofDigits]
  · simp only [shiftX, List.tail_cons, List.mem_cons, List.not_mem_nil, or_false] at ht
    rw [ht]
    decide
  · fin_cases a <;> decide

theorem writes_shift : WritesOp "x+1/2,y,z" ((shiftOp (1 / 2)).rot, (shiftOp (1 / 2)).trans) := by
  refine ⟨![shiftX, [⟨.none, .axis 1⟩], [⟨.none, .axis 2⟩]], ![("x+1/2" : String), "y", "z"], fun i => ?_, fun i => ?_, by decide +kernel, ?_⟩
  · fin_cases i
    exacts [shiftX_wf, axis_wf _ 1, axis_wf _ 2]
  · fin_cases i <;> (rw [Writes]; decide +kernel)
  · refine Prod.ext (funext fun i => funext fun j => ?_) (funext fun i => ?_)
    · fin_cases i <;> fin_cases j <;> simp [shiftOp, shiftX, elementCoefficient, Term.coefficient, Sign.value]
    · fin_cases i <;>
        norm_num [shiftOp, shiftX, elementTranslation, Term.translation, Sign.value, Decimal.value, fracValue, digitsValue, Nat.ofDigits]

/-- The hypotheses of C77 are met by a salt with a translation as symmetry: the set has four points. -/
example : ∃ s, ccdcConvert wholeEnv halfSalt false "skip" false false = (halfSalt, [], .ok s) ∧ CellDenotes halfSalt.cellpar ⟨1, 1, 1, 90, 90, 90⟩ ∧
    OperatorsDenote halfSalt.symmetryOperators (opSet halfOps) ∧ NonSingular s.set.cell ∧ IsSpaceGroup s.set.cell (opSet halfOps) ∧
    ExactSites (1 / 1000) (opSet halfOps) (wholeEnv.sites halfSalt) ∧ HalfDominant s.set.cell ∧ wholeEnv.asymAtoms halfSalt ≠ [] ∧
    (∀ a ∈ wholeEnv.asymAtoms halfSalt, a.coords ≠ none) ∧ s.types = some [11, 11, 17, 17] ∧ s.set.motif.length = 4 := by
  obtain ⟨s, h, -, h1, h2, h3, h4, h5, h6⟩ := halfSalt_converts
  rw [sites_eq] at h3
  refine ⟨s, h, ⟨rfl, by norm_num, by norm_num, ?_, cubeCell, ?_⟩, Or.inr ⟨by simp [halfSalt], ?_, ?_⟩, h1, h2, h3, h4,
    by simp [wholeEnv, halfSalt, cubeCrystal], by simp [wholeEnv, halfSalt, cubeCrystal, plainAtom], h5, h6⟩
  · simp
  · have h90 : Real.cos (90 * (Real.pi / 180)) = 0 := by
      rw [show (90 : ℝ) * (Real.pi / 180) = Real.pi / 2 by ring, Real.cos_pi_div_two]
    refine ⟨⟨?_, ?_⟩, ⟨?_, ?_⟩, ⟨?_, ?_⟩, ⟨?_, ?_, ?_⟩, ⟨?_, ?_, ?_⟩, ?_, ?_, ?_⟩ <;> simp [cubeCell, Fin.sum_univ_three, h90] <;> try norm_num
  · intro t ht
    simp only [halfSalt, List.mem_cons, List.not_mem_nil, or_false] at ht
    rcases ht with rfl | rfl
    · refine ⟨_, ⟨shiftOp 0, by simp [halfOps], rfl⟩, ?_⟩
      convert writes_one using 1
      refine Prod.ext rfl (funext fun i => ?_)
      fin_cases i <;> simp [shiftOp, screwOne]
    · exact ⟨_, ⟨shiftOp (1 / 2), by simp [halfOps], rfl⟩, writes_shift⟩
  · rintro g ⟨o, ho, rfl⟩
    simp only [halfOps, List.mem_cons, List.not_mem_nil, or_false] at ho
    rcases ho with rfl | rfl
    · refine ⟨"x,y,z", by simp [halfSalt], ?_⟩
      convert writes_one using 1
      refine Prod.ext rfl (funext fun i => ?_)
      fin_cases i <;> simp [shiftOp, screwOne]
    · exact ⟨"x+1/2,y,z", by simp [halfSalt], writes_shift⟩

end Amd
