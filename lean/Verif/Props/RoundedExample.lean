import Verif.Props.Rounded
import Verif.Props.CifCompareExample

/-!
# Example and counterexample for C98

A carbon on a threefold axis: 1/3, 2/3, 0 in a hexagonal cell, with the operations of P3, in two files with four and five digits. With two digits, the site is read as three points.
-/

namespace Amd

open Classical

/-- Tags of the table. -/
def hexTags : List String := ["_atom_site_label", "_atom_site_fract_x", "_atom_site_fract_y", "_atom_site_fract_z"]

/-- The rows of the table. -/
def hexRows (x y : String) : List (List String) := [["C1", x, y, "0"]]

/-- Lengths and angles. -/
def hexNumbers : CellNumbers := ⟨4, 4, 6, 90, 90, 120⟩

/-- The rotation by 120°. -/
noncomputable def hexA : FracOp 3 := (![![0, -1, 0], ![1, -1, 0], ![0, 0, 1]], fun _ => 0)

/-- The rotation by 240°. -/
noncomputable def hexB : FracOp 3 := (![![-1, 1, 0], ![-1, 0, 0], ![0, 0, 1]], fun _ => 0)

/-- The operations of P3. -/
noncomputable def hexOps : Set (FracOp 3) := {screwOne, hexA, hexB}

/-- The entry. -/
noncomputable def hexEntry (name x y : String) : CifEntry := ⟨name, hexTags, hexRows x y, hexNumbers, hexOps⟩

/-- The block. -/
def hexBlock (name x y : String) : GemmiBlock where
  name := name
  findValue := fun t =>
    if t = "_cell_length_a" then some "4.0" else if t = "_cell_length_b" then some "4.0" else if t = "_cell_length_c" then some "6"
    else if t = "_cell_angle_gamma" then some "120" else if t = "_cell_angle_alpha" ∨ t = "_cell_angle_beta" then some "90" else none
  find := fun t => if t = "_symmetry_equiv_pos_as_xyz" then ["x,y,z", "-y,x-y,z", "-x+y,-x,z"] else []
  fractLoop := some ⟨hexTags, (hexRows x y).flatten⟩
  cartnLoop := false

/-- The ideal crystal. -/
noncomputable def hexIdeal (name : String) : Described := ⟨name, hexNumbers, hexOps, {![1 / 3, 2 / 3, 0]}⟩

/-! ### Texts -/

theorem w120 : WritesNumber "120" 120 := writes_plain ⟨.none, ⟨[1, 2, 0], none⟩, none⟩ (by simp) (by simp) (by numeral_value) (by decide +kernel)
theorem w0 : WritesNumber "0" 0 := writes_plain ⟨.none, ⟨[0], none⟩, none⟩ (by simp) (by simp) (by numeral_value) (by decide +kernel)
theorem w3333 : WritesNumber "0.3333" (3333 / 10000) := writes_plain ⟨.none, ⟨[0], some [3, 3, 3, 3]⟩, none⟩ (by simp) (by simp) (by numeral_value) (by decide +kernel)
theorem w6667 : WritesNumber "0.6667" (6667 / 10000) := writes_plain ⟨.none, ⟨[0], some [6, 6, 6, 7]⟩, none⟩ (by simp) (by simp) (by numeral_value) (by decide +kernel)
theorem w33333 : WritesNumber "0.33333" (33333 / 100000) :=
  writes_plain ⟨.none, ⟨[0], some [3, 3, 3, 3, 3]⟩, none⟩ (by simp) (by simp) (by numeral_value) (by decide +kernel)
theorem w66667 : WritesNumber "0.66667" (66667 / 100000) :=
  writes_plain ⟨.none, ⟨[0], some [6, 6, 6, 6, 7]⟩, none⟩ (by simp) (by simp) (by numeral_value) (by decide +kernel)
theorem w33 : WritesNumber "0.33" (33 / 100) := writes_plain ⟨.none, ⟨[0], some [3, 3]⟩, none⟩ (by simp) (by simp) (by numeral_value) (by decide +kernel)
theorem w67 : WritesNumber "0.67" (67 / 100) := writes_plain ⟨.none, ⟨[0], some [6, 7]⟩, none⟩ (by simp) (by simp) (by numeral_value) (by decide +kernel)

/-- `x-y`. -/
def xMinusY : List Term := [⟨.none, .axis 0⟩, ⟨.minus, .axis 1⟩]

/-- `-x+y`. -/
def minusXY : List Term := [⟨.minus, .axis 0⟩, ⟨.plus, .axis 1⟩]

theorem xMinusY_wf : ElementWF xMinusY := by
  refine ⟨fun t ht => ?_, fun t ht => ?_, fun a => ?_, by decide⟩
  · simp only [xMinusY, List.mem_cons, List.not_mem_nil, or_false] at ht
    rcases ht with rfl | rfl <;> trivial
  · simp only [xMinusY, List.tail_cons, List.mem_cons, List.not_mem_nil, or_false] at ht
    rw [ht]
    decide
  · fin_cases a <;> decide

theorem minusXY_wf : ElementWF minusXY := by
  refine ⟨fun t ht => ?_, fun t ht => ?_, fun a => ?_, by decide⟩
  · simp only [minusXY, List.mem_cons, List.not_mem_nil, or_false] at ht
    rcases ht with rfl | rfl <;> trivial
  · simp only [minusXY, List.tail_cons, List.mem_cons, List.not_mem_nil, or_false] at ht
    rw [ht]
    decide
  · fin_cases a <;> decide

theorem writes_hexA : WritesOp "-y,x-y,z" hexA := by
  refine ⟨![[⟨.minus, .axis 1⟩], xMinusY, [⟨.none, .axis 2⟩]], ![("-y" : String), "x-y", "z"], fun i => ?_, fun i => ?_, by decide +kernel, ?_⟩
  · fin_cases i
    exacts [axis_wf _ 1, xMinusY_wf, axis_wf _ 2]
  · fin_cases i <;> (rw [Writes]; decide +kernel)
  · refine Prod.ext (funext fun i => funext fun j => ?_) (funext fun i => ?_)
    · fin_cases i <;> fin_cases j <;> simp [hexA, xMinusY, elementCoefficient, Term.coefficient, Sign.value]
    · fin_cases i <;> norm_num [hexA, xMinusY, elementTranslation, Term.translation, Sign.value]

theorem writes_hexB : WritesOp "-x+y,-x,z" hexB := by
  refine ⟨![minusXY, [⟨.minus, .axis 0⟩], [⟨.none, .axis 2⟩]], ![("-x+y" : String), "-x", "z"], fun i => ?_, fun i => ?_, by decide +kernel, ?_⟩
  · fin_cases i
    exacts [minusXY_wf, axis_wf _ 0, axis_wf _ 2]
  · fin_cases i <;> (rw [Writes]; decide +kernel)
  · refine Prod.ext (funext fun i => funext fun j => ?_) (funext fun i => ?_)
    · fin_cases i <;> fin_cases j <;> simp [hexB, minusXY, elementCoefficient, Term.coefficient, Sign.value]
    · fin_cases i <;> norm_num [hexB, minusXY, elementTranslation, Term.translation, Sign.value]

/-! ### The cell and the operations -/

/-- The cell. -/
noncomputable def hexCell : Fin 3 → Pt 3 ℝ := ![![4, 0, 0], ![-2, 2 * √3, 0], ![0, 0, 6]]

theorem sqrt_three : √3 * √3 = (3 : ℝ) := Real.mul_self_sqrt (by norm_num)

theorem hexCell_par : HasCellpar hexCell 4 4 6 90 90 120 := by
  have h90 : Real.cos (90 * (Real.pi / 180)) = 0 := by
    rw [show (90 : ℝ) * (Real.pi / 180) = Real.pi / 2 by ring, Real.cos_pi_div_two]
  have h120 : Real.cos (120 * (Real.pi / 180)) = -1 / 2 := by
    rw [show (120 : ℝ) * (Real.pi / 180) = Real.pi - Real.pi / 3 by ring, Real.cos_pi_sub, Real.cos_pi_div_three]
    norm_num
  have hs := sqrt_three
  refine ⟨⟨?_, ?_⟩, ⟨?_, ?_⟩, ⟨?_, ?_⟩, ⟨?_, ?_, ?_⟩, ⟨?_, ?_, ?_⟩, ?_, ?_, ?_⟩ <;> (try simp [hexCell, Fin.sum_univ_three, h90, h120]) <;> try norm_num
  nlinarith

theorem hexCell_has {e : Described} (he : e.cell = hexNumbers) : e.HasCell hexCell := by
  have := hexCell_par
  unfold Described.HasCell
  rw [he]
  norm_num [hexNumbers]
  exact this

theorem hexCell_nonSingular : NonSingular hexCell := by
  have h3 : √3 ≠ (0 : ℝ) := by positivity
  refine Fintype.linearIndependent_iff.2 fun c h => ?_
  have h0 := congrFun h 0
  have h1 := congrFun h 1
  have h2 := congrFun h 2
  simp [hexCell, Fin.sum_univ_three] at h0 h1 h2
  rw [h1] at h0
  simp at h0
  intro i
  fin_cases i
  exacts [h0, h1, h2]

theorem hexCell_dominant : HalfDominant hexCell := by
  have hs := sqrt_three
  intro i
  fin_cases i
  · have e : (Finset.univ.erase (0 : Fin 3)) = {1, 2} := by decide
    simp only [Fin.zero_eta, e, Finset.sum_pair (show (1 : Fin 3) ≠ 2 by decide)]
    simp [gram, hexCell, Fin.sum_univ_three, abs_mul] <;> norm_num
  · have e : (Finset.univ.erase (1 : Fin 3)) = {0, 2} := by decide
    simp only [Fin.mk_one, e, Finset.sum_pair (show (0 : Fin 3) ≠ 2 by decide)]
    simp [gram, hexCell, Fin.sum_univ_three, abs_mul]
    nlinarith
  · have e : (Finset.univ.erase (2 : Fin 3)) = {0, 1} := by decide
    simp only [Fin.reduceFinMk, e, Finset.sum_pair (show (0 : Fin 3) ≠ 1 by decide)]
    simp [gram, hexCell, Fin.sum_univ_three]

theorem opPoint_hexA (x : Pt 3 ℝ) : opPoint hexA x = ![-x 1, x 0 - x 1, x 2] := by
  funext i
  fin_cases i <;> simp [opPoint, hexA, Fin.sum_univ_three]
  ring

theorem opPoint_hexB (x : Pt 3 ℝ) : opPoint hexB x = ![-x 0 + x 1, -x 0, x 2] := by
  funext i
  fin_cases i <;> simp [opPoint, hexB, Fin.sum_univ_three]

theorem hex_group : IsSpaceGroup hexCell hexOps := by
  have hs := sqrt_three
  have e1 : ∀ x, opPoint screwOne x = x := opPoint_one
  have aa : ∀ x, opPoint hexA (opPoint hexA x) = opPoint hexB x := by
    intro x
    rw [opPoint_hexA, opPoint_hexA, opPoint_hexB]
    funext i
    fin_cases i <;> simp <;> ring
  have ab : ∀ x, opPoint hexA (opPoint hexB x) = x := by
    intro x
    rw [opPoint_hexB, opPoint_hexA]
    funext i
    fin_cases i <;> simp
  have ba : ∀ x, opPoint hexB (opPoint hexA x) = x := by
    intro x
    rw [opPoint_hexA, opPoint_hexB]
    funext i
    fin_cases i <;> simp
  have bb : ∀ x, opPoint hexB (opPoint hexB x) = opPoint hexA x := by
    intro x
    rw [opPoint_hexB, opPoint_hexB, opPoint_hexA]
    funext i
    fin_cases i <;> simp <;> ring
  have m1 : screwOne ∈ hexOps := Or.inl rfl
  have mA : hexA ∈ hexOps := Or.inr (Or.inl rfl)
  have mB : hexB ∈ hexOps := Or.inr (Or.inr rfl)
  refine ⟨?_, ?_, ⟨screwOne, m1, 0, fun x i => by simp [e1]⟩, ?_, ?_⟩
  · rintro g (rfl | rfl | rfl) x y
    · rw [e1, e1]
    · rw [opPoint_hexA, opPoint_hexA]
      unfold eucl
      congr 1
      simp [sqDist, cartesian, hexCell, Fin.sum_univ_three]
      linear_combination (4 * (((x 0 - y 0) - (x 1 - y 1)) ^ 2 - (x 1 - y 1) ^ 2)) * hs
    · rw [opPoint_hexB, opPoint_hexB]
      unfold eucl
      congr 1
      simp [sqDist, cartesian, hexCell, Fin.sum_univ_three]
      linear_combination (4 * ((x 0 - y 0) ^ 2 - (x 1 - y 1) ^ 2)) * hs
  · rintro g (rfl | rfl | rfl) i j
    · refine ⟨if i = j then 1 else 0, ?_⟩
      by_cases h : i = j <;> simp [screwOne, h]
    · refine ⟨(![![0, -1, 0], ![1, -1, 0], ![0, 0, 1]] : Fin 3 → Fin 3 → ℤ) i j, ?_⟩
      fin_cases i <;> fin_cases j <;> simp [hexA]
    · refine ⟨(![![-1, 1, 0], ![-1, 0, 0], ![0, 0, 1]] : Fin 3 → Fin 3 → ℤ) i j, ?_⟩
      fin_cases i <;> fin_cases j <;> simp [hexB]
  · rintro g (rfl | rfl | rfl) h (rfl | rfl | rfl)
    · exact ⟨screwOne, m1, 0, fun x i => by simp [e1]⟩
    · exact ⟨hexA, mA, 0, fun x i => by simp [e1]⟩
    · exact ⟨hexB, mB, 0, fun x i => by simp [e1]⟩
    · exact ⟨hexA, mA, 0, fun x i => by simp [e1]⟩
    · exact ⟨hexB, mB, 0, fun x i => by simp [aa]⟩
    · exact ⟨screwOne, m1, 0, fun x i => by simp [ab, e1]⟩
    · exact ⟨hexB, mB, 0, fun x i => by simp [e1]⟩
    · exact ⟨screwOne, m1, 0, fun x i => by simp [ba, e1]⟩
    · exact ⟨hexA, mA, 0, fun x i => by simp [bb]⟩
  · rintro g (rfl | rfl | rfl)
    · exact ⟨screwOne, m1, ⟨0, fun x i => by simp [e1]⟩, 0, fun x i => by simp [e1]⟩
    · exact ⟨hexB, mB, ⟨0, fun x i => by simp [ab]⟩, 0, fun x i => by simp [ba]⟩
    · exact ⟨hexA, mA, ⟨0, fun x i => by simp [ba]⟩, 0, fun x i => by simp [ab]⟩

theorem hex_finite : hexOps.Finite := Set.toFinite {screwOne, hexA, hexB}

theorem hex_ncard : hexOps.ncard ≤ 3 := by
  unfold hexOps
  refine (Set.ncard_insert_le _ _).trans ?_
  have := Set.ncard_insert_le hexA {hexB}
  rw [Set.ncard_singleton] at this
  omega

theorem hex_entries : UnitEntries hexOps := by
  rintro g (rfl | rfl | rfl) i j
  · by_cases h : i = j <;> simp [screwOne, h]
  · fin_cases i <;> fin_cases j <;> simp [hexA]
  · fin_cases i <;> fin_cases j <;> simp [hexB]

/-- All images of the site are the same modulo the lattice. -/
theorem hex_image {g : FracOp 3} (hg : g ∈ hexOps) : ∃ n : Fin 3 → ℤ, ∀ i, opPoint g ![1 / 3, 2 / 3, 0] i = (![1 / 3, 2 / 3, 0] : Pt 3 ℝ) i + n i := by
  rcases hg with rfl | rfl | rfl
  · exact ⟨0, fun i => by rw [opPoint_one]; simp⟩
  · refine ⟨![-1, -1, 0], fun i => ?_⟩
    rw [opPoint_hexA]
    fin_cases i <;> simp <;> norm_num
  · refine ⟨![0, -1, 0], fun i => ?_⟩
    rw [opPoint_hexB]
    fin_cases i <;> simp <;> norm_num

theorem hex_exact (tol : ℝ) : ExactSites tol hexOps {![1 / 3, 2 / 3, 0]} := by
  rintro p rfl q rfl g hg h hh - i
  obtain ⟨n, hn⟩ := hex_image hg
  obtain ⟨m, hm⟩ := hex_image hh
  exact ⟨n i - m i, by rw [hn, hm]; push_cast; ring⟩

theorem hex_proper (name : String) : (hexIdeal name).Proper where
  group := ⟨hexCell, hexCell_has rfl, hexCell_nonSingular, hex_group⟩
  finiteOps := hex_finite
  finiteSites := Set.finite_singleton _
  nonempty := Set.singleton_nonempty _
  exact := hex_exact _
  size := by
    have h := hex_ncard
    rw [Described.size]
    simp only [hexIdeal, Set.ncard_singleton, one_mul]
    omega

theorem hex_properRounded (name : String) : (hexIdeal name).ProperRounded (1 / 30000) where
  nonneg := by norm_num
  small := by norm_num
  proper := hex_proper name
  entries := hex_entries
  apart := hex_exact _

theorem hex_shaped (name : String) (k : ℕ) : (hexIdeal name).WellShaped k := ⟨hexCell, hexCell_has rfl, Or.inl hexCell_dominant⟩

theorem hex_same (m n : String) : DescribeSame (hexIdeal m) (hexIdeal n) :=
  ⟨hexCell, hexCell, hexCell_has rfl, hexCell_has rfl, id, fun _ _ => rfl, by rw [Set.image_id]; rfl⟩

/-! ### The blocks -/

variable {name x y : String} {p q : ℚ}

theorem hex_field (x y : String) : field hexTags ["C1", x, y, "0"] "_atom_site_fract_x" = some x ∧ field hexTags ["C1", x, y, "0"] "_atom_site_fract_y" = some y ∧
    field hexTags ["C1", x, y, "0"] "_atom_site_fract_z" = some "0" ∧ field hexTags ["C1", x, y, "0"] "_atom_site_label" = some "C1" ∧
    field hexTags ["C1", x, y, "0"] "_atom_site_occupancy" = none := ⟨rfl, rfl, rfl, rfl, rfl⟩

theorem hex_written (hx : WritesNumber x p) (hy : WritesNumber y q) : (hexEntry name x y).Written where
  table := show AtomTable hexTags (hexRows x y) from ⟨by decide, by simp [hexRows, hexTags], by decide, by decide, by decide⟩
  numbers := by
    intro r hr tag ht s hs
    obtain rfl := List.mem_singleton.1 hr
    obtain ⟨f1, f2, f3, -, f5⟩ := hex_field x y
    simp only [List.mem_cons, List.not_mem_nil, or_false] at ht
    rw [show (hexEntry name x y).tags = hexTags from rfl] at hs
    rcases ht with rfl | rfl | rfl | rfl
    · rw [f1] at hs; exact ⟨p, Option.some.inj hs ▸ hx⟩
    · rw [f2] at hs; exact ⟨q, Option.some.inj hs ▸ hy⟩
    · rw [f3] at hs; exact ⟨0, Option.some.inj hs ▸ w0⟩
    · rw [f5] at hs; cases hs
  decimal := by
    intro x hx
    simp only [hexEntry, CellNumbers.tagged, hexNumbers, List.mem_cons, List.not_mem_nil, or_false] at hx
    rcases hx with rfl | rfl | rfl | rfl | rfl | rfl
    exacts [⟨_, w4⟩, ⟨_, w4⟩, ⟨_, w6⟩, ⟨_, w90⟩, ⟨_, w90⟩, ⟨_, w120⟩]
  valid := by
    refine ⟨by norm_num [hexEntry, hexNumbers], by norm_num [hexEntry, hexNumbers], fun θ hθ => ?_, hexCell, ?_⟩
    · simp only [hexEntry, hexNumbers, List.mem_cons, List.not_mem_nil, or_false] at hθ
      rcases hθ with rfl | rfl | rfl
      · exact Or.inl rfl
      · exact Or.inl rfl
      · right; norm_num [abs_of_pos]
    · exact hexCell_has (e := hexIdeal name) rfl
  finite := hex_finite

theorem hex_holds (env : GemmiEnv) (henv : env.asString = id) : GemmiHolds env id (hexBlock name x y) (hexEntry name x y) where
  unquote := henv
  name := rfl
  table := rfl
  cell := by
    intro x hx
    simp only [hexEntry, CellNumbers.tagged, hexNumbers, List.mem_cons, List.not_mem_nil, or_false] at hx
    rcases hx with rfl | rfl | rfl | rfl | rfl | rfl
    exacts [⟨_, rfl, w4⟩, ⟨_, rfl, w4⟩, ⟨_, rfl, w6⟩, ⟨_, rfl, w90⟩, ⟨_, rfl, w90⟩, ⟨_, rfl, w120⟩]
  ops := .listed ["x,y,z", "-y,x-y,z", "-x+y,-x,z"] _ ⟨by simp, ["_space_group_symop_operation_xyz", "_space_group_symop.operation_xyz"], _, [], rfl,
    show ∀ t ∈ ["_space_group_symop_operation_xyz", "_space_group_symop.operation_xyz"],
      (if t = "_symmetry_equiv_pos_as_xyz" then ["x,y,z", "-y,x-y,z", "-x+y,-x,z"] else []) = [] by decide +kernel, rfl⟩ (by
      intro s hs
      simp only [List.mem_cons, List.not_mem_nil, or_false] at hs
      rcases hs with rfl | rfl | rfl
      exacts [⟨_, Or.inl rfl, writes_one⟩, ⟨_, Or.inr (Or.inl rfl), writes_hexA⟩, ⟨_, Or.inr (Or.inr rfl), writes_hexB⟩]) (by
      rintro g (rfl | rfl | rfl)
      exacts [⟨_, by simp, writes_one⟩, ⟨_, by simp, writes_hexA⟩, ⟨_, by simp, writes_hexB⟩])

theorem hex_point (hx : WritesNumber x p) (hy : WritesNumber y q) : WrittenPoint hexTags ["C1", x, y, "0"] ![(p : ℝ), q, 0] := by
  obtain ⟨f1, f2, f3, -⟩ := hex_field x y
  intro i
  fin_cases i
  · exact ⟨_, _, f1, hx, by simp⟩
  · exact ⟨_, _, f2, hy, by simp⟩
  · exact ⟨_, _, f3, w0, by simp⟩

theorem hex_sites (hx : WritesNumber x p) (hy : WritesNumber y q) : (hexEntry name x y).sites id false "skip" = {![(p : ℝ), q, 0]} := by
  refine Set.Subset.antisymm ?_ ?_
  · rintro z ⟨r, hr, -, hz⟩
    rw [show (hexEntry name x y).rows = hexRows x y from rfl, hexRows, List.mem_singleton] at hr
    subst hr
    exact writtenPoint_unique hz (hex_point hx hy)
  · rintro z rfl
    exact ⟨_, List.mem_singleton.2 rfl, ⟨fun h => absurd h (by decide), fun h => absurd h (by decide)⟩, hex_point hx hy⟩

theorem hex_kept (hx : WritesNumber x p) (hy : WritesNumber y q) : ¬ (hexEntry name x y).Skipped id false "skip" := by
  rintro (⟨-, r, hr, h⟩ | h)
  · obtain rfl := List.mem_singleton.1 hr
    obtain ⟨-, -, -, f4, f5⟩ := hex_field x y
    rcases h with ⟨s, t, h1, -⟩ | ⟨s, h1, l, h2⟩
    · rw [show (hexEntry name x y).tags = hexTags from rfl, f5] at h1
      cases h1
    · rw [show (hexEntry name x y).tags = hexTags from rfl, f4] at h1
      obtain rfl := Option.some.inj h1
      have := congrArg List.getLast? h2
      simp at this
  · rw [hex_sites hx hy] at h
    exact Set.singleton_ne_empty _ h

/-- The description that is written. -/
noncomputable def hexDesc (name : String) (p q : ℚ) : Described := ⟨name, hexNumbers, hexOps, {![(p : ℝ), q, 0]}⟩

theorem hex_describes (hx : WritesNumber x p) (hy : WritesNumber y q) : GemmiDescribes exampleGemmi id ⟨"gemmi", false, "skip", false, false, false⟩ (hexBlock name x y) (some (hexDesc name p q)) := by
  refine ⟨_, hex_holds exampleGemmi rfl, ?_⟩
  have : (hexEntry name x y).described id false "skip" = hexDesc name p q := congrArg (Described.mk name hexNumbers hexOps) (hex_sites hx hy)
  rw [← this]
  exact .crystal (hex_written hx hy) (hex_kept hx hy)

theorem hex_rounds {δ : ℝ} (h0 : 0 ≤ δ) (h1 : |(p : ℝ) - 1 / 3| ≤ δ) (h2 : |(q : ℝ) - 2 / 3| ≤ δ) : (hexDesc name p q).Rounds δ (hexIdeal name) where
  name := rfl
  cell := rfl
  ops := ⟨id, by rw [Set.image_id]; rfl, fun g _ => ⟨rfl, fun j => ⟨0, by simpa using h0⟩⟩⟩
  sites := by
    refine ⟨fun _ => ![1 / 3, 2 / 3, 0], by simp [hexDesc, hexIdeal], ?_⟩
    rintro z rfl j
    refine ⟨0, ?_⟩
    fin_cases j
    · simpa using h1
    · simpa using h2
    · simpa using h0

/-! ### The files -/

/-- Two files. -/
noncomputable def hexBackends : CifBackends :=
  { exampleBackends with
    gemmiFiles := fun p => if p = "four.cif" then .file (.ok ([hexBlock "four" "0.3333" "0.6667"].map .item)) else .file (.ok ([hexBlock "five" "0.33333" "0.66667"].map .item)) }

/-- `compare` reads them. -/
noncomputable def hexEnv : Env := { exampleEnv with cifReader := cifReader hexBackends ⟨[], []⟩, csdReader := csdReader hexBackends ⟨[], []⟩ }

theorem hex_reads : ReadsInputs hexEnv hexBackends ⟨[], []⟩ [] ⟨"gemmi", false, "skip", false, false, false⟩ :=
  ⟨rfl, rfl, (fun x hx => (by cases hx)), .default, Or.inl rfl⟩

theorem hex_four : InputHolds hexBackends id ⟨"gemmi", false, "skip", false, false, false⟩ (.one (.str "four.cif")) [hexDesc "four" (3333 / 10000) (6667 / 10000)] false :=
  .paths ["four.cif"] (fun _ => [some (hexDesc "four" (3333 / 10000) (6667 / 10000))]) (.one _) (fun p hp => by
    rw [List.mem_singleton.1 hp]
    refine .gemmi rfl ⟨rfl, rfl⟩ ?_
    simp only [hexBackends, if_true]
    exact .file _ _ (.cons (hex_describes w3333 w6667) .nil)) rfl

theorem hex_five : InputHolds hexBackends id ⟨"gemmi", false, "skip", false, false, false⟩ (.one (.str "five.cif")) [hexDesc "five" (33333 / 100000) (66667 / 100000)] false :=
  .paths ["five.cif"] (fun _ => [some (hexDesc "five" (33333 / 100000) (66667 / 100000))]) (.one _) (fun p hp => by
    rw [List.mem_singleton.1 hp]
    refine .gemmi rfl ⟨rfl, rfl⟩ ?_
    simp only [hexBackends, show ("five.cif" : String) ≠ "four.cif" by decide, if_false]
    exact .file _ _ (.cons (hex_describes w33333 w66667) .nil)) rfl

theorem four_rounds : (hexDesc "four" (3333 / 10000) (6667 / 10000)).Rounds (1 / 30000) (hexIdeal "four") :=
  hex_rounds (by norm_num) (by norm_num [abs_le]) (by norm_num [abs_le])

theorem five_rounds : (hexDesc "five" (33333 / 100000) (66667 / 100000)).Rounds (1 / 30000) (hexIdeal "five") :=
  hex_rounds (by norm_num) (by norm_num [abs_le]) (by norm_num [abs_le])

/-- `compare('four.cif', 'five.cif', by='AMD', k=100)` finds a distance below 0.008. -/
example : ∃ (x : ℝ) (F : ℕ), x ≤ 8 / 1000 ∧ ∀ fuel ≥ F,
    compare hexEnv (.one (.str "four.cif")) (some (.one (.str "five.cif"))) {} [] fuel = .ok (.matrix ["four"] ["five"] [[x]]) := by
  obtain ⟨M, f, F, hM, h1, h2⟩ := C98_amd_two_partial (args := {}) hex_reads rfl (by decide +kernel) rfl (by norm_num) rfl hex_four hex_five
    (.cons four_rounds .nil) (.cons five_rounds .nil) (by simpa using hex_properRounded "four") (by simpa using hex_properRounded "five") (by simp) (by simp)
  have h0 := (h2 0 0 (by simp) (by simp) (hex_shaped "four" _) (hex_shaped "five" _)).2 (hex_same _ _)
  simp only [List.getElem_cons_zero, Described.roundError, hexIdeal, hexNumbers] at h0
  obtain ⟨m1, m2, m3⟩ := hM
  have m3 := m3 0 0 (by simp) (by simp)
  obtain ⟨r, rfl⟩ := List.length_eq_one_iff.1 m1
  obtain ⟨x, rfl⟩ := List.length_eq_one_iff.1 (m2 r (by simp))
  simp at m3
  refine ⟨f 0 0, F, by norm_num at h0; linarith, fun fuel hf => ?_⟩
  rw [h1 fuel hf, ← m3]
  rfl

theorem hex_both : InputHolds hexBackends id ⟨"gemmi", false, "skip", false, false, false⟩ (.many [.str "four.cif", .str "five.cif"])
    [hexDesc "four" (3333 / 10000) (6667 / 10000), hexDesc "five" (33333 / 100000) (66667 / 100000)] false :=
  .paths ["four.cif", "five.cif"]
    (fun p => if p = "four.cif" then [some (hexDesc "four" (3333 / 10000) (6667 / 10000))] else [some (hexDesc "five" (33333 / 100000) (66667 / 100000))]) (.many ["four.cif", "five.cif"]) (fun p hp => by
    rcases List.mem_cons.1 hp with rfl | hp
    · refine .gemmi rfl ⟨rfl, rfl⟩ ?_
      simp only [hexBackends, if_true]
      exact .file _ _ (.cons (hex_describes w3333 w6667) .nil)
    · rw [List.mem_singleton.1 hp]
      refine .gemmi rfl ⟨rfl, rfl⟩ ?_
      simp only [hexBackends, show ("five.cif" : String) ≠ "four.cif" by decide, if_false]
      exact .file _ _ (.cons (hex_describes w33333 w66667) .nil)) rfl

theorem both_rounds : List.Forall₂ (Described.Rounds (1 / 30000)) [hexDesc "four" (3333 / 10000) (6667 / 10000), hexDesc "five" (33333 / 100000) (66667 / 100000)]
    [hexIdeal "four", hexIdeal "five"] := .cons four_rounds (.cons five_rounds .nil)

theorem both_proper : ∀ c ∈ [hexIdeal "four", hexIdeal "five"], c.ProperRounded (1 / 30000) := List.forall_mem_cons.2 ⟨hex_properRounded "four", List.forall_mem_singleton.2 (hex_properRounded "five")⟩

/-- `compare(['four.cif', 'five.cif'])` by AMD, and by PDD: the two crystals are nearly at distance 0. -/
example : (∃ (M : List (List ℝ)) (F : ℕ), (M.getD 0 []).getD 1 0 ≤ 8 / 1000 ∧
      ∀ fuel ≥ F, compare hexEnv (.many [.str "four.cif", .str "five.cif"]) none {} [] fuel = .ok (.matrix ["four", "five"] ["four", "five"] M)) ∧
    ∃ (M : List (List ℝ)) (F : ℕ), 0 ≤ (M.getD 0 []).getD 1 0 ∧
      (M.getD 0 []).getD 1 0 ≤ 4 * (1 / 10000) + emdTol (max (hexIdeal "four").size (hexIdeal "five").size) (100 * max 4 4) + 8 / 1000 ∧
      ∀ fuel ≥ F, compare hexEnv (.many [.str "four.cif", .str "five.cif"]) none { by_ := "PDD" } [] fuel = .ok (.matrix ["four", "five"] ["four", "five"] M) := by
  constructor
  · obtain ⟨M, f, F, hM, h1, h2⟩ := C98_amd_partial (args := {}) hex_reads rfl (by decide +kernel) rfl (by norm_num) rfl hex_both both_rounds both_proper (by simp)
    have h0 := (h2 0 1 (by simp) (by simp) (hex_shaped "four" _) (hex_shaped "five" _)).2 (hex_same _ _)
    refine ⟨M, F, ?_, h1⟩
    rw [hM.2.2 0 1 (by simp) (by simp)]
    simp only [List.getElem_cons_zero, List.getElem_cons_succ, Described.roundError, hexIdeal, hexNumbers] at h0
    norm_num at h0
    linarith
  · obtain ⟨M, f, F, hM, h1, h2⟩ := C98_pdd_partial (args := { by_ := "PDD" }) (tol := 1 / 10000) (collapse := true) hex_reads rfl exampleEnv_sound.sched (by decide +kernel) rfl (by norm_num)
      ⟨rfl, rfl, ⟨none, rfl⟩, ⟨_, rfl⟩⟩ hex_both both_rounds both_proper (by simp) rfl
    obtain ⟨h0, h3⟩ := (h2 0 1 (by simp) (by simp) (hex_shaped "four" _) (hex_shaped "five" _) _ rfl).2 (hex_same _ _)
    refine ⟨M, F, ?_, ?_, h1⟩ <;> rw [hM.2.2 0 1 (by simp) (by simp)]
    · exact h0
    · simp only [List.getElem_cons_zero, List.getElem_cons_succ, Described.roundError, if_true] at h3
      refine h3.trans (add_le_add (le_of_eq ?_) ?_)
      · norm_num [hexIdeal, hexNumbers]
      · norm_num [hexIdeal, hexNumbers]

/-- Two collections by PDD. -/
example : ∃ (x : ℝ) (F : ℕ), 0 ≤ x ∧ ∀ fuel ≥ F,
    compare hexEnv (.one (.str "four.cif")) (some (.one (.str "five.cif"))) { by_ := "PDD" } [] fuel = .ok (.matrix ["four"] ["five"] [[x]]) := by
  obtain ⟨M, f, F, hM, h1, h2⟩ := C98_pdd_two_partial (args := { by_ := "PDD" }) (tol := 1 / 10000) (collapse := true) hex_reads rfl exampleEnv_sound.sched (by decide +kernel) rfl (by norm_num)
    ⟨rfl, rfl, ⟨none, rfl⟩, ⟨_, rfl⟩⟩ hex_four hex_five (.cons four_rounds .nil) (.cons five_rounds .nil) (by simpa using hex_properRounded "four") (by simpa using hex_properRounded "five")
    (by simp) (by simp) rfl
  obtain ⟨h0, -⟩ := (h2 0 0 (by simp) (by simp) (hex_shaped "four" _) (hex_shaped "five" _) _ rfl).2 (hex_same _ _)
  obtain ⟨m1, m2, m3⟩ := hM
  have m3 := m3 0 0 (by simp) (by simp)
  obtain ⟨r, rfl⟩ := List.length_eq_one_iff.1 m1
  obtain ⟨x, rfl⟩ := List.length_eq_one_iff.1 (m2 r (by simp))
  simp at m3
  refine ⟨f 0 0, F, h0, fun fuel hf => ?_⟩
  rw [h1 fuel hf, ← m3]
  rfl

/-- For all large `k`. -/
example : ∃ k₀, ∀ k ≥ k₀, (∃ (M : List (List ℝ)) (F : ℕ), (M.getD 0 []).getD 1 0 ≤ 8 / 1000 ∧
      ∀ fuel ≥ F, compare hexEnv (.many [.str "four.cif", .str "five.cif"]) none { k := k } [] fuel = .ok (.matrix ["four", "five"] ["four", "five"] M)) ∧
    (∃ (M : List (List ℝ)) (F : ℕ), (M.getD 0 []).getD 1 0 ≤ 8 / 1000 ∧
      ∀ fuel ≥ F, compare hexEnv (.one (.str "four.cif")) (some (.many [.str "four.cif", .str "five.cif"])) { k := k } [] fuel = .ok (.matrix ["four"] ["four", "five"] M)) ∧
    (∃ (M : List (List ℝ)) (F : ℕ), (M.getD 0 []).getD 1 0 ≤ 4 * (1 / 10000) + emdTol (max (hexIdeal "four").size (hexIdeal "five").size) (k * max 4 4) + 8 / 1000 ∧
      ∀ fuel ≥ F, compare hexEnv (.many [.str "four.cif", .str "five.cif"]) none { by_ := "PDD", k := k } [] fuel = .ok (.matrix ["four", "five"] ["four", "five"] M)) ∧
    ∃ (M : List (List ℝ)) (F : ℕ), (M.getD 0 []).getD 1 0 ≤ 4 * (1 / 10000) + emdTol (max (hexIdeal "four").size (hexIdeal "five").size) (k * max 4 4) + 8 / 1000 ∧
      ∀ fuel ≥ F, compare hexEnv (.one (.str "four.cif")) (some (.many [.str "four.cif", .str "five.cif"])) { by_ := "PDD", k := k } [] fuel = .ok (.matrix ["four"] ["four", "five"] M) := by
  have hp : ∀ c ∈ [hexIdeal "four"], c.ProperRounded (1 / 30000) := by simpa using hex_properRounded "four"
  have e : (hexIdeal "four").roundError (1 / 30000) + (hexIdeal "five").roundError (1 / 30000) ≤ 8 / 1000 := by
    simp only [Described.roundError, hexIdeal, hexNumbers]
    norm_num
  have hc : ∀ n, ((hexIdeal n).cell.a : ℝ) = 4 := fun n => by norm_num [hexIdeal, hexNumbers]
  obtain ⟨k₁, h₁⟩ := C98_amd_large_k_partial both_proper (by simp)
  obtain ⟨k₂, h₂⟩ := C98_amd_two_large_k_partial hp both_proper (by simp) (by simp)
  obtain ⟨k₃, h₃⟩ := C98_pdd_large_k_partial both_proper (by simp)
  obtain ⟨k₄, h₄⟩ := C98_pdd_two_large_k_partial hp both_proper (by simp) (by simp)
  refine ⟨k₁ + k₂ + k₃ + k₄, fun k hk => ⟨?_, ?_, ?_, ?_⟩⟩
  · obtain ⟨M, f, F, hM, h1, h2⟩ := h₁ hexEnv hexBackends id _ _ (.many [.str "four.cif", .str "five.cif"]) { k := k } [] _ hex_reads rfl (show upper "AMD" = "AMD" by decide +kernel) rfl
      (show k₁ ≤ k by omega) rfl hex_both both_rounds
    refine ⟨M, F, ?_, h1⟩
    rw [hM.2.2 0 1 (by simp) (by simp)]
    exact ((h2 0 1 (by simp) (by simp)).2 (hex_same _ _)).trans e
  · obtain ⟨M, f, F, hM, h1, h2⟩ := h₂ hexEnv hexBackends id _ _ (.one (.str "four.cif")) (.many [.str "four.cif", .str "five.cif"]) { k := k } [] _ _ hex_reads rfl
      (show upper "AMD" = "AMD" by decide +kernel) rfl (show k₂ ≤ k by omega) rfl hex_four (.cons four_rounds .nil) hex_both both_rounds
    refine ⟨M, F, ?_, h1⟩
    rw [hM.2.2 0 1 (by simp) (by simp)]
    exact ((h2 0 1 (by simp) (by simp)).2 (hex_same _ _)).trans e
  · obtain ⟨M, f, F, hM, h1, h2⟩ := h₃ hexEnv hexBackends id _ _ (.many [.str "four.cif", .str "five.cif"]) { by_ := "PDD", k := k } [] _ (1 / 10000) true hex_reads rfl exampleEnv_sound.sched
      (show upper "PDD" = "PDD" by decide +kernel) rfl (show k₃ ≤ k by omega) (by norm_num) ⟨rfl, rfl, ⟨none, rfl⟩, ⟨_, rfl⟩⟩ hex_both both_rounds rfl
    refine ⟨M, F, ?_, h1⟩
    rw [hM.2.2 0 1 (by simp) (by simp)]
    have := ((h2 0 1 (by simp) (by simp) _ rfl).2 (hex_same _ _)).2
    simp only [List.getElem_cons_zero, List.getElem_cons_succ, if_true, hc] at this
    exact this.trans (add_le_add le_rfl e)
  · obtain ⟨M, f, F, hM, h1, h2⟩ := h₄ hexEnv hexBackends id _ _ (.one (.str "four.cif")) (.many [.str "four.cif", .str "five.cif"]) { by_ := "PDD", k := k } [] _ _ (1 / 10000) true hex_reads rfl
      exampleEnv_sound.sched (show upper "PDD" = "PDD" by decide +kernel) rfl (show k₄ ≤ k by omega) (by norm_num) ⟨rfl, rfl, ⟨none, rfl⟩, ⟨_, rfl⟩⟩ hex_four (.cons four_rounds .nil) hex_both
      both_rounds rfl
    refine ⟨M, F, ?_, h1⟩
    rw [hM.2.2 0 1 (by simp) (by simp)]
    have := ((h2 0 1 (by simp) (by simp) _ rfl).2 (hex_same _ _)).2
    simp only [List.getElem_cons_zero, List.getElem_cons_succ, if_true, hc] at this
    exact this.trans (add_le_add le_rfl e)

/-! ### The CSD -/

/-- An entry of the CSD with the carbon atom. -/
noncomputable def hexCcdc (name : String) (p q : ℚ) : CcdcEntry :=
  ⟨name, true, false, ⟨name, false, [carbonAtom "C1" ![(p : ℝ), q, 0]], [carbonAtom "C1" ![(p : ℝ), q, 0]], [some 4, some 4, some 6, some 90, some 90, some 120],
    ["x,y,z", "-y,x-y,z", "-x+y,-x,z"]⟩⟩

theorem hex_ccdc (name : String) (p q : ℚ) : CcdcDescribes wholeEnv true "skip" false false (hexCcdc name p q) (some (hexDesc name p q)) := by
  have hl : ("C1" : String).toList.getLast? ≠ some '?' := by decide +kernel
  have hu : (hexCcdc name p q).crystal.usedAtoms true "skip" = [carbonAtom "C1" ![(p : ℝ), q, 0]] := by
    rw [CcdcCrystal.usedAtoms, hexCcdc, List.filter_cons_of_pos (by simpa using carbon_used hl)]
    simp
  have hs : wholeEnv.sites (wholeEnv.setMolecule (hexCcdc name p q).crystal [carbonAtom "C1" ![(p : ℝ), q, 0]]) = {![(p : ℝ), q, 0]} := by
    ext y
    simp [CcdcEnv.sites, wholeEnv, carbonAtom, eq_comm]
  rw [hexDesc, ← hs]
  refine .atoms (wholeEnv.setMolecule (hexCcdc name p q).crystal [carbonAtom "C1" ![(p : ℝ), q, 0]]) hexNumbers hexOps
    ⟨rfl, ?_, ?_, _, ?_, rfl⟩ ⟨rfl, (hex_written (name := name) w3333 w6667).valid⟩ (Or.inr ⟨by simp [wholeEnv, hexCcdc], ?_, ?_⟩) rfl (by simp [wholeEnv]) (by simp [wholeEnv, carbonAtom])
  · rintro - (h | h | ⟨a, ha, h⟩)
    · cases h
    · cases h
    · obtain rfl := List.mem_singleton.1 ha
      exact atom_ordered hl h
  · intro a ha
    obtain rfl := List.mem_singleton.1 ha
    exact ⟨by simp [carbonAtom], by simp [carbonAtom]⟩
  · rw [← hu]
    exact .all (by simp)
  · intro s hs
    have hs : s ∈ ["x,y,z", "-y,x-y,z", "-x+y,-x,z"] := hs
    simp only [List.mem_cons, List.not_mem_nil, or_false] at hs
    rcases hs with rfl | rfl | rfl
    · exact ⟨_, Or.inl rfl, writes_one⟩
    · exact ⟨_, Or.inr (Or.inl rfl), writes_hexA⟩
    · exact ⟨_, Or.inr (Or.inr rfl), writes_hexB⟩
  · rintro g (rfl | rfl | rfl)
    · exact ⟨"x,y,z", by simp [wholeEnv, hexCcdc], writes_one⟩
    · exact ⟨"-y,x-y,z", by simp [wholeEnv, hexCcdc], writes_hexA⟩
    · exact ⟨"-x+y,-x,z", by simp [wholeEnv, hexCcdc], writes_hexB⟩

/-- The ccdc package, with the entry in the CSD. -/
noncomputable def hexPackage : CcdcPackage where
  env := wholeEnv
  suffixes := ["cif"]
  files := fun _ => .file (.ok [])
  entry := fun _ => .item (hexCcdc "four" (3333 / 10000) (6667 / 10000))
  database := []
  search := fun _ => []

/-- `CSDReader('HEXAGO', remove_hydrogens=True)` reads one crystal, and that is the ideal one up to rounding. -/
example : ∃ x, csdReader { exampleBackends with ccdc := some hexPackage } ⟨[], []⟩ (routeKwargs false (cifKwargs "ccdc")).csd ["HEXAGO"] = .ok [x] ∧
    ∃ S : PeriodicSet 3, x = ⟨"four", 3, S⟩ ∧ RoundedSet (4 * (1 / 30000)) hexOps {![1 / 3, 2 / 3, 0]} S := by
  have ho : ReadsInputs { exampleEnv with cifReader := cifReader { exampleBackends with ccdc := some hexPackage } ⟨[], []⟩, csdReader := csdReader { exampleBackends with ccdc := some hexPackage } ⟨[], []⟩ }
      { exampleBackends with ccdc := some hexPackage } ⟨[], []⟩ (cifKwargs "ccdc") (cifOptions "ccdc") :=
    ⟨rfl, rfl, (fun x hx => (by cases hx)), ⟨rfl, rfl, rfl, rfl, rfl, rfl⟩, Or.inl rfl⟩
  obtain ⟨cs, h1, h2⟩ := C98_csd_partial (B := { exampleBackends with ccdc := some hexPackage }) (δ := 1 / 30000) (w := ⟨[], []⟩) (given := ["HEXAGO"])
    (rs := [some (hexDesc "four" (3333 / 10000) (6667 / 10000))]) (is := [hexIdeal "four"]) (ho.options.csd false) ho.disorder ho.quiet rfl
    ⟨hexPackage, rfl, ["HEXAGO"], rfl, .cons ⟨_, rfl, hex_ccdc _ _ _⟩ .nil⟩ (.cons four_rounds .nil) (by simpa using hex_properRounded "four")
  cases h2 with
  | cons h2 h3 =>
    cases h3
    obtain ⟨S, e, -, h⟩ := h2
    exact ⟨_, h1, S, e, h⟩

/-! ### Two digits -/

theorem near_hundredth {x : ℝ} {z : ℤ} (hx : x = z + 1 / 100 ∨ x = z - 1 / 100) (n : ℤ) (h : |x - n| ≤ 1 / 1000) : False := by
  rw [abs_le] at h
  rcases hx with rfl | rfl
  · have h1 : n - z < 1 := by exact_mod_cast (by push_cast; linarith [h.1] : ((n - z : ℤ) : ℝ) < 1)
    have h2 : 0 < n - z := by exact_mod_cast (by push_cast; linarith [h.2] : (0 : ℝ) < ((n - z : ℤ) : ℝ))
    omega
  · have h1 : n - z < 0 := by exact_mod_cast (by push_cast; linarith [h.1] : ((n - z : ℤ) : ℝ) < 0)
    have h2 : -1 < n - z := by exact_mod_cast (by push_cast; linarith [h.2] : (-1 : ℝ) < ((n - z : ℤ) : ℝ))
    omega

/-- With two digits, the images of the site are different. -/
theorem two_exact : ExactSites (1 / 1000) hexOps {![((33 / 100 : ℚ) : ℝ), (67 / 100 : ℚ), 0]} := by
  rintro p rfl q rfl g (rfl | rfl | rfl) h (rfl | rfl | rfl) hc i
  · exact ⟨0, by simp⟩
  · obtain ⟨n, hn⟩ := hc 1
    rw [opPoint_one, opPoint_hexA] at hn
    exact (near_hundredth (z := 1) (Or.inl (by simp; norm_num)) n hn).elim
  · obtain ⟨n, hn⟩ := hc 0
    rw [opPoint_one, opPoint_hexB] at hn
    exact (near_hundredth (z := 0) (Or.inr (by simp; norm_num)) n hn).elim
  · obtain ⟨n, hn⟩ := hc 1
    rw [opPoint_one, opPoint_hexA] at hn
    exact (near_hundredth (z := -1) (Or.inr (by simp; norm_num)) n hn).elim
  · exact ⟨0, by simp⟩
  · obtain ⟨n, hn⟩ := hc 1
    rw [opPoint_hexA, opPoint_hexB] at hn
    exact (near_hundredth (z := 0) (Or.inr (by simp; norm_num)) n hn).elim
  · obtain ⟨n, hn⟩ := hc 0
    rw [opPoint_one, opPoint_hexB] at hn
    exact (near_hundredth (z := 0) (Or.inl (by simp; norm_num)) n hn).elim
  · obtain ⟨n, hn⟩ := hc 1
    rw [opPoint_hexA, opPoint_hexB] at hn
    exact (near_hundredth (z := 0) (Or.inl (by simp; norm_num)) n hn).elim
  · exact ⟨0, by simp⟩

/-- **C98** is false without a bound on rounding: the carbon on the threefold axis, written with two digits (0.33, 0.67, 0), is not read as the one point per cell of the ideal crystal,
whatever displacement is allowed (it is read as three points). -/
theorem C98_false : ∃ s, (gemmiConvert exampleGemmi (hexBlock "two" "0.33" "0.67") false "skip").2 = .ok s ∧ (hexIdeal "two").HasCell s.set.cell ∧
    GemmiDescribes exampleGemmi id ⟨"gemmi", false, "skip", false, false, false⟩ (hexBlock "two" "0.33" "0.67") (some (hexDesc "two" (33 / 100) (67 / 100))) ∧
    (hexDesc "two" (33 / 100) (67 / 100)).Rounds (1 / 300) (hexIdeal "two") ∧ (hexIdeal "two").Proper ∧ UnitEntries (hexIdeal "two").ops ∧
    ExactSites (1 / 1000 + 8 / 300) (hexIdeal "two").ops (hexIdeal "two").sites ∧ ∀ η, ¬ RoundedSet η (hexIdeal "two").ops (hexIdeal "two").sites s.set := by
  have hra := C87_gemmi (rh := false) (d := "skip") (hex_written (name := "two") w33 w67) (hex_holds exampleGemmi rfl)
  obtain ⟨s, hs⟩ := hra.accepted (hex_kept w33 w67)
  have hcell : (hexIdeal "two").HasCell s.set.cell := hra.cell s hs
  have hgram := gram_of_cellpar (hexCell_has (e := hexIdeal "two") rfl) hcell
  have hns := nonSingular_congr hgram hexCell_nonSingular
  have hG := isSpaceGroup_congr hgram hex_group
  have hP := hra.points s hs hG (by rw [hex_sites w33 w67]; exact two_exact)
  rw [hex_sites w33 w67] at hP
  refine ⟨s, hs, hcell, hex_describes w33 w67, hex_rounds (by norm_num) (by norm_num [abs_le]) (by norm_num [abs_le]), hex_proper _, hex_entries, hex_exact _, ?_⟩
  rintro η ⟨S₀, inds, mult, hd, hp, e1, -, -, hf⟩
  have hp' : periodicPoints S₀.motif S₀.cell = crystalPoints S₀.cell {screwOne} {![1 / 3, 2 / 3, 0]} := by
    rw [hp]
    refine Set.Subset.antisymm ?_ ?_
    · rintro z ⟨p, rfl, g, hg, n, rfl⟩
      obtain ⟨m, hm⟩ := hex_image hg
      refine ⟨_, rfl, screwOne, rfl, m + n, ?_⟩
      congr 1
      funext i
      rw [hm, opPoint_one, Pi.add_apply, Int.cast_add, add_assoc]
    · rintro z ⟨p, rfl, g, rfl, n, rfl⟩
      exact ⟨_, rfl, screwOne, Or.inl rfl, n, rfl⟩
  have h1 := size_of_points (Set.finite_singleton _) (n := 1) (fun _ => ![1 / 3, 2 / 3, 0]) (fun x hx => ⟨0, by rw [Set.mem_singleton_iff.1 hx]⟩) hd.once hp'
  rw [Set.ncard_singleton, ← hf.length_eq] at h1
  have m1 : cartesian s.set.cell (fun i => opPoint screwOne ![((33 / 100 : ℚ) : ℝ), (67 / 100 : ℚ), 0] i + ((0 : Fin 3 → ℤ) i : ℝ)) ∈ periodicPoints s.set.motif s.set.cell := by
    rw [hP]
    exact ⟨_, rfl, screwOne, Or.inl rfl, 0, rfl⟩
  have m2 : cartesian s.set.cell (fun i => opPoint hexA ![((33 / 100 : ℚ) : ℝ), (67 / 100 : ℚ), 0] i + ((0 : Fin 3 → ℤ) i : ℝ)) ∈ periodicPoints s.set.motif s.set.cell := by
    rw [hP]
    exact ⟨_, rfl, hexA, Or.inr (Or.inl rfl), 0, rfl⟩
  obtain ⟨⟨i, n⟩, hi⟩ := m1
  obtain ⟨⟨j, m⟩, hj⟩ := m2
  obtain rfl : i = j := Fin.ext (by have := i.2; have := j.2; omega)
  have key : ∑ a, ((opPoint screwOne ![((33 / 100 : ℚ) : ℝ), (67 / 100 : ℚ), 0] a - n a) - (opPoint hexA ![((33 / 100 : ℚ) : ℝ), (67 / 100 : ℚ), 0] a - m a)) • s.set.cell a = 0 := by
    funext c
    have hi := congrFun hi c
    have hj := congrFun hj c
    simp only [sitePos, cartesian, Pi.zero_apply, Int.cast_zero, add_zero] at hi hj
    simp only [Finset.sum_apply, Pi.smul_apply, smul_eq_mul, Pi.zero_apply, Fin.sum_univ_three] at hi hj ⊢
    linarith
  have h2 := Fintype.linearIndependent_iff.1 hns _ key 1
  rw [opPoint_one, opPoint_hexA] at h2
  refine near_hundredth (x := 101 / 100) (z := 1) (Or.inl (by norm_num)) (n 1 - m 1) ?_
  simp at h2
  rw [abs_le]
  push_cast
  constructor <;> linarith

end Amd
