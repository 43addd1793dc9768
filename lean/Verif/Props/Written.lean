import Verif.Props.Crystal
import Verif.Props.CifText
import Verif.Props.CcdcPoints
import Verif.Props.Utils
import Verif.Props.Explicit
import Verif.Spec.Written

/-!
# A written CIF block is read as it is written: C80
-/

namespace Amd

open Classical

variable {env : GemmiEnv} {b : GemmiBlock} {tags : List String} {rows : List (List String)} {rh : Bool} {d : String} {p : CellNumbers} {G : Set (FracOp 3)}

/-! ### Texts -/

theorem str2float_written {s : String} {q : ℚ} (h : WritesNumber s q) : str2float s = .ok (.num q) := by
  obtain ⟨n, hn, rfl, rfl | ⟨e, he, rfl⟩⟩ := h
  · exact C49_plain_partial hn
  · exact C49_uncertainty_partial hn e he

theorem WritesNumber.unique {s : String} {q q' : ℚ} (h : WritesNumber s q) (h' : WritesNumber s q') : q = q' := by
  have := (str2float_written h).symm.trans (str2float_written h')
  simpa using this

theorem parse_written {s : String} {g : FracOp 3} (h : WritesOp s g) : ∃ o, parseSitesym s = .ok o ∧ (o.affine.rot, o.affine.trans) = g := by
  obtain ⟨t, w, h1, h2, rfl, rfl⟩ := h
  refine ⟨_, C43_parse (h1 0) (h1 1) (h1 2) (h2 0) (h2 1) (h2 2), ?_⟩
  refine Prod.ext (funext fun i => funext fun j => ?_) (funext fun i => ?_)
  · fin_cases i <;> rfl
  · fin_cases i <;> rfl

theorem mapM_written {texts : List String} (h : ∀ s ∈ texts, ∃ g, WritesOp s g) :
    ∃ ops, texts.mapM parseSitesym = .ok ops ∧ ∀ g : FracOp 3, (∃ o ∈ ops.map SymOp.affine, g = (o.rot, o.trans)) ↔ ∃ s ∈ texts, WritesOp s g := by
  induction texts with
  | nil => exact ⟨[], rfl, by simp⟩
  | cons s l ih =>
    obtain ⟨g, hg⟩ := h s (by simp)
    obtain ⟨o, ho, e⟩ := parse_written hg
    obtain ⟨ops, h1, h2⟩ := ih fun s hs => h s (by simp [hs])
    refine ⟨o :: ops, by rw [List.mapM_cons, ho, h1]; rfl, fun g' => ?_⟩
    rw [List.map_cons, List.exists_mem_cons_iff, List.exists_mem_cons_iff, h2 g']
    refine or_congr ?_ Iff.rfl
    constructor
    · rintro rfl; rw [e]; exact hg
    · intro hg'
      obtain ⟨o', ho', e'⟩ := parse_written hg'
      rw [ho] at ho'
      rw [Except.ok.inj ho', e']

theorem find_first {f : String → List String} {pre post : List String} {tag : String} (h1 : ∀ t ∈ pre, f t = []) (h2 : f tag ≠ []) :
    ((pre ++ tag :: post).map f).find? (fun l => !l.isEmpty) = some (f tag) := by
  induction pre with
  | nil =>
    have : (f tag).isEmpty = false := by simpa using h2
    simp [this]
  | cons t l ih =>
    rw [List.cons_append, List.map_cons, List.find?_cons, h1 t (by simp)]
    simpa using ih fun t ht => h1 t (by simp [ht])

theorem findSome_first {α : Type} {f : String → Option α} {pre post : List String} {x : String} {a : α} (h1 : ∀ t ∈ pre, f t = none) (h2 : f x = some a) :
    (pre ++ x :: post).findSome? f = some a := by
  induction pre with
  | nil => simp [h2]
  | cons t l ih =>
    rw [List.cons_append, List.findSome?_cons, h1 t (by simp)]
    exact ih fun t ht => h1 t (by simp [ht])

theorem symmetry_none (h : ListsNone b) : (symopTags.map b.find).find? (fun l => !l.isEmpty) = none := by
  obtain ⟨h1, h2, h3⟩ := h
  simp [symopTags, h1, h2, h3]

theorem groupNames_eq : spacegroupNameTags.flatMap b.find = groupNames b := by simp [spacegroupNameTags, groupNames]

theorem groupNumber_eq : spacegroupNumberTags.findSome? b.findValue = groupNumber b := by
  rw [spacegroupNumberTags, groupNumber, List.findSome?_cons, List.findSome?_cons]
  cases b.findValue "_space_group_IT_number" with
  | some v => rfl
  | none => cases b.findValue "_symmetry_Int_Tables_number" <;> rfl

theorem described_ops (h : DescribesOps env b G) : ∃ ws ops, blockSymmetry env b = (ws, .ok ops) ∧ opSet ops = G := by
  cases h with
  | listed texts G h h1 h2 =>
    obtain ⟨hne, pre, tag, post, e, hpre, rfl⟩ := h
    obtain ⟨ops, ho, hs⟩ := mapM_written fun s hs => (h1 s hs).imp fun g hg => hg.2
    refine ⟨[], ops.map SymOp.affine, ?_, ?_⟩
    · rw [blockSymmetry, show symopTags = pre ++ tag :: post from e, find_first hpre hne]
      simp only [ho, Except.map]
    · ext g
      refine (hs g).trans ⟨?_, h2 g⟩
      rintro ⟨s, hs', hg⟩
      obtain ⟨g', hg', hw⟩ := h1 s hs'
      obtain ⟨o, e1, rfl⟩ := parse_written hg
      obtain ⟨o', e2, rfl⟩ := parse_written hw
      rw [e1] at e2
      rw [Except.ok.inj e2]
      exact hg'
  | named h pre post name ops hn h1 h2 =>
    refine ⟨[], ops, ?_, rfl⟩
    rw [blockSymmetry, symmetry_none h]
    simp only
    rw [groupNames_eq, hn, findSome_first h1 h2]
  | numbered h hn v n ops h1 h2 h3 =>
    refine ⟨[], ops, ?_, rfl⟩
    rw [blockSymmetry, symmetry_none h]
    simp only
    rw [groupNames_eq, List.findSome?_eq_none_iff.2 hn, groupNumber_eq, h1]
    simp only [h2, h3]
  | primitive h hn ops h1 h2 =>
    refine ⟨[⟨"UserWarning", "no symmetry data found, defaulting to P1"⟩], ops, ?_, rfl⟩
    rw [blockSymmetry, symmetry_none h]
    simp only
    rw [groupNames_eq, List.findSome?_eq_none_iff.2 hn, groupNumber_eq, h1]
    simp only [h2]

/-! ### The cell -/

theorem snapAngle_right {θ : ℚ} (h : θ = 90 ∨ 1 / 2 ^ 45 ≤ |θ - 90|) : snapAngle (θ : ℝ) = θ := by
  rcases C25_snap (θ : ℝ) with h1 | ⟨h1, h2⟩
  · exact h1
  · rcases h with rfl | h
    · rw [h1]; norm_num
    · exfalso
      have h' : ((1 / 2 ^ 45 : ℚ) : ℝ) ≤ ((|θ - 90| : ℚ) : ℝ) := by exact_mod_cast h
      have e : (2 : ℝ) * 2 ^ (-46 : ℤ) = 1 / 2 ^ 45 := by norm_num
      rw [e] at h2
      push_cast at h'
      linarith

theorem numbers_cell (h : p.Valid) : ∃ cell, cellOfNumbers [p.a, p.b, p.c, p.α, p.β, p.γ] = .ok cell ∧ HasCellpar cell p.a p.b p.c p.α p.β p.γ := by
  obtain ⟨⟨l1, l2, l3⟩, ⟨⟨a1, a2⟩, ⟨a3, a4⟩, a5, a6⟩, hr, hc⟩ := h
  have c1 : (0 : ℝ) < p.α := by exact_mod_cast a1
  have c2 : (p.α : ℝ) < 180 := by exact_mod_cast a2
  have c3 : (0 : ℝ) < p.β := by exact_mod_cast a3
  have c4 : (p.β : ℝ) < 180 := by exact_mod_cast a4
  have c5 : (0 : ℝ) < p.γ := by exact_mod_cast a5
  have c6 : (p.γ : ℝ) < 180 := by exact_mod_cast a6
  have hp : (Cellpar.mk (p.a : ℝ) p.b p.c p.α p.β p.γ).InRange :=
    ⟨Rat.cast_pos.2 l1, Rat.cast_pos.2 l2, Rat.cast_pos.2 l3, ⟨c1.le, c2.le⟩, ⟨c3.le, c4.le⟩, c5.le, c6.le⟩
  have q1 := snapAngle_right (hr p.α (by simp))
  have q2 := snapAngle_right (hr p.β (by simp))
  have q3 := snapAngle_right (hr p.γ (by simp))
  obtain ⟨cell, hcell⟩ := (C25_exists hp c5.ne' c6.ne).1.2 (by simpa only [q1, q2, q3] using hc)
  have := C25_cell hp hcell
  refine ⟨cell, ?_, by simpa only [q1, q2, q3] using this⟩
  simp only [cellOfNumbers]
  rw [hcell]

theorem written_numbers (h : WrittenBlock env b tags rows p G) : blockCell b = cellOfNumbers [p.a, p.b, p.c, p.α, p.β, p.γ] := by
  obtain ⟨s1, e1, w1⟩ := h.len_a
  obtain ⟨s2, e2, w2⟩ := h.len_b
  obtain ⟨s3, e3, w3⟩ := h.len_c
  obtain ⟨s4, e4, w4⟩ := h.alpha
  obtain ⟨s5, e5, w5⟩ := h.beta
  obtain ⟨s6, e6, w6⟩ := h.gamma
  have hm : cellparTags.mapM b.findValue = some [s1, s2, s3, s4, s5, s6] := by
    simp [cellparTags, e1, e2, e3, e4, e5, e6]
  have hf : [s1, s2, s3, s4, s5, s6].mapM str2float = .ok [.num p.a, .num p.b, .num p.c, .num p.α, .num p.β, .num p.γ] := by
    simp [str2float_written w1, str2float_written w2, str2float_written w3, str2float_written w4, str2float_written w5, str2float_written w6]
    rfl
  have hfin : [PyFloat.num p.a, .num p.b, .num p.c, .num p.α, .num p.β, .num p.γ].mapM PyFloat.finite = some [p.a, p.b, p.c, p.α, p.β, p.γ] := rfl
  have hn : nanSum [PyFloat.num p.a, .num p.b, .num p.c, .num p.α, .num p.β, .num p.γ] = false := by simp [nanSum]
  rw [blockCell, hm]
  simp only [hf, hn, hfin]
  rfl

theorem written_cell (h : WrittenBlock env b tags rows p G) : ∃ cell, blockCell b = .ok cell ∧ HasCellpar cell p.a p.b p.c p.α p.β p.γ := by
  rw [written_numbers h]
  exact numbers_cell h.valid

/-! ### The table -/

theorem WrittenBlock.readable (h : WrittenBlock env b tags rows p G) : Readable tags rows := fun r hr tag ht s hs =>
  (h.numbers r hr tag ht s hs).elim fun _ hq => ⟨_, str2float_written hq⟩

theorem coordinate_tag (h : AtomTable tags rows) (i : Fin 3) : ["_atom_site_fract_x", "_atom_site_fract_y", "_atom_site_fract_z"][i] ∈ tags := by
  fin_cases i
  exacts [h.x, h.y, h.z]

theorem coordinate_mem (i : Fin 3) :
    ["_atom_site_fract_x", "_atom_site_fract_y", "_atom_site_fract_z"][i] ∈
      ["_atom_site_fract_x", "_atom_site_fract_y", "_atom_site_fract_z", "_atom_site_occupancy"] := by
  fin_cases i <;> simp

/-- Each row has written coordinates. -/
theorem written_point (h : WrittenBlock env b tags rows p G) {r : List String} (hr : r ∈ rows) : ∃ x, WrittenPoint tags r x := by
  have : ∀ i : Fin 3, ∃ x : ℝ, ∃ s, ∃ q : ℚ, field tags r (["_atom_site_fract_x", "_atom_site_fract_y", "_atom_site_fract_z"][i]) = some s ∧ WritesNumber s q ∧ x = q := by
    intro i
    have hs := field_some h.table.nodup (h.table.width r hr) (coordinate_tag h.table i)
    obtain ⟨q, hq⟩ := h.numbers r hr _ (coordinate_mem i) _ hs
    exact ⟨q, _, q, hs, hq, rfl⟩
  choose x hx using this
  exact ⟨x, hx⟩

theorem written_hasCoordinates {r : List String} {x : Pt 3 ℝ} (hx : WrittenPoint tags r x) : HasCoordinates tags r := by
  intro tag ht
  obtain ⟨i, rfl⟩ : ∃ i : Fin 3, tag = ["_atom_site_fract_x", "_atom_site_fract_y", "_atom_site_fract_z"][i] := by
    simp only [List.mem_cons, List.not_mem_nil, or_false] at ht
    rcases ht with rfl | rfl | rfl
    exacts [⟨0, rfl⟩, ⟨1, rfl⟩, ⟨2, rfl⟩]
  obtain ⟨s, q, h1, h2, -⟩ := hx i
  exact ⟨s, q, h1, str2float_written h2⟩

theorem written_disordered (h : WrittenBlock env b tags rows p G) {r : List String} (hr : r ∈ rows) :
    DisorderedRow env.asString tags r ↔ WrittenDisordered env.asString tags r := by
  refine or_congr ?_ Iff.rfl
  constructor
  · rintro ⟨s, hs, h1⟩
    obtain ⟨q, hq⟩ := h.numbers r hr _ (by simp) s hs
    have e := str2float_written hq
    rw [e] at h1
    rcases h1 with h1 | ⟨q', h1, h2⟩
    · cases h1
    · obtain rfl : q = q' := by simpa using h1
      exact ⟨s, q, hs, hq, h2⟩
  · rintro ⟨s, q, hs, hq, h1⟩
    exact ⟨s, hs, Or.inr ⟨q, str2float_written hq, h1⟩⟩

theorem written_used (h : WrittenBlock env b tags rows p G) {r : List String} (hr : r ∈ rows) :
    UsedRow env tags rh d r ↔ WrittenUsed env.asString tags rh d r := by
  obtain ⟨x, hx⟩ := written_point h hr
  rw [UsedRow, written_disordered h hr, WrittenUsed]
  exact ⟨fun h => h.2, fun h => ⟨written_hasCoordinates hx, h⟩⟩

/-- The point of the unit cell is that of the row, modulo the lattice. -/
theorem rowPoint_written {r : List String} {x y : Pt 3 ℝ} (hy : RowPoint tags r y) (hx : WrittenPoint tags r x) : IntEq x y := by
  choose s q e1 e2 e3 using hx
  choose s' q' n e1' e2' e3' using fun i => (hy i).2.2
  refine ⟨n, fun i => ?_⟩
  have h1 : s i = s' i := Option.some.inj ((e1 i).symm.trans (e1' i))
  have h2 := e2' i
  rw [← h1, str2float_written (e2 i)] at h2
  have h3 : q i = q' i := by simpa using h2
  rw [e3 i, h3, e3' i]

theorem sites_written (h : WrittenBlock env b tags rows p G) :
    (∀ x ∈ WrittenSites env.asString tags rows rh d, ∃ y ∈ cifSites env tags rows rh d, IntEq x y) ∧
    ∀ y ∈ cifSites env tags rows rh d, ∃ x ∈ WrittenSites env.asString tags rows rh d, IntEq x y := by
  constructor
  · rintro x ⟨r, hr, hu, hx⟩
    have hu' := (written_used h hr).2 hu
    have := usedPoints_spec h.table hu'
    exact ⟨_, ⟨r, hr, hu', this⟩, rowPoint_written this hx⟩
  · rintro y ⟨r, hr, hu, hy⟩
    obtain ⟨x, hx⟩ := written_point h hr
    exact ⟨x, ⟨r, hr, (written_used h hr).1 hu, hx⟩, rowPoint_written hy hx⟩

theorem crystal_intEq {cell : Fin 3 → Pt 3 ℝ} (hl : ∀ g ∈ G, ∀ i j, ∃ n : ℤ, g.1 i j = n) {P Q : Set (Pt 3 ℝ)} (h1 : ∀ x ∈ P, ∃ y ∈ Q, IntEq x y) :
    crystalPoints cell G P ⊆ crystalPoints cell G Q := by
  rintro q ⟨x, hx, g, hg, n, rfl⟩
  obtain ⟨y, hy, e⟩ := h1 x hx
  obtain ⟨m, hm⟩ := opPoint_congr hl hg e
  refine ⟨y, hy, g, hg, fun i => m i + n i, ?_⟩
  congr 1
  funext i
  rw [hm i]
  push_cast
  ring

theorem exact_intEq (hl : ∀ g ∈ G, ∀ i j, ∃ n : ℤ, g.1 i j = n) {tol : ℝ} {P Q : Set (Pt 3 ℝ)} (h1 : ∀ y ∈ Q, ∃ x ∈ P, IntEq x y)
    (hx : ExactSites tol G P) : ExactSites tol G Q := by
  intro y hy y' hy' g hg g' hg' hc i
  obtain ⟨x, hx0, e⟩ := h1 y hy
  obtain ⟨x', hx0', e'⟩ := h1 y' hy'
  obtain ⟨m, hm⟩ := opPoint_congr hl hg e
  obtain ⟨m', hm'⟩ := opPoint_congr hl hg' e'
  obtain ⟨n, hn⟩ := hx x hx0 x' hx0' g hg g' hg' (fun j => by
    obtain ⟨n, hn⟩ := hc j
    refine ⟨n + m j - m' j, ?_⟩
    rw [hm j, hm' j]
    push_cast
    have e : opPoint g y j + m j - (opPoint g' y' j + m' j) - ((n : ℝ) + m j - m' j) = opPoint g y j - opPoint g' y' j - n := by ring
    rw [e]
    exact hn) i
  refine ⟨n - m i + m' i, ?_⟩
  rw [hm i, hm' i] at hn
  push_cast
  linarith

/-! ### Elements -/

theorem lookup_none {l : List (String × ℕ)} {s : String} (h : s ∉ l.map Prod.fst) : l.lookup s = none := by
  induction l with
  | nil => rfl
  | cons x l ih =>
    rw [List.map_cons, List.mem_cons, not_or] at h
    rw [List.lookup_cons, show (s == x.1) = false by simpa using h.1]
    exact ih h.2

/-- **C80** The atomic number of each element symbol is its place in the periodic table; D counts as hydrogen and anything else has number 0. -/
theorem C80_elements (s : String) : IsAtomicNumber s (atomicNumber s) := by
  by_cases h : s ∈ atomicNumbers.map Prod.fst
  · by_cases hD : s = "D"
    · subst hD
      exact Or.inl ⟨rfl, by decide +kernel⟩
    · by_cases he : s = ""
      · subst he
        exact Or.inr (Or.inr ⟨hD, by decide +kernel, by decide +kernel⟩)
      · have key : ∀ t ∈ atomicNumbers.map Prod.fst, t ≠ "D" → t ≠ "" → elementSymbols[atomicNumber t - 1]? = some t ∧ 1 ≤ atomicNumber t := by
          decide +kernel
        obtain ⟨h1, h2⟩ := key s h hD he
        exact Or.inr (Or.inl ⟨atomicNumber s - 1, by omega, h1⟩)
  · refine Or.inr (Or.inr ⟨?_, ?_, ?_⟩)
    · rintro rfl; exact h (by decide +kernel)
    · intro hs
      have key : ∀ t ∈ elementSymbols, t ∈ atomicNumbers.map Prod.fst := by decide +kernel
      exact h (key s hs)
    · rw [atomicNumber, lookup_none h]; rfl

/-! ### C80 -/

/-- **C80** The block is accepted if a site is left; with `disorder='skip'` no site may be disordered. -/
theorem C80_accepted (h : WrittenBlock env b tags rows p G) (hd : d = "skip" → ∀ r ∈ rows, ¬ WrittenDisordered env.asString tags r)
    (hs : (WrittenSites env.asString tags rows rh d).Nonempty) : ∃ ws s, gemmiConvert env (b.withRows tags rows) rh d = (ws, .ok s) := by
  obtain ⟨cell, hcell, -⟩ := written_cell h
  obtain ⟨ws, ops, hops, -⟩ := described_ops h.ops
  obtain ⟨x, r, hr, hu, -⟩ := hs
  refine (C47_accepted h.table h.readable hcell hops fun hx r hr => ?_).1 ⟨r, hr, (written_used h hr).2 hu⟩
  rw [written_disordered h hr]
  exact hd hx r hr

/-- **C80** With `disorder='skip'`, a disordered site makes the reader reject the block. -/
theorem C80_disordered (h : WrittenBlock env b tags rows p G) (hd : ∃ r ∈ rows, WrittenDisordered env.asString tags r) :
    gemmiConvert env (b.withRows tags rows) rh "skip" =
      ([], .error (.parse (b.name ++ " has disorder, pass disorder='ordered_sites' or 'all_sites' to remove/ignore disorder"))) := by
  obtain ⟨cell, hcell, -⟩ := written_cell h
  obtain ⟨r, hr, hx⟩ := hd
  rcases C46_skip_rejects (env := env) (b := b) (rh := rh) h.table h.readable ⟨r, hr, (written_disordered h hr).2 hx⟩ with ⟨e, he, -⟩ | h1
  · rw [hcell] at he; cases he
  · exact h1

/-- **C80** If no site is left, the reader rejects the block. -/
theorem C80_empty (h : WrittenBlock env b tags rows p G) (hd : d = "skip" → ∀ r ∈ rows, ¬ WrittenDisordered env.asString tags r)
    (hs : WrittenSites env.asString tags rows rh d = ∅) :
    gemmiConvert env (b.withRows tags rows) rh d = ([], .error (.parse (b.name ++ " has no valid sites"))) := by
  obtain ⟨cell, hcell, -⟩ := written_cell h
  obtain ⟨ws, ops, hops, -⟩ := described_ops h.ops
  refine (C47_accepted h.table h.readable hcell hops fun hx r hr => ?_).2 ?_
  · rw [written_disordered h hr]
    exact hd hx r hr
  · rintro ⟨r, hr, hu⟩
    obtain ⟨x, hx⟩ := written_point h hr
    have : x ∈ WrittenSites env.asString tags rows rh d := ⟨r, hr, (written_used h hr).1 hu, hx⟩
    rw [hs] at this
    exact this

theorem skip_ordered (h : WrittenBlock env b tags rows p G) {ws : List Warning} {s : ReadSet}
    (hs : gemmiConvert env (b.withRows tags rows) rh d = (ws, .ok s)) : d = "skip" → ∀ r ∈ rows, ¬ DisorderedRow env.asString tags r := by
  rintro rfl r hr hx
  rw [C80_disordered h ⟨r, hr, (written_disordered h hr).1 hx⟩] at hs
  cases hs

theorem written_shape (h : WrittenBlock env b tags rows p G) {ws : List Warning} {s : ReadSet}
    (hs : gemmiConvert env (b.withRows tags rows) rh d = (ws, .ok s)) {ws' : List Warning} {ops : List (AffineOp 3)}
    (hops : blockSymmetry env b = (ws', .ok ops)) {used : List (List String)} (hu : used = rows.filter fun r => decide (UsedRow env tags rh d r)) :
    blockCell b = .ok s.set.cell ∧ ∃ A T, s = assemble b.name s.set.cell (expandAsymUnit A ops eqSiteTol (decide (d ≠ "all_sites"))).1
        (expandAsymUnit A ops eqSiteTol (decide (d ≠ "all_sites"))).2.1 T ∧
      ∀ t (ht : t < A.length), ∃ r ∈ used, A[t] = toPt (rowCoord tags r) ∧ T.getD t 0 = rowType env tags r := by
  rw [convert_used h.table h.readable (skip_ordered h hs), convertUsed, ← hu] at hs
  cases hc : blockCell b with
  | error e => rw [hc] at hs; cases hs
  | ok cell =>
    rw [hc] at hs
    simp only at hs
    split at hs
    · cases hs
    · rw [finishBlock] at hs
      simp only [hops] at hs
      have e := (Except.ok.inj (congrArg Prod.snd hs)).symm
      have ec : s.set.cell = cell := by rw [e]; rfl
      refine ⟨by rw [ec], _, _, by rw [ec]; exact e, fun t ht => ?_⟩
      by_cases hall : d = "all_sites"
      · simp only [removeOverlaps, hall, ne_eq, not_true_eq_false, if_false] at ht ⊢
        have ht' : t < used.length := by simpa using ht
        refine ⟨used[t], List.getElem_mem _, by simp, ?_⟩
        rw [List.getD_eq_getElem _ _ (by simpa using ht'), List.getElem_map]
      · simp only [removeOverlaps, hall, ne_eq, not_false_eq_true, if_true] at ht ⊢
        obtain ⟨j, j1, j2, e1, e2⟩ := select_pairs (used.map fun r => toPt (rowCoord tags r)) (used.map (rowType env tags))
          (uniqueSites eqSiteTol (used.map fun r => toPt (rowCoord tags r))) (by simp) t ht
        simp only [List.length_map] at j1 j2
        exact ⟨used[j], List.getElem_mem _, by rw [e1, List.getElem_map], by rw [e2, List.getElem_map]⟩

/-- **C80** The cell has the lengths and angles that are written. -/
theorem C80_cell (h : WrittenBlock env b tags rows p G) {ws : List Warning} {s : ReadSet} (hs : gemmiConvert env (b.withRows tags rows) rh d = (ws, .ok s)) :
    HasCellpar s.set.cell p.a p.b p.c p.α p.β p.γ := by
  obtain ⟨cell, hcell, hp⟩ := written_cell h
  obtain ⟨ws', ops, hops, -⟩ := described_ops h.ops
  obtain ⟨h1, -⟩ := written_shape h hs hops rfl
  rw [hcell] at h1
  rw [← Except.ok.inj h1]
  exact hp

/-- **C80** The points are those of the crystal: all images of the written sites under the written operations. The operations form a space group of the cell,
and different images of sites are not within the tolerance 0.001 of each other. -/
theorem C80_points (h : WrittenBlock env b tags rows p G) {ws : List Warning} {s : ReadSet} (hs : gemmiConvert env (b.withRows tags rows) rh d = (ws, .ok s))
    (hG : IsSpaceGroup s.set.cell G) (hx : ExactSites (1 / 1000) G (WrittenSites env.asString tags rows rh d)) :
    periodicPoints s.set.motif s.set.cell = crystalPoints s.set.cell G (WrittenSites env.asString tags rows rh d) := by
  obtain ⟨ws', ops, hops, rfl⟩ := described_ops h.ops
  obtain ⟨h1, h2⟩ := sites_written (rh := rh) (d := d) h
  rw [C65_points h.table h.readable hs hops hG (exact_intEq hG.lattice h2 hx)]
  refine Set.Subset.antisymm (crystal_intEq hG.lattice fun y hy => ?_) (crystal_intEq hG.lattice h1)
  obtain ⟨x, hx, e⟩ := h2 y hy
  exact ⟨x, hx, e.symm⟩

/-- **C80** No point is listed twice and the asymmetric unit and the multiplicities are those of symmetries of the crystal (not for `'all_sites'`). -/
theorem C80_once (h : WrittenBlock env b tags rows p G) {ws : List Warning} {s : ReadSet} (hs : gemmiConvert env (b.withRows tags rows) rh d = (ws, .ok s))
    (hd : d ≠ "all_sites") (hcell : NonSingular s.set.cell) (hG : IsSpaceGroup s.set.cell G)
    (hx : ExactSites (1 / 1000) G (WrittenSites env.asString tags rows rh d)) :
    Function.Injective (sitePos s.set.motif s.set.cell) ∧
    ∃ inds mult, s.set.asymUnit = some (inds.map Fin.val) ∧ s.set.multiplicities = some mult ∧ IsAsymUnit s.set.motif s.set.cell inds mult := by
  obtain ⟨ws', ops, hops, rfl⟩ := described_ops h.ops
  have hx' := exact_intEq hG.lattice (sites_written (rh := rh) (d := d) h).2 hx
  exact ⟨C65_once h.table h.readable hd hs hops hcell hG hx', C65_asym_unit h.table h.readable hs hops hcell hG hx'⟩

/-- **C80** There is a type for each point of the motif: the atomic number of the element in a row whose site an operation maps to this point. -/
theorem C80_types (h : WrittenBlock env b tags rows p G) {ws : List Warning} {s : ReadSet} (hs : gemmiConvert env (b.withRows tags rows) rh d = (ws, .ok s))
    (hG : IsSpaceGroup s.set.cell G) :
    s.types.length = s.set.motif.length ∧ ∀ i (h1 : i < s.types.length) (h2 : i < s.set.motif.length), ∃ r ∈ rows, WrittenUsed env.asString tags rh d r ∧
      (∃ x, WrittenPoint tags r x ∧ s.set.motif[i] ∈ crystalPoints s.set.cell G {x}) ∧
      ∃ sym, ElementText (rowText env.asString tags r) sym ∧ IsAtomicNumber sym s.types[i] := by
  obtain ⟨ws', ops, hops, rfl⟩ := described_ops h.ops
  obtain ⟨-, A, T, e, hAT⟩ := written_shape h hs hops rfl
  revert e
  generalize decide (d ≠ "all_sites") = u
  intro e
  obtain ⟨i1, i2⟩ := C44_images A ops eqSiteTol u
  have hm : s.set.motif = (expandAsymUnit A ops eqSiteTol u).1.map (cartesian s.set.cell) := by rw [e]; rfl
  have ht : s.types = (expandAsymUnit A ops eqSiteTol u).2.1.map fun i => T.getD i 0 := by rw [e]; rfl
  refine ⟨by rw [hm, ht, List.length_map, List.length_map, i1], fun i h1 h2 => ?_⟩
  have h1' : i < (expandAsymUnit A ops eqSiteTol u).2.1.length := by rw [ht] at h1; simpa using h1
  obtain ⟨hi, o, ho, him⟩ := i2 i (by rw [← i1]; exact h1') h1'
  obtain ⟨r, hr, e1, e2⟩ := hAT _ hi
  obtain ⟨hr, hu⟩ := List.mem_filter.1 hr
  rw [decide_eq_true_iff] at hu
  obtain ⟨x, hx⟩ := written_point h hr
  refine ⟨r, hr, (written_used h hr).1 hu, ⟨x, hx, ?_⟩, _, elementSymbol_spec _, ?_⟩
  · have hg : ((o.rot, o.trans) : FracOp 3) ∈ opSet ops := ⟨o, ho, rfl⟩
    rw [e1] at him
    obtain ⟨-, n, hn⟩ := isImage_intEq.1 him
    obtain ⟨m, hm'⟩ := opPoint_congr hG.lattice hg (rowPoint_written (usedPoints_spec h.table hu) hx)
    refine ⟨_, rfl, _, hg, fun i => - m i - n i, ?_⟩
    simp only [hm, List.getElem_map]
    congr 1
    funext k
    rw [hm' k, hn k]
    push_cast
    ring
  · have : s.types[i] = rowType env tags r := by
      simp only [ht, List.getElem_map]
      exact e2
    rw [this, rowType_text env h.table.nodup (h.table.width r hr)]
    exact C80_elements _

/-- **C80** (partial) The AMD of the set that the reader makes of the block is the AMD of any other description of the crystal that is written. Missing as for
C01. -/
theorem C80_amd_partial (h : WrittenBlock env b tags rows p G) {ws : List Warning} {s : ReadSet}
    (hs : gemmiConvert env (b.withRows tags rows) rh d = (ws, .ok s)) (hd : d ≠ "all_sites") (hcell : NonSingular s.set.cell) (hG : IsSpaceGroup s.set.cell G)
    (hx : ExactSites (1 / 1000) G (WrittenSites env.asString tags rows rh d))
    {motif : List (Pt 3 ℝ)} {cell : Fin 3 → Pt 3 ℝ} (hcell' : NonSingular cell) (hinj : Function.Injective (sitePos motif cell)) (hne : motif ≠ [])
    (hP : periodicPoints motif cell = crystalPoints s.set.cell G (WrittenSites env.asString tags rows rh d))
    {k fuel fuel' : ℕ} (hk : Covered s.set.motif s.set.cell (k + 1)) (hk' : Covered motif cell (k + 1)) {a a' : List ℝ}
    (ha : AMD s.set k fuel = .ok a) (ha' : AMD { motif := motif, cell := cell } k fuel' = .ok a') : a = a' := by
  rw [← C80_points h hs hG hx] at hP
  obtain ⟨ws', ops, hops, rfl⟩ := described_ops h.ops
  have hx' := exact_intEq hG.lattice (sites_written (rh := rh) (d := d) h).2 hx
  rw [C65_points h.table h.readable hs hops hG hx'] at hP
  exact C65_amd_explicit_partial h.table h.readable hd hs hops hcell hG hx' hcell' hinj hne hP hk hk' ha ha'

end Amd
