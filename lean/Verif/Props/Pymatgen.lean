import Verif.Props.AseAtoms

/-!
# pymatgen Structure objects: C70, C71, C72, C73
-/

namespace Amd

variable {conv : PmgStructure → Except Exc PmgStructure} {st st' c : PmgStructure} {rh : Bool} {d : String} {ws : List Warning} {s : FullSet}

/-- A site with exactly one species, fully occupied. -/
def PmgSite.Ordered (x : PmgSite) : Prop := ∃ sp, x.species = [(sp, 1)]

/-- The positions of the sites. -/
def PmgStructure.positions (st : PmgStructure) : List (Pt 3 ℝ) := st.sites.map PmgSite.pos

/-! ### Helpers -/

theorem isOrdered_iff (x : PmgSite) : x.isOrdered = true ↔ x.Ordered := by
  rcases x with ⟨_ | ⟨⟨sp, o⟩, _ | ⟨y, l⟩⟩, p⟩
  · simp [PmgSite.isOrdered, PmgSite.Ordered]
  · simp [PmgSite.isOrdered, PmgSite.Ordered]
  · simp [PmgSite.isOrdered, PmgSite.Ordered]

theorem structure_ordered (st : PmgStructure) : st.isOrdered = true ↔ ∀ x ∈ st.sites, x.Ordered := by
  simp [PmgStructure.isOrdered, isOrdered_iff]

/-- The structure without hydrogen and deuterium, if these are to be removed. -/
def PmgStructure.strip (st : PmgStructure) (rh : Bool) : PmgStructure := if rh then st.removeSpecies [⟨"H", none⟩, ⟨"D", none⟩] else st

theorem removeDisordered_sites (st : PmgStructure) : st.removeDisordered = { st with sites := st.sites.filter fun x => !decide (x.numAtoms < 1) } := by
  rw [PmgStructure.removeDisordered, deleteAt_indicesOf]

/-- The structure that the symmetry analysis gets. -/
def PmgStructure.used (st : PmgStructure) (rh : Bool) (d : String) : PmgStructure :=
  if d = "ordered_sites" then (st.strip rh).removeDisordered else st.strip rh

theorem pmg_convert (conv : PmgStructure → Except Exc PmgStructure) (st : PmgStructure) (rh : Bool) (d : String) :
    pmgStructureConvert conv st rh d =
      if d = "skip" ∧ (st.strip rh).isOrdered = false then (st.strip rh, [], .error (.parse pmgDisorderText))
      else
        match conv (st.used rh d) with
        | .error e => (st.used rh d, [], .error e)
        | .ok c =>
          match c.atomicNumbers with
          | .error e => (st.used rh d, [], .error e)
          | .ok types =>
            (st.used rh d, [], .ok
              { set := { motif := c.sites.map fun x => toCartesian c.cell x.pos, cell := c.cell, asymUnit := some (List.range c.sites.length),
                         multiplicities := some (List.replicate c.sites.length 1) }
                types := some types }) := rfl

theorem pmg_fst (h : pmgStructureConvert conv st rh d = (st', ws, .ok s)) : st' = st.used rh d := by
  rw [pmg_convert] at h
  split at h
  · cases h
  · split at h
    · cases h
    · split at h
      · cases h
      · cases h
        rfl

theorem pmg_ok (h : pmgStructureConvert conv st rh d = (st', ws, .ok s)) :
    ∃ c, conv (st.used rh d) = .ok c ∧ c.isOrdered = true ∧ s.types = some (c.sites.flatMap fun x => x.species.map fun y => atomicNumber y.1.symbol) ∧
      s.set = { motif := c.positions.map (cartesian c.cell), cell := c.cell, asymUnit := some (List.range c.sites.length),
                multiplicities := some (List.replicate c.sites.length 1) } := by
  rw [pmg_convert] at h
  split at h
  · cases h
  · split at h
    · cases h
    · rename_i c hc
      refine ⟨c, hc, ?_⟩
      simp only [PmgStructure.atomicNumbers] at h
      split at h
      · cases h
      · rename_i types ht
        split at ht
        · rename_i ho
          cases ht
          cases h
          refine ⟨ho, rfl, ?_⟩
          simp only [PmgStructure.positions, List.map_map]
          rfl
        · cases ht

/-! ### C71 -/

/-- **C71** With `disorder='skip'`, a structure with a site that is not fully occupied by one species raises a ParseError. -/
theorem C71_skip {x : PmgSite} (hx : x ∈ st.sites) (ho : ¬x.Ordered) :
    (pmgStructureConvert conv st false "skip").2 = ([], .error (.parse pmgDisorderText)) := by
  have : (st.strip false).isOrdered = false := by
    rw [Bool.eq_false_iff]
    intro h
    exact ho ((structure_ordered st).1 h x hx)
  rw [pmg_convert, if_pos ⟨rfl, this⟩]

/-- **C71** For an ordered structure the option does not matter. -/
theorem C71_ordered_structure (ho : ∀ x ∈ st.sites, x.Ordered) (d : String) : pmgStructureConvert conv st false d = pmgStructureConvert conv st false "all_sites" := by
  have h1 : (st.strip false).isOrdered = true := (structure_ordered st).2 ho
  have h2 : ∀ d, st.used false d = st := by
    intro d
    rw [PmgStructure.used]
    split
    · rw [show st.strip false = st from rfl, removeDisordered_sites]
      have : st.sites.filter (fun x => !decide (x.numAtoms < 1)) = st.sites := by
        rw [List.filter_eq_self]
        intro x hx
        obtain ⟨sp, h⟩ := ho x hx
        simp [PmgSite.numAtoms, h]
      rw [this]
    · rfl
  rw [pmg_convert, pmg_convert, h1, h2, h2]
  simp

theorem used_ordered (st : PmgStructure) : st.used false "all_sites" = st := by
  rw [PmgStructure.used, if_neg (by decide)]
  rfl

open Classical in
/-- **C71** (partial) With `disorder='ordered_sites'`, exactly the sites that are fully occupied are used: the structure is converted like that with only these
sites. Missing: sites shared by several species (`C71_ordered_sites_false`). -/
theorem C71_ordered_sites_partial (h1 : ∀ x ∈ st.sites, ∃ sp o, x.species = [(sp, o)] ∧ o ≤ 1) :
    pmgStructureConvert conv st false "ordered_sites" =
      pmgStructureConvert conv { st with sites := st.sites.filter fun x => decide x.Ordered } false "all_sites" := by
  have h : st.used false "ordered_sites" = { st with sites := st.sites.filter fun x => decide x.Ordered } := by
    simp only [PmgStructure.used, if_true, removeDisordered_sites]
    rw [show st.strip false = st from rfl]
    congr 1
    refine List.filter_congr fun x hx => ?_
    obtain ⟨sp, o, h, ho⟩ := h1 x hx
    simp only [PmgSite.numAtoms, PmgSite.Ordered, h, List.map_cons, List.map_nil, List.sum_cons, List.sum_nil, add_zero, not_lt, decide_eq_decide,
      List.cons.injEq, Prod.mk.injEq, and_true, ← decide_not]
    constructor
    · exact fun h => ⟨sp, rfl, le_antisymm ho h⟩
    · rintro ⟨_, -, h⟩
      exact h.ge
  rw [pmg_convert, pmg_convert, if_neg (fun h => absurd h.1 (by decide)), if_neg (fun h => absurd h.1 (by decide)), h, used_ordered]

/-- The assumption on the symmetry analysis: it keeps the species and occupancies, so that the result has disorder if the argument has. -/
def KeepsOccupancies (conv : PmgStructure → Except Exc PmgStructure) : Prop := ∀ st c, conv st = .ok c → ((∀ x ∈ c.sites, x.Ordered) ↔ ∀ x ∈ st.sites, x.Ordered)

/-- **C71** If a set is returned, what is left of the structure has no disorder, whatever the option. -/
theorem C71_no_disorder (hk : KeepsOccupancies conv) (h : pmgStructureConvert conv st rh d = (st', ws, .ok s)) : ∀ x ∈ st'.sites, x.Ordered := by
  obtain ⟨c, hc, ho, -⟩ := pmg_ok h
  rw [pmg_fst h]
  exact (hk _ _ hc).1 ((structure_ordered c).1 ho)

/-- A site shared equally by sodium and potassium, next to a chlorine. -/
noncomputable def mixedStructure : PmgStructure := ⟨cubeCell, [⟨[(⟨"Na", none⟩, 1 / 2), (⟨"K", none⟩, 1 / 2)], fun _ => 0⟩, ⟨[(⟨"Cl", none⟩, 1)], fun _ => 1 / 2⟩]⟩

/-- **C71** is false for `disorder='ordered_sites'`: a site shared by two species is not removed, and instead of a set there is an exception that is not a
ParseError. -/
theorem C71_ordered_sites_false : ∃ st : PmgStructure, (∃ x ∈ st.sites, x.Ordered) ∧ ∀ conv, KeepsOccupancies conv →
    ∀ st' ws s, pmgStructureConvert conv st false "ordered_sites" ≠ (st', ws, .ok s) := by
  refine ⟨mixedStructure, ⟨⟨[(⟨"Cl", none⟩, 1)], fun _ => 1 / 2⟩, by simp [mixedStructure], ⟨_, rfl⟩⟩, fun conv hk st' ws s h => ?_⟩
  have := C71_no_disorder hk h ⟨[(⟨"Na", none⟩, 1 / 2), (⟨"K", none⟩, 1 / 2)], fun _ => 0⟩ (by
    rw [pmg_fst h]
    simp only [PmgStructure.used, if_true, removeDisordered_sites, List.mem_filter]
    refine ⟨by simp [PmgStructure.strip, mixedStructure], ?_⟩
    simp only [PmgSite.numAtoms, List.map_cons, List.map_nil, List.sum_cons, List.sum_nil]
    decide +kernel)
  obtain ⟨sp, h⟩ := this
  simp at h

/-- **C71** is false for `disorder='all_sites'`: it never reads a structure with disorder. -/
theorem C71_all_sites_false (hk : KeepsOccupancies conv) {x : PmgSite} (hx : x ∈ st.sites) (ho : ¬x.Ordered) :
    pmgStructureConvert conv st false "all_sites" ≠ (st', ws, .ok s) :=
  fun h => ho (C71_no_disorder hk h x (by rw [pmg_fst h, used_ordered]; exact hx))

/-- The structures of these theorems: one with disorder, and an analysis that keeps occupancies. -/
example : KeepsOccupancies .ok ∧ ∃ x ∈ mixedStructure.sites, ¬x.Ordered :=
  ⟨fun _ _ h => by rw [Except.ok.inj h], ⟨[(⟨"Na", none⟩, 1 / 2), (⟨"K", none⟩, 1 / 2)], fun _ => 0⟩, by simp [mixedStructure], by simp [PmgSite.Ordered]⟩

/-! ### C72 -/

/-- The site has neither hydrogen nor deuterium. -/
def PmgSite.NoHydrogen (x : PmgSite) : Prop := ∀ y ∈ x.species, y.1.symbol ≠ "H" ∧ y.1.symbol ≠ "D"

open Classical in
/-- **C72** (partial) With `remove_hydrogens`, exactly the sites with hydrogen or deuterium are removed: the structure is converted like that without these
sites. Missing: hydrogen with an oxidation state (`C72_pymatgen_false`), and sites shared by hydrogen and other species, which lose the hydrogen. -/
theorem C72_pymatgen_partial (hox : ∀ x ∈ st.sites, ∀ y ∈ x.species, y.1.oxidation = none) (hsingle : ∀ x ∈ st.sites, x.species.length = 1) :
    pmgStructureConvert conv st true d = pmgStructureConvert conv { st with sites := st.sites.filter fun x => decide x.NoHydrogen } false d := by
  have h : st.removeSpecies [⟨"H", none⟩, ⟨"D", none⟩] = { st with sites := st.sites.filter fun x => decide x.NoHydrogen } := by
    simp only [PmgStructure.removeSpecies]
    congr 1
    rw [← List.filterMap_eq_filter (p := fun x : PmgSite => decide x.NoHydrogen)]
    refine List.filterMap_congr fun x hx => ?_
    obtain ⟨⟨⟨sym, ox⟩, o⟩, h⟩ := List.length_eq_one_iff.1 (hsingle x hx)
    have := hox x hx ⟨⟨sym, ox⟩, o⟩ (by simp [h])
    simp only at this
    subst this
    rcases x with ⟨sp, pos⟩
    simp only at h
    subst h
    by_cases h1 : sym = "H"
    · simp [h1, Option.guard, PmgSite.NoHydrogen]
    · by_cases h2 : sym = "D"
      · simp [h2, Option.guard, PmgSite.NoHydrogen]
      · simp [h1, h2, Option.guard, PmgSite.NoHydrogen]
  simp only [pmgStructureConvert, if_true, h]
  rfl

/-- **C72** is false: hydrogen with an oxidation state is not removed. The result is the same with and without the option. -/
theorem C72_pymatgen_false : ∃ (st : PmgStructure) (x : PmgSite), x ∈ st.sites ∧ ¬ x.NoHydrogen ∧ ∀ conv d,
    x ∈ (pmgStructureConvert conv st true d).1.sites ∧ pmgStructureConvert conv st true d = pmgStructureConvert conv st false d := by
  let x : PmgSite := ⟨[(⟨"H", some 1⟩, 1)], fun _ => 0⟩
  let st : PmgStructure := ⟨cubeCell, [x]⟩
  have h : st.removeSpecies [⟨"H", none⟩, ⟨"D", none⟩] = st := by simp [st, x, PmgStructure.removeSpecies]
  have e : ∀ conv d, pmgStructureConvert conv st true d = pmgStructureConvert conv st false d := by
    intro conv d
    simp only [pmgStructureConvert, if_true, h]
    rfl
  have ho : ∀ y ∈ st.sites, y.Ordered := by
    intro y hy
    rw [List.mem_singleton.1 hy]
    exact ⟨_, rfl⟩
  refine ⟨st, x, List.mem_singleton.2 rfl, by simp [PmgSite.NoHydrogen, x], fun conv d => ⟨?_, e conv d⟩⟩
  rw [e, C71_ordered_structure ho, pmg_convert, if_neg (fun h => absurd h.1 (by decide)), used_ordered]
  split
  · exact List.mem_singleton.2 rfl
  · split <;> exact List.mem_singleton.2 rfl

/-- The hypotheses of `C72_pymatgen_partial` are met by a structure with hydrogen and carbon, of which only the carbon is left. -/
example : ∃ st : PmgStructure, (∀ x ∈ st.sites, ∀ y ∈ x.species, y.1.oxidation = none) ∧ (∀ x ∈ st.sites, x.species.length = 1) ∧
    (∃ x ∈ st.sites, x.NoHydrogen) ∧ ∃ x ∈ st.sites, ¬ x.NoHydrogen := by
  refine ⟨⟨cubeCell, [⟨[(⟨"H", none⟩, 1)], fun _ => 0⟩, ⟨[(⟨"C", none⟩, 1)], fun _ => 1 / 2⟩]⟩, ?_, ?_, ?_, ?_⟩ <;> simp [PmgSite.NoHydrogen]

/-! ### C73 -/

theorem positions_points (cell : Fin 3 → Pt 3 ℝ) (P : List (Pt 3 ℝ)) : periodicPoints (P.map (cartesian cell)) cell = atomPoints cell P := by
  ext q
  constructor
  · rintro ⟨x, rfl⟩
    rw [sitePos_cartesian]
    exact ⟨_, List.getElem_mem _, x.2, rfl⟩
  · rintro ⟨p, hp, n, rfl⟩
    obtain ⟨t, ht, rfl⟩ := List.mem_iff_getElem.1 hp
    exact ⟨(⟨t, by simpa using ht⟩, n), by rw [sitePos_cartesian]⟩

theorem positions_injective {cell : Fin 3 → Pt 3 ℝ} (hcell : NonSingular cell) {P : List (Pt 3 ℝ)} (hP : Distinct P) :
    Function.Injective (sitePos (P.map (cartesian cell)) cell) := by
  rintro ⟨x, n⟩ ⟨y, m⟩ e
  rw [sitePos_cartesian, sitePos_cartesian] at e
  have e := congrFun (cartesian_injective hcell e)
  have hx : x.val < P.length := by simpa using x.2
  have hy : y.val < P.length := by simpa using y.2
  have key : ∀ i, P[x.val] i = P[y.val] i + ((m i - n i : ℤ) : ℝ) := fun i => by
    have := e i
    push_cast
    simp only at this
    linarith
  have hxy : x = y := by
    rcases lt_trichotomy x.val y.val with h | h | h
    · exact absurd ⟨_, key⟩ (List.pairwise_iff_getElem.1 hP _ _ hx hy h)
    · exact Fin.ext h
    · refine absurd ⟨fun i => n i - m i, fun i => ?_⟩ (List.pairwise_iff_getElem.1 hP _ _ hy hx h)
      have := key i
      push_cast at this ⊢
      linarith
  subst hxy
  refine Prod.ext rfl (funext fun i => ?_)
  have := key i
  have h0 : ((m i - n i : ℤ) : ℝ) = 0 := by linarith
  have h0 : m i - n i = 0 := by exact_mod_cast h0
  simp only
  omega

/-- **C73** The set is a description of the crystal of the conventional cell: no point is listed twice, and each point stands for itself. -/
theorem C73_description (h : pmgStructureConvert conv st rh d = (st', ws, .ok s)) (hc : conv st' = .ok c) (hcell : NonSingular c.cell)
    (hne : c.sites ≠ []) (hdist : Distinct c.positions) :
    ∃ inds mult, IsDescription s.set inds mult ∧ periodicPoints s.set.motif s.set.cell = atomPoints c.cell c.positions := by
  obtain ⟨c', hc', -, -, hs⟩ := pmg_ok h
  rw [← pmg_fst h, hc] at hc'
  obtain rfl := Except.ok.inj hc'
  rw [hs]
  have hl : (c.positions.map (cartesian c.cell)).length = c.sites.length := by simp [PmgStructure.positions]
  refine ⟨List.finRange _, List.replicate _ 1, ⟨hcell, ?_, positions_injective hcell hdist, Or.inl ⟨?_, ?_, by simp⟩, isAsymUnit_full _ _, ?_⟩, positions_points _ _⟩
  · simpa [PmgStructure.positions] using hne
  · simp [hl]
  · simp [hl]
  · intro n hn
    rw [(List.mem_replicate.1 hn).2]
    exact one_pos

/-- **C73** (partial) If the symmetry analysis returns an isometric crystal, the AMD of the set is that of the crystal of the structure (without the sites that
were removed), given in any way. Missing: cells that are too oblique (`C07_false`). -/
theorem C73_amd_partial (h : pmgStructureConvert conv st rh d = (st', ws, .ok s)) (hc : conv st' = .ok c) (hcell : NonSingular c.cell)
    (hne : c.sites ≠ []) (hdist : Distinct c.positions) (hsame : SameCrystal st'.cell st'.positions c.cell c.positions)
    (hdom : HalfDominant c.cell) (hfit : FitsInCell (c.positions.map (cartesian c.cell)) c.cell)
    {S' : PeriodicSet 3} {inds' : List (Fin S'.motif.length)} {mult' : List ℕ} (h' : IsDescription S' inds' mult')
    (hdom' : HalfDominant S'.cell) (hfit' : FitsInCell S'.motif S'.cell)
    (hP : periodicPoints S'.motif S'.cell = atomPoints st'.cell st'.positions)
    {k fuel fuel' : ℕ} {r r' : List ℝ} (hr : AMD s.set k fuel = .ok r) (hr' : AMD S' k fuel' = .ok r') : r = r' := by
  obtain ⟨inds, mult, hd, hp⟩ := C73_description h hc hcell hne hdist
  obtain ⟨T, hT, e⟩ := hsame
  have hs : s.set.cell = c.cell ∧ s.set.motif = c.positions.map (cartesian c.cell) := by
    obtain ⟨c', hc', -, -, hs⟩ := pmg_ok h
    rw [← pmg_fst h, hc] at hc'
    obtain rfl := Except.ok.inj hc'
    rw [hs]
    exact ⟨rfl, rfl⟩
  exact (C66_amd_partial (by decide) (by decide) h' hd ⟨T, hT, by rw [hp, hP, e]⟩ hdom' hfit' (by rw [hs.1]; exact hdom) (by rw [hs.1, hs.2]; exact hfit) hr' hr).symm

/-- **C73** (partial) The same for all cells and sufficiently large `k`, for AMD and PDD. -/
theorem C73_large_k_partial (h : pmgStructureConvert conv st rh d = (st', ws, .ok s)) (hc : conv st' = .ok c) (hcell : NonSingular c.cell)
    (hne : c.sites ≠ []) (hdist : Distinct c.positions) (hsame : SameCrystal st'.cell st'.positions c.cell c.positions)
    {S' : PeriodicSet 3} {inds' : List (Fin S'.motif.length)} {mult' : List ℕ} (h' : IsDescription S' inds' mult')
    (hP : periodicPoints S'.motif S'.cell = atomPoints st'.cell st'.positions) :
    (∃ k₀, ∀ k, k₀ ≤ k → ∀ fuel fuel' r r', AMD S' k fuel = .ok r → AMD s.set k fuel' = .ok r' → r = r') ∧
    ∃ k₀, ∀ k, k₀ ≤ k → ∀ lexsort lexsort' tol tol' fuel fuel' p p', PDD S' k lexsort false tol fuel = .ok p →
      PDD s.set k lexsort' false tol' fuel' = .ok p' → ∀ x, weightAt p x = weightAt p' x := by
  obtain ⟨inds, mult, hd, hp⟩ := C73_description h hc hcell hne hdist
  obtain ⟨T, hT, e⟩ := hsame
  have hi : Isometric S' s.set := ⟨T, hT, by rw [hp, hP, e]⟩
  exact ⟨C66_amd_large_k_partial (by decide) h' hd hi, C66_pdd_large_k_partial (by decide) h' hd hi⟩

/-- The hypotheses of C73 are met by sodium chloride in a cube, with an analysis that returns its argument. -/
example : ∃ (conv : PmgStructure → Except Exc PmgStructure) (st st' c : PmgStructure) (ws : List Warning) (s : FullSet),
    pmgStructureConvert conv st false "skip" = (st', ws, .ok s) ∧ conv st' = .ok c ∧ NonSingular c.cell ∧ c.sites.length = 2 ∧ Distinct c.positions ∧
    SameCrystal st'.cell st'.positions c.cell c.positions ∧ HalfDominant c.cell ∧ s.types = some [11, 17] := by
  let st : PmgStructure := ⟨cubeCell, [⟨[(⟨"Na", none⟩, 1)], quarter 0⟩, ⟨[(⟨"Cl", none⟩, 1)], quarter 2⟩]⟩
  refine ⟨.ok, st, st, st, [], { set := ⟨st.sites.map fun x => toCartesian st.cell x.pos, st.cell, some (List.range 2), some (List.replicate 2 1)⟩, types := some [11, 17] }, ?_, rfl, cube_cell, rfl, ?_, ⟨id, fun _ _ => rfl, ?_⟩, cube_dominant, rfl⟩
  · rw [pmg_convert, if_neg (by decide +kernel)]
    have : st.atomicNumbers = .ok [11, 17] := by decide +kernel
    simp only [show st.used false "skip" = st from rfl, this]
    rfl
  · simp only [Distinct, PmgStructure.positions, st, List.map_cons, List.map_nil, List.pairwise_cons, List.mem_singleton, List.not_mem_nil]
    refine ⟨?_, by simp⟩
    rintro q rfl
    exact quarter_ne (by decide)
  · rw [Set.image_id]

/-! ### C70 -/

theorem pmg_object (hd : d ≠ "ordered_sites") : (pmgStructureConvert conv st rh d).1 = st.strip rh := by
  have : st.used rh d = st.strip rh := by rw [PmgStructure.used, if_neg hd]
  rw [pmg_convert, this]
  split
  · rfl
  · split
    · rfl
    · split <;> rfl

/-- **C70** (partial) Without `remove_hydrogens` and `disorder='ordered_sites'`, the structure is not changed. -/
theorem C70_pymatgen_partial (hd : d ≠ "ordered_sites") : (pmgStructureConvert conv st false d).1 = st :=
  pmg_object hd

/-- **C70** is false: the structure that was passed loses its hydrogens. -/
theorem C70_pymatgen_false : ∃ st : PmgStructure, ∀ conv, (pmgStructureConvert conv st true "skip").1.sites.length < st.sites.length := by
  refine ⟨⟨cubeCell, [⟨[(⟨"H", none⟩, 1)], fun _ => 0⟩, ⟨[(⟨"C", none⟩, 1)], fun _ => 1 / 2⟩]⟩, fun conv => ?_⟩
  rw [pmg_object (by decide)]
  simp [PmgStructure.strip, PmgStructure.removeSpecies]

theorem removeSpecies_free {st : PmgStructure} {l : List PmgSpecies} {x : PmgSite} (hx : x ∈ (st.removeSpecies l).sites) :
    x.species ≠ [] ∧ ∀ y ∈ x.species, y.1 ∉ l := by
  simp only [PmgStructure.removeSpecies, List.mem_filterMap] at hx
  obtain ⟨z, -, h⟩ := hx
  split at h
  · cases h
  · rename_i hne
    cases h
    exact ⟨hne, fun y hy => of_decide_eq_true (List.mem_filter.1 hy).2⟩

theorem removeSpecies_self {st : PmgStructure} {l : List PmgSpecies} (h : ∀ x ∈ st.sites, x.species ≠ [] ∧ ∀ y ∈ x.species, y.1 ∉ l) : st.removeSpecies l = st := by
  have : st.sites.filterMap (fun x : PmgSite =>
      let rest := x.species.filter fun y => decide (y.1 ∉ l)
      if rest = [] then none else some { x with species := rest }) = st.sites.filterMap some := by
    refine List.filterMap_congr fun x hx => ?_
    have e : x.species.filter (fun y => decide (y.1 ∉ l)) = x.species := List.filter_eq_self.2 fun y hy => decide_eq_true ((h x hx).2 y hy)
    simp only [e, if_neg (h x hx).1]
  rw [PmgStructure.removeSpecies, this, List.filterMap_some]

theorem used_again (st : PmgStructure) (rh : Bool) (d : String) : (st.used rh d).strip rh = st.used rh d ∧ (st.used rh d).used rh d = st.used rh d := by
  have h1 : (st.used rh d).strip rh = st.used rh d := by
    rcases rh
    · rfl
    · refine removeSpecies_self fun x hx => ?_
      simp only [PmgStructure.used] at hx
      split at hx
      · rw [removeDisordered_sites] at hx
        exact removeSpecies_free (List.mem_filter.1 hx).1
      · exact removeSpecies_free hx
  refine ⟨h1, ?_⟩
  rw [PmgStructure.used, h1]
  split
  · rename_i hd
    simp only [PmgStructure.used, if_pos hd, removeDisordered_sites, List.filter_filter, Bool.and_self]
  · rfl

theorem pmg_object_used (st : PmgStructure) : (pmgStructureConvert conv st rh d).1 = st.used rh d := by
  rw [pmg_convert]
  split
  · rename_i h
    rw [PmgStructure.used, if_neg (by rw [h.1]; decide)]
  · split
    · rfl
    · split <;> rfl

/-- **C70** Converting the structure again, with the same options, gives the same result, even if the first call changed it. -/
theorem C70_pymatgen_again : (pmgStructureConvert conv (pmgStructureConvert conv st rh d).1 rh d).2 = (pmgStructureConvert conv st rh d).2 := by
  obtain ⟨h1, h2⟩ := used_again st rh d
  rw [pmg_object_used, pmg_convert conv (st.used rh d), h1, h2, pmg_convert conv st]
  by_cases hd : d = "skip"
  · have : st.used rh d = st.strip rh := by rw [PmgStructure.used, if_neg (by rw [hd]; decide)]
    rw [this]
  · rw [if_neg (fun h => hd h.1), if_neg (fun h => hd h.1)]

end Amd
