import Verif.Props.CifCompare
import Verif.Props.BackendsExample
import Mathlib.Analysis.Real.Pi.Bounds

/-!
# An example for C83

The monoclinic crystal of the example for C80, in one file with a hydrogen atom, in another file without hydrogen and with the image of the carbon atom under the screw axis;
and the same as entries of the CSD.
-/

namespace Amd

open Classical

/-- Sites of the second file: the image of the carbon atom. -/
def imageRows : List (List String) := [["C7", "C", "-0.25", "0.4", "-1.3", "1.0"]]

/-- Sites of a block with disorder. -/
def doubtRows : List (List String) := [["C1?", "C", "0.25", "-0.1(2)", "1.3", "1.0"]]

/-- The first block of the second file. -/
noncomputable def imageEntry : CifEntry := screwLike "image" imageRows

/-- The second block of the second file. -/
noncomputable def doubtEntry : CifEntry := screwLike "doubt" doubtRows

theorem vx : WritesNumber "-0.25" (-1 / 4) := writes_plain ⟨.minus, ⟨[0], some [2, 5]⟩, none⟩ (by simp) (by simp) (by numeral_value) (by decide +kernel)
theorem vy : WritesNumber "0.4" (2 / 5) := writes_plain ⟨.none, ⟨[0], some [4]⟩, none⟩ (by simp) (by simp) (by numeral_value) (by decide +kernel)
theorem vz : WritesNumber "-1.3" (-13 / 10) := writes_plain ⟨.minus, ⟨[1], some [3]⟩, none⟩ (by simp) (by simp) (by numeral_value) (by decide +kernel)

theorem image_numbers : ∀ r ∈ imageRows, ∀ tag ∈ ["_atom_site_fract_x", "_atom_site_fract_y", "_atom_site_fract_z", "_atom_site_occupancy"], ∀ s,
    field screwTags r tag = some s → ∃ q, WritesNumber s q := by
  have key : ∀ r ∈ imageRows, ∀ tag ∈ ["_atom_site_fract_x", "_atom_site_fract_y", "_atom_site_fract_z", "_atom_site_occupancy"], ∀ s ∈ field screwTags r tag,
      s ∈ ["-0.25", "0.4", "-1.3", "1.0"] := by decide +kernel
  intro r hr tag htag s hs
  have := key r hr tag htag s hs
  simp only [List.mem_cons, List.not_mem_nil, or_false] at this
  rcases this with rfl | rfl | rfl | rfl
  exacts [⟨_, vx⟩, ⟨_, vy⟩, ⟨_, vz⟩, ⟨_, wo⟩]

theorem doubt_numbers : ∀ r ∈ doubtRows, ∀ tag ∈ ["_atom_site_fract_x", "_atom_site_fract_y", "_atom_site_fract_z", "_atom_site_occupancy"], ∀ s,
    field screwTags r tag = some s → ∃ q, WritesNumber s q := by
  have key : ∀ r ∈ doubtRows, ∀ tag ∈ ["_atom_site_fract_x", "_atom_site_fract_y", "_atom_site_fract_z", "_atom_site_occupancy"], ∀ s ∈ field screwTags r tag,
      s ∈ ["0.25", "-0.1(2)", "1.3", "1.0"] := by decide +kernel
  intro r hr tag htag s hs
  have := key r hr tag htag s hs
  simp only [List.mem_cons, List.not_mem_nil, or_false] at this
  rcases this with rfl | rfl | rfl | rfl
  exacts [⟨_, wx⟩, ⟨_, wy⟩, ⟨_, wz⟩, ⟨_, wo⟩]

theorem image_point : WrittenPoint screwTags ["C7", "C", "-0.25", "0.4", "-1.3", "1.0"] ![-1 / 4, 2 / 5, -13 / 10] := by
  intro i
  fin_cases i
  · exact ⟨_, _, by decide +kernel, vx, by norm_num⟩
  · exact ⟨_, _, by decide +kernel, vy, by norm_num⟩
  · exact ⟨_, _, by decide +kernel, vz, by norm_num⟩

theorem image_ordered : ¬ WrittenDisordered id screwTags ["C7", "C", "-0.25", "0.4", "-1.3", "1.0"] := by
  rintro (⟨s, q, h1, h2, h3⟩ | ⟨s, h1, l, h2⟩)
  · have e : field screwTags ["C7", "C", "-0.25", "0.4", "-1.3", "1.0"] "_atom_site_occupancy" = some "1.0" := by decide +kernel
    rw [e] at h1
    obtain rfl := Option.some.inj h1
    rw [h2.unique wo] at h3
    exact lt_irrefl _ h3
  · have e : field screwTags ["C7", "C", "-0.25", "0.4", "-1.3", "1.0"] "_atom_site_label" = some "C7" := by decide +kernel
    rw [e] at h1
    obtain rfl := Option.some.inj h1
    have := congrArg List.getLast? h2
    simp at this

theorem image_used (d : String) : WrittenUsed id screwTags true d ["C7", "C", "-0.25", "0.4", "-1.3", "1.0"] := by
  refine ⟨fun _ => image_ordered, ?_⟩
  rintro - (⟨s, h1, pre, c, post, h2, h3, h4, h5⟩ | ⟨h, -⟩)
  · have e : field screwTags ["C7", "C", "-0.25", "0.4", "-1.3", "1.0"] "_atom_site_type_symbol" = some "C" := by decide +kernel
    rw [e] at h1
    obtain rfl := Option.some.inj h1
    have e' : (id "C" : String).toList = ['C'] := by decide +kernel
    rw [e'] at h2
    cases pre with
    | nil =>
      simp only [List.nil_append, List.cons.injEq] at h2
      rw [← h2.1] at h4
      simp at h4
    | cons a l => simp at h2
  · exact h (by decide)

theorem image_sites : imageEntry.sites id true "skip" = {![-1 / 4, 2 / 5, -13 / 10]} := by
  refine Set.Subset.antisymm ?_ ?_
  · rintro x ⟨r, hr, hu, hx⟩
    rw [show imageEntry.rows = imageRows from rfl, imageRows, List.mem_singleton] at hr
    subst hr
    exact writtenPoint_unique hx image_point
  · rintro x rfl
    exact ⟨_, List.mem_singleton.2 rfl, image_used _, image_point⟩

theorem image_exact : ExactSites (1 / 1000) screwOps (imageEntry.sites id true "skip") := by
  rw [image_sites]
  rintro p rfl q rfl g (rfl | rfl) h (rfl | rfl) hc i
  · exact ⟨0, by simp⟩
  · obtain ⟨n, hn⟩ := hc 0
    rw [opPoint_one, opPoint_screw] at hn
    refine (far_half (Or.inr ?_) n hn).elim
    simp; norm_num
  · obtain ⟨n, hn⟩ := hc 0
    rw [opPoint_one, opPoint_screw] at hn
    refine (far_half (Or.inl ?_) n hn).elim
    simp; norm_num
  · exact ⟨0, by simp⟩

/-! ### The cell -/

/-- The cell. -/
noncomputable def screwCell : Fin 3 → Pt 3 ℝ :=
  ![![4, 0, 0], ![0, 5, 0], ![6 * Real.cos (105 * (Real.pi / 180)), 0, 6 * Real.sin (105 * (Real.pi / 180))]]

theorem screwCell_par : HasCellpar screwCell 4 5 6 90 105 90 := by
  have h90 : Real.cos (90 * (Real.pi / 180)) = 0 := by
    rw [show (90 : ℝ) * (Real.pi / 180) = Real.pi / 2 by ring, Real.cos_pi_div_two]
  have hs := Real.sin_sq_add_cos_sq (105 * (Real.pi / 180))
  refine ⟨⟨?_, ?_⟩, ⟨?_, ?_⟩, ⟨?_, ?_⟩, ⟨?_, ?_, ?_⟩, ⟨?_, ?_, ?_⟩, ?_, ?_, ?_⟩ <;> (try simp [screwCell, Fin.sum_univ_three, h90]) <;> try norm_num
  · linear_combination 36 * hs
  · ring

theorem screwCell_has {e : Described} (he : e.cell = screwNumbers) : e.HasCell screwCell := by
  have := screwCell_par
  unfold Described.HasCell
  rw [he]
  norm_num [screwNumbers]
  exact this

theorem cos_105 : |Real.cos (105 * (Real.pi / 180))| ≤ 1 / 3 ∧ 0 < Real.sin (105 * (Real.pi / 180)) := by
  have hpi := Real.pi_lt_d2
  have hpos := Real.pi_pos
  constructor
  · rw [show (105 : ℝ) * (Real.pi / 180) = Real.pi / 12 + Real.pi / 2 by ring, Real.cos_add_pi_div_two, abs_neg]
    have h1 := Real.sin_le (x := Real.pi / 12) (by positivity)
    have h2 := Real.sin_nonneg_of_nonneg_of_le_pi (x := Real.pi / 12) (by positivity) (by linarith)
    rw [abs_of_nonneg h2]
    linarith
  · exact Real.sin_pos_of_pos_of_lt_pi (by positivity) (by linarith)

theorem screwCell_nonSingular : NonSingular screwCell := by
  refine Fintype.linearIndependent_iff.2 fun c h => ?_
  have h0 := congrFun h 0
  have h1 := congrFun h 1
  have h2 := congrFun h 2
  simp [screwCell, Fin.sum_univ_three] at h0 h1 h2
  have c2 : c 2 = 0 := h2.resolve_right cos_105.2.ne'
  rw [c2] at h0
  simp at h0
  intro i
  fin_cases i
  exacts [h0, h1, c2]

theorem screwCell_dominant : HalfDominant screwCell := by
  have h := cos_105.1
  have hs := Real.sin_sq_add_cos_sq (105 * (Real.pi / 180))
  intro i
  fin_cases i
  · have e : (Finset.univ.erase (0 : Fin 3)) = {1, 2} := by decide
    simp only [Fin.zero_eta, e, Finset.sum_pair (show (1 : Fin 3) ≠ 2 by decide)]
    simp [gram, screwCell, Fin.sum_univ_three, abs_mul]
    linarith
  · have e : (Finset.univ.erase (1 : Fin 3)) = {0, 2} := by decide
    simp only [Fin.mk_one, e, Finset.sum_pair (show (0 : Fin 3) ≠ 2 by decide)]
    simp [gram, screwCell, Fin.sum_univ_three]
  · have e : (Finset.univ.erase (2 : Fin 3)) = {0, 1} := by decide
    simp only [Fin.reduceFinMk, e, Finset.sum_pair (show (0 : Fin 3) ≠ 1 by decide)]
    simp [gram, screwCell, Fin.sum_univ_three, abs_mul]
    nlinarith

theorem screw_shaped {e : Described} (he : e.cell = screwNumbers) (k : ℕ) : e.WellShaped k := ⟨screwCell, screwCell_has he, Or.inl screwCell_dominant⟩

/-! ### The blocks -/

/-- The crystal of the first file. -/
noncomputable def screwDesc : Described := ⟨"screw", screwNumbers, screwOps, {![1 / 4, -1 / 10, 13 / 10]}⟩

/-- The crystal of the second file. -/
noncomputable def imageDesc : Described := ⟨"image", screwNumbers, screwOps, {![-1 / 4, 2 / 5, -13 / 10]}⟩

theorem screw_described : screwEntry.described id true "skip" = screwDesc := congrArg (Described.mk "screw" screwNumbers screwOps) screw_sites

theorem image_described : imageEntry.described id true "skip" = imageDesc := congrArg (Described.mk "image" screwNumbers screwOps) image_sites

theorem size_le {e : Described} (hs : ∃ x, e.sites = {x}) (ho : e.ops = screwOps) : e.size ≤ 2 := by
  obtain ⟨x, hx⟩ := hs
  have : screwOps.ncard ≤ 2 := by
    unfold screwOps
    exact (Set.ncard_insert_le _ _).trans (by rw [Set.ncard_singleton])
  rw [Described.size, ho, hx, Set.ncard_singleton, one_mul]
  exact this

theorem proper_of {e : Described} (hc : e.cell = screwNumbers) (ho : e.ops = screwOps) (hs : ∃ x, e.sites = {x}) (hx : ExactSites (1 / 1000) screwOps e.sites) : e.Proper where
  group := ⟨screwCell, screwCell_has hc, screwCell_nonSingular, by rw [ho]; exact screw_group screwCell_par⟩
  finiteOps := by rw [ho]; exact Set.toFinite {screwOne, screwOp}
  finiteSites := by obtain ⟨x, hx⟩ := hs; rw [hx]; exact Set.finite_singleton _
  nonempty := by obtain ⟨x, hx⟩ := hs; rw [hx]; exact Set.singleton_nonempty _
  exact := by rw [ho]; exact hx
  size := (size_le hs ho).trans (by norm_num)

theorem screw_proper : screwDesc.Proper := proper_of rfl rfl ⟨_, rfl⟩ (by
  have := screw_exact
  rw [screw_sites] at this
  exact this)

theorem image_proper : imageDesc.Proper := proper_of rfl rfl ⟨_, rfl⟩ (by
  have := image_exact
  rw [image_sites] at this
  exact this)

theorem doubt_skipped : doubtEntry.Skipped id true "skip" :=
  Or.inl ⟨rfl, _, List.mem_singleton.2 rfl, Or.inr ⟨"C1?", by decide +kernel, ['C', '1'], by decide +kernel⟩⟩

theorem image_kept : ¬ imageEntry.Skipped id true "skip" := by
  rintro (⟨-, r, hr, hx⟩ | h)
  · obtain rfl := List.mem_singleton.1 hr
    exact image_ordered hx
  · rw [image_sites] at h
    exact Set.singleton_ne_empty _ h

theorem screw_points : imageDesc.points screwCell = screwDesc.points screwCell := by
  have p1 : opPoint screwOp ![1 / 4, -1 / 10, 13 / 10] = ![-1 / 4, 2 / 5, -13 / 10] := by
    rw [opPoint_screw]
    funext i
    fin_cases i <;> simp <;> try norm_num
  have p2 : ∀ i, opPoint screwOp ![-1 / 4, 2 / 5, -13 / 10] i = ![1 / 4, -1 / 10, 13 / 10] i + ((![0, 1, 0] : Fin 3 → ℤ) i : ℝ) := by
    intro i
    rw [opPoint_screw]
    fin_cases i <;> simp <;> try norm_num
  refine Set.Subset.antisymm ?_ ?_
  · rintro x ⟨p, rfl, g, rfl | rfl, n, rfl⟩
    · exact ⟨_, rfl, screwOp, Or.inr rfl, n, by rw [p1, opPoint_one]⟩
    · refine ⟨_, rfl, screwOne, Or.inl rfl, n + ![0, 1, 0], ?_⟩
      congr 1
      funext i
      rw [p2, opPoint_one, Pi.add_apply, Int.cast_add]
      ring
  · rintro x ⟨p, rfl, g, rfl | rfl, n, rfl⟩
    · refine ⟨_, rfl, screwOp, Or.inr rfl, n - ![0, 1, 0], ?_⟩
      congr 1
      funext i
      rw [p2, opPoint_one, Pi.sub_apply, Int.cast_sub]
      ring
    · exact ⟨_, rfl, screwOne, Or.inl rfl, n, by rw [p1, opPoint_one]⟩

theorem same_of {c c' : Described} (hc : c.cell = screwNumbers) (hc' : c'.cell = screwNumbers) (h : c'.points screwCell = c.points screwCell) : DescribeSame c c' :=
  ⟨screwCell, screwCell, screwCell_has hc, screwCell_has hc', id, fun _ _ => rfl, by rw [Set.image_id, h]⟩

/-- Both describe the same crystal. -/
theorem screw_same : DescribeSame screwDesc imageDesc := same_of rfl rfl screw_points

theorem describes_screw : EntryDescribes id true "skip" screwEntry (some screwDesc) := by
  rw [← screw_described]
  exact .crystal screw_isWritten screw_kept

theorem describes_image : EntryDescribes id true "skip" imageEntry (some imageDesc) := by
  rw [← image_described]
  exact .crystal (screwLike_written _ (by decide) image_numbers) image_kept

theorem describes_doubt : EntryDescribes id true "skip" doubtEntry none := .skipped (screwLike_written _ (by decide) doubt_numbers) doubt_skipped

/-! ### Entries of the CSD -/

/-- A carbon atom. -/
noncomputable def carbonAtom (label : String) (x : Pt 3 ℝ) : CcdcAtom := ⟨label, "C", 6, some 12, some 1, some x⟩

/-- A hydrogen atom. -/
noncomputable def hydrogenAtom : CcdcAtom := ⟨"H1", "H", 1, some 1, some 1, some ![1 / 10, 1 / 5, 2 / 5]⟩

/-- An entry with the cell and the symmetry. -/
noncomputable def screwCcdc (name : String) (atoms : List CcdcAtom) : CcdcEntry :=
  ⟨name, true, false, ⟨name, false, atoms, atoms, [some 4, some 5, some 6, some 90, some 105, some 90], ["x,y,z", "-x, 1/2+Y, -z"]⟩⟩

/-- The first entry, with a hydrogen atom. -/
noncomputable def ccdcScrew : CcdcEntry := screwCcdc "screw" [carbonAtom "C1" ![1 / 4, -1 / 10, 13 / 10], hydrogenAtom]

/-- The second entry. -/
noncomputable def ccdcImage : CcdcEntry := screwCcdc "image" [carbonAtom "C7" ![-1 / 4, 2 / 5, -13 / 10]]

/-- The third entry, with disorder. -/
noncomputable def ccdcDoubt : CcdcEntry := screwCcdc "doubt" [carbonAtom "C1?" ![1 / 4, -1 / 10, 13 / 10]]

theorem atom_ordered {l s : String} {n : ℕ} {w : ℚ} {x : Pt 3 ℝ} (hl : l.toList.getLast? ≠ some '?') : ¬ (⟨l, s, n, some w, some 1, some x⟩ : CcdcAtom).Disordered := by
  rintro (⟨o, h1, h2⟩ | ⟨t, h⟩)
  · obtain rfl := Option.some.inj h1
    exact lt_irrefl _ h2
  · have h : l.toList = t ++ ['?'] := h
    rw [h] at hl
    simp at hl

theorem carbon_used {l : String} {x : Pt 3 ℝ} (hl : l.toList.getLast? ≠ some '?') : (carbonAtom l x).Used true "skip" :=
  ⟨fun _ => atom_ordered hl, (fun _ h => by rcases h with h | h <;> exact absurd h (by simp [carbonAtom])), ⟨x, rfl⟩⟩

theorem hydrogen_unused : ¬ hydrogenAtom.Used true "skip" := fun h => h.heavy rfl (Or.inl rfl)

/-- The heaviest component may be asked for too: there is only one. -/
theorem ccdc_describes {name l : String} {x : Pt 3 ℝ} (hl : l.toList.getLast? ≠ some '?') {rest : List CcdcAtom} (hr : ∀ a ∈ rest, a = hydrogenAtom) (heaviest : Bool) :
    CcdcDescribes wholeEnv true "skip" heaviest false (screwCcdc name (carbonAtom l x :: rest)) (some ⟨name, screwNumbers, screwOps, {x}⟩) := by
  have hu : (screwCcdc name (carbonAtom l x :: rest)).crystal.usedAtoms true "skip" = [carbonAtom l x] := by
    rw [CcdcCrystal.usedAtoms, screwCcdc, List.filter_cons_of_pos (by simpa using carbon_used hl)]
    congr 1
    rw [List.filter_eq_nil_iff]
    intro a ha
    rw [hr a ha]
    simpa using hydrogen_unused
  have hn : ∀ a ∈ carbonAtom l x :: rest, ¬ a.Disordered ∧ a.symbol ≠ "" ∧ a.symbol ≠ "HD" := by
    intro a ha
    rcases List.mem_cons.1 ha with rfl | ha
    · exact ⟨atom_ordered hl, by simp [carbonAtom], by simp [carbonAtom]⟩
    · rw [hr a ha]
      exact ⟨atom_ordered (by decide +kernel), by simp [hydrogenAtom], by simp [hydrogenAtom]⟩
  have hs : wholeEnv.sites (wholeEnv.setMolecule (screwCcdc name (carbonAtom l x :: rest)).crystal [carbonAtom l x]) = {x} := by
    ext y
    simp [CcdcEnv.sites, wholeEnv, carbonAtom, eq_comm]
  rw [← hs]
  refine .atoms (wholeEnv.setMolecule (screwCcdc name (carbonAtom l x :: rest)).crystal [carbonAtom l x]) screwNumbers screwOps
    ⟨rfl, ?_, fun a ha => (hn a ha).2, _, ?_, rfl⟩ ⟨rfl, screw_valid⟩ (Or.inr ⟨by simp [wholeEnv, screwCcdc], ?_, ?_⟩) rfl (by simp [wholeEnv]) (by simp [wholeEnv, carbonAtom])
  · rintro - (h | h | ⟨a, ha, h⟩)
    · cases h
    · cases h
    · exact (hn a ha).1 h
  · rw [← hu]
    exact .all fun _ => by simp [wholeEnv]
  · intro s hs
    have hs : s ∈ ["x,y,z", "-x, 1/2+Y, -z"] := hs
    simp only [List.mem_cons, List.not_mem_nil, or_false] at hs
    rcases hs with rfl | rfl
    · exact ⟨_, Or.inl rfl, writes_one⟩
    · exact ⟨_, Or.inr rfl, writes_screw⟩
  · rintro g (rfl | rfl)
    · exact ⟨"x,y,z", by simp [wholeEnv, screwCcdc], writes_one⟩
    · exact ⟨"-x, 1/2+Y, -z", by simp [wholeEnv, screwCcdc], writes_screw⟩

theorem describes_ccdcScrew (heaviest : Bool) : CcdcDescribes wholeEnv true "skip" heaviest false ccdcScrew (some screwDesc) :=
  ccdc_describes (by decide +kernel) (by simp) heaviest

theorem describes_ccdcImage (heaviest : Bool) : CcdcDescribes wholeEnv true "skip" heaviest false ccdcImage (some imageDesc) :=
  ccdc_describes (by decide +kernel) (by simp) heaviest

theorem describes_ccdcDoubt (heaviest : Bool) : CcdcDescribes wholeEnv true "skip" heaviest false ccdcDoubt none :=
  .disordered rfl (Or.inr (Or.inr ⟨_, List.mem_singleton.2 rfl, Or.inr ⟨['C', '1'], by decide +kernel⟩⟩))

/-! ### The files -/

/-- Two files, as seen by a parser. -/
def twoFiles {β : Type} (a b c : β) (p : String) : PathKind β :=
  if p = "a.cif" then .file (.ok ([a].map .item)) else .file (.ok ([b, c].map .item))

/-- The ccdc package, with two files, and three entries of a family in the CSD. -/
noncomputable def exampleCcdc : CcdcPackage where
  env := wholeEnv
  suffixes := ["cif", "res", "ind"]
  files := twoFiles ccdcScrew ccdcImage ccdcDoubt
  entry := fun c => if c = "SCREWS" then .item ccdcScrew else if c = "SCREWS01" then .item ccdcImage else .item ccdcDoubt
  database := []
  search := fun f => if f = "SCREWS" then ["SCREWS", "SCREWS02", "SCREWS01"] else []

/-- The two files as seen by the packages; for ase and pymatgen the space group is given, for gemmi and pycodcif the operations. -/
noncomputable def exampleBackends : CifBackends where
  gemmi := exampleGemmi
  gemmiFiles := twoFiles (screwGemmi "screw" screwRows) (screwGemmi "image" imageRows) (screwGemmi "doubt" doubtRows)
  ase := aseGroups
  aseFiles := fun reader => let block := fun n r => screwAse n r (if reader = "ase" then aseNumbered else aseListed)
    twoFiles (block "screw" screwRows) (block "image" imageRows) (block "doubt" doubtRows)
  pymatgen := pmgGroups
  pymatgenFiles := twoFiles (screwPmg "screw" screwRows pmgNamed) (screwPmg "image" imageRows pmgNamed) (screwPmg "doubt" doubtRows pmgNamed)
  ccdc := some exampleCcdc

/-- The readers are `CifReader` and `CSDReader`. -/
noncomputable def cifEnv : Env := { exampleEnv with cifReader := cifReader exampleBackends ⟨[], []⟩, csdReader := csdReader exampleBackends ⟨[], []⟩ }

/-- Options of the example. -/
def cifKwargs (reader : String) : Kwargs := [("remove_hydrogens", .bool true), ("reader", .str reader)]

/-- The same as options of the readers. -/
def cifOptions (reader : String) : ReadOptions := { reader := reader, rh := true, d := "skip" }

theorem cif_reads (reader : String) : ReadsInputs cifEnv exampleBackends ⟨[], []⟩ (cifKwargs reader) (cifOptions reader) :=
  ⟨rfl, rfl, (fun x hx => (by cases hx)), ⟨rfl, rfl, rfl, rfl, rfl, rfl⟩, Or.inl rfl⟩

/-- What the files hold. -/
theorem two_holds {β : Type} {exts : List String} {a b c : β} {describes : β → Option Described → Prop}
    (ha : describes a (some screwDesc)) (hb : describes b (some imageDesc)) (hc : describes c none) :
    HoldsEntries exts describes (twoFiles a b c "a.cif") [some screwDesc] ∧ HoldsEntries exts describes (twoFiles a b c "b.cif") [some imageDesc, none] := by
  constructor
  · rw [twoFiles, if_pos rfl]
    exact .file _ _ (.cons ha .nil)
  · rw [twoFiles, if_neg (by decide)]
    exact .file _ _ (.cons hb (.cons hc .nil))

theorem screw_orderedH : screwEntry.OrderedHydrogens id true "skip" := fun _ _ r hr _ => screw_allOrdered r hr

theorem image_orderedH : imageEntry.OrderedHydrogens id true "skip" := by
  intro _ _ r hr hh
  obtain rfl := List.mem_singleton.1 hr
  exact image_ordered

theorem doubt_orderedH : doubtEntry.OrderedHydrogens id true "skip" := by
  intro _ _ r hr hh
  obtain rfl := List.mem_singleton.1 hr
  refine absurd hh ?_
  rintro (⟨s, h1, pre, c, post, h2, h3, h4, h5⟩ | ⟨h, -⟩)
  · have e : field doubtEntry.tags ["C1?", "C", "0.25", "-0.1(2)", "1.3", "1.0"] "_atom_site_type_symbol" = some "C" := by
      simp only [doubtEntry, screwLike]; decide +kernel
    rw [e] at h1
    obtain rfl := Option.some.inj h1
    have e' : (id "C" : String).toList = ['C'] := by decide +kernel
    rw [e'] at h2
    cases pre with
    | nil =>
      simp only [List.nil_append, List.cons.injEq] at h2
      rw [← h2.1] at h4
      simp at h4
    | cons a l => simp at h2
  · exact h (by simp only [doubtEntry, screwLike]; decide)

theorem holds_files {reader : String} (h : reader ∈ ["gemmi", "ase", "pycodcif", "pymatgen", "ccdc"]) :
    PathHolds exampleBackends id (cifOptions reader) "a.cif" [some screwDesc] ∧ PathHolds exampleBackends id (cifOptions reader) "b.cif" [some imageDesc, none] := by
  simp only [List.mem_cons, List.not_mem_nil, or_false] at h
  have w1 : WordRows screwRows = true := by decide +kernel
  have w2 : WordRows imageRows = true := by decide +kernel
  have w3 : WordRows doubtRows = true := by decide +kernel
  rcases h with rfl | rfl | rfl | rfl | rfl
  · have := two_holds (exts := ["cif"]) (describes := GemmiDescribes exampleGemmi id (cifOptions "gemmi"))
      ⟨_, screwGemmi_holds exampleGemmi rfl "screw" screwRows, describes_screw⟩ ⟨_, screwGemmi_holds exampleGemmi rfl "image" imageRows, describes_image⟩
      ⟨_, screwGemmi_holds exampleGemmi rfl "doubt" doubtRows, describes_doubt⟩
    exact ⟨.gemmi rfl ⟨rfl, rfl⟩ this.1, .gemmi rfl ⟨rfl, rfl⟩ this.2⟩
  · have := two_holds (exts := ["cif"]) (describes := AseDescribes aseGroups id (cifOptions "ase"))
      ⟨_, screwAse_holds screw_lengths screw_numbers w1 (screwAse_numbered "screw" _), Or.inl ⟨screw_orderedH, describes_screw⟩⟩
      ⟨_, screwAse_holds (by decide) image_numbers w2 (screwAse_numbered "image" _), Or.inl ⟨image_orderedH, describes_image⟩⟩
      ⟨_, screwAse_holds (by decide) doubt_numbers w3 (screwAse_numbered "doubt" _), Or.inl ⟨doubt_orderedH, describes_doubt⟩⟩
    exact ⟨.ase (Or.inl rfl) ⟨rfl, rfl⟩ this.1, .ase (Or.inl rfl) ⟨rfl, rfl⟩ this.2⟩
  · have := two_holds (exts := ["cif"]) (describes := AseDescribes aseGroups id (cifOptions "pycodcif"))
      ⟨_, screwAse_holds screw_lengths screw_numbers w1 (screwAse_listed _ "screw" _), Or.inl ⟨screw_orderedH, describes_screw⟩⟩
      ⟨_, screwAse_holds (by decide) image_numbers w2 (screwAse_listed _ "image" _), Or.inl ⟨image_orderedH, describes_image⟩⟩
      ⟨_, screwAse_holds (by decide) doubt_numbers w3 (screwAse_listed _ "doubt" _), Or.inl ⟨doubt_orderedH, describes_doubt⟩⟩
    exact ⟨.ase (Or.inr rfl) ⟨rfl, rfl⟩ this.1, .ase (Or.inr rfl) ⟨rfl, rfl⟩ this.2⟩
  · have := two_holds (exts := ["cif"]) (describes := PmgDescribes pmgGroups id (cifOptions "pymatgen"))
      ⟨_, screwPmg_holds screw_lengths (screwPmg_named "screw" _), Or.inl ⟨screw_orderedH, describes_screw⟩⟩
      ⟨_, screwPmg_holds (by decide) (screwPmg_named "image" _), Or.inl ⟨image_orderedH, describes_image⟩⟩
      ⟨_, screwPmg_holds (by decide) (screwPmg_named "doubt" _), Or.inl ⟨doubt_orderedH, describes_doubt⟩⟩
    exact ⟨.pymatgen rfl ⟨rfl, rfl⟩ this.1, .pymatgen rfl ⟨rfl, rfl⟩ this.2⟩
  · have := two_holds (exts := exampleCcdc.suffixes) (describes_ccdcScrew false) (describes_ccdcImage false) (describes_ccdcDoubt false)
    exact ⟨.ccdc exampleCcdc rfl (by decide) rfl this.1, .ccdc exampleCcdc rfl (by decide) rfl this.2⟩

theorem holds_a {reader : String} (h : reader ∈ ["gemmi", "ase", "pycodcif", "pymatgen", "ccdc"]) :
    InputHolds exampleBackends id (cifOptions reader) (.one (.str "a.cif")) [screwDesc] false :=
  .paths ["a.cif"] (fun _ => [some screwDesc]) (.one _) (fun p hp => by rw [List.mem_singleton.1 hp]; exact (holds_files h).1) rfl

theorem holds_b {reader : String} (h : reader ∈ ["gemmi", "ase", "pycodcif", "pymatgen", "ccdc"]) :
    InputHolds exampleBackends id (cifOptions reader) (.one (.str "b.cif")) [imageDesc] false :=
  .paths ["b.cif"] (fun _ => [some imageDesc, none]) (.one _) (fun p hp => by rw [List.mem_singleton.1 hp]; exact (holds_files h).2) rfl

/-- `compare('a.cif', 'b.cif', by='AMD', k=100, remove_hydrogens=True, reader=reader)` finds distance 0, with each of the backends. -/
example {reader : String} (hr : reader ∈ ["gemmi", "ase", "pycodcif", "pymatgen", "ccdc"]) : ∃ F, ∀ fuel ≥ F,
    compare cifEnv (.one (.str "a.cif")) (some (.one (.str "b.cif"))) {} (cifKwargs reader) fuel = .ok (.matrix ["screw"] ["image"] [[0]]) := by
  obtain ⟨M, f, F, hM, h1, h2⟩ := C83_amd_two_partial (args := {}) (cif_reads reader) (by decide +kernel) rfl (by norm_num) rfl (holds_a hr) (holds_b hr)
    (by simpa using screw_proper) (by simpa using image_proper) (by simp) (by simp)
  have h0 := (h2 0 0 (by simp) (by simp) (screw_shaped rfl _) (screw_shaped rfl _)).2 screw_same
  have hM0 : M = [[0]] := by
    obtain ⟨m1, m2, m3⟩ := hM
    have m3 := m3 0 0 (by simp) (by simp)
    obtain ⟨r, rfl⟩ := List.length_eq_one_iff.1 m1
    obtain ⟨x, rfl⟩ := List.length_eq_one_iff.1 (m2 r (by simp))
    rw [h0] at m3
    simp at m3
    rw [m3]
  refine ⟨F, fun fuel hf => ?_⟩
  rw [h1 fuel hf, hM0]
  rfl

/-- By PDD the distance is at most 0.0006. -/
example {reader : String} (hr : reader ∈ ["gemmi", "ase", "pycodcif", "pymatgen", "ccdc"]) : ∃ (x : ℝ) (F : ℕ), 0 ≤ x ∧ x ≤ 6 / 10000 ∧ ∀ fuel ≥ F,
    compare cifEnv (.one (.str "a.cif")) (some (.one (.str "b.cif"))) { by_ := "pdd" } (cifKwargs reader) fuel = .ok (.matrix ["screw"] ["image"] [[x]]) := by
  obtain ⟨M, f, F, hM, h1, h2⟩ := C83_pdd_two_partial (args := { by_ := "pdd" }) (cif_reads reader) exampleEnv_sound.sched (by decide +kernel) rfl
    (tol := 1 / 10000) (by norm_num) ⟨rfl, rfl, ⟨none, rfl⟩, ⟨_, rfl⟩⟩ (holds_a hr) (holds_b hr)
    (by simpa using screw_proper) (by simpa using image_proper) (by simp) (by simp) rfl
  obtain ⟨h0, h3⟩ := (h2 0 0 (by simp) (by simp) (screw_shaped rfl _) (screw_shaped rfl _) _ rfl).2 screw_same
  refine ⟨f 0 0, F, h0, h3.trans ?_, fun fuel hf => ?_⟩
  · have hsz : max screwDesc.size imageDesc.size ≤ 2 := max_le (size_le ⟨_, rfl⟩ rfl) (size_le ⟨_, rfl⟩ rfl)
    have := emdTol_mono hsz (C := 100 * 4) (by norm_num)
    have e1 : (screwDesc.cell.a : ℝ) = 4 := by norm_num [screwDesc, screwNumbers]
    have e2 : (imageDesc.cell.a : ℝ) = 4 := by norm_num [imageDesc, screwNumbers]
    simp only [List.getElem_cons_zero, e1, e2, max_self]
    refine (add_le_add_right this _).trans ?_
    have hc : (kwOr (cifKwargs reader) "collapse" (.bool true)).truthy = true := rfl
    rw [if_pos hc]
    norm_num [emdTol]
  · have hM0 : M = [[f 0 0]] := by
      obtain ⟨m1, m2, m3⟩ := hM
      have m3 := m3 0 0 (by simp) (by simp)
      obtain ⟨r, rfl⟩ := List.length_eq_one_iff.1 m1
      obtain ⟨x, rfl⟩ := List.length_eq_one_iff.1 (m2 r (by simp))
      simp at m3
      rw [m3]
    rw [h1 fuel hf, hM0]
    rfl

/-! ### Refcodes -/

/-- Options for a family of refcodes. -/
def csdKwargs : Kwargs := [("remove_hydrogens", .bool true), ("refcode_families", .bool true), ("heaviest_component", .bool true)]

theorem csd_reads : ReadsInputs cifEnv exampleBackends ⟨[], []⟩ csdKwargs ⟨"gemmi", true, "skip", true, false, true⟩ :=
  ⟨rfl, rfl, (fun x hx => (by cases hx)), ⟨rfl, rfl, rfl, rfl, rfl, rfl⟩, Or.inl rfl⟩

theorem holds_family : InputHolds exampleBackends id ⟨"gemmi", true, "skip", true, false, true⟩ (.one (.str "SCREWS")) [screwDesc, imageDesc] true := by
  refine .refcodes ["SCREWS"] [some screwDesc, none, some imageDesc] (.one _) ⟨exampleCcdc, rfl, ["SCREWS", "SCREWS02", "SCREWS01"], ?_, ?_⟩ rfl
  · rw [IsRefcodes, if_pos rfl]
    refine ⟨by decide, fun c => ?_, by decide +kernel⟩
    simp [exampleCcdc]
  · exact .cons ⟨_, by simp [exampleCcdc], describes_ccdcScrew true⟩ (.cons ⟨_, by simp [exampleCcdc], describes_ccdcDoubt true⟩
      (.cons ⟨_, by simp [exampleCcdc], describes_ccdcImage true⟩ .nil))

/-- `compare('SCREWS', csd_refcodes=True, refcode_families=True, remove_hydrogens=True, heaviest_component=True)` finds that the entries of the family without disorder have
distance 0. -/
example : ∃ (M : List (List ℝ)) (F : ℕ), IsMatrix 2 2 (fun _ _ => 0) M ∧ ∀ fuel ≥ F,
    compare cifEnv (.one (.str "SCREWS")) none { csdRefcodes := true } csdKwargs fuel = .ok (.matrix ["screw", "image"] ["screw", "image"] M) := by
  obtain ⟨M, f, F, hM, h1, h2⟩ := C83_amd_partial (args := { csdRefcodes := true }) csd_reads (by decide +kernel) rfl (by norm_num) rfl holds_family
    (by simpa using ⟨screw_proper, image_proper⟩) (by simp)
  refine ⟨M, F, ⟨hM.1, hM.2.1, fun i j hi hj => ?_⟩, h1⟩
  have hf : f i j = 0 := by
    refine (h2 i j hi hj ?_ ?_).2 ?_
    · interval_cases i <;> exact screw_shaped rfl _
    · interval_cases j <;> exact screw_shaped rfl _
    · interval_cases i <;> interval_cases j
      exacts [same_of rfl rfl rfl, screw_same, same_of rfl rfl screw_points.symm, same_of rfl rfl rfl]
  rw [hM.2.2 i j hi hj, hf]

end Amd
