import Verif.Proof.CifCompare
import Verif.Props.Readers
import Verif.Spec.AllSitesRead

/-!
# `disorder='all_sites'`: every site is listed with its whole orbit: C89
-/

namespace Amd

open Classical

variable {asString : String → String} {rh : Bool} {e : CifEntry}

/-! ### The converters -/

/-- **C89** With `disorder='all_sites'`, the set that is read from a block of gemmi lists one after the other the orbits of all sites that are written (but no hydrogens with
`remove_hydrogens`), whether or not sites overlap: no site is left out because it is near another one. -/
theorem C89_gemmi {env : GemmiEnv} {b : GemmiBlock} (hw : e.Written) (h : GemmiHolds env asString b e) {s : ReadSet} (hs : (gemmiConvert env b rh "all_sites").2 = .ok s)
    (hcell : NonSingular s.set.cell) (hG : IsSpaceGroup s.set.cell e.ops) (hx : ∀ x ∈ e.sites asString rh "all_sites", ExactSites (1 / 1000) e.ops {x}) :
    ∃ orbits, ListsOrbits e.ops orbits s.set ∧ s.types = orbitTypes orbits ∧
      List.Forall₂ (fun r x => WrittenPoint e.tags r x.site ∧ ∃ sym, ElementText (rowText asString e.tags r) sym ∧ IsAtomicNumber sym x.number)
        (e.rows.filter fun r => WrittenUsed asString e.tags rh "all_sites" r) orbits :=
  (C87_gemmi hw h).every s hs rfl hcell hG hx

/-- **C89** The same with ase. -/
theorem C89_ase {env : AseEnv} {a : AseBlock} (hw : e.Written) (h : AseHolds env asString a e) {s : ReadSet} (hs : (aseConvert env a rh "all_sites").2 = .ok s)
    (hcell : NonSingular s.set.cell) (hG : IsSpaceGroup s.set.cell e.ops) (hx : ∀ x ∈ e.sites asString rh "all_sites", ExactSites (1 / 1000) e.ops {x}) :
    ∃ orbits, ListsOrbits e.ops orbits s.set ∧ s.types = orbitTypes orbits ∧
      List.Forall₂ (fun r x => WrittenPoint e.tags r x.site ∧ ∃ sym, ElementText (rowText asString e.tags r) sym ∧ IsAtomicNumber sym x.number)
        (e.rows.filter fun r => WrittenUsed asString e.tags rh "all_sites" r) orbits :=
  (C87_ase_partial hw h (fun _ hd => absurd hd (by decide))).every s hs rfl hcell hG hx

/-- **C89** The same with pymatgen. -/
theorem C89_pymatgen {env : PmgEnv} {b : PmgBlock} (hw : e.Written) (h : PmgHolds env asString b e) {s : ReadSet} (hs : (pymatgenConvert env b rh "all_sites").2 = .ok s)
    (hcell : NonSingular s.set.cell) (hG : IsSpaceGroup s.set.cell e.ops) (hx : ∀ x ∈ e.sites asString rh "all_sites", ExactSites (1 / 1000) e.ops {x}) :
    ∃ orbits, ListsOrbits e.ops orbits s.set ∧ s.types = orbitTypes orbits ∧
      List.Forall₂ (fun r x => WrittenPoint e.tags r x.site ∧ ∃ sym, ElementText (rowText asString e.tags r) sym ∧ IsAtomicNumber sym x.number)
        (e.rows.filter fun r => WrittenUsed asString e.tags rh "all_sites" r) orbits :=
  (C87_pymatgen_partial hw h (fun _ hd => absurd hd (by decide))).every s hs rfl hcell hG hx

/-- **C89** The same for crystals of ccdc: the orbits of all atoms of the asymmetric unit, with their atomic numbers. -/
theorem C89_ccdc {env : CcdcEnv} {crystal c' : CcdcCrystal} {heaviest : Bool} {ws : List Warning} {s : FullSet} {G : Set (FracOp 3)}
    (h : ccdcConvert env crystal rh "all_sites" heaviest false = (c', ws, .ok s)) (hops : OperatorsDenote c'.symmetryOperators G)
    (hcell : NonSingular s.set.cell) (hG : IsSpaceGroup s.set.cell G) (hx : ∀ x ∈ env.sites c', ExactSites (1 / 1000) G {x}) :
    ∃ orbits, ListsOrbits G orbits s.set ∧ s.types = some (orbitTypes orbits) ∧
      List.Forall₂ (fun a x => a.coords = some x.site ∧ x.number = a.number) (env.asymAtoms c') orbits := by
  obtain ⟨ops, ho, rfl⟩ := ccdc_ops hops
  obtain ⟨asym, cell, ha, -, -, hs, ht⟩ := ccdc_shape h ho
  simp only [if_true, ne_eq, not_true_eq_false, decide_false] at hs ht
  rw [hs] at hcell hG
  have hcell : NonSingular cell := hcell
  have hG : IsSpaceGroup cell (opSet ops) := hG
  have hne : ops ≠ [] := by
    rintro rfl
    obtain ⟨g, ⟨o, ho, -⟩, -⟩ := hG.one
    cases ho
  have hl : asym.length = (env.asymAtoms c').length := by simpa using (congrArg List.length ha).symm
  obtain ⟨hL, hT⟩ := assemble_all (name := "") hcell hne (asym.map fractPt) ((env.asymAtoms c').map CcdcAtom.number) (by simp [hl]) (by
    intro q hq
    obtain ⟨x, hxa, rfl⟩ := List.mem_map.1 hq
    refine exact_intEq hG.lattice (P := {x}) (by rintro _ rfl; exact ⟨x, rfl, fractPt_intEq x⟩) (hx x ?_)
    rw [← sites_eq, coords_filterMap ha]
    exact hxa)
  rw [List.zip_map, List.map_map] at hL hT
  rw [hs]
  refine ⟨_, hL.moved hG (g := fun x : Pt 3 ℝ × CcdcAtom => ⟨x.1, x.2.number, (siteImages eqSiteTol ops (fractPt x.1)).map (toCartesian cell)⟩)
    fun x _ => ⟨rfl, rfl, fractPt_intEq x.1⟩, ?_, ?_⟩
  · rw [ht]
    refine congrArg some (hT.trans ?_)
    rw [orbitTypes, orbitTypes, List.flatMap_map, List.flatMap_map]
    rfl
  · rw [List.forall₂_map_right_iff, List.forall₂_iff_get]
    refine ⟨by simp [hl], fun i h1 h2 => ?_⟩
    have h3 : i < asym.length := by omega
    have := List.getElem_of_eq ha (i := i) (by simpa using h1)
    simp only [List.getElem_map] at this
    simp [this]

/-! ### The readers -/

theorem forall₂_right_unique {α β γ : Type} {R : α → β → Prop} {Q : α → γ → Prop} (f : γ → β) (hu : ∀ a b c, R a b → Q a c → f c = b) {l : List α} {m : List β} {n : List γ}
    (h : List.Forall₂ R l m) (h' : List.Forall₂ Q l n) : n.map f = m := by
  induction h generalizing n with
  | nil => cases h'; rfl
  | cons h0 h ih =>
    cases h' with
    | cons h1 h' => rw [List.map_cons, hu _ _ _ h0 h1, ih h']

theorem ReadAsWritten.lists {res : Except Exc ReadSet} {r : Option SitesDescribed} (he : EntryDescribesAll asString rh e r)
    (h : e.Written → ReadAsWritten asString rh "all_sites" e res) : ReadsAs SitesDescribed.Proper ListsCrystal ReadSet.toCrystal res r := by
  cases he with
  | empty hw h0 => exact ⟨_, (h hw).empty (fun hd => absurd hd (by decide)) h0⟩
  | crystal hw hne sites hsites =>
    have h := h hw
    intro hp
    obtain ⟨s, hs⟩ := h.accepted (by
      rintro (hk | hk)
      · exact absurd hk.1 (by decide)
      · exact hne.ne_empty hk)
    obtain ⟨cell, hcell, hns, hG⟩ := hp.group
    have hcell' := h.cell s hs
    have hgram := gram_of_cellpar hcell hcell'
    obtain ⟨orbits, h1, -, h2⟩ := h.every s hs rfl (nonSingular_congr hgram hns) (isSpaceGroup_congr hgram hG) (by
      rintro x ⟨r, hr, hu, hx⟩
      refine hp.exact x ?_
      have hr' : r ∈ e.rows.filter fun r => WrittenUsed asString e.tags rh "all_sites" r := by simpa using ⟨hr, hu⟩
      obtain ⟨i, hi, rfl⟩ := List.mem_iff_getElem.1 hr'
      have := (List.forall₂_iff_get.1 hsites).2 i hi (by rw [← hsites.length_eq]; exact hi)
      rw [writtenPoint_unique hx this]
      exact List.getElem_mem _)
    exact ⟨s, hs, s.set, by rw [ReadSet.toCrystal, h.name s hs], hcell', orbits, h1,
      forall₂_right_unique _ (fun a b c hb hc => writtenPoint_unique hc.1 hb) hsites h2⟩

theorem ccdc_lists {env : CcdcEnv} {heaviest : Bool} {x : CcdcEntry} {r : Option SitesDescribed} (h : CcdcDescribesAll env rh heaviest x r) :
    ReadsAs SitesDescribed.Proper ListsCrystal FullSet.toCrystal (ccdcEntryConvert env x rh "all_sites" heaviest false).2.2 r := by
  cases h with
  | flat h =>
    obtain ⟨t, ht⟩ := C74_entry (env := env) (rh := rh) (d := "all_sites") (heaviest := heaviest) (centres := false) (Or.inl h)
    exact ⟨t, by rw [ht]⟩
  | noCell c hs h =>
    obtain ⟨m, hm, rfl⟩ := selected_ok hs
    rw [entry_convert hs]
    exact convert_missing hm h
  | empty c p hs hp h =>
    obtain ⟨m, hm, rfl⟩ := selected_ok hs
    rw [entry_convert hs]
    exact convert_empty hm hp h
  | atoms c p G hs hp hG hne sites h =>
    obtain ⟨m, hm, rfl⟩ := selected_ok hs
    rw [entry_convert hs]
    intro hpr
    have hco : ∀ a ∈ env.asymAtoms (env.setMolecule x.crystal m), ∃ y ∈ sites, a.coords = some y := by
      intro a ha
      obtain ⟨i, hi, rfl⟩ := List.mem_iff_getElem.1 ha
      have hi' : i < sites.length := by rw [← h.length_eq]; exact hi
      exact ⟨sites[i], List.getElem_mem _, (List.forall₂_iff_get.1 h).2 i hi hi'⟩
    obtain ⟨s, hs'⟩ := convert_accepted (heaviest := heaviest) hm hp hG hne (fun a ha => by obtain ⟨y, -, e⟩ := hco a ha; rw [e]; simp)
    have hr : ccdcConvert env x.crystal rh "all_sites" heaviest false =
        (env.setMolecule x.crystal m, (ccdcConvert env x.crystal rh "all_sites" heaviest false).2.1, .ok s) := by
      rw [← ccdc_select (centres := false) hm, ← hs']
    have hcell := C77_cell hr hp
    obtain ⟨cell, hc, hns, hgr⟩ := hpr.group
    have hg := gram_of_cellpar hc hcell
    obtain ⟨orbits, h1, -, h2⟩ := C89_ccdc hr hG (nonSingular_congr hg hns) (isSpaceGroup_congr hg hgr) (by
      rintro y ⟨a, ha, hy⟩
      obtain ⟨z, hz, e⟩ := hco a ha
      obtain rfl : y = z := Option.some.inj (hy.symm.trans e)
      exact hpr.exact _ hz)
    have hname : s.name = some (env.setMolecule x.crystal m).identifier := by
      obtain ⟨_, _, _, _, _, hh⟩ := ccdc_ok hr
      rw [if_neg (by simp)] at hh
      obtain ⟨_, _, _, _, r, hf, rfl⟩ := hh
      obtain ⟨_, _, e, _⟩ := finishSites_ok hf
      simp only [e]
    exact ⟨s, hs', s.set, by rw [FullSet.toCrystal, hname]; rfl, hcell, orbits, h1,
      forall₂_right_unique _ (fun a b c hb hc => Option.some.inj (hc.1.symm.trans hb)) h h2⟩

variable {B : CifBackends} {w : World} {kw : Kwargs} {o : ReadOptions}

/-- **C89** `list(CifReader(path, disorder='all_sites', ...))` has, in order, one periodic set for each block of the file, or of the files of the directory with the right
extension, that has sites, and it lists the orbits of all of these sites. -/
theorem C89_cif (ho : CifOptions kw o) (hd : o.d = "all_sites") (hc : o.centres = false) (hw : ∀ x, w.action x ≠ .error) {path : String}
    {rs : List (Option SitesDescribed)} (hf : PathHoldsAll B asString o path rs) (hp : ∀ c ∈ rs.reduceOption, c.Proper) :
    ∃ cs, cifReader B w kw path = .ok cs ∧ List.Forall₂ ListsCrystal rs.reduceOption cs := by
  have hv : o.d ∈ ["skip", "ordered_sites", "all_sites"] := by simp [hd]
  have k1 : argOf kw "reader" = .str o.reader := ho.reader
  have k2 : (PyVal.str o.reader).text = o.reader := rfl
  rw [cifReader, k1]
  simp only [k2]
  cases hf with
  | gemmi hr hn h =>
    rw [if_pos hr]
    refine readPath_reads (by simp) ho hv hw (by rw [hr]; rfl) (Or.inr ⟨hn, hc⟩) h (fun b r => ?_) hp
    rintro ⟨e, hb, he⟩
    rw [hd]
    exact ReadAsWritten.lists he fun hw => C87_gemmi hw hb
  | ase hr hn h =>
    rw [if_neg (by rcases hr with hr | hr <;> rw [hr] <;> decide), if_pos hr]
    refine readPath_reads (by simp) ho hv hw (by rcases hr with hr | hr <;> rw [hr] <;> rfl) (Or.inr ⟨hn, hc⟩) h (fun b r => ?_) hp
    rintro ⟨e, hb, he⟩
    rw [hd]
    exact ReadAsWritten.lists he fun hw => C87_ase_partial hw hb (fun _ hd => absurd hd (by decide))
  | pymatgen hr hn h =>
    rw [if_neg (by rw [hr]; decide), if_neg (by rw [hr]; decide), if_pos hr]
    refine readPath_reads (by simp) ho hv hw (by rw [hr]; rfl) (Or.inr ⟨hn, hc⟩) h (fun b r => ?_) hp
    rintro ⟨e, hb, he⟩
    rw [hd]
    exact ReadAsWritten.lists he fun hw => C87_pymatgen_partial hw hb (fun _ hd => absurd hd (by decide))
  | ccdc P hP hs hr h =>
    rw [if_neg (by rw [hr]; decide), if_neg (by rw [hr]; decide), if_neg (by rw [hr]; decide), if_pos hr, hP]
    exact readPath_reads hs ho hv hw (by rw [hr]; rfl) (Or.inl hr) h (fun b r hb => by rw [hd, hc]; exact ccdc_lists hb) hp

/-- **C89** `list(CSDReader(refcodes, disorder='all_sites', ...))` has, in order, one periodic set for each entry that is asked for and not passed over, and it lists the orbits
of all atoms of the asymmetric unit. -/
theorem C89_csd {P : CcdcPackage} {refcodes : Refcodes} {families heaviest : Bool} {xs : List CcdcEntry} (hi : CsdItems P families refcodes (xs.map .item))
    (hw : ∀ x, w.action x ≠ .error) {rs : List (Option SitesDescribed)}
    (hx : List.Forall₂ (CcdcDescribesAll P.env rh heaviest) xs rs) (hp : ∀ c ∈ rs.reduceOption, c.Proper) (showWarnings : Bool) :
    ∃ r ss, csdReaderInit (some P) refcodes families rh "all_sites" heaviest false showWarnings = .ok r ∧ (r.toList w).2 = .ok ss ∧
      List.Forall₂ ListsCrystal rs.reduceOption (ss.map FullSet.toCrystal) := by
  rw [csdItems_init hi (by simp)]
  have hc : List.Forall₂ (fun x r => ReadsAs SitesDescribed.Proper ListsCrystal FullSet.toCrystal (ccdcEntryConvert P.env x rh "all_sites" heaviest false).2.2 r) xs rs :=
    hx.imp fun _ _ h => ccdc_lists h
  refine ⟨_, _, rfl, C41_list xs rfl (fun _ => hw) fun x hxs => ?_,
    reads_filter (convert := fun x => (ccdcEntryConvert P.env x rh "all_sites" heaviest false).2) hc hp⟩
  exact reads_each (convert := fun x => (ccdcEntryConvert P.env x rh "all_sites" heaviest false).2) hc hp hxs

end Amd
