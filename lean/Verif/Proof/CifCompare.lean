import Verif.Proof.CcdcReads
import Mathlib.Data.List.ReduceOption
import Verif.Props.Backends
import Verif.Props.Reader

/-! CIF files and refcodes read. -/

namespace Amd

open Classical

variable {asString : String → String} {rh : Bool} {d : String} {e : CifEntry}

theorem ReadAsWritten.skips {r : Except Exc ReadSet} (h : ReadAsWritten asString rh d e r) (hk : e.Skipped asString rh d) : ∃ t, r = .error (.parse t) := by
  by_cases hx : d = "skip" ∧ ∃ r ∈ e.rows, WrittenDisordered asString e.tags r
  · exact ⟨_, h.disordered hx.1 hx.2⟩
  · rcases hk with hk | hk
    · exact absurd hk hx
    · exact ⟨_, h.empty (fun hd r hr hdis => hx ⟨hd, r, hr, hdis⟩) hk⟩

theorem written_rows_finite (asString : String → String) (tags : List String) (rows : List (List String)) (rh : Bool) (d : String) :
    ∃ f : Fin rows.length → Pt 3 ℝ, ∀ x ∈ WrittenSites asString tags rows rh d, ∃ i, f i = x := by
  refine ⟨fun i => if h : ∃ x, WrittenPoint tags rows[i] x then Classical.choose h else 0, ?_⟩
  rintro x ⟨r, hr, -, hx⟩
  obtain ⟨i, hi, rfl⟩ := List.mem_iff_getElem.1 hr
  refine ⟨⟨i, hi⟩, ?_⟩
  have h : ∃ x, WrittenPoint tags rows[i] x := ⟨x, hx⟩
  have hx' := Classical.choose_spec h
  simp only [Fin.getElem_fin]
  rw [dif_pos h]
  funext j
  obtain ⟨s, q, h1, h2, h3⟩ := hx j
  obtain ⟨s', q', h1', h2', h3'⟩ := hx' j
  obtain rfl : s = s' := Option.some.inj (h1.symm.trans h1')
  rw [h3, h3', h2.unique h2']

theorem CifEntry.sites_finite (asString : String → String) (rh : Bool) (d : String) (e : CifEntry) : (e.sites asString rh d).Finite := by
  obtain ⟨f, hf⟩ := written_rows_finite asString e.tags e.rows rh d
  exact (Set.finite_range f).subset fun x hx => hf x hx

theorem ReadAsWritten.facts {r : Except Exc ReadSet} (h : ReadAsWritten asString rh d e r) (hp : (e.described asString rh d).Proper) (hd : d ≠ "all_sites")
    (hk : ¬ e.Skipped asString rh d) : ∃ s, r = .ok s ∧ Reads (e.described asString rh d) s.toCrystal := by
  obtain ⟨s, hs⟩ := h.accepted hk
  obtain ⟨cell, hcell, hns, hG⟩ := hp.group
  have hcell' := h.cell s hs
  have hgram := gram_of_cellpar hcell hcell'
  have hns' := nonSingular_congr hgram hns
  have hG' := isSpaceGroup_congr hgram hG
  have hpoints := h.points s hs hG' hp.exact
  obtain ⟨inds, mult, -, -, hdesc⟩ := h.once s hs hd hns' hG' hp.exact
  exact ⟨s, hs, s.set, by rw [ReadSet.toCrystal, h.name s hs]; rfl, hcell', ⟨inds, mult, hdesc⟩, h.inside s hs hG' hp.exact,
    motif_le_size hp.finiteOps hp.finiteSites hdesc.once hpoints, hpoints⟩

theorem ReadAsWritten.readsAs {res : Except Exc ReadSet} {r : Option Described} (hd : d ≠ "all_sites") (he : EntryDescribes asString rh d e r)
    (h : e.Written → ReadAsWritten asString rh d e res) : ReadsAs Described.Proper Reads ReadSet.toCrystal res r := by
  cases he with
  | skipped hw hk => exact (h hw).skips hk
  | crystal hw hk => exact fun hp => (h hw).facts hp hd hk

/-! ### The readers -/

theorem extension_iff {exts : List String} (h : "" ∉ exts) {name : String} : lower (suffixOf name) ∈ exts ↔ ∃ ext ∈ exts, HasExtension name ext := by
  constructor
  · intro hx
    exact ⟨_, hx, (suffixOf_eq fun e => h (e ▸ hx)).1 rfl⟩
  · rintro ⟨ext, hx, he⟩
    rw [(suffixOf_eq fun e => h (e ▸ hx)).2 he]
    exact hx

theorem reads_filter {α β δ : Type} {proper : δ → Prop} {reads : δ → Crystal → Prop} {convert : β → Conversion α} {toCrystal : α → Crystal} {bs : List β} {rs : List (Option δ)}
    (h : List.Forall₂ (fun b r => ReadsAs proper reads toCrystal (convert b).2 r) bs rs) (hp : ∀ c ∈ rs.reduceOption, proper c) :
    List.Forall₂ reads rs.reduceOption ((bs.filterMap fun b => (convert b).2.toOption).map toCrystal) := by
  induction h with
  | nil => exact .nil
  | cons hb h ih =>
    rename_i b r bs rs
    cases r with
    | none =>
      obtain ⟨t, ht⟩ := hb
      rw [List.reduceOption_cons_of_none] at hp ⊢
      rw [List.filterMap_cons_none (by rw [ht]; rfl)]
      exact ih hp
    | some c =>
      rw [List.reduceOption_cons_of_some] at hp ⊢
      obtain ⟨s, hs, hS⟩ := hb (hp c (by simp))
      rw [List.filterMap_cons_some (b := s) (by rw [hs]; rfl), List.map_cons]
      exact .cons hS (ih fun c hc => hp c (by simp [hc]))

theorem reads_each {α β δ : Type} {proper : δ → Prop} {reads : δ → Crystal → Prop} {convert : β → Conversion α} {toCrystal : α → Crystal} {bs : List β} {rs : List (Option δ)}
    (h : List.Forall₂ (fun b r => ReadsAs proper reads toCrystal (convert b).2 r) bs rs) (hp : ∀ c ∈ rs.reduceOption, proper c) {b : β} (hb : b ∈ bs) :
    (∃ a, (convert b).2 = .ok a) ∨ ∃ t, (convert b).2 = .error (.parse t) := by
  obtain ⟨i, hi, rfl⟩ := List.mem_iff_getElem.1 hb
  have hi' : i < rs.length := by rw [← h.length_eq]; exact hi
  have hr : ReadsAs proper reads toCrystal (convert bs[i]).2 rs[i] := (List.forall₂_iff_get.1 h).2 i hi hi'
  have hm : rs[i] ∈ rs := List.getElem_mem hi'
  generalize rs[i] = o at hr hm
  cases o with
  | none => exact Or.inr hr
  | some c =>
    obtain ⟨s, hs, -⟩ := hr (hp c (List.reduceOption_mem_iff.2 hm))
    exact Or.inl ⟨s, hs⟩

/-- The list of a reader whose iterator gives these blocks, and perhaps warnings. -/
theorem toList_reads {α β δ : Type} {proper : δ → Prop} {reads : δ → Crystal → Prop} {r : Reader β α} {toCrystal : α → Crystal} {w : World} (hw : ∀ x, w.action x ≠ .error) {bs : List β} {rs : List (Option δ)}
    (h : List.Forall₂ (fun b x => ReadsAs proper reads toCrystal (r.converter b).2 x) bs rs) (hp : ∀ c ∈ rs.reduceOption, proper c)
    (h1 : ∀ ev ∈ r.events, (∃ x, ev = .warn x) ∨ ∃ b ∈ bs, ev = .item b)
    (h2 : ∀ (f : β → Option α), (r.events.filterMap fun
      | .item i => f i
      | _ => none) = bs.filterMap f) :
    ∃ cs, anyExc ((r.toList w).2.map fun l => l.map toCrystal) = .ok cs ∧ List.Forall₂ reads rs.reduceOption cs := by
  refine ⟨_, ?_, reads_filter h hp⟩
  rw [C41_list_events (fun _ => hw)]
  · simp only [Except.map, anyExc]
    congr 2
    refine Eq.trans (congrArg (fun F => r.events.filterMap F) (funext fun ev => ?_)) (h2 fun b => (r.converter b).2.toOption)
    cases ev <;> rfl
  · intro ev hev
    rcases h1 ev hev with hx | ⟨b, hbs, rfl⟩
    · exact Or.inl hx
    · exact Or.inr ⟨_, rfl, reads_each h hp hbs⟩

/-- The events of the iterator give the blocks at the path. -/
theorem holds_events {β δ : Type} {α : Type} {exts : List String} (hexts : "" ∉ exts) {describes : β → Option δ → Prop} {p : PathKind β} {rs : List (Option δ)}
    (h : HoldsEntries exts describes p rs) :
    ∃ (evs : List (Event β)) (bs : List β), (match p with
      | .file parsed => parsed
      | .dir entries => .ok (dirEvents exts entries)
      | .missing => .error (.other "FileNotFoundError")) = .ok evs ∧
    List.Forall₂ describes bs rs ∧ (∀ ev ∈ evs, (∃ x, ev = .warn x) ∨ ∃ b ∈ bs, ev = .item b) ∧
    ∀ (f : β → Option α), (evs.filterMap fun
      | .item i => f i
      | _ => none) = bs.filterMap f := by
  cases h with
  | file bs rs h =>
    refine ⟨_, bs, rfl, h, fun ev hev => ?_, fun f => ?_⟩
    · obtain ⟨b, hb, rfl⟩ := List.mem_map.1 hev
      exact Or.inr ⟨b, hb, rfl⟩
    · rw [List.filterMap_map]
      rfl
  | dir fs h =>
    induction fs with
    | nil => exact ⟨_, [], rfl, .nil, by simp [dirEvents], fun f => rfl⟩
    | cons x fs ih =>
      obtain ⟨evs, bs, e0, ih0, ih1, ih2⟩ := ih fun f hf => h f (by simp [hf])
      obtain rfl := Except.ok.inj e0
      by_cases hc : x.1.isFile = true ∧ ∃ ext ∈ exts, HasExtension x.1.name ext
      · have hx := h x (by simp) hc.1 hc.2
        have h1 : ¬ x.1.isFile = false := by rw [hc.1]; simp
        have h2 : lower (suffixOf x.1.name) ∈ exts := (extension_iff hexts).2 hc.2
        refine ⟨_, x.1.items ++ bs, rfl, ?_, ?_⟩
        · rw [List.filter_cons_of_pos (by simpa using hc), List.flatMap_cons]
          exact List.rel_append hx ih0
        rw [List.map_cons, dirEvents, if_neg h1, if_neg (by simpa using h2)]
        constructor
        · intro ev hev
          rcases List.mem_append.1 hev with hev | hev
          · rcases List.mem_append.1 hev with hev | hev
            · obtain ⟨b, hb, rfl⟩ := List.mem_map.1 hev
              exact Or.inr ⟨b, List.mem_append_left _ hb, rfl⟩
            · split at hev
              · cases hev
              · exact Or.inl ⟨_, List.mem_singleton.1 hev⟩
          · rcases ih1 ev hev with hev | ⟨b, hb, rfl⟩
            · exact Or.inl hev
            · exact Or.inr ⟨b, List.mem_append_right _ hb, rfl⟩
        · intro f
          rw [List.filterMap_append, List.filterMap_append, ih2 f, List.filterMap_append]
          congr 1
          have h5 : List.filterMap (fun ev : Event β => match ev with
            | .item i => f i
            | _ => none) (List.map Event.item x.1.items) = List.filterMap f x.1.items := by
            rw [List.filterMap_map]
            rfl
          generalize x.1.failure = o
          cases o <;> exact (List.append_nil _).trans h5
      · have h3 : dirEvents exts (List.map Prod.fst (x :: fs)) = dirEvents exts (fs.map Prod.fst) := by
          rw [List.map_cons, dirEvents]
          by_cases h1 : x.1.isFile = false
          · rw [if_pos h1]
          · rw [if_neg h1, if_pos]
            intro h2
            exact hc ⟨by simpa using h1, (extension_iff hexts).1 h2⟩
        refine ⟨_, bs, rfl, ?_⟩
        rw [h3, List.filter_cons_of_neg (by simpa using hc)]
        exact ⟨ih0, ih1, ih2⟩

/-- The options of the readers among the keyword arguments of `compare`. -/
structure ReaderOptions (kwargs : Kwargs) (o : ReadOptions) : Prop where
  reader : kwOr kwargs "reader" (.str "gemmi") = .str o.reader
  hydrogens : (kwOr kwargs "remove_hydrogens" (.bool false)).truthy = o.rh
  disorder : kwOr kwargs "disorder" (.str "skip") = .str o.d
  heaviest : (kwOr kwargs "heaviest_component" (.bool false)).truthy = o.heaviest
  centres : (kwOr kwargs "molecular_centres" (.bool false)).truthy = o.centres
  families : (kwOr kwargs "refcode_families" (.bool false)).truthy = o.families

theorem ReaderOptions.default : ReaderOptions [] ⟨"gemmi", false, "skip", false, false, false⟩ := ⟨rfl, rfl, rfl, rfl, rfl, rfl⟩

/-- The keyword arguments that `CifReader` is called with. -/
structure CifOptions (kw : Kwargs) (o : ReadOptions) : Prop where
  reader : argOf kw "reader" = .str o.reader
  hydrogens : (argOf kw "remove_hydrogens").truthy = o.rh
  disorder : argOf kw "disorder" = .str o.d
  heaviest : (argOf kw "heaviest_component").truthy = o.heaviest
  centres : (argOf kw "molecular_centres").truthy = o.centres

/-- The keyword arguments that `CSDReader` is called with. -/
structure CsdOptions (kw : Kwargs) (o : ReadOptions) : Prop where
  hydrogens : (argOf kw "remove_hydrogens").truthy = o.rh
  disorder : argOf kw "disorder" = .str o.d
  heaviest : (argOf kw "heaviest_component").truthy = o.heaviest
  centres : (argOf kw "molecular_centres").truthy = o.centres
  families : (argOf kw "refcode_families").truthy = o.families

theorem ReaderOptions.cif {kwargs : Kwargs} {o : ReadOptions} (h : ReaderOptions kwargs o) (verbose : Bool) : CifOptions (routeKwargs verbose kwargs).cif o :=
  ⟨h.reader, h.hydrogens, h.disorder, h.heaviest, h.centres⟩

theorem ReaderOptions.csd {kwargs : Kwargs} {o : ReadOptions} (h : ReaderOptions kwargs o) (verbose : Bool) : CsdOptions (routeKwargs verbose kwargs).csd o :=
  ⟨h.hydrogens, h.disorder, h.heaviest, h.centres, h.families⟩

variable {B : CifBackends} {w : World} {kw : Kwargs} {o : ReadOptions}

theorem ReadOptions.Distinct.valid (h : o.Distinct) : o.d ∈ ["skip", "ordered_sites", "all_sites"] := by
  rcases h with h | h | h
  · simp [h]
  · simp [h]
  · simp [h.1]

theorem ReadOptions.Distinct.atoms (h : o.Distinct) : o.d ≠ "all_sites" ∨ o.centres = true := by
  rcases h with h | h | h
  · simp [h]
  · simp [h]
  · exact Or.inr h.2

theorem ReadOptions.Distinct.sites (h : o.Distinct) (hc : o.centres = false) : o.d ≠ "all_sites" := h.atoms.resolve_right (by simp [hc])

theorem readPath_reads {β α δ : Type} {proper : δ → Prop} {reads : δ → Crystal → Prop} {convert : β → Bool → String → Bool → Bool → Conversion α} {files : String → PathKind β} {toCrystal : α → Crystal}
    {suffixes : Option (List String)} {exts : List String} (hexts : "" ∉ exts) {describes : β → Option δ → Prop}
    (ho : CifOptions kw o) (hd1 : o.d ∈ ["skip", "ordered_sites", "all_sites"]) (hw : ∀ x, w.action x ≠ .error)
    (hre : backendExtensions (backendEnv convert files toCrystal suffixes) o.reader = .ok exts) (hcc : o.reader = "ccdc" ∨ o.heaviest = false ∧ o.centres = false)
    {path : String} {rs : List (Option δ)} (hf : HoldsEntries exts describes (files path) rs)
    (hread : ∀ b r, describes b r → ReadsAs proper reads toCrystal (convert b o.rh o.d o.heaviest o.centres).2 r) (hp : ∀ c ∈ rs.reduceOption, proper c) :
    ∃ cs, readPath convert files toCrystal suffixes w o.reader kw path = .ok cs ∧ List.Forall₂ reads rs.reduceOption cs := by
  have k2 : (argOf kw "remove_hydrogens").truthy = o.rh := ho.hydrogens
  have k3 : argOf kw "disorder" = .str o.d := ho.disorder
  have k4 : (argOf kw "heaviest_component").truthy = o.heaviest := ho.heaviest
  have k5 : (argOf kw "molecular_centres").truthy = o.centres := ho.centres
  obtain ⟨evs, bs, hev, h0, h1, h2⟩ := holds_events (α := α) hexts hf
  have hall : List.Forall₂ (fun b r => ReadsAs proper reads toCrystal (convert b o.rh o.d o.heaviest o.centres).2 r) bs rs := h0.imp hread
  rw [readPath, k2, k3, k4, k5]
  have hinit : ∀ sw : Bool, cifReaderInit (backendEnv convert files toCrystal suffixes) path o.reader o.rh (PyVal.str o.d).text o.heaviest o.centres sw =
      .ok { events := evs, converter := fun b => convert b o.rh o.d o.heaviest o.centres, name := fun s => (toCrystal s).name, showWarnings := sw } := by
    intro sw
    have n1 : ¬ (o.reader ≠ "ccdc" ∧ o.heaviest = true) := fun hx => hcc.elim hx.1 fun hy => by rw [hy.1] at hx; cases hx.2
    have n2 : ¬ (o.reader ≠ "ccdc" ∧ o.centres = true) := fun hx => hcc.elim hx.1 fun hy => by rw [hy.2] at hx; cases hx.2
    rw [cifReaderInit, if_neg (fun hx => hx hd1), if_neg n1, if_neg n2, hre]
    simp only [bind, Except.bind]
    have : (backendEnv convert files toCrystal suffixes).path o.reader path = files path := rfl
    rw [this]
    cases hp : files path with
    | file parsed =>
      rw [hp] at hev
      simp only at hev ⊢
      rw [hev]
      rfl
    | dir entries =>
      rw [hp] at hev
      simp only at hev ⊢
      rw [← Except.ok.inj hev]
      rfl
    | missing => rw [hp] at hev; cases hev
  rw [hinit]
  exact toList_reads hw hall hp h1 h2

theorem reader_reads (ho : CifOptions kw o) (hd : o.Distinct) (hw : ∀ x, w.action x ≠ .error) {path : String}
    {rs : List (Option Described)} (hf : PathHolds B asString o path rs) (hp : ∀ c ∈ rs.reduceOption, c.Proper) :
    ∃ cs, cifReader B w kw path = .ok cs ∧ List.Forall₂ Reads rs.reduceOption cs := by
  have k1 : argOf kw "reader" = .str o.reader := ho.reader
  have k2 : (PyVal.str o.reader).text = o.reader := rfl
  rw [cifReader, k1]
  simp only [k2]
  cases hf with
  | gemmi hr hn h =>
    rw [if_pos hr]
    refine readPath_reads (by simp) ho hd.valid hw (by rw [hr]; rfl) (Or.inr hn) h (fun b r => ?_) hp
    rintro ⟨e, hb, he⟩
    exact ReadAsWritten.readsAs (hd.sites hn.2) he fun hw => C87_gemmi hw hb
  | ase hr hn h =>
    rw [if_neg (by rcases hr with hr | hr <;> rw [hr] <;> decide), if_pos hr]
    refine readPath_reads (by simp) ho hd.valid hw (by rcases hr with hr | hr <;> rw [hr] <;> rfl) (Or.inr hn) h (fun b r => ?_) hp
    rintro ⟨e, hb, ⟨hh, he⟩ | ⟨hh, hw, he⟩⟩
    · exact ReadAsWritten.readsAs (hd.sites hn.2) he fun hw => C87_ase_partial hw hb hh
    · rw [hh]
      exact ReadAsWritten.readsAs (hd.sites hn.2) he fun _ => C87_ase_removed hw hb
  | pymatgen hr hn h =>
    rw [if_neg (by rw [hr]; decide), if_neg (by rw [hr]; decide), if_pos hr]
    refine readPath_reads (by simp) ho hd.valid hw (by rw [hr]; rfl) (Or.inr hn) h (fun b r => ?_) hp
    rintro ⟨e, hb, ⟨hh, he⟩ | ⟨hh, hw, he⟩⟩
    · exact ReadAsWritten.readsAs (hd.sites hn.2) he fun hw => C87_pymatgen_partial hw hb hh
    · rw [hh]
      exact ReadAsWritten.readsAs (hd.sites hn.2) he fun _ => C87_pymatgen_removed hw hb
  | ccdc P hP hs hr h =>
    rw [if_neg (by rw [hr]; decide), if_neg (by rw [hr]; decide), if_neg (by rw [hr]; decide), if_pos hr, hP]
    exact readPath_reads hs ho hd.valid hw (by rw [hr]; rfl) (Or.inl hr) h (fun b r hb => ccdc_readsAs hb hd.atoms) hp

/-- The refcodes that `CSDReader` reads are those asked for. -/
theorem refcodes_eq {search : String → List String} {families : Bool} {given codes : List String} (h : IsRefcodes search families given codes) :
    csdRefcodes search (.list (given.map some)) families = .ok (some codes) := by
  cases families with
  | false =>
    rw [IsRefcodes, if_neg (by simp)] at h
    rw [h]
    exact (C53_arguments search false).2.2.2.1 given
  | true =>
    rw [IsRefcodes, if_pos rfl] at h
    obtain ⟨l, h1, h2, h3, h4⟩ := C53_families search given
    rw [h1]
    congr 2
    refine List.Perm.eq_of_pairwise (fun a b _ _ h h' => absurd h (lt_asymm h')) h4 h.2.2 ((List.perm_ext_iff_of_nodup h2 h.1).2 fun x => ?_)
    rw [h3, h.2.1]

theorem csdReader_list {δ : Type} {proper : δ → Prop} {reads : δ → Crystal → Prop} (ho : CsdOptions kw o) (hd1 : o.d ∈ ["skip", "ordered_sites", "all_sites"])
    (hw : ∀ x, w.action x ≠ .error) {given codes : List String} {P : CcdcPackage} (hP : B.ccdc = some P) (hcodes : IsRefcodes P.search o.families given codes)
    {describes : CcdcEntry → Option δ → Prop} {rs : List (Option δ)} (h : List.Forall₂ (fun c r => ∃ x, P.entry c = .item x ∧ describes x r) codes rs)
    (hread : ∀ x r, describes x r → ReadsAs proper reads FullSet.toCrystal (ccdcEntryConvert P.env x o.rh o.d o.heaviest o.centres).2.2 r)
    (hp : ∀ c ∈ rs.reduceOption, proper c) :
    ∃ cs, csdReader B w kw given = .ok cs ∧ List.Forall₂ reads rs.reduceOption cs := by
  have k1 : (argOf kw "refcode_families").truthy = o.families := ho.families
  have k2 : (argOf kw "remove_hydrogens").truthy = o.rh := ho.hydrogens
  have k3 : argOf kw "disorder" = .str o.d := ho.disorder
  have k4 : (argOf kw "heaviest_component").truthy = o.heaviest := ho.heaviest
  have k5 : (argOf kw "molecular_centres").truthy = o.centres := ho.centres
  have hinit : ∀ sw : Bool, csdReaderInit B.ccdc (.list (given.map some)) o.families o.rh (PyVal.str o.d).text o.heaviest o.centres sw =
      .ok { events := codes.map P.entry, converter := fun x => (ccdcEntryConvert P.env x o.rh o.d o.heaviest o.centres).2,
            name := fun s => s.toCrystal.name, showWarnings := sw } := by
    intro sw
    unfold csdReaderInit
    rw [if_neg (fun hx => hx hd1), hP]
    simp only [refcodes_eq hcodes]
    rfl
  rw [csdReader, k1, k2, k3, k4, k5, hinit]
  obtain ⟨xs, e1, e2⟩ : ∃ xs : List CcdcEntry, codes.map P.entry = xs.map .item ∧ List.Forall₂ describes xs rs := by
    clear hcodes hinit
    induction h with
    | nil => exact ⟨[], rfl, .nil⟩
    | cons hx _ ih =>
      obtain ⟨xs, e1, e2⟩ := ih fun c hc => hp c (by
        rw [List.reduceOption_mem_iff] at hc ⊢
        exact List.mem_cons_of_mem _ hc)
      obtain ⟨x, h1, h2⟩ := hx
      exact ⟨x :: xs, by rw [List.map_cons, List.map_cons, h1, e1], .cons h2 e2⟩
  refine toList_reads hw (bs := xs) (e2.imp hread) hp ?_ ?_
  · intro ev hev
    rw [e1] at hev
    obtain ⟨x, hx, rfl⟩ := List.mem_map.1 hev
    exact Or.inr ⟨x, hx, rfl⟩
  · intro f
    rw [e1, List.filterMap_map]
    rfl

theorem csdReader_reads (ho : CsdOptions kw o) (hd : o.Distinct) (hw : ∀ x, w.action x ≠ .error) {given : List String}
    {rs : List (Option Described)} (hf : RefcodesHold B o given rs) (hp : ∀ c ∈ rs.reduceOption, c.Proper) :
    ∃ cs, csdReader B w kw given = .ok cs ∧ List.Forall₂ Reads rs.reduceOption cs := by
  obtain ⟨P, hP, codes, hcodes, h⟩ := hf
  exact csdReader_list ho hd.valid hw hP hcodes h (fun x r hx => ccdc_readsAs hx hd.atoms) hp

end Amd
