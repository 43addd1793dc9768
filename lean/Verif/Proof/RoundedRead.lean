import Verif.Proof.RoundedRows
import Verif.Proof.Compared
import Verif.Spec.RoundedCrystal

/-! Files whose coordinates are rounded, read and compared. -/

namespace Amd

open Classical

variable {B : CifBackends} {asString : String → String} {rh : Bool} {d : String} {o : ReadOptions} {w : World} {env : Env} {kw kwargs : Kwargs} {args : CompareArgs}
  {inp inp' : Input} {ds ds' is is' : List Described} {c c' c₀ : Described} {δ η : ℝ} {S S' : PeriodicSet 3} {k : ℕ} {e : CifEntry}

theorem RoundFacts.description (h : RoundFacts η c S) (hp : c.Proper) : S.motif.length ≤ c.size ∧ NonSingular S.cell ∧
    ∃ (inds : List (Fin S.motif.length)) (mult : List ℕ), S.Units inds mult ∧ inds ≠ [] ∧ (∀ n ∈ mult, 0 < n) ∧ mult.sum = S.motif.length := by
  obtain ⟨S₀, inds, mult, e, hcell, hd, hP, -, hu⟩ := h.units
  refine ⟨?_, by rw [← hcell]; exact hd.cell, _, mult, hu, by simpa using hd.inds_ne, hd.pos, by rw [hd.sum, e]⟩
  rw [e]
  exact motif_le_size hp.finiteOps hp.finiteSites hd.once (by rw [hP, hcell])

theorem RoundFacts.valid (h : RoundFacts η c S) (hp : c.Proper) (n : String) : (⟨n, 3, S⟩ : Crystal).Valid := by
  obtain ⟨h1, h2, inds, mult, h3, h4, h5, h6⟩ := h.description hp
  exact ⟨Nat.succ_pos 2, h2, h1.trans hp.size, inds, mult, h3, h4, h5, h6⟩

theorem RoundFacts.searchable (h : RoundFacts η c S) (hp : c.Proper) (hk : c.WellShaped k) : Searchable S.motif S.cell (k + 1) := by
  obtain ⟨cell, hc, hk⟩ := hk
  have hg := gram_of_cellpar hc h.cell
  rcases hk with hk | ⟨hr, hk⟩
  · exact searchable_of_halfDominant (by decide) (halfDominant_congr hg hk) h.fits _
  · exact searchable_of_reduced (reduced_congr hg hr) h.fits ((h.description hp).1.trans hk)

/-- In every set that is read for the rounded crystal, the search for `k` neighbours is complete. -/
def RoundGood (η : ℝ) (k : ℕ) (c : Described) : Prop := ∀ S, RoundFacts η c S → Searchable S.motif S.cell (k + 1)

theorem roundGood_wellShaped (hp : c.Proper) (hk : c.WellShaped k) : RoundGood η k c := fun _ h => h.searchable hp hk

theorem roundGood_all (η : ℝ) (l : List Described) (h : ∀ e ∈ l, e.Proper) : ∃ k₀, ∀ k ≥ k₀, ∀ e ∈ l, RoundGood η k e := by
  induction l with
  | nil => exact ⟨0, fun _ _ _ he => by simp at he⟩
  | cons e l ih =>
    obtain ⟨k₁, h₁⟩ := ih fun e he => h e (List.mem_cons_of_mem _ he)
    have he := h e (by simp)
    obtain ⟨cell, hcell, hns, -⟩ := he.group
    obtain ⟨k₂, h₂⟩ := searchable_uniform hns e.size
    refine ⟨max k₁ k₂, fun k hk e' he' => ?_⟩
    rcases List.mem_cons.1 he' with rfl | he'
    · exact fun S hS => h₂ _ (by omega) _ _ (gram_of_cellpar hcell hS.cell) hS.fits (hS.description he).1
    · exact h₁ k (by omega) e' he'

/-- The crystal is a reading of the ideal crystals of the description. -/
def RoundReads (δ : ℝ) (c : Described) (x : Crystal) : Prop := ∀ c₀, c.Rounds δ c₀ → c₀.ProperRounded δ → ∃ S, x = ⟨c₀.name, 3, S⟩ ∧ RoundFacts (4 * δ) c₀ S

theorem ReadAsWritten.roundReads {r : Except Exc ReadSet} (h : ReadAsWritten asString rh d e r) (hd : d ≠ "all_sites") (hk : ¬ e.Skipped asString rh d) :
    ∃ s, r = .ok s ∧ RoundReads δ (e.described asString rh d) s.toCrystal := by
  obtain ⟨s, hs⟩ := h.accepted hk
  refine ⟨s, hs, fun c₀ hr hp => ?_⟩
  obtain ⟨cell, hcell, hns, hG⟩ := hp.proper.group
  have hcell' : c₀.HasCell s.set.cell := by
    have := h.cell s hs
    unfold Described.HasCell
    rw [← hr.cell]
    exact this
  have hgram := gram_of_cellpar hcell hcell'
  obtain ⟨h1, h2⟩ := h.rounded s hs hd (nonSingular_congr hgram hns) δ c₀.ops c₀.sites hp.nonneg hp.small hr.ops hr.sites (isSpaceGroup_congr hgram hG) hp.entries hp.apart
  exact ⟨s.set, by rw [ReadSet.toCrystal, h.name s hs, ← hr.name]; rfl, hcell', h1, h2⟩

theorem ReadAsWritten.readsRounded {res : Except Exc ReadSet} {r : Option Described} (hd : d ≠ "all_sites") (he : EntryDescribes asString rh d e r)
    (h : e.Written → ReadAsWritten asString rh d e res) : ReadsAs (fun _ => True) (RoundReads δ) ReadSet.toCrystal res r := by
  cases he with
  | skipped hw hk => exact (h hw).skips hk
  | crystal hw hk => exact fun _ => (h hw).roundReads hd hk

/-- **ccdc** What is read from an entry of the CSD with rounded numbers. -/
theorem ccdc_rounded {env : CcdcEnv} {crystal c' : CcdcCrystal} {heaviest : Bool} {ws : List Warning} {s : FullSet} {G G₀ : Set (FracOp 3)} {P₀ : Set (Pt 3 ℝ)}
    (h : ccdcConvert env crystal rh d heaviest false = (c', ws, .ok s)) (hd : d ≠ "all_sites") (hops : OperatorsDenote c'.symmetryOperators G)
    (hcell : NonSingular s.set.cell) (hδ0 : 0 ≤ δ) (hδ : δ ≤ 1 / 8000) (hG : RoundedOps δ G G₀) (hP : RoundedSites δ (env.sites c') P₀)
    (hsg : IsSpaceGroup s.set.cell G₀) (hu : UnitEntries G₀) (hx : ExactSites (1 / 1000 + 8 * δ) G₀ P₀) :
    RoundedSet (4 * δ) G₀ P₀ s.set ∧ FitsInCell s.set.motif s.set.cell := by
  obtain ⟨ops, ho, rfl⟩ := ccdc_ops hops
  obtain ⟨asym, cell, ha, hne, -, hs, -⟩ := ccdc_shape h ho
  rw [← sites_eq, coords_filterMap ha] at hP
  rw [if_neg hd, decide_eq_true hd] at hs
  rw [hs] at hsg hcell ⊢
  exact expandedSet_rounded hcell hne hδ0 hδ hP hG hsg hu hx

theorem ccdc_readsRounded {env : CcdcEnv} {heaviest : Bool} {x : CcdcEntry} {r : Option Described} (h : CcdcDescribes env rh d heaviest false x r) (hd : d ≠ "all_sites") :
    ReadsAs (fun _ => True) (RoundReads δ) FullSet.toCrystal (ccdcEntryConvert env x rh d heaviest false).2.2 r := by
  cases h with
  | flat h =>
    obtain ⟨t, ht⟩ := C74_entry (env := env) (rh := rh) (d := d) (heaviest := heaviest) (centres := false) (Or.inl h)
    exact ⟨t, by rw [ht]⟩
  | disordered hd h =>
    obtain ⟨t, ht⟩ := C74_entry (env := env) (rh := rh) (d := d) (heaviest := heaviest) (centres := false) (Or.inr ⟨hd, h⟩)
    exact ⟨t, by rw [ht]⟩
  | noCell c hs h =>
    obtain ⟨m, hm, rfl⟩ := selected_ok hs
    rw [entry_convert hs]
    exact convert_missing hm h
  | empty c p hs hp hc h =>
    obtain ⟨m, hm, rfl⟩ := selected_ok hs
    rw [entry_convert hs]
    exact convert_empty hm hp h
  | centres c p hs hp hc hne h => cases hc
  | atoms c p G hs hp hG hc hne h =>
    obtain ⟨m, hm, rfl⟩ := selected_ok hs
    rw [entry_convert hs]
    intro _
    obtain ⟨s, hs'⟩ := convert_accepted hm hp hG hne h
    have hr : ccdcConvert env x.crystal rh d heaviest false = (env.setMolecule x.crystal m, (ccdcConvert env x.crystal rh d heaviest false).2.1, .ok s) := by
      rw [← ccdc_select (centres := false) hm, ← hs']
    have hname : s.name = some (env.setMolecule x.crystal m).identifier := by
      obtain ⟨_, _, _, _, _, hh⟩ := ccdc_ok hr
      rw [if_neg (by simp)] at hh
      obtain ⟨_, _, _, _, r, hf, rfl⟩ := hh
      obtain ⟨_, _, e, _⟩ := finishSites_ok hf
      simp only [e]
    refine ⟨s, hs', fun c₀ hro hpr => ?_⟩
    obtain ⟨cell, hc, hns, hgr⟩ := hpr.proper.group
    have hcell : c₀.HasCell s.set.cell := by
      have := C77_cell hr hp
      unfold Described.HasCell
      rw [← hro.cell]
      exact this
    have hg := gram_of_cellpar hc hcell
    obtain ⟨h1, h2⟩ := ccdc_rounded hr hd hG (nonSingular_congr hg hns) hpr.nonneg hpr.small hro.ops hro.sites (isSpaceGroup_congr hg hgr) hpr.entries hpr.apart
    exact ⟨s.set, by rw [FullSet.toCrystal, hname, ← hro.name]; rfl, hcell, h1, h2⟩

theorem reader_rounded (ho : CifOptions kw o) (hd : o.Distinct) (hw : ∀ x, w.action x ≠ .error) (hcc : o.centres = false) {path : String}
    {rs : List (Option Described)} (hf : PathHolds B asString o path rs) :
    ∃ cs, cifReader B w kw path = .ok cs ∧ List.Forall₂ (RoundReads δ) rs.reduceOption cs := by
  have k1 : argOf kw "reader" = .str o.reader := ho.reader
  have k2 : (PyVal.str o.reader).text = o.reader := rfl
  rw [cifReader, k1]
  simp only [k2]
  cases hf with
  | gemmi hr hn h =>
    rw [if_pos hr]
    refine readPath_reads (by simp) ho hd.valid hw (by rw [hr]; rfl) (Or.inr hn) h (fun b r => ?_) fun _ _ => trivial
    rintro ⟨e, hb, he⟩
    exact ReadAsWritten.readsRounded (hd.sites hn.2) he fun hw => C87_gemmi hw hb
  | ase hr hn h =>
    rw [if_neg (by rcases hr with hr | hr <;> rw [hr] <;> decide), if_pos hr]
    refine readPath_reads (by simp) ho hd.valid hw (by rcases hr with hr | hr <;> rw [hr] <;> rfl) (Or.inr hn) h (fun b r => ?_) fun _ _ => trivial
    rintro ⟨e, hb, ⟨hh, he⟩ | ⟨hh, hw, he⟩⟩
    · exact ReadAsWritten.readsRounded (hd.sites hn.2) he fun hw => C87_ase_partial hw hb hh
    · rw [hh]
      exact ReadAsWritten.readsRounded (hd.sites hn.2) he fun _ => C87_ase_removed hw hb
  | pymatgen hr hn h =>
    rw [if_neg (by rw [hr]; decide), if_neg (by rw [hr]; decide), if_pos hr]
    refine readPath_reads (by simp) ho hd.valid hw (by rw [hr]; rfl) (Or.inr hn) h (fun b r => ?_) fun _ _ => trivial
    rintro ⟨e, hb, ⟨hh, he⟩ | ⟨hh, hw, he⟩⟩
    · exact ReadAsWritten.readsRounded (hd.sites hn.2) he fun hw => C87_pymatgen_partial hw hb hh
    · rw [hh]
      exact ReadAsWritten.readsRounded (hd.sites hn.2) he fun _ => C87_pymatgen_removed hw hb
  | ccdc P hP hs hr h =>
    rw [if_neg (by rw [hr]; decide), if_neg (by rw [hr]; decide), if_neg (by rw [hr]; decide), if_pos hr, hP]
    refine readPath_reads hs ho hd.valid hw (by rw [hr]; rfl) (Or.inl hr) h (fun b r hb => ?_) fun _ _ => trivial
    rw [hcc] at hb ⊢
    exact ccdc_readsRounded hb (hd.sites hcc)

theorem csdReader_rounded (ho : CsdOptions kw o) (hd : o.Distinct) (hw : ∀ x, w.action x ≠ .error) (hcc : o.centres = false) {given : List String}
    {rs : List (Option Described)} (hf : RefcodesHold B o given rs) :
    ∃ cs, csdReader B w kw given = .ok cs ∧ List.Forall₂ (RoundReads δ) rs.reduceOption cs := by
  obtain ⟨P, hP, codes, hcodes, h⟩ := hf
  refine csdReader_list ho hd.valid hw hP hcodes h (fun x r hx => ?_) fun _ _ => trivial
  rw [hcc] at hx ⊢
  exact ccdc_readsRounded hx (hd.sites hcc)

theorem reads_ideal {cs : List Crystal} (h : List.Forall₂ (RoundReads δ) ds cs) (hr : List.Forall₂ (Described.Rounds δ) ds is) (hp : ∀ c ∈ is, c.ProperRounded δ) :
    List.Forall₂ (fun c x => ∃ S, x = ⟨c.name, 3, S⟩ ∧ RoundFacts (4 * δ) c S) is cs := by
  induction h generalizing is with
  | nil => cases hr; exact .nil
  | cons h1 _ ih =>
    cases hr with
    | cons r1 r2 => exact .cons (h1 _ r1 (hp _ (by simp))) (ih r2 fun c hc => hp c (by simp [hc]))

/-- What `compare` reads. -/
structure GivesRounded (δ : ℝ) (env : Env) (args : CompareArgs) (kwargs : Kwargs) (inp : Input) (is : List Described) (cs : List Crystal) : Prop where
  reads : List.Forall₂ (fun c x => ∃ S, x = ⟨c.name, 3, S⟩ ∧ RoundFacts (4 * δ) c S) is cs
  given : cs ≠ [] → getCrystals env args.csdRefcodes (routeKwargs args.verbose kwargs) inp = .ok cs

theorem input_rounded (h : ReadsInputs env B w kwargs o) (hcc : o.centres = false) (hi : InputHolds B asString o inp ds args.csdRefcodes)
    (hr : List.Forall₂ (Described.Rounds δ) ds is) (hp : ∀ c ∈ is, c.ProperRounded δ) : ∃ cs, GivesRounded δ env args kwargs inp is cs := by
  suffices ∃ cs, List.Forall₂ (RoundReads δ) ds cs ∧ (cs ≠ [] → getCrystals env args.csdRefcodes (routeKwargs args.verbose kwargs) inp = .ok cs) by
    obtain ⟨cs, h1, h2⟩ := this
    exact ⟨cs, reads_ideal h1 hr hp, h2⟩
  generalize args.csdRefcodes = csd at hi
  cases hi with
  | paths paths f hs hf hc =>
    subst hc
    obtain ⟨cs, h1, h2, -⟩ := paths_crystals (proper := fun _ => True) (reads := RoundReads δ) (r := routeKwargs args.verbose kwargs) (env := env) hs (fun p hm _ => by
      rw [h.cifReader]
      exact reader_rounded (h.options.cif args.verbose) h.disorder h.quiet hcc (hf p hm)) fun _ _ => trivial
    exact ⟨cs, h1, h2⟩
  | refcodes given rs hs hf hc =>
    subst hc
    obtain ⟨cs, h1, h2, -⟩ := refcodes_crystals (reads := RoundReads δ) (r := routeKwargs args.verbose kwargs) (env := env) hs (by
      rw [h.csdReader]
      exact csdReader_rounded (h.options.csd args.verbose) h.disorder h.quiet hcc hf)
    exact ⟨cs, h1, h2⟩

theorem GivesRounded.facts {cs : List Crystal} (h : GivesRounded δ env args kwargs inp is cs) (hp : ∀ c ∈ is, c.ProperRounded δ) :
    cs.length = is.length ∧ cs.map Crystal.name = is.map Described.name ∧ ∀ x ∈ cs, x.Valid := by
  have hr := h.reads
  clear h
  induction hr with
  | nil => exact ⟨rfl, rfl, by simp⟩
  | cons h1 _ ih =>
    obtain ⟨e1, e2, e3⟩ := ih fun c hc => hp c (by simp [hc])
    obtain ⟨S, rfl, hS⟩ := h1
    refine ⟨by simp [e1], by simp [e2], ?_⟩
    intro x hx
    rcases List.mem_cons.1 hx with rfl | hx
    · exact hS.valid (hp _ (by simp)).proper _
    · exact e3 x hx

theorem roundError_eq (c : Described) : c.roundError δ = 2 * c.shift (4 * δ) := by
  unfold Described.roundError Described.shift
  ring

/-- Entry `x` of the matrix is near the right one. -/
def NearAmd (δ : ℝ) (k : ℕ) (c c' : Described) (x : ℝ) : Prop :=
  (∀ a b, c.IsAMD k a → c'.IsAMD k b → |x - chebyshev a b| ≤ c.roundError δ + c'.roundError δ) ∧ (DescribeSame c c' → x ≤ c.roundError δ + c'.roundError δ)

theorem nearAmd (hp : c.ProperRounded δ) (hp' : c'.ProperRounded δ) {x x' : Crystal} (hc : ∃ S, x = ⟨c.name, 3, S⟩ ∧ RoundFacts (4 * δ) c S)
    (hc' : ∃ S, x' = ⟨c'.name, 3, S⟩ ∧ RoundFacts (4 * δ) c' S) (hk : 0 < k) (hg : RoundGood (4 * δ) k c) (hg' : RoundGood (4 * δ) k c') {fuel fuel' : ℕ} {a a' : List ℝ}
    (ha : AMD x.set k fuel = .ok a) (ha' : AMD x'.set k fuel' = .ok a') : NearAmd δ k c c' (chebyshev a a') := by
  obtain ⟨S, rfl, hS⟩ := hc
  obtain ⟨S', rfl, hS'⟩ := hc'
  have hs := hg _ hS
  have hs' := hg' _ hS'
  have met := EMD_default_metric k
  have key : ∀ b b', c.IsAMD k b → c'.IsAMD k b' → |chebyshev a a' - chebyshev b b'| ≤ c.roundError δ + c'.roundError δ := by
    intro b b' hb hb'
    obtain ⟨l1, l2, h1⟩ := hS.amd hs ha hb
    obtain ⟨l1', l2', h1'⟩ := hS'.amd hs' ha' hb'
    have n0 := (abs_nonneg _).trans (h1 0 hk)
    have n0' := (abs_nonneg _).trans (h1' 0 hk)
    have n1 : chebyshev a b ≤ c.roundError δ := by
      rw [roundError_eq]
      exact (chebyshev_le_iff (l1.trans l2.symm)).2 ⟨n0, fun j hj => h1 j (by omega)⟩
    have n1' : chebyshev a' b' ≤ c'.roundError δ := by
      rw [roundError_eq]
      exact (chebyshev_le_iff (l1'.trans l2'.symm)).2 ⟨n0', fun j hj => h1' j (by omega)⟩
    have t1 := met.triangle a b a' l1 l2 l1'
    have t2 := met.triangle b b' a' l2 l2' l1'
    have t3 := met.triangle b a b' l2 l1 l2'
    have t4 := met.triangle a a' b' l1 l1' l2'
    rw [met.symm b' a' l2' l1'] at t2
    rw [met.symm b a l2 l1] at t3
    rw [abs_le]
    constructor <;> linarith
  refine ⟨key, fun hsame => ?_⟩
  obtain ⟨S₁, hS₁⟩ := hp.proper.reads
  obtain ⟨S₁', hS₁'⟩ := hp'.proper.reads
  obtain ⟨b, hb⟩ := hS₁.exists_amd k
  obtain ⟨b', hb'⟩ := hS₁'.exists_amd k
  have h1 := key b b' hb hb'
  rw [DescribeSame.amd hS₁ hS₁' hsame hb hb', met.self _ (hS'.amd hs' ha' hb').2.1, sub_zero] at h1
  exact (le_abs_self _).trans h1

theorem rounded_amd_two {cs cs' : List Crystal} (hby : upper args.by_ = "AMD") (hnn : args.nNeighbors = none) (hk : 0 < args.k)
    (hm : kwOr kwargs "metric" (.str "chebyshev") = .str "chebyshev") (hi : GivesRounded δ env args kwargs inp is cs) (hi' : GivesRounded δ env args kwargs inp' is' cs')
    (he : ∀ c ∈ is, c.ProperRounded δ) (he' : ∀ c ∈ is', c.ProperRounded δ) (hne : is ≠ []) (hne' : is' ≠ []) :
    ∃ (M : List (List ℝ)) (f : ℕ → ℕ → ℝ) (F : ℕ), IsMatrix is.length is'.length f M ∧
      (∀ fuel ≥ F, compare env inp (some inp') args kwargs fuel = .ok (.matrix (is.map Described.name) (is'.map Described.name) M)) ∧
      ∀ i j (hi : i < is.length) (hj : j < is'.length), RoundGood (4 * δ) args.k is[i] → RoundGood (4 * δ) args.k is'[j] → NearAmd δ args.k is[i] is'[j] (f i j) := by
  obtain ⟨e1, e2, e3⟩ := hi.facts he
  obtain ⟨e1', e2', e3'⟩ := hi'.facts he'
  have hc0 : cs ≠ [] := fun h0 => hne (List.length_eq_zero_iff.1 (by rw [← e1, h0]; rfl))
  have hc0' : cs' ≠ [] := fun h0 => hne' (List.length_eq_zero_iff.1 (by rw [← e1', h0]; rfl))
  obtain ⟨a, b, M, F, hM, hF⟩ := C37_amd_two e3 e3' hk hby hnn hm (hi.given hc0) (hi'.given hc0')
  rw [e1, e1'] at hM
  have hr := List.forall₂_iff_get.1 hi.reads
  have hr' := List.forall₂_iff_get.1 hi'.reads
  refine ⟨M, _, F, hM, fun fuel hf => by rw [(hF fuel hf).2.2, e2, e2'], fun i j hi hj hg hg' => ?_⟩
  obtain ⟨ha, hb, -⟩ := hF F le_rfl
  exact nearAmd (he _ (List.getElem_mem hi)) (he' _ (List.getElem_mem hj)) (hr.2 i hi (by omega)) (hr'.2 j hj (by omega)) hk hg hg' (ha i (by omega)) (hb j (by omega))

theorem rounded_amd_one {cs : List Crystal} (hby : upper args.by_ = "AMD") (hnn : args.nNeighbors = none) (hk : 0 < args.k)
    (hm : kwOr kwargs "metric" (.str "chebyshev") = .str "chebyshev") (hi : GivesRounded δ env args kwargs inp is cs) (he : ∀ c ∈ is, c.ProperRounded δ) (hne : is ≠ []) :
    ∃ (M : List (List ℝ)) (f : ℕ → ℕ → ℝ) (F : ℕ), IsMatrix is.length is.length f M ∧
      (∀ fuel ≥ F, compare env inp none args kwargs fuel = .ok (.matrix (is.map Described.name) (is.map Described.name) M)) ∧
      ∀ i j (hi : i < is.length) (hj : j < is.length), RoundGood (4 * δ) args.k is[i] → RoundGood (4 * δ) args.k is[j] → NearAmd δ args.k is[i] is[j] (f i j) := by
  obtain ⟨e1, e2, e3⟩ := hi.facts he
  have hc0 : cs ≠ [] := fun h0 => hne (List.length_eq_zero_iff.1 (by rw [← e1, h0]; rfl))
  obtain ⟨a, M, F, hM, hF⟩ := C37_amd e3 hk hby hnn hm (hi.given hc0) hc0
  rw [e1] at hM
  have hr := List.forall₂_iff_get.1 hi.reads
  refine ⟨M, _, F, hM, fun fuel hf => by rw [(hF fuel hf).2, e2], fun i j hi hj hg hg' => ?_⟩
  obtain ⟨ha, -⟩ := hF F le_rfl
  exact nearAmd (he _ (List.getElem_mem hi)) (he _ (List.getElem_mem hj)) (hr.2 i hi (by omega)) (hr.2 j hj (by omega)) hk hg hg' (ha i (by omega)) (ha j (by omega))

/-! ### PDD -/

/-- Entry `x` of the matrix is near the right one. -/
def NearPdd (k : ℕ) (s : ℝ) (c c' : Described) (x : ℝ) : Prop :=
  (∀ p q, c.IsPDD k p → c'.IsPDD k q → |x - exactEmd chebyshev p q| ≤ s) ∧ (DescribeSame c c' → 0 ≤ x ∧ x ≤ s)

/-- What is allowed between an entry and the exact distance. -/
noncomputable def roundSlack (δ : ℝ) (collapse : Bool) (tol : ℝ) (k : ℕ) (c c' : Described) : ℝ :=
  (if collapse then 4 * tol else 0) + emdTol (max c.size c'.size) (k * max (c.cell.a : ℝ) c'.cell.a) + (c.roundError δ + c'.roundError δ)

theorem weighted_of_isPDD {p : List (PRow ℝ)} (h : c.IsPDD k p) : WeightedRows k p := by
  obtain ⟨_, _, h, -⟩ := h
  exact h

theorem nearPdd_of_first (hp : c.Proper) (hp' : c'.Proper) {x s : ℝ} (h0 : 0 ≤ x)
    (first : ∀ p q, c.IsPDD k p → c'.IsPDD k q → |x - exactEmd chebyshev p q| ≤ s) : NearPdd k s c c' x := by
  refine ⟨first, fun hsame => ⟨h0, ?_⟩⟩
  obtain ⟨S, hS⟩ := hp.reads
  obtain ⟨S', hS'⟩ := hp'.reads
  obtain ⟨q, hq⟩ := hS.exists_pdd hp.size k
  obtain ⟨q', hq'⟩ := hS'.exists_pdd hp'.size k
  have h1 := first q q' hq hq'
  rw [exactEmd_zero (EMD_default_metric k) (weighted_of_isPDD hq) (weighted_of_isPDD hq') (DescribeSame.pdd hS hS' hp.size hp'.size hsame hq hq'), sub_zero] at h1
  exact (le_abs_self x).trans h1

theorem RoundFacts.edge (h : RoundFacts η c S) : eucl (S.cell 0) 0 = c.cell.a ∧ (0 : ℝ) ≤ c.cell.a := by
  obtain ⟨⟨h0, h1⟩, -⟩ := h.cell
  refine ⟨?_, h0⟩
  have : sqDist (S.cell 0) 0 = (c.cell.a : ℝ) ^ 2 := by
    rw [← h1]
    unfold sqDist
    simp
  rw [eucl, this, Real.sqrt_sq h0]

theorem nearPdd {tol : ℝ} (htol : 0 ≤ tol) (hp : c.ProperRounded δ) (hp' : c'.ProperRounded δ) {y y' : Crystal} (hc : ∃ S, y = ⟨c.name, 3, S⟩ ∧ RoundFacts (4 * δ) c S)
    (hc' : ∃ S, y' = ⟨c'.name, 3, S⟩ ∧ RoundFacts (4 * δ) c' S) (hg : RoundGood (4 * δ) k c) (hg' : RoundGood (4 * δ) k c') {fuel fuel' fuel'' : ℕ} {p p' : List (PRow ℝ)}
    (h1 : pddOf kwargs tol y k fuel = .ok p) (h1' : pddOf kwargs tol y' k fuel' = .ok p') {x : ℝ} {plan : List (List ℝ)} (hx : emd chebyshev p p' fuel'' = .ok (x, plan)) :
    0 ≤ x ∧ NearPdd k (roundSlack δ (kwOr kwargs "collapse" (.bool true)).truthy tol k c c') c c' x := by
  obtain ⟨S, rfl, hS⟩ := hc
  obtain ⟨S', rfl, hS'⟩ := hc'
  have hs := hg _ hS
  have hs' := hg' _ hS'
  obtain ⟨z1, -, inds, mult, u1, u2, u3, u4⟩ := hS.description hp.proper
  obtain ⟨z1', -, inds', mult', u1', u2', u3', u4'⟩ := hS'.description hp'.proper
  have met := EMD_default_metric k
  have w1 : WeightedRows k p := EMD_input_of_PDD (by norm_num) u1 u2 u3 u4 (z1.trans hp.proper.size) h1
  have w1' : WeightedRows k p' := EMD_input_of_PDD (by norm_num) u1' u2' u3' u4' (z1'.trans hp'.proper.size) h1'
  have h0 := C29_nonneg w1 w1' met.nonneg hx
  refine ⟨h0, nearPdd_of_first hp.proper hp'.proper h0 ?_⟩
  intro q q' hq hq'
  obtain ⟨-, n1⟩ := hS.pdd (z1.trans hp.proper.size) hs htol h1 hq
  obtain ⟨-, n1'⟩ := hS'.pdd (z1'.trans hp'.proper.size) hs' htol h1' hq'
  rw [← roundError_eq] at n1 n1'
  have w2 := weighted_of_isPDD hq
  have w2' := weighted_of_isPDD hq'
  obtain ⟨l1, r1⟩ := PDD_range (by norm_num) u1 u2 u3 u4 hs h1 0
  obtain ⟨l1', r1'⟩ := PDD_range (by norm_num) u1' u2' u3' u4' hs' h1' 0
  obtain ⟨a1, a2⟩ := hS.edge
  obtain ⟨a1', a2'⟩ := hS'.edge
  have hk : (0 : ℝ) ≤ k := Nat.cast_nonneg k
  have hB : 0 ≤ (k : ℝ) * max (c.cell.a : ℝ) c'.cell.a := mul_nonneg hk (a2.trans (le_max_left _ _))
  have near := emd_near w1 w1' met.nonneg (C := k * max (c.cell.a : ℝ) c'.cell.a) (fun r hr s hs => chebyshev_range hB (w1.width r hr) (w1'.width s hs)
    (fun y hy => ⟨(r1 r hr y hy).1, (r1 r hr y hy).2.trans (by rw [a1]; exact mul_le_mul_of_nonneg_left (le_max_left _ _) hk)⟩)
    (fun y hy => ⟨(r1' s hs y hy).1, (r1' s hs y hy).2.trans (by rw [a1']; exact mul_le_mul_of_nonneg_left (le_max_right _ _) hk)⟩)) hx
  have mono := emdTol_mono (max_le_max (l1.trans z1) (l1'.trans z1')) hB
  have t1 := exactEmd_triangle met w1 w2 w1'
  have t2 := exactEmd_triangle met w2 w2' w1'
  have t3 := exactEmd_triangle met w2 w1 w2'
  have t4 := exactEmd_triangle met w1 w1' w2'
  rw [exactEmd_symm met w1' w2'] at t2
  rw [exactEmd_symm met w1 w2] at t3
  have e0 : roundSlack δ (kwOr kwargs "collapse" (.bool true)).truthy tol k c c' = 2 * collapseError (kwOr kwargs "collapse" (.bool true)).truthy tol +
      emdTol (max c.size c'.size) (k * max (c.cell.a : ℝ) c'.cell.a) + (c.roundError δ + c'.roundError δ) := by
    rw [roundSlack, collapseError]
    split_ifs <;> ring
  rw [e0]
  rw [abs_le] at near ⊢
  constructor <;> linarith [near.1, near.2]

theorem roundSlack_symm (collapse : Bool) (tol : ℝ) (k : ℕ) (c c' : Described) : roundSlack δ collapse tol k c c' = roundSlack δ collapse tol k c' c := by
  unfold roundSlack
  rw [max_comm c.size, max_comm (c.cell.a : ℝ), add_comm (c.roundError δ)]

theorem RoundFacts.error_nonneg (h : RoundFacts η c S) (hδ : 0 ≤ δ) : 0 ≤ c.roundError δ := by
  have := h.cell.edges (η := 1)
  rw [Described.shift, one_mul, one_mul] at this
  unfold Described.roundError
  rw [← this]
  have : 0 ≤ ∑ i, eucl (S.cell i) 0 := Finset.sum_nonneg fun i _ => eucl_nonneg _ _
  positivity

theorem RoundFacts.slack_nonneg (h : RoundFacts η c S) (h' : RoundFacts η c' S') (hδ : 0 ≤ δ) {collapse : Bool} {tol : ℝ} (htol : 0 ≤ tol) (k : ℕ) :
    0 ≤ roundSlack δ collapse tol k c c' := by
  have n1 := h.error_nonneg hδ
  have n2 := h'.error_nonneg hδ
  unfold roundSlack emdTol
  have hm : 0 ≤ max (c.cell.a : ℝ) c'.cell.a := h.edge.2.trans (le_max_left _ _)
  have : 0 ≤ (1 + 7 * (max c.size c'.size : ℕ) * ((k : ℝ) * max (c.cell.a : ℝ) c'.cell.a)) / 100000000 := by positivity
  split_ifs <;> linarith

theorem rounded_pdd_two {cs cs' : List Crystal} (hs : env.sched.Complete) (hby : upper args.by_ = "PDD") (hnn : args.nNeighbors = none) {tol : ℝ} (htol : 0 ≤ tol)
    (ho : PddOptions kwargs tol (.named "chebyshev")) (hi : GivesRounded δ env args kwargs inp is cs) (hi' : GivesRounded δ env args kwargs inp' is' cs')
    (he : ∀ c ∈ is, c.ProperRounded δ) (he' : ∀ c ∈ is', c.ProperRounded δ) (hne : is ≠ []) (hne' : is' ≠ [])
    {collapse : Bool} (hcol : (kwOr kwargs "collapse" (.bool true)).truthy = collapse) :
    ∃ (M : List (List ℝ)) (f : ℕ → ℕ → ℝ) (F : ℕ), IsMatrix is.length is'.length f M ∧
      (∀ fuel ≥ F, compare env inp (some inp') args kwargs fuel = .ok (.matrix (is.map Described.name) (is'.map Described.name) M)) ∧
      ∀ i j (hi : i < is.length) (hj : j < is'.length), RoundGood (4 * δ) args.k is[i] → RoundGood (4 * δ) args.k is'[j] →
        NearPdd args.k (roundSlack δ collapse tol args.k is[i] is'[j]) is[i] is'[j] (f i j) := by
  subst hcol
  obtain ⟨e1, e2, e3⟩ := hi.facts he
  obtain ⟨e1', e2', e3'⟩ := hi'.facts he'
  have hc0 : cs ≠ [] := fun h0 => hne (List.length_eq_zero_iff.1 (by rw [← e1, h0]; rfl))
  have hc0' : cs' ≠ [] := fun h0 => hne' (List.length_eq_zero_iff.1 (by rw [← e1', h0]; rfl))
  obtain ⟨p, q, x, M, F, hM, hF⟩ := C37_pdd_two hs e3 e3' hby hnn ho (EMD_default_metric args.k).nonneg (hi.given hc0) hc0 (hi'.given hc0')
  rw [e1, e1'] at hM
  have hr := List.forall₂_iff_get.1 hi.reads
  have hr' := List.forall₂_iff_get.1 hi'.reads
  refine ⟨M, x, F, hM, fun fuel hf => by rw [(hF fuel hf).2.2.2, e2, e2'], fun i j hi hj hg hg' => ?_⟩
  obtain ⟨hp, hq, hx, -⟩ := hF F le_rfl
  obtain ⟨plan, hx⟩ := hx i j (by omega) (by omega)
  exact (nearPdd htol (he _ (List.getElem_mem hi)) (he' _ (List.getElem_mem hj)) (hr.2 i hi (by omega)) (hr'.2 j hj (by omega)) hg hg' (hp i (by omega))
    (hq j (by omega)) hx).2

theorem rounded_pdd_one {cs : List Crystal} (hs : env.sched.Complete) (hby : upper args.by_ = "PDD") (hnn : args.nNeighbors = none) {tol : ℝ} (htol : 0 ≤ tol)
    (ho : PddOptions kwargs tol (.named "chebyshev")) (hi : GivesRounded δ env args kwargs inp is cs) (he : ∀ c ∈ is, c.ProperRounded δ) (hne : is ≠ [])
    {collapse : Bool} (hcol : (kwOr kwargs "collapse" (.bool true)).truthy = collapse) :
    ∃ (M : List (List ℝ)) (f : ℕ → ℕ → ℝ) (F : ℕ), IsMatrix is.length is.length f M ∧
      (∀ fuel ≥ F, compare env inp none args kwargs fuel = .ok (.matrix (is.map Described.name) (is.map Described.name) M)) ∧
      ∀ i j (hi : i < is.length) (hj : j < is.length), RoundGood (4 * δ) args.k is[i] → RoundGood (4 * δ) args.k is[j] →
        NearPdd args.k (roundSlack δ collapse tol args.k is[i] is[j]) is[i] is[j] (f i j) := by
  subst hcol
  obtain ⟨e1, e2, e3⟩ := hi.facts he
  have hc0 : cs ≠ [] := fun h0 => hne (List.length_eq_zero_iff.1 (by rw [← e1, h0]; rfl))
  obtain ⟨p, x, M, F, hM, hF⟩ := C37_pdd hs e3 hby hnn ho (EMD_default_metric args.k).nonneg (hi.given hc0) hc0
  rw [e1] at hM
  have hr := List.forall₂_iff_get.1 hi.reads
  refine ⟨M, _, F, hM, fun fuel hf => by rw [(hF fuel hf).2.2, e2], fun i j hi hj hg hg' => ?_⟩
  obtain ⟨hp, hx, -⟩ := hF F le_rfl
  have lt : ∀ i j (hi : i < is.length) (hj : j < is.length), i < j → RoundGood (4 * δ) args.k is[i] → RoundGood (4 * δ) args.k is[j] → 0 ≤ x i j ∧
      NearPdd args.k (roundSlack δ (kwOr kwargs "collapse" (.bool true)).truthy tol args.k is[i] is[j]) is[i] is[j] (x i j) := by
    intro i j hi hj hij hg hg'
    obtain ⟨plan, hx⟩ := hx i j hij (by omega)
    exact nearPdd htol (he _ (List.getElem_mem hi)) (he _ (List.getElem_mem hj)) (hr.2 i hi (by omega)) (hr.2 j hj (by omega)) hg hg' (hp i (by omega)) (hp j (by omega)) hx
  rcases lt_trichotomy i j with hij | rfl | hij
  · rw [if_neg hij.ne, min_eq_left hij.le, max_eq_right hij.le]
    exact (lt i j hi hj hij hg hg').2
  · rw [if_pos rfl]
    have hs := (he _ (List.getElem_mem hi)).proper
    obtain ⟨S, -, hS⟩ := hr.2 i hi (by omega)
    obtain ⟨T, hT⟩ := hs.reads
    have same : DescribeSame is[i] is[i] := ⟨_, _, hT.cell, hT.cell, id, fun _ _ => rfl, by rw [Set.image_id]⟩
    refine nearPdd_of_first hs hs le_rfl fun p q hp hq => ?_
    rw [exactEmd_zero (EMD_default_metric args.k) (weighted_of_isPDD hp) (weighted_of_isPDD hq) (DescribeSame.pdd hT hT hs.size hs.size same hp hq), sub_zero, abs_zero]
    exact RoundFacts.slack_nonneg hS hS (he _ (List.getElem_mem hi)).nonneg htol _
  · rw [if_neg hij.ne', min_eq_right hij.le, max_eq_left hij.le, roundSlack_symm]
    obtain ⟨h0, hR⟩ := lt j i hj hi hij hg' hg
    refine nearPdd_of_first (he _ (List.getElem_mem hi)).proper (he _ (List.getElem_mem hj)).proper h0 fun p q hp hq => ?_
    rw [exactEmd_symm (EMD_default_metric args.k) (weighted_of_isPDD hq) (weighted_of_isPDD hp)]
    exact hR.1 q p hq hp

end Amd
