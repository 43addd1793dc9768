import Verif.Proof.Compared
import Verif.Proof.SitesRead
import Verif.Props.AllSites

/-!
# Comparing CIF files and CSD entries with `disorder='all_sites'`: C91

As C83, but sites may overlap: what counts is how often each point is listed.
-/

namespace Amd

open Classical

variable {B : CifBackends} {asString : String → String} {o : ReadOptions} {w : World} {env : Env} {kwargs : Kwargs} {args : CompareArgs}
  {inp inp' : Input} {ds ds' : List SitesDescribed} {e e' : SitesDescribed}

/-! ### The notion of a description -/

/-- Crystals in which sites may overlap. -/
noncomputable def sitesNotion : Notion SitesDescribed where
  name := SitesDescribed.name
  size := SitesDescribed.size
  edge e := e.cell.a
  Proper := SitesDescribed.Comparable
  IsAMD := SitesDescribed.IsAMD
  IsPDD := SitesDescribed.IsPDD
  Same := SameSites
  Facts := SitesFacts

theorem sites_lawful : sitesNotion.Lawful where
  small he hS n := SitesFacts.valid hS (SitesDescribed.Comparable.size he) n
  reads he := SitesDescribed.Comparable.reads he
  exists_amd hS k := SitesFacts.exists_amd hS k
  exists_pdd he hS k := SitesFacts.exists_pdd hS (SitesDescribed.Comparable.size he) k
  amd hS hs ha hb := SitesFacts.amd hS hs ha hb
  pdd he hS hs htol hp hq := SitesFacts.pdd hS (SitesDescribed.Comparable.size he) hs htol hp hq
  amd_length h := by
    obtain ⟨cell, -, m, c, R, -, rfl⟩ := h
    simp
  weighted h := by
    obtain ⟨_, _, h, -⟩ := h
    exact h
  same_amd hS hS' h ha ha' := SameSites.amd hS hS' h ha ha'
  same_pdd he he' hS hS' h hp hp' x := SameSites.pdd hS hS' h hp hp' x
  refl hS := SameSites.refl hS
  edge hS := SitesFacts.edge hS
  range he hS hs hp := by
    obtain ⟨_, _, hl⟩ := SitesFacts.listing hS
    obtain ⟨l1, r1⟩ := PDD_range (by norm_num) hl.units hl.inds_ne hl.pos hl.sum hs hp 0
    exact ⟨l1.trans (SitesFacts.size hS), r1⟩

theorem sites_wellShaped {k : ℕ} (h : e.WellShaped k) : sitesNotion.Good k e := fun _ hS => SitesFacts.searchable hS h

theorem sites_all (l : List SitesDescribed) (h : ∀ e ∈ l, e.Comparable) : ∃ k₀, ∀ k ≥ k₀, ∀ e ∈ l, sitesNotion.Good k e := by
  refine good_many fun e he => ?_
  obtain ⟨cell, hcell, hns, -⟩ := (h e he).proper.group
  obtain ⟨k₀, h⟩ := searchable_uniform hns e.size
  exact ⟨k₀, fun k hk S hS => h _ (by omega) _ _ (gram_of_cellpar hcell (SitesFacts.cell hS)) (SitesFacts.fits hS) (SitesFacts.size hS)⟩

/-- `compare` reads paths with the model of `CifReader` and refcodes with that of `CSDReader`, warnings are not turned into exceptions, and the options of the readers are
`o`, with `disorder='all_sites'`. -/
structure ReadsAllSites (env : Env) (B : CifBackends) (w : World) (kwargs : Kwargs) (o : ReadOptions) : Prop where
  cifReader : env.cifReader = cifReader B w
  csdReader : env.csdReader = csdReader B w
  quiet : ∀ x, w.action x ≠ .error
  options : ReaderOptions kwargs o
  disorder : o.d = "all_sites"
  centres : o.centres = false

theorem lists_reads (hc : e.Comparable) {x : Crystal} (h : ListsCrystal e x) : sitesNotion.Reads e x := by
  obtain ⟨S, rfl, hcell, orbits, hL, hs⟩ := h
  exact ⟨S, rfl, hL.facts hc hcell hs⟩

theorem lists_all_reads {l : List SitesDescribed} {cs : List Crystal} (hc : ∀ e ∈ l, e.Comparable) (h : List.Forall₂ ListsCrystal l cs) : List.Forall₂ sitesNotion.Reads l cs := by
  induction h with
  | nil => exact .nil
  | cons h _ ih => exact .cons (lists_reads (hc _ (by simp)) h) (ih fun e he => hc e (by simp [he]))

theorem sites_gives (h : ReadsAllSites env B w kwargs o) (hi : InputHoldsAll B asString o inp ds args.csdRefcodes) (hp : ∀ c ∈ ds, c.Comparable) :
    ∃ cs, sitesNotion.Gives env args kwargs inp ds cs := by
  suffices hx : ∃ cs, List.Forall₂ ListsCrystal ds cs ∧ (cs ≠ [] → getCrystals env args.csdRefcodes (routeKwargs args.verbose kwargs) inp = .ok cs) ∧
      (cs = [] → getCrystals env args.csdRefcodes (routeKwargs args.verbose kwargs) inp = .error (.run .value)) by
    obtain ⟨cs, h1, h2, h3⟩ := hx
    exact ⟨cs, lists_all_reads hp h1, h2, h3⟩
  have hp' : ∀ c ∈ ds, c.Proper := fun c hc => (hp c hc).proper
  clear hp
  generalize args.csdRefcodes = csd at hi
  cases hi with
  | paths paths f hs hf hc =>
    subst hc
    refine paths_crystals hs (fun p hm hp => ?_) hp'
    rw [h.cifReader]
    exact C89_cif (h.options.cif args.verbose) h.disorder h.centres h.quiet (hf p hm) hp
  | refcodes given rs hs hf hc =>
    subst hc
    refine refcodes_crystals hs ?_
    rw [h.csdReader]
    obtain ⟨P, hP, codes, hcodes, hf⟩ := hf
    exact csdReader_list (h.options.csd args.verbose) (by simp [h.disorder]) h.quiet hP hcodes hf (fun x r hx => by rw [h.disorder, h.centres]; exact ccdc_lists hx) hp'

/-- **C91** What is read lists each point as often as there are sites of which it is an image. -/
theorem C91_times (hc : e.Comparable) {x : Crystal} (h : ListsCrystal e x) :
    ∃ S : PeriodicSet 3, x = ⟨e.name, 3, S⟩ ∧ e.HasCell S.cell ∧ (∃ inds mult, IsListing S inds mult) ∧ ∀ p, timesListed S p = e.times S.cell p := by
  obtain ⟨S, rfl, hS⟩ := lists_reads hc h
  exact ⟨S, rfl, SitesFacts.cell hS, SitesFacts.listing hS, SitesFacts.times hS⟩

/-! ### The invariants of the crystals exist and are unique -/

/-- **C91** The crystal of a block, or entry, that is not passed over has exactly one AMD. -/
theorem C91_amd_unique (he : e.Comparable) (k : ℕ) : ∃! a, e.IsAMD k a :=
  sites_lawful.amd_unique he k

/-- **C91** The crystal of a block, or entry, that is not passed over has a PDD, and only one as a distribution. -/
theorem C91_pdd_unique (he : e.Comparable) (k : ℕ) :
    (∃ p, e.IsPDD k p) ∧ ∀ p q, e.IsPDD k p → e.IsPDD k q → ∀ x, weightAt p x = weightAt q x :=
  sites_lawful.pdd_unique he k

/-! ### AMD -/

/-- **C91** (partial) `compare` by AMD, with `disorder='all_sites'`, of two collections of CIF files or refcodes: the frame is labelled with the names of the blocks (entries) that are not passed over, in order, and an entry is
the Chebyshev distance of the AMDs of the two infinite crystals; so it is 0 if the blocks describe the same crystal. Missing: entries for cells that are too oblique for `k`. -/
theorem C91_amd_two_partial (h : ReadsAllSites env B w kwargs o) (hby : upper args.by_ = "AMD") (hnn : args.nNeighbors = none) (hk : 0 < args.k)
    (hm : kwOr kwargs "metric" (.str "chebyshev") = .str "chebyshev") (hi : InputHoldsAll B asString o inp ds args.csdRefcodes) (hi' : InputHoldsAll B asString o inp' ds' args.csdRefcodes) (he : ∀ e ∈ ds, e.Comparable)
    (he' : ∀ e ∈ ds', e.Comparable)
    (hne : ds ≠ []) (hne' : ds' ≠ []) :
    ∃ (M : List (List ℝ)) (f : ℕ → ℕ → ℝ) (F : ℕ), IsMatrix ds.length ds'.length f M ∧
      (∀ fuel ≥ F, compare env inp (some inp') args kwargs fuel = .ok (.matrix (ds.map SitesDescribed.name) (ds'.map SitesDescribed.name) M)) ∧
      ∀ i j (hi : i < ds.length) (hj : j < ds'.length), ds[i].WellShaped args.k → ds'[j].WellShaped args.k →
        (∀ a b, ds[i].IsAMD args.k a → ds'[j].IsAMD args.k b → f i j = chebyshev a b) ∧
        (SameSites ds[i] ds'[j] → f i j = 0) := by
  obtain ⟨_, g⟩ := sites_gives (args := args) h hi he
  obtain ⟨_, g'⟩ := sites_gives (args := args) h hi' he'
  obtain ⟨M, f, F, h1, h2, h3⟩ := sites_lawful.amd_two hby hnn hk hm g g' he he' hne hne'
  exact ⟨M, f, F, h1, h2, fun i j hi hj hw hw' => h3 i j hi hj (sites_wellShaped hw) (sites_wellShaped hw')⟩

/-- **C91** (partial) The same for one collection. -/
theorem C91_amd_partial (h : ReadsAllSites env B w kwargs o) (hby : upper args.by_ = "AMD") (hnn : args.nNeighbors = none) (hk : 0 < args.k)
    (hm : kwOr kwargs "metric" (.str "chebyshev") = .str "chebyshev") (hi : InputHoldsAll B asString o inp ds args.csdRefcodes) (he : ∀ e ∈ ds, e.Comparable)
    (hne : ds ≠ []) :
    ∃ (M : List (List ℝ)) (f : ℕ → ℕ → ℝ) (F : ℕ), IsMatrix ds.length ds.length f M ∧
      (∀ fuel ≥ F, compare env inp none args kwargs fuel = .ok (.matrix (ds.map SitesDescribed.name) (ds.map SitesDescribed.name) M)) ∧
      ∀ i j (hi : i < ds.length) (hj : j < ds.length), ds[i].WellShaped args.k → ds[j].WellShaped args.k →
        (∀ a b, ds[i].IsAMD args.k a → ds[j].IsAMD args.k b → f i j = chebyshev a b) ∧
        (SameSites ds[i] ds[j] → f i j = 0) := by
  obtain ⟨_, g⟩ := sites_gives (args := args) h hi he
  obtain ⟨M, f, F, h1, h2, h3⟩ := sites_lawful.amd_one hby hnn hk hm g he hne
  exact ⟨M, f, F, h1, h2, fun i j hi hj hw hw' => h3 i j hi hj (sites_wellShaped hw) (sites_wellShaped hw')⟩

/-- **C91** (partial) For given entries and sufficiently large `k` all distances are right, whatever the cells, and whichever backend reads the files. -/
theorem C91_amd_large_k_partial (he : ∀ e ∈ ds, e.Comparable) (he' : ∀ e ∈ ds', e.Comparable) (hne : ds ≠ []) (hne' : ds' ≠ []) :
    ∃ k₀, ∀ (env : Env) (B : CifBackends) (asString : String → String) (o : ReadOptions) (w : World) (inp inp' : Input) (args : CompareArgs)
      (kwargs : Kwargs), ReadsAllSites env B w kwargs o → upper args.by_ = "AMD" → args.nNeighbors = none → k₀ ≤ args.k →
      kwOr kwargs "metric" (.str "chebyshev") = .str "chebyshev" → InputHoldsAll B asString o inp ds args.csdRefcodes → InputHoldsAll B asString o inp' ds' args.csdRefcodes →
      ∃ (M : List (List ℝ)) (f : ℕ → ℕ → ℝ) (F : ℕ), IsMatrix ds.length ds'.length f M ∧
        (∀ fuel ≥ F, compare env inp (some inp') args kwargs fuel = .ok (.matrix (ds.map SitesDescribed.name) (ds'.map SitesDescribed.name) M)) ∧
        ∀ i j (hi : i < ds.length) (hj : j < ds'.length),
          (∀ a b, ds[i].IsAMD args.k a → ds'[j].IsAMD args.k b → f i j = chebyshev a b) ∧
          (SameSites ds[i] ds'[j] → f i j = 0) := by
  obtain ⟨k₁, h₁⟩ := sites_all _ he
  obtain ⟨k₂, h₂⟩ := sites_all _ he'
  refine ⟨max 1 (max k₁ k₂), fun env B asString o w inp inp' args kwargs h hby hnn hk hm hi hi' => ?_⟩
  obtain ⟨_, g⟩ := sites_gives (args := args) h hi he
  obtain ⟨_, g'⟩ := sites_gives (args := args) h hi' he'
  obtain ⟨M, f, F, h1, h2, h3⟩ := sites_lawful.amd_two hby hnn (by omega) hm g g' he he' hne hne'
  exact ⟨M, f, F, h1, h2, fun i j hi hj => h3 i j hi hj (h₁ _ (by omega) _ (List.getElem_mem hi)) (h₂ _ (by omega) _ (List.getElem_mem hj))⟩

/-- **C91** If all blocks, or entries, of the first argument are passed over, ValueError. -/
theorem C91_raises (h : ReadsAllSites env B w kwargs o) (hby : upper args.by_ = "AMD" ∨ upper args.by_ = "PDD") (hi : InputHoldsAll B asString o inp [] args.csdRefcodes)
    (crystals_ : Option Input) (fuel : ℕ) : compare env inp crystals_ args kwargs fuel = .error (.run .value) := by
  obtain ⟨_, g⟩ := sites_gives (args := args) h hi (by simp)
  exact g.raises hby crystals_ fuel

/-! ### PDD -/

/-- **C91** (partial) `compare` by PDD, with `disorder='all_sites'`, of two collections of CIF files or refcodes: the frame is labelled with the names of the blocks (entries) that are not passed over, in order, and an entry is
the Earth mover's distance of the PDDs of the two infinite crystals, up to the rounding of weights to multiples of `1e-8` and, if rows are collapsed, four times the tolerance; so
it is within that of 0 if the blocks describe the same crystal. Missing: entries for cells that are too oblique for `k`. -/
theorem C91_pdd_two_partial (h : ReadsAllSites env B w kwargs o) (hs : env.sched.Complete) (hby : upper args.by_ = "PDD") (hnn : args.nNeighbors = none) {tol : ℝ}
    (htol : 0 ≤ tol) (ho : PddOptions kwargs tol (.named "chebyshev")) (hi : InputHoldsAll B asString o inp ds args.csdRefcodes) (hi' : InputHoldsAll B asString o inp' ds' args.csdRefcodes) (he : ∀ e ∈ ds, e.Comparable)
    (he' : ∀ e ∈ ds', e.Comparable)
    (hne : ds ≠ []) (hne' : ds' ≠ []) {collapse : Bool} (hcol : (kwOr kwargs "collapse" (.bool true)).truthy = collapse) :
    ∃ (M : List (List ℝ)) (f : ℕ → ℕ → ℝ) (F : ℕ), IsMatrix ds.length ds'.length f M ∧
      (∀ fuel ≥ F, compare env inp (some inp') args kwargs fuel = .ok (.matrix (ds.map SitesDescribed.name) (ds'.map SitesDescribed.name) M)) ∧
      ∀ i j (hi : i < ds.length) (hj : j < ds'.length), ds[i].WellShaped args.k → ds'[j].WellShaped args.k →
        ∀ slack, slack = (if collapse then 4 * tol else 0) + emdTol (max ds[i].size ds'[j].size) (args.k * max (ds[i].cell.a : ℝ) ds'[j].cell.a) →
          (∀ p q, ds[i].IsPDD args.k p → ds'[j].IsPDD args.k q → |f i j - exactEmd chebyshev p q| ≤ slack) ∧
          (SameSites ds[i] ds'[j] → 0 ≤ f i j ∧ f i j ≤ slack) := by
  obtain ⟨_, g⟩ := sites_gives (args := args) h hi he
  obtain ⟨_, g'⟩ := sites_gives (args := args) h hi' he'
  obtain ⟨M, f, F, h1, h2, h3⟩ := sites_lawful.pdd_two hs hby hnn htol ho g g' he he' hne hne' hcol
  refine ⟨M, f, F, h1, h2, fun i j hi hj hw hw' slack hslack => ?_⟩
  rw [hslack]
  exact h3 i j hi hj (sites_wellShaped hw) (sites_wellShaped hw')

/-- **C91** (partial) The same for one collection. -/
theorem C91_pdd_partial (h : ReadsAllSites env B w kwargs o) (hs : env.sched.Complete) (hby : upper args.by_ = "PDD") (hnn : args.nNeighbors = none) {tol : ℝ}
    (htol : 0 ≤ tol) (ho : PddOptions kwargs tol (.named "chebyshev")) (hi : InputHoldsAll B asString o inp ds args.csdRefcodes) (he : ∀ e ∈ ds, e.Comparable)
    (hne : ds ≠ []) {collapse : Bool} (hcol : (kwOr kwargs "collapse" (.bool true)).truthy = collapse) :
    ∃ (M : List (List ℝ)) (f : ℕ → ℕ → ℝ) (F : ℕ), IsMatrix ds.length ds.length f M ∧
      (∀ fuel ≥ F, compare env inp none args kwargs fuel = .ok (.matrix (ds.map SitesDescribed.name) (ds.map SitesDescribed.name) M)) ∧
      ∀ i j (hi : i < ds.length) (hj : j < ds.length), ds[i].WellShaped args.k → ds[j].WellShaped args.k →
        ∀ slack, slack = (if collapse then 4 * tol else 0) + emdTol (max ds[i].size ds[j].size) (args.k * max (ds[i].cell.a : ℝ) ds[j].cell.a) →
          (∀ p q, ds[i].IsPDD args.k p → ds[j].IsPDD args.k q → |f i j - exactEmd chebyshev p q| ≤ slack) ∧
          (SameSites ds[i] ds[j] → 0 ≤ f i j ∧ f i j ≤ slack) := by
  obtain ⟨_, g⟩ := sites_gives (args := args) h hi he
  obtain ⟨M, f, F, h1, h2, h3⟩ := sites_lawful.pdd_one hs hby hnn htol ho g he hne hcol
  refine ⟨M, f, F, h1, h2, fun i j hi hj hw hw' slack hslack => ?_⟩
  rw [hslack]
  exact h3 i j hi hj (sites_wellShaped hw) (sites_wellShaped hw')

/-- **C91** (partial) For given entries and sufficiently large `k` all distances are right, whatever the cells, and whichever backend reads the files. -/
theorem C91_pdd_large_k_partial (he : ∀ e ∈ ds, e.Comparable) (he' : ∀ e ∈ ds', e.Comparable) (hne : ds ≠ []) (hne' : ds' ≠ []) :
    ∃ k₀, ∀ (env : Env) (B : CifBackends) (asString : String → String) (o : ReadOptions) (w : World) (inp inp' : Input) (args : CompareArgs)
      (kwargs : Kwargs) (tol : ℝ) (collapse : Bool), ReadsAllSites env B w kwargs o → env.sched.Complete → upper args.by_ = "PDD" → args.nNeighbors = none →
      k₀ ≤ args.k → 0 ≤ tol → PddOptions kwargs tol (.named "chebyshev") → (kwOr kwargs "collapse" (.bool true)).truthy = collapse →
      InputHoldsAll B asString o inp ds args.csdRefcodes → InputHoldsAll B asString o inp' ds' args.csdRefcodes →
      ∃ (M : List (List ℝ)) (f : ℕ → ℕ → ℝ) (F : ℕ), IsMatrix ds.length ds'.length f M ∧
        (∀ fuel ≥ F, compare env inp (some inp') args kwargs fuel = .ok (.matrix (ds.map SitesDescribed.name) (ds'.map SitesDescribed.name) M)) ∧
        ∀ i j (hi : i < ds.length) (hj : j < ds'.length) slack,
          slack = (if collapse then 4 * tol else 0) + emdTol (max ds[i].size ds'[j].size) (args.k * max (ds[i].cell.a : ℝ) ds'[j].cell.a) →
          (∀ p q, ds[i].IsPDD args.k p → ds'[j].IsPDD args.k q → |f i j - exactEmd chebyshev p q| ≤ slack) ∧
          (SameSites ds[i] ds'[j] → 0 ≤ f i j ∧ f i j ≤ slack) := by
  obtain ⟨k₁, h₁⟩ := sites_all _ he
  obtain ⟨k₂, h₂⟩ := sites_all _ he'
  refine ⟨max k₁ k₂, fun env B asString o w inp inp' args kwargs tol collapse h hs hby hnn hk htol ho hcol hi hi' => ?_⟩
  obtain ⟨_, g⟩ := sites_gives (args := args) h hi he
  obtain ⟨_, g'⟩ := sites_gives (args := args) h hi' he'
  obtain ⟨M, f, F, h1, h2, h3⟩ := sites_lawful.pdd_two hs hby hnn htol ho g g' he he' hne hne' hcol
  refine ⟨M, f, F, h1, h2, fun i j hi hj slack hslack => ?_⟩
  rw [hslack]
  exact h3 i j hi hj (h₁ _ (by omega) _ (List.getElem_mem hi)) (h₂ _ (by omega) _ (List.getElem_mem hj))

end Amd
