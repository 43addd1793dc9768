import Verif.Props.CifCompare
import Verif.Props.AllSitesCompare
import Verif.Proof.DescribedNear

/-!
# Files and CSD entries of nearly the same crystal: C92

The distance that `compare` finds between two crystals is small if their points can be paired off with small changes of distances, for example because the sites in one file are
slightly displaced in the other. The bound does not depend on `k`, on the number of atoms, or on the file that is read and the package that reads it.
-/

namespace Amd

open Classical

variable {B : CifBackends} {asString : String → String} {o : ReadOptions} {w : World} {env : Env} {kwargs : Kwargs} {args : CompareArgs} {inp inp' : Input} {δ ε : ℝ} {k : ℕ}

/-! ### The invariants -/

/-- **C92** AMDs of crystals whose points can be paired off, changing no distance by more than `δ`, differ by at most `δ`. -/
theorem C92_amd {c c' : Described} (hc : c.Proper) (hc' : c'.Proper) (h : DescribeNear δ c c') {a a' : List ℝ} (ha : c.IsAMD k a) (ha' : c'.IsAMD k a') : chebyshev a a' ≤ δ := by
  obtain ⟨S, hS⟩ := hc.reads
  obtain ⟨S', hS'⟩ := hc'.reads
  exact h.amd hS hS' ha ha'

/-- **C92** The Earth mover's distance of their PDDs is at most `δ`. -/
theorem C92_pdd {c c' : Described} (hc : c.Proper) (hc' : c'.Proper) (h : DescribeNear δ c c') {p p' : List (PRow ℝ)} (hp : c.IsPDD k p) (hp' : c'.IsPDD k p') :
    exactEmd chebyshev p p' ≤ δ := by
  obtain ⟨S, hS⟩ := hc.reads
  obtain ⟨S', hS'⟩ := hc'.reads
  exact h.pdd hS hS' hc.size hc'.size hp hp'

/-- **C92** The same with overlapping sites, if listed points are paired off. -/
theorem C92_sites_amd {c c' : SitesDescribed} (hc : c.Comparable) (hc' : c'.Comparable) (h : SitesNear δ c c') {a a' : List ℝ} (ha : c.IsAMD k a) (ha' : c'.IsAMD k a') :
    chebyshev a a' ≤ δ := by
  obtain ⟨S, hS⟩ := hc.reads
  obtain ⟨S', hS'⟩ := hc'.reads
  exact h.amd hS hS' ha ha'

/-- **C92** The same with overlapping sites, if listed points are paired off. -/
theorem C92_sites_pdd {c c' : SitesDescribed} (hc : c.Comparable) (hc' : c'.Comparable) (h : SitesNear δ c c') {p p' : List (PRow ℝ)} (hp : c.IsPDD k p) (hp' : c'.IsPDD k p') :
    exactEmd chebyshev p p' ≤ δ := by
  obtain ⟨S, hS⟩ := hc.reads
  obtain ⟨S', hS'⟩ := hc'.reads
  exact h.pdd hS hS' hc.size hc'.size hp hp'

/-! ### Displaced sites -/

/-- **C92** Displacing the sites by at most `ε` changes no distance by more than `2ε`, with the same cell and operations, if they remain in positions of the same kind. -/
theorem C92_moved {c c' : Described} (hc : c.Proper) (h : SitesMoved ε c c') : DescribeNear (2 * ε) c c' := h.near hc

/-- **C92** The same with overlapping sites; these may be displaced independently. -/
theorem C92_sites_moved {c c' : SitesDescribed} (hc : c.Proper) (h : ListedSitesMoved ε c c') : SitesNear (2 * ε) c c' := h.near hc

/-! ### Comparing files and entries -/

section
variable {ds ds' : List Described}

/-- **C92** (partial) `compare` by AMD of two collections of CIF files or refcodes: an entry is at most `δ` if the points of the two crystals can be paired off, changing no distance by
more than `δ`, and at most `2ε` if the sites of one are those of the other displaced by at most `ε`. Missing: entries for cells that are too oblique for `k`. -/
theorem C92_compare_amd_partial (h : ReadsInputs env B w kwargs o) (hby : upper args.by_ = "AMD") (hnn : args.nNeighbors = none) (hk : 0 < args.k)
    (hm : kwOr kwargs "metric" (.str "chebyshev") = .str "chebyshev") (hi : InputHolds B asString o inp ds args.csdRefcodes) (hi' : InputHolds B asString o inp' ds' args.csdRefcodes)
    (he : ∀ e ∈ ds, e.Proper) (he' : ∀ e ∈ ds', e.Proper) (hne : ds ≠ []) (hne' : ds' ≠ []) :
    ∃ (M : List (List ℝ)) (f : ℕ → ℕ → ℝ) (F : ℕ), IsMatrix ds.length ds'.length f M ∧
      (∀ fuel ≥ F, compare env inp (some inp') args kwargs fuel = .ok (.matrix (ds.map Described.name) (ds'.map Described.name) M)) ∧
      ∀ i j (hi : i < ds.length) (hj : j < ds'.length), ds[i].WellShaped args.k → ds'[j].WellShaped args.k →
        (∀ δ, DescribeNear δ ds[i] ds'[j] → f i j ≤ δ) ∧ ∀ ε, SitesMoved ε ds[i] ds'[j] → f i j ≤ 2 * ε := by
  obtain ⟨M, f, F, h1, h2, h3⟩ := C83_amd_two_partial h hby hnn hk hm hi hi' he he' hne hne'
  refine ⟨M, f, F, h1, h2, fun i j hi hj hw hw' => ?_⟩
  have p1 := he _ (List.getElem_mem hi)
  have p2 := he' _ (List.getElem_mem hj)
  obtain ⟨a, ha, -⟩ := C83_amd_unique p1 args.k
  obtain ⟨b, hb, -⟩ := C83_amd_unique p2 args.k
  rw [(h3 i j hi hj hw hw').1 a b ha hb]
  exact ⟨fun δ hn => C92_amd p1 p2 hn ha hb, fun ε hn => C92_amd p1 p2 (C92_moved p1 hn) ha hb⟩

/-- **C92** (partial) `compare` by PDD: the same, up to the rounding of weights to multiples of `1e-8` and, if rows are collapsed, four times the tolerance. Missing: entries for cells
that are too oblique for `k`. -/
theorem C92_compare_pdd_partial (h : ReadsInputs env B w kwargs o) (hs : env.sched.Complete) (hby : upper args.by_ = "PDD") (hnn : args.nNeighbors = none) {tol : ℝ}
    (htol : 0 ≤ tol) (ho : PddOptions kwargs tol (.named "chebyshev")) (hi : InputHolds B asString o inp ds args.csdRefcodes) (hi' : InputHolds B asString o inp' ds' args.csdRefcodes)
    (he : ∀ e ∈ ds, e.Proper) (he' : ∀ e ∈ ds', e.Proper) (hne : ds ≠ []) (hne' : ds' ≠ []) {collapse : Bool} (hcol : (kwOr kwargs "collapse" (.bool true)).truthy = collapse) :
    ∃ (M : List (List ℝ)) (f : ℕ → ℕ → ℝ) (F : ℕ), IsMatrix ds.length ds'.length f M ∧
      (∀ fuel ≥ F, compare env inp (some inp') args kwargs fuel = .ok (.matrix (ds.map Described.name) (ds'.map Described.name) M)) ∧
      ∀ i j (hi : i < ds.length) (hj : j < ds'.length), ds[i].WellShaped args.k → ds'[j].WellShaped args.k →
        ∀ slack, slack = (if collapse then 4 * tol else 0) + emdTol (max ds[i].size ds'[j].size) (args.k * max (ds[i].cell.a : ℝ) ds'[j].cell.a) →
          (∀ δ, DescribeNear δ ds[i] ds'[j] → f i j ≤ δ + slack) ∧ ∀ ε, SitesMoved ε ds[i] ds'[j] → f i j ≤ 2 * ε + slack := by
  obtain ⟨M, f, F, h1, h2, h3⟩ := C83_pdd_two_partial h hs hby hnn htol ho hi hi' he he' hne hne' hcol
  refine ⟨M, f, F, h1, h2, fun i j hi hj hw hw' slack hslack => ?_⟩
  have p1 := he _ (List.getElem_mem hi)
  have p2 := he' _ (List.getElem_mem hj)
  obtain ⟨a, ha⟩ := (C83_pdd_unique p1 args.k).1
  obtain ⟨b, hb⟩ := (C83_pdd_unique p2 args.k).1
  have h4 := (abs_le.1 ((h3 i j hi hj hw hw' slack hslack).1 a b ha hb)).2
  constructor
  · intro δ hn
    linarith [C92_pdd p1 p2 hn ha hb]
  · intro ε hn
    linarith [C92_pdd p1 p2 (C92_moved p1 hn) ha hb]

/-- **C92** (partial) For given crystals and sufficiently large `k` the bound holds whatever the cells. -/
theorem C92_compare_amd_large_k_partial (he : ∀ e ∈ ds, e.Proper) (he' : ∀ e ∈ ds', e.Proper) (hne : ds ≠ []) (hne' : ds' ≠ []) :
    ∃ k₀, ∀ (env : Env) (B : CifBackends) (asString : String → String) (o : ReadOptions) (w : World) (inp inp' : Input) (args : CompareArgs)
      (kwargs : Kwargs), ReadsInputs env B w kwargs o → upper args.by_ = "AMD" → args.nNeighbors = none → k₀ ≤ args.k →
      kwOr kwargs "metric" (.str "chebyshev") = .str "chebyshev" → InputHolds B asString o inp ds args.csdRefcodes → InputHolds B asString o inp' ds' args.csdRefcodes →
      ∃ (M : List (List ℝ)) (f : ℕ → ℕ → ℝ) (F : ℕ), IsMatrix ds.length ds'.length f M ∧
        (∀ fuel ≥ F, compare env inp (some inp') args kwargs fuel = .ok (.matrix (ds.map Described.name) (ds'.map Described.name) M)) ∧
        ∀ i j (hi : i < ds.length) (hj : j < ds'.length),
          (∀ δ, DescribeNear δ ds[i] ds'[j] → f i j ≤ δ) ∧ ∀ ε, SitesMoved ε ds[i] ds'[j] → f i j ≤ 2 * ε := by
  obtain ⟨k₀, h⟩ := C83_amd_large_k_partial he he' hne hne'
  refine ⟨k₀, fun env B asString o w inp inp' args kwargs h0 hby hnn hk hm hi hi' => ?_⟩
  obtain ⟨M, f, F, h1, h2, h3⟩ := h env B asString o w inp inp' args kwargs h0 hby hnn hk hm hi hi'
  refine ⟨M, f, F, h1, h2, fun i j hi hj => ?_⟩
  have p1 := he _ (List.getElem_mem hi)
  have p2 := he' _ (List.getElem_mem hj)
  obtain ⟨a, ha, -⟩ := C83_amd_unique p1 args.k
  obtain ⟨b, hb, -⟩ := C83_amd_unique p2 args.k
  rw [(h3 i j hi hj).1 a b ha hb]
  exact ⟨fun δ hn => C92_amd p1 p2 hn ha hb, fun ε hn => C92_amd p1 p2 (C92_moved p1 hn) ha hb⟩

end

section
variable {ds ds' : List SitesDescribed}

/-- **C92** (partial) `compare` by AMD with `disorder='all_sites'`. Missing: entries for cells that are too oblique for `k`. -/
theorem C92_sites_compare_amd_partial (h : ReadsAllSites env B w kwargs o) (hby : upper args.by_ = "AMD") (hnn : args.nNeighbors = none) (hk : 0 < args.k)
    (hm : kwOr kwargs "metric" (.str "chebyshev") = .str "chebyshev") (hi : InputHoldsAll B asString o inp ds args.csdRefcodes)
    (hi' : InputHoldsAll B asString o inp' ds' args.csdRefcodes) (he : ∀ e ∈ ds, e.Comparable) (he' : ∀ e ∈ ds', e.Comparable) (hne : ds ≠ []) (hne' : ds' ≠ []) :
    ∃ (M : List (List ℝ)) (f : ℕ → ℕ → ℝ) (F : ℕ), IsMatrix ds.length ds'.length f M ∧
      (∀ fuel ≥ F, compare env inp (some inp') args kwargs fuel = .ok (.matrix (ds.map SitesDescribed.name) (ds'.map SitesDescribed.name) M)) ∧
      ∀ i j (hi : i < ds.length) (hj : j < ds'.length), ds[i].WellShaped args.k → ds'[j].WellShaped args.k →
        (∀ δ, SitesNear δ ds[i] ds'[j] → f i j ≤ δ) ∧ ∀ ε, ListedSitesMoved ε ds[i] ds'[j] → f i j ≤ 2 * ε := by
  obtain ⟨M, f, F, h1, h2, h3⟩ := C91_amd_two_partial h hby hnn hk hm hi hi' he he' hne hne'
  refine ⟨M, f, F, h1, h2, fun i j hi hj hw hw' => ?_⟩
  have p1 := he _ (List.getElem_mem hi)
  have p2 := he' _ (List.getElem_mem hj)
  obtain ⟨a, ha, -⟩ := C91_amd_unique p1 args.k
  obtain ⟨b, hb, -⟩ := C91_amd_unique p2 args.k
  rw [(h3 i j hi hj hw hw').1 a b ha hb]
  exact ⟨fun δ hn => C92_sites_amd p1 p2 hn ha hb, fun ε hn => C92_sites_amd p1 p2 (C92_sites_moved p1.proper hn) ha hb⟩

/-- **C92** (partial) `compare` by PDD with `disorder='all_sites'`. Missing: entries for cells that are too oblique for `k`. -/
theorem C92_sites_compare_pdd_partial (h : ReadsAllSites env B w kwargs o) (hs : env.sched.Complete) (hby : upper args.by_ = "PDD") (hnn : args.nNeighbors = none) {tol : ℝ}
    (htol : 0 ≤ tol) (ho : PddOptions kwargs tol (.named "chebyshev")) (hi : InputHoldsAll B asString o inp ds args.csdRefcodes)
    (hi' : InputHoldsAll B asString o inp' ds' args.csdRefcodes) (he : ∀ e ∈ ds, e.Comparable) (he' : ∀ e ∈ ds', e.Comparable) (hne : ds ≠ []) (hne' : ds' ≠ [])
    {collapse : Bool} (hcol : (kwOr kwargs "collapse" (.bool true)).truthy = collapse) :
    ∃ (M : List (List ℝ)) (f : ℕ → ℕ → ℝ) (F : ℕ), IsMatrix ds.length ds'.length f M ∧
      (∀ fuel ≥ F, compare env inp (some inp') args kwargs fuel = .ok (.matrix (ds.map SitesDescribed.name) (ds'.map SitesDescribed.name) M)) ∧
      ∀ i j (hi : i < ds.length) (hj : j < ds'.length), ds[i].WellShaped args.k → ds'[j].WellShaped args.k →
        ∀ slack, slack = (if collapse then 4 * tol else 0) + emdTol (max ds[i].size ds'[j].size) (args.k * max (ds[i].cell.a : ℝ) ds'[j].cell.a) →
          (∀ δ, SitesNear δ ds[i] ds'[j] → f i j ≤ δ + slack) ∧ ∀ ε, ListedSitesMoved ε ds[i] ds'[j] → f i j ≤ 2 * ε + slack := by
  obtain ⟨M, f, F, h1, h2, h3⟩ := C91_pdd_two_partial h hs hby hnn htol ho hi hi' he he' hne hne' hcol
  refine ⟨M, f, F, h1, h2, fun i j hi hj hw hw' slack hslack => ?_⟩
  have p1 := he _ (List.getElem_mem hi)
  have p2 := he' _ (List.getElem_mem hj)
  obtain ⟨a, ha⟩ := (C91_pdd_unique p1 args.k).1
  obtain ⟨b, hb⟩ := (C91_pdd_unique p2 args.k).1
  have h4 := (abs_le.1 ((h3 i j hi hj hw hw' slack hslack).1 a b ha hb)).2
  constructor
  · intro δ hn
    linarith [C92_sites_pdd p1 p2 hn ha hb]
  · intro ε hn
    linarith [C92_sites_pdd p1 p2 (C92_sites_moved p1.proper hn) ha hb]

end

end Amd
