import Verif.Props.Metrics
import Verif.Props.Continuous
import Verif.Props.Strain

/-!
# Nearly the same crystal, by other metrics: C114

C92 and C93 are about the default metric. Here `metric` is any name that scipy knows, or a function, at most `L` times the default metric: `L` is `√k` for `'euclidean'` and `k` for `'cityblock'`
(C96). The bounds for files of nearly the same crystal are then `L` times as large.
-/

namespace Amd

open Classical

variable {B : CifBackends} {asString : String → String} {o : ReadOptions} {w : World} {env : Env} {kwargs : Kwargs} {args : CompareArgs} {inp inp' : Input}

section

variable {ds ds' : List Described}

/-- **C114** (partial) `compare` by AMD of two collections of CIF files or refcodes: an entry is at most `L * δ` if the points of the two crystals can be paired off, changing no distance by more than `δ`;
at most `L * (2 * ε)` if the sites of one are those of the other displaced by at most `ε`; and if, moreover, the cell is strained by at most `η`, another `L * η` times the last entry of the AMD.
Missing: entries for cells that are too oblique for `k`; `low_memory`, with which other metrics raise. -/
theorem C114_amd_partial (h : ReadsInputs env B w kwargs o) (hby : upper args.by_ = "AMD") (hnn : args.nNeighbors = none) {metric : MetricArg ℝ}
    (hm : (kwOr kwargs "metric" (.str "chebyshev")).toMetric = .ok metric) (hl : (kwOr kwargs "low_memory" (.bool false)).truthy = false)
    {L : ℝ} (hd : TameMetric args.k L (metric.dist env.other)) (hi : InputHolds B asString o inp ds args.csdRefcodes) (hi' : InputHolds B asString o inp' ds' args.csdRefcodes) (he : ∀ e ∈ ds, e.Proper) (he' : ∀ e ∈ ds', e.Proper)
    (hne : ds ≠ []) (hne' : ds' ≠ []) :
    ∃ (M : List (List ℝ)) (f : ℕ → ℕ → ℝ) (F : ℕ), IsMatrix ds.length ds'.length f M ∧
      (∀ fuel ≥ F, compare env inp (some inp') args kwargs fuel = .ok (.matrix (ds.map Described.name) (ds'.map Described.name) M)) ∧
      ∀ i j (hi : i < ds.length) (hj : j < ds'.length), ds[i].WellShaped args.k → ds'[j].WellShaped args.k →
        (∀ δ, DescribeNear δ ds[i] ds'[j] → f i j ≤ L * δ) ∧ (∀ ε, SitesMoved ε ds[i] ds'[j] → f i j ≤ L * (2 * ε)) ∧
          ∀ a, ds[i].IsAMD args.k a → ∀ η < 1, (∀ δ, DescribeStrained η δ ds[i] ds'[j] → f i j ≤ L * (η * a.getD (args.k - 1) 0 + δ)) ∧
            ∀ ε, Remeasured η ε ds[i] ds'[j] → f i j ≤ L * (η * a.getD (args.k - 1) 0 + 2 * ε) := by
  obtain ⟨M, f, F, h1, h2, h3⟩ := C96_amd_two_partial h hby hnn hm hl hd.self hi hi' he he' hne hne'
  refine ⟨M, f, F, h1, h2, fun i j hi hj hw hw' => ?_⟩
  have h4 := h3 i j hi hj hw hw'
  have p1 := he _ (List.getElem_mem hi)
  have p2 := he' _ (List.getElem_mem hj)
  obtain ⟨a, ha, ua⟩ := C83_amd_unique p1 args.k
  obtain ⟨b, hb, -⟩ := C83_amd_unique p2 args.k
  have key : ∀ x, chebyshev a b ≤ x → f i j ≤ L * x := fun x hx => by
    rw [h4.1 a b ha hb]
    exact (hd.bound a b (described_lawful.amd_length ha) (described_lawful.amd_length hb)).trans (mul_le_mul_of_nonneg_left hx hd.const)
  refine ⟨fun δ hn => key _ (C92_amd p1 p2 hn ha hb), fun ε hn => key _ (C92_amd p1 p2 (C92_moved p1 hn) ha hb), fun a' ha' η hη => ?_⟩
  rw [ua a' ha']
  exact ⟨fun δ hn => key _ (C93_amd p1 p2 hη hn ha hb).2.2.2, fun ε hn => key _ (C93_amd p1 p2 hη (C93_remeasured p1 p2 hn) ha hb).2.2.2⟩

/-- **C114** (partial) For given crystals and sufficiently large `k` entries by AMD are the distances of the AMDs of the infinite crystals by the metric, 0 if the crystals are the same, and small if they
are nearly the same, whatever the cells. Missing: `low_memory`, with which other metrics raise. -/
theorem C114_amd_large_k_partial (he : ∀ e ∈ ds, e.Proper) (he' : ∀ e ∈ ds', e.Proper) (hne : ds ≠ []) (hne' : ds' ≠ []) :
    ∃ k₀, ∀ (env : Env) (B : CifBackends) (asString : String → String) (o : ReadOptions) (w : World) (inp inp' : Input) (args : CompareArgs) (kwargs : Kwargs) (metric : MetricArg ℝ) (L : ℝ),
      ReadsInputs env B w kwargs o → upper args.by_ = "AMD" → args.nNeighbors = none → k₀ ≤ args.k → (kwOr kwargs "metric" (.str "chebyshev")).toMetric = .ok metric →
      (kwOr kwargs "low_memory" (.bool false)).truthy = false → TameMetric args.k L (metric.dist env.other) → InputHolds B asString o inp ds args.csdRefcodes →
      InputHolds B asString o inp' ds' args.csdRefcodes →
      ∃ (M : List (List ℝ)) (f : ℕ → ℕ → ℝ) (F : ℕ), IsMatrix ds.length ds'.length f M ∧
      (∀ fuel ≥ F, compare env inp (some inp') args kwargs fuel = .ok (.matrix (ds.map Described.name) (ds'.map Described.name) M)) ∧
      ∀ i j (hi : i < ds.length) (hj : j < ds'.length),
        (∀ a b, ds[i].IsAMD args.k a → ds'[j].IsAMD args.k b → f i j = metric.dist env.other a b) ∧ (DescribeSame ds[i] ds'[j] → f i j = 0) ∧
        (∀ δ, DescribeNear δ ds[i] ds'[j] → f i j ≤ L * δ) ∧ (∀ ε, SitesMoved ε ds[i] ds'[j] → f i j ≤ L * (2 * ε)) ∧
          ∀ a, ds[i].IsAMD args.k a → ∀ η < 1, (∀ δ, DescribeStrained η δ ds[i] ds'[j] → f i j ≤ L * (η * a.getD (args.k - 1) 0 + δ)) ∧
            ∀ ε, Remeasured η ε ds[i] ds'[j] → f i j ≤ L * (η * a.getD (args.k - 1) 0 + 2 * ε) := by
  obtain ⟨k₁, g₁⟩ := good_all _ he
  obtain ⟨k₂, g₂⟩ := good_all _ he'
  refine ⟨max k₁ k₂, fun env B asString o w inp inp' args kwargs metric L h hby hnn hk hm hl hd hi hi' => ?_⟩
  obtain ⟨_, g⟩ := input_gives (args := args) h hi he
  obtain ⟨_, g'⟩ := input_gives (args := args) h hi' he'
  obtain ⟨M, f, F, h1, h2, h3⟩ := described_lawful.amd_two_by hby hnn hm hl hd.self g g' he he' hne hne'
  refine ⟨M, f, F, h1, h2, fun i j hi hj => ?_⟩
  have h4 := h3 i j hi hj (g₁ _ (le_trans (le_max_left _ _) hk) _ (List.getElem_mem hi)) (g₂ _ (le_trans (le_max_right _ _) hk) _ (List.getElem_mem hj))
  have p1 := he _ (List.getElem_mem hi)
  have p2 := he' _ (List.getElem_mem hj)
  obtain ⟨a, ha, ua⟩ := C83_amd_unique p1 args.k
  obtain ⟨b, hb, -⟩ := C83_amd_unique p2 args.k
  have key : ∀ x, chebyshev a b ≤ x → f i j ≤ L * x := fun x hx => by
    rw [h4.1 a b ha hb]
    exact (hd.bound a b (described_lawful.amd_length ha) (described_lawful.amd_length hb)).trans (mul_le_mul_of_nonneg_left hx hd.const)
  refine ⟨h4.1, h4.2, fun δ hn => key _ (C92_amd p1 p2 hn ha hb), fun ε hn => key _ (C92_amd p1 p2 (C92_moved p1 hn) ha hb), fun a' ha' η hη => ?_⟩
  rw [ua a' ha']
  exact ⟨fun δ hn => key _ (C93_amd p1 p2 hη hn ha hb).2.2.2, fun ε hn => key _ (C93_amd p1 p2 hη (C93_remeasured p1 p2 hn) ha hb).2.2.2⟩

/-- **C114** (partial) `compare` by PDD: the same, up to the rounding of weights to multiples of `1e-8` and, if rows are collapsed, `4 * L` times the tolerance. Missing: entries for cells
that are too oblique for `k`. -/
theorem C114_pdd_partial (h : ReadsInputs env B w kwargs o) (hs : env.sched.Complete) (hby : upper args.by_ = "PDD") (hnn : args.nNeighbors = none) {metric : MetricArg ℝ}
    {L : ℝ} (hd : TameMetric args.k L (metric.dist env.other)) {tol : ℝ} (htol : 0 ≤ tol) (ho : PddOptions kwargs tol metric) (hi : InputHolds B asString o inp ds args.csdRefcodes) (hi' : InputHolds B asString o inp' ds' args.csdRefcodes) (he : ∀ e ∈ ds, e.Proper) (he' : ∀ e ∈ ds', e.Proper)
    (hne : ds ≠ []) (hne' : ds' ≠ [])
    {collapse : Bool} (hcol : (kwOr kwargs "collapse" (.bool true)).truthy = collapse) :
    ∃ (M : List (List ℝ)) (f : ℕ → ℕ → ℝ) (F : ℕ), IsMatrix ds.length ds'.length f M ∧
      (∀ fuel ≥ F, compare env inp (some inp') args kwargs fuel = .ok (.matrix (ds.map Described.name) (ds'.map Described.name) M)) ∧
      ∀ i j (hi : i < ds.length) (hj : j < ds'.length), ds[i].WellShaped args.k → ds'[j].WellShaped args.k →
        ∀ slack, slack = (if collapse then 4 * L * tol else 0) + emdTol (max ds[i].size ds'[j].size) (L * (args.k * max (ds[i].cell.a : ℝ) ds'[j].cell.a)) →
        (∀ δ, DescribeNear δ ds[i] ds'[j] → f i j ≤ L * δ + slack) ∧ (∀ ε, SitesMoved ε ds[i] ds'[j] → f i j ≤ L * (2 * ε) + slack) ∧
          ∀ a, ds[i].IsAMD args.k a → ∀ η < 1, (∀ δ, DescribeStrained η δ ds[i] ds'[j] → f i j ≤ L * (η * a.getD (args.k - 1) 0 + δ) + slack) ∧
            ∀ ε, Remeasured η ε ds[i] ds'[j] → f i j ≤ L * (η * a.getD (args.k - 1) 0 + 2 * ε) + slack := by
  obtain ⟨M, f, F, h1, h2, h3⟩ := C96_pdd_two_partial h hs hby hnn hd htol ho hi hi' he he' hne hne' hcol
  refine ⟨M, f, F, h1, h2, fun i j hi hj hw hw' slack hslack => ?_⟩
  have p1 := he _ (List.getElem_mem hi)
  have p2 := he' _ (List.getElem_mem hj)
  obtain ⟨p, hp⟩ := (C83_pdd_unique p1 args.k).1
  obtain ⟨q, hq⟩ := (C83_pdd_unique p2 args.k).1
  have h4 := (abs_le.1 ((h3 i j hi hj hw hw' slack hslack).1 p q hp hq)).2
  have h5 := C96_exact hd (described_lawful.weighted hp) (described_lawful.weighted hq)
  have key : ∀ x, exactEmd chebyshev p q ≤ x → f i j ≤ L * x + slack := fun x hx => by linarith [mul_le_mul_of_nonneg_left hx hd.const]
  exact ⟨fun δ hn => key _ (C92_pdd p1 p2 hn hp hq), fun ε hn => key _ (C92_pdd p1 p2 (C92_moved p1 hn) hp hq), fun a ha η hη =>
    ⟨fun δ hn => key _ (C93_pdd p1 p2 hη hn ha hp hq), fun ε hn => key _ (C93_pdd p1 p2 hη (C93_remeasured p1 p2 hn) ha hp hq)⟩⟩

/-- **C114** (partial) For given crystals and sufficiently large `k` entries by PDD are the Earth mover's distances of the PDDs of the infinite crystals by the metric, up to `slack`, and small if the crystals
are the same or nearly the same, whatever the cells. -/
theorem C114_pdd_large_k_partial (he : ∀ e ∈ ds, e.Proper) (he' : ∀ e ∈ ds', e.Proper) (hne : ds ≠ []) (hne' : ds' ≠ []) :
    ∃ k₀, ∀ (env : Env) (B : CifBackends) (asString : String → String) (o : ReadOptions) (w : World) (inp inp' : Input) (args : CompareArgs) (kwargs : Kwargs) (metric : MetricArg ℝ) (L tol : ℝ)
      (collapse : Bool),
      ReadsInputs env B w kwargs o → env.sched.Complete → upper args.by_ = "PDD" → args.nNeighbors = none → k₀ ≤ args.k → TameMetric args.k L (metric.dist env.other) → 0 ≤ tol →
      PddOptions kwargs tol metric → InputHolds B asString o inp ds args.csdRefcodes → InputHolds B asString o inp' ds' args.csdRefcodes → (kwOr kwargs "collapse" (.bool true)).truthy = collapse →
      ∃ (M : List (List ℝ)) (f : ℕ → ℕ → ℝ) (F : ℕ), IsMatrix ds.length ds'.length f M ∧
      (∀ fuel ≥ F, compare env inp (some inp') args kwargs fuel = .ok (.matrix (ds.map Described.name) (ds'.map Described.name) M)) ∧
      ∀ i j (hi : i < ds.length) (hj : j < ds'.length),
        ∀ slack, slack = (if collapse then 4 * L * tol else 0) + emdTol (max ds[i].size ds'[j].size) (L * (args.k * max (ds[i].cell.a : ℝ) ds'[j].cell.a)) →
        (∀ p q, ds[i].IsPDD args.k p → ds'[j].IsPDD args.k q → |f i j - exactEmd (metric.dist env.other) p q| ≤ slack) ∧ (DescribeSame ds[i] ds'[j] → 0 ≤ f i j ∧ f i j ≤ slack) ∧
        (∀ δ, DescribeNear δ ds[i] ds'[j] → f i j ≤ L * δ + slack) ∧ (∀ ε, SitesMoved ε ds[i] ds'[j] → f i j ≤ L * (2 * ε) + slack) ∧
          ∀ a, ds[i].IsAMD args.k a → ∀ η < 1, (∀ δ, DescribeStrained η δ ds[i] ds'[j] → f i j ≤ L * (η * a.getD (args.k - 1) 0 + δ) + slack) ∧
            ∀ ε, Remeasured η ε ds[i] ds'[j] → f i j ≤ L * (η * a.getD (args.k - 1) 0 + 2 * ε) + slack := by
  obtain ⟨k₁, g₁⟩ := good_all _ he
  obtain ⟨k₂, g₂⟩ := good_all _ he'
  refine ⟨max k₁ k₂, fun env B asString o w inp inp' args kwargs metric L tol collapse h hs hby hnn hk hd htol ho hi hi' hcol => ?_⟩
  obtain ⟨_, g⟩ := input_gives (args := args) h hi he
  obtain ⟨_, g'⟩ := input_gives (args := args) h hi' he'
  obtain ⟨M, f, F, h1, h2, h3⟩ := described_lawful.pdd_two_by hs hby hnn htol hd ho g g' he he' hne hne' hcol
  refine ⟨M, f, F, h1, h2, fun i j hi hj slack hslack => ?_⟩
  subst hslack
  have hr := h3 i j hi hj (g₁ _ (le_trans (le_max_left _ _) hk) _ (List.getElem_mem hi)) (g₂ _ (le_trans (le_max_right _ _) hk) _ (List.getElem_mem hj))
  refine ⟨hr.1, hr.2, ?_⟩
  have p1 := he _ (List.getElem_mem hi)
  have p2 := he' _ (List.getElem_mem hj)
  obtain ⟨p, hp⟩ := (C83_pdd_unique p1 args.k).1
  obtain ⟨q, hq⟩ := (C83_pdd_unique p2 args.k).1
  have h4 := (abs_le.1 (hr.1 p q hp hq)).2
  have h5 := C96_exact hd (described_lawful.weighted hp) (described_lawful.weighted hq)
  have key : ∀ x, exactEmd chebyshev p q ≤ x → f i j ≤ L * x + ((if collapse then 4 * L * tol else 0) + emdTol (max ds[i].size ds'[j].size) (L * (args.k * max (ds[i].cell.a : ℝ) ds'[j].cell.a))) :=
    fun x hx => (sub_le_iff_le_add'.1 h4).trans (add_le_add_left (h5.trans (mul_le_mul_of_nonneg_left hx hd.const)) _)
  exact ⟨fun δ hn => key _ (C92_pdd p1 p2 hn hp hq), fun ε hn => key _ (C92_pdd p1 p2 (C92_moved p1 hn) hp hq), fun a ha η hη =>
    ⟨fun δ hn => key _ (C93_pdd p1 p2 hη hn ha hp hq), fun ε hn => key _ (C93_pdd p1 p2 hη (C93_remeasured p1 p2 hn) ha hp hq)⟩⟩

end

section

variable {ds ds' : List SitesDescribed}

/-- **C114** (partial) `compare` by AMD with `disorder='all_sites'` of two collections of CIF files or refcodes: an entry is at most `L * δ` if the points of the two crystals can be paired off, changing no distance by more than `δ`;
at most `L * (2 * ε)` if the sites of one are those of the other displaced by at most `ε`; and if, moreover, the cell is strained by at most `η`, another `L * η` times the last entry of the AMD.
Missing: entries for cells that are too oblique for `k`; `low_memory`, with which other metrics raise. -/
theorem C114_sites_amd_partial (h : ReadsAllSites env B w kwargs o) (hby : upper args.by_ = "AMD") (hnn : args.nNeighbors = none) {metric : MetricArg ℝ}
    (hm : (kwOr kwargs "metric" (.str "chebyshev")).toMetric = .ok metric) (hl : (kwOr kwargs "low_memory" (.bool false)).truthy = false)
    {L : ℝ} (hd : TameMetric args.k L (metric.dist env.other)) (hi : InputHoldsAll B asString o inp ds args.csdRefcodes) (hi' : InputHoldsAll B asString o inp' ds' args.csdRefcodes) (he : ∀ e ∈ ds, e.Comparable) (he' : ∀ e ∈ ds', e.Comparable)
    (hne : ds ≠ []) (hne' : ds' ≠ []) :
    ∃ (M : List (List ℝ)) (f : ℕ → ℕ → ℝ) (F : ℕ), IsMatrix ds.length ds'.length f M ∧
      (∀ fuel ≥ F, compare env inp (some inp') args kwargs fuel = .ok (.matrix (ds.map SitesDescribed.name) (ds'.map SitesDescribed.name) M)) ∧
      ∀ i j (hi : i < ds.length) (hj : j < ds'.length), ds[i].WellShaped args.k → ds'[j].WellShaped args.k →
        (∀ δ, SitesNear δ ds[i] ds'[j] → f i j ≤ L * δ) ∧ (∀ ε, ListedSitesMoved ε ds[i] ds'[j] → f i j ≤ L * (2 * ε)) ∧
          ∀ a, ds[i].IsAMD args.k a → ∀ η < 1, (∀ δ, SitesStrained η δ ds[i] ds'[j] → f i j ≤ L * (η * a.getD (args.k - 1) 0 + δ)) ∧
            ∀ ε, SitesRemeasured η ε ds[i] ds'[j] → f i j ≤ L * (η * a.getD (args.k - 1) 0 + 2 * ε) := by
  obtain ⟨M, f, F, h1, h2, h3⟩ := C96_sites_amd_two_partial h hby hnn hm hl hd.self hi hi' he he' hne hne'
  refine ⟨M, f, F, h1, h2, fun i j hi hj hw hw' => ?_⟩
  have h4 := h3 i j hi hj hw hw'
  have p1 := he _ (List.getElem_mem hi)
  have p2 := he' _ (List.getElem_mem hj)
  obtain ⟨a, ha, ua⟩ := C91_amd_unique p1 args.k
  obtain ⟨b, hb, -⟩ := C91_amd_unique p2 args.k
  have key : ∀ x, chebyshev a b ≤ x → f i j ≤ L * x := fun x hx => by
    rw [h4.1 a b ha hb]
    exact (hd.bound a b (sites_lawful.amd_length ha) (sites_lawful.amd_length hb)).trans (mul_le_mul_of_nonneg_left hx hd.const)
  refine ⟨fun δ hn => key _ (C92_sites_amd p1 p2 hn ha hb), fun ε hn => key _ (C92_sites_amd p1 p2 (C92_sites_moved p1.proper hn) ha hb), fun a' ha' η hη => ?_⟩
  rw [ua a' ha']
  exact ⟨fun δ hn => key _ (C93_sites_amd p1 p2 hη hn ha hb).2.2.2, fun ε hn => key _ (C93_sites_amd p1 p2 hη (C93_sites_remeasured p1.proper p2.proper hn) ha hb).2.2.2⟩

/-- **C114** (partial) For given crystals and sufficiently large `k` entries by AMD with `disorder='all_sites'` are the distances of the AMDs of the infinite crystals by the metric, 0 if the crystals are the same, and small if they
are nearly the same, whatever the cells. Missing: `low_memory`, with which other metrics raise. -/
theorem C114_sites_amd_large_k_partial (he : ∀ e ∈ ds, e.Comparable) (he' : ∀ e ∈ ds', e.Comparable) (hne : ds ≠ []) (hne' : ds' ≠ []) :
    ∃ k₀, ∀ (env : Env) (B : CifBackends) (asString : String → String) (o : ReadOptions) (w : World) (inp inp' : Input) (args : CompareArgs) (kwargs : Kwargs) (metric : MetricArg ℝ) (L : ℝ),
      ReadsAllSites env B w kwargs o → upper args.by_ = "AMD" → args.nNeighbors = none → k₀ ≤ args.k → (kwOr kwargs "metric" (.str "chebyshev")).toMetric = .ok metric →
      (kwOr kwargs "low_memory" (.bool false)).truthy = false → TameMetric args.k L (metric.dist env.other) → InputHoldsAll B asString o inp ds args.csdRefcodes →
      InputHoldsAll B asString o inp' ds' args.csdRefcodes →
      ∃ (M : List (List ℝ)) (f : ℕ → ℕ → ℝ) (F : ℕ), IsMatrix ds.length ds'.length f M ∧
      (∀ fuel ≥ F, compare env inp (some inp') args kwargs fuel = .ok (.matrix (ds.map SitesDescribed.name) (ds'.map SitesDescribed.name) M)) ∧
      ∀ i j (hi : i < ds.length) (hj : j < ds'.length),
        (∀ a b, ds[i].IsAMD args.k a → ds'[j].IsAMD args.k b → f i j = metric.dist env.other a b) ∧ (SameSites ds[i] ds'[j] → f i j = 0) ∧
        (∀ δ, SitesNear δ ds[i] ds'[j] → f i j ≤ L * δ) ∧ (∀ ε, ListedSitesMoved ε ds[i] ds'[j] → f i j ≤ L * (2 * ε)) ∧
          ∀ a, ds[i].IsAMD args.k a → ∀ η < 1, (∀ δ, SitesStrained η δ ds[i] ds'[j] → f i j ≤ L * (η * a.getD (args.k - 1) 0 + δ)) ∧
            ∀ ε, SitesRemeasured η ε ds[i] ds'[j] → f i j ≤ L * (η * a.getD (args.k - 1) 0 + 2 * ε) := by
  obtain ⟨k₁, g₁⟩ := sites_all _ he
  obtain ⟨k₂, g₂⟩ := sites_all _ he'
  refine ⟨max k₁ k₂, fun env B asString o w inp inp' args kwargs metric L h hby hnn hk hm hl hd hi hi' => ?_⟩
  obtain ⟨_, g⟩ := sites_gives (args := args) h hi he
  obtain ⟨_, g'⟩ := sites_gives (args := args) h hi' he'
  obtain ⟨M, f, F, h1, h2, h3⟩ := sites_lawful.amd_two_by hby hnn hm hl hd.self g g' he he' hne hne'
  refine ⟨M, f, F, h1, h2, fun i j hi hj => ?_⟩
  have h4 := h3 i j hi hj (g₁ _ (le_trans (le_max_left _ _) hk) _ (List.getElem_mem hi)) (g₂ _ (le_trans (le_max_right _ _) hk) _ (List.getElem_mem hj))
  have p1 := he _ (List.getElem_mem hi)
  have p2 := he' _ (List.getElem_mem hj)
  obtain ⟨a, ha, ua⟩ := C91_amd_unique p1 args.k
  obtain ⟨b, hb, -⟩ := C91_amd_unique p2 args.k
  have key : ∀ x, chebyshev a b ≤ x → f i j ≤ L * x := fun x hx => by
    rw [h4.1 a b ha hb]
    exact (hd.bound a b (sites_lawful.amd_length ha) (sites_lawful.amd_length hb)).trans (mul_le_mul_of_nonneg_left hx hd.const)
  refine ⟨h4.1, h4.2, fun δ hn => key _ (C92_sites_amd p1 p2 hn ha hb), fun ε hn => key _ (C92_sites_amd p1 p2 (C92_sites_moved p1.proper hn) ha hb), fun a' ha' η hη => ?_⟩
  rw [ua a' ha']
  exact ⟨fun δ hn => key _ (C93_sites_amd p1 p2 hη hn ha hb).2.2.2, fun ε hn => key _ (C93_sites_amd p1 p2 hη (C93_sites_remeasured p1.proper p2.proper hn) ha hb).2.2.2⟩

/-- **C114** (partial) `compare` by PDD with `disorder='all_sites'`: the same, up to the rounding of weights to multiples of `1e-8` and, if rows are collapsed, `4 * L` times the tolerance. Missing: entries for cells
that are too oblique for `k`. -/
theorem C114_sites_pdd_partial (h : ReadsAllSites env B w kwargs o) (hs : env.sched.Complete) (hby : upper args.by_ = "PDD") (hnn : args.nNeighbors = none) {metric : MetricArg ℝ}
    {L : ℝ} (hd : TameMetric args.k L (metric.dist env.other)) {tol : ℝ} (htol : 0 ≤ tol) (ho : PddOptions kwargs tol metric) (hi : InputHoldsAll B asString o inp ds args.csdRefcodes) (hi' : InputHoldsAll B asString o inp' ds' args.csdRefcodes) (he : ∀ e ∈ ds, e.Comparable) (he' : ∀ e ∈ ds', e.Comparable)
    (hne : ds ≠ []) (hne' : ds' ≠ [])
    {collapse : Bool} (hcol : (kwOr kwargs "collapse" (.bool true)).truthy = collapse) :
    ∃ (M : List (List ℝ)) (f : ℕ → ℕ → ℝ) (F : ℕ), IsMatrix ds.length ds'.length f M ∧
      (∀ fuel ≥ F, compare env inp (some inp') args kwargs fuel = .ok (.matrix (ds.map SitesDescribed.name) (ds'.map SitesDescribed.name) M)) ∧
      ∀ i j (hi : i < ds.length) (hj : j < ds'.length), ds[i].WellShaped args.k → ds'[j].WellShaped args.k →
        ∀ slack, slack = (if collapse then 4 * L * tol else 0) + emdTol (max ds[i].size ds'[j].size) (L * (args.k * max (ds[i].cell.a : ℝ) ds'[j].cell.a)) →
        (∀ δ, SitesNear δ ds[i] ds'[j] → f i j ≤ L * δ + slack) ∧ (∀ ε, ListedSitesMoved ε ds[i] ds'[j] → f i j ≤ L * (2 * ε) + slack) ∧
          ∀ a, ds[i].IsAMD args.k a → ∀ η < 1, (∀ δ, SitesStrained η δ ds[i] ds'[j] → f i j ≤ L * (η * a.getD (args.k - 1) 0 + δ) + slack) ∧
            ∀ ε, SitesRemeasured η ε ds[i] ds'[j] → f i j ≤ L * (η * a.getD (args.k - 1) 0 + 2 * ε) + slack := by
  obtain ⟨M, f, F, h1, h2, h3⟩ := C96_sites_pdd_two_partial h hs hby hnn hd htol ho hi hi' he he' hne hne' hcol
  refine ⟨M, f, F, h1, h2, fun i j hi hj hw hw' slack hslack => ?_⟩
  have p1 := he _ (List.getElem_mem hi)
  have p2 := he' _ (List.getElem_mem hj)
  obtain ⟨p, hp⟩ := (C91_pdd_unique p1 args.k).1
  obtain ⟨q, hq⟩ := (C91_pdd_unique p2 args.k).1
  have h4 := (abs_le.1 ((h3 i j hi hj hw hw' slack hslack).1 p q hp hq)).2
  have h5 := C96_exact hd (sites_lawful.weighted hp) (sites_lawful.weighted hq)
  have key : ∀ x, exactEmd chebyshev p q ≤ x → f i j ≤ L * x + slack := fun x hx => by linarith [mul_le_mul_of_nonneg_left hx hd.const]
  exact ⟨fun δ hn => key _ (C92_sites_pdd p1 p2 hn hp hq), fun ε hn => key _ (C92_sites_pdd p1 p2 (C92_sites_moved p1.proper hn) hp hq), fun a ha η hη =>
    ⟨fun δ hn => key _ (C93_sites_pdd p1 p2 hη hn ha hp hq), fun ε hn => key _ (C93_sites_pdd p1 p2 hη (C93_sites_remeasured p1.proper p2.proper hn) ha hp hq)⟩⟩

/-- **C114** (partial) For given crystals and sufficiently large `k` entries by PDD and `disorder='all_sites'` are the Earth mover's distances of the PDDs of the infinite crystals by the metric, up to `slack`, and small if the crystals
are the same or nearly the same, whatever the cells. -/
theorem C114_sites_pdd_large_k_partial (he : ∀ e ∈ ds, e.Comparable) (he' : ∀ e ∈ ds', e.Comparable) (hne : ds ≠ []) (hne' : ds' ≠ []) :
    ∃ k₀, ∀ (env : Env) (B : CifBackends) (asString : String → String) (o : ReadOptions) (w : World) (inp inp' : Input) (args : CompareArgs) (kwargs : Kwargs) (metric : MetricArg ℝ) (L tol : ℝ)
      (collapse : Bool),
      ReadsAllSites env B w kwargs o → env.sched.Complete → upper args.by_ = "PDD" → args.nNeighbors = none → k₀ ≤ args.k → TameMetric args.k L (metric.dist env.other) → 0 ≤ tol →
      PddOptions kwargs tol metric → InputHoldsAll B asString o inp ds args.csdRefcodes → InputHoldsAll B asString o inp' ds' args.csdRefcodes → (kwOr kwargs "collapse" (.bool true)).truthy = collapse →
      ∃ (M : List (List ℝ)) (f : ℕ → ℕ → ℝ) (F : ℕ), IsMatrix ds.length ds'.length f M ∧
      (∀ fuel ≥ F, compare env inp (some inp') args kwargs fuel = .ok (.matrix (ds.map SitesDescribed.name) (ds'.map SitesDescribed.name) M)) ∧
      ∀ i j (hi : i < ds.length) (hj : j < ds'.length),
        ∀ slack, slack = (if collapse then 4 * L * tol else 0) + emdTol (max ds[i].size ds'[j].size) (L * (args.k * max (ds[i].cell.a : ℝ) ds'[j].cell.a)) →
        (∀ p q, ds[i].IsPDD args.k p → ds'[j].IsPDD args.k q → |f i j - exactEmd (metric.dist env.other) p q| ≤ slack) ∧ (SameSites ds[i] ds'[j] → 0 ≤ f i j ∧ f i j ≤ slack) ∧
        (∀ δ, SitesNear δ ds[i] ds'[j] → f i j ≤ L * δ + slack) ∧ (∀ ε, ListedSitesMoved ε ds[i] ds'[j] → f i j ≤ L * (2 * ε) + slack) ∧
          ∀ a, ds[i].IsAMD args.k a → ∀ η < 1, (∀ δ, SitesStrained η δ ds[i] ds'[j] → f i j ≤ L * (η * a.getD (args.k - 1) 0 + δ) + slack) ∧
            ∀ ε, SitesRemeasured η ε ds[i] ds'[j] → f i j ≤ L * (η * a.getD (args.k - 1) 0 + 2 * ε) + slack := by
  obtain ⟨k₁, g₁⟩ := sites_all _ he
  obtain ⟨k₂, g₂⟩ := sites_all _ he'
  refine ⟨max k₁ k₂, fun env B asString o w inp inp' args kwargs metric L tol collapse h hs hby hnn hk hd htol ho hi hi' hcol => ?_⟩
  obtain ⟨_, g⟩ := sites_gives (args := args) h hi he
  obtain ⟨_, g'⟩ := sites_gives (args := args) h hi' he'
  obtain ⟨M, f, F, h1, h2, h3⟩ := sites_lawful.pdd_two_by hs hby hnn htol hd ho g g' he he' hne hne' hcol
  refine ⟨M, f, F, h1, h2, fun i j hi hj slack hslack => ?_⟩
  subst hslack
  have hr := h3 i j hi hj (g₁ _ (le_trans (le_max_left _ _) hk) _ (List.getElem_mem hi)) (g₂ _ (le_trans (le_max_right _ _) hk) _ (List.getElem_mem hj))
  refine ⟨hr.1, hr.2, ?_⟩
  have p1 := he _ (List.getElem_mem hi)
  have p2 := he' _ (List.getElem_mem hj)
  obtain ⟨p, hp⟩ := (C91_pdd_unique p1 args.k).1
  obtain ⟨q, hq⟩ := (C91_pdd_unique p2 args.k).1
  have h4 := (abs_le.1 (hr.1 p q hp hq)).2
  have h5 := C96_exact hd (sites_lawful.weighted hp) (sites_lawful.weighted hq)
  have key : ∀ x, exactEmd chebyshev p q ≤ x → f i j ≤ L * x + ((if collapse then 4 * L * tol else 0) + emdTol (max ds[i].size ds'[j].size) (L * (args.k * max (ds[i].cell.a : ℝ) ds'[j].cell.a))) :=
    fun x hx => (sub_le_iff_le_add'.1 h4).trans (add_le_add_left (h5.trans (mul_le_mul_of_nonneg_left hx hd.const)) _)
  exact ⟨fun δ hn => key _ (C92_sites_pdd p1 p2 hn hp hq), fun ε hn => key _ (C92_sites_pdd p1 p2 (C92_sites_moved p1.proper hn) hp hq), fun a ha η hη =>
    ⟨fun δ hn => key _ (C93_sites_pdd p1 p2 hη hn ha hp hq), fun ε hn => key _ (C93_sites_pdd p1 p2 hη (C93_sites_remeasured p1.proper p2.proper hn) ha hp hq)⟩⟩

end

end Amd
