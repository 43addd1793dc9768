import Verif.Proof.Metrics
import Verif.Props.CommandLine

/-!
# Other metrics: C96

C83, C91 and C95 are about the default metric. Here `metric` is any name that scipy knows, or a function.
-/

namespace Amd

open Classical

variable {B : CifBackends} {asString : String → String} {o : ReadOptions} {w : World} {env : Env} {kwargs : Kwargs} {args : CompareArgs} {inp inp' : Input}

/-- **C96** The names stand for these distances. -/
theorem C96_names (hn : ScipyNames env.other) : (MetricArg.named "euclidean").dist env.other = euclidean ∧ (MetricArg.named "cityblock").dist env.other = cityblock ∧
    (MetricArg.named "chebyshev").dist env.other = chebyshev := by
  refine ⟨?_, ?_, rfl⟩
  · rw [MetricArg.dist, if_neg (by decide), hn.euclidean]
  · rw [MetricArg.dist, if_neg (by decide), hn.cityblock]

/-- **C96** `'euclidean'`, `'cityblock'` and the default are metrics on lists of `k` numbers, at most `√k`, `k` and 1 times the largest difference. -/
theorem C96_metrics (hn : ScipyNames env.other) (k : ℕ) : TameMetric k √k ((MetricArg.named "euclidean").dist env.other) ∧
    TameMetric k k ((MetricArg.named "cityblock").dist env.other) ∧ TameMetric k 1 ((MetricArg.named "chebyshev").dist env.other) := by
  obtain ⟨e1, e2, -⟩ := C96_names hn
  rw [e1, e2]
  exact ⟨euclidean_tame k, cityblock_tame k, chebyshev_tame k⟩

/-- **C96** The Earth mover's distance of two PDDs by such a metric is at most `L` times that by the default metric. So the bounds of C85, C92 and C93 for nearly equal crystals hold for other
metrics, multiplied by `L`. -/
theorem C96_exact {k : ℕ} {L : ℝ} {d : List ℝ → List ℝ → ℝ} (h : TameMetric k L d) {p q : List (PRow ℝ)} (hp : WeightedRows k p) (hq : WeightedRows k q) :
    exactEmd d p q ≤ L * exactEmd chebyshev p q := exactEmd_tame h hp hq

section

variable {ds ds' : List Described}

/-- **C96** (partial) `compare` by AMD with any metric that is 0 for equal lists: an entry is the distance of the AMDs of the two infinite crystals by the metric; so it is 0 if the blocks describe the same crystal. Missing: entries for cells that are too oblique for `k`; `low_memory`, with which other metrics raise. -/
theorem C96_amd_two_partial (h : ReadsInputs env B w kwargs o) (hby : upper args.by_ = "AMD") (hnn : args.nNeighbors = none) {metric : MetricArg ℝ}
    (hm : (kwOr kwargs "metric" (.str "chebyshev")).toMetric = .ok metric) (hl : (kwOr kwargs "low_memory" (.bool false)).truthy = false)
    (hd : ∀ a, a.length = args.k → metric.dist env.other a a = 0)
    (hi : InputHolds B asString o inp ds args.csdRefcodes) (hi' : InputHolds B asString o inp' ds' args.csdRefcodes) (he : ∀ e ∈ ds, e.Proper) (he' : ∀ e ∈ ds', e.Proper) (hne : ds ≠ []) (hne' : ds' ≠ []) :
    ∃ (M : List (List ℝ)) (f : ℕ → ℕ → ℝ) (F : ℕ), IsMatrix ds.length ds'.length f M ∧
      (∀ fuel ≥ F, compare env inp (some inp') args kwargs fuel = .ok (.matrix (ds.map Described.name) (ds'.map Described.name) M)) ∧
      ∀ i j (hi : i < ds.length) (hj : j < ds'.length), ds[i].WellShaped args.k → ds'[j].WellShaped args.k →
        (∀ a b, ds[i].IsAMD args.k a → ds'[j].IsAMD args.k b → f i j = metric.dist env.other a b) ∧ (DescribeSame ds[i] ds'[j] → f i j = 0) := by
  obtain ⟨_, g⟩ := input_gives (args := args) h hi he
  obtain ⟨_, g'⟩ := input_gives (args := args) h hi' he'
  obtain ⟨M, f, F, h1, h2, h3⟩ := described_lawful.amd_two_by hby hnn hm hl hd g g' he he' hne hne'
  exact ⟨M, f, F, h1, h2, fun i j hi hj hw hw' => h3 i j hi hj (good_wellShaped hw) (good_wellShaped hw')⟩

/-- **C96** (partial) The same for one collection, if the metric is symmetric. -/
theorem C96_amd_partial (h : ReadsInputs env B w kwargs o) (hby : upper args.by_ = "AMD") (hnn : args.nNeighbors = none) {metric : MetricArg ℝ}
    (hm : (kwOr kwargs "metric" (.str "chebyshev")).toMetric = .ok metric) (hl : (kwOr kwargs "low_memory" (.bool false)).truthy = false)
    (hd : ∀ a, a.length = args.k → metric.dist env.other a a = 0) (hsymm : ∀ a b, a.length = args.k → b.length = args.k → metric.dist env.other a b = metric.dist env.other b a)
    (hi : InputHolds B asString o inp ds args.csdRefcodes) (he : ∀ e ∈ ds, e.Proper) (hne : ds ≠ []) :
    ∃ (M : List (List ℝ)) (f : ℕ → ℕ → ℝ) (F : ℕ), IsMatrix ds.length ds.length f M ∧
      (∀ fuel ≥ F, compare env inp none args kwargs fuel = .ok (.matrix (ds.map Described.name) (ds.map Described.name) M)) ∧
      ∀ i j (hi : i < ds.length) (hj : j < ds.length), ds[i].WellShaped args.k → ds[j].WellShaped args.k →
        (∀ a b, ds[i].IsAMD args.k a → ds[j].IsAMD args.k b → f i j = metric.dist env.other a b) ∧ (DescribeSame ds[i] ds[j] → f i j = 0) := by
  obtain ⟨_, g⟩ := input_gives (args := args) h hi he
  obtain ⟨M, f, F, h1, h2, h3⟩ := described_lawful.amd_one_by hby hnn hm hl hd hsymm g he hne
  exact ⟨M, f, F, h1, h2, fun i j hi hj hw hw' => h3 i j hi hj (good_wellShaped hw) (good_wellShaped hw')⟩

/-- **C96** (partial) `compare` by PDD with any metric that is at most `L` times the default one: an entry is the Earth mover's distance of the PDDs of the two infinite crystals by the metric, up to the rounding of weights and, if rows are collapsed, `4 * L` times the tolerance. Missing: entries for cells that are too oblique for `k`. -/
theorem C96_pdd_two_partial (h : ReadsInputs env B w kwargs o) (hs : env.sched.Complete) (hby : upper args.by_ = "PDD") (hnn : args.nNeighbors = none) {metric : MetricArg ℝ}
    {L : ℝ} (hd : TameMetric args.k L (metric.dist env.other)) {tol : ℝ} (htol : 0 ≤ tol) (ho : PddOptions kwargs tol metric)
    (hi : InputHolds B asString o inp ds args.csdRefcodes) (hi' : InputHolds B asString o inp' ds' args.csdRefcodes) (he : ∀ e ∈ ds, e.Proper) (he' : ∀ e ∈ ds', e.Proper) (hne : ds ≠ []) (hne' : ds' ≠ []) {collapse : Bool} (hcol : (kwOr kwargs "collapse" (.bool true)).truthy = collapse) :
    ∃ (M : List (List ℝ)) (f : ℕ → ℕ → ℝ) (F : ℕ), IsMatrix ds.length ds'.length f M ∧
      (∀ fuel ≥ F, compare env inp (some inp') args kwargs fuel = .ok (.matrix (ds.map Described.name) (ds'.map Described.name) M)) ∧
      ∀ i j (hi : i < ds.length) (hj : j < ds'.length), ds[i].WellShaped args.k → ds'[j].WellShaped args.k →
        ∀ slack, slack = (if collapse then 4 * L * tol else 0) + emdTol (max ds[i].size ds'[j].size) (L * (args.k * max (ds[i].cell.a : ℝ) ds'[j].cell.a)) →
          (∀ p q, ds[i].IsPDD args.k p → ds'[j].IsPDD args.k q → |f i j - exactEmd (metric.dist env.other) p q| ≤ slack) ∧ (DescribeSame ds[i] ds'[j] → 0 ≤ f i j ∧ f i j ≤ slack) := by
  obtain ⟨_, g⟩ := input_gives (args := args) h hi he
  obtain ⟨_, g'⟩ := input_gives (args := args) h hi' he'
  obtain ⟨M, f, F, h1, h2, h3⟩ := described_lawful.pdd_two_by hs hby hnn htol hd ho g g' he he' hne hne' hcol
  refine ⟨M, f, F, h1, h2, fun i j hi hj hw hw' slack hslack => ?_⟩
  rw [hslack]
  exact h3 i j hi hj (good_wellShaped hw) (good_wellShaped hw')

/-- **C96** (partial) The same for one collection. -/
theorem C96_pdd_partial (h : ReadsInputs env B w kwargs o) (hs : env.sched.Complete) (hby : upper args.by_ = "PDD") (hnn : args.nNeighbors = none) {metric : MetricArg ℝ}
    {L : ℝ} (hd : TameMetric args.k L (metric.dist env.other)) {tol : ℝ} (htol : 0 ≤ tol) (ho : PddOptions kwargs tol metric)
    (hi : InputHolds B asString o inp ds args.csdRefcodes) (he : ∀ e ∈ ds, e.Proper) (hne : ds ≠ []) {collapse : Bool} (hcol : (kwOr kwargs "collapse" (.bool true)).truthy = collapse) :
    ∃ (M : List (List ℝ)) (f : ℕ → ℕ → ℝ) (F : ℕ), IsMatrix ds.length ds.length f M ∧
      (∀ fuel ≥ F, compare env inp none args kwargs fuel = .ok (.matrix (ds.map Described.name) (ds.map Described.name) M)) ∧
      ∀ i j (hi : i < ds.length) (hj : j < ds.length), ds[i].WellShaped args.k → ds[j].WellShaped args.k →
        ∀ slack, slack = (if collapse then 4 * L * tol else 0) + emdTol (max ds[i].size ds[j].size) (L * (args.k * max (ds[i].cell.a : ℝ) ds[j].cell.a)) →
          (∀ p q, ds[i].IsPDD args.k p → ds[j].IsPDD args.k q → |f i j - exactEmd (metric.dist env.other) p q| ≤ slack) ∧ (DescribeSame ds[i] ds[j] → 0 ≤ f i j ∧ f i j ≤ slack) := by
  obtain ⟨_, g⟩ := input_gives (args := args) h hi he
  obtain ⟨M, f, F, h1, h2, h3⟩ := described_lawful.pdd_one_by hs hby hnn htol hd ho g he hne hcol
  refine ⟨M, f, F, h1, h2, fun i j hi hj hw hw' slack hslack => ?_⟩
  rw [hslack]
  exact h3 i j hi hj (good_wellShaped hw) (good_wellShaped hw')

end

section

variable {ds ds' : List SitesDescribed}

/-- **C96** (partial) With `disorder='all_sites'`: `compare` by AMD with any metric that is 0 for equal lists: an entry is the distance of the AMDs of the two infinite crystals by the metric; so it is 0 if the blocks describe the same crystal. Missing: entries for cells that are too oblique for `k`; `low_memory`, with which other metrics raise. -/
theorem C96_sites_amd_two_partial (h : ReadsAllSites env B w kwargs o) (hby : upper args.by_ = "AMD") (hnn : args.nNeighbors = none) {metric : MetricArg ℝ}
    (hm : (kwOr kwargs "metric" (.str "chebyshev")).toMetric = .ok metric) (hl : (kwOr kwargs "low_memory" (.bool false)).truthy = false)
    (hd : ∀ a, a.length = args.k → metric.dist env.other a a = 0)
    (hi : InputHoldsAll B asString o inp ds args.csdRefcodes) (hi' : InputHoldsAll B asString o inp' ds' args.csdRefcodes) (he : ∀ e ∈ ds, e.Comparable) (he' : ∀ e ∈ ds', e.Comparable) (hne : ds ≠ []) (hne' : ds' ≠ []) :
    ∃ (M : List (List ℝ)) (f : ℕ → ℕ → ℝ) (F : ℕ), IsMatrix ds.length ds'.length f M ∧
      (∀ fuel ≥ F, compare env inp (some inp') args kwargs fuel = .ok (.matrix (ds.map SitesDescribed.name) (ds'.map SitesDescribed.name) M)) ∧
      ∀ i j (hi : i < ds.length) (hj : j < ds'.length), ds[i].WellShaped args.k → ds'[j].WellShaped args.k →
        (∀ a b, ds[i].IsAMD args.k a → ds'[j].IsAMD args.k b → f i j = metric.dist env.other a b) ∧ (SameSites ds[i] ds'[j] → f i j = 0) := by
  obtain ⟨_, g⟩ := sites_gives (args := args) h hi he
  obtain ⟨_, g'⟩ := sites_gives (args := args) h hi' he'
  obtain ⟨M, f, F, h1, h2, h3⟩ := sites_lawful.amd_two_by hby hnn hm hl hd g g' he he' hne hne'
  exact ⟨M, f, F, h1, h2, fun i j hi hj hw hw' => h3 i j hi hj (sites_wellShaped hw) (sites_wellShaped hw')⟩

/-- **C96** (partial) With `disorder='all_sites'`: the same for one collection, if the metric is symmetric. -/
theorem C96_sites_amd_partial (h : ReadsAllSites env B w kwargs o) (hby : upper args.by_ = "AMD") (hnn : args.nNeighbors = none) {metric : MetricArg ℝ}
    (hm : (kwOr kwargs "metric" (.str "chebyshev")).toMetric = .ok metric) (hl : (kwOr kwargs "low_memory" (.bool false)).truthy = false)
    (hd : ∀ a, a.length = args.k → metric.dist env.other a a = 0) (hsymm : ∀ a b, a.length = args.k → b.length = args.k → metric.dist env.other a b = metric.dist env.other b a)
    (hi : InputHoldsAll B asString o inp ds args.csdRefcodes) (he : ∀ e ∈ ds, e.Comparable) (hne : ds ≠ []) :
    ∃ (M : List (List ℝ)) (f : ℕ → ℕ → ℝ) (F : ℕ), IsMatrix ds.length ds.length f M ∧
      (∀ fuel ≥ F, compare env inp none args kwargs fuel = .ok (.matrix (ds.map SitesDescribed.name) (ds.map SitesDescribed.name) M)) ∧
      ∀ i j (hi : i < ds.length) (hj : j < ds.length), ds[i].WellShaped args.k → ds[j].WellShaped args.k →
        (∀ a b, ds[i].IsAMD args.k a → ds[j].IsAMD args.k b → f i j = metric.dist env.other a b) ∧ (SameSites ds[i] ds[j] → f i j = 0) := by
  obtain ⟨_, g⟩ := sites_gives (args := args) h hi he
  obtain ⟨M, f, F, h1, h2, h3⟩ := sites_lawful.amd_one_by hby hnn hm hl hd hsymm g he hne
  exact ⟨M, f, F, h1, h2, fun i j hi hj hw hw' => h3 i j hi hj (sites_wellShaped hw) (sites_wellShaped hw')⟩

/-- **C96** (partial) With `disorder='all_sites'`: `compare` by PDD with any metric that is at most `L` times the default one: an entry is the Earth mover's distance of the PDDs of the two infinite crystals by the metric, up to the rounding of weights and, if rows are collapsed, `4 * L` times the tolerance. Missing: entries for cells that are too oblique for `k`. -/
theorem C96_sites_pdd_two_partial (h : ReadsAllSites env B w kwargs o) (hs : env.sched.Complete) (hby : upper args.by_ = "PDD") (hnn : args.nNeighbors = none) {metric : MetricArg ℝ}
    {L : ℝ} (hd : TameMetric args.k L (metric.dist env.other)) {tol : ℝ} (htol : 0 ≤ tol) (ho : PddOptions kwargs tol metric)
    (hi : InputHoldsAll B asString o inp ds args.csdRefcodes) (hi' : InputHoldsAll B asString o inp' ds' args.csdRefcodes) (he : ∀ e ∈ ds, e.Comparable) (he' : ∀ e ∈ ds', e.Comparable) (hne : ds ≠ []) (hne' : ds' ≠ []) {collapse : Bool} (hcol : (kwOr kwargs "collapse" (.bool true)).truthy = collapse) :
    ∃ (M : List (List ℝ)) (f : ℕ → ℕ → ℝ) (F : ℕ), IsMatrix ds.length ds'.length f M ∧
      (∀ fuel ≥ F, compare env inp (some inp') args kwargs fuel = .ok (.matrix (ds.map SitesDescribed.name) (ds'.map SitesDescribed.name) M)) ∧
      ∀ i j (hi : i < ds.length) (hj : j < ds'.length), ds[i].WellShaped args.k → ds'[j].WellShaped args.k →
        ∀ slack, slack = (if collapse then 4 * L * tol else 0) + emdTol (max ds[i].size ds'[j].size) (L * (args.k * max (ds[i].cell.a : ℝ) ds'[j].cell.a)) →
          (∀ p q, ds[i].IsPDD args.k p → ds'[j].IsPDD args.k q → |f i j - exactEmd (metric.dist env.other) p q| ≤ slack) ∧ (SameSites ds[i] ds'[j] → 0 ≤ f i j ∧ f i j ≤ slack) := by
  obtain ⟨_, g⟩ := sites_gives (args := args) h hi he
  obtain ⟨_, g'⟩ := sites_gives (args := args) h hi' he'
  obtain ⟨M, f, F, h1, h2, h3⟩ := sites_lawful.pdd_two_by hs hby hnn htol hd ho g g' he he' hne hne' hcol
  refine ⟨M, f, F, h1, h2, fun i j hi hj hw hw' slack hslack => ?_⟩
  rw [hslack]
  exact h3 i j hi hj (sites_wellShaped hw) (sites_wellShaped hw')

/-- **C96** (partial) With `disorder='all_sites'`: the same for one collection. -/
theorem C96_sites_pdd_partial (h : ReadsAllSites env B w kwargs o) (hs : env.sched.Complete) (hby : upper args.by_ = "PDD") (hnn : args.nNeighbors = none) {metric : MetricArg ℝ}
    {L : ℝ} (hd : TameMetric args.k L (metric.dist env.other)) {tol : ℝ} (htol : 0 ≤ tol) (ho : PddOptions kwargs tol metric)
    (hi : InputHoldsAll B asString o inp ds args.csdRefcodes) (he : ∀ e ∈ ds, e.Comparable) (hne : ds ≠ []) {collapse : Bool} (hcol : (kwOr kwargs "collapse" (.bool true)).truthy = collapse) :
    ∃ (M : List (List ℝ)) (f : ℕ → ℕ → ℝ) (F : ℕ), IsMatrix ds.length ds.length f M ∧
      (∀ fuel ≥ F, compare env inp none args kwargs fuel = .ok (.matrix (ds.map SitesDescribed.name) (ds.map SitesDescribed.name) M)) ∧
      ∀ i j (hi : i < ds.length) (hj : j < ds.length), ds[i].WellShaped args.k → ds[j].WellShaped args.k →
        ∀ slack, slack = (if collapse then 4 * L * tol else 0) + emdTol (max ds[i].size ds[j].size) (L * (args.k * max (ds[i].cell.a : ℝ) ds[j].cell.a)) →
          (∀ p q, ds[i].IsPDD args.k p → ds[j].IsPDD args.k q → |f i j - exactEmd (metric.dist env.other) p q| ≤ slack) ∧ (SameSites ds[i] ds[j] → 0 ≤ f i j ∧ f i j ≤ slack) := by
  obtain ⟨_, g⟩ := sites_gives (args := args) h hi he
  obtain ⟨M, f, F, h1, h2, h3⟩ := sites_lawful.pdd_one_by hs hby hnn htol hd ho g he hne hcol
  refine ⟨M, f, F, h1, h2, fun i j hi hj hw hw' slack hslack => ?_⟩
  rw [hslack]
  exact h3 i j hi hj (sites_wellShaped hw) (sites_wellShaped hw')

end

/-! ### The command line -/

variable {ss : List Setting} {argv : List String} {formats : String → Bool} {ds ds' : List Described} {p q : String} {a : CliArgs}

/-- **C96** (partial) `amd p q --metric name`: as C95, with distances by the metric. Missing: cells that are too oblique for `k`. -/
theorem C96_command_amd_partial (h : CommandLine ss [p, q] argv) (ha : a = settingsArgs ss [p, q]) (hr : RunsWith env B w a) (hby : a.by_ = "AMD") (hlow : a.lowMemory = false)
    (hd : ∀ x, x.length = a.k → (MetricArg.named a.metric).dist env.other x x = 0)
    (hf : formats a.format = true) (hi : InputHolds B asString a.readOptions (.one (.str p)) ds a.csdRefcodes) (hi' : InputHolds B asString a.readOptions (.one (.str q)) ds' a.csdRefcodes)
    (he : ∀ e ∈ ds, e.Proper) (he' : ∀ e ∈ ds', e.Proper) (hne : ds ≠ []) (hne' : ds' ≠ []) :
    ∃ (M : List (List ℝ)) (f : ℕ → ℕ → ℝ) (F : ℕ), IsMatrix ds.length ds'.length f M ∧
      (∀ fuel ≥ F, cliRun env formats argv fuel = .ok { frame := .matrix (ds.map Described.name) (ds'.map Described.name) M, path := a.output, format := a.format }) ∧
      ∀ i j (hi : i < ds.length) (hj : j < ds'.length), ds[i].WellShaped a.k → ds'[j].WellShaped a.k →
        (∀ x y, ds[i].IsAMD a.k x → ds'[j].IsAMD a.k y → f i j = (MetricArg.named a.metric).dist env.other x y) ∧ (DescribeSame ds[i] ds'[j] → f i j = 0) := by
  obtain ⟨M, f, F, h1, h2, h3⟩ := C96_amd_two_partial (args := a.named) hr.reads (by rw [show a.named.by_ = a.by_ from rfl, hby, upper_AMD]) rfl (metric := .named a.metric) rfl hlow hd
    hi hi' he he' hne hne'
  exact ⟨M, f, F, h1, fun fuel hF => (C95_writes_partial (ha ▸ hf) h ha).2 rfl (h2 fuel hF), h3⟩

/-- **C96** (partial) `amd p q --by PDD --metric name`. Missing as above. -/
theorem C96_command_pdd_partial (h : CommandLine ss [p, q] argv) (ha : a = settingsArgs ss [p, q]) (hr : RunsWith env B w a) (hs : env.sched.Complete) (hby : a.by_ = "PDD")
    (htol : 0 ≤ a.collapseTol) {L : ℝ} (hd : TameMetric a.k L ((MetricArg.named a.metric).dist env.other)) (hf : formats a.format = true)
    (hi : InputHolds B asString a.readOptions (.one (.str p)) ds a.csdRefcodes)
    (hi' : InputHolds B asString a.readOptions (.one (.str q)) ds' a.csdRefcodes) (he : ∀ e ∈ ds, e.Proper) (he' : ∀ e ∈ ds', e.Proper) (hne : ds ≠ []) (hne' : ds' ≠ []) :
    ∃ (M : List (List ℝ)) (f : ℕ → ℕ → ℝ) (F : ℕ), IsMatrix ds.length ds'.length f M ∧
      (∀ fuel ≥ F, cliRun env formats argv fuel = .ok { frame := .matrix (ds.map Described.name) (ds'.map Described.name) M, path := a.output, format := a.format }) ∧
      ∀ i j (hi : i < ds.length) (hj : j < ds'.length), ds[i].WellShaped a.k → ds'[j].WellShaped a.k →
        ∀ slack, slack = 4 * L * a.collapseTol + emdTol (max ds[i].size ds'[j].size) (L * (a.k * max (ds[i].cell.a : ℝ) ds'[j].cell.a)) →
          (∀ x y, ds[i].IsPDD a.k x → ds'[j].IsPDD a.k y → |f i j - exactEmd ((MetricArg.named a.metric).dist env.other) x y| ≤ slack) ∧
          (DescribeSame ds[i] ds'[j] → 0 ≤ f i j ∧ f i j ≤ slack) := by
  have ho : PddOptions a.kwargs a.collapseTol (.named a.metric) := ⟨rfl, rfl, ⟨_, rfl⟩, ⟨_, rfl⟩⟩
  obtain ⟨M, f, F, h1, h2, h3⟩ := C96_pdd_two_partial (args := a.named) hr.reads hs (by rw [show a.named.by_ = a.by_ from rfl, hby, upper_PDD]) rfl hd htol ho hi hi' he he' hne hne'
    (collapse := true) rfl
  exact ⟨M, f, F, h1, fun fuel hF => (C95_writes_partial (ha ▸ hf) h ha).2 rfl (h2 fuel hF), h3⟩

end Amd
