import Verif.Proof.NearestMetrics
import Verif.Props.CifCompare
import Verif.Props.AllSitesCompare

/-!
# The nearest crystals by other metrics: C113

C113 is about the default metric. Here `metric` is any name that the libraries know, or a function, from what is written in CIF files, or entries of the CSD, to the table of nearest crystals.
-/

namespace Amd

open Classical

variable {B : CifBackends} {asString : String → String} {o : ReadOptions} {w : World} {env : Env} {kwargs : Kwargs} {args : CompareArgs} {inp inp' : Input}

/-! ### Crystals without overlapping sites -/

section

variable {ds ds' : List Described} {e e' : Described}

/-- **C113** (partial) `compare` of one collection by AMD with `n_neighbors=n`: row `i` has the names and distances of `n` crystals nearest to crystal `i` among the others,
nearest first, where the distances of crystals with well-shaped cells are the distances of the AMDs of the infinite crystals by the metric, which is any for which the library finds nearest items (`KnnContract`). If another crystal of the collection is the
same, `DIST 1` is 0. Missing: distances for cells that are too oblique for `k`. -/
theorem C113_amd_partial (h : ReadsInputs env B w kwargs o) (hby : upper args.by_ = "AMD") {n : ℕ} (hnn : args.nNeighbors = some n) (hn0 : 0 < n) (hnl : n < ds.length)
    {metric : MetricArg ℝ} (hm : (kwOr kwargs "metric" (.str "chebyshev")).toMetric = .ok metric) (hd : RowMetric args.k (metric.dist env.other))
    (hknn : KnnContract (metric.dist env.other) (env.knn (routeKwargs args.verbose kwargs).near metric)) (hi : InputHolds B asString o inp ds args.csdRefcodes) (he : ∀ e ∈ ds, e.Proper) :
    ∃ (d : ℕ → ℕ → ℝ) (f : Frame) (F : ℕ), IsNearestTable n (ds.map Described.name) (ds.map Described.name) (fun i j => j < ds.length ∧ j ≠ i) d f ∧
      (∀ fuel ≥ F, compare env inp none args kwargs fuel = .ok f) ∧
      ∀ i j (hi : i < ds.length) (hj : j < ds.length), ds[i].WellShaped args.k → ds[j].WellShaped args.k →
        (∀ a b, ds[i].IsAMD args.k a → ds[j].IsAMD args.k b → d i j = metric.dist env.other a b) ∧
        (j ≠ i → DescribeSame ds[i] ds[j] → FirstDist f i 0) := by
  obtain ⟨_, g⟩ := input_gives (args := args) h hi he
  obtain ⟨d, f, F, h1, h2, h3, h4⟩ := described_lawful.near_amd_one_by hby hnn hn0 hnl hm hd hknn g he
  refine ⟨d, f, F, h1, h2, fun i j hi hj hw hw' => ?_⟩
  have hr := h4 i j hi hj (good_wellShaped hw) (good_wellShaped hw')
  refine ⟨hr.1, fun hij hsame => ?_⟩
  obtain ⟨j', hc, hle, hf⟩ := h1.first hn0 (i := i) (j := j) (by simpa using hi) ⟨hj, hij⟩
  rw [hr.2 hsame] at hle
  rwa [le_antisymm hle (h3 i hi j' hc.1)] at hf

/-- **C113** (partial) The same for two collections: row `i` lists crystals of the second collection. -/
theorem C113_amd_two_partial (h : ReadsInputs env B w kwargs o) (hby : upper args.by_ = "AMD") {n : ℕ} (hnn : args.nNeighbors = some n) (hn0 : 0 < n) (hnl : n ≤ ds'.length)
    {metric : MetricArg ℝ} (hm : (kwOr kwargs "metric" (.str "chebyshev")).toMetric = .ok metric) (hd : RowMetric args.k (metric.dist env.other))
    (hknn : KnnContract (metric.dist env.other) (env.knn (routeKwargs args.verbose kwargs).near metric)) (hi : InputHolds B asString o inp ds args.csdRefcodes) (hi' : InputHolds B asString o inp' ds' args.csdRefcodes)
    (he : ∀ e ∈ ds, e.Proper) (he' : ∀ e ∈ ds', e.Proper) (hne : ds ≠ []) :
    ∃ (d : ℕ → ℕ → ℝ) (f : Frame) (F : ℕ), IsNearestTable n (ds.map Described.name) (ds'.map Described.name) (fun _ j => j < ds'.length) d f ∧
      (∀ fuel ≥ F, compare env inp (some inp') args kwargs fuel = .ok f) ∧
      ∀ i j (hi : i < ds.length) (hj : j < ds'.length), ds[i].WellShaped args.k → ds'[j].WellShaped args.k →
        (∀ a b, ds[i].IsAMD args.k a → ds'[j].IsAMD args.k b → d i j = metric.dist env.other a b) ∧
        (DescribeSame ds[i] ds'[j] → FirstDist f i 0) := by
  obtain ⟨_, g⟩ := input_gives (args := args) h hi he
  obtain ⟨_, g'⟩ := input_gives (args := args) h hi' he'
  obtain ⟨d, f, F, h1, h2, h3, h4⟩ := described_lawful.near_amd_two_by hby hnn hn0 hnl hm hd hknn g g' he he' hne
  refine ⟨d, f, F, h1, h2, fun i j hi hj hw hw' => ?_⟩
  have hr := h4 i j hi hj (good_wellShaped hw) (good_wellShaped hw')
  refine ⟨hr.1, fun hsame => ?_⟩
  obtain ⟨j', hc, hle, hf⟩ := h1.first hn0 (i := i) (j := j) (by simpa using hi) hj
  rw [hr.2 hsame] at hle
  rwa [le_antisymm hle (h3 i hi j' hc)] at hf

/-- **C113** (partial) For given entries and sufficiently large `k` the nearest crystals are right, whatever the cells, and whichever backend reads the files. -/
theorem C113_amd_large_k_partial (he : ∀ e ∈ ds, e.Proper) :
    ∃ k₀, ∀ (env : Env) (B : CifBackends) (asString : String → String) (o : ReadOptions) (w : World) (inp : Input) (args : CompareArgs) (kwargs : Kwargs) (n : ℕ) (metric : MetricArg ℝ),
      ReadsInputs env B w kwargs o → upper args.by_ = "AMD" → args.nNeighbors = some n → 0 < n → n < ds.length → k₀ ≤ args.k →
      (kwOr kwargs "metric" (.str "chebyshev")).toMetric = .ok metric → RowMetric args.k (metric.dist env.other) →
      KnnContract (metric.dist env.other) (env.knn (routeKwargs args.verbose kwargs).near metric) → InputHolds B asString o inp ds args.csdRefcodes →
      ∃ (d : ℕ → ℕ → ℝ) (f : Frame) (F : ℕ), IsNearestTable n (ds.map Described.name) (ds.map Described.name) (fun i j => j < ds.length ∧ j ≠ i) d f ∧
        (∀ fuel ≥ F, compare env inp none args kwargs fuel = .ok f) ∧
        ∀ i j (hi : i < ds.length) (hj : j < ds.length),
          (∀ a b, ds[i].IsAMD args.k a → ds[j].IsAMD args.k b → d i j = metric.dist env.other a b) ∧
          (j ≠ i → DescribeSame ds[i] ds[j] → FirstDist f i 0) := by
  obtain ⟨k₁, h₁⟩ := good_all _ he
  refine ⟨k₁, fun env B asString o w inp args kwargs n metric h hby hnn hn0 hnl hk hm hd hknn hi => ?_⟩
  obtain ⟨_, g⟩ := input_gives (args := args) h hi he
  obtain ⟨d, f, F, h1, h2, h3, h4⟩ := described_lawful.near_amd_one_by hby hnn hn0 hnl hm hd hknn g he
  refine ⟨d, f, F, h1, h2, fun i j hi hj => ?_⟩
  have hr := h4 i j hi hj (h₁ _ hk _ (List.getElem_mem hi)) (h₁ _ hk _ (List.getElem_mem hj))
  refine ⟨hr.1, fun hij hsame => ?_⟩
  obtain ⟨j', hc, hle, hf⟩ := h1.first hn0 (i := i) (j := j) (by simpa using hi) ⟨hj, hij⟩
  rw [hr.2 hsame] at hle
  rwa [le_antisymm hle (h3 i hi j' hc.1)] at hf

/-- **C113** (partial) By PDD with any metric that is at most `L` times the default one, distances are the Earth mover's distances of the PDDs of the infinite crystals up to `slack`, which is made of the rounding of weights to multiples of `1e-8` and, if rows are collapsed,
`4 * L` times the tolerance. If another crystal of the collection is the same, `DIST 1` is at most `slack`. Missing: distances for cells that are too oblique for `k`, and
`n = ds.length - 1`, for which the code fails (C38). -/
theorem C113_pdd_partial (h : ReadsInputs env B w kwargs o) (hs : env.Sound) (hby : upper args.by_ = "PDD") {n : ℕ} (hnn : args.nNeighbors = some n) (hn0 : 0 < n) (hnl : n + 1 < ds.length)
    {metric : MetricArg ℝ} {L : ℝ} (hd : TameMetric args.k L (metric.dist env.other)) {tol : ℝ} (htol : 0 ≤ tol) (ho : PddOptions kwargs tol metric) (hi : InputHolds B asString o inp ds args.csdRefcodes) (he : ∀ e ∈ ds, e.Proper)
    {collapse : Bool} (hcol : (kwOr kwargs "collapse" (.bool true)).truthy = collapse) :
    ∃ (d : ℕ → ℕ → ℝ) (f : Frame) (F : ℕ), IsNearestTable n (ds.map Described.name) (ds.map Described.name) (fun i j => j < ds.length ∧ j ≠ i) d f ∧
      (∀ fuel ≥ F, compare env inp none args kwargs fuel = .ok f) ∧
      ∀ i j (hi : i < ds.length) (hj : j < ds.length), i ≠ j → ds[i].WellShaped args.k → ds[j].WellShaped args.k →
        ∀ slack, slack = (if collapse then 4 * L * tol else 0) + emdTol (max ds[i].size ds[j].size) (L * (args.k * max (ds[i].cell.a : ℝ) ds[j].cell.a)) →
          (∀ p q, ds[i].IsPDD args.k p → ds[j].IsPDD args.k q → |d i j - exactEmd (metric.dist env.other) p q| ≤ slack) ∧
          (DescribeSame ds[i] ds[j] → ∃ x, FirstDist f i x ∧ 0 ≤ x ∧ x ≤ slack) := by
  obtain ⟨_, g⟩ := input_gives (args := args) h hi he
  obtain ⟨d, f, F, h1, h2, h3, h4⟩ := described_lawful.near_pdd_one_by hs hby hnn hnl htol hd ho g he hcol
  refine ⟨d, f, F, h1, h2, fun i j hi hj hij hw hw' slack hslack => ?_⟩
  subst hslack
  have hr := h4 i j hi hj hij (good_wellShaped hw) (good_wellShaped hw')
  refine ⟨hr.1, fun hsame => ?_⟩
  obtain ⟨j', hc, hle, hf⟩ := h1.first hn0 (i := i) (j := j) (by simpa using hi) ⟨hj, hij.symm⟩
  exact ⟨_, hf, h3 i hi j' hc.1, hle.trans (hr.2 hsame).2⟩

/-- **C113** (partial) The same for two collections. Missing: cells that are too oblique for `k`, and `n = ds'.length`, for which the code fails (C38). -/
theorem C113_pdd_two_partial (h : ReadsInputs env B w kwargs o) (hs : env.Sound) (hby : upper args.by_ = "PDD") {n : ℕ} (hnn : args.nNeighbors = some n) (hn0 : 0 < n) (hnl : n < ds'.length)
    {metric : MetricArg ℝ} {L : ℝ} (hd : TameMetric args.k L (metric.dist env.other)) {tol : ℝ} (htol : 0 ≤ tol) (ho : PddOptions kwargs tol metric) (hi : InputHolds B asString o inp ds args.csdRefcodes)
    (hi' : InputHolds B asString o inp' ds' args.csdRefcodes) (he : ∀ e ∈ ds, e.Proper) (he' : ∀ e ∈ ds', e.Proper) (hne : ds ≠ []) {collapse : Bool}
    (hcol : (kwOr kwargs "collapse" (.bool true)).truthy = collapse) :
    ∃ (d : ℕ → ℕ → ℝ) (f : Frame) (F : ℕ), IsNearestTable n (ds.map Described.name) (ds'.map Described.name) (fun _ j => j < ds'.length) d f ∧
      (∀ fuel ≥ F, compare env inp (some inp') args kwargs fuel = .ok f) ∧
      ∀ i j (hi : i < ds.length) (hj : j < ds'.length), ds[i].WellShaped args.k → ds'[j].WellShaped args.k →
        ∀ slack, slack = (if collapse then 4 * L * tol else 0) + emdTol (max ds[i].size ds'[j].size) (L * (args.k * max (ds[i].cell.a : ℝ) ds'[j].cell.a)) →
          (∀ p q, ds[i].IsPDD args.k p → ds'[j].IsPDD args.k q → |d i j - exactEmd (metric.dist env.other) p q| ≤ slack) ∧
          (DescribeSame ds[i] ds'[j] → ∃ x, FirstDist f i x ∧ 0 ≤ x ∧ x ≤ slack) := by
  obtain ⟨_, g⟩ := input_gives (args := args) h hi he
  obtain ⟨_, g'⟩ := input_gives (args := args) h hi' he'
  obtain ⟨d, f, F, h1, h2, h3, h4⟩ := described_lawful.near_pdd_two_by hs hby hnn hnl htol hd ho g g' he he' hne hcol
  refine ⟨d, f, F, h1, h2, fun i j hi hj hw hw' slack hslack => ?_⟩
  subst hslack
  have hr := h4 i j hi hj (good_wellShaped hw) (good_wellShaped hw')
  refine ⟨hr.1, fun hsame => ?_⟩
  obtain ⟨j', hc, hle, hf⟩ := h1.first hn0 (i := i) (j := j) (by simpa using hi) hj
  exact ⟨_, hf, h3 i hi j' hc, hle.trans (hr.2 hsame).2⟩

/-- **C113** (partial) For given entries and sufficiently large `k`, two collections by AMD: the nearest crystals are right, whatever the cells, the metric, and the backend that reads the files. -/
theorem C113_amd_two_large_k_partial (he : ∀ e ∈ ds, e.Proper) (he' : ∀ e ∈ ds', e.Proper) (hne : ds ≠ []) :
    ∃ k₀, ∀ (env : Env) (B : CifBackends) (asString : String → String) (o : ReadOptions) (w : World) (inp inp' : Input) (args : CompareArgs) (kwargs : Kwargs) (n : ℕ) (metric : MetricArg ℝ),
      ReadsInputs env B w kwargs o → upper args.by_ = "AMD" → args.nNeighbors = some n → 0 < n → n ≤ ds'.length → k₀ ≤ args.k →
      (kwOr kwargs "metric" (.str "chebyshev")).toMetric = .ok metric → RowMetric args.k (metric.dist env.other) →
      KnnContract (metric.dist env.other) (env.knn (routeKwargs args.verbose kwargs).near metric) → InputHolds B asString o inp ds args.csdRefcodes → InputHolds B asString o inp' ds' args.csdRefcodes →
      ∃ (d : ℕ → ℕ → ℝ) (f : Frame) (F : ℕ), IsNearestTable n (ds.map Described.name) (ds'.map Described.name) (fun _ j => j < ds'.length) d f ∧
        (∀ fuel ≥ F, compare env inp (some inp') args kwargs fuel = .ok f) ∧
        ∀ i j (hi : i < ds.length) (hj : j < ds'.length),
          (∀ a b, ds[i].IsAMD args.k a → ds'[j].IsAMD args.k b → d i j = metric.dist env.other a b) ∧ (DescribeSame ds[i] ds'[j] → FirstDist f i 0) := by
  obtain ⟨k₁, h₁⟩ := good_all _ he
  obtain ⟨k₂, h₂⟩ := good_all _ he'
  refine ⟨max k₁ k₂, fun env B asString o w inp inp' args kwargs n metric h hby hnn hn0 hnl hk hm hd hknn hi hi' => ?_⟩
  obtain ⟨_, g⟩ := input_gives (args := args) h hi he
  obtain ⟨_, g'⟩ := input_gives (args := args) h hi' he'
  obtain ⟨d, f, F, h1, h2, h3, h4⟩ := described_lawful.near_amd_two_by hby hnn hn0 hnl hm hd hknn g g' he he' hne
  refine ⟨d, f, F, h1, h2, fun i j hi hj => ?_⟩
  have hr := h4 i j hi hj (h₁ _ (le_trans (le_max_left _ _) hk) _ (List.getElem_mem hi)) (h₂ _ (le_trans (le_max_right _ _) hk) _ (List.getElem_mem hj))
  refine ⟨hr.1, fun hsame => ?_⟩
  obtain ⟨j', hc, hle, hf⟩ := h1.first hn0 (i := i) (j := j) (by simpa using hi) hj
  rw [hr.2 hsame] at hle
  rwa [le_antisymm hle (h3 i hi j' hc)] at hf

/-- **C113** (partial) For given entries and sufficiently large `k`, one collection by PDD, whatever the cells. Missing: `n = ds.length - 1`, for which the code fails (C38). -/
theorem C113_pdd_large_k_partial (he : ∀ e ∈ ds, e.Proper) :
    ∃ k₀, ∀ (env : Env) (B : CifBackends) (asString : String → String) (o : ReadOptions) (w : World) (inp : Input) (args : CompareArgs) (kwargs : Kwargs) (n : ℕ) (metric : MetricArg ℝ) (L tol : ℝ)
      (collapse : Bool),
      ReadsInputs env B w kwargs o → env.Sound → upper args.by_ = "PDD" → args.nNeighbors = some n → 0 < n → n + 1 < ds.length → k₀ ≤ args.k → TameMetric args.k L (metric.dist env.other) → 0 ≤ tol →
      PddOptions kwargs tol metric → InputHolds B asString o inp ds args.csdRefcodes → (kwOr kwargs "collapse" (.bool true)).truthy = collapse →
      ∃ (d : ℕ → ℕ → ℝ) (f : Frame) (F : ℕ), IsNearestTable n (ds.map Described.name) (ds.map Described.name) (fun i j => j < ds.length ∧ j ≠ i) d f ∧
        (∀ fuel ≥ F, compare env inp none args kwargs fuel = .ok f) ∧
        ∀ i j (hi : i < ds.length) (hj : j < ds.length), i ≠ j →
          ∀ slack, slack = (if collapse then 4 * L * tol else 0) + emdTol (max ds[i].size ds[j].size) (L * (args.k * max (ds[i].cell.a : ℝ) ds[j].cell.a)) →
            (∀ p q, ds[i].IsPDD args.k p → ds[j].IsPDD args.k q → |d i j - exactEmd (metric.dist env.other) p q| ≤ slack) ∧
            (DescribeSame ds[i] ds[j] → ∃ x, FirstDist f i x ∧ 0 ≤ x ∧ x ≤ slack) := by
  obtain ⟨k₁, h₁⟩ := good_all _ he
  refine ⟨k₁, fun env B asString o w inp args kwargs n metric L tol collapse h hs hby hnn hn0 hnl hk hd htol ho hi hcol => ?_⟩
  obtain ⟨_, g⟩ := input_gives (args := args) h hi he
  obtain ⟨d, f, F, h1, h2, h3, h4⟩ := described_lawful.near_pdd_one_by hs hby hnn hnl htol hd ho g he hcol
  refine ⟨d, f, F, h1, h2, fun i j hi hj hij slack hslack => ?_⟩
  subst hslack
  have hr := h4 i j hi hj hij (h₁ _ hk _ (List.getElem_mem hi)) (h₁ _ hk _ (List.getElem_mem hj))
  refine ⟨hr.1, fun hsame => ?_⟩
  obtain ⟨j', hc, hle, hf⟩ := h1.first hn0 (i := i) (j := j) (by simpa using hi) ⟨hj, hij.symm⟩
  exact ⟨_, hf, h3 i hi j' hc.1, hle.trans (hr.2 hsame).2⟩

/-- **C113** (partial) For given entries and sufficiently large `k`, two collections by PDD, whatever the cells. Missing: `n = ds'.length`, for which the code fails (C38). -/
theorem C113_pdd_two_large_k_partial (he : ∀ e ∈ ds, e.Proper) (he' : ∀ e ∈ ds', e.Proper) (hne : ds ≠ []) :
    ∃ k₀, ∀ (env : Env) (B : CifBackends) (asString : String → String) (o : ReadOptions) (w : World) (inp inp' : Input) (args : CompareArgs) (kwargs : Kwargs) (n : ℕ) (metric : MetricArg ℝ) (L tol : ℝ)
      (collapse : Bool),
      ReadsInputs env B w kwargs o → env.Sound → upper args.by_ = "PDD" → args.nNeighbors = some n → 0 < n → n < ds'.length → k₀ ≤ args.k → TameMetric args.k L (metric.dist env.other) → 0 ≤ tol →
      PddOptions kwargs tol metric → InputHolds B asString o inp ds args.csdRefcodes → InputHolds B asString o inp' ds' args.csdRefcodes → (kwOr kwargs "collapse" (.bool true)).truthy = collapse →
      ∃ (d : ℕ → ℕ → ℝ) (f : Frame) (F : ℕ), IsNearestTable n (ds.map Described.name) (ds'.map Described.name) (fun _ j => j < ds'.length) d f ∧
        (∀ fuel ≥ F, compare env inp (some inp') args kwargs fuel = .ok f) ∧
        ∀ i j (hi : i < ds.length) (hj : j < ds'.length),
          ∀ slack, slack = (if collapse then 4 * L * tol else 0) + emdTol (max ds[i].size ds'[j].size) (L * (args.k * max (ds[i].cell.a : ℝ) ds'[j].cell.a)) →
            (∀ p q, ds[i].IsPDD args.k p → ds'[j].IsPDD args.k q → |d i j - exactEmd (metric.dist env.other) p q| ≤ slack) ∧
            (DescribeSame ds[i] ds'[j] → ∃ x, FirstDist f i x ∧ 0 ≤ x ∧ x ≤ slack) := by
  obtain ⟨k₁, h₁⟩ := good_all _ he
  obtain ⟨k₂, h₂⟩ := good_all _ he'
  refine ⟨max k₁ k₂, fun env B asString o w inp inp' args kwargs n metric L tol collapse h hs hby hnn hn0 hnl hk hd htol ho hi hi' hcol => ?_⟩
  obtain ⟨_, g⟩ := input_gives (args := args) h hi he
  obtain ⟨_, g'⟩ := input_gives (args := args) h hi' he'
  obtain ⟨d, f, F, h1, h2, h3, h4⟩ := described_lawful.near_pdd_two_by hs hby hnn hnl htol hd ho g g' he he' hne hcol
  refine ⟨d, f, F, h1, h2, fun i j hi hj slack hslack => ?_⟩
  subst hslack
  have hr := h4 i j hi hj (h₁ _ (le_trans (le_max_left _ _) hk) _ (List.getElem_mem hi)) (h₂ _ (le_trans (le_max_right _ _) hk) _ (List.getElem_mem hj))
  refine ⟨hr.1, fun hsame => ?_⟩
  obtain ⟨j', hc, hle, hf⟩ := h1.first hn0 (i := i) (j := j) (by simpa using hi) hj
  exact ⟨_, hf, h3 i hi j' hc, hle.trans (hr.2 hsame).2⟩

end

/-! ### `disorder='all_sites'` -/

section

variable {ds ds' : List SitesDescribed} {e e' : SitesDescribed}

/-- **C113** (partial) `compare` of one collection by AMD with `n_neighbors=n` and `disorder='all_sites'`: row `i` has the names and distances of `n` crystals nearest to crystal `i` among the others,
nearest first, where the distances of crystals with well-shaped cells are the distances of the AMDs of the infinite crystals by the metric, which is any for which the library finds nearest items (`KnnContract`). If another crystal of the collection is the
same, `DIST 1` is 0. Missing: distances for cells that are too oblique for `k`. -/
theorem C113_sites_amd_partial (h : ReadsAllSites env B w kwargs o) (hby : upper args.by_ = "AMD") {n : ℕ} (hnn : args.nNeighbors = some n) (hn0 : 0 < n) (hnl : n < ds.length)
    {metric : MetricArg ℝ} (hm : (kwOr kwargs "metric" (.str "chebyshev")).toMetric = .ok metric) (hd : RowMetric args.k (metric.dist env.other))
    (hknn : KnnContract (metric.dist env.other) (env.knn (routeKwargs args.verbose kwargs).near metric)) (hi : InputHoldsAll B asString o inp ds args.csdRefcodes) (he : ∀ e ∈ ds, e.Comparable) :
    ∃ (d : ℕ → ℕ → ℝ) (f : Frame) (F : ℕ), IsNearestTable n (ds.map SitesDescribed.name) (ds.map SitesDescribed.name) (fun i j => j < ds.length ∧ j ≠ i) d f ∧
      (∀ fuel ≥ F, compare env inp none args kwargs fuel = .ok f) ∧
      ∀ i j (hi : i < ds.length) (hj : j < ds.length), ds[i].WellShaped args.k → ds[j].WellShaped args.k →
        (∀ a b, ds[i].IsAMD args.k a → ds[j].IsAMD args.k b → d i j = metric.dist env.other a b) ∧
        (j ≠ i → SameSites ds[i] ds[j] → FirstDist f i 0) := by
  obtain ⟨_, g⟩ := sites_gives (args := args) h hi he
  obtain ⟨d, f, F, h1, h2, h3, h4⟩ := sites_lawful.near_amd_one_by hby hnn hn0 hnl hm hd hknn g he
  refine ⟨d, f, F, h1, h2, fun i j hi hj hw hw' => ?_⟩
  have hr := h4 i j hi hj (sites_wellShaped hw) (sites_wellShaped hw')
  refine ⟨hr.1, fun hij hsame => ?_⟩
  obtain ⟨j', hc, hle, hf⟩ := h1.first hn0 (i := i) (j := j) (by simpa using hi) ⟨hj, hij⟩
  rw [hr.2 hsame] at hle
  rwa [le_antisymm hle (h3 i hi j' hc.1)] at hf

/-- **C113** (partial) The same for two collections: row `i` lists crystals of the second collection. -/
theorem C113_sites_amd_two_partial (h : ReadsAllSites env B w kwargs o) (hby : upper args.by_ = "AMD") {n : ℕ} (hnn : args.nNeighbors = some n) (hn0 : 0 < n) (hnl : n ≤ ds'.length)
    {metric : MetricArg ℝ} (hm : (kwOr kwargs "metric" (.str "chebyshev")).toMetric = .ok metric) (hd : RowMetric args.k (metric.dist env.other))
    (hknn : KnnContract (metric.dist env.other) (env.knn (routeKwargs args.verbose kwargs).near metric)) (hi : InputHoldsAll B asString o inp ds args.csdRefcodes) (hi' : InputHoldsAll B asString o inp' ds' args.csdRefcodes)
    (he : ∀ e ∈ ds, e.Comparable) (he' : ∀ e ∈ ds', e.Comparable) (hne : ds ≠ []) :
    ∃ (d : ℕ → ℕ → ℝ) (f : Frame) (F : ℕ), IsNearestTable n (ds.map SitesDescribed.name) (ds'.map SitesDescribed.name) (fun _ j => j < ds'.length) d f ∧
      (∀ fuel ≥ F, compare env inp (some inp') args kwargs fuel = .ok f) ∧
      ∀ i j (hi : i < ds.length) (hj : j < ds'.length), ds[i].WellShaped args.k → ds'[j].WellShaped args.k →
        (∀ a b, ds[i].IsAMD args.k a → ds'[j].IsAMD args.k b → d i j = metric.dist env.other a b) ∧
        (SameSites ds[i] ds'[j] → FirstDist f i 0) := by
  obtain ⟨_, g⟩ := sites_gives (args := args) h hi he
  obtain ⟨_, g'⟩ := sites_gives (args := args) h hi' he'
  obtain ⟨d, f, F, h1, h2, h3, h4⟩ := sites_lawful.near_amd_two_by hby hnn hn0 hnl hm hd hknn g g' he he' hne
  refine ⟨d, f, F, h1, h2, fun i j hi hj hw hw' => ?_⟩
  have hr := h4 i j hi hj (sites_wellShaped hw) (sites_wellShaped hw')
  refine ⟨hr.1, fun hsame => ?_⟩
  obtain ⟨j', hc, hle, hf⟩ := h1.first hn0 (i := i) (j := j) (by simpa using hi) hj
  rw [hr.2 hsame] at hle
  rwa [le_antisymm hle (h3 i hi j' hc)] at hf

/-- **C113** (partial) For given entries and sufficiently large `k` the nearest crystals are right, whatever the cells, and whichever backend reads the files. -/
theorem C113_sites_amd_large_k_partial (he : ∀ e ∈ ds, e.Comparable) :
    ∃ k₀, ∀ (env : Env) (B : CifBackends) (asString : String → String) (o : ReadOptions) (w : World) (inp : Input) (args : CompareArgs) (kwargs : Kwargs) (n : ℕ) (metric : MetricArg ℝ),
      ReadsAllSites env B w kwargs o → upper args.by_ = "AMD" → args.nNeighbors = some n → 0 < n → n < ds.length → k₀ ≤ args.k →
      (kwOr kwargs "metric" (.str "chebyshev")).toMetric = .ok metric → RowMetric args.k (metric.dist env.other) →
      KnnContract (metric.dist env.other) (env.knn (routeKwargs args.verbose kwargs).near metric) → InputHoldsAll B asString o inp ds args.csdRefcodes →
      ∃ (d : ℕ → ℕ → ℝ) (f : Frame) (F : ℕ), IsNearestTable n (ds.map SitesDescribed.name) (ds.map SitesDescribed.name) (fun i j => j < ds.length ∧ j ≠ i) d f ∧
        (∀ fuel ≥ F, compare env inp none args kwargs fuel = .ok f) ∧
        ∀ i j (hi : i < ds.length) (hj : j < ds.length),
          (∀ a b, ds[i].IsAMD args.k a → ds[j].IsAMD args.k b → d i j = metric.dist env.other a b) ∧
          (j ≠ i → SameSites ds[i] ds[j] → FirstDist f i 0) := by
  obtain ⟨k₁, h₁⟩ := sites_all _ he
  refine ⟨k₁, fun env B asString o w inp args kwargs n metric h hby hnn hn0 hnl hk hm hd hknn hi => ?_⟩
  obtain ⟨_, g⟩ := sites_gives (args := args) h hi he
  obtain ⟨d, f, F, h1, h2, h3, h4⟩ := sites_lawful.near_amd_one_by hby hnn hn0 hnl hm hd hknn g he
  refine ⟨d, f, F, h1, h2, fun i j hi hj => ?_⟩
  have hr := h4 i j hi hj (h₁ _ hk _ (List.getElem_mem hi)) (h₁ _ hk _ (List.getElem_mem hj))
  refine ⟨hr.1, fun hij hsame => ?_⟩
  obtain ⟨j', hc, hle, hf⟩ := h1.first hn0 (i := i) (j := j) (by simpa using hi) ⟨hj, hij⟩
  rw [hr.2 hsame] at hle
  rwa [le_antisymm hle (h3 i hi j' hc.1)] at hf

/-- **C113** (partial) By PDD with any metric that is at most `L` times the default one, distances are the Earth mover's distances of the PDDs of the infinite crystals up to `slack`, which is made of the rounding of weights to multiples of `1e-8` and, if rows are collapsed,
`4 * L` times the tolerance. If another crystal of the collection is the same, `DIST 1` is at most `slack`. Missing: distances for cells that are too oblique for `k`, and
`n = ds.length - 1`, for which the code fails (C38). -/
theorem C113_sites_pdd_partial (h : ReadsAllSites env B w kwargs o) (hs : env.Sound) (hby : upper args.by_ = "PDD") {n : ℕ} (hnn : args.nNeighbors = some n) (hn0 : 0 < n) (hnl : n + 1 < ds.length)
    {metric : MetricArg ℝ} {L : ℝ} (hd : TameMetric args.k L (metric.dist env.other)) {tol : ℝ} (htol : 0 ≤ tol) (ho : PddOptions kwargs tol metric) (hi : InputHoldsAll B asString o inp ds args.csdRefcodes) (he : ∀ e ∈ ds, e.Comparable)
    {collapse : Bool} (hcol : (kwOr kwargs "collapse" (.bool true)).truthy = collapse) :
    ∃ (d : ℕ → ℕ → ℝ) (f : Frame) (F : ℕ), IsNearestTable n (ds.map SitesDescribed.name) (ds.map SitesDescribed.name) (fun i j => j < ds.length ∧ j ≠ i) d f ∧
      (∀ fuel ≥ F, compare env inp none args kwargs fuel = .ok f) ∧
      ∀ i j (hi : i < ds.length) (hj : j < ds.length), i ≠ j → ds[i].WellShaped args.k → ds[j].WellShaped args.k →
        ∀ slack, slack = (if collapse then 4 * L * tol else 0) + emdTol (max ds[i].size ds[j].size) (L * (args.k * max (ds[i].cell.a : ℝ) ds[j].cell.a)) →
          (∀ p q, ds[i].IsPDD args.k p → ds[j].IsPDD args.k q → |d i j - exactEmd (metric.dist env.other) p q| ≤ slack) ∧
          (SameSites ds[i] ds[j] → ∃ x, FirstDist f i x ∧ 0 ≤ x ∧ x ≤ slack) := by
  obtain ⟨_, g⟩ := sites_gives (args := args) h hi he
  obtain ⟨d, f, F, h1, h2, h3, h4⟩ := sites_lawful.near_pdd_one_by hs hby hnn hnl htol hd ho g he hcol
  refine ⟨d, f, F, h1, h2, fun i j hi hj hij hw hw' slack hslack => ?_⟩
  subst hslack
  have hr := h4 i j hi hj hij (sites_wellShaped hw) (sites_wellShaped hw')
  refine ⟨hr.1, fun hsame => ?_⟩
  obtain ⟨j', hc, hle, hf⟩ := h1.first hn0 (i := i) (j := j) (by simpa using hi) ⟨hj, hij.symm⟩
  exact ⟨_, hf, h3 i hi j' hc.1, hle.trans (hr.2 hsame).2⟩

/-- **C113** (partial) The same for two collections. Missing: cells that are too oblique for `k`, and `n = ds'.length`, for which the code fails (C38). -/
theorem C113_sites_pdd_two_partial (h : ReadsAllSites env B w kwargs o) (hs : env.Sound) (hby : upper args.by_ = "PDD") {n : ℕ} (hnn : args.nNeighbors = some n) (hn0 : 0 < n) (hnl : n < ds'.length)
    {metric : MetricArg ℝ} {L : ℝ} (hd : TameMetric args.k L (metric.dist env.other)) {tol : ℝ} (htol : 0 ≤ tol) (ho : PddOptions kwargs tol metric) (hi : InputHoldsAll B asString o inp ds args.csdRefcodes)
    (hi' : InputHoldsAll B asString o inp' ds' args.csdRefcodes) (he : ∀ e ∈ ds, e.Comparable) (he' : ∀ e ∈ ds', e.Comparable) (hne : ds ≠ []) {collapse : Bool}
    (hcol : (kwOr kwargs "collapse" (.bool true)).truthy = collapse) :
    ∃ (d : ℕ → ℕ → ℝ) (f : Frame) (F : ℕ), IsNearestTable n (ds.map SitesDescribed.name) (ds'.map SitesDescribed.name) (fun _ j => j < ds'.length) d f ∧
      (∀ fuel ≥ F, compare env inp (some inp') args kwargs fuel = .ok f) ∧
      ∀ i j (hi : i < ds.length) (hj : j < ds'.length), ds[i].WellShaped args.k → ds'[j].WellShaped args.k →
        ∀ slack, slack = (if collapse then 4 * L * tol else 0) + emdTol (max ds[i].size ds'[j].size) (L * (args.k * max (ds[i].cell.a : ℝ) ds'[j].cell.a)) →
          (∀ p q, ds[i].IsPDD args.k p → ds'[j].IsPDD args.k q → |d i j - exactEmd (metric.dist env.other) p q| ≤ slack) ∧
          (SameSites ds[i] ds'[j] → ∃ x, FirstDist f i x ∧ 0 ≤ x ∧ x ≤ slack) := by
  obtain ⟨_, g⟩ := sites_gives (args := args) h hi he
  obtain ⟨_, g'⟩ := sites_gives (args := args) h hi' he'
  obtain ⟨d, f, F, h1, h2, h3, h4⟩ := sites_lawful.near_pdd_two_by hs hby hnn hnl htol hd ho g g' he he' hne hcol
  refine ⟨d, f, F, h1, h2, fun i j hi hj hw hw' slack hslack => ?_⟩
  subst hslack
  have hr := h4 i j hi hj (sites_wellShaped hw) (sites_wellShaped hw')
  refine ⟨hr.1, fun hsame => ?_⟩
  obtain ⟨j', hc, hle, hf⟩ := h1.first hn0 (i := i) (j := j) (by simpa using hi) hj
  exact ⟨_, hf, h3 i hi j' hc, hle.trans (hr.2 hsame).2⟩

/-- **C113** (partial) For given entries and sufficiently large `k`, two collections by AMD and `disorder='all_sites'`: the nearest crystals are right, whatever the cells, the metric, and the backend that reads the files. -/
theorem C113_sites_amd_two_large_k_partial (he : ∀ e ∈ ds, e.Comparable) (he' : ∀ e ∈ ds', e.Comparable) (hne : ds ≠ []) :
    ∃ k₀, ∀ (env : Env) (B : CifBackends) (asString : String → String) (o : ReadOptions) (w : World) (inp inp' : Input) (args : CompareArgs) (kwargs : Kwargs) (n : ℕ) (metric : MetricArg ℝ),
      ReadsAllSites env B w kwargs o → upper args.by_ = "AMD" → args.nNeighbors = some n → 0 < n → n ≤ ds'.length → k₀ ≤ args.k →
      (kwOr kwargs "metric" (.str "chebyshev")).toMetric = .ok metric → RowMetric args.k (metric.dist env.other) →
      KnnContract (metric.dist env.other) (env.knn (routeKwargs args.verbose kwargs).near metric) → InputHoldsAll B asString o inp ds args.csdRefcodes → InputHoldsAll B asString o inp' ds' args.csdRefcodes →
      ∃ (d : ℕ → ℕ → ℝ) (f : Frame) (F : ℕ), IsNearestTable n (ds.map SitesDescribed.name) (ds'.map SitesDescribed.name) (fun _ j => j < ds'.length) d f ∧
        (∀ fuel ≥ F, compare env inp (some inp') args kwargs fuel = .ok f) ∧
        ∀ i j (hi : i < ds.length) (hj : j < ds'.length),
          (∀ a b, ds[i].IsAMD args.k a → ds'[j].IsAMD args.k b → d i j = metric.dist env.other a b) ∧ (SameSites ds[i] ds'[j] → FirstDist f i 0) := by
  obtain ⟨k₁, h₁⟩ := sites_all _ he
  obtain ⟨k₂, h₂⟩ := sites_all _ he'
  refine ⟨max k₁ k₂, fun env B asString o w inp inp' args kwargs n metric h hby hnn hn0 hnl hk hm hd hknn hi hi' => ?_⟩
  obtain ⟨_, g⟩ := sites_gives (args := args) h hi he
  obtain ⟨_, g'⟩ := sites_gives (args := args) h hi' he'
  obtain ⟨d, f, F, h1, h2, h3, h4⟩ := sites_lawful.near_amd_two_by hby hnn hn0 hnl hm hd hknn g g' he he' hne
  refine ⟨d, f, F, h1, h2, fun i j hi hj => ?_⟩
  have hr := h4 i j hi hj (h₁ _ (le_trans (le_max_left _ _) hk) _ (List.getElem_mem hi)) (h₂ _ (le_trans (le_max_right _ _) hk) _ (List.getElem_mem hj))
  refine ⟨hr.1, fun hsame => ?_⟩
  obtain ⟨j', hc, hle, hf⟩ := h1.first hn0 (i := i) (j := j) (by simpa using hi) hj
  rw [hr.2 hsame] at hle
  rwa [le_antisymm hle (h3 i hi j' hc)] at hf

/-- **C113** (partial) For given entries and sufficiently large `k`, one collection by PDD and `disorder='all_sites'`, whatever the cells. Missing: `n = ds.length - 1`, for which the code fails (C38). -/
theorem C113_sites_pdd_large_k_partial (he : ∀ e ∈ ds, e.Comparable) :
    ∃ k₀, ∀ (env : Env) (B : CifBackends) (asString : String → String) (o : ReadOptions) (w : World) (inp : Input) (args : CompareArgs) (kwargs : Kwargs) (n : ℕ) (metric : MetricArg ℝ) (L tol : ℝ)
      (collapse : Bool),
      ReadsAllSites env B w kwargs o → env.Sound → upper args.by_ = "PDD" → args.nNeighbors = some n → 0 < n → n + 1 < ds.length → k₀ ≤ args.k → TameMetric args.k L (metric.dist env.other) → 0 ≤ tol →
      PddOptions kwargs tol metric → InputHoldsAll B asString o inp ds args.csdRefcodes → (kwOr kwargs "collapse" (.bool true)).truthy = collapse →
      ∃ (d : ℕ → ℕ → ℝ) (f : Frame) (F : ℕ), IsNearestTable n (ds.map SitesDescribed.name) (ds.map SitesDescribed.name) (fun i j => j < ds.length ∧ j ≠ i) d f ∧
        (∀ fuel ≥ F, compare env inp none args kwargs fuel = .ok f) ∧
        ∀ i j (hi : i < ds.length) (hj : j < ds.length), i ≠ j →
          ∀ slack, slack = (if collapse then 4 * L * tol else 0) + emdTol (max ds[i].size ds[j].size) (L * (args.k * max (ds[i].cell.a : ℝ) ds[j].cell.a)) →
            (∀ p q, ds[i].IsPDD args.k p → ds[j].IsPDD args.k q → |d i j - exactEmd (metric.dist env.other) p q| ≤ slack) ∧
            (SameSites ds[i] ds[j] → ∃ x, FirstDist f i x ∧ 0 ≤ x ∧ x ≤ slack) := by
  obtain ⟨k₁, h₁⟩ := sites_all _ he
  refine ⟨k₁, fun env B asString o w inp args kwargs n metric L tol collapse h hs hby hnn hn0 hnl hk hd htol ho hi hcol => ?_⟩
  obtain ⟨_, g⟩ := sites_gives (args := args) h hi he
  obtain ⟨d, f, F, h1, h2, h3, h4⟩ := sites_lawful.near_pdd_one_by hs hby hnn hnl htol hd ho g he hcol
  refine ⟨d, f, F, h1, h2, fun i j hi hj hij slack hslack => ?_⟩
  subst hslack
  have hr := h4 i j hi hj hij (h₁ _ hk _ (List.getElem_mem hi)) (h₁ _ hk _ (List.getElem_mem hj))
  refine ⟨hr.1, fun hsame => ?_⟩
  obtain ⟨j', hc, hle, hf⟩ := h1.first hn0 (i := i) (j := j) (by simpa using hi) ⟨hj, hij.symm⟩
  exact ⟨_, hf, h3 i hi j' hc.1, hle.trans (hr.2 hsame).2⟩

/-- **C113** (partial) For given entries and sufficiently large `k`, two collections by PDD and `disorder='all_sites'`, whatever the cells. Missing: `n = ds'.length`, for which the code fails (C38). -/
theorem C113_sites_pdd_two_large_k_partial (he : ∀ e ∈ ds, e.Comparable) (he' : ∀ e ∈ ds', e.Comparable) (hne : ds ≠ []) :
    ∃ k₀, ∀ (env : Env) (B : CifBackends) (asString : String → String) (o : ReadOptions) (w : World) (inp inp' : Input) (args : CompareArgs) (kwargs : Kwargs) (n : ℕ) (metric : MetricArg ℝ) (L tol : ℝ)
      (collapse : Bool),
      ReadsAllSites env B w kwargs o → env.Sound → upper args.by_ = "PDD" → args.nNeighbors = some n → 0 < n → n < ds'.length → k₀ ≤ args.k → TameMetric args.k L (metric.dist env.other) → 0 ≤ tol →
      PddOptions kwargs tol metric → InputHoldsAll B asString o inp ds args.csdRefcodes → InputHoldsAll B asString o inp' ds' args.csdRefcodes → (kwOr kwargs "collapse" (.bool true)).truthy = collapse →
      ∃ (d : ℕ → ℕ → ℝ) (f : Frame) (F : ℕ), IsNearestTable n (ds.map SitesDescribed.name) (ds'.map SitesDescribed.name) (fun _ j => j < ds'.length) d f ∧
        (∀ fuel ≥ F, compare env inp (some inp') args kwargs fuel = .ok f) ∧
        ∀ i j (hi : i < ds.length) (hj : j < ds'.length),
          ∀ slack, slack = (if collapse then 4 * L * tol else 0) + emdTol (max ds[i].size ds'[j].size) (L * (args.k * max (ds[i].cell.a : ℝ) ds'[j].cell.a)) →
            (∀ p q, ds[i].IsPDD args.k p → ds'[j].IsPDD args.k q → |d i j - exactEmd (metric.dist env.other) p q| ≤ slack) ∧
            (SameSites ds[i] ds'[j] → ∃ x, FirstDist f i x ∧ 0 ≤ x ∧ x ≤ slack) := by
  obtain ⟨k₁, h₁⟩ := sites_all _ he
  obtain ⟨k₂, h₂⟩ := sites_all _ he'
  refine ⟨max k₁ k₂, fun env B asString o w inp inp' args kwargs n metric L tol collapse h hs hby hnn hn0 hnl hk hd htol ho hi hi' hcol => ?_⟩
  obtain ⟨_, g⟩ := sites_gives (args := args) h hi he
  obtain ⟨_, g'⟩ := sites_gives (args := args) h hi' he'
  obtain ⟨d, f, F, h1, h2, h3, h4⟩ := sites_lawful.near_pdd_two_by hs hby hnn hnl htol hd ho g g' he he' hne hcol
  refine ⟨d, f, F, h1, h2, fun i j hi hj slack hslack => ?_⟩
  subst hslack
  have hr := h4 i j hi hj (h₁ _ (le_trans (le_max_left _ _) hk) _ (List.getElem_mem hi)) (h₂ _ (le_trans (le_max_right _ _) hk) _ (List.getElem_mem hj))
  refine ⟨hr.1, fun hsame => ?_⟩
  obtain ⟨j', hc, hle, hf⟩ := h1.first hn0 (i := i) (j := j) (by simpa using hi) hj
  exact ⟨_, hf, h3 i hi j' hc, hle.trans (hr.2 hsame).2⟩

end

end Amd
