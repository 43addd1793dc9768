import Verif.Proof.RoundedMetrics

/-!
# Few digits and other metrics: C115

Distances of crystals whose coordinates are written with few digits are near those of the ideal crystals by any metric that is bounded by a multiple of the default one.
-/

namespace Amd

open Classical

variable {B : CifBackends} {asString : String → String} {o : ReadOptions} {w : World} {env : Env} {kwargs : Kwargs} {args : CompareArgs}
  {inp inp' : Input} {ds ds' is is' : List Described} {δ : ℝ}

/-- **C115** (partial) `compare` by AMD of two collections of CIF files or refcodes whose numbers are rounded by at most `δ`, by any metric that is at most `L` times the default one: each entry is, up to `L` times `8δ(a + b + c)` for each of the two crystals, the
distance by the metric of the AMDs of the ideal crystals; so it is at most that if both files are of the same ideal crystal. Missing: molecular_centres=True, disorder='all_sites', and entries
for cells that are too oblique for `k`. -/
theorem C115_amd_two_partial (h : ReadsInputs env B w kwargs o) (hcc : o.centres = false) (hby : upper args.by_ = "AMD")
    (hnn : args.nNeighbors = none) (hk : 0 < args.k) {metric : MetricArg ℝ} {L : ℝ} (hd : TameMetric args.k L (metric.dist env.other))
    (hm : (kwOr kwargs "metric" (.str "chebyshev")).toMetric = .ok metric) (hl : (kwOr kwargs "low_memory" (.bool false)).truthy = false)
    (hi : InputHolds B asString o inp ds args.csdRefcodes) (hi' : InputHolds B asString o inp' ds' args.csdRefcodes) (hr : List.Forall₂ (Described.Rounds δ) ds is)
    (hr' : List.Forall₂ (Described.Rounds δ) ds' is') (he : ∀ c ∈ is, c.ProperRounded δ) (he' : ∀ c ∈ is', c.ProperRounded δ) (hne : is ≠ []) (hne' : is' ≠ []) :
    ∃ (M : List (List ℝ)) (f : ℕ → ℕ → ℝ) (F : ℕ), IsMatrix is.length is'.length f M ∧
      (∀ fuel ≥ F, compare env inp (some inp') args kwargs fuel = .ok (.matrix (is.map Described.name) (is'.map Described.name) M)) ∧
      ∀ i j (hi : i < is.length) (hj : j < is'.length), is[i].WellShaped args.k → is'[j].WellShaped args.k →
        (∀ a b, is[i].IsAMD args.k a → is'[j].IsAMD args.k b → |f i j - metric.dist env.other a b| ≤ L * (is[i].roundError δ + is'[j].roundError δ)) ∧
        (DescribeSame is[i] is'[j] → 0 ≤ f i j ∧ f i j ≤ L * (is[i].roundError δ + is'[j].roundError δ)) := by
  obtain ⟨_, g⟩ := input_rounded h hcc hi hr he
  obtain ⟨_, g'⟩ := input_rounded h hcc hi' hr' he'
  obtain ⟨M, f, F, h1, h2, h3⟩ := rounded_amd_two_by hby hnn hk hd hm hl g g' he he' hne hne'
  exact ⟨M, f, F, h1, h2, fun i j hi hj hw hw' => h3 i j hi hj (roundGood_wellShaped (he _ (List.getElem_mem hi)).proper hw) (roundGood_wellShaped (he' _ (List.getElem_mem hj)).proper hw')⟩

/-- **C115** (partial) The same for one collection. -/
theorem C115_amd_partial (h : ReadsInputs env B w kwargs o) (hcc : o.centres = false) (hby : upper args.by_ = "AMD")
    (hnn : args.nNeighbors = none) (hk : 0 < args.k) {metric : MetricArg ℝ} {L : ℝ} (hd : TameMetric args.k L (metric.dist env.other))
    (hm : (kwOr kwargs "metric" (.str "chebyshev")).toMetric = .ok metric) (hl : (kwOr kwargs "low_memory" (.bool false)).truthy = false)
    (hi : InputHolds B asString o inp ds args.csdRefcodes) (hr : List.Forall₂ (Described.Rounds δ) ds is) (he : ∀ c ∈ is, c.ProperRounded δ) (hne : is ≠ []) :
    ∃ (M : List (List ℝ)) (f : ℕ → ℕ → ℝ) (F : ℕ), IsMatrix is.length is.length f M ∧
      (∀ fuel ≥ F, compare env inp none args kwargs fuel = .ok (.matrix (is.map Described.name) (is.map Described.name) M)) ∧
      ∀ i j (hi : i < is.length) (hj : j < is.length), is[i].WellShaped args.k → is[j].WellShaped args.k →
        (∀ a b, is[i].IsAMD args.k a → is[j].IsAMD args.k b → |f i j - metric.dist env.other a b| ≤ L * (is[i].roundError δ + is[j].roundError δ)) ∧
        (DescribeSame is[i] is[j] → 0 ≤ f i j ∧ f i j ≤ L * (is[i].roundError δ + is[j].roundError δ)) := by
  obtain ⟨_, g⟩ := input_rounded h hcc hi hr he
  obtain ⟨M, f, F, h1, h2, h3⟩ := rounded_amd_one_by hby hnn hk hd hm hl g he hne
  exact ⟨M, f, F, h1, h2, fun i j hi hj hw hw' => h3 i j hi hj (roundGood_wellShaped (he _ (List.getElem_mem hi)).proper hw) (roundGood_wellShaped (he _ (List.getElem_mem hj)).proper hw')⟩

/-- **C115** (partial) `compare` by PDD of two collections of CIF files or refcodes whose numbers are rounded by at most `δ`, by any metric that is at most `L` times the default one: each entry is the earth mover's distance of the PDDs of the ideal
crystals, up to merging, the termination test of the network simplex, and `L` times `8δ(a + b + c)` for each of the two crystals. Missing: as for AMD. -/
theorem C115_pdd_two_partial (h : ReadsInputs env B w kwargs o) (hcc : o.centres = false) (hs : env.sched.Complete)
    (hby : upper args.by_ = "PDD") (hnn : args.nNeighbors = none) {tol : ℝ} (htol : 0 ≤ tol) {metric : MetricArg ℝ} {L : ℝ} (hd : TameMetric args.k L (metric.dist env.other)) (ho : PddOptions kwargs tol metric)
    (hi : InputHolds B asString o inp ds args.csdRefcodes) (hi' : InputHolds B asString o inp' ds' args.csdRefcodes) (hr : List.Forall₂ (Described.Rounds δ) ds is)
    (hr' : List.Forall₂ (Described.Rounds δ) ds' is') (he : ∀ c ∈ is, c.ProperRounded δ) (he' : ∀ c ∈ is', c.ProperRounded δ) (hne : is ≠ []) (hne' : is' ≠ [])
    {collapse : Bool} (hcol : (kwOr kwargs "collapse" (.bool true)).truthy = collapse) :
    ∃ (M : List (List ℝ)) (f : ℕ → ℕ → ℝ) (F : ℕ), IsMatrix is.length is'.length f M ∧
      (∀ fuel ≥ F, compare env inp (some inp') args kwargs fuel = .ok (.matrix (is.map Described.name) (is'.map Described.name) M)) ∧
      ∀ i j (hi : i < is.length) (hj : j < is'.length), is[i].WellShaped args.k → is'[j].WellShaped args.k →
        ∀ slack, slack = (if collapse then 4 * L * tol else 0) + emdTol (max is[i].size is'[j].size) (L * (args.k * max (is[i].cell.a : ℝ) is'[j].cell.a)) +
            L * (is[i].roundError δ + is'[j].roundError δ) →
          (∀ p q, is[i].IsPDD args.k p → is'[j].IsPDD args.k q → |f i j - exactEmd (metric.dist env.other) p q| ≤ slack) ∧
          (DescribeSame is[i] is'[j] → 0 ≤ f i j ∧ f i j ≤ slack) := by
  obtain ⟨_, g⟩ := input_rounded h hcc hi hr he
  obtain ⟨_, g'⟩ := input_rounded h hcc hi' hr' he'
  obtain ⟨M, f, F, h1, h2, h3⟩ := rounded_pdd_two_by hs hby hnn htol hd ho g g' he he' hne hne' hcol
  refine ⟨M, f, F, h1, h2, fun i j hi hj hw hw' slack hsl => ?_⟩
  subst hsl
  exact h3 i j hi hj (roundGood_wellShaped (he _ (List.getElem_mem hi)).proper hw) (roundGood_wellShaped (he' _ (List.getElem_mem hj)).proper hw')

/-- **C115** (partial) The same for one collection. -/
theorem C115_pdd_partial (h : ReadsInputs env B w kwargs o) (hcc : o.centres = false) (hs : env.sched.Complete)
    (hby : upper args.by_ = "PDD") (hnn : args.nNeighbors = none) {tol : ℝ} (htol : 0 ≤ tol) {metric : MetricArg ℝ} {L : ℝ} (hd : TameMetric args.k L (metric.dist env.other)) (ho : PddOptions kwargs tol metric)
    (hi : InputHolds B asString o inp ds args.csdRefcodes) (hr : List.Forall₂ (Described.Rounds δ) ds is) (he : ∀ c ∈ is, c.ProperRounded δ) (hne : is ≠ [])
    {collapse : Bool} (hcol : (kwOr kwargs "collapse" (.bool true)).truthy = collapse) :
    ∃ (M : List (List ℝ)) (f : ℕ → ℕ → ℝ) (F : ℕ), IsMatrix is.length is.length f M ∧
      (∀ fuel ≥ F, compare env inp none args kwargs fuel = .ok (.matrix (is.map Described.name) (is.map Described.name) M)) ∧
      ∀ i j (hi : i < is.length) (hj : j < is.length), is[i].WellShaped args.k → is[j].WellShaped args.k →
        ∀ slack, slack = (if collapse then 4 * L * tol else 0) + emdTol (max is[i].size is[j].size) (L * (args.k * max (is[i].cell.a : ℝ) is[j].cell.a)) +
            L * (is[i].roundError δ + is[j].roundError δ) →
          (∀ p q, is[i].IsPDD args.k p → is[j].IsPDD args.k q → |f i j - exactEmd (metric.dist env.other) p q| ≤ slack) ∧
          (DescribeSame is[i] is[j] → 0 ≤ f i j ∧ f i j ≤ slack) := by
  obtain ⟨_, g⟩ := input_rounded h hcc hi hr he
  obtain ⟨M, f, F, h1, h2, h3⟩ := rounded_pdd_one_by hs hby hnn htol hd ho g he hne hcol
  refine ⟨M, f, F, h1, h2, fun i j hi hj hw hw' slack hsl => ?_⟩
  subst hsl
  exact h3 i j hi hj (roundGood_wellShaped (he _ (List.getElem_mem hi)).proper hw) (roundGood_wellShaped (he _ (List.getElem_mem hj)).proper hw')

/-- **C115** (partial) For given ideal crystals and sufficiently large `k`, by any such metric, two collections by AMD: entries are near those of the ideal crystals, whatever the cells, and whatever numbers within `δ` are written. Missing: molecular_centres=True and disorder='all_sites'. -/
theorem C115_amd_two_large_k_partial (he : ∀ c ∈ is, c.ProperRounded δ) (he' : ∀ c ∈ is', c.ProperRounded δ) (hne : is ≠ []) (hne' : is' ≠ []) :
    ∃ k₀, ∀ (env : Env) (B : CifBackends) (asString : String → String) (o : ReadOptions) (w : World) (inp inp' : Input) (args : CompareArgs) (kwargs : Kwargs) (ds ds' : List Described) (metric : MetricArg ℝ) (L : ℝ),
      ReadsInputs env B w kwargs o → o.centres = false → upper args.by_ = "AMD" → args.nNeighbors = none → k₀ ≤ args.k → TameMetric args.k L (metric.dist env.other) →
      (kwOr kwargs "metric" (.str "chebyshev")).toMetric = .ok metric → (kwOr kwargs "low_memory" (.bool false)).truthy = false →
      InputHolds B asString o inp ds args.csdRefcodes → List.Forall₂ (Described.Rounds δ) ds is → InputHolds B asString o inp' ds' args.csdRefcodes → List.Forall₂ (Described.Rounds δ) ds' is' →
      ∃ (M : List (List ℝ)) (f : ℕ → ℕ → ℝ) (F : ℕ), IsMatrix is.length is'.length f M ∧
        (∀ fuel ≥ F, compare env inp (some inp') args kwargs fuel = .ok (.matrix (is.map Described.name) (is'.map Described.name) M)) ∧
        ∀ i j (hi : i < is.length) (hj : j < is'.length),
          (∀ a b, is[i].IsAMD args.k a → is'[j].IsAMD args.k b → |f i j - metric.dist env.other a b| ≤ L * (is[i].roundError δ + is'[j].roundError δ)) ∧
          (DescribeSame is[i] is'[j] → 0 ≤ f i j ∧ f i j ≤ L * (is[i].roundError δ + is'[j].roundError δ)) := by
  obtain ⟨k₁, h₁⟩ := roundGood_all (4 * δ) is fun c hc => (he c hc).proper
  obtain ⟨k₂, h₂⟩ := roundGood_all (4 * δ) is' fun c hc => (he' c hc).proper
  refine ⟨max 1 (max k₁ k₂), fun env B asString o w inp inp' args kwargs ds ds' metric L h hcc hby hnn hk hd hm hl hi hr hi' hr' => ?_⟩
  obtain ⟨_, g⟩ := input_rounded h hcc hi hr he
  obtain ⟨_, g'⟩ := input_rounded h hcc hi' hr' he'
  obtain ⟨M, f, F, h1, h2, h3⟩ := rounded_amd_two_by hby hnn (by omega) hd hm hl g g' he he' hne hne'
  exact ⟨M, f, F, h1, h2, fun i j hi hj => h3 i j hi hj (h₁ _ (by omega) _ (List.getElem_mem hi)) (h₂ _ (by omega) _ (List.getElem_mem hj))⟩

/-- **C115** (partial) For given ideal crystals and sufficiently large `k`, by any such metric, two collections by PDD. Missing: as for AMD. -/
theorem C115_pdd_two_large_k_partial (he : ∀ c ∈ is, c.ProperRounded δ) (he' : ∀ c ∈ is', c.ProperRounded δ) (hne : is ≠ []) (hne' : is' ≠ []) :
    ∃ k₀, ∀ (env : Env) (B : CifBackends) (asString : String → String) (o : ReadOptions) (w : World) (inp inp' : Input) (args : CompareArgs) (kwargs : Kwargs) (ds ds' : List Described) (metric : MetricArg ℝ) (L : ℝ) (tol : ℝ)
      (collapse : Bool),
      ReadsInputs env B w kwargs o → o.centres = false → env.sched.Complete → upper args.by_ = "PDD" → args.nNeighbors = none → k₀ ≤ args.k → 0 ≤ tol → TameMetric args.k L (metric.dist env.other) → PddOptions kwargs tol metric →
      InputHolds B asString o inp ds args.csdRefcodes → List.Forall₂ (Described.Rounds δ) ds is → InputHolds B asString o inp' ds' args.csdRefcodes → List.Forall₂ (Described.Rounds δ) ds' is' → (kwOr kwargs "collapse" (.bool true)).truthy = collapse →
      ∃ (M : List (List ℝ)) (f : ℕ → ℕ → ℝ) (F : ℕ), IsMatrix is.length is'.length f M ∧
        (∀ fuel ≥ F, compare env inp (some inp') args kwargs fuel = .ok (.matrix (is.map Described.name) (is'.map Described.name) M)) ∧
        ∀ i j (hi : i < is.length) (hj : j < is'.length),
          ∀ slack, slack = (if collapse then 4 * L * tol else 0) + emdTol (max is[i].size is'[j].size) (L * (args.k * max (is[i].cell.a : ℝ) is'[j].cell.a)) +
              L * (is[i].roundError δ + is'[j].roundError δ) →
            (∀ p q, is[i].IsPDD args.k p → is'[j].IsPDD args.k q → |f i j - exactEmd (metric.dist env.other) p q| ≤ slack) ∧
            (DescribeSame is[i] is'[j] → 0 ≤ f i j ∧ f i j ≤ slack) := by
  obtain ⟨k₁, h₁⟩ := roundGood_all (4 * δ) is fun c hc => (he c hc).proper
  obtain ⟨k₂, h₂⟩ := roundGood_all (4 * δ) is' fun c hc => (he' c hc).proper
  refine ⟨max 1 (max k₁ k₂), fun env B asString o w inp inp' args kwargs ds ds' metric L tol collapse h hcc hs hby hnn hk htol hd ho hi hr hi' hr' hcol => ?_⟩
  obtain ⟨_, g⟩ := input_rounded h hcc hi hr he
  obtain ⟨_, g'⟩ := input_rounded h hcc hi' hr' he'
  obtain ⟨M, f, F, h1, h2, h3⟩ := rounded_pdd_two_by hs hby hnn htol hd ho g g' he he' hne hne' hcol
  refine ⟨M, f, F, h1, h2, fun i j hi hj slack hsl => ?_⟩
  subst hsl
  exact h3 i j hi hj (h₁ _ (by omega) _ (List.getElem_mem hi)) (h₂ _ (by omega) _ (List.getElem_mem hj))

/-- **C115** (partial) For given ideal crystals and sufficiently large `k`, by any such metric, one collection by AMD: entries are near those of the ideal crystals, whatever the cells, and whatever numbers within `δ` are written. Missing: molecular_centres=True and disorder='all_sites'. -/
theorem C115_amd_large_k_partial (he : ∀ c ∈ is, c.ProperRounded δ) (hne : is ≠ []) :
    ∃ k₀, ∀ (env : Env) (B : CifBackends) (asString : String → String) (o : ReadOptions) (w : World) (inp : Input) (args : CompareArgs) (kwargs : Kwargs) (ds : List Described) (metric : MetricArg ℝ) (L : ℝ),
      ReadsInputs env B w kwargs o → o.centres = false → upper args.by_ = "AMD" → args.nNeighbors = none → k₀ ≤ args.k → TameMetric args.k L (metric.dist env.other) →
      (kwOr kwargs "metric" (.str "chebyshev")).toMetric = .ok metric → (kwOr kwargs "low_memory" (.bool false)).truthy = false →
      InputHolds B asString o inp ds args.csdRefcodes → List.Forall₂ (Described.Rounds δ) ds is →
      ∃ (M : List (List ℝ)) (f : ℕ → ℕ → ℝ) (F : ℕ), IsMatrix is.length is.length f M ∧
        (∀ fuel ≥ F, compare env inp none args kwargs fuel = .ok (.matrix (is.map Described.name) (is.map Described.name) M)) ∧
        ∀ i j (hi : i < is.length) (hj : j < is.length),
          (∀ a b, is[i].IsAMD args.k a → is[j].IsAMD args.k b → |f i j - metric.dist env.other a b| ≤ L * (is[i].roundError δ + is[j].roundError δ)) ∧
          (DescribeSame is[i] is[j] → 0 ≤ f i j ∧ f i j ≤ L * (is[i].roundError δ + is[j].roundError δ)) := by
  obtain ⟨k₁, h₁⟩ := roundGood_all (4 * δ) is fun c hc => (he c hc).proper
  refine ⟨max 1 k₁, fun env B asString o w inp args kwargs ds metric L h hcc hby hnn hk hd hm hl hi hr => ?_⟩
  obtain ⟨_, g⟩ := input_rounded h hcc hi hr he
  obtain ⟨M, f, F, h1, h2, h3⟩ := rounded_amd_one_by hby hnn (by omega) hd hm hl g he hne
  exact ⟨M, f, F, h1, h2, fun i j hi hj => h3 i j hi hj (h₁ _ (by omega) _ (List.getElem_mem hi)) (h₁ _ (by omega) _ (List.getElem_mem hj))⟩

/-- **C115** (partial) For given ideal crystals and sufficiently large `k`, by any such metric, one collection by PDD. Missing: as for AMD. -/
theorem C115_pdd_large_k_partial (he : ∀ c ∈ is, c.ProperRounded δ) (hne : is ≠ []) :
    ∃ k₀, ∀ (env : Env) (B : CifBackends) (asString : String → String) (o : ReadOptions) (w : World) (inp : Input) (args : CompareArgs) (kwargs : Kwargs) (ds : List Described) (metric : MetricArg ℝ) (L : ℝ) (tol : ℝ)
      (collapse : Bool),
      ReadsInputs env B w kwargs o → o.centres = false → env.sched.Complete → upper args.by_ = "PDD" → args.nNeighbors = none → k₀ ≤ args.k → 0 ≤ tol → TameMetric args.k L (metric.dist env.other) → PddOptions kwargs tol metric →
      InputHolds B asString o inp ds args.csdRefcodes → List.Forall₂ (Described.Rounds δ) ds is → (kwOr kwargs "collapse" (.bool true)).truthy = collapse →
      ∃ (M : List (List ℝ)) (f : ℕ → ℕ → ℝ) (F : ℕ), IsMatrix is.length is.length f M ∧
        (∀ fuel ≥ F, compare env inp none args kwargs fuel = .ok (.matrix (is.map Described.name) (is.map Described.name) M)) ∧
        ∀ i j (hi : i < is.length) (hj : j < is.length),
          ∀ slack, slack = (if collapse then 4 * L * tol else 0) + emdTol (max is[i].size is[j].size) (L * (args.k * max (is[i].cell.a : ℝ) is[j].cell.a)) +
              L * (is[i].roundError δ + is[j].roundError δ) →
            (∀ p q, is[i].IsPDD args.k p → is[j].IsPDD args.k q → |f i j - exactEmd (metric.dist env.other) p q| ≤ slack) ∧
            (DescribeSame is[i] is[j] → 0 ≤ f i j ∧ f i j ≤ slack) := by
  obtain ⟨k₁, h₁⟩ := roundGood_all (4 * δ) is fun c hc => (he c hc).proper
  refine ⟨max 1 k₁, fun env B asString o w inp args kwargs ds metric L tol collapse h hcc hs hby hnn hk htol hd ho hi hr hcol => ?_⟩
  obtain ⟨_, g⟩ := input_rounded h hcc hi hr he
  obtain ⟨M, f, F, h1, h2, h3⟩ := rounded_pdd_one_by hs hby hnn htol hd ho g he hne hcol
  refine ⟨M, f, F, h1, h2, fun i j hi hj slack hsl => ?_⟩
  subst hsl
  exact h3 i j hi hj (h₁ _ (by omega) _ (List.getElem_mem hi)) (h₁ _ (by omega) _ (List.getElem_mem hj))

end Amd
