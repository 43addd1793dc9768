import Verif.Props.Matrices
import Verif.Props.ContinuousMetrics

/-!
# Other metrics and more neighbours, for all cells: C96, C97

C96 and C97 require cells that are not too oblique for `k`. Here cells are arbitrary, and `k` is sufficiently large for the given entries.
-/

namespace Amd

open Classical

section

variable {ds ds' : List Described}

/-- **C96** (partial) For given entries and sufficiently large `k`, `compare` by AMD of two collections: entries are the distances of the AMDs of the infinite crystals by the metric, whatever the cells and the backend. -/
theorem C96_amd_two_large_k_partial (he : ∀ e ∈ ds, e.Proper) (he' : ∀ e ∈ ds', e.Proper) (hne : ds ≠ []) (hne' : ds' ≠ []) :
    ∃ k₀, ∀ (env : Env) (B : CifBackends) (asString : String → String) (o : ReadOptions) (w : World) (inp inp' : Input) (args : CompareArgs) (kwargs : Kwargs) (metric : MetricArg ℝ),
      ReadsInputs env B w kwargs o → upper args.by_ = "AMD" → args.nNeighbors = none → k₀ ≤ args.k → (kwOr kwargs "metric" (.str "chebyshev")).toMetric = .ok metric →
      (kwOr kwargs "low_memory" (.bool false)).truthy = false → (∀ a, a.length = args.k → metric.dist env.other a a = 0) → InputHolds B asString o inp ds args.csdRefcodes → InputHolds B asString o inp' ds' args.csdRefcodes →
      ∃ (M : List (List ℝ)) (f : ℕ → ℕ → ℝ) (F : ℕ), IsMatrix ds.length ds'.length f M ∧
        (∀ fuel ≥ F, compare env inp (some inp') args kwargs fuel = .ok (.matrix (ds.map Described.name) (ds'.map Described.name) M)) ∧
        ∀ i j (hi : i < ds.length) (hj : j < ds'.length),
          (∀ a b, ds[i].IsAMD args.k a → ds'[j].IsAMD args.k b → f i j = metric.dist env.other a b) ∧ (DescribeSame ds[i] ds'[j] → f i j = 0) := by
  obtain ⟨k₁, h₁⟩ := good_all _ he
  obtain ⟨k₂, h₂⟩ := good_all _ he'
  refine ⟨max k₁ k₂, fun env B asString o w inp inp' args kwargs metric h hby hnn hk hm hl hd hi hi' => ?_⟩
  obtain ⟨_, g⟩ := input_gives (args := args) h hi he
  obtain ⟨_, g'⟩ := input_gives (args := args) h hi' he'
  obtain ⟨M, f, F, h1, h2, h3⟩ := described_lawful.amd_two_by hby hnn hm hl hd g g' he he' hne hne'
  exact ⟨M, f, F, h1, h2, fun i j hi hj => h3 i j hi hj (h₁ _ (le_trans (le_max_left _ _) hk) _ (List.getElem_mem hi)) (h₂ _ (le_trans (le_max_right _ _) hk) _ (List.getElem_mem hj))⟩

/-- **C96** (partial) For given entries and sufficiently large `k`, `compare` by PDD of two collections: entries are the Earth mover's distances of the PDDs of the infinite crystals by the metric, up to rounding of weights and the tolerance. -/
theorem C96_pdd_two_large_k_partial (he : ∀ e ∈ ds, e.Proper) (he' : ∀ e ∈ ds', e.Proper) (hne : ds ≠ []) (hne' : ds' ≠ []) :
    ∃ k₀, ∀ (env : Env) (B : CifBackends) (asString : String → String) (o : ReadOptions) (w : World) (inp inp' : Input) (args : CompareArgs) (kwargs : Kwargs) (metric : MetricArg ℝ) (L tol : ℝ)
      (collapse : Bool),
      ReadsInputs env B w kwargs o → env.sched.Complete → upper args.by_ = "PDD" → args.nNeighbors = none → k₀ ≤ args.k → TameMetric args.k L (metric.dist env.other) → 0 ≤ tol → PddOptions kwargs tol metric →
      InputHolds B asString o inp ds args.csdRefcodes → InputHolds B asString o inp' ds' args.csdRefcodes → (kwOr kwargs "collapse" (.bool true)).truthy = collapse →
      ∃ (M : List (List ℝ)) (f : ℕ → ℕ → ℝ) (F : ℕ), IsMatrix ds.length ds'.length f M ∧
        (∀ fuel ≥ F, compare env inp (some inp') args kwargs fuel = .ok (.matrix (ds.map Described.name) (ds'.map Described.name) M)) ∧
        ∀ i j (hi : i < ds.length) (hj : j < ds'.length),
          ∀ slack, slack = (if collapse then 4 * L * tol else 0) + emdTol (max ds[i].size ds'[j].size) (L * (args.k * max (ds[i].cell.a : ℝ) ds'[j].cell.a)) →
            (∀ p q, ds[i].IsPDD args.k p → ds'[j].IsPDD args.k q → |f i j - exactEmd (metric.dist env.other) p q| ≤ slack) ∧ (DescribeSame ds[i] ds'[j] → 0 ≤ f i j ∧ f i j ≤ slack) := by
  obtain ⟨k₁, h₁⟩ := good_all _ he
  obtain ⟨k₂, h₂⟩ := good_all _ he'
  refine ⟨max k₁ k₂, fun env B asString o w inp inp' args kwargs metric L tol collapse h hs hby hnn hk hd htol ho hi hi' hcol => ?_⟩
  obtain ⟨_, g⟩ := input_gives (args := args) h hi he
  obtain ⟨_, g'⟩ := input_gives (args := args) h hi' he'
  obtain ⟨M, f, F, h1, h2, h3⟩ := described_lawful.pdd_two_by hs hby hnn htol hd ho g g' he he' hne hne' hcol
  refine ⟨M, f, F, h1, h2, fun i j hi hj slack hslack => ?_⟩
  rw [hslack]
  exact h3 i j hi hj (h₁ _ (le_trans (le_max_left _ _) hk) _ (List.getElem_mem hi)) (h₂ _ (le_trans (le_max_right _ _) hk) _ (List.getElem_mem hj))

/-- **C96** (partial) For given entries and sufficiently large `k`, `compare` by AMD of one collection, with a symmetric metric: entries are the distances of the AMDs of the infinite crystals by the metric, whatever the cells and the backend. -/
theorem C96_amd_large_k_partial (he : ∀ e ∈ ds, e.Proper) (hne : ds ≠ []) :
    ∃ k₀, ∀ (env : Env) (B : CifBackends) (asString : String → String) (o : ReadOptions) (w : World) (inp : Input) (args : CompareArgs) (kwargs : Kwargs) (metric : MetricArg ℝ),
      ReadsInputs env B w kwargs o → upper args.by_ = "AMD" → args.nNeighbors = none → k₀ ≤ args.k → (kwOr kwargs "metric" (.str "chebyshev")).toMetric = .ok metric →
      (kwOr kwargs "low_memory" (.bool false)).truthy = false → (∀ a, a.length = args.k → metric.dist env.other a a = 0) → (∀ a b, a.length = args.k → b.length = args.k → metric.dist env.other a b = metric.dist env.other b a) → InputHolds B asString o inp ds args.csdRefcodes →
      ∃ (M : List (List ℝ)) (f : ℕ → ℕ → ℝ) (F : ℕ), IsMatrix ds.length ds.length f M ∧
        (∀ fuel ≥ F, compare env inp none args kwargs fuel = .ok (.matrix (ds.map Described.name) (ds.map Described.name) M)) ∧
        ∀ i j (hi : i < ds.length) (hj : j < ds.length),
          (∀ a b, ds[i].IsAMD args.k a → ds[j].IsAMD args.k b → f i j = metric.dist env.other a b) ∧ (DescribeSame ds[i] ds[j] → f i j = 0) := by
  obtain ⟨k₁, h₁⟩ := good_all _ he
  refine ⟨k₁, fun env B asString o w inp args kwargs metric h hby hnn hk hm hl hd hsymm hi => ?_⟩
  obtain ⟨_, g⟩ := input_gives (args := args) h hi he
  obtain ⟨M, f, F, h1, h2, h3⟩ := described_lawful.amd_one_by hby hnn hm hl hd hsymm g he hne
  exact ⟨M, f, F, h1, h2, fun i j hi hj => h3 i j hi hj (h₁ _ hk _ (List.getElem_mem hi)) (h₁ _ hk _ (List.getElem_mem hj))⟩

/-- **C96** (partial) For given entries and sufficiently large `k`, `compare` by PDD of one collection: entries are the Earth mover's distances of the PDDs of the infinite crystals by the metric, up to rounding of weights and the tolerance. -/
theorem C96_pdd_large_k_partial (he : ∀ e ∈ ds, e.Proper) (hne : ds ≠ []) :
    ∃ k₀, ∀ (env : Env) (B : CifBackends) (asString : String → String) (o : ReadOptions) (w : World) (inp : Input) (args : CompareArgs) (kwargs : Kwargs) (metric : MetricArg ℝ) (L tol : ℝ)
      (collapse : Bool),
      ReadsInputs env B w kwargs o → env.sched.Complete → upper args.by_ = "PDD" → args.nNeighbors = none → k₀ ≤ args.k → TameMetric args.k L (metric.dist env.other) → 0 ≤ tol → PddOptions kwargs tol metric →
      InputHolds B asString o inp ds args.csdRefcodes → (kwOr kwargs "collapse" (.bool true)).truthy = collapse →
      ∃ (M : List (List ℝ)) (f : ℕ → ℕ → ℝ) (F : ℕ), IsMatrix ds.length ds.length f M ∧
        (∀ fuel ≥ F, compare env inp none args kwargs fuel = .ok (.matrix (ds.map Described.name) (ds.map Described.name) M)) ∧
        ∀ i j (hi : i < ds.length) (hj : j < ds.length),
          ∀ slack, slack = (if collapse then 4 * L * tol else 0) + emdTol (max ds[i].size ds[j].size) (L * (args.k * max (ds[i].cell.a : ℝ) ds[j].cell.a)) →
            (∀ p q, ds[i].IsPDD args.k p → ds[j].IsPDD args.k q → |f i j - exactEmd (metric.dist env.other) p q| ≤ slack) ∧ (DescribeSame ds[i] ds[j] → 0 ≤ f i j ∧ f i j ≤ slack) := by
  obtain ⟨k₁, h₁⟩ := good_all _ he
  refine ⟨k₁, fun env B asString o w inp args kwargs metric L tol collapse h hs hby hnn hk hd htol ho hi hcol => ?_⟩
  obtain ⟨_, g⟩ := input_gives (args := args) h hi he
  obtain ⟨M, f, F, h1, h2, h3⟩ := described_lawful.pdd_one_by hs hby hnn htol hd ho g he hne hcol
  refine ⟨M, f, F, h1, h2, fun i j hi hj slack hslack => ?_⟩
  rw [hslack]
  exact h3 i j hi hj (h₁ _ hk _ (List.getElem_mem hi)) (h₁ _ hk _ (List.getElem_mem hj))

/-- **C97** (partial) For given entries and sufficiently large `k`, two collections: with more neighbours no distance by AMD becomes smaller, whatever the cells. -/
theorem C97_more_amd_two_large_k_partial (he : ∀ e ∈ ds, e.Proper) (he' : ∀ e ∈ ds', e.Proper) (hne : ds ≠ []) (hne' : ds' ≠ []) :
    ∃ k₀, ∀ (env : Env) (B : CifBackends) (asString : String → String) (o o' : ReadOptions) (w : World) (inp inp' : Input) (args args' : CompareArgs) (kwargs kwargs' : Kwargs) (metric : MetricArg ℝ),
      ReadsInputs env B w kwargs o → ReadsInputs env B w kwargs' o' → upper args.by_ = "AMD" → upper args'.by_ = "AMD" → args.nNeighbors = none → args'.nNeighbors = none → k₀ ≤ args'.k → args'.k ≤ args.k →
      (kwOr kwargs "metric" (.str "chebyshev")).toMetric = .ok metric → (kwOr kwargs' "metric" (.str "chebyshev")).toMetric = .ok metric →
      (kwOr kwargs "low_memory" (.bool false)).truthy = false → (kwOr kwargs' "low_memory" (.bool false)).truthy = false →
      RowMetric args.k (metric.dist env.other) → RowMetric args'.k (metric.dist env.other) → Shrinks (metric.dist env.other) →
      InputHolds B asString o inp ds args.csdRefcodes → InputHolds B asString o' inp ds args'.csdRefcodes → InputHolds B asString o inp' ds' args.csdRefcodes → InputHolds B asString o' inp' ds' args'.csdRefcodes →
      ∃ (M M' : List (List ℝ)) (f f' : ℕ → ℕ → ℝ) (F : ℕ), IsMatrix ds.length ds'.length f M ∧ IsMatrix ds.length ds'.length f' M' ∧
        (∀ fuel ≥ F, compare env inp (some inp') args kwargs fuel = .ok (.matrix (ds.map Described.name) (ds'.map Described.name) M) ∧
          compare env inp (some inp') args' kwargs' fuel = .ok (.matrix (ds.map Described.name) (ds'.map Described.name) M')) ∧
        ∀ i j, i < ds.length → j < ds'.length → f' i j ≤ f i j := by
  obtain ⟨k₀, h₀⟩ := C96_amd_two_large_k_partial he he' hne hne'
  refine ⟨k₀, fun env B asString o o' w inp inp' args args' kwargs kwargs' metric h h' hby hby' hnn hnn' hk0 hk hm hm' hl hl' hd hd' hs hi hp hi' hp' => ?_⟩
  obtain ⟨M, f, F, hM, h1, h2⟩ := h₀ env B asString o w _ _ args kwargs metric h hby hnn (by omega) hm hl hd.self hi hi'
  obtain ⟨M', f', F', hM', h1', h2'⟩ := h₀ env B asString o' w _ _ args' kwargs' metric h' hby' hnn' hk0 hm' hl' hd'.self hp hp'
  refine ⟨M, M', f, f', max F F', hM, hM', fun fuel hf => ⟨h1 fuel (by omega), h1' fuel (by omega)⟩, fun i j hi hj => ?_⟩
  obtain ⟨a, ha⟩ := (described_lawful.amd_unique (he _ (List.getElem_mem hi)) args.k).exists
  obtain ⟨b, hb⟩ := (described_lawful.amd_unique (he' _ (List.getElem_mem hj)) args.k).exists
  rw [(h2 i j hi hj).1 a b ha hb, (h2' i j hi hj).1 _ _ (Described.IsAMD.take ha hk) (Described.IsAMD.take hb hk)]
  exact hs _ _ _ ((described_lawful.amd_length ha).trans (described_lawful.amd_length hb).symm)

/-- **C97** (partial) For given entries and sufficiently large `k`, two collections: with more neighbours no distance by PDD becomes smaller, up to what C96 allows, whatever the cells. -/
theorem C97_more_pdd_two_large_k_partial (he : ∀ e ∈ ds, e.Proper) (he' : ∀ e ∈ ds', e.Proper) (hne : ds ≠ []) (hne' : ds' ≠ []) :
    ∃ k₀, ∀ (env : Env) (B : CifBackends) (asString : String → String) (o o' : ReadOptions) (w : World) (inp inp' : Input) (args args' : CompareArgs) (kwargs kwargs' : Kwargs) (metric : MetricArg ℝ)
      (L L' tol tol' : ℝ) (collapse collapse' : Bool),
      ReadsInputs env B w kwargs o → ReadsInputs env B w kwargs' o' → env.sched.Complete → upper args.by_ = "PDD" → upper args'.by_ = "PDD" → args.nNeighbors = none → args'.nNeighbors = none → k₀ ≤ args'.k →
      args'.k ≤ args.k → TameMetric args.k L (metric.dist env.other) → TameMetric args'.k L' (metric.dist env.other) → Shrinks (metric.dist env.other) → 0 ≤ tol → 0 ≤ tol' →
      PddOptions kwargs tol metric → PddOptions kwargs' tol' metric → InputHolds B asString o inp ds args.csdRefcodes → InputHolds B asString o' inp ds args'.csdRefcodes → InputHolds B asString o inp' ds' args.csdRefcodes → InputHolds B asString o' inp' ds' args'.csdRefcodes →
      (kwOr kwargs "collapse" (.bool true)).truthy = collapse → (kwOr kwargs' "collapse" (.bool true)).truthy = collapse' →
      ∃ (M M' : List (List ℝ)) (f f' : ℕ → ℕ → ℝ) (F : ℕ), IsMatrix ds.length ds'.length f M ∧ IsMatrix ds.length ds'.length f' M' ∧
        (∀ fuel ≥ F, compare env inp (some inp') args kwargs fuel = .ok (.matrix (ds.map Described.name) (ds'.map Described.name) M) ∧
          compare env inp (some inp') args' kwargs' fuel = .ok (.matrix (ds.map Described.name) (ds'.map Described.name) M')) ∧
        ∀ i j (hi : i < ds.length) (hj : j < ds'.length),
          ∀ slack slack', slack = (if collapse then 4 * L * tol else 0) + emdTol (max ds[i].size ds'[j].size) (L * (args.k * max (ds[i].cell.a : ℝ) ds'[j].cell.a)) →
            slack' = (if collapse' then 4 * L' * tol' else 0) + emdTol (max ds[i].size ds'[j].size) (L' * (args'.k * max (ds[i].cell.a : ℝ) ds'[j].cell.a)) →
            f' i j ≤ f i j + slack + slack' := by
  obtain ⟨k₀, h₀⟩ := C96_pdd_two_large_k_partial he he' hne hne'
  refine ⟨k₀, fun env B asString o o' w inp inp' args args' kwargs kwargs' metric L L' tol tol' collapse collapse' h h' hs hby hby' hnn hnn' hk0 hk hd hd' hsh htol htol' ho ho' hi hp hi' hp' hcol hcol' => ?_⟩
  obtain ⟨M, f, F, hM, h1, h2⟩ := h₀ env B asString o w _ _ args kwargs metric L tol collapse h hs hby hnn (by omega) hd htol ho hi hi' hcol
  obtain ⟨M', f', F', hM', h1', h2'⟩ := h₀ env B asString o' w _ _ args' kwargs' metric L' tol' collapse' h' hs hby' hnn' hk0 hd' htol' ho' hp hp' hcol'
  refine ⟨M, M', f, f', max F F', hM, hM', fun fuel hf => ⟨h1 fuel (by omega), h1' fuel (by omega)⟩, fun i j hi hj slack slack' e e' => ?_⟩
  obtain ⟨p, hp⟩ := (described_lawful.pdd_unique (he _ (List.getElem_mem hi)) args.k).1
  obtain ⟨q, hq⟩ := (described_lawful.pdd_unique (he' _ (List.getElem_mem hj)) args.k).1
  have n1 := abs_le.1 ((h2 i j hi hj _ e).1 p q hp hq)
  have n2 := abs_le.1 ((h2' i j hi hj _ e').1 _ _ (Described.IsPDD.take hp hk) (Described.IsPDD.take hq hk))
  have := exactEmd_firstColumns hd'.nonneg hsh hk (described_lawful.weighted hp) (described_lawful.weighted hq)
  linarith [n1.1, n2.2]

/-- **C97** (partial) For given entries and sufficiently large `k`, one collection: with more neighbours no distance by AMD becomes smaller, whatever the cells. -/
theorem C97_more_amd_large_k_partial (he : ∀ e ∈ ds, e.Proper) (hne : ds ≠ []) :
    ∃ k₀, ∀ (env : Env) (B : CifBackends) (asString : String → String) (o o' : ReadOptions) (w : World) (inp : Input) (args args' : CompareArgs) (kwargs kwargs' : Kwargs) (metric : MetricArg ℝ),
      ReadsInputs env B w kwargs o → ReadsInputs env B w kwargs' o' → upper args.by_ = "AMD" → upper args'.by_ = "AMD" → args.nNeighbors = none → args'.nNeighbors = none → k₀ ≤ args'.k → args'.k ≤ args.k →
      (kwOr kwargs "metric" (.str "chebyshev")).toMetric = .ok metric → (kwOr kwargs' "metric" (.str "chebyshev")).toMetric = .ok metric →
      (kwOr kwargs "low_memory" (.bool false)).truthy = false → (kwOr kwargs' "low_memory" (.bool false)).truthy = false →
      RowMetric args.k (metric.dist env.other) → RowMetric args'.k (metric.dist env.other) → Shrinks (metric.dist env.other) →
      InputHolds B asString o inp ds args.csdRefcodes → InputHolds B asString o' inp ds args'.csdRefcodes →
      ∃ (M M' : List (List ℝ)) (f f' : ℕ → ℕ → ℝ) (F : ℕ), IsMatrix ds.length ds.length f M ∧ IsMatrix ds.length ds.length f' M' ∧
        (∀ fuel ≥ F, compare env inp none args kwargs fuel = .ok (.matrix (ds.map Described.name) (ds.map Described.name) M) ∧
          compare env inp none args' kwargs' fuel = .ok (.matrix (ds.map Described.name) (ds.map Described.name) M')) ∧
        ∀ i j, i < ds.length → j < ds.length → f' i j ≤ f i j := by
  obtain ⟨k₀, h₀⟩ := C96_amd_large_k_partial he hne
  refine ⟨k₀, fun env B asString o o' w inp args args' kwargs kwargs' metric h h' hby hby' hnn hnn' hk0 hk hm hm' hl hl' hd hd' hs hi hp => ?_⟩
  obtain ⟨M, f, F, hM, h1, h2⟩ := h₀ env B asString o w _ args kwargs metric h hby hnn (by omega) hm hl hd.self hd.symm hi
  obtain ⟨M', f', F', hM', h1', h2'⟩ := h₀ env B asString o' w _ args' kwargs' metric h' hby' hnn' hk0 hm' hl' hd'.self hd'.symm hp
  refine ⟨M, M', f, f', max F F', hM, hM', fun fuel hf => ⟨h1 fuel (by omega), h1' fuel (by omega)⟩, fun i j hi hj => ?_⟩
  obtain ⟨a, ha⟩ := (described_lawful.amd_unique (he _ (List.getElem_mem hi)) args.k).exists
  obtain ⟨b, hb⟩ := (described_lawful.amd_unique (he _ (List.getElem_mem hj)) args.k).exists
  rw [(h2 i j hi hj).1 a b ha hb, (h2' i j hi hj).1 _ _ (Described.IsAMD.take ha hk) (Described.IsAMD.take hb hk)]
  exact hs _ _ _ ((described_lawful.amd_length ha).trans (described_lawful.amd_length hb).symm)

/-- **C97** (partial) For given entries and sufficiently large `k`, one collection: with more neighbours no distance by PDD becomes smaller, up to what C96 allows, whatever the cells. -/
theorem C97_more_pdd_large_k_partial (he : ∀ e ∈ ds, e.Proper) (hne : ds ≠ []) :
    ∃ k₀, ∀ (env : Env) (B : CifBackends) (asString : String → String) (o o' : ReadOptions) (w : World) (inp : Input) (args args' : CompareArgs) (kwargs kwargs' : Kwargs) (metric : MetricArg ℝ)
      (L L' tol tol' : ℝ) (collapse collapse' : Bool),
      ReadsInputs env B w kwargs o → ReadsInputs env B w kwargs' o' → env.sched.Complete → upper args.by_ = "PDD" → upper args'.by_ = "PDD" → args.nNeighbors = none → args'.nNeighbors = none → k₀ ≤ args'.k →
      args'.k ≤ args.k → TameMetric args.k L (metric.dist env.other) → TameMetric args'.k L' (metric.dist env.other) → Shrinks (metric.dist env.other) → 0 ≤ tol → 0 ≤ tol' →
      PddOptions kwargs tol metric → PddOptions kwargs' tol' metric → InputHolds B asString o inp ds args.csdRefcodes → InputHolds B asString o' inp ds args'.csdRefcodes →
      (kwOr kwargs "collapse" (.bool true)).truthy = collapse → (kwOr kwargs' "collapse" (.bool true)).truthy = collapse' →
      ∃ (M M' : List (List ℝ)) (f f' : ℕ → ℕ → ℝ) (F : ℕ), IsMatrix ds.length ds.length f M ∧ IsMatrix ds.length ds.length f' M' ∧
        (∀ fuel ≥ F, compare env inp none args kwargs fuel = .ok (.matrix (ds.map Described.name) (ds.map Described.name) M) ∧
          compare env inp none args' kwargs' fuel = .ok (.matrix (ds.map Described.name) (ds.map Described.name) M')) ∧
        ∀ i j (hi : i < ds.length) (hj : j < ds.length),
          ∀ slack slack', slack = (if collapse then 4 * L * tol else 0) + emdTol (max ds[i].size ds[j].size) (L * (args.k * max (ds[i].cell.a : ℝ) ds[j].cell.a)) →
            slack' = (if collapse' then 4 * L' * tol' else 0) + emdTol (max ds[i].size ds[j].size) (L' * (args'.k * max (ds[i].cell.a : ℝ) ds[j].cell.a)) →
            f' i j ≤ f i j + slack + slack' := by
  obtain ⟨k₀, h₀⟩ := C96_pdd_large_k_partial he hne
  refine ⟨k₀, fun env B asString o o' w inp args args' kwargs kwargs' metric L L' tol tol' collapse collapse' h h' hs hby hby' hnn hnn' hk0 hk hd hd' hsh htol htol' ho ho' hi hp hcol hcol' => ?_⟩
  obtain ⟨M, f, F, hM, h1, h2⟩ := h₀ env B asString o w _ args kwargs metric L tol collapse h hs hby hnn (by omega) hd htol ho hi hcol
  obtain ⟨M', f', F', hM', h1', h2'⟩ := h₀ env B asString o' w _ args' kwargs' metric L' tol' collapse' h' hs hby' hnn' hk0 hd' htol' ho' hp hcol'
  refine ⟨M, M', f, f', max F F', hM, hM', fun fuel hf => ⟨h1 fuel (by omega), h1' fuel (by omega)⟩, fun i j hi hj slack slack' e e' => ?_⟩
  obtain ⟨p, hp⟩ := (described_lawful.pdd_unique (he _ (List.getElem_mem hi)) args.k).1
  obtain ⟨q, hq⟩ := (described_lawful.pdd_unique (he _ (List.getElem_mem hj)) args.k).1
  have n1 := abs_le.1 ((h2 i j hi hj _ e).1 p q hp hq)
  have n2 := abs_le.1 ((h2' i j hi hj _ e').1 _ _ (Described.IsPDD.take hp hk) (Described.IsPDD.take hq hk))
  have := exactEmd_firstColumns hd'.nonneg hsh hk (described_lawful.weighted hp) (described_lawful.weighted hq)
  linarith [n1.1, n2.2]

end

section

variable {ds ds' : List SitesDescribed}

/-- **C96** (partial) With `disorder='all_sites'`: For given entries and sufficiently large `k`, `compare` by AMD of two collections: entries are the distances of the AMDs of the infinite crystals by the metric, whatever the cells and the backend. -/
theorem C96_sites_amd_two_large_k_partial (he : ∀ e ∈ ds, e.Comparable) (he' : ∀ e ∈ ds', e.Comparable) (hne : ds ≠ []) (hne' : ds' ≠ []) :
    ∃ k₀, ∀ (env : Env) (B : CifBackends) (asString : String → String) (o : ReadOptions) (w : World) (inp inp' : Input) (args : CompareArgs) (kwargs : Kwargs) (metric : MetricArg ℝ),
      ReadsAllSites env B w kwargs o → upper args.by_ = "AMD" → args.nNeighbors = none → k₀ ≤ args.k → (kwOr kwargs "metric" (.str "chebyshev")).toMetric = .ok metric →
      (kwOr kwargs "low_memory" (.bool false)).truthy = false → (∀ a, a.length = args.k → metric.dist env.other a a = 0) → InputHoldsAll B asString o inp ds args.csdRefcodes → InputHoldsAll B asString o inp' ds' args.csdRefcodes →
      ∃ (M : List (List ℝ)) (f : ℕ → ℕ → ℝ) (F : ℕ), IsMatrix ds.length ds'.length f M ∧
        (∀ fuel ≥ F, compare env inp (some inp') args kwargs fuel = .ok (.matrix (ds.map SitesDescribed.name) (ds'.map SitesDescribed.name) M)) ∧
        ∀ i j (hi : i < ds.length) (hj : j < ds'.length),
          (∀ a b, ds[i].IsAMD args.k a → ds'[j].IsAMD args.k b → f i j = metric.dist env.other a b) ∧ (SameSites ds[i] ds'[j] → f i j = 0) := by
  obtain ⟨k₁, h₁⟩ := sites_all _ he
  obtain ⟨k₂, h₂⟩ := sites_all _ he'
  refine ⟨max k₁ k₂, fun env B asString o w inp inp' args kwargs metric h hby hnn hk hm hl hd hi hi' => ?_⟩
  obtain ⟨_, g⟩ := sites_gives (args := args) h hi he
  obtain ⟨_, g'⟩ := sites_gives (args := args) h hi' he'
  obtain ⟨M, f, F, h1, h2, h3⟩ := sites_lawful.amd_two_by hby hnn hm hl hd g g' he he' hne hne'
  exact ⟨M, f, F, h1, h2, fun i j hi hj => h3 i j hi hj (h₁ _ (le_trans (le_max_left _ _) hk) _ (List.getElem_mem hi)) (h₂ _ (le_trans (le_max_right _ _) hk) _ (List.getElem_mem hj))⟩

/-- **C96** (partial) With `disorder='all_sites'`: For given entries and sufficiently large `k`, `compare` by PDD of two collections: entries are the Earth mover's distances of the PDDs of the infinite crystals by the metric, up to rounding of weights and the tolerance. -/
theorem C96_sites_pdd_two_large_k_partial (he : ∀ e ∈ ds, e.Comparable) (he' : ∀ e ∈ ds', e.Comparable) (hne : ds ≠ []) (hne' : ds' ≠ []) :
    ∃ k₀, ∀ (env : Env) (B : CifBackends) (asString : String → String) (o : ReadOptions) (w : World) (inp inp' : Input) (args : CompareArgs) (kwargs : Kwargs) (metric : MetricArg ℝ) (L tol : ℝ)
      (collapse : Bool),
      ReadsAllSites env B w kwargs o → env.sched.Complete → upper args.by_ = "PDD" → args.nNeighbors = none → k₀ ≤ args.k → TameMetric args.k L (metric.dist env.other) → 0 ≤ tol → PddOptions kwargs tol metric →
      InputHoldsAll B asString o inp ds args.csdRefcodes → InputHoldsAll B asString o inp' ds' args.csdRefcodes → (kwOr kwargs "collapse" (.bool true)).truthy = collapse →
      ∃ (M : List (List ℝ)) (f : ℕ → ℕ → ℝ) (F : ℕ), IsMatrix ds.length ds'.length f M ∧
        (∀ fuel ≥ F, compare env inp (some inp') args kwargs fuel = .ok (.matrix (ds.map SitesDescribed.name) (ds'.map SitesDescribed.name) M)) ∧
        ∀ i j (hi : i < ds.length) (hj : j < ds'.length),
          ∀ slack, slack = (if collapse then 4 * L * tol else 0) + emdTol (max ds[i].size ds'[j].size) (L * (args.k * max (ds[i].cell.a : ℝ) ds'[j].cell.a)) →
            (∀ p q, ds[i].IsPDD args.k p → ds'[j].IsPDD args.k q → |f i j - exactEmd (metric.dist env.other) p q| ≤ slack) ∧ (SameSites ds[i] ds'[j] → 0 ≤ f i j ∧ f i j ≤ slack) := by
  obtain ⟨k₁, h₁⟩ := sites_all _ he
  obtain ⟨k₂, h₂⟩ := sites_all _ he'
  refine ⟨max k₁ k₂, fun env B asString o w inp inp' args kwargs metric L tol collapse h hs hby hnn hk hd htol ho hi hi' hcol => ?_⟩
  obtain ⟨_, g⟩ := sites_gives (args := args) h hi he
  obtain ⟨_, g'⟩ := sites_gives (args := args) h hi' he'
  obtain ⟨M, f, F, h1, h2, h3⟩ := sites_lawful.pdd_two_by hs hby hnn htol hd ho g g' he he' hne hne' hcol
  refine ⟨M, f, F, h1, h2, fun i j hi hj slack hslack => ?_⟩
  rw [hslack]
  exact h3 i j hi hj (h₁ _ (le_trans (le_max_left _ _) hk) _ (List.getElem_mem hi)) (h₂ _ (le_trans (le_max_right _ _) hk) _ (List.getElem_mem hj))

/-- **C96** (partial) With `disorder='all_sites'`: For given entries and sufficiently large `k`, `compare` by AMD of one collection, with a symmetric metric: entries are the distances of the AMDs of the infinite crystals by the metric, whatever the cells and the backend. -/
theorem C96_sites_amd_large_k_partial (he : ∀ e ∈ ds, e.Comparable) (hne : ds ≠ []) :
    ∃ k₀, ∀ (env : Env) (B : CifBackends) (asString : String → String) (o : ReadOptions) (w : World) (inp : Input) (args : CompareArgs) (kwargs : Kwargs) (metric : MetricArg ℝ),
      ReadsAllSites env B w kwargs o → upper args.by_ = "AMD" → args.nNeighbors = none → k₀ ≤ args.k → (kwOr kwargs "metric" (.str "chebyshev")).toMetric = .ok metric →
      (kwOr kwargs "low_memory" (.bool false)).truthy = false → (∀ a, a.length = args.k → metric.dist env.other a a = 0) → (∀ a b, a.length = args.k → b.length = args.k → metric.dist env.other a b = metric.dist env.other b a) → InputHoldsAll B asString o inp ds args.csdRefcodes →
      ∃ (M : List (List ℝ)) (f : ℕ → ℕ → ℝ) (F : ℕ), IsMatrix ds.length ds.length f M ∧
        (∀ fuel ≥ F, compare env inp none args kwargs fuel = .ok (.matrix (ds.map SitesDescribed.name) (ds.map SitesDescribed.name) M)) ∧
        ∀ i j (hi : i < ds.length) (hj : j < ds.length),
          (∀ a b, ds[i].IsAMD args.k a → ds[j].IsAMD args.k b → f i j = metric.dist env.other a b) ∧ (SameSites ds[i] ds[j] → f i j = 0) := by
  obtain ⟨k₁, h₁⟩ := sites_all _ he
  refine ⟨k₁, fun env B asString o w inp args kwargs metric h hby hnn hk hm hl hd hsymm hi => ?_⟩
  obtain ⟨_, g⟩ := sites_gives (args := args) h hi he
  obtain ⟨M, f, F, h1, h2, h3⟩ := sites_lawful.amd_one_by hby hnn hm hl hd hsymm g he hne
  exact ⟨M, f, F, h1, h2, fun i j hi hj => h3 i j hi hj (h₁ _ hk _ (List.getElem_mem hi)) (h₁ _ hk _ (List.getElem_mem hj))⟩

/-- **C96** (partial) With `disorder='all_sites'`: For given entries and sufficiently large `k`, `compare` by PDD of one collection: entries are the Earth mover's distances of the PDDs of the infinite crystals by the metric, up to rounding of weights and the tolerance. -/
theorem C96_sites_pdd_large_k_partial (he : ∀ e ∈ ds, e.Comparable) (hne : ds ≠ []) :
    ∃ k₀, ∀ (env : Env) (B : CifBackends) (asString : String → String) (o : ReadOptions) (w : World) (inp : Input) (args : CompareArgs) (kwargs : Kwargs) (metric : MetricArg ℝ) (L tol : ℝ)
      (collapse : Bool),
      ReadsAllSites env B w kwargs o → env.sched.Complete → upper args.by_ = "PDD" → args.nNeighbors = none → k₀ ≤ args.k → TameMetric args.k L (metric.dist env.other) → 0 ≤ tol → PddOptions kwargs tol metric →
      InputHoldsAll B asString o inp ds args.csdRefcodes → (kwOr kwargs "collapse" (.bool true)).truthy = collapse →
      ∃ (M : List (List ℝ)) (f : ℕ → ℕ → ℝ) (F : ℕ), IsMatrix ds.length ds.length f M ∧
        (∀ fuel ≥ F, compare env inp none args kwargs fuel = .ok (.matrix (ds.map SitesDescribed.name) (ds.map SitesDescribed.name) M)) ∧
        ∀ i j (hi : i < ds.length) (hj : j < ds.length),
          ∀ slack, slack = (if collapse then 4 * L * tol else 0) + emdTol (max ds[i].size ds[j].size) (L * (args.k * max (ds[i].cell.a : ℝ) ds[j].cell.a)) →
            (∀ p q, ds[i].IsPDD args.k p → ds[j].IsPDD args.k q → |f i j - exactEmd (metric.dist env.other) p q| ≤ slack) ∧ (SameSites ds[i] ds[j] → 0 ≤ f i j ∧ f i j ≤ slack) := by
  obtain ⟨k₁, h₁⟩ := sites_all _ he
  refine ⟨k₁, fun env B asString o w inp args kwargs metric L tol collapse h hs hby hnn hk hd htol ho hi hcol => ?_⟩
  obtain ⟨_, g⟩ := sites_gives (args := args) h hi he
  obtain ⟨M, f, F, h1, h2, h3⟩ := sites_lawful.pdd_one_by hs hby hnn htol hd ho g he hne hcol
  refine ⟨M, f, F, h1, h2, fun i j hi hj slack hslack => ?_⟩
  rw [hslack]
  exact h3 i j hi hj (h₁ _ hk _ (List.getElem_mem hi)) (h₁ _ hk _ (List.getElem_mem hj))

/-- **C97** (partial) With `disorder='all_sites'`: For given entries and sufficiently large `k`, two collections: with more neighbours no distance by AMD becomes smaller, whatever the cells. -/
theorem C97_sites_more_amd_two_large_k_partial (he : ∀ e ∈ ds, e.Comparable) (he' : ∀ e ∈ ds', e.Comparable) (hne : ds ≠ []) (hne' : ds' ≠ []) :
    ∃ k₀, ∀ (env : Env) (B : CifBackends) (asString : String → String) (o o' : ReadOptions) (w : World) (inp inp' : Input) (args args' : CompareArgs) (kwargs kwargs' : Kwargs) (metric : MetricArg ℝ),
      ReadsAllSites env B w kwargs o → ReadsAllSites env B w kwargs' o' → upper args.by_ = "AMD" → upper args'.by_ = "AMD" → args.nNeighbors = none → args'.nNeighbors = none → k₀ ≤ args'.k → args'.k ≤ args.k →
      (kwOr kwargs "metric" (.str "chebyshev")).toMetric = .ok metric → (kwOr kwargs' "metric" (.str "chebyshev")).toMetric = .ok metric →
      (kwOr kwargs "low_memory" (.bool false)).truthy = false → (kwOr kwargs' "low_memory" (.bool false)).truthy = false →
      RowMetric args.k (metric.dist env.other) → RowMetric args'.k (metric.dist env.other) → Shrinks (metric.dist env.other) →
      InputHoldsAll B asString o inp ds args.csdRefcodes → InputHoldsAll B asString o' inp ds args'.csdRefcodes → InputHoldsAll B asString o inp' ds' args.csdRefcodes → InputHoldsAll B asString o' inp' ds' args'.csdRefcodes →
      ∃ (M M' : List (List ℝ)) (f f' : ℕ → ℕ → ℝ) (F : ℕ), IsMatrix ds.length ds'.length f M ∧ IsMatrix ds.length ds'.length f' M' ∧
        (∀ fuel ≥ F, compare env inp (some inp') args kwargs fuel = .ok (.matrix (ds.map SitesDescribed.name) (ds'.map SitesDescribed.name) M) ∧
          compare env inp (some inp') args' kwargs' fuel = .ok (.matrix (ds.map SitesDescribed.name) (ds'.map SitesDescribed.name) M')) ∧
        ∀ i j, i < ds.length → j < ds'.length → f' i j ≤ f i j := by
  obtain ⟨k₀, h₀⟩ := C96_sites_amd_two_large_k_partial he he' hne hne'
  refine ⟨k₀, fun env B asString o o' w inp inp' args args' kwargs kwargs' metric h h' hby hby' hnn hnn' hk0 hk hm hm' hl hl' hd hd' hs hi hp hi' hp' => ?_⟩
  obtain ⟨M, f, F, hM, h1, h2⟩ := h₀ env B asString o w _ _ args kwargs metric h hby hnn (by omega) hm hl hd.self hi hi'
  obtain ⟨M', f', F', hM', h1', h2'⟩ := h₀ env B asString o' w _ _ args' kwargs' metric h' hby' hnn' hk0 hm' hl' hd'.self hp hp'
  refine ⟨M, M', f, f', max F F', hM, hM', fun fuel hf => ⟨h1 fuel (by omega), h1' fuel (by omega)⟩, fun i j hi hj => ?_⟩
  obtain ⟨a, ha⟩ := (sites_lawful.amd_unique (he _ (List.getElem_mem hi)) args.k).exists
  obtain ⟨b, hb⟩ := (sites_lawful.amd_unique (he' _ (List.getElem_mem hj)) args.k).exists
  rw [(h2 i j hi hj).1 a b ha hb, (h2' i j hi hj).1 _ _ (SitesDescribed.IsAMD.take ha hk) (SitesDescribed.IsAMD.take hb hk)]
  exact hs _ _ _ ((sites_lawful.amd_length ha).trans (sites_lawful.amd_length hb).symm)

/-- **C97** (partial) With `disorder='all_sites'`: For given entries and sufficiently large `k`, two collections: with more neighbours no distance by PDD becomes smaller, up to what C96 allows, whatever the cells. -/
theorem C97_sites_more_pdd_two_large_k_partial (he : ∀ e ∈ ds, e.Comparable) (he' : ∀ e ∈ ds', e.Comparable) (hne : ds ≠ []) (hne' : ds' ≠ []) :
    ∃ k₀, ∀ (env : Env) (B : CifBackends) (asString : String → String) (o o' : ReadOptions) (w : World) (inp inp' : Input) (args args' : CompareArgs) (kwargs kwargs' : Kwargs) (metric : MetricArg ℝ)
      (L L' tol tol' : ℝ) (collapse collapse' : Bool),
      ReadsAllSites env B w kwargs o → ReadsAllSites env B w kwargs' o' → env.sched.Complete → upper args.by_ = "PDD" → upper args'.by_ = "PDD" → args.nNeighbors = none → args'.nNeighbors = none → k₀ ≤ args'.k →
      args'.k ≤ args.k → TameMetric args.k L (metric.dist env.other) → TameMetric args'.k L' (metric.dist env.other) → Shrinks (metric.dist env.other) → 0 ≤ tol → 0 ≤ tol' →
      PddOptions kwargs tol metric → PddOptions kwargs' tol' metric → InputHoldsAll B asString o inp ds args.csdRefcodes → InputHoldsAll B asString o' inp ds args'.csdRefcodes → InputHoldsAll B asString o inp' ds' args.csdRefcodes → InputHoldsAll B asString o' inp' ds' args'.csdRefcodes →
      (kwOr kwargs "collapse" (.bool true)).truthy = collapse → (kwOr kwargs' "collapse" (.bool true)).truthy = collapse' →
      ∃ (M M' : List (List ℝ)) (f f' : ℕ → ℕ → ℝ) (F : ℕ), IsMatrix ds.length ds'.length f M ∧ IsMatrix ds.length ds'.length f' M' ∧
        (∀ fuel ≥ F, compare env inp (some inp') args kwargs fuel = .ok (.matrix (ds.map SitesDescribed.name) (ds'.map SitesDescribed.name) M) ∧
          compare env inp (some inp') args' kwargs' fuel = .ok (.matrix (ds.map SitesDescribed.name) (ds'.map SitesDescribed.name) M')) ∧
        ∀ i j (hi : i < ds.length) (hj : j < ds'.length),
          ∀ slack slack', slack = (if collapse then 4 * L * tol else 0) + emdTol (max ds[i].size ds'[j].size) (L * (args.k * max (ds[i].cell.a : ℝ) ds'[j].cell.a)) →
            slack' = (if collapse' then 4 * L' * tol' else 0) + emdTol (max ds[i].size ds'[j].size) (L' * (args'.k * max (ds[i].cell.a : ℝ) ds'[j].cell.a)) →
            f' i j ≤ f i j + slack + slack' := by
  obtain ⟨k₀, h₀⟩ := C96_sites_pdd_two_large_k_partial he he' hne hne'
  refine ⟨k₀, fun env B asString o o' w inp inp' args args' kwargs kwargs' metric L L' tol tol' collapse collapse' h h' hs hby hby' hnn hnn' hk0 hk hd hd' hsh htol htol' ho ho' hi hp hi' hp' hcol hcol' => ?_⟩
  obtain ⟨M, f, F, hM, h1, h2⟩ := h₀ env B asString o w _ _ args kwargs metric L tol collapse h hs hby hnn (by omega) hd htol ho hi hi' hcol
  obtain ⟨M', f', F', hM', h1', h2'⟩ := h₀ env B asString o' w _ _ args' kwargs' metric L' tol' collapse' h' hs hby' hnn' hk0 hd' htol' ho' hp hp' hcol'
  refine ⟨M, M', f, f', max F F', hM, hM', fun fuel hf => ⟨h1 fuel (by omega), h1' fuel (by omega)⟩, fun i j hi hj slack slack' e e' => ?_⟩
  obtain ⟨p, hp⟩ := (sites_lawful.pdd_unique (he _ (List.getElem_mem hi)) args.k).1
  obtain ⟨q, hq⟩ := (sites_lawful.pdd_unique (he' _ (List.getElem_mem hj)) args.k).1
  have n1 := abs_le.1 ((h2 i j hi hj _ e).1 p q hp hq)
  have n2 := abs_le.1 ((h2' i j hi hj _ e').1 _ _ (SitesDescribed.IsPDD.take hp hk) (SitesDescribed.IsPDD.take hq hk))
  have := exactEmd_firstColumns hd'.nonneg hsh hk (sites_lawful.weighted hp) (sites_lawful.weighted hq)
  linarith [n1.1, n2.2]

/-- **C97** (partial) With `disorder='all_sites'`: For given entries and sufficiently large `k`, one collection: with more neighbours no distance by AMD becomes smaller, whatever the cells. -/
theorem C97_sites_more_amd_large_k_partial (he : ∀ e ∈ ds, e.Comparable) (hne : ds ≠ []) :
    ∃ k₀, ∀ (env : Env) (B : CifBackends) (asString : String → String) (o o' : ReadOptions) (w : World) (inp : Input) (args args' : CompareArgs) (kwargs kwargs' : Kwargs) (metric : MetricArg ℝ),
      ReadsAllSites env B w kwargs o → ReadsAllSites env B w kwargs' o' → upper args.by_ = "AMD" → upper args'.by_ = "AMD" → args.nNeighbors = none → args'.nNeighbors = none → k₀ ≤ args'.k → args'.k ≤ args.k →
      (kwOr kwargs "metric" (.str "chebyshev")).toMetric = .ok metric → (kwOr kwargs' "metric" (.str "chebyshev")).toMetric = .ok metric →
      (kwOr kwargs "low_memory" (.bool false)).truthy = false → (kwOr kwargs' "low_memory" (.bool false)).truthy = false →
      RowMetric args.k (metric.dist env.other) → RowMetric args'.k (metric.dist env.other) → Shrinks (metric.dist env.other) →
      InputHoldsAll B asString o inp ds args.csdRefcodes → InputHoldsAll B asString o' inp ds args'.csdRefcodes →
      ∃ (M M' : List (List ℝ)) (f f' : ℕ → ℕ → ℝ) (F : ℕ), IsMatrix ds.length ds.length f M ∧ IsMatrix ds.length ds.length f' M' ∧
        (∀ fuel ≥ F, compare env inp none args kwargs fuel = .ok (.matrix (ds.map SitesDescribed.name) (ds.map SitesDescribed.name) M) ∧
          compare env inp none args' kwargs' fuel = .ok (.matrix (ds.map SitesDescribed.name) (ds.map SitesDescribed.name) M')) ∧
        ∀ i j, i < ds.length → j < ds.length → f' i j ≤ f i j := by
  obtain ⟨k₀, h₀⟩ := C96_sites_amd_large_k_partial he hne
  refine ⟨k₀, fun env B asString o o' w inp args args' kwargs kwargs' metric h h' hby hby' hnn hnn' hk0 hk hm hm' hl hl' hd hd' hs hi hp => ?_⟩
  obtain ⟨M, f, F, hM, h1, h2⟩ := h₀ env B asString o w _ args kwargs metric h hby hnn (by omega) hm hl hd.self hd.symm hi
  obtain ⟨M', f', F', hM', h1', h2'⟩ := h₀ env B asString o' w _ args' kwargs' metric h' hby' hnn' hk0 hm' hl' hd'.self hd'.symm hp
  refine ⟨M, M', f, f', max F F', hM, hM', fun fuel hf => ⟨h1 fuel (by omega), h1' fuel (by omega)⟩, fun i j hi hj => ?_⟩
  obtain ⟨a, ha⟩ := (sites_lawful.amd_unique (he _ (List.getElem_mem hi)) args.k).exists
  obtain ⟨b, hb⟩ := (sites_lawful.amd_unique (he _ (List.getElem_mem hj)) args.k).exists
  rw [(h2 i j hi hj).1 a b ha hb, (h2' i j hi hj).1 _ _ (SitesDescribed.IsAMD.take ha hk) (SitesDescribed.IsAMD.take hb hk)]
  exact hs _ _ _ ((sites_lawful.amd_length ha).trans (sites_lawful.amd_length hb).symm)

/-- **C97** (partial) With `disorder='all_sites'`: For given entries and sufficiently large `k`, one collection: with more neighbours no distance by PDD becomes smaller, up to what C96 allows, whatever the cells. -/
theorem C97_sites_more_pdd_large_k_partial (he : ∀ e ∈ ds, e.Comparable) (hne : ds ≠ []) :
    ∃ k₀, ∀ (env : Env) (B : CifBackends) (asString : String → String) (o o' : ReadOptions) (w : World) (inp : Input) (args args' : CompareArgs) (kwargs kwargs' : Kwargs) (metric : MetricArg ℝ)
      (L L' tol tol' : ℝ) (collapse collapse' : Bool),
      ReadsAllSites env B w kwargs o → ReadsAllSites env B w kwargs' o' → env.sched.Complete → upper args.by_ = "PDD" → upper args'.by_ = "PDD" → args.nNeighbors = none → args'.nNeighbors = none → k₀ ≤ args'.k →
      args'.k ≤ args.k → TameMetric args.k L (metric.dist env.other) → TameMetric args'.k L' (metric.dist env.other) → Shrinks (metric.dist env.other) → 0 ≤ tol → 0 ≤ tol' →
      PddOptions kwargs tol metric → PddOptions kwargs' tol' metric → InputHoldsAll B asString o inp ds args.csdRefcodes → InputHoldsAll B asString o' inp ds args'.csdRefcodes →
      (kwOr kwargs "collapse" (.bool true)).truthy = collapse → (kwOr kwargs' "collapse" (.bool true)).truthy = collapse' →
      ∃ (M M' : List (List ℝ)) (f f' : ℕ → ℕ → ℝ) (F : ℕ), IsMatrix ds.length ds.length f M ∧ IsMatrix ds.length ds.length f' M' ∧
        (∀ fuel ≥ F, compare env inp none args kwargs fuel = .ok (.matrix (ds.map SitesDescribed.name) (ds.map SitesDescribed.name) M) ∧
          compare env inp none args' kwargs' fuel = .ok (.matrix (ds.map SitesDescribed.name) (ds.map SitesDescribed.name) M')) ∧
        ∀ i j (hi : i < ds.length) (hj : j < ds.length),
          ∀ slack slack', slack = (if collapse then 4 * L * tol else 0) + emdTol (max ds[i].size ds[j].size) (L * (args.k * max (ds[i].cell.a : ℝ) ds[j].cell.a)) →
            slack' = (if collapse' then 4 * L' * tol' else 0) + emdTol (max ds[i].size ds[j].size) (L' * (args'.k * max (ds[i].cell.a : ℝ) ds[j].cell.a)) →
            f' i j ≤ f i j + slack + slack' := by
  obtain ⟨k₀, h₀⟩ := C96_sites_pdd_large_k_partial he hne
  refine ⟨k₀, fun env B asString o o' w inp args args' kwargs kwargs' metric L L' tol tol' collapse collapse' h h' hs hby hby' hnn hnn' hk0 hk hd hd' hsh htol htol' ho ho' hi hp hcol hcol' => ?_⟩
  obtain ⟨M, f, F, hM, h1, h2⟩ := h₀ env B asString o w _ args kwargs metric L tol collapse h hs hby hnn (by omega) hd htol ho hi hcol
  obtain ⟨M', f', F', hM', h1', h2'⟩ := h₀ env B asString o' w _ args' kwargs' metric L' tol' collapse' h' hs hby' hnn' hk0 hd' htol' ho' hp hcol'
  refine ⟨M, M', f, f', max F F', hM, hM', fun fuel hf => ⟨h1 fuel (by omega), h1' fuel (by omega)⟩, fun i j hi hj slack slack' e e' => ?_⟩
  obtain ⟨p, hp⟩ := (sites_lawful.pdd_unique (he _ (List.getElem_mem hi)) args.k).1
  obtain ⟨q, hq⟩ := (sites_lawful.pdd_unique (he _ (List.getElem_mem hj)) args.k).1
  have n1 := abs_le.1 ((h2 i j hi hj _ e).1 p q hp hq)
  have n2 := abs_le.1 ((h2' i j hi hj _ e').1 _ _ (SitesDescribed.IsPDD.take hp hk) (SitesDescribed.IsPDD.take hq hk))
  have := exactEmd_firstColumns hd'.nonneg hsh hk (sites_lawful.weighted hp) (sites_lawful.weighted hq)
  linarith [n1.1, n2.2]

end

end Amd
