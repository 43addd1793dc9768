import Verif.Props.MetricsLargeK

/-!
# The command line for all cells: C96

`amd p` and `amd p q` with any `--metric`, for crystals with arbitrary cells and sufficiently large `--k`. With `--metric chebyshev`, the default, this is about the distances of C95.
-/

namespace Amd

open Classical

variable {ds ds' : List Described}

/-- **C96** (partial) `amd p q --metric name`: for given entries and sufficiently large `--k`, the file that is written has the distances of the AMDs of the infinite crystals by the metric, whatever the cells. -/
theorem C96_command_amd_two_large_k_partial (he : ∀ e ∈ ds, e.Proper) (he' : ∀ e ∈ ds', e.Proper) (hne : ds ≠ []) (hne' : ds' ≠ []) :
    ∃ k₀, ∀ (env : Env) (B : CifBackends) (asString : String → String) (w : World) (ss : List Setting) (argv : List String) (formats : String → Bool) (p q : String) (a : CliArgs),
      CommandLine ss [p, q] argv → a = settingsArgs ss [p, q] → RunsWith env B w a → a.by_ = "AMD" → k₀ ≤ a.k → a.lowMemory = false →
      (∀ x, x.length = a.k → (MetricArg.named a.metric).dist env.other x x = 0) → formats a.format = true →
      InputHolds B asString a.readOptions (.one (.str p)) ds a.csdRefcodes → InputHolds B asString a.readOptions (.one (.str q)) ds' a.csdRefcodes →
      ∃ (M : List (List ℝ)) (f : ℕ → ℕ → ℝ) (F : ℕ), IsMatrix ds.length ds'.length f M ∧
        (∀ fuel ≥ F, cliRun env formats argv fuel = .ok { frame := .matrix (ds.map Described.name) (ds'.map Described.name) M, path := a.output, format := a.format }) ∧
        ∀ i j (hi : i < ds.length) (hj : j < ds'.length),
          (∀ x y, ds[i].IsAMD a.k x → ds'[j].IsAMD a.k y → f i j = (MetricArg.named a.metric).dist env.other x y) ∧ (DescribeSame ds[i] ds'[j] → f i j = 0) := by
  obtain ⟨k₀, h₀⟩ := C96_amd_two_large_k_partial he he' hne hne'
  refine ⟨k₀, fun env B asString w ss argv formats p q a h ha hr hby hk hlow hd hf hi hi' => ?_⟩
  obtain ⟨M, f, F, h1, h2, h3⟩ := h₀ env B asString _ w _ _ a.named a.kwargs (.named a.metric) hr.reads (by rw [show a.named.by_ = a.by_ from rfl, hby, upper_AMD]) rfl hk rfl hlow hd hi hi'
  exact ⟨M, f, F, h1, fun fuel hF => (C95_writes_partial (ha ▸ hf) h ha).2 rfl (h2 fuel hF), h3⟩

/-- **C96** (partial) `amd p q --by PDD --metric name`, for sufficiently large `--k`: up to the rounding of weights and the tolerance. -/
theorem C96_command_pdd_two_large_k_partial (he : ∀ e ∈ ds, e.Proper) (he' : ∀ e ∈ ds', e.Proper) (hne : ds ≠ []) (hne' : ds' ≠ []) :
    ∃ k₀, ∀ (env : Env) (B : CifBackends) (asString : String → String) (w : World) (ss : List Setting) (argv : List String) (formats : String → Bool) (p q : String) (a : CliArgs) (L : ℝ),
      CommandLine ss [p, q] argv → a = settingsArgs ss [p, q] → RunsWith env B w a → env.sched.Complete → a.by_ = "PDD" → k₀ ≤ a.k → 0 ≤ a.collapseTol →
      TameMetric a.k L ((MetricArg.named a.metric).dist env.other) → formats a.format = true → InputHolds B asString a.readOptions (.one (.str p)) ds a.csdRefcodes → InputHolds B asString a.readOptions (.one (.str q)) ds' a.csdRefcodes →
      ∃ (M : List (List ℝ)) (f : ℕ → ℕ → ℝ) (F : ℕ), IsMatrix ds.length ds'.length f M ∧
        (∀ fuel ≥ F, cliRun env formats argv fuel = .ok { frame := .matrix (ds.map Described.name) (ds'.map Described.name) M, path := a.output, format := a.format }) ∧
        ∀ i j (hi : i < ds.length) (hj : j < ds'.length),
          ∀ slack, slack = 4 * L * a.collapseTol + emdTol (max ds[i].size ds'[j].size) (L * (a.k * max (ds[i].cell.a : ℝ) ds'[j].cell.a)) →
            (∀ x y, ds[i].IsPDD a.k x → ds'[j].IsPDD a.k y → |f i j - exactEmd ((MetricArg.named a.metric).dist env.other) x y| ≤ slack) ∧
            (DescribeSame ds[i] ds'[j] → 0 ≤ f i j ∧ f i j ≤ slack) := by
  obtain ⟨k₀, h₀⟩ := C96_pdd_two_large_k_partial he he' hne hne'
  refine ⟨k₀, fun env B asString w ss argv formats p q a L h ha hr hs hby hk htol hd hf hi hi' => ?_⟩
  obtain ⟨M, f, F, h1, h2, h3⟩ := h₀ env B asString _ w _ _ a.named a.kwargs (.named a.metric) L a.collapseTol true hr.reads hs (by rw [show a.named.by_ = a.by_ from rfl, hby, upper_PDD]) rfl hk hd htol
    ⟨rfl, rfl, ⟨_, rfl⟩, ⟨_, rfl⟩⟩ hi hi' rfl
  exact ⟨M, f, F, h1, fun fuel hF => (C95_writes_partial (ha ▸ hf) h ha).2 rfl (h2 fuel hF), h3⟩

/-- **C96** (partial) `amd p --metric name`: for given entries and sufficiently large `--k`, the file that is written has the distances of the AMDs of the infinite crystals by the metric, whatever the cells. -/
theorem C96_command_amd_large_k_partial (he : ∀ e ∈ ds, e.Proper) (hne : ds ≠ []) :
    ∃ k₀, ∀ (env : Env) (B : CifBackends) (asString : String → String) (w : World) (ss : List Setting) (argv : List String) (formats : String → Bool) (p : String) (a : CliArgs),
      CommandLine ss [p] argv → a = settingsArgs ss [p] → RunsWith env B w a → a.by_ = "AMD" → k₀ ≤ a.k → a.lowMemory = false →
      (∀ x, x.length = a.k → (MetricArg.named a.metric).dist env.other x x = 0) →
      (∀ x y, x.length = a.k → y.length = a.k → (MetricArg.named a.metric).dist env.other x y = (MetricArg.named a.metric).dist env.other y x) → formats a.format = true →
      InputHolds B asString a.readOptions (.one (.str p)) ds a.csdRefcodes →
      ∃ (M : List (List ℝ)) (f : ℕ → ℕ → ℝ) (F : ℕ), IsMatrix ds.length ds.length f M ∧
        (∀ fuel ≥ F, cliRun env formats argv fuel = .ok { frame := .matrix (ds.map Described.name) (ds.map Described.name) M, path := a.output, format := a.format }) ∧
        ∀ i j (hi : i < ds.length) (hj : j < ds.length),
          (∀ x y, ds[i].IsAMD a.k x → ds[j].IsAMD a.k y → f i j = (MetricArg.named a.metric).dist env.other x y) ∧ (DescribeSame ds[i] ds[j] → f i j = 0) := by
  obtain ⟨k₀, h₀⟩ := C96_amd_large_k_partial he hne
  refine ⟨k₀, fun env B asString w ss argv formats p a h ha hr hby hk hlow hd hsymm hf hi => ?_⟩
  obtain ⟨M, f, F, h1, h2, h3⟩ := h₀ env B asString _ w _ a.named a.kwargs (.named a.metric) hr.reads (by rw [show a.named.by_ = a.by_ from rfl, hby, upper_AMD]) rfl hk rfl hlow hd hsymm hi
  exact ⟨M, f, F, h1, fun fuel hF => (C95_writes_partial (q := "") (ha ▸ hf) h ha).1 rfl (h2 fuel hF), h3⟩

/-- **C96** (partial) `amd p --by PDD --metric name`, for sufficiently large `--k`: up to the rounding of weights and the tolerance. -/
theorem C96_command_pdd_large_k_partial (he : ∀ e ∈ ds, e.Proper) (hne : ds ≠ []) :
    ∃ k₀, ∀ (env : Env) (B : CifBackends) (asString : String → String) (w : World) (ss : List Setting) (argv : List String) (formats : String → Bool) (p : String) (a : CliArgs) (L : ℝ),
      CommandLine ss [p] argv → a = settingsArgs ss [p] → RunsWith env B w a → env.sched.Complete → a.by_ = "PDD" → k₀ ≤ a.k → 0 ≤ a.collapseTol →
      TameMetric a.k L ((MetricArg.named a.metric).dist env.other) → formats a.format = true → InputHolds B asString a.readOptions (.one (.str p)) ds a.csdRefcodes →
      ∃ (M : List (List ℝ)) (f : ℕ → ℕ → ℝ) (F : ℕ), IsMatrix ds.length ds.length f M ∧
        (∀ fuel ≥ F, cliRun env formats argv fuel = .ok { frame := .matrix (ds.map Described.name) (ds.map Described.name) M, path := a.output, format := a.format }) ∧
        ∀ i j (hi : i < ds.length) (hj : j < ds.length),
          ∀ slack, slack = 4 * L * a.collapseTol + emdTol (max ds[i].size ds[j].size) (L * (a.k * max (ds[i].cell.a : ℝ) ds[j].cell.a)) →
            (∀ x y, ds[i].IsPDD a.k x → ds[j].IsPDD a.k y → |f i j - exactEmd ((MetricArg.named a.metric).dist env.other) x y| ≤ slack) ∧
            (DescribeSame ds[i] ds[j] → 0 ≤ f i j ∧ f i j ≤ slack) := by
  obtain ⟨k₀, h₀⟩ := C96_pdd_large_k_partial he hne
  refine ⟨k₀, fun env B asString w ss argv formats p a L h ha hr hs hby hk htol hd hf hi => ?_⟩
  obtain ⟨M, f, F, h1, h2, h3⟩ := h₀ env B asString _ w _ a.named a.kwargs (.named a.metric) L a.collapseTol true hr.reads hs (by rw [show a.named.by_ = a.by_ from rfl, hby, upper_PDD]) rfl hk hd htol
    ⟨rfl, rfl, ⟨_, rfl⟩, ⟨_, rfl⟩⟩ hi rfl
  exact ⟨M, f, F, h1, fun fuel hF => (C95_writes_partial (q := "") (ha ▸ hf) h ha).1 rfl (h2 fuel hF), h3⟩

end Amd
