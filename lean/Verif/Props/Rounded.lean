import Verif.Proof.RoundedRead

/-!
# Coordinates that are written with few digits: C98

Special positions such as 1/3 cannot be written as decimal numbers. What is read is near the ideal crystal, and so are the distances that `compare` returns.
-/

namespace Amd

open Classical

variable {B : CifBackends} {asString : String → String} {o : ReadOptions} {w : World} {env : Env} {kw kwargs : Kwargs} {args : CompareArgs}
  {inp inp' : Input} {ds ds' is is' : List Described} {δ : ℝ} {rs : List (Option Described)} {path : String}

/-- **C98** (partial) Reading a path: for each block that is not passed over and whose numbers are those of an ideal crystal, rounded by at most `δ`, a set is read that is the motif of the
ideal crystal, with the asymmetric unit and multiplicities of that, up to displacements of at most `4δ` in each fractional coordinate; so sites on special positions stay single
points. Missing: molecular_centres=True and disorder='all_sites'. -/
theorem C98_read_partial (ho : CifOptions kw o) (hd : o.Distinct) (hw : ∀ x, w.action x ≠ .error) (hcc : o.centres = false) (hf : PathHolds B asString o path rs)
    (hr : List.Forall₂ (Described.Rounds δ) rs.reduceOption is) (hp : ∀ c ∈ is, c.ProperRounded δ) :
    ∃ cs, cifReader B w kw path = .ok cs ∧
      List.Forall₂ (fun c x => ∃ S : PeriodicSet 3, x = ⟨c.name, 3, S⟩ ∧ c.HasCell S.cell ∧ RoundedSet (4 * δ) c.ops c.sites S) is cs := by
  obtain ⟨cs, h1, h2⟩ := reader_rounded (δ := δ) ho hd hw hcc hf
  refine ⟨cs, h1, (reads_ideal h2 hr hp).imp ?_⟩
  rintro c x ⟨S, e, h⟩
  exact ⟨S, e, h.cell, h.rounded⟩

/-- **C98** (partial) The same for refcodes and `CSDReader`. -/
theorem C98_csd_partial {given : List String} (ho : CsdOptions kw o) (hd : o.Distinct) (hw : ∀ x, w.action x ≠ .error) (hcc : o.centres = false) (hf : RefcodesHold B o given rs)
    (hr : List.Forall₂ (Described.Rounds δ) rs.reduceOption is) (hp : ∀ c ∈ is, c.ProperRounded δ) :
    ∃ cs, csdReader B w kw given = .ok cs ∧
      List.Forall₂ (fun c x => ∃ S : PeriodicSet 3, x = ⟨c.name, 3, S⟩ ∧ c.HasCell S.cell ∧ RoundedSet (4 * δ) c.ops c.sites S) is cs := by
  obtain ⟨cs, h1, h2⟩ := csdReader_rounded (δ := δ) ho hd hw hcc hf
  refine ⟨cs, h1, (reads_ideal h2 hr hp).imp ?_⟩
  rintro c x ⟨S, e, h⟩
  exact ⟨S, e, h.cell, h.rounded⟩

/-- **C98** (partial) `compare` by AMD of two collections of CIF files or refcodes whose numbers are rounded by at most `δ`: each entry is, up to `8δ(a + b + c)` for each of the two crystals, the
Chebyshev distance of the AMDs of the ideal crystals; so it is at most that if both files are of the same ideal crystal. Missing: molecular_centres=True, disorder='all_sites', and entries
for cells that are too oblique for `k`. -/
theorem C98_amd_two_partial (h : ReadsInputs env B w kwargs o) (hcc : o.centres = false) (hby : upper args.by_ = "AMD")
    (hnn : args.nNeighbors = none) (hk : 0 < args.k) (hm : kwOr kwargs "metric" (.str "chebyshev") = .str "chebyshev")
    (hi : InputHolds B asString o inp ds args.csdRefcodes) (hi' : InputHolds B asString o inp' ds' args.csdRefcodes) (hr : List.Forall₂ (Described.Rounds δ) ds is)
    (hr' : List.Forall₂ (Described.Rounds δ) ds' is') (he : ∀ c ∈ is, c.ProperRounded δ) (he' : ∀ c ∈ is', c.ProperRounded δ) (hne : is ≠ []) (hne' : is' ≠ []) :
    ∃ (M : List (List ℝ)) (f : ℕ → ℕ → ℝ) (F : ℕ), IsMatrix is.length is'.length f M ∧
      (∀ fuel ≥ F, compare env inp (some inp') args kwargs fuel = .ok (.matrix (is.map Described.name) (is'.map Described.name) M)) ∧
      ∀ i j (hi : i < is.length) (hj : j < is'.length), is[i].WellShaped args.k → is'[j].WellShaped args.k →
        (∀ a b, is[i].IsAMD args.k a → is'[j].IsAMD args.k b → |f i j - chebyshev a b| ≤ is[i].roundError δ + is'[j].roundError δ) ∧
        (DescribeSame is[i] is'[j] → f i j ≤ is[i].roundError δ + is'[j].roundError δ) := by
  obtain ⟨_, g⟩ := input_rounded h hcc hi hr he
  obtain ⟨_, g'⟩ := input_rounded h hcc hi' hr' he'
  obtain ⟨M, f, F, h1, h2, h3⟩ := rounded_amd_two hby hnn hk hm g g' he he' hne hne'
  exact ⟨M, f, F, h1, h2, fun i j hi hj hw hw' => h3 i j hi hj (roundGood_wellShaped (he _ (List.getElem_mem hi)).proper hw) (roundGood_wellShaped (he' _ (List.getElem_mem hj)).proper hw')⟩

/-- **C98** (partial) The same for one collection. -/
theorem C98_amd_partial (h : ReadsInputs env B w kwargs o) (hcc : o.centres = false) (hby : upper args.by_ = "AMD")
    (hnn : args.nNeighbors = none) (hk : 0 < args.k) (hm : kwOr kwargs "metric" (.str "chebyshev") = .str "chebyshev")
    (hi : InputHolds B asString o inp ds args.csdRefcodes) (hr : List.Forall₂ (Described.Rounds δ) ds is) (he : ∀ c ∈ is, c.ProperRounded δ) (hne : is ≠ []) :
    ∃ (M : List (List ℝ)) (f : ℕ → ℕ → ℝ) (F : ℕ), IsMatrix is.length is.length f M ∧
      (∀ fuel ≥ F, compare env inp none args kwargs fuel = .ok (.matrix (is.map Described.name) (is.map Described.name) M)) ∧
      ∀ i j (hi : i < is.length) (hj : j < is.length), is[i].WellShaped args.k → is[j].WellShaped args.k →
        (∀ a b, is[i].IsAMD args.k a → is[j].IsAMD args.k b → |f i j - chebyshev a b| ≤ is[i].roundError δ + is[j].roundError δ) ∧
        (DescribeSame is[i] is[j] → f i j ≤ is[i].roundError δ + is[j].roundError δ) := by
  obtain ⟨_, g⟩ := input_rounded h hcc hi hr he
  obtain ⟨M, f, F, h1, h2, h3⟩ := rounded_amd_one hby hnn hk hm g he hne
  exact ⟨M, f, F, h1, h2, fun i j hi hj hw hw' => h3 i j hi hj (roundGood_wellShaped (he _ (List.getElem_mem hi)).proper hw) (roundGood_wellShaped (he _ (List.getElem_mem hj)).proper hw')⟩

/-- **C98** (partial) `compare` by PDD of two collections of CIF files or refcodes whose numbers are rounded by at most `δ`: each entry is the earth mover's distance of the PDDs of the ideal
crystals, up to merging, the termination test of the network simplex, and `8δ(a + b + c)` for each of the two crystals. Missing: as for AMD. -/
theorem C98_pdd_two_partial (h : ReadsInputs env B w kwargs o) (hcc : o.centres = false) (hs : env.sched.Complete)
    (hby : upper args.by_ = "PDD") (hnn : args.nNeighbors = none) {tol : ℝ} (htol : 0 ≤ tol) (ho : PddOptions kwargs tol (.named "chebyshev"))
    (hi : InputHolds B asString o inp ds args.csdRefcodes) (hi' : InputHolds B asString o inp' ds' args.csdRefcodes) (hr : List.Forall₂ (Described.Rounds δ) ds is)
    (hr' : List.Forall₂ (Described.Rounds δ) ds' is') (he : ∀ c ∈ is, c.ProperRounded δ) (he' : ∀ c ∈ is', c.ProperRounded δ) (hne : is ≠ []) (hne' : is' ≠ [])
    {collapse : Bool} (hcol : (kwOr kwargs "collapse" (.bool true)).truthy = collapse) :
    ∃ (M : List (List ℝ)) (f : ℕ → ℕ → ℝ) (F : ℕ), IsMatrix is.length is'.length f M ∧
      (∀ fuel ≥ F, compare env inp (some inp') args kwargs fuel = .ok (.matrix (is.map Described.name) (is'.map Described.name) M)) ∧
      ∀ i j (hi : i < is.length) (hj : j < is'.length), is[i].WellShaped args.k → is'[j].WellShaped args.k →
        ∀ slack, slack = (if collapse then 4 * tol else 0) + emdTol (max is[i].size is'[j].size) (args.k * max (is[i].cell.a : ℝ) is'[j].cell.a) +
            (is[i].roundError δ + is'[j].roundError δ) →
          (∀ p q, is[i].IsPDD args.k p → is'[j].IsPDD args.k q → |f i j - exactEmd chebyshev p q| ≤ slack) ∧
          (DescribeSame is[i] is'[j] → 0 ≤ f i j ∧ f i j ≤ slack) := by
  obtain ⟨_, g⟩ := input_rounded h hcc hi hr he
  obtain ⟨_, g'⟩ := input_rounded h hcc hi' hr' he'
  obtain ⟨M, f, F, h1, h2, h3⟩ := rounded_pdd_two hs hby hnn htol ho g g' he he' hne hne' hcol
  refine ⟨M, f, F, h1, h2, fun i j hi hj hw hw' slack hsl => ?_⟩
  subst hsl
  exact h3 i j hi hj (roundGood_wellShaped (he _ (List.getElem_mem hi)).proper hw) (roundGood_wellShaped (he' _ (List.getElem_mem hj)).proper hw')

/-- **C98** (partial) The same for one collection. -/
theorem C98_pdd_partial (h : ReadsInputs env B w kwargs o) (hcc : o.centres = false) (hs : env.sched.Complete)
    (hby : upper args.by_ = "PDD") (hnn : args.nNeighbors = none) {tol : ℝ} (htol : 0 ≤ tol) (ho : PddOptions kwargs tol (.named "chebyshev"))
    (hi : InputHolds B asString o inp ds args.csdRefcodes) (hr : List.Forall₂ (Described.Rounds δ) ds is) (he : ∀ c ∈ is, c.ProperRounded δ) (hne : is ≠ [])
    {collapse : Bool} (hcol : (kwOr kwargs "collapse" (.bool true)).truthy = collapse) :
    ∃ (M : List (List ℝ)) (f : ℕ → ℕ → ℝ) (F : ℕ), IsMatrix is.length is.length f M ∧
      (∀ fuel ≥ F, compare env inp none args kwargs fuel = .ok (.matrix (is.map Described.name) (is.map Described.name) M)) ∧
      ∀ i j (hi : i < is.length) (hj : j < is.length), is[i].WellShaped args.k → is[j].WellShaped args.k →
        ∀ slack, slack = (if collapse then 4 * tol else 0) + emdTol (max is[i].size is[j].size) (args.k * max (is[i].cell.a : ℝ) is[j].cell.a) +
            (is[i].roundError δ + is[j].roundError δ) →
          (∀ p q, is[i].IsPDD args.k p → is[j].IsPDD args.k q → |f i j - exactEmd chebyshev p q| ≤ slack) ∧
          (DescribeSame is[i] is[j] → 0 ≤ f i j ∧ f i j ≤ slack) := by
  obtain ⟨_, g⟩ := input_rounded h hcc hi hr he
  obtain ⟨M, f, F, h1, h2, h3⟩ := rounded_pdd_one hs hby hnn htol ho g he hne hcol
  refine ⟨M, f, F, h1, h2, fun i j hi hj hw hw' slack hsl => ?_⟩
  subst hsl
  exact h3 i j hi hj (roundGood_wellShaped (he _ (List.getElem_mem hi)).proper hw) (roundGood_wellShaped (he _ (List.getElem_mem hj)).proper hw')

/-- **C98** (partial) For given ideal crystals and sufficiently large `k`, two collections by AMD: entries are near those of the ideal crystals, whatever the cells, and whatever numbers within `δ` are written. Missing: molecular_centres=True and disorder='all_sites'. -/
theorem C98_amd_two_large_k_partial (he : ∀ c ∈ is, c.ProperRounded δ) (he' : ∀ c ∈ is', c.ProperRounded δ) (hne : is ≠ []) (hne' : is' ≠ []) :
    ∃ k₀, ∀ (env : Env) (B : CifBackends) (asString : String → String) (o : ReadOptions) (w : World) (inp inp' : Input) (args : CompareArgs) (kwargs : Kwargs) (ds ds' : List Described),
      ReadsInputs env B w kwargs o → o.centres = false → upper args.by_ = "AMD" → args.nNeighbors = none → k₀ ≤ args.k → kwOr kwargs "metric" (.str "chebyshev") = .str "chebyshev" →
      InputHolds B asString o inp ds args.csdRefcodes → List.Forall₂ (Described.Rounds δ) ds is → InputHolds B asString o inp' ds' args.csdRefcodes → List.Forall₂ (Described.Rounds δ) ds' is' →
      ∃ (M : List (List ℝ)) (f : ℕ → ℕ → ℝ) (F : ℕ), IsMatrix is.length is'.length f M ∧
        (∀ fuel ≥ F, compare env inp (some inp') args kwargs fuel = .ok (.matrix (is.map Described.name) (is'.map Described.name) M)) ∧
        ∀ i j (hi : i < is.length) (hj : j < is'.length),
          (∀ a b, is[i].IsAMD args.k a → is'[j].IsAMD args.k b → |f i j - chebyshev a b| ≤ is[i].roundError δ + is'[j].roundError δ) ∧
          (DescribeSame is[i] is'[j] → f i j ≤ is[i].roundError δ + is'[j].roundError δ) := by
  obtain ⟨k₁, h₁⟩ := roundGood_all (4 * δ) is fun c hc => (he c hc).proper
  obtain ⟨k₂, h₂⟩ := roundGood_all (4 * δ) is' fun c hc => (he' c hc).proper
  refine ⟨max 1 (max k₁ k₂), fun env B asString o w inp inp' args kwargs ds ds' h hcc hby hnn hk hm hi hr hi' hr' => ?_⟩
  obtain ⟨_, g⟩ := input_rounded h hcc hi hr he
  obtain ⟨_, g'⟩ := input_rounded h hcc hi' hr' he'
  obtain ⟨M, f, F, h1, h2, h3⟩ := rounded_amd_two hby hnn (by omega) hm g g' he he' hne hne'
  exact ⟨M, f, F, h1, h2, fun i j hi hj => h3 i j hi hj (h₁ _ (by omega) _ (List.getElem_mem hi)) (h₂ _ (by omega) _ (List.getElem_mem hj))⟩

/-- **C98** (partial) For given ideal crystals and sufficiently large `k`, two collections by PDD. Missing: as for AMD. -/
theorem C98_pdd_two_large_k_partial (he : ∀ c ∈ is, c.ProperRounded δ) (he' : ∀ c ∈ is', c.ProperRounded δ) (hne : is ≠ []) (hne' : is' ≠ []) :
    ∃ k₀, ∀ (env : Env) (B : CifBackends) (asString : String → String) (o : ReadOptions) (w : World) (inp inp' : Input) (args : CompareArgs) (kwargs : Kwargs) (ds ds' : List Described) (tol : ℝ)
      (collapse : Bool),
      ReadsInputs env B w kwargs o → o.centres = false → env.sched.Complete → upper args.by_ = "PDD" → args.nNeighbors = none → k₀ ≤ args.k → 0 ≤ tol → PddOptions kwargs tol (.named "chebyshev") →
      InputHolds B asString o inp ds args.csdRefcodes → List.Forall₂ (Described.Rounds δ) ds is → InputHolds B asString o inp' ds' args.csdRefcodes → List.Forall₂ (Described.Rounds δ) ds' is' → (kwOr kwargs "collapse" (.bool true)).truthy = collapse →
      ∃ (M : List (List ℝ)) (f : ℕ → ℕ → ℝ) (F : ℕ), IsMatrix is.length is'.length f M ∧
        (∀ fuel ≥ F, compare env inp (some inp') args kwargs fuel = .ok (.matrix (is.map Described.name) (is'.map Described.name) M)) ∧
        ∀ i j (hi : i < is.length) (hj : j < is'.length),
          ∀ slack, slack = (if collapse then 4 * tol else 0) + emdTol (max is[i].size is'[j].size) (args.k * max (is[i].cell.a : ℝ) is'[j].cell.a) +
              (is[i].roundError δ + is'[j].roundError δ) →
            (∀ p q, is[i].IsPDD args.k p → is'[j].IsPDD args.k q → |f i j - exactEmd chebyshev p q| ≤ slack) ∧
            (DescribeSame is[i] is'[j] → 0 ≤ f i j ∧ f i j ≤ slack) := by
  obtain ⟨k₁, h₁⟩ := roundGood_all (4 * δ) is fun c hc => (he c hc).proper
  obtain ⟨k₂, h₂⟩ := roundGood_all (4 * δ) is' fun c hc => (he' c hc).proper
  refine ⟨max 1 (max k₁ k₂), fun env B asString o w inp inp' args kwargs ds ds' tol collapse h hcc hs hby hnn hk htol ho hi hr hi' hr' hcol => ?_⟩
  obtain ⟨_, g⟩ := input_rounded h hcc hi hr he
  obtain ⟨_, g'⟩ := input_rounded h hcc hi' hr' he'
  obtain ⟨M, f, F, h1, h2, h3⟩ := rounded_pdd_two hs hby hnn htol ho g g' he he' hne hne' hcol
  refine ⟨M, f, F, h1, h2, fun i j hi hj slack hsl => ?_⟩
  subst hsl
  exact h3 i j hi hj (h₁ _ (by omega) _ (List.getElem_mem hi)) (h₂ _ (by omega) _ (List.getElem_mem hj))

/-- **C98** (partial) For given ideal crystals and sufficiently large `k`, one collection by AMD: entries are near those of the ideal crystals, whatever the cells, and whatever numbers within `δ` are written. Missing: molecular_centres=True and disorder='all_sites'. -/
theorem C98_amd_large_k_partial (he : ∀ c ∈ is, c.ProperRounded δ) (hne : is ≠ []) :
    ∃ k₀, ∀ (env : Env) (B : CifBackends) (asString : String → String) (o : ReadOptions) (w : World) (inp : Input) (args : CompareArgs) (kwargs : Kwargs) (ds : List Described),
      ReadsInputs env B w kwargs o → o.centres = false → upper args.by_ = "AMD" → args.nNeighbors = none → k₀ ≤ args.k → kwOr kwargs "metric" (.str "chebyshev") = .str "chebyshev" →
      InputHolds B asString o inp ds args.csdRefcodes → List.Forall₂ (Described.Rounds δ) ds is →
      ∃ (M : List (List ℝ)) (f : ℕ → ℕ → ℝ) (F : ℕ), IsMatrix is.length is.length f M ∧
        (∀ fuel ≥ F, compare env inp none args kwargs fuel = .ok (.matrix (is.map Described.name) (is.map Described.name) M)) ∧
        ∀ i j (hi : i < is.length) (hj : j < is.length),
          (∀ a b, is[i].IsAMD args.k a → is[j].IsAMD args.k b → |f i j - chebyshev a b| ≤ is[i].roundError δ + is[j].roundError δ) ∧
          (DescribeSame is[i] is[j] → f i j ≤ is[i].roundError δ + is[j].roundError δ) := by
  obtain ⟨k₁, h₁⟩ := roundGood_all (4 * δ) is fun c hc => (he c hc).proper
  refine ⟨max 1 k₁, fun env B asString o w inp args kwargs ds h hcc hby hnn hk hm hi hr => ?_⟩
  obtain ⟨_, g⟩ := input_rounded h hcc hi hr he
  obtain ⟨M, f, F, h1, h2, h3⟩ := rounded_amd_one hby hnn (by omega) hm g he hne
  exact ⟨M, f, F, h1, h2, fun i j hi hj => h3 i j hi hj (h₁ _ (by omega) _ (List.getElem_mem hi)) (h₁ _ (by omega) _ (List.getElem_mem hj))⟩

/-- **C98** (partial) For given ideal crystals and sufficiently large `k`, one collection by PDD. Missing: as for AMD. -/
theorem C98_pdd_large_k_partial (he : ∀ c ∈ is, c.ProperRounded δ) (hne : is ≠ []) :
    ∃ k₀, ∀ (env : Env) (B : CifBackends) (asString : String → String) (o : ReadOptions) (w : World) (inp : Input) (args : CompareArgs) (kwargs : Kwargs) (ds : List Described) (tol : ℝ)
      (collapse : Bool),
      ReadsInputs env B w kwargs o → o.centres = false → env.sched.Complete → upper args.by_ = "PDD" → args.nNeighbors = none → k₀ ≤ args.k → 0 ≤ tol → PddOptions kwargs tol (.named "chebyshev") →
      InputHolds B asString o inp ds args.csdRefcodes → List.Forall₂ (Described.Rounds δ) ds is → (kwOr kwargs "collapse" (.bool true)).truthy = collapse →
      ∃ (M : List (List ℝ)) (f : ℕ → ℕ → ℝ) (F : ℕ), IsMatrix is.length is.length f M ∧
        (∀ fuel ≥ F, compare env inp none args kwargs fuel = .ok (.matrix (is.map Described.name) (is.map Described.name) M)) ∧
        ∀ i j (hi : i < is.length) (hj : j < is.length),
          ∀ slack, slack = (if collapse then 4 * tol else 0) + emdTol (max is[i].size is[j].size) (args.k * max (is[i].cell.a : ℝ) is[j].cell.a) +
              (is[i].roundError δ + is[j].roundError δ) →
            (∀ p q, is[i].IsPDD args.k p → is[j].IsPDD args.k q → |f i j - exactEmd chebyshev p q| ≤ slack) ∧
            (DescribeSame is[i] is[j] → 0 ≤ f i j ∧ f i j ≤ slack) := by
  obtain ⟨k₁, h₁⟩ := roundGood_all (4 * δ) is fun c hc => (he c hc).proper
  refine ⟨max 1 k₁, fun env B asString o w inp args kwargs ds tol collapse h hcc hs hby hnn hk htol ho hi hr hcol => ?_⟩
  obtain ⟨_, g⟩ := input_rounded h hcc hi hr he
  obtain ⟨M, f, F, h1, h2, h3⟩ := rounded_pdd_one hs hby hnn htol ho g he hne hcol
  refine ⟨M, f, F, h1, h2, fun i j hi hj slack hsl => ?_⟩
  subst hsl
  exact h3 i j hi hj (h₁ _ (by omega) _ (List.getElem_mem hi)) (h₁ _ (by omega) _ (List.getElem_mem hj))

end Amd
