import Verif.Proof.Compared

/-!
# Comparing CIF files and CSD entries: C83

From what is written in CIF files, or entries of the CSD, to the distances that `compare` returns: reading, conversion, invariants and comparison together.
-/

namespace Amd

open Classical

variable {B : CifBackends} {asString : String → String} {o : ReadOptions} {w : World} {env : Env} {kwargs : Kwargs} {args : CompareArgs}
  {inp inp' : Input} {ds ds' : List Described} {e e' : Described}

/-! ### The notion of a description -/

/-- Crystals that are described by cell, operations and sites. -/
noncomputable def describedNotion : Notion Described where
  name := Described.name
  size := Described.size
  edge e := e.cell.a
  Proper := Described.Proper
  IsAMD := Described.IsAMD
  IsPDD := Described.IsPDD
  Same := DescribeSame
  Facts := ReadFacts

theorem ReadFacts.edge {S : PeriodicSet 3} (h : ReadFacts e S) : eucl (S.cell 0) 0 = e.cell.a ∧ (0 : ℝ) ≤ e.cell.a := by
  obtain ⟨⟨h0, h1⟩, -⟩ := h.cell
  refine ⟨?_, h0⟩
  have : sqDist (S.cell 0) 0 = (e.cell.a : ℝ) ^ 2 := by
    rw [← h1]
    unfold sqDist
    simp
  rw [eucl, this, Real.sqrt_sq h0]

theorem described_lawful : describedNotion.Lawful where
  small he hS n := ReadFacts.valid hS (Described.Proper.size he) n
  reads he := Described.Proper.reads he
  exists_amd hS k := ReadFacts.exists_amd hS k
  exists_pdd he hS k := ReadFacts.exists_pdd hS (Described.Proper.size he) k
  amd hS hs ha hb := ReadFacts.amd hS hs ha hb
  pdd he hS hs htol hp hq := ReadFacts.pdd hS (Described.Proper.size he) hs htol hp hq
  amd_length h := by
    obtain ⟨cell, -, m, c, R, -, rfl⟩ := h
    simp
  weighted h := by
    obtain ⟨_, _, h, -⟩ := h
    exact h
  same_amd hS hS' h ha ha' := DescribeSame.amd hS hS' h ha ha'
  same_pdd he he' hS hS' h hp hp' x := DescribeSame.pdd hS hS' (Described.Proper.size he) (Described.Proper.size he') h hp hp' x
  refl hS := ⟨_, _, ReadFacts.cell hS, ReadFacts.cell hS, id, fun _ _ => rfl, by rw [Set.image_id]⟩
  edge hS := ReadFacts.edge hS
  range he hS hs hp := by
    obtain ⟨_, _, hdesc⟩ := ReadFacts.desc hS
    obtain ⟨l1, r1⟩ := PDD_range (by norm_num) hdesc.units hdesc.inds_ne hdesc.pos hdesc.sum hs hp 0
    exact ⟨l1.trans (ReadFacts.size hS), r1⟩

theorem good_wellShaped {k : ℕ} (h : e.WellShaped k) : describedNotion.Good k e := fun _ hS => ReadFacts.searchable hS h

theorem good_all (l : List Described) (h : ∀ e ∈ l, e.Proper) : ∃ k₀, ∀ k ≥ k₀, ∀ e ∈ l, describedNotion.Good k e := by
  refine good_many fun e he => ?_
  obtain ⟨cell, hcell, hns, -⟩ := (h e he).group
  obtain ⟨k₀, h⟩ := searchable_uniform hns e.size
  exact ⟨k₀, fun k hk S hS => h _ (by omega) _ _ (gram_of_cellpar hcell (ReadFacts.cell hS)) (ReadFacts.fits hS) (ReadFacts.size hS)⟩

theorem input_gives (h : ReadsInputs env B w kwargs o) (hi : InputHolds B asString o inp ds args.csdRefcodes) (hp : ∀ c ∈ ds, c.Proper) :
    ∃ cs, describedNotion.Gives env args kwargs inp ds cs := by
  obtain ⟨cs, h1, h2, h3⟩ := input_unwrap h hi hp
  exact ⟨cs, h1, h2, h3⟩

/-! ### The invariants of the crystals exist and are unique -/

/-- **C83** The crystal of a block, or entry, that is not passed over has exactly one AMD. -/
theorem C83_amd_unique (he : e.Proper) (k : ℕ) : ∃! a, e.IsAMD k a :=
  described_lawful.amd_unique he k

/-- **C83** The crystal of a block, or entry, that is not passed over has a PDD, and only one as a distribution. -/
theorem C83_pdd_unique (he : e.Proper) (k : ℕ) :
    (∃ p, e.IsPDD k p) ∧ ∀ p q, e.IsPDD k p → e.IsPDD k q → ∀ x, weightAt p x = weightAt q x :=
  described_lawful.pdd_unique he k

/-! ### AMD -/

/-- **C83** (partial) `compare` by AMD of two collections of CIF files or refcodes: the frame is labelled with the names of the blocks (entries) that are not passed over, in order, and an entry is
the Chebyshev distance of the AMDs of the two infinite crystals; so it is 0 if the blocks describe the same crystal. Missing: entries for cells that are too oblique for `k`. -/
theorem C83_amd_two_partial (h : ReadsInputs env B w kwargs o) (hby : upper args.by_ = "AMD") (hnn : args.nNeighbors = none) (hk : 0 < args.k)
    (hm : kwOr kwargs "metric" (.str "chebyshev") = .str "chebyshev") (hi : InputHolds B asString o inp ds args.csdRefcodes) (hi' : InputHolds B asString o inp' ds' args.csdRefcodes) (he : ∀ e ∈ ds, e.Proper)
    (he' : ∀ e ∈ ds', e.Proper)
    (hne : ds ≠ []) (hne' : ds' ≠ []) :
    ∃ (M : List (List ℝ)) (f : ℕ → ℕ → ℝ) (F : ℕ), IsMatrix ds.length ds'.length f M ∧
      (∀ fuel ≥ F, compare env inp (some inp') args kwargs fuel = .ok (.matrix (ds.map Described.name) (ds'.map Described.name) M)) ∧
      ∀ i j (hi : i < ds.length) (hj : j < ds'.length), ds[i].WellShaped args.k → ds'[j].WellShaped args.k →
        (∀ a b, ds[i].IsAMD args.k a → ds'[j].IsAMD args.k b → f i j = chebyshev a b) ∧
        (DescribeSame ds[i] ds'[j] → f i j = 0) := by
  obtain ⟨_, g⟩ := input_gives (args := args) h hi he
  obtain ⟨_, g'⟩ := input_gives (args := args) h hi' he'
  obtain ⟨M, f, F, h1, h2, h3⟩ := described_lawful.amd_two hby hnn hk hm g g' he he' hne hne'
  exact ⟨M, f, F, h1, h2, fun i j hi hj hw hw' => h3 i j hi hj (good_wellShaped hw) (good_wellShaped hw')⟩

/-- **C83** (partial) The same for one collection. -/
theorem C83_amd_partial (h : ReadsInputs env B w kwargs o) (hby : upper args.by_ = "AMD") (hnn : args.nNeighbors = none) (hk : 0 < args.k)
    (hm : kwOr kwargs "metric" (.str "chebyshev") = .str "chebyshev") (hi : InputHolds B asString o inp ds args.csdRefcodes) (he : ∀ e ∈ ds, e.Proper)
    (hne : ds ≠ []) :
    ∃ (M : List (List ℝ)) (f : ℕ → ℕ → ℝ) (F : ℕ), IsMatrix ds.length ds.length f M ∧
      (∀ fuel ≥ F, compare env inp none args kwargs fuel = .ok (.matrix (ds.map Described.name) (ds.map Described.name) M)) ∧
      ∀ i j (hi : i < ds.length) (hj : j < ds.length), ds[i].WellShaped args.k → ds[j].WellShaped args.k →
        (∀ a b, ds[i].IsAMD args.k a → ds[j].IsAMD args.k b → f i j = chebyshev a b) ∧
        (DescribeSame ds[i] ds[j] → f i j = 0) := by
  obtain ⟨_, g⟩ := input_gives (args := args) h hi he
  obtain ⟨M, f, F, h1, h2, h3⟩ := described_lawful.amd_one hby hnn hk hm g he hne
  exact ⟨M, f, F, h1, h2, fun i j hi hj hw hw' => h3 i j hi hj (good_wellShaped hw) (good_wellShaped hw')⟩

/-- **C83** (partial) For given entries and sufficiently large `k` all distances are right, whatever the cells, and whichever backend reads the files. -/
theorem C83_amd_large_k_partial (he : ∀ e ∈ ds, e.Proper) (he' : ∀ e ∈ ds', e.Proper) (hne : ds ≠ []) (hne' : ds' ≠ []) :
    ∃ k₀, ∀ (env : Env) (B : CifBackends) (asString : String → String) (o : ReadOptions) (w : World) (inp inp' : Input) (args : CompareArgs)
      (kwargs : Kwargs), ReadsInputs env B w kwargs o → upper args.by_ = "AMD" → args.nNeighbors = none → k₀ ≤ args.k →
      kwOr kwargs "metric" (.str "chebyshev") = .str "chebyshev" → InputHolds B asString o inp ds args.csdRefcodes → InputHolds B asString o inp' ds' args.csdRefcodes →
      ∃ (M : List (List ℝ)) (f : ℕ → ℕ → ℝ) (F : ℕ), IsMatrix ds.length ds'.length f M ∧
        (∀ fuel ≥ F, compare env inp (some inp') args kwargs fuel = .ok (.matrix (ds.map Described.name) (ds'.map Described.name) M)) ∧
        ∀ i j (hi : i < ds.length) (hj : j < ds'.length),
          (∀ a b, ds[i].IsAMD args.k a → ds'[j].IsAMD args.k b → f i j = chebyshev a b) ∧
          (DescribeSame ds[i] ds'[j] → f i j = 0) := by
  obtain ⟨k₁, h₁⟩ := good_all _ he
  obtain ⟨k₂, h₂⟩ := good_all _ he'
  refine ⟨max 1 (max k₁ k₂), fun env B asString o w inp inp' args kwargs h hby hnn hk hm hi hi' => ?_⟩
  obtain ⟨_, g⟩ := input_gives (args := args) h hi he
  obtain ⟨_, g'⟩ := input_gives (args := args) h hi' he'
  obtain ⟨M, f, F, h1, h2, h3⟩ := described_lawful.amd_two hby hnn (by omega) hm g g' he he' hne hne'
  exact ⟨M, f, F, h1, h2, fun i j hi hj => h3 i j hi hj (h₁ _ (by omega) _ (List.getElem_mem hi)) (h₂ _ (by omega) _ (List.getElem_mem hj))⟩

/-- **C83** If all blocks, or entries, of the first argument are passed over, ValueError. -/
theorem C83_raises (h : ReadsInputs env B w kwargs o) (hby : upper args.by_ = "AMD" ∨ upper args.by_ = "PDD") (hi : InputHolds B asString o inp [] args.csdRefcodes)
    (crystals_ : Option Input) (fuel : ℕ) : compare env inp crystals_ args kwargs fuel = .error (.run .value) := by
  obtain ⟨_, g⟩ := input_gives (args := args) h hi (by simp)
  exact g.raises hby crystals_ fuel

/-! ### PDD -/

/-- **C83** (partial) `compare` by PDD of two collections of CIF files or refcodes: the frame is labelled with the names of the blocks (entries) that are not passed over, in order, and an entry is
the Earth mover's distance of the PDDs of the two infinite crystals, up to the rounding of weights to multiples of `1e-8` and, if rows are collapsed, four times the tolerance; so
it is within that of 0 if the blocks describe the same crystal. Missing: entries for cells that are too oblique for `k`. -/
theorem C83_pdd_two_partial (h : ReadsInputs env B w kwargs o) (hs : env.sched.Complete) (hby : upper args.by_ = "PDD") (hnn : args.nNeighbors = none) {tol : ℝ}
    (htol : 0 ≤ tol) (ho : PddOptions kwargs tol (.named "chebyshev")) (hi : InputHolds B asString o inp ds args.csdRefcodes) (hi' : InputHolds B asString o inp' ds' args.csdRefcodes) (he : ∀ e ∈ ds, e.Proper)
    (he' : ∀ e ∈ ds', e.Proper)
    (hne : ds ≠ []) (hne' : ds' ≠ []) {collapse : Bool} (hcol : (kwOr kwargs "collapse" (.bool true)).truthy = collapse) :
    ∃ (M : List (List ℝ)) (f : ℕ → ℕ → ℝ) (F : ℕ), IsMatrix ds.length ds'.length f M ∧
      (∀ fuel ≥ F, compare env inp (some inp') args kwargs fuel = .ok (.matrix (ds.map Described.name) (ds'.map Described.name) M)) ∧
      ∀ i j (hi : i < ds.length) (hj : j < ds'.length), ds[i].WellShaped args.k → ds'[j].WellShaped args.k →
        ∀ slack, slack = (if collapse then 4 * tol else 0) + emdTol (max ds[i].size ds'[j].size) (args.k * max (ds[i].cell.a : ℝ) ds'[j].cell.a) →
          (∀ p q, ds[i].IsPDD args.k p → ds'[j].IsPDD args.k q → |f i j - exactEmd chebyshev p q| ≤ slack) ∧
          (DescribeSame ds[i] ds'[j] → 0 ≤ f i j ∧ f i j ≤ slack) := by
  obtain ⟨_, g⟩ := input_gives (args := args) h hi he
  obtain ⟨_, g'⟩ := input_gives (args := args) h hi' he'
  obtain ⟨M, f, F, h1, h2, h3⟩ := described_lawful.pdd_two hs hby hnn htol ho g g' he he' hne hne' hcol
  refine ⟨M, f, F, h1, h2, fun i j hi hj hw hw' slack hslack => ?_⟩
  rw [hslack]
  exact h3 i j hi hj (good_wellShaped hw) (good_wellShaped hw')

/-- **C83** (partial) The same for one collection. -/
theorem C83_pdd_partial (h : ReadsInputs env B w kwargs o) (hs : env.sched.Complete) (hby : upper args.by_ = "PDD") (hnn : args.nNeighbors = none) {tol : ℝ}
    (htol : 0 ≤ tol) (ho : PddOptions kwargs tol (.named "chebyshev")) (hi : InputHolds B asString o inp ds args.csdRefcodes) (he : ∀ e ∈ ds, e.Proper)
    (hne : ds ≠ []) {collapse : Bool} (hcol : (kwOr kwargs "collapse" (.bool true)).truthy = collapse) :
    ∃ (M : List (List ℝ)) (f : ℕ → ℕ → ℝ) (F : ℕ), IsMatrix ds.length ds.length f M ∧
      (∀ fuel ≥ F, compare env inp none args kwargs fuel = .ok (.matrix (ds.map Described.name) (ds.map Described.name) M)) ∧
      ∀ i j (hi : i < ds.length) (hj : j < ds.length), ds[i].WellShaped args.k → ds[j].WellShaped args.k →
        ∀ slack, slack = (if collapse then 4 * tol else 0) + emdTol (max ds[i].size ds[j].size) (args.k * max (ds[i].cell.a : ℝ) ds[j].cell.a) →
          (∀ p q, ds[i].IsPDD args.k p → ds[j].IsPDD args.k q → |f i j - exactEmd chebyshev p q| ≤ slack) ∧
          (DescribeSame ds[i] ds[j] → 0 ≤ f i j ∧ f i j ≤ slack) := by
  obtain ⟨_, g⟩ := input_gives (args := args) h hi he
  obtain ⟨M, f, F, h1, h2, h3⟩ := described_lawful.pdd_one hs hby hnn htol ho g he hne hcol
  refine ⟨M, f, F, h1, h2, fun i j hi hj hw hw' slack hslack => ?_⟩
  rw [hslack]
  exact h3 i j hi hj (good_wellShaped hw) (good_wellShaped hw')

/-- **C83** (partial) For given entries and sufficiently large `k` all distances are right, whatever the cells, and whichever backend reads the files. -/
theorem C83_pdd_large_k_partial (he : ∀ e ∈ ds, e.Proper) (he' : ∀ e ∈ ds', e.Proper) (hne : ds ≠ []) (hne' : ds' ≠ []) :
    ∃ k₀, ∀ (env : Env) (B : CifBackends) (asString : String → String) (o : ReadOptions) (w : World) (inp inp' : Input) (args : CompareArgs)
      (kwargs : Kwargs) (tol : ℝ) (collapse : Bool), ReadsInputs env B w kwargs o → env.sched.Complete → upper args.by_ = "PDD" → args.nNeighbors = none →
      k₀ ≤ args.k → 0 ≤ tol → PddOptions kwargs tol (.named "chebyshev") → (kwOr kwargs "collapse" (.bool true)).truthy = collapse →
      InputHolds B asString o inp ds args.csdRefcodes → InputHolds B asString o inp' ds' args.csdRefcodes →
      ∃ (M : List (List ℝ)) (f : ℕ → ℕ → ℝ) (F : ℕ), IsMatrix ds.length ds'.length f M ∧
        (∀ fuel ≥ F, compare env inp (some inp') args kwargs fuel = .ok (.matrix (ds.map Described.name) (ds'.map Described.name) M)) ∧
        ∀ i j (hi : i < ds.length) (hj : j < ds'.length) slack,
          slack = (if collapse then 4 * tol else 0) + emdTol (max ds[i].size ds'[j].size) (args.k * max (ds[i].cell.a : ℝ) ds'[j].cell.a) →
          (∀ p q, ds[i].IsPDD args.k p → ds'[j].IsPDD args.k q → |f i j - exactEmd chebyshev p q| ≤ slack) ∧
          (DescribeSame ds[i] ds'[j] → 0 ≤ f i j ∧ f i j ≤ slack) := by
  obtain ⟨k₁, h₁⟩ := good_all _ he
  obtain ⟨k₂, h₂⟩ := good_all _ he'
  refine ⟨max k₁ k₂, fun env B asString o w inp inp' args kwargs tol collapse h hs hby hnn hk htol ho hcol hi hi' => ?_⟩
  obtain ⟨_, g⟩ := input_gives (args := args) h hi he
  obtain ⟨_, g'⟩ := input_gives (args := args) h hi' he'
  obtain ⟨M, f, F, h1, h2, h3⟩ := described_lawful.pdd_two hs hby hnn htol ho g g' he he' hne hne' hcol
  refine ⟨M, f, F, h1, h2, fun i j hi hj slack hslack => ?_⟩
  rw [hslack]
  exact h3 i j hi hj (h₁ _ (by omega) _ (List.getElem_mem hi)) (h₂ _ (by omega) _ (List.getElem_mem hj))

end Amd
