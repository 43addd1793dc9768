import Verif.Proof.ReadFirst
import Verif.Props.Pairs

/-!
# C104: how the crystals are passed to `compare` does not matter
-/

namespace Amd

open Classical

variable {env : Env} {args : CompareArgs} {kwargs : Kwargs} {inp : Input} {inp' : Option Input} {cs cs' : List Crystal}

/-- **C104** Reading first and comparing later: `compare` of paths or refcodes with options for the readers returns or raises the same as `compare` of the periodic sets that are read from
them, without these options. This holds for all other options, by AMD and PDD, with and without `n_neighbors`, and also if the comparison raises. -/
theorem C104_read_first (hc : Collections env args kwargs inp inp' cs cs') (fuel : ℕ) :
    compare env inp inp' args kwargs fuel = compare env (asSets cs) (inp'.map fun _ => asSets cs') { args with csdRefcodes := false } (withoutReading kwargs) fuel := by
  obtain ⟨hg, hg'⟩ := hc
  obtain ⟨e1, e2, e3, e4⟩ := routeKwargs_withoutReading args.verbose kwargs
  have hs : ∀ r, getCrystals env false r (asSets cs) = .ok cs := fun r => getCrystals_asSets (getCrystals_ne_nil hg)
  unfold compare
  cases inp' with
  | none => simp only [hg, hs, Option.map_none, bind, Except.bind, compareAmd, comparePdd, allPdds, e1, e2, e3, e4]
  | some i =>
    have hs' : ∀ r, getCrystals env false r (asSets cs') = .ok cs' := fun r => getCrystals_asSets (getCrystals_ne_nil hg')
    have hg' : getCrystals env args.csdRefcodes (routeKwargs args.verbose kwargs) i = .ok cs' := hg'
    simp only [hg, hg', hs, hs', Option.map_some, Except.map, bind, Except.bind, compareAmd, comparePdd, allPdds, e1, e2, e3, e4]

/-- **C104** `compare(x)` and `compare(x, x)` by AMD return the same matrix with the same labels. -/
theorem C104_twice_amd (hg : getCrystals env args.csdRefcodes (routeKwargs args.verbose kwargs) inp = .ok cs) (hv : ∀ c ∈ cs, c.Valid) (hby : upper args.by_ = "AMD") (hn : args.nNeighbors = none)
    {metric : MetricArg ℝ} (hm : (kwOr kwargs "metric" (.str "chebyshev")).toMetric = .ok metric)
    (hl : (kwOr kwargs "low_memory" (.bool false)).truthy = false ∨ 0 < args.k ∧ kwOr kwargs "metric" (.str "chebyshev") = .str "chebyshev") (hd : RowMetric args.k (metric.dist env.other)) :
    ∃ (M : List (List ℝ)) (F : ℕ), ∀ fuel ≥ F, compare env inp none args kwargs fuel = .ok (.matrix (cs.map Crystal.name) (cs.map Crystal.name) M) ∧
      compare env inp (some inp) args kwargs fuel = .ok (.matrix (cs.map Crystal.name) (cs.map Crystal.name) M) := by
  have hne := getCrystals_ne_nil hg
  have hv' : ∀ c ∈ cs ++ cs, c.Valid := fun c hc => hv c (by simpa using hc)
  obtain ⟨M, N, f, g, F, hM, hN, h1, h2⟩ := C102_amd (inp' := none) (jnp' := some inp) (cs' := cs) (ds' := cs) ⟨hg, rfl⟩ ⟨hg, hg⟩ hne hne hv' hv' hby hby hn hn rfl hm hm hl hl hd
  have hfg := same_entries h2
  have hM' : IsMatrix cs.length cs.length g M := ⟨hM.1, hM.2.1, fun i j hi hj => (hM.2.2 i j hi hj).trans (hfg i j hi hj)⟩
  obtain rfl := hM'.ext hN
  exact ⟨M, F, h1⟩

/-- **C104** `compare(x)` and `compare(x, x)` by PDD, for periodic sets of fewer than 10000 points. -/
theorem C104_twice_pdd (hs : env.sched.Complete) (hg : getCrystals env args.csdRefcodes (routeKwargs args.verbose kwargs) inp = .ok cs) (hv : ∀ c ∈ cs, c.Valid) (hby : upper args.by_ = "PDD")
    (hn : args.nNeighbors = none) {tol : ℝ} {metric : MetricArg ℝ} (ho : PddOptions kwargs tol metric) (hd : RowMetric args.k (metric.dist env.other))
    (hlen : ∀ c ∈ cs, c.set.motif.length < 10000) :
    ∃ (M : List (List ℝ)) (F : ℕ), ∀ fuel ≥ F, compare env inp none args kwargs fuel = .ok (.matrix (cs.map Crystal.name) (cs.map Crystal.name) M) ∧
      compare env inp (some inp) args kwargs fuel = .ok (.matrix (cs.map Crystal.name) (cs.map Crystal.name) M) := by
  have hne := getCrystals_ne_nil hg
  have hv' : ∀ c ∈ cs ++ cs, c.Valid := fun c hc => hv c (by simpa using hc)
  obtain ⟨M, N, f, g, F, hM, hN, h1, h2⟩ := C102_pdd hs (inp' := none) (jnp' := some inp) (cs' := cs) (ds' := cs) ⟨hg, rfl⟩ ⟨hg, hg⟩ hne hne hv' hv' hby hby hn hn rfl ho ho rfl rfl hd
    (fun c hc => hlen c (by simpa using hc))
  have hfg := same_entries h2
  have hM' : IsMatrix cs.length cs.length g M := ⟨hM.1, hM.2.1, fun i j hi hj => (hM.2.2 i j hi hj).trans (hfg i j hi hj)⟩
  obtain rfl := hM'.ext hN
  exact ⟨M, F, h1⟩

end Amd
