import Verif.Proof.Pairs

/-!
# C102: the distance that `compare` finds for two crystals does not depend on the other crystals

Two calls of `compare` are compared. `Collections env args kwargs inp inp' cs cs'` says that the rows of the result are for the crystals `cs` and the columns for
`cs'`, whether or not a second collection is given.
-/

namespace Amd

open Classical

variable {env : Env} {args args' : CompareArgs} {kwargs kwargs' : Kwargs} {inp jnp : Input} {inp' jnp' : Option Input} {cs cs' ds ds' : List Crystal}

/-- **C102** By AMD: two calls with the same `k` and the same metric give the same number for the same two periodic sets, whatever the other crystals are, in which rows and columns
the two are, whatever their names, places and orientations are (`SameSet`), whether they are in one collection or in two, and in which order, also with `low_memory` if the metric is the default. This holds for all cells. -/
theorem C102_amd (hc : Collections env args kwargs inp inp' cs cs') (hc' : Collections env args' kwargs' jnp jnp' ds ds') (hne : cs ≠ []) (hne' : ds ≠ [])
    (hv : ∀ c ∈ cs ++ cs', c.Valid) (hv' : ∀ c ∈ ds ++ ds', c.Valid) (hby : upper args.by_ = "AMD") (hby' : upper args'.by_ = "AMD") (hn : args.nNeighbors = none)
    (hn' : args'.nNeighbors = none) (hkk : args'.k = args.k) {metric : MetricArg ℝ} (hm : (kwOr kwargs "metric" (.str "chebyshev")).toMetric = .ok metric)
    (hm' : (kwOr kwargs' "metric" (.str "chebyshev")).toMetric = .ok metric)
    (hl : (kwOr kwargs "low_memory" (.bool false)).truthy = false ∨ 0 < args.k ∧ kwOr kwargs "metric" (.str "chebyshev") = .str "chebyshev")
    (hl' : (kwOr kwargs' "low_memory" (.bool false)).truthy = false ∨ 0 < args'.k ∧ kwOr kwargs' "metric" (.str "chebyshev") = .str "chebyshev") (hd : RowMetric args.k (metric.dist env.other)) :
    ∃ (M N : List (List ℝ)) (f g : ℕ → ℕ → ℝ) (F : ℕ), IsMatrix cs.length cs'.length f M ∧ IsMatrix ds.length ds'.length g N ∧
      (∀ fuel ≥ F, compare env inp inp' args kwargs fuel = .ok (.matrix (cs.map Crystal.name) (cs'.map Crystal.name) M) ∧
        compare env jnp jnp' args' kwargs' fuel = .ok (.matrix (ds.map Crystal.name) (ds'.map Crystal.name) N)) ∧ PairsAgree 0 cs cs' f ds ds' g := by
  obtain ⟨M, f, F, hM, h1, h2⟩ := amd_entries hc hne hv hby hn hm hl hd
  obtain ⟨N, g, G, hN, g1, g2⟩ := amd_entries hc' hne' hv' hby' hn' hm' hl' (hkk ▸ hd)
  refine ⟨M, N, f, g, max F G, hM, hN, fun fuel hf => ⟨h1 _ (by omega), g1 _ (by omega)⟩, fun i j i' j' h => ?_⟩
  rw [hkk] at g2
  have mem : ∀ {l : List Crystal} {i : ℕ} {c : Crystal}, l[i]? = some c → c ∈ l := fun h => List.mem_of_getElem? h
  rcases h with ⟨⟨c, d, hi, hi', e⟩, c', d', hj, hj', e'⟩ | ⟨⟨c, d, hi, hi', e⟩, c', d', hj, hj', e'⟩
  · obtain ⟨a, b, u, ha, hb, hab⟩ := h2 i j c c' hi hj
    obtain ⟨a', b', u', ha', hb', hab'⟩ := g2 i' j' d d' hi' hj'
    rw [e.amd] at ha'
    rw [e'.amd] at hb'
    rw [hab, hab', amd_any_fuel ha ha', amd_any_fuel hb hb', sub_self, abs_zero]
  · obtain ⟨a, b, u, ha, hb, hab⟩ := h2 i j c c' hi hj
    obtain ⟨a', b', u', ha', hb', hab'⟩ := g2 i' j' d' d hj' hi'
    rw [e'.amd] at ha'
    rw [e.amd] at hb'
    have la := amd_width (hv c (List.mem_append_left _ (mem hi))) ha
    have lb := amd_width (hv c' (List.mem_append_right _ (mem hj))) hb
    rw [hab, hab', ← amd_any_fuel ha hb', ← amd_any_fuel hb ha', hd.symm _ _ la lb, sub_self, abs_zero]

/-- **C102** By PDD, also with other `n_jobs`, `backend`, `verbose` in the second call: exactly the same number if the periodic sets have fewer than 10000 points. This holds for all
cells. -/
theorem C102_pdd (hs : env.sched.Complete) (hc : Collections env args kwargs inp inp' cs cs') (hc' : Collections env args' kwargs' jnp jnp' ds ds') (hne : cs ≠ []) (hne' : ds ≠ [])
    (hv : ∀ c ∈ cs ++ cs', c.Valid) (hv' : ∀ c ∈ ds ++ ds', c.Valid) (hby : upper args.by_ = "PDD") (hby' : upper args'.by_ = "PDD") (hn : args.nNeighbors = none)
    (hn' : args'.nNeighbors = none) (hkk : args'.k = args.k) {tol : ℝ} {metric : MetricArg ℝ} (ho : PddOptions kwargs tol metric) (ho' : PddOptions kwargs' tol metric)
    (hlex : (kwOr kwargs' "lexsort" (.bool true)).truthy = (kwOr kwargs "lexsort" (.bool true)).truthy)
    (hcol : (kwOr kwargs' "collapse" (.bool true)).truthy = (kwOr kwargs "collapse" (.bool true)).truthy) (hd : RowMetric args.k (metric.dist env.other))
    (hlen : ∀ c ∈ cs ++ cs', c.set.motif.length < 10000) :
    ∃ (M N : List (List ℝ)) (f g : ℕ → ℕ → ℝ) (F : ℕ), IsMatrix cs.length cs'.length f M ∧ IsMatrix ds.length ds'.length g N ∧
      (∀ fuel ≥ F, compare env inp inp' args kwargs fuel = .ok (.matrix (cs.map Crystal.name) (cs'.map Crystal.name) M) ∧
        compare env jnp jnp' args' kwargs' fuel = .ok (.matrix (ds.map Crystal.name) (ds'.map Crystal.name) N)) ∧ PairsAgree 0 cs cs' f ds ds' g := by
  obtain ⟨M, N, f, g, F, hM, hN, h1, h2⟩ := pdd_pairs hs hc hc' hne hne' hv hv' hby hby' hn hn' hkk ho ho' hlex hcol hd
  refine ⟨M, N, f, g, F, hM, hN, h1, fun i j i' j' h => ?_⟩
  obtain ⟨c, c', p, q, u, u', v, v', w, w', m, m', hp, hq, x, x'⟩ := h2 i j i' j' h
  rw [emd_either hd (pddOf_rows (hv c m) hp).1 (pddOf_rows (hv c' m') hq).1 ((pddOf_length (hv c m) hp).trans_lt (hlen c m)) ((pddOf_length (hv c' m') hq).trans_lt (hlen c' m')) x x',
    sub_self, abs_zero]

/-- **C102** By PDD for periodic sets of any size: up to twice the rounding of weights, where `C100_within` gives the bounds `n` and `C`. -/
theorem C102_pdd_large (hs : env.sched.Complete) (hc : Collections env args kwargs inp inp' cs cs') (hc' : Collections env args' kwargs' jnp jnp' ds ds') (hne : cs ≠ []) (hne' : ds ≠ [])
    (hv : ∀ c ∈ cs ++ cs', c.Valid) (hv' : ∀ c ∈ ds ++ ds', c.Valid) (hby : upper args.by_ = "PDD") (hby' : upper args'.by_ = "PDD") (hn : args.nNeighbors = none)
    (hn' : args'.nNeighbors = none) (hkk : args'.k = args.k) {tol : ℝ} {metric : MetricArg ℝ} (ho : PddOptions kwargs tol metric) (ho' : PddOptions kwargs' tol metric)
    (hlex : (kwOr kwargs' "lexsort" (.bool true)).truthy = (kwOr kwargs "lexsort" (.bool true)).truthy)
    (hcol : (kwOr kwargs' "collapse" (.bool true)).truthy = (kwOr kwargs "collapse" (.bool true)).truthy) {L : ℝ}
    (hd : TameMetric args.k L (metric.dist env.other)) {n : ℕ} {C : ℝ} (hC0 : 0 ≤ C) (hC : ∀ c ∈ cs ++ cs', PddWithin kwargs tol args.k n C c) :
    ∃ (M N : List (List ℝ)) (f g : ℕ → ℕ → ℝ) (F : ℕ), IsMatrix cs.length cs'.length f M ∧ IsMatrix ds.length ds'.length g N ∧
      (∀ fuel ≥ F, compare env inp inp' args kwargs fuel = .ok (.matrix (cs.map Crystal.name) (cs'.map Crystal.name) M) ∧
        compare env jnp jnp' args' kwargs' fuel = .ok (.matrix (ds.map Crystal.name) (ds'.map Crystal.name) N)) ∧ PairsAgree (2 * emdTol n (L * C)) cs cs' f ds ds' g := by
  obtain ⟨M, N, f, g, F, hM, hN, h1, h2⟩ := pdd_pairs hs hc hc' hne hne' hv hv' hby hby' hn hn' hkk ho ho' hlex hcol hd.toRowMetric
  refine ⟨M, N, f, g, F, hM, hN, h1, fun i j i' j' h => ?_⟩
  obtain ⟨c, c', p, q, u, u', v, v', w, w', m, m', hp, hq, x, x'⟩ := h2 i j i' j' h
  obtain ⟨w1, -⟩ := pddOf_rows (hv c m) hp
  obtain ⟨w2, -⟩ := pddOf_rows (hv c' m') hq
  have sw := exactEmd_symm hd.toRowMetric w1 w2
  have key : ∀ {x : ℝ} {u : ℕ} {v : List (List ℝ)}, (emd (metric.dist env.other) p q u = .ok (x, v) ∨ emd (metric.dist env.other) q p u = .ok (x, v)) →
      |x - exactEmd (metric.dist env.other) p q| ≤ emdTol n (L * C) := by
    intro x u v h
    rcases h with h | h
    · exact (pdds_near (hv c m) (hv c' m') hd hC0 (hC c m) (hC c' m') hp hq h).2
    · rw [← sw]
      exact (pdds_near (hv c' m') (hv c m) hd hC0 (hC c' m') (hC c m) hq hp h).2
  have k1 := abs_le.1 (key x)
  have k2 := abs_le.1 (key x')
  rw [abs_le]
  constructor <;> linarith [k1.1, k1.2, k2.1, k2.2]

end Amd
