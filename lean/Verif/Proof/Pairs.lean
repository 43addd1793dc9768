import Verif.Spec.Pairs
import Verif.Proof.MetricOrder

/-! Each entry of the result of `compare` in terms of the two crystals it is for. -/

namespace Amd

open Classical

variable {env : Env} {args args' : CompareArgs} {kwargs kwargs' : Kwargs} {inp jnp : Input} {inp' jnp' : Option Input} {cs cs' ds ds' : List Crystal}

theorem PDD_length_le {D : ℕ} {S : PeriodicSet D} {inds : List (Fin S.motif.length)} {mult : List ℕ} {k : ℕ} (hD : 0 < D) (hu : S.Units inds mult) (hne : inds ≠ [])
    (hpos : ∀ n ∈ mult, 0 < n) (hsum : mult.sum = S.motif.length) {lexsort collapse : Bool} {tol : ℝ} {fuel : ℕ} {p : List (PRow ℝ)}
    (hp : PDD S k lexsort collapse tol fuel = .ok p) : p.length ≤ S.motif.length := by
  obtain ⟨rows, hr, e⟩ := PDD_rows hD hu hne hp
  obtain ⟨hw, hml⟩ := units_dists hD hu hne hr
  set dists := rows.map (·.drop 1) with hdists
  have hperm := lexsortRows_perm lexsort (collapseRows k collapse tol dists (mult.map fun n : ℕ => (n : ℝ) / (S.motif.length : ℝ)))
  rw [← e, collapseRows_eq k collapse tol dists _ hw] at hperm
  rw [hperm.length_eq, List.length_map]
  have h1 : (rowGroups collapse tol dists).length ≤ (rowGroups collapse tol dists).flatten.length := by
    have := rowGroups_nonempty collapse tol dists
    generalize rowGroups collapse tol dists = G at this
    induction G with
    | nil => simp
    | cons g G ih =>
      have h1 := List.length_pos_iff.2 (this g (by simp))
      have h2 := ih fun g hg => this g (by simp [hg])
      simp only [List.length_cons, List.flatten_cons, List.length_append]
      omega
  rw [(rowGroups_perm collapse tol dists).length_eq, List.length_range] at h1
  have h2 : mult.length ≤ mult.sum := by
    have := hpos
    clear hml hp hperm e
    generalize mult = l at this
    induction l with
    | nil => simp
    | cons n l ih =>
      have h1 := this n (by simp)
      have h2 := ih fun n hn => this n (by simp [hn])
      simp only [List.length_cons, List.sum_cons]
      omega
  rw [hsum] at h2
  omega

theorem pddOf_length {c : Crystal} (hv : c.Valid) {tol : ℝ} {k fuel : ℕ} {p : List (PRow ℝ)} (h : pddOf kwargs tol c k fuel = .ok p) : p.length ≤ c.set.motif.length := by
  obtain ⟨hD, _, hl, inds, mult, hu, hne, hp, hs⟩ := hv
  exact PDD_length_le hD hu hne hp hs h

theorem amd_width {c : Crystal} (hv : c.Valid) {k fuel : ℕ} {a : List ℝ} (h : AMD c.set k fuel = .ok a) : a.length = k := by
  obtain ⟨hD, _, hl, inds, mult, hu, hne, hp, hs⟩ := hv
  exact (C08_amd_sorted hD hu hne h).1

theorem amd_any_fuel {c : Crystal} {k f f' : ℕ} {a b : List ℝ} (h : AMD c.set k f = .ok a) (h' : AMD c.set k f' = .ok b) : a = b := by
  rcases le_total f f' with hf | hf
  · have := (AMD_fuel hf h).symm.trans h'
    simpa using this
  · have := h.symm.trans (AMD_fuel hf h')
    simpa using this

/-- An entry of the matrix by AMD is the distance of the AMDs of its two crystals. -/
theorem amd_entries (hc : Collections env args kwargs inp inp' cs cs') (hne : cs ≠ []) (hv : ∀ c ∈ cs ++ cs', c.Valid) (hby : upper args.by_ = "AMD") (hn : args.nNeighbors = none)
    {metric : MetricArg ℝ} (hm : (kwOr kwargs "metric" (.str "chebyshev")).toMetric = .ok metric) 
    (hl : (kwOr kwargs "low_memory" (.bool false)).truthy = false ∨ 0 < args.k ∧ kwOr kwargs "metric" (.str "chebyshev") = .str "chebyshev")
    (hd : RowMetric args.k (metric.dist env.other)) :
    ∃ (M : List (List ℝ)) (f : ℕ → ℕ → ℝ) (F : ℕ), IsMatrix cs.length cs'.length f M ∧
      (∀ fuel ≥ F, compare env inp inp' args kwargs fuel = .ok (.matrix (cs.map Crystal.name) (cs'.map Crystal.name) M)) ∧
      ∀ i j c c', cs[i]? = some c → cs'[j]? = some c' → ∃ a b fuel, AMD c.set args.k fuel = .ok a ∧ AMD c'.set args.k fuel = .ok b ∧ f i j = metric.dist env.other a b := by
  obtain ⟨hg, hg'⟩ := hc
  have hv1 : ∀ c ∈ cs, c.Valid := fun c hc => hv c (List.mem_append_left _ hc)
  have hv2 : ∀ c ∈ cs', c.Valid := fun c hc => hv c (List.mem_append_right _ hc)
  rcases hl with hl | ⟨hk, hm2⟩
  · cases inp' with
    | none =>
      subst hg'
      obtain ⟨a, M, F, hM, h1⟩ := C37_amd_metric hv1 hby hn hm hl hg hne
      refine ⟨M, _, F, hM, fun fuel hf => (h1 fuel hf).2, fun i j c c' hi0 hj0 => ?_⟩
      obtain ⟨hi, rfl⟩ := List.getElem?_eq_some_iff.1 hi0
      obtain ⟨hj, rfl⟩ := List.getElem?_eq_some_iff.1 hj0
      have ai := (h1 F le_rfl).1 i hi
      have aj := (h1 F le_rfl).1 j hj
      have li := amd_width (hv1 _ (List.getElem_mem hi)) ai
      have lj := amd_width (hv1 _ (List.getElem_mem hj)) aj
      refine ⟨_, _, F, ai, aj, ?_⟩
      rcases lt_trichotomy i j with hij | rfl | hij
      · rw [if_neg hij.ne, min_eq_left hij.le, max_eq_right hij.le]
      · rw [if_pos rfl, hd.self _ li]
      · rw [if_neg hij.ne', min_eq_right hij.le, max_eq_left hij.le, hd.symm _ _ li lj]
    | some inp' =>
      obtain ⟨a, b, M, F, hM, h1⟩ := compare_amd_metric_two hv1 hv2 hby hn hm hl hg hg'
      refine ⟨M, _, F, hM, fun fuel hf => (h1 fuel hf).2.2, fun i j c c' hi0 hj0 => ?_⟩
      obtain ⟨hi, rfl⟩ := List.getElem?_eq_some_iff.1 hi0
      obtain ⟨hj, rfl⟩ := List.getElem?_eq_some_iff.1 hj0
      exact ⟨_, _, F, (h1 F le_rfl).1 i hi, (h1 F le_rfl).2.1 j hj, rfl⟩
  · have hmet : metric = .named "chebyshev" := by
      rw [hm2] at hm
      exact (Except.ok.inj hm).symm
    subst hmet
    cases inp' with
    | none =>
      subst hg'
      obtain ⟨a, M, F, hM, h1⟩ := C37_amd hv1 hk hby hn hm2 hg hne
      refine ⟨M, _, F, hM, fun fuel hf => (h1 fuel hf).2, fun i j c c' hi0 hj0 => ?_⟩
      obtain ⟨hi, rfl⟩ := List.getElem?_eq_some_iff.1 hi0
      obtain ⟨hj, rfl⟩ := List.getElem?_eq_some_iff.1 hj0
      exact ⟨_, _, F, (h1 F le_rfl).1 i hi, (h1 F le_rfl).1 j hj, rfl⟩
    | some inp' =>
      obtain ⟨a, b, M, F, hM, h1⟩ := C37_amd_two hv1 hv2 hk hby hn hm2 hg hg'
      refine ⟨M, _, F, hM, fun fuel hf => (h1 fuel hf).2.2, fun i j c c' hi0 hj0 => ?_⟩
      obtain ⟨hi, rfl⟩ := List.getElem?_eq_some_iff.1 hi0
      obtain ⟨hj, rfl⟩ := List.getElem?_eq_some_iff.1 hj0
      exact ⟨_, _, F, (h1 F le_rfl).1 i hi, (h1 F le_rfl).2.1 j hj, rfl⟩

/-- An entry of the matrix by PDD is the Earth mover's distance of the PDDs of its two crystals, in one of the two orders, or zero for a crystal and itself. -/
theorem pdd_entries (hs : env.sched.Complete) (hc : Collections env args kwargs inp inp' cs cs') (hne : cs ≠ []) (hv : ∀ c ∈ cs ++ cs', c.Valid) (hby : upper args.by_ = "PDD")
    (hn : args.nNeighbors = none) {tol : ℝ} {metric : MetricArg ℝ} (ho : PddOptions kwargs tol metric) (hd : RowMetric args.k (metric.dist env.other)) :
    ∃ (M : List (List ℝ)) (f : ℕ → ℕ → ℝ) (F : ℕ), IsMatrix cs.length cs'.length f M ∧
      (∀ fuel ≥ F, compare env inp inp' args kwargs fuel = .ok (.matrix (cs.map Crystal.name) (cs'.map Crystal.name) M)) ∧
      ∀ i j c c', cs[i]? = some c → cs'[j]? = some c' → ∃ p q fuel plan, pddOf kwargs tol c args.k fuel = .ok p ∧ pddOf kwargs tol c' args.k fuel = .ok q ∧
        (emd (metric.dist env.other) p q fuel = .ok (f i j, plan) ∨ emd (metric.dist env.other) q p fuel = .ok (f i j, plan)) := by
  obtain ⟨hg, hg'⟩ := hc
  have hv1 : ∀ c ∈ cs, c.Valid := fun c hc => hv c (List.mem_append_left _ hc)
  have hv2 : ∀ c ∈ cs', c.Valid := fun c hc => hv c (List.mem_append_right _ hc)
  cases inp' with
  | none =>
    subst hg'
    obtain ⟨p, d, M, F, hM, h1⟩ := C37_pdd hs hv1 hby hn ho hd.nonneg hg hne
    refine ⟨M, _, F, hM, fun fuel hf => (h1 fuel hf).2.2, fun i j c c' hi0 hj0 => ?_⟩
    obtain ⟨hi, rfl⟩ := List.getElem?_eq_some_iff.1 hi0
    obtain ⟨hj, rfl⟩ := List.getElem?_eq_some_iff.1 hj0
    rcases lt_trichotomy i j with hij | rfl | hij
    · obtain ⟨plan, hp⟩ := (h1 F le_rfl).2.1 i j hij hj
      refine ⟨_, _, F, plan, (h1 F le_rfl).1 i hi, (h1 F le_rfl).1 j hj, Or.inl ?_⟩
      rw [if_neg hij.ne, min_eq_left hij.le, max_eq_right hij.le]
      exact hp
    · have w := (pddOf_rows (hv1 _ (List.getElem_mem hi)) ((h1 F le_rfl).1 i hi)).1
      obtain ⟨G, hG⟩ := C33_terminates w w hd.nonneg
      obtain ⟨⟨x, plan⟩, hx⟩ := hG (max F G) (by omega)
      have hx0 := C29_self hd w hx
      subst hx0
      refine ⟨_, _, max F G, plan, (h1 _ (le_max_left F G)).1 i hi, (h1 _ (le_max_left F G)).1 i hj, Or.inl ?_⟩
      rw [if_pos rfl]
      exact hx
    · obtain ⟨plan, hp⟩ := (h1 F le_rfl).2.1 j i hij hi
      refine ⟨_, _, F, plan, (h1 F le_rfl).1 i hi, (h1 F le_rfl).1 j hj, Or.inr ?_⟩
      rw [if_neg hij.ne', min_eq_right hij.le, max_eq_left hij.le]
      exact hp
  | some inp' =>
    obtain ⟨p, q, d, M, F, hM, h1⟩ := C37_pdd_two hs hv1 hv2 hby hn ho hd.nonneg hg hne hg'
    refine ⟨M, _, F, hM, fun fuel hf => (h1 fuel hf).2.2.2, fun i j c c' hi0 hj0 => ?_⟩
    obtain ⟨hi, rfl⟩ := List.getElem?_eq_some_iff.1 hi0
    obtain ⟨hj, rfl⟩ := List.getElem?_eq_some_iff.1 hj0
    obtain ⟨plan, hp⟩ := (h1 F le_rfl).2.2.1 i j hi hj
    exact ⟨_, _, F, plan, (h1 F le_rfl).1 i hi, (h1 F le_rfl).2.1 j hj, Or.inl hp⟩

theorem SameSet.refl (c : Crystal) : SameSet c c := ⟨LinearMap.id, 0, by simp, by simp⟩

theorem SameSet.amd {c c' : Crystal} (h : SameSet c c') (k fuel : ℕ) : AMD c'.set k fuel = AMD c.set k fuel := by
  obtain ⟨R, v, hR, e⟩ := h
  have e1 := C03_amd_translation { c.set with motif := c.set.motif.map R, cell := fun i => R (c.set.cell i) } v k fuel
  rw [C04_amd_orthogonal c.set R hR] at e1
  have e2 := congrArg (fun e : Crystal => AMD e.set k fuel) e
  refine e2.trans (Eq.trans ?_ e1)
  simp only [List.map_map]
  rfl

theorem SameSet.pdd {c c' : Crystal} (h : SameSet c c') (tol : ℝ) (k fuel : ℕ) : pddOf kwargs tol c' k fuel = pddOf kwargs tol c k fuel := by
  obtain ⟨R, v, hR, e⟩ := h
  have e1 := C03_pdd_translation { c.set with motif := c.set.motif.map R, cell := fun i => R (c.set.cell i) } v k (kwOr kwargs "lexsort" (.bool true)).truthy
    (kwOr kwargs "collapse" (.bool true)).truthy tol fuel
  rw [C04_pdd_orthogonal c.set R hR] at e1
  have e2 := congrArg (fun e : Crystal => pddOf kwargs tol e k fuel) e
  refine e2.trans (Eq.trans ?_ e1)
  simp only [pddOf, List.map_map]
  rfl

/-- The two orders of a pair of PDDs of fewer than 10000 rows give the same distance, and the number of steps does not matter. -/
theorem emd_either {k : ℕ} {δ : List ℝ → List ℝ → ℝ} (hd : RowMetric k δ) {p q : List (PRow ℝ)} (hp : WeightedRows k p) (hq : WeightedRows k q) (lp : p.length < 10000)
    (lq : q.length < 10000) {x y : ℝ} {u v : List (List ℝ)} {f g : ℕ} (h : emd δ p q f = .ok (x, u) ∨ emd δ q p f = .ok (x, u))
    (h' : emd δ p q g = .ok (y, v) ∨ emd δ q p g = .ok (y, v)) : x = y := by
  rcases h with h | h <;> rcases h' with h' | h'
  · exact (Prod.mk.inj (C33_unique h h')).1
  · exact C30_symmetric hd hp hq lp lq h h'
  · exact C30_symmetric hd hq hp lq lp h h'
  · exact (Prod.mk.inj (C33_unique h h')).1

/-- Two calls of `compare` by PDD: what both found for the same two periodic sets. -/
theorem pdd_pairs (hs : env.sched.Complete) (hc : Collections env args kwargs inp inp' cs cs') (hc' : Collections env args' kwargs' jnp jnp' ds ds') (hne : cs ≠ []) (hne' : ds ≠ [])
    (hv : ∀ c ∈ cs ++ cs', c.Valid) (hv' : ∀ c ∈ ds ++ ds', c.Valid) (hby : upper args.by_ = "PDD") (hby' : upper args'.by_ = "PDD") (hn : args.nNeighbors = none)
    (hn' : args'.nNeighbors = none) (hkk : args'.k = args.k) {tol : ℝ} {metric : MetricArg ℝ} (ho : PddOptions kwargs tol metric) (ho' : PddOptions kwargs' tol metric)
    (hlex : (kwOr kwargs' "lexsort" (.bool true)).truthy = (kwOr kwargs "lexsort" (.bool true)).truthy)
    (hcol : (kwOr kwargs' "collapse" (.bool true)).truthy = (kwOr kwargs "collapse" (.bool true)).truthy) (hd : RowMetric args.k (metric.dist env.other)) :
    ∃ (M N : List (List ℝ)) (f g : ℕ → ℕ → ℝ) (F : ℕ), IsMatrix cs.length cs'.length f M ∧ IsMatrix ds.length ds'.length g N ∧
      (∀ fuel ≥ F, compare env inp inp' args kwargs fuel = .ok (.matrix (cs.map Crystal.name) (cs'.map Crystal.name) M) ∧
        compare env jnp jnp' args' kwargs' fuel = .ok (.matrix (ds.map Crystal.name) (ds'.map Crystal.name) N)) ∧
      ∀ i j i' j', (SameAt cs i ds i' ∧ SameAt cs' j ds' j' ∨ SameAt cs i ds' j' ∧ SameAt cs' j ds i') →
        ∃ c c' p q u u' v v' w w', c ∈ cs ++ cs' ∧ c' ∈ cs ++ cs' ∧ pddOf kwargs tol c args.k w = .ok p ∧ pddOf kwargs tol c' args.k w' = .ok q ∧
          (emd (metric.dist env.other) p q u = .ok (f i j, v) ∨ emd (metric.dist env.other) q p u = .ok (f i j, v)) ∧
          (emd (metric.dist env.other) p q u' = .ok (g i' j', v') ∨ emd (metric.dist env.other) q p u' = .ok (g i' j', v')) := by
  obtain ⟨M, f, F, hM, h1, h2⟩ := pdd_entries hs hc hne hv hby hn ho hd
  obtain ⟨N, g, G, hN, g1, g2⟩ := pdd_entries hs hc' hne' hv' hby' hn' ho' (hkk ▸ hd)
  refine ⟨M, N, f, g, max F G, hM, hN, fun fuel hf => ⟨h1 _ (by omega), g1 _ (by omega)⟩, fun i j i' j' h => ?_⟩
  have hpdd : ∀ c fuel, pddOf kwargs' tol c args.k fuel = pddOf kwargs tol c args.k fuel := fun c fuel => by rw [pddOf, pddOf, hlex, hcol]
  simp only [hkk, hpdd] at g2
  have mem : ∀ {l : List Crystal} {i : ℕ} {c : Crystal}, l[i]? = some c → c ∈ l := fun h => List.mem_of_getElem? h
  rcases h with ⟨⟨c, d, hi, hi', e⟩, c', d', hj, hj', e'⟩ | ⟨⟨c, d, hi, hi', e⟩, c', d', hj, hj', e'⟩
  · obtain ⟨p, q, u, v, hp, hq, hpq⟩ := h2 i j c c' hi hj
    obtain ⟨p', q', u', v', hp', hq', hpq'⟩ := g2 i' j' d d' hi' hj'
    rw [e.pdd] at hp'
    rw [e'.pdd] at hq'
    obtain rfl := pddOf_fuel hp hp'
    obtain rfl := pddOf_fuel hq hq'
    exact ⟨c, c', p, q, u, u', v, v', u, u, List.mem_append_left _ (mem hi), List.mem_append_right _ (mem hj), hp, hq, hpq, hpq'⟩
  · obtain ⟨p, q, u, v, hp, hq, hpq⟩ := h2 i j c c' hi hj
    obtain ⟨q', p', u', v', hq', hp', hpq'⟩ := g2 i' j' d' d hj' hi'
    rw [e.pdd] at hp'
    rw [e'.pdd] at hq'
    obtain rfl := pddOf_fuel hp hp'
    obtain rfl := pddOf_fuel hq hq'
    exact ⟨c, c', p, q, u, u', v, v', u, u, List.mem_append_left _ (mem hi), List.mem_append_right _ (mem hj), hp, hq, hpq, hpq'.symm⟩

end Amd
