import Verif.Proof.Moved
import Verif.Props.Matrices
import Verif.Props.Metrics
import Verif.Props.MetricOrderExample

/-!
# C109: `compare` and crystals that are moved, scaled or listed in another order

All of it holds for every cell, whether or not the search for neighbours is complete.
-/

namespace Amd

variable {env : Env} {inp inp' jnp jnp' : Input} {args args' : CompareArgs} {kwargs kwargs' : Kwargs} {cs cs' ms ms' : List Crystal} {s : ℝ}

/-- **C109** Rigid motions and reflections of the crystals, a different one for each, do not change what `compare` returns: exactly, with all options, also with nearest neighbours, and including exceptions. -/
theorem C109_rigid (hby : upper args.by_ = "AMD" ∨ upper args.by_ = "PDD") (hm : List.Forall₂ (Crystal.Moved 1) cs ms) (hn : ms.map Crystal.name = cs.map Crystal.name)
    (hg : getCrystals env args.csdRefcodes (routeKwargs args.verbose kwargs) inp = .ok cs) (hj : getCrystals env args.csdRefcodes (routeKwargs args.verbose kwargs) jnp = .ok ms) (fuel : ℕ) :
    compare env jnp none args kwargs fuel = compare env inp none args kwargs fuel ∧
    ∀ inp' jnp' cs' ms', List.Forall₂ (Crystal.Moved 1) cs' ms' → ms'.map Crystal.name = cs'.map Crystal.name →
      getCrystals env args.csdRefcodes (routeKwargs args.verbose kwargs) inp' = .ok cs' → getCrystals env args.csdRefcodes (routeKwargs args.verbose kwargs) jnp' = .ok ms' →
      compare env jnp (some jnp') args kwargs fuel = compare env inp (some inp') args kwargs fuel := by
  have amds : ∀ {cs ms : List Crystal}, List.Forall₂ (Crystal.Moved 1) cs ms → allAmds ms args.k fuel = allAmds cs args.k fuel := fun h =>
    (mapE_forall₂ (h.imp fun c m h => (h.amd_one args.k fuel).symm)).symm
  have pdds : ∀ {cs ms : List Crystal}, List.Forall₂ (Crystal.Moved 1) cs ms →
      allPdds (routeKwargs args.verbose kwargs) ms args.k fuel = allPdds (routeKwargs args.verbose kwargs) cs args.k fuel := by
    intro cs ms h
    unfold allPdds
    congr 1
    funext tol
    congr 1
    exact (mapE_forall₂ (h.imp fun c m h => (h.pdd_one args.k _ _ tol fuel).symm)).symm
  rcases hby with hby | hby
  · rw [(compare_amd hby hg).1, (compare_amd hby hj).1]
    refine ⟨(compareAmd_congr hn (amds hm) _).1, fun inp' jnp' cs' ms' hm' hn' hg' hj' => ?_⟩
    rw [(compare_amd hby hg).2 _ _ hg', (compare_amd hby hj).2 _ _ hj']
    exact (compareAmd_congr hn (amds hm) _).2 _ _ hn' (amds hm')
  · rw [(compare_pdd hby hg).1, (compare_pdd hby hj).1]
    refine ⟨(comparePdd_congr hn (pdds hm) _).1, fun inp' jnp' cs' ms' hm' hn' hg' hj' => ?_⟩
    rw [(compare_pdd hby hg).2 _ _ hg', (compare_pdd hby hj).2 _ _ hj']
    exact (comparePdd_congr hn (pdds hm) _).2 _ _ hn' (pdds hm')

/-- **C109** By AMD the order in which motif points are listed does not matter either. -/
theorem C109_reordered (hby : upper args.by_ = "AMD") (hm : List.Forall₂ Crystal.Reordered cs ms) (hn : ms.map Crystal.name = cs.map Crystal.name)
    (hg : getCrystals env args.csdRefcodes (routeKwargs args.verbose kwargs) inp = .ok cs) (hj : getCrystals env args.csdRefcodes (routeKwargs args.verbose kwargs) jnp = .ok ms) (fuel : ℕ) :
    compare env jnp none args kwargs fuel = compare env inp none args kwargs fuel ∧
    ∀ inp' jnp' cs' ms', List.Forall₂ Crystal.Reordered cs' ms' → ms'.map Crystal.name = cs'.map Crystal.name →
      getCrystals env args.csdRefcodes (routeKwargs args.verbose kwargs) inp' = .ok cs' → getCrystals env args.csdRefcodes (routeKwargs args.verbose kwargs) jnp' = .ok ms' →
      compare env jnp (some jnp') args kwargs fuel = compare env inp (some inp') args kwargs fuel := by
  have one : ∀ c m : Crystal, c.Reordered m → AMD c.set args.k fuel = AMD m.set args.k fuel := by
    rintro c m ⟨name, motif, hD, hne, hp, e, rfl⟩
    rw [e]
    exact C06_amd_perm hD hp hne c.set.cell args.k fuel
  have amds : ∀ {cs ms : List Crystal}, List.Forall₂ Crystal.Reordered cs ms → allAmds ms args.k fuel = allAmds cs args.k fuel := fun h => (mapE_forall₂ (h.imp one)).symm
  rw [(compare_amd hby hg).1, (compare_amd hby hj).1]
  refine ⟨(compareAmd_congr hn (amds hm) _).1, fun inp' jnp' cs' ms' hm' hn' hg' hj' => ?_⟩
  rw [(compare_amd hby hg).2 _ _ hg', (compare_amd hby hj).2 _ _ hj']
  exact (compareAmd_congr hn (amds hm) _).2 _ _ hn' (amds hm')

/-- **C109** The default metric and the named metrics that C96 covers are homogeneous. -/
theorem C109_metrics (hn : ScipyNames env.other) (k : ℕ) : Homogeneous k ((MetricArg.named "chebyshev").dist env.other) ∧ Homogeneous k ((MetricArg.named "euclidean").dist env.other) ∧
    Homogeneous k ((MetricArg.named "cityblock").dist env.other) := by
  have e1 : (MetricArg.named "euclidean").dist env.other = euclidean := by rw [MetricArg.dist, if_neg (by decide), hn.euclidean]
  have e2 : (MetricArg.named "cityblock").dist env.other = cityblock := by rw [MetricArg.dist, if_neg (by decide), hn.cityblock]
  have e3 : (MetricArg.named "chebyshev").dist env.other = chebyshev := by rw [MetricArg.dist, if_pos rfl]
  rw [e1, e2, e3]
  refine ⟨fun s hs r t _ _ => chebyshev_scale hs r t, fun s hs r t _ _ => ?_, fun s hs r t _ _ => ?_⟩
  · have : ∀ r t : List ℝ, (List.zipWith (fun a b : ℝ => (s * a - s * b) ^ 2) r t).sum = s ^ 2 * (List.zipWith (fun a b : ℝ => (a - b) ^ 2) r t).sum := by
      intro r
      induction r with
      | nil => intro t; simp
      | cons a r ih =>
        intro t
        cases t with
        | nil => simp
        | cons b t => simp only [List.zipWith_cons_cons, List.sum_cons, ih]; ring
    unfold euclidean
    rw [List.zipWith_map, this, Real.sqrt_mul (by positivity), Real.sqrt_sq hs.le]
  · have : ∀ r t : List ℝ, (List.zipWith (fun a b : ℝ => |s * a - s * b|) r t).sum = s * (List.zipWith (fun a b : ℝ => |a - b|) r t).sum := by
      intro r
      induction r with
      | nil => intro t; simp
      | cons a r ih =>
        intro t
        cases t with
        | nil => simp
        | cons b t =>
          simp only [List.zipWith_cons_cons, List.sum_cons, ih]
          rw [← mul_sub, abs_mul, abs_of_pos hs]
          ring
    unfold cityblock
    rw [List.zipWith_map, this]

private theorem getElem_moved {cs ms : List Crystal} (h : List.Forall₂ (Crystal.Moved s) cs ms) {i : ℕ} (hi : i < cs.length) (hi' : i < ms.length) : cs[i].Moved s ms[i] :=
  (List.forall₂_iff_get.1 h).2 i hi hi'

private theorem valid_moved {cs ms : List Crystal} (h : List.Forall₂ (Crystal.Moved s) cs ms) (hs : 0 < s) (hv : ∀ c ∈ cs, c.Valid) : ∀ m ∈ ms, m.Valid := by
  intro m hm
  obtain ⟨i, hi, rfl⟩ := List.mem_iff_getElem.1 hm
  have hi' : i < cs.length := by rw [h.length_eq]; exact hi
  exact (getElem_moved h hi' hi).valid hs (hv _ (List.getElem_mem hi'))

private theorem amd_moved (hs : 0 < s) {c m : Crystal} (h : c.Moved s m) {k fuel : ℕ} {a b : List ℝ} (ha : AMD c.set k fuel = .ok a) (hb : AMD m.set k fuel = .ok b) : b = a.map fun x => s * x := by
  rw [h.amd hs, ha] at hb
  exact (Except.ok.inj hb).symm

/-- **C109** By AMD: scaling all crystals of two collections by `s` multiplies every entry of the matrix by `s`. -/
theorem C109_amd_two (hs : 0 < s) (hv : ∀ c ∈ cs, c.Valid) (hv' : ∀ c ∈ cs', c.Valid) (hm : List.Forall₂ (Crystal.Moved s) cs ms) (hm' : List.Forall₂ (Crystal.Moved s) cs' ms')
    (hby : upper args.by_ = "AMD") (hn : args.nNeighbors = none) {metric : MetricArg ℝ} (ho : (kwOr kwargs "metric" (.str "chebyshev")).toMetric = .ok metric)
    (hl : (kwOr kwargs "low_memory" (.bool false)).truthy = false) (hh : Homogeneous args.k (metric.dist env.other))
    (hg : getCrystals env args.csdRefcodes (routeKwargs args.verbose kwargs) inp = .ok cs) (hg' : getCrystals env args.csdRefcodes (routeKwargs args.verbose kwargs) inp' = .ok cs')
    (hj : getCrystals env args.csdRefcodes (routeKwargs args.verbose kwargs) jnp = .ok ms) (hj' : getCrystals env args.csdRefcodes (routeKwargs args.verbose kwargs) jnp' = .ok ms') :
    ∃ (M N : List (List ℝ)) (f : ℕ → ℕ → ℝ) (F : ℕ), IsMatrix cs.length cs'.length f M ∧ IsMatrix cs.length cs'.length (fun i j => s * f i j) N ∧ ∀ fuel ≥ F,
      compare env inp (some inp') args kwargs fuel = .ok (.matrix (cs.map Crystal.name) (cs'.map Crystal.name) M) ∧
      compare env jnp (some jnp') args kwargs fuel = .ok (.matrix (ms.map Crystal.name) (ms'.map Crystal.name) N) := by
  obtain ⟨a, b, M, F, hM, h1⟩ := compare_amd_metric_two hv hv' hby hn ho hl hg hg'
  obtain ⟨a', b', N, G, hN, h2⟩ := compare_amd_metric_two (valid_moved hm hs hv) (valid_moved hm' hs hv') hby hn ho hl hj hj'
  refine ⟨M, N, _, max F G, hM, ?_, fun fuel hf => ⟨(h1 fuel (by omega)).2.2, (h2 fuel (by omega)).2.2⟩⟩
  obtain ⟨x1, x2, -⟩ := h1 (max F G) (le_max_left _ _)
  obtain ⟨y1, y2, -⟩ := h2 (max F G) (le_max_right _ _)
  have l1 := hm.length_eq
  have l2 := hm'.length_eq
  rw [← l1, ← l2] at hN
  refine ⟨hN.1, hN.2.1, fun i j hi hj => ?_⟩
  have w1 : ∀ c : Crystal, c.Valid → ∀ {a : List ℝ}, AMD c.set args.k (max F G) = .ok a → a.length = args.k := by
    rintro c ⟨hD, -, -, inds, mult, hu, hne, -, -⟩ a ha
    exact (C08_amd_sorted hD hu hne ha).1
  rw [hN.2.2 i j hi hj]
  beta_reduce
  rw [amd_moved hs (getElem_moved hm hi (by omega)) (x1 i hi) (y1 i (by omega)), amd_moved hs (getElem_moved hm' hj (by omega)) (x2 j hj) (y2 j (by omega))]
  exact hh s hs _ _ (w1 _ (hv _ (List.getElem_mem hi)) (x1 i hi)) (w1 _ (hv' _ (List.getElem_mem hj)) (x2 j hj))

/-- **C109** The same for one collection. -/
theorem C109_amd_one (hs : 0 < s) (hv : ∀ c ∈ cs, c.Valid) (hm : List.Forall₂ (Crystal.Moved s) cs ms) (hby : upper args.by_ = "AMD") (hn : args.nNeighbors = none) {metric : MetricArg ℝ}
    (ho : (kwOr kwargs "metric" (.str "chebyshev")).toMetric = .ok metric) (hl : (kwOr kwargs "low_memory" (.bool false)).truthy = false) (hh : Homogeneous args.k (metric.dist env.other))
    (hg : getCrystals env args.csdRefcodes (routeKwargs args.verbose kwargs) inp = .ok cs) (hj : getCrystals env args.csdRefcodes (routeKwargs args.verbose kwargs) jnp = .ok ms) (hne : cs ≠ []) :
    ∃ (M N : List (List ℝ)) (f : ℕ → ℕ → ℝ) (F : ℕ), IsMatrix cs.length cs.length f M ∧ IsMatrix cs.length cs.length (fun i j => s * f i j) N ∧ ∀ fuel ≥ F,
      compare env inp none args kwargs fuel = .ok (.matrix (cs.map Crystal.name) (cs.map Crystal.name) M) ∧
      compare env jnp none args kwargs fuel = .ok (.matrix (ms.map Crystal.name) (ms.map Crystal.name) N) := by
  have l1 := hm.length_eq
  have hne' : ms ≠ [] := List.ne_nil_of_length_pos (by rw [← l1]; exact List.length_pos_iff.2 hne)
  obtain ⟨a, M, F, hM, h1⟩ := C37_amd_metric hv hby hn ho hl hg hne
  obtain ⟨a', N, G, hN, h2⟩ := C37_amd_metric (valid_moved hm hs hv) hby hn ho hl hj hne'
  refine ⟨M, N, _, max F G, hM, ?_, fun fuel hf => ⟨(h1 fuel (by omega)).2, (h2 fuel (by omega)).2⟩⟩
  obtain ⟨x1, -⟩ := h1 (max F G) (le_max_left _ _)
  obtain ⟨y1, -⟩ := h2 (max F G) (le_max_right _ _)
  rw [← l1] at hN
  refine ⟨hN.1, hN.2.1, fun i j hi hj => ?_⟩
  have w1 : ∀ i (hi : i < cs.length), (a i).length = args.k := by
    intro i hi
    obtain ⟨hD, -, -, inds, mult, hu, hne, -, -⟩ := hv _ (List.getElem_mem hi)
    exact (C08_amd_sorted hD hu hne (x1 i hi)).1
  have e : ∀ i (hi : i < cs.length), a' i = (a i).map fun x => s * x := fun i hi => amd_moved hs (getElem_moved hm hi (by omega)) (x1 i hi) (y1 i (by omega))
  rw [hN.2.2 i j hi hj]
  beta_reduce
  split_ifs
  · rw [mul_zero]
  · rw [e _ (by omega), e _ (by omega)]
    exact hh s hs _ _ (w1 _ (by omega)) (w1 _ (by omega))

/-- The distance of scaled PDDs. -/
private theorem pdds_moved (hs : 0 < s) {c c' m m' : Crystal} (hv : c.Valid) (hv' : c'.Valid) (h : c.Moved s m) (h' : c'.Moved s m') {tol : ℝ} {k n : ℕ} {C L : ℝ} {d : List ℝ → List ℝ → ℝ}
    (hd : TameMetric k L d) (hh : Homogeneous k d) (hC0 : 0 ≤ C) (hC : PddWithin kwargs tol k n C c) (hC' : PddWithin kwargs tol k n C c') (hlex : kwOr kwargs' "lexsort" (.bool true) = kwOr kwargs "lexsort" (.bool true))
    (hcol : kwOr kwargs' "collapse" (.bool true) = kwOr kwargs "collapse" (.bool true)) {fuel f f' : ℕ} {p q p' q' : List (PRow ℝ)} (hp : pddOf kwargs tol c k fuel = .ok p)
    (hq : pddOf kwargs tol c' k fuel = .ok q) (hp' : pddOf kwargs' (s * tol) m k fuel = .ok p') (hq' : pddOf kwargs' (s * tol) m' k fuel = .ok q') {x x' : ℝ} {plan plan' : List (List ℝ)}
    (hx : emd d p q f = .ok (x, plan)) (hx' : emd d p' q' f' = .ok (x', plan')) : |x' - s * x| ≤ emdTol n (L * (s * C)) + s * emdTol n (L * C) := by
  have key : ∀ {c m : Crystal}, c.Moved s m → ∀ {p p' : List (PRow ℝ)}, pddOf kwargs tol c k fuel = .ok p → pddOf kwargs' (s * tol) m k fuel = .ok p' → p' = p.map (PRow.scale s) := by
    intro c m h p p' hp hp'
    unfold pddOf at hp hp'
    rw [hlex, hcol, h.pdd hs, hp] at hp'
    exact (Except.ok.inj hp').symm
  obtain rfl := key h hp hp'
  obtain rfl := key h' hq hq'
  have within : ∀ {c m : Crystal}, c.Moved s m → PddWithin kwargs tol k n C c → PddWithin kwargs' (s * tol) k n (s * C) m := by
    intro c m h hC fuel p' hp'
    unfold pddOf at hp'
    rw [hlex, hcol, h.pdd hs] at hp'
    cases e : PDD c.set k (kwOr kwargs "lexsort" (.bool true)).truthy (kwOr kwargs "collapse" (.bool true)).truthy tol fuel with
    | error e' => rw [e] at hp'; cases hp'
    | ok p =>
      rw [e] at hp'
      obtain rfl := Except.ok.inj hp'
      obtain ⟨g1, g2⟩ := hC fuel p e
      refine ⟨by simpa using g1, fun r hr x hx => ?_⟩
      obtain ⟨t, ht, rfl⟩ := List.mem_map.1 hr
      obtain ⟨y, hy, rfl⟩ := List.mem_map.1 hx
      exact mul_le_mul_of_nonneg_left (g2 t ht y hy) hs.le
  have w1 := (pddOf_rows hv hp).1
  have w2 := (pddOf_rows hv' hq).1
  have n1 := abs_le.1 (pdds_near hv hv' hd hC0 hC hC' hp hq hx).2
  have n2 := abs_le.1 (pdds_near (h.valid hs hv) (h'.valid hs hv') hd (mul_nonneg hs.le hC0) (within h hC) (within h' hC') hp' hq' hx').2
  rw [exactEmd_scale hd.nonneg hh hs w1 w2] at n2
  rw [abs_le]
  constructor <;> nlinarith [n1.1, n1.2, n2.1, n2.2]

/-- **C109** By PDD: if all crystals of two collections and the tolerance for collapsing are scaled by `s`, every entry of the matrix is multiplied by `s`, up to the rounding of `EMD`. -/
theorem C109_pdd_two (hs : 0 < s) (hc : env.sched.Complete) (hv : ∀ c ∈ cs, c.Valid) (hv' : ∀ c ∈ cs', c.Valid) (hm : List.Forall₂ (Crystal.Moved s) cs ms)
    (hm' : List.Forall₂ (Crystal.Moved s) cs' ms') (hk : args'.k = args.k) (hby : upper args.by_ = "PDD") (hby' : upper args'.by_ = "PDD") (hn : args.nNeighbors = none) (hn' : args'.nNeighbors = none)
    {metric : MetricArg ℝ} {tol : ℝ} (ho : PddOptions kwargs tol metric) (ho' : PddOptions kwargs' (s * tol) metric) (hlex : kwOr kwargs' "lexsort" (.bool true) = kwOr kwargs "lexsort" (.bool true))
    (hcol : kwOr kwargs' "collapse" (.bool true) = kwOr kwargs "collapse" (.bool true)) {L : ℝ} (hd : TameMetric args.k L (metric.dist env.other)) (hh : Homogeneous args.k (metric.dist env.other))
    (hg : getCrystals env args.csdRefcodes (routeKwargs args.verbose kwargs) inp = .ok cs) (hg' : getCrystals env args.csdRefcodes (routeKwargs args.verbose kwargs) inp' = .ok cs')
    (hj : getCrystals env args'.csdRefcodes (routeKwargs args'.verbose kwargs') jnp = .ok ms) (hj' : getCrystals env args'.csdRefcodes (routeKwargs args'.verbose kwargs') jnp' = .ok ms') (hne : cs ≠ [])
    {n : ℕ} {C : ℝ} (hC0 : 0 ≤ C) (hC : ∀ c ∈ cs ++ cs', PddWithin kwargs tol args.k n C c) :
    ∃ (M N : List (List ℝ)) (f g : ℕ → ℕ → ℝ) (F : ℕ), IsMatrix cs.length cs'.length f M ∧ IsMatrix cs.length cs'.length g N ∧ (∀ fuel ≥ F,
      compare env inp (some inp') args kwargs fuel = .ok (.matrix (cs.map Crystal.name) (cs'.map Crystal.name) M) ∧
      compare env jnp (some jnp') args' kwargs' fuel = .ok (.matrix (ms.map Crystal.name) (ms'.map Crystal.name) N)) ∧
      ∀ i < cs.length, ∀ j < cs'.length, |g i j - s * f i j| ≤ emdTol n (L * (s * C)) + s * emdTol n (L * C) := by
  have l1 := hm.length_eq
  have l2 := hm'.length_eq
  have hne' : ms ≠ [] := List.ne_nil_of_length_pos (by rw [← l1]; exact List.length_pos_iff.2 hne)
  obtain ⟨p, q, d, M, F, hM, h1⟩ := C37_pdd_two hc hv hv' hby hn ho hd.nonneg hg hne hg'
  obtain ⟨p', q', d', N, G, hN, h2⟩ := C37_pdd_two hc (valid_moved hm hs hv) (valid_moved hm' hs hv') hby' hn' ho' (by rw [hk]; exact hd.nonneg) hj hne' hj'
  rw [← l1, ← l2] at hN
  refine ⟨M, N, d, d', max F G, hM, hN, fun fuel hf => ⟨(h1 fuel (by omega)).2.2.2, (h2 fuel (by omega)).2.2.2⟩, fun i hi j hj => ?_⟩
  obtain ⟨a1, a2, a3, -⟩ := h1 (max F G) (le_max_left _ _)
  obtain ⟨b1, b2, b3, -⟩ := h2 (max F G) (le_max_right _ _)
  rw [hk] at b1 b2
  obtain ⟨plan, hx⟩ := a3 i j hi hj
  obtain ⟨plan', hx'⟩ := b3 i j (by omega) (by omega)
  exact pdds_moved hs (hv _ (List.getElem_mem hi)) (hv' _ (List.getElem_mem hj)) (getElem_moved hm hi (by omega)) (getElem_moved hm' hj (by omega)) hd hh hC0
    (hC _ (List.mem_append_left _ (List.getElem_mem hi))) (hC _ (List.mem_append_right _ (List.getElem_mem hj))) hlex hcol (a1 i hi) (a2 j hj) (b1 i (by omega)) (b2 j (by omega)) hx hx'

/-- **C109** The same for one collection. -/
theorem C109_pdd_one (hs : 0 < s) (hc : env.sched.Complete) (hv : ∀ c ∈ cs, c.Valid) (hm : List.Forall₂ (Crystal.Moved s) cs ms)
    (hk : args'.k = args.k) (hby : upper args.by_ = "PDD") (hby' : upper args'.by_ = "PDD") (hn : args.nNeighbors = none) (hn' : args'.nNeighbors = none)
    {metric : MetricArg ℝ} {tol : ℝ} (ho : PddOptions kwargs tol metric) (ho' : PddOptions kwargs' (s * tol) metric) (hlex : kwOr kwargs' "lexsort" (.bool true) = kwOr kwargs "lexsort" (.bool true))
    (hcol : kwOr kwargs' "collapse" (.bool true) = kwOr kwargs "collapse" (.bool true)) {L : ℝ} (hd : TameMetric args.k L (metric.dist env.other)) (hh : Homogeneous args.k (metric.dist env.other))
    (hg : getCrystals env args.csdRefcodes (routeKwargs args.verbose kwargs) inp = .ok cs) (hj : getCrystals env args'.csdRefcodes (routeKwargs args'.verbose kwargs') jnp = .ok ms) (hne : cs ≠ [])
    {n : ℕ} {C : ℝ} (hC0 : 0 ≤ C) (hC : ∀ c ∈ cs, PddWithin kwargs tol args.k n C c) :
    ∃ (M N : List (List ℝ)) (f g : ℕ → ℕ → ℝ) (F : ℕ), IsMatrix cs.length cs.length f M ∧ IsMatrix cs.length cs.length g N ∧ (∀ fuel ≥ F,
      compare env inp none args kwargs fuel = .ok (.matrix (cs.map Crystal.name) (cs.map Crystal.name) M) ∧
      compare env jnp none args' kwargs' fuel = .ok (.matrix (ms.map Crystal.name) (ms.map Crystal.name) N)) ∧
      ∀ i < cs.length, ∀ j < cs.length, |g i j - s * f i j| ≤ emdTol n (L * (s * C)) + s * emdTol n (L * C) := by
  have l1 := hm.length_eq
  have hne' : ms ≠ [] := List.ne_nil_of_length_pos (by rw [← l1]; exact List.length_pos_iff.2 hne)
  obtain ⟨p, d, M, F, hM, h1⟩ := C37_pdd hc hv hby hn ho hd.nonneg hg hne
  obtain ⟨p', d', N, G, hN, h2⟩ := C37_pdd hc (valid_moved hm hs hv) hby' hn' ho' (by rw [hk]; exact hd.nonneg) hj hne'
  rw [← l1] at hN
  refine ⟨M, N, _, _, max F G, hM, hN, fun fuel hf => ⟨(h1 fuel (by omega)).2.2, (h2 fuel (by omega)).2.2⟩, fun i hi j hj => ?_⟩
  obtain ⟨a1, a3, -⟩ := h1 (max F G) (le_max_left _ _)
  obtain ⟨b1, b3, -⟩ := h2 (max F G) (le_max_right _ _)
  rw [hk] at b1
  have lt : ∀ i j, i < j → j < cs.length → |d' i j - s * d i j| ≤ emdTol n (L * (s * C)) + s * emdTol n (L * C) := by
    intro i j hij hj
    have hi : i < cs.length := by omega
    obtain ⟨plan, hx⟩ := a3 i j hij hj
    obtain ⟨plan', hx'⟩ := b3 i j hij (by omega)
    exact pdds_moved hs (hv _ (List.getElem_mem hi)) (hv _ (List.getElem_mem hj)) (getElem_moved hm hi (by omega)) (getElem_moved hm hj (by omega)) hd hh hC0 (hC _ (List.getElem_mem hi))
      (hC _ (List.getElem_mem hj)) hlex hcol (a1 i hi) (a1 j hj) (b1 i (by omega)) (b1 j (by omega)) hx hx'
  rcases lt_trichotomy i j with hij | rfl | hij
  · simp only [if_neg hij.ne, min_eq_left hij.le, max_eq_right hij.le]
    exact lt i j hij hj
  · simp only [if_true, mul_zero, sub_zero, abs_zero]
    have h3 := hd.const
    have h4 : 0 ≤ emdTol n (L * C) := by unfold emdTol; positivity
    have h5 : 0 ≤ emdTol n (L * (s * C)) := by unfold emdTol; positivity
    positivity
  · simp only [if_neg hij.ne', min_eq_right hij.le, max_eq_left hij.le]
    exact lt j i hij hi

end Amd
