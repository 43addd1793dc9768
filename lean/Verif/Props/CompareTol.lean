import Verif.Proof.CompareTol
import Verif.Proof.Moved
import Verif.Props.Matrices
import Verif.Props.Metrics
import Verif.Props.MetricOrderExample

/-!
# C111: `compare` with any float as `collapse_tol`
-/

namespace Amd

section

variable {D : ℕ}

/-- Without collapsing the tolerance is not used. -/
theorem PDDTol_plain (S : PeriodicSet D) (k : ℕ) (lexsort : Bool) (tol : Tolerance) (t : ℝ) (fuel : ℕ) : PDDTol S k lexsort false tol fuel = PDD S k lexsort false t fuel := by
  simp only [PDDTol, PDD, collapseRowsTol, collapseRows, Bool.false_and, Bool.false_eq_true, if_false]

/-- For a crystal `inf` acts as every large number. -/
theorem PDDTol_inf_valid {c : Crystal} (hv : c.Valid) (k : ℕ) : ∃ T F, ∀ t ≥ T, ∀ fuel ≥ F, ∀ lexsort collapse, PDDTol c.set k lexsort collapse .inf fuel = PDD c.set k lexsort collapse t fuel := by
  obtain ⟨hD, hn, hl, inds, mult, hu, hne, hpos, hsum⟩ := hv
  obtain ⟨F, hF⟩ := nearestNeighbors_terminates (x := inds.map fun i => c.set.motif[i]) (k + 1) hD (by simpa using hne)
    (fun p hp => by obtain ⟨i, -, rfl⟩ := List.mem_map.1 hp; exact List.getElem_mem _) (by omega) hn
  obtain ⟨rows, hr⟩ := hF F le_rfl
  obtain ⟨T, hT⟩ := PDDTol_inf c.set k F
  refine ⟨T, F, fun t ht fuel hf lexsort collapse => ?_⟩
  have h1 := hT t ht lexsort collapse
  simp only [PDDTol, PDD, asymPoints_units hu, bind, Except.bind, nearestNeighbors_fuel hf hr, hr] at h1 ⊢
  exact h1

theorem PDDTol_inf_all {cs : List Crystal} (hv : ∀ c ∈ cs, c.Valid) (k : ℕ) :
    ∃ T F, ∀ c ∈ cs, ∀ t ≥ T, ∀ fuel ≥ F, ∀ lexsort collapse, PDDTol c.set k lexsort collapse .inf fuel = PDD c.set k lexsort collapse t fuel := by
  induction cs with
  | nil => exact ⟨0, 0, by simp⟩
  | cons c cs ih =>
    obtain ⟨T, F, h⟩ := ih fun c hc => hv c (by simp [hc])
    obtain ⟨T', F', h'⟩ := PDDTol_inf_valid (hv c (by simp)) k
    refine ⟨max T T', max F F', fun d hd t ht fuel hf => ?_⟩
    rcases List.mem_cons.1 hd with rfl | hd
    · exact h' t ((le_max_right _ _).trans ht) fuel ((le_max_right _ _).trans hf)
    · exact h d hd t ((le_max_left _ _).trans ht) fuel ((le_max_left _ _).trans hf)

theorem mapE_agree {α β : Type} {f g : α → Except Err β} {l : List α} (h : ∀ a ∈ l, f a = g a) : mapE f l = mapE g l := mapE_forall₂ (List.forall₂_same.2 h)

end

variable {env : Env} {inp : Input} {inp' : Option Input} {args : CompareArgs} {kwargs : Kwargs} {cs cs' : List Crystal}

/-- **C111** With a number this is `compare` with that keyword argument. -/
theorem C111_number (t : ℝ) (fuel : ℕ) : compareTol env inp inp' args (.num t) kwargs fuel = compare env inp inp' args (("collapse_tol", .float t) :: kwargs) fuel := by
  refine compareTol_eq (routeKwargs_tol _ _ _) fun i _ cs _ => ?_
  exact congrArg lift (mapE_agree fun c _ => (C106_number c.set args.k fuel).1 t _ _)

/-- **C111** `nan`, `-inf` and negative numbers: as with `collapse=False` (and any tolerance). The results are the same, also for exceptions, nearest neighbours, or by AMD. -/
theorem C111_nothing {tol : Tolerance} (h : tol = .nan ∨ tol = .negInf ∨ ∃ t < 0, tol = .num t) (u : ℝ) (fuel : ℕ) :
    compareTol env inp inp' args tol kwargs fuel = compare env inp inp' args (("collapse", .bool false) :: ("collapse_tol", .float u) :: kwargs) fuel := by
  refine compareTol_eq rfl fun i _ cs _ => ?_
  have key : ∀ (c : Crystal) lexsort collapse, PDDTol c.set args.k lexsort collapse tol fuel = PDD c.set args.k lexsort false u fuel := by
    intro c lexsort collapse
    cases collapse with
    | false => exact PDDTol_plain _ _ _ _ _ _
    | true =>
      obtain ⟨h1, h2, h3⟩ := C106_nothing c.set args.k lexsort fuel
      rcases h with rfl | rfl | ⟨t, ht, rfl⟩
      · exact h3 u
      · exact h2 u
      · rw [(C106_number c.set args.k fuel).1, h1 t ht, ← PDDTol_plain _ _ _ (.num t) t, PDDTol_plain _ _ _ (.num t) u]
  exact congrArg lift (mapE_agree fun c _ => key c _ _)

/-- **C111** `inf` acts as every number that is large enough for the crystals. -/
theorem C111_inf (hv : ∀ i ∈ inp :: inp'.toList, ∀ cs, getCrystals env args.csdRefcodes (routeKwargs args.verbose kwargs) i = .ok cs → ∀ c ∈ cs, c.Valid) :
    ∃ T F, ∀ t ≥ T, ∀ fuel ≥ F, compareTol env inp inp' args .inf kwargs fuel = compare env inp inp' args (("collapse_tol", .float t) :: kwargs) fuel := by
  have key : ∀ l : List Input, (∀ i ∈ l, ∀ cs, getCrystals env args.csdRefcodes (routeKwargs args.verbose kwargs) i = .ok cs → ∀ c ∈ cs, c.Valid) →
      ∃ T F, ∀ t ≥ T, ∀ fuel ≥ F, ∀ i ∈ l, ∀ cs, getCrystals env args.csdRefcodes (routeKwargs args.verbose kwargs) i = .ok cs →
        allPddsTol (routeKwargs args.verbose kwargs) .inf cs args.k fuel = allPdds (routeKwargs args.verbose (("collapse_tol", .float t) :: kwargs)) cs args.k fuel := by
    intro l
    induction l with
    | nil => exact fun _ => ⟨0, 0, by simp⟩
    | cons i l ih =>
      intro h
      obtain ⟨T, F, h1⟩ := ih fun j hj => h j (by simp [hj])
      cases hg : getCrystals env args.csdRefcodes (routeKwargs args.verbose kwargs) i with
      | error e =>
        refine ⟨T, F, fun t ht fuel hf j hj cs hcs => ?_⟩
        rcases List.mem_cons.1 hj with rfl | hj
        · rw [hg] at hcs; cases hcs
        · exact h1 t ht fuel hf j hj cs hcs
      | ok ds =>
        obtain ⟨T', F', h2⟩ := PDDTol_inf_all (h i (by simp) ds hg) args.k
        refine ⟨max T T', max F F', fun t ht fuel hf j hj cs hcs => ?_⟩
        rcases List.mem_cons.1 hj with rfl | hj
        · rw [hg] at hcs
          obtain rfl := Except.ok.inj hcs
          exact congrArg lift (mapE_agree fun c hc => h2 c hc t ((le_max_right _ _).trans ht) fuel ((le_max_right _ _).trans hf) _ _)
        · exact h1 t ((le_max_left _ _).trans ht) fuel ((le_max_left _ _).trans hf) j hj cs hcs
  obtain ⟨T, F, h⟩ := key _ hv
  exact ⟨T, F, fun t ht fuel hf => compareTol_eq (routeKwargs_tol _ _ _) (h t ht fuel hf)⟩

/-! ### `inf` and AMD -/

/-- The distance of PDDs of one row each. -/
theorem exactEmd_single {k : ℕ} {d : List ℝ → List ℝ → ℝ} (h0 : ∀ r s, r.length = k → s.length = k → 0 ≤ d r s) {r s : PRow ℝ} (hr : WeightedRows k [r]) (hs : WeightedRows k [s]) :
    exactEmd d [r] [s] = d r.dists s.dists := by
  have wr : r.weight = 1 := by simpa using hr.total
  have ws : s.weight = 1 := by simpa using hs.total
  have n0 := h0 r.dists s.dists (hr.width _ (by simp)) (hs.width _ (by simp))
  refine le_antisymm ?_ ?_
  · refine (wasserstein_le (g := fun _ _ => 1) (fun i j => ?_) ⟨by simp, fun i => ?_, fun j => ?_⟩).trans (le_of_eq ?_)
    · simpa using n0
    · simp [wr]
    · simp [ws]
    · simp [planCost]
  · refine le_wasserstein hr.nonneg hs.nonneg (hr.sum_eq.trans hs.sum_eq.symm) fun g hg => le_of_eq ?_
    have h1 : g ⟨0, by simp⟩ ⟨0, by simp⟩ = 1 := by
      have := hg.rows ⟨0, by simp⟩
      simpa [wr] using this
    have : planCost (fun (i : Fin [r].length) (j : Fin [s].length) => d [r][i].dists [s][j].dists) g = g ⟨0, by simp⟩ ⟨0, by simp⟩ * d r.dists s.dists := by
      simp [planCost]
    rw [this, h1, one_mul]

/-- The one row that remains is the AMD. -/
theorem inf_row {c : Crystal} (hv : c.Valid) (hpl : c.set = { motif := c.set.motif, cell := c.set.cell }) {k : ℕ} {lexsort : Bool} {t : ℝ} {F : ℕ}
    (hT : ∀ fuel ≥ F, ∀ lexsort collapse, PDDTol c.set k lexsort collapse .inf fuel = PDD c.set k lexsort collapse t fuel) {fuel fuel' : ℕ} {p : List (PRow ℝ)} {a : List ℝ}
    (hp : PDD c.set k lexsort true t fuel = .ok p) (ha : AMD c.set k fuel' = .ok a) (hw : WeightedRows k p) : ∃ r, p = [r] ∧ r.dists = a := by
  obtain ⟨hD, hn, hl, inds, mult, hu, hne, hpos, hsum⟩ := hv
  have hp' := PDD_fuel (le_max_left fuel F) hp
  obtain ⟨rows, hr, -⟩ := PDD_rows hD hu hne hp'
  obtain ⟨base, hb⟩ := PDD_ok_of hD hu hne k false false t hr
  obtain ⟨r, rfl, hwt, hlen, -⟩ := C106_inf hD hu hne ((hT _ (le_max_right _ _) lexsort true).trans hp') ((hT _ (le_max_right _ _) false false).trans hb)
  refine ⟨r, rfl, ?_⟩
  have w1 : r.weight = 1 := by simpa using hw.total
  have hne' : c.set.motif ≠ [] := by
    rintro e
    obtain ⟨i, -⟩ := List.exists_mem_of_ne_nil _ hne
    exact absurd i.2 (by simp [e])
  have h1 : pddToAmd k [r] = .ok a := by
    rw [hpl] at hp ha
    exact C17_full_motif_partial hD hne' ha hp
  rw [pddToAmd, if_neg (by simp [w1])] at h1
  rw [← Except.ok.inj h1]
  refine List.ext_getElem (by simp [hlen]) fun j h2 h3 => ?_
  simp [w1, List.getElem?_eq_getElem h2]

private theorem entry_inf {c c' : Crystal} (hv : c.Valid) (hv' : c'.Valid) (hpl : c.set = { motif := c.set.motif, cell := c.set.cell }) (hpl' : c'.set = { motif := c'.set.motif, cell := c'.set.cell })
    {k F : ℕ} {t L C : ℝ} (hT : ∀ e ∈ [c, c'], ∀ fuel ≥ F, ∀ lexsort collapse, PDDTol e.set k lexsort collapse .inf fuel = PDD e.set k lexsort collapse t fuel)
    {d : List ℝ → List ℝ → ℝ} (hd : TameMetric k L d) (hcol : (kwOr kwargs "collapse" (.bool true)).truthy = true) (hC0 : 0 ≤ C) {a b : List ℝ} {f1 : ℕ} (ha : AMD c.set k f1 = .ok a)
    (hb : AMD c'.set k f1 = .ok b) (hC : ∀ x ∈ a ++ b, x ≤ C) {f2 f3 : ℕ} {p q : List (PRow ℝ)} (hp : pddOf kwargs t c k f2 = .ok p) (hq : pddOf kwargs t c' k f2 = .ok q) {x : ℝ}
    {plan : List (List ℝ)} (hx : emd d p q f3 = .ok (x, plan)) : |x - d a b| ≤ emdTol 1 (L * C) := by
  have row : ∀ {e : Crystal}, e ∈ [c, c'] → e.Valid → e.set = { motif := e.set.motif, cell := e.set.cell } → ∀ {a : List ℝ}, AMD e.set k f1 = .ok a → ∀ {f : ℕ} {p : List (PRow ℝ)},
      pddOf kwargs t e k f = .ok p → ∃ r, p = [r] ∧ r.dists = a := by
    intro e he hv hpl a ha f p hp
    have hw := (pddOf_rows hv hp).1
    unfold pddOf at hp
    rw [hcol] at hp
    exact inf_row hv hpl (hT e he) hp ha hw
  have within : ∀ {e : Crystal}, e ∈ [c, c'] → e.Valid → e.set = { motif := e.set.motif, cell := e.set.cell } → ∀ {a : List ℝ}, AMD e.set k f1 = .ok a → (∀ x ∈ a, x ≤ C) →
      PddWithin kwargs t k 1 C e := by
    intro e he hv hpl a ha hC f p hp
    obtain ⟨r, rfl, rfl⟩ := row he hv hpl ha hp
    exact ⟨by simp, fun s hs x hx => by obtain rfl := List.mem_singleton.1 hs; exact hC x hx⟩
  have h1 := pdds_near hv hv' hd hC0 (within (by simp) hv hpl ha fun x hx => hC x (by simp [hx])) (within (by simp) hv' hpl' hb fun x hx => hC x (by simp [hx])) hp hq hx
  have w1 := (pddOf_rows hv hp).1
  have w2 := (pddOf_rows hv' hq).1
  obtain ⟨r, rfl, rfl⟩ := row (by simp) hv hpl ha hp
  obtain ⟨s, rfl, rfl⟩ := row (by simp) hv' hpl' hb hq
  rw [exactEmd_single hd.nonneg w1 w2] at h1
  exact h1.2

/-- The crystal has no asymmetric unit: all motif points are used. -/
def Crystal.Plain (c : Crystal) : Prop := c.set = { motif := c.set.motif, cell := c.set.cell }

/-- **C111** For crystals without an asymmetric unit comparing by PDD with the tolerance `inf` is comparing by AMD, up to the rounding of costs in `EMD`. Two collections. -/
theorem C111_amd_two {args' : CompareArgs} {jnp : Input} (hs : env.sched.Complete) (hv : ∀ c ∈ cs ++ cs', c.Valid) (hpl : ∀ c ∈ cs ++ cs', c.Plain) (hk : args'.k = args.k)
    (hby : upper args.by_ = "AMD") (hby' : upper args'.by_ = "PDD") (hn : args.nNeighbors = none) (hn' : args'.nNeighbors = none) {metric : MetricArg ℝ} {tol : ℝ} (ho : PddOptions kwargs tol metric)
    (hcol : (kwOr kwargs "collapse" (.bool true)).truthy = true) (hlow : (kwOr kwargs "low_memory" (.bool false)).truthy = false) {L C : ℝ} (hd : TameMetric args.k L (metric.dist env.other))
    (hg : getCrystals env args.csdRefcodes (routeKwargs args.verbose kwargs) inp = .ok cs) (hg' : getCrystals env args.csdRefcodes (routeKwargs args.verbose kwargs) jnp = .ok cs')
    (hp : getCrystals env args'.csdRefcodes (routeKwargs args'.verbose kwargs) inp = .ok cs) (hp' : getCrystals env args'.csdRefcodes (routeKwargs args'.verbose kwargs) jnp = .ok cs')
    (hne : cs ≠ []) (hC0 : 0 ≤ C) (hC : ∀ c ∈ cs ++ cs', ∀ fuel a, AMD c.set args.k fuel = .ok a → ∀ x ∈ a, x ≤ C) :
    ∃ (M N : List (List ℝ)) (f g : ℕ → ℕ → ℝ) (F : ℕ), IsMatrix cs.length cs'.length f M ∧ IsMatrix cs.length cs'.length g N ∧ (∀ fuel ≥ F,
      compare env inp (some jnp) args kwargs fuel = .ok (.matrix (cs.map Crystal.name) (cs'.map Crystal.name) M) ∧
      compareTol env inp (some jnp) args' .inf kwargs fuel = .ok (.matrix (cs.map Crystal.name) (cs'.map Crystal.name) N)) ∧
      ∀ i < cs.length, ∀ j < cs'.length, |g i j - f i j| ≤ emdTol 1 (L * C) := by
  have hv1 : ∀ c ∈ cs, c.Valid := fun c hc => hv c (by simp [hc])
  have hv2 : ∀ c ∈ cs', c.Valid := fun c hc => hv c (by simp [hc])
  obtain ⟨T1, F1, hT1⟩ := PDDTol_inf_all hv args.k
  obtain ⟨T2, F2, hT2⟩ := C111_inf (env := env) (inp := inp) (inp' := some jnp) (args := args') (kwargs := kwargs) (by
    intro i hi ds hds
    rcases List.mem_cons.1 hi with rfl | hi
    · rw [hp] at hds; obtain rfl := Except.ok.inj hds; exact hv1
    · rw [show i = jnp by simpa using hi, hp'] at hds; obtain rfl := Except.ok.inj hds; exact hv2)
  have ho' : PddOptions (("collapse_tol", .float (max T1 T2)) :: kwargs) (max T1 T2) metric := ⟨rfl, ho.metric, ho.jobs, ho.backend⟩
  obtain ⟨a, b, M, F3, hM, h3⟩ := compare_amd_metric_two hv1 hv2 hby hn ho.metric hlow hg hg'
  obtain ⟨p, q, d, N, F4, hN, h4⟩ := C37_pdd_two hs hv1 hv2 hby' hn' ho' (by rw [hk]; exact hd.nonneg) hp hne hp'
  refine ⟨M, N, _, d, max F2 (max F3 F4), hM, hN, fun fuel hf => ⟨(h3 fuel (by omega)).2.2, ?_⟩, fun i hi j hj => ?_⟩
  · rw [hT2 _ (le_max_right _ _) fuel (by omega)]
    exact (h4 fuel (by omega)).2.2.2
  · obtain ⟨a1, a2, -⟩ := h3 F3 le_rfl
    obtain ⟨b1, b2, b3, -⟩ := h4 F4 le_rfl
    rw [hk] at b1 b2
    obtain ⟨plan, hx⟩ := b3 i j hi hj
    refine entry_inf (kwargs := ("collapse_tol", .float (max T1 T2)) :: kwargs) (hv1 _ (List.getElem_mem hi)) (hv2 _ (List.getElem_mem hj)) (hpl _ (by simp)) (hpl _ (by simp)) (F := F1)
      (t := max T1 T2) ?_ hd hcol hC0 (a1 i hi) (a2 j hj) ?_ (b1 i hi) (b2 j hj) hx
    · intro e he
      refine hT1 e ?_ _ (le_max_left _ _)
      rcases List.mem_cons.1 he with rfl | he
      · simp
      · rw [List.mem_singleton.1 he]; simp
    · intro x hx
      rcases List.mem_append.1 hx with hx | hx
      · exact hC _ (by simp) _ _ (a1 i hi) x hx
      · exact hC _ (by simp) _ _ (a2 j hj) x hx

/-- **C111** The same for one collection. -/
theorem C111_amd_one {args' : CompareArgs} (hs : env.sched.Complete) (hv : ∀ c ∈ cs, c.Valid) (hpl : ∀ c ∈ cs, c.Plain) (hk : args'.k = args.k)
    (hby : upper args.by_ = "AMD") (hby' : upper args'.by_ = "PDD") (hn : args.nNeighbors = none) (hn' : args'.nNeighbors = none) {metric : MetricArg ℝ} {tol : ℝ} (ho : PddOptions kwargs tol metric)
    (hcol : (kwOr kwargs "collapse" (.bool true)).truthy = true) (hlow : (kwOr kwargs "low_memory" (.bool false)).truthy = false) {L C : ℝ} (hd : TameMetric args.k L (metric.dist env.other))
    (hg : getCrystals env args.csdRefcodes (routeKwargs args.verbose kwargs) inp = .ok cs) (hp : getCrystals env args'.csdRefcodes (routeKwargs args'.verbose kwargs) inp = .ok cs)
    (hne : cs ≠ []) (hC0 : 0 ≤ C) (hC : ∀ c ∈ cs, ∀ fuel a, AMD c.set args.k fuel = .ok a → ∀ x ∈ a, x ≤ C) :
    ∃ (M N : List (List ℝ)) (f g : ℕ → ℕ → ℝ) (F : ℕ), IsMatrix cs.length cs.length f M ∧ IsMatrix cs.length cs.length g N ∧ (∀ fuel ≥ F,
      compare env inp none args kwargs fuel = .ok (.matrix (cs.map Crystal.name) (cs.map Crystal.name) M) ∧
      compareTol env inp none args' .inf kwargs fuel = .ok (.matrix (cs.map Crystal.name) (cs.map Crystal.name) N)) ∧
      ∀ i < cs.length, ∀ j < cs.length, |g i j - f i j| ≤ emdTol 1 (L * C) := by
  obtain ⟨T1, F1, hT1⟩ := PDDTol_inf_all hv args.k
  obtain ⟨T2, F2, hT2⟩ := C111_inf (env := env) (inp := inp) (inp' := none) (args := args') (kwargs := kwargs) (by
    intro i hi ds hds
    rw [show i = inp by simpa using hi, hp] at hds; obtain rfl := Except.ok.inj hds; exact hv)
  have ho' : PddOptions (("collapse_tol", .float (max T1 T2)) :: kwargs) (max T1 T2) metric := ⟨rfl, ho.metric, ho.jobs, ho.backend⟩
  obtain ⟨a, M, F3, hM, h3⟩ := C37_amd_metric hv hby hn ho.metric hlow hg hne
  obtain ⟨p, d, N, F4, hN, h4⟩ := C37_pdd hs hv hby' hn' ho' (by rw [hk]; exact hd.nonneg) hp hne
  refine ⟨M, N, _, _, max F2 (max F3 F4), hM, hN, fun fuel hf => ⟨(h3 fuel (by omega)).2, ?_⟩, fun i hi j hj => ?_⟩
  · rw [hT2 _ (le_max_right _ _) fuel (by omega)]
    exact (h4 fuel (by omega)).2.2
  · obtain ⟨a1, -⟩ := h3 F3 le_rfl
    obtain ⟨b1, b3, -⟩ := h4 F4 le_rfl
    rw [hk] at b1
    have lt : ∀ i j, i < j → j < cs.length → |d i j - metric.dist env.other (a i) (a j)| ≤ emdTol 1 (L * C) := by
      intro i j hij hj
      have hi : i < cs.length := by omega
      obtain ⟨plan, hx⟩ := b3 i j hij hj
      refine entry_inf (kwargs := ("collapse_tol", .float (max T1 T2)) :: kwargs) (hv _ (List.getElem_mem hi)) (hv _ (List.getElem_mem hj)) (hpl _ (by simp)) (hpl _ (by simp)) (F := F1)
        (t := max T1 T2) ?_ hd hcol hC0 (a1 i hi) (a1 j hj) ?_ (b1 i hi) (b1 j hj) hx
      · intro e he
        refine hT1 e ?_ _ (le_max_left _ _)
        rcases List.mem_cons.1 he with rfl | he
        · simp
        · rw [List.mem_singleton.1 he]; simp
      · intro x hx
        rcases List.mem_append.1 hx with hx | hx
        · exact hC _ (by simp) _ _ (a1 i hi) x hx
        · exact hC _ (by simp) _ _ (a1 j hj) x hx
    rcases lt_trichotomy i j with hij | rfl | hij
    · simp only [if_neg hij.ne, min_eq_left hij.le, max_eq_right hij.le]
      exact lt i j hij hj
    · simp only [if_true, sub_zero, abs_zero]
      have h3 := hd.const
      unfold emdTol
      positivity
    · simp only [if_neg hij.ne', min_eq_right hij.le, max_eq_left hij.le]
      exact lt j i hij hi

end Amd
