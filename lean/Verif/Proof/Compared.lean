import Verif.Proof.CifInputs
import Verif.Props.WrittenExample

/-! From crystals that are read to the result of `compare`, for any notion of a description of a crystal. -/

namespace Amd

open Classical

/-- A notion of descriptions of crystals, with their invariants, and of the sets that are right for a description. -/
structure Notion (δ : Type) where
  name : δ → String
  size : δ → ℕ
  edge : δ → ℝ
  Proper : δ → Prop
  IsAMD : δ → ℕ → List ℝ → Prop
  IsPDD : δ → ℕ → List (PRow ℝ) → Prop
  Same : δ → δ → Prop
  Facts : δ → PeriodicSet 3 → Prop

/-- What the comparison uses. -/
structure Notion.Lawful {δ : Type} (N : Notion δ) : Prop where
  small : ∀ {e S}, N.Proper e → N.Facts e S → ∀ n, (⟨n, 3, S⟩ : Crystal).Valid
  reads : ∀ {e}, N.Proper e → ∃ S, N.Facts e S
  exists_amd : ∀ {e S}, N.Facts e S → ∀ k, ∃ a, N.IsAMD e k a
  exists_pdd : ∀ {e S}, N.Proper e → N.Facts e S → ∀ k, ∃ p, N.IsPDD e k p
  amd : ∀ {e S k fuel a b}, N.Facts e S → Searchable S.motif S.cell (k + 1) → AMD S k fuel = .ok a → N.IsAMD e k b → a = b
  pdd : ∀ {e S k lexsort collapse tol fuel p q}, N.Proper e → N.Facts e S → Searchable S.motif S.cell (k + 1) → 0 ≤ tol → PDD S k lexsort collapse tol fuel = .ok p →
    N.IsPDD e k q → WeightedRows k p ∧ exactEmd chebyshev p q ≤ collapseError collapse tol
  amd_length : ∀ {e k a}, N.IsAMD e k a → a.length = k
  weighted : ∀ {e k p}, N.IsPDD e k p → WeightedRows k p
  same_amd : ∀ {e e' S S' k a a'}, N.Facts e S → N.Facts e' S' → N.Same e e' → N.IsAMD e k a → N.IsAMD e' k a' → a = a'
  same_pdd : ∀ {e e' S S' k p p'}, N.Proper e → N.Proper e' → N.Facts e S → N.Facts e' S' → N.Same e e' → N.IsPDD e k p → N.IsPDD e' k p' → ∀ x, weightAt p x = weightAt p' x
  refl : ∀ {e S}, N.Facts e S → N.Same e e
  edge : ∀ {e S}, N.Facts e S → eucl (S.cell 0) 0 = N.edge e ∧ 0 ≤ N.edge e
  range : ∀ {e S k lexsort collapse tol fuel p}, N.Proper e → N.Facts e S → Searchable S.motif S.cell (k + 1) → PDD S k lexsort collapse tol fuel = .ok p →
    p.length ≤ N.size e ∧ ∀ r ∈ p, ∀ y ∈ r.dists, 0 ≤ y ∧ y ≤ k * eucl (S.cell 0) 0

variable {δ : Type} {N : Notion δ} {w : World} {env : Env} {kwargs : Kwargs} {args : CompareArgs} {inp inp' : Input} {ds ds' : List δ} {e e' : δ} {cs cs' : List Crystal}

/-- The crystal is right for the description. -/
def Notion.Reads (N : Notion δ) (e : δ) (x : Crystal) : Prop := ∃ S, x = ⟨N.name e, 3, S⟩ ∧ N.Facts e S

/-- The search for the neighbours of the points of what is read is complete. -/
def Notion.Good (N : Notion δ) (k : ℕ) (e : δ) : Prop := ∀ S, N.Facts e S → Searchable S.motif S.cell (k + 1)

/-- Entry `x` of the matrix is right for `e` and `e'`. -/
def Notion.RightAmd (N : Notion δ) (k : ℕ) (e e' : δ) (x : ℝ) : Prop :=
  (∀ a b, N.IsAMD e k a → N.IsAMD e' k b → x = chebyshev a b) ∧ (N.Same e e' → x = 0)

/-- What is allowed between an entry and the exact distance. -/
noncomputable def Notion.slack (N : Notion δ) (collapse : Bool) (tol : ℝ) (k : ℕ) (e e' : δ) : ℝ :=
  (if collapse then 4 * tol else 0) + emdTol (max (N.size e) (N.size e')) (k * max (N.edge e) (N.edge e'))

/-- Entry `x` is right for `e` and `e'`. -/
def Notion.RightPdd (N : Notion δ) (k : ℕ) (slack : ℝ) (e e' : δ) (x : ℝ) : Prop :=
  (∀ p q, N.IsPDD e k p → N.IsPDD e' k q → |x - exactEmd chebyshev p q| ≤ slack) ∧ (N.Same e e' → 0 ≤ x ∧ x ≤ slack)

/-- The argument gives these crystals. -/
structure Notion.Gives (N : Notion δ) (env : Env) (args : CompareArgs) (kwargs : Kwargs) (inp : Input) (ds : List δ) (cs : List Crystal) : Prop where
  reads : List.Forall₂ N.Reads ds cs
  some : cs ≠ [] → getCrystals env args.csdRefcodes (routeKwargs args.verbose kwargs) inp = .ok cs
  none : cs = [] → getCrystals env args.csdRefcodes (routeKwargs args.verbose kwargs) inp = .error (.run .value)

theorem good_many (h : ∀ e ∈ ds, ∃ k₀, ∀ k ≥ k₀, N.Good k e) : ∃ k₀, ∀ k ≥ k₀, ∀ e ∈ ds, N.Good k e := by
  induction ds with
  | nil => exact ⟨0, by simp⟩
  | cons e l ih =>
    obtain ⟨k₁, h₁⟩ := ih fun e he => h e (by simp [he])
    obtain ⟨k₂, h₂⟩ := h e (by simp)
    refine ⟨max k₁ k₂, fun k hk x hx => ?_⟩
    rcases List.mem_cons.1 hx with rfl | hx
    · exact h₂ k (by omega)
    · exact h₁ k (by omega) x hx

/-- What is known about the crystals that are read. -/
theorem Notion.Lawful.facts (hN : N.Lawful) (hk : ∀ c ∈ ds, N.Proper c) (h : List.Forall₂ N.Reads ds cs) :
    cs.length = ds.length ∧ cs.map Crystal.name = ds.map N.name ∧ ∀ c ∈ cs, c.Valid := by
  induction h with
  | nil => exact ⟨rfl, rfl, by simp⟩
  | cons hc h ih =>
    rename_i e c l cs
    obtain ⟨h1, h2, h3⟩ := ih fun e he => hk e (by simp [he])
    have hs := hk e (by simp)
    obtain ⟨S, rfl, hS⟩ := hc
    refine ⟨by simp [h1], by rw [List.map_cons, List.map_cons, h2], ?_⟩
    intro c hc
    rcases List.mem_cons.1 hc with rfl | hc
    · exact hN.small hs hS _
    · exact h3 c hc

theorem Notion.Lawful.amd_unique (hN : N.Lawful) (he : N.Proper e) (k : ℕ) : ∃! a, N.IsAMD e k a := by
  obtain ⟨S, hS⟩ := hN.reads he
  obtain ⟨a, ha⟩ := hN.exists_amd hS k
  exact ⟨a, ha, fun b hb => (hN.same_amd hS hS (hN.refl hS) ha hb).symm⟩

theorem Notion.Lawful.pdd_unique (hN : N.Lawful) (he : N.Proper e) (k : ℕ) :
    (∃ p, N.IsPDD e k p) ∧ ∀ p q, N.IsPDD e k p → N.IsPDD e k q → ∀ x, weightAt p x = weightAt q x := by
  obtain ⟨S, hS⟩ := hN.reads he
  exact ⟨hN.exists_pdd he hS k, fun p q hp hq x => hN.same_pdd he he hS hS (hN.refl hS) hp hq x⟩

/-! ### AMD -/

theorem Notion.Lawful.rightAmd (hN : N.Lawful) {k : ℕ} {c c' : Crystal} (hc : N.Reads e c) (hc' : N.Reads e' c') (hg : N.Good k e) (hg' : N.Good k e') {fuel fuel' : ℕ}
    {a a' : List ℝ} (ha : AMD c.set k fuel = .ok a) (ha' : AMD c'.set k fuel' = .ok a') : N.RightAmd k e e' (chebyshev a a') := by
  obtain ⟨S, rfl, hS⟩ := hc
  obtain ⟨S', rfl, hS'⟩ := hc'
  have hs := hg _ hS
  have hs' := hg' _ hS'
  refine ⟨fun x y hx hy => by rw [hN.amd hS hs ha hx, hN.amd hS' hs' ha' hy], fun hsame => ?_⟩
  obtain ⟨x, hx⟩ := hN.exists_amd hS k
  obtain ⟨y, hy⟩ := hN.exists_amd hS' k
  rw [hN.amd hS hs ha hx, hN.amd hS' hs' ha' hy, hN.same_amd hS hS' hsame hx hy]
  exact (EMD_default_metric k).self _ (hN.amd_length hy)

theorem Notion.Lawful.amd_two (hN : N.Lawful) (hby : upper args.by_ = "AMD") (hnn : args.nNeighbors = none) (hk : 0 < args.k)
    (hm : kwOr kwargs "metric" (.str "chebyshev") = .str "chebyshev") (hi : N.Gives env args kwargs inp ds cs) (hi' : N.Gives env args kwargs inp' ds' cs')
    (he : ∀ e ∈ ds, N.Proper e) (he' : ∀ e ∈ ds', N.Proper e) (hne : ds ≠ []) (hne' : ds' ≠ []) :
    ∃ (M : List (List ℝ)) (f : ℕ → ℕ → ℝ) (F : ℕ), IsMatrix ds.length ds'.length f M ∧
      (∀ fuel ≥ F, compare env inp (some inp') args kwargs fuel = .ok (.matrix (ds.map N.name) (ds'.map N.name) M)) ∧
      ∀ i j (hi : i < ds.length) (hj : j < ds'.length), N.Good args.k ds[i] → N.Good args.k ds'[j] → N.RightAmd args.k ds[i] ds'[j] (f i j) := by
  obtain ⟨e1, e2, e3⟩ := hN.facts he hi.reads
  obtain ⟨e1', e2', e3'⟩ := hN.facts he' hi'.reads
  have hc0 : cs ≠ [] := fun h0 => hne (List.length_eq_zero_iff.1 (by rw [← e1, h0]; rfl))
  have hc0' : cs' ≠ [] := fun h0 => hne' (List.length_eq_zero_iff.1 (by rw [← e1', h0]; rfl))
  obtain ⟨a, b, M, F, hM, hF⟩ := C37_amd_two e3 e3' hk hby hnn hm (hi.some hc0) (hi'.some hc0')
  rw [e1, e1'] at hM
  have hr := List.forall₂_iff_get.1 hi.reads
  have hr' := List.forall₂_iff_get.1 hi'.reads
  refine ⟨M, _, F, hM, fun fuel hf => by rw [(hF fuel hf).2.2, e2, e2'], fun i j hi hj hg hg' => ?_⟩
  obtain ⟨ha, hb, -⟩ := hF F le_rfl
  exact hN.rightAmd (hr.2 i hi (by omega)) (hr'.2 j hj (by omega)) hg hg' (ha i (by omega)) (hb j (by omega))

theorem Notion.Lawful.amd_one (hN : N.Lawful) (hby : upper args.by_ = "AMD") (hnn : args.nNeighbors = none) (hk : 0 < args.k)
    (hm : kwOr kwargs "metric" (.str "chebyshev") = .str "chebyshev") (hi : N.Gives env args kwargs inp ds cs) (he : ∀ e ∈ ds, N.Proper e) (hne : ds ≠ []) :
    ∃ (M : List (List ℝ)) (f : ℕ → ℕ → ℝ) (F : ℕ), IsMatrix ds.length ds.length f M ∧
      (∀ fuel ≥ F, compare env inp none args kwargs fuel = .ok (.matrix (ds.map N.name) (ds.map N.name) M)) ∧
      ∀ i j (hi : i < ds.length) (hj : j < ds.length), N.Good args.k ds[i] → N.Good args.k ds[j] → N.RightAmd args.k ds[i] ds[j] (f i j) := by
  obtain ⟨e1, e2, e3⟩ := hN.facts he hi.reads
  have hc0 : cs ≠ [] := fun h0 => hne (List.length_eq_zero_iff.1 (by rw [← e1, h0]; rfl))
  obtain ⟨a, M, F, hM, hF⟩ := C37_amd e3 hk hby hnn hm (hi.some hc0) hc0
  rw [e1] at hM
  have hr := List.forall₂_iff_get.1 hi.reads
  refine ⟨M, _, F, hM, fun fuel hf => by rw [(hF fuel hf).2, e2], fun i j hi hj hg hg' => ?_⟩
  obtain ⟨ha, -⟩ := hF F le_rfl
  exact hN.rightAmd (hr.2 i hi (by omega)) (hr.2 j hj (by omega)) hg hg' (ha i (by omega)) (ha j (by omega))

theorem Notion.Gives.raises (hi : N.Gives env args kwargs inp [] cs) (hby : upper args.by_ = "AMD" ∨ upper args.by_ = "PDD") (crystals_ : Option Input) (fuel : ℕ) :
    compare env inp crystals_ args kwargs fuel = .error (.run .value) := by
  have hr := hi.reads
  cases hr
  exact (C37_raises_input (cs := []) (inp' := inp) hby fuel).1 (hi.none rfl) crystals_

/-! ### PDD -/

theorem emdTol_mono {m n : ℕ} (h : m ≤ n) {C : ℝ} (hC : 0 ≤ C) : emdTol m C ≤ emdTol n C := by
  unfold emdTol
  have : (m : ℝ) ≤ n := by exact_mod_cast h
  apply div_le_div_of_nonneg_right _ (by norm_num)
  nlinarith

theorem Notion.Lawful.rightPdd_of_first (hN : N.Lawful) {k : ℕ} (he : N.Proper e) (he' : N.Proper e') {x s : ℝ} (h0 : 0 ≤ x)
    (first : ∀ p q, N.IsPDD e k p → N.IsPDD e' k q → |x - exactEmd chebyshev p q| ≤ s) : N.RightPdd k s e e' x := by
  refine ⟨first, fun hsame => ⟨h0, ?_⟩⟩
  obtain ⟨S, hS⟩ := hN.reads he
  obtain ⟨S', hS'⟩ := hN.reads he'
  obtain ⟨q, hq⟩ := hN.exists_pdd he hS k
  obtain ⟨q', hq'⟩ := hN.exists_pdd he' hS' k
  have h1 := first q q' hq hq'
  rw [exactEmd_zero (EMD_default_metric k) (hN.weighted hq) (hN.weighted hq') (hN.same_pdd he he' hS hS' hsame hq hq'), sub_zero] at h1
  exact (le_abs_self x).trans h1

theorem Notion.Lawful.rightPdd (hN : N.Lawful) {k : ℕ} {c c' : Crystal} {tol : ℝ} (htol : 0 ≤ tol) (he : N.Proper e) (he' : N.Proper e')
    (hc : N.Reads e c) (hc' : N.Reads e' c') (hg : N.Good k e) (hg' : N.Good k e') {fuel fuel' fuel'' : ℕ} {p p' : List (PRow ℝ)}
    (hp : pddOf kwargs tol c k fuel = .ok p) (hp' : pddOf kwargs tol c' k fuel' = .ok p') {x : ℝ} {plan : List (List ℝ)} (hx : emd chebyshev p p' fuel'' = .ok (x, plan)) :
    0 ≤ x ∧ N.RightPdd k (N.slack (kwOr kwargs "collapse" (.bool true)).truthy tol k e e') e e' x := by
  obtain ⟨S, rfl, hS⟩ := hc
  obtain ⟨S', rfl, hS'⟩ := hc'
  have hs := hg _ hS
  have hs' := hg' _ hS'
  have hw : ∀ q, N.IsPDD e k q → _ := fun q hq => hN.pdd he hS hs htol hp hq
  have hw' : ∀ q, N.IsPDD e' k q → _ := fun q hq => hN.pdd he' hS' hs' htol hp' hq
  obtain ⟨q, hq⟩ := hN.exists_pdd he hS k
  obtain ⟨q', hq'⟩ := hN.exists_pdd he' hS' k
  have w1 := (hw q hq).1
  have w1' := (hw' q' hq').1
  have met := EMD_default_metric k
  have h0 := C29_nonneg w1 w1' met.nonneg hx
  refine ⟨h0, hN.rightPdd_of_first he he' h0 ?_⟩
  intro q q' hq hq'
  obtain ⟨-, n1⟩ := hw q hq
  obtain ⟨-, n1'⟩ := hw' q' hq'
  have w2 := hN.weighted hq
  have w2' := hN.weighted hq'
  obtain ⟨l1, r1⟩ := hN.range he hS hs hp
  obtain ⟨l1', r1'⟩ := hN.range he' hS' hs' hp'
  obtain ⟨a1, a2⟩ := hN.edge hS
  obtain ⟨a1', a2'⟩ := hN.edge hS'
  have hk : (0 : ℝ) ≤ k := Nat.cast_nonneg k
  have hB : 0 ≤ (k : ℝ) * max (N.edge e) (N.edge e') := mul_nonneg hk (a2.trans (le_max_left _ _))
  have near := emd_near w1 w1' met.nonneg (C := k * max (N.edge e) (N.edge e')) (fun r hr s hs => chebyshev_range hB (w1.width r hr) (w1'.width s hs)
    (fun y hy => ⟨(r1 r hr y hy).1, (r1 r hr y hy).2.trans (by rw [a1]; exact mul_le_mul_of_nonneg_left (le_max_left _ _) hk)⟩)
    (fun y hy => ⟨(r1' s hs y hy).1, (r1' s hs y hy).2.trans (by rw [a1']; exact mul_le_mul_of_nonneg_left (le_max_right _ _) hk)⟩)) hx
  have mono := emdTol_mono (max_le_max l1 l1') hB
  have t1 := exactEmd_triangle met w1 w2 w1'
  have t2 := exactEmd_triangle met w2 w2' w1'
  have t3 := exactEmd_triangle met w2 w1 w2'
  have t4 := exactEmd_triangle met w1 w1' w2'
  rw [exactEmd_symm met w1' w2'] at t2
  rw [exactEmd_symm met w1 w2] at t3
  have e0 : N.slack (kwOr kwargs "collapse" (.bool true)).truthy tol k e e' = 2 * collapseError (kwOr kwargs "collapse" (.bool true)).truthy tol +
      emdTol (max (N.size e) (N.size e')) (k * max (N.edge e) (N.edge e')) := by
    rw [Notion.slack, collapseError]
    split_ifs <;> ring
  rw [e0]
  rw [abs_le] at near ⊢
  constructor <;> linarith [near.1, near.2]

theorem Notion.slack_symm (collapse : Bool) (tol : ℝ) (k : ℕ) (e e' : δ) : N.slack collapse tol k e e' = N.slack collapse tol k e' e := by
  unfold Notion.slack
  rw [max_comm (N.size e), max_comm (N.edge e)]

theorem Notion.slack_nonneg {collapse : Bool} {tol : ℝ} (htol : 0 ≤ tol) (k : ℕ) (e e' : δ) (ha : 0 ≤ N.edge e) : 0 ≤ N.slack collapse tol k e e' := by
  unfold Notion.slack emdTol
  have hm : 0 ≤ max (N.edge e) (N.edge e') := ha.trans (le_max_left _ _)
  have : 0 ≤ (1 + 7 * (max (N.size e) (N.size e') : ℕ) * ((k : ℝ) * max (N.edge e) (N.edge e'))) / 100000000 := by positivity
  split_ifs <;> linarith

theorem Notion.Lawful.pdd_two (hN : N.Lawful) (hs : env.sched.Complete) (hby : upper args.by_ = "PDD") (hnn : args.nNeighbors = none) {tol : ℝ} (htol : 0 ≤ tol)
    (ho : PddOptions kwargs tol (.named "chebyshev")) (hi : N.Gives env args kwargs inp ds cs) (hi' : N.Gives env args kwargs inp' ds' cs') (he : ∀ e ∈ ds, N.Proper e)
    (he' : ∀ e ∈ ds', N.Proper e) (hne : ds ≠ []) (hne' : ds' ≠ []) {collapse : Bool} (hcol : (kwOr kwargs "collapse" (.bool true)).truthy = collapse) :
    ∃ (M : List (List ℝ)) (f : ℕ → ℕ → ℝ) (F : ℕ), IsMatrix ds.length ds'.length f M ∧
      (∀ fuel ≥ F, compare env inp (some inp') args kwargs fuel = .ok (.matrix (ds.map N.name) (ds'.map N.name) M)) ∧
      ∀ i j (hi : i < ds.length) (hj : j < ds'.length), N.Good args.k ds[i] → N.Good args.k ds'[j] →
        N.RightPdd args.k (N.slack collapse tol args.k ds[i] ds'[j]) ds[i] ds'[j] (f i j) := by
  subst hcol
  obtain ⟨e1, e2, e3⟩ := hN.facts he hi.reads
  obtain ⟨e1', e2', e3'⟩ := hN.facts he' hi'.reads
  have hc0 : cs ≠ [] := fun h0 => hne (List.length_eq_zero_iff.1 (by rw [← e1, h0]; rfl))
  have hc0' : cs' ≠ [] := fun h0 => hne' (List.length_eq_zero_iff.1 (by rw [← e1', h0]; rfl))
  obtain ⟨p, q, x, M, F, hM, hF⟩ := C37_pdd_two hs e3 e3' hby hnn ho (EMD_default_metric args.k).nonneg (hi.some hc0) hc0 (hi'.some hc0')
  rw [e1, e1'] at hM
  have hr := List.forall₂_iff_get.1 hi.reads
  have hr' := List.forall₂_iff_get.1 hi'.reads
  refine ⟨M, x, F, hM, fun fuel hf => by rw [(hF fuel hf).2.2.2, e2, e2'], fun i j hi hj hg hg' => ?_⟩
  obtain ⟨hp, hq, hx, -⟩ := hF F le_rfl
  obtain ⟨plan, hx⟩ := hx i j (by omega) (by omega)
  exact (hN.rightPdd htol (he _ (List.getElem_mem hi)) (he' _ (List.getElem_mem hj)) (hr.2 i hi (by omega)) (hr'.2 j hj (by omega)) hg hg' (hp i (by omega))
    (hq j (by omega)) hx).2

theorem Notion.Lawful.pdd_one (hN : N.Lawful) (hs : env.sched.Complete) (hby : upper args.by_ = "PDD") (hnn : args.nNeighbors = none) {tol : ℝ} (htol : 0 ≤ tol)
    (ho : PddOptions kwargs tol (.named "chebyshev")) (hi : N.Gives env args kwargs inp ds cs) (he : ∀ e ∈ ds, N.Proper e) (hne : ds ≠ [])
    {collapse : Bool} (hcol : (kwOr kwargs "collapse" (.bool true)).truthy = collapse) :
    ∃ (M : List (List ℝ)) (f : ℕ → ℕ → ℝ) (F : ℕ), IsMatrix ds.length ds.length f M ∧
      (∀ fuel ≥ F, compare env inp none args kwargs fuel = .ok (.matrix (ds.map N.name) (ds.map N.name) M)) ∧
      ∀ i j (hi : i < ds.length) (hj : j < ds.length), N.Good args.k ds[i] → N.Good args.k ds[j] →
        N.RightPdd args.k (N.slack collapse tol args.k ds[i] ds[j]) ds[i] ds[j] (f i j) := by
  subst hcol
  obtain ⟨e1, e2, e3⟩ := hN.facts he hi.reads
  have hc0 : cs ≠ [] := fun h0 => hne (List.length_eq_zero_iff.1 (by rw [← e1, h0]; rfl))
  obtain ⟨p, x, M, F, hM, hF⟩ := C37_pdd hs e3 hby hnn ho (EMD_default_metric args.k).nonneg (hi.some hc0) hc0
  rw [e1] at hM
  have hr := List.forall₂_iff_get.1 hi.reads
  refine ⟨M, _, F, hM, fun fuel hf => by rw [(hF fuel hf).2.2, e2], fun i j hi hj hg hg' => ?_⟩
  obtain ⟨hp, hx, -⟩ := hF F le_rfl
  have lt : ∀ i j (hi : i < ds.length) (hj : j < ds.length), i < j → N.Good args.k ds[i] → N.Good args.k ds[j] → 0 ≤ x i j ∧
      N.RightPdd args.k (N.slack (kwOr kwargs "collapse" (.bool true)).truthy tol args.k ds[i] ds[j]) ds[i] ds[j] (x i j) := by
    intro i j hi hj hij hg hg'
    obtain ⟨plan, hx⟩ := hx i j hij (by omega)
    exact hN.rightPdd htol (he _ (List.getElem_mem hi)) (he _ (List.getElem_mem hj)) (hr.2 i hi (by omega)) (hr.2 j hj (by omega)) hg hg' (hp i (by omega)) (hp j (by omega)) hx
  rcases lt_trichotomy i j with hij | rfl | hij
  · rw [if_neg hij.ne, min_eq_left hij.le, max_eq_right hij.le]
    exact (lt i j hi hj hij hg hg').2
  · rw [if_pos rfl]
    have hs := he _ (List.getElem_mem hi)
    obtain ⟨S, eS, hS⟩ := hr.2 i hi (by omega)
    refine hN.rightPdd_of_first hs hs le_rfl fun p q hp hq => ?_
    rw [exactEmd_zero (EMD_default_metric args.k) (hN.weighted hp) (hN.weighted hq) ((hN.pdd_unique hs _).2 p q hp hq), sub_zero, abs_zero]
    exact Notion.slack_nonneg htol _ _ _ (hN.edge hS).2
  · rw [if_neg hij.ne', min_eq_right hij.le, max_eq_left hij.le, Notion.slack_symm]
    obtain ⟨h0, hR⟩ := lt j i hj hi hij hg' hg
    refine hN.rightPdd_of_first (he _ (List.getElem_mem hi)) (he _ (List.getElem_mem hj)) h0 fun p q hp hq => ?_
    rw [exactEmd_symm (EMD_default_metric args.k) (hN.weighted hq) (hN.weighted hp)]
    exact hR.1 q p hq hp

end Amd
