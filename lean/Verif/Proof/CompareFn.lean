import Verif.Spec.NearestTable
import Verif.Props.Pairwise

/-! Lemmas about the model of `compare`. -/

set_option linter.unusedSectionVars false

namespace Amd

/-- What the readers produce: a crystal with linearly independent cell vectors and at least one and at most `1e8` motif points, whose asymmetric
unit, if it is given, stands for all of them. -/
def Crystal.Valid (c : Crystal) : Prop :=
  0 < c.dim ∧ NonSingular c.set.cell ∧ c.set.motif.length ≤ 100000000 ∧ ∃ (inds : List (Fin c.set.motif.length)) (mult : List ℕ),
    c.set.Units inds mult ∧ inds ≠ [] ∧ (∀ n ∈ mult, 0 < n) ∧ mult.sum = c.set.motif.length

/-- The value of a keyword argument, or the default. -/
def kwOr (kwargs : Kwargs) (key : String) (default : PyVal) : PyVal := (kwargs.lookup key).getD default

theorem amds_all {cs : List Crystal} (hv : ∀ c ∈ cs, c.Valid) (k : ℕ) : ∃ a : List (List ℝ), ∃ F, a.length = cs.length ∧ (∀ r ∈ a, r.length = k) ∧
    ∀ fuel ≥ F, allAmds cs k fuel = .ok a ∧ ∀ i (hi : i < cs.length), AMD cs[i].set k fuel = .ok (a.getD i []) := by
  induction cs with
  | nil => exact ⟨[], 0, rfl, by simp, fun _ _ => ⟨rfl, fun i hi => by simp at hi⟩⟩
  | cons c cs ih =>
    obtain ⟨a, F, h1, h2, h3⟩ := ih fun c hc => hv c (by simp [hc])
    obtain ⟨hD, hc, -, inds, mult, hu, hne, -, -⟩ := hv c (by simp)
    obtain ⟨x, _, G, hG⟩ := C10_terminates hD hu hne hc k true true 0
    refine ⟨x :: a, max F G, by simp [h1], ?_, fun fuel hf => ?_⟩
    · intro r hr
      rcases List.mem_cons.1 hr with rfl | hr
      · obtain ⟨_, _, e, _⟩ := AMD_rows hD hu hne (hG G le_rfl).1; exact e
      · exact h2 r hr
    · obtain ⟨h4, h5⟩ := h3 fuel (by omega)
      have e := (hG fuel (by omega)).1
      refine ⟨?_, fun i hi => ?_⟩
      · rw [allAmds, mapE, e]
        rw [allAmds] at h4
        simp [h4]
      · cases i with
        | zero => simpa using e
        | succ i => simpa using h5 i (by simpa using hi)

theorem pdds_all {cs : List Crystal} (hv : ∀ c ∈ cs, c.Valid) (k : ℕ) (lexsort collapse : Bool) (tol : ℝ) :
    ∃ p : List (List (PRow ℝ)), ∃ F, p.length = cs.length ∧ (∀ r ∈ p, WeightedRows k r) ∧
    ∀ fuel ≥ F, mapE (fun c : Crystal => PDD c.set k lexsort collapse tol fuel) cs = .ok p ∧
      ∀ i (hi : i < cs.length), PDD cs[i].set k lexsort collapse tol fuel = .ok (p.getD i []) := by
  induction cs with
  | nil => exact ⟨[], 0, rfl, by simp, fun _ _ => ⟨rfl, fun i hi => by simp at hi⟩⟩
  | cons c cs ih =>
    obtain ⟨a, F, h1, h2, h3⟩ := ih fun c hc => hv c (by simp [hc])
    obtain ⟨hD, hc, hl, inds, mult, hu, hne, hp, hs⟩ := hv c (by simp)
    obtain ⟨_, x, G, hG⟩ := C10_terminates hD hu hne hc k lexsort collapse tol
    refine ⟨x :: a, max F G, by simp [h1], ?_, fun fuel hf => ?_⟩
    · intro r hr
      rcases List.mem_cons.1 hr with rfl | hr
      · exact EMD_input_of_PDD hD hu hne hp hs hl (hG G le_rfl).2
      · exact h2 r hr
    · obtain ⟨h4, h5⟩ := h3 fuel (by omega)
      have e := (hG fuel (by omega)).2
      refine ⟨?_, fun i hi => ?_⟩
      · rw [mapE, e]
        simp [h4]
      · cases i with
        | zero => simpa using e
        | succ i => simpa using h5 i (by simpa using hi)

theorem matrixFrame_ok {names names_ : List String} {m n : ℕ} {d : ℕ → ℕ → ℝ} {M : List (List ℝ)} (h : IsMatrix m n d M) (hm : names.length = m)
    (hn : names_.length = n) : matrixFrame names names_ M = .ok (.matrix names names_ M) := by
  rw [matrixFrame, if_pos ⟨by rw [h.1, hm], fun r hr => by rw [h.2.1 r hr, hn]⟩]

theorem nearestFrame_ok {n : ℕ} {rows : List (NearRow ℝ)} {names names_ : List String} {cand : ℕ → ℕ → Prop} {d : ℕ → ℕ → ℝ}
    (hl : rows.length = names.length) (hc : ∀ i j, cand i j → j < names_.length)
    (h : ∀ i (hi : i < rows.length), AreNearest n (cand i) (d i) rows[i].inds ∧ rows[i].dists = rows[i].inds.map (d i)) :
    ∃ f, nearestFrame n rows names names_ = .ok f ∧ IsNearestTable n names names_ cand d f := by
  let idx : ℕ → List ℕ := fun i => if hi : i < rows.length then rows[i].inds else []
  have hidx : ∀ i (hi : i < rows.length), idx i = rows[i].inds := fun i hi => dif_pos hi
  let col : ℕ → List String × List ℝ := fun c => ((List.range names.length).map (fun i => names_.getD ((idx i).getD c 0) ""),
      (List.range names.length).map (fun i => d i ((idx i).getD c 0)))
  have key : ∀ c ∈ List.range n, nearestColumn rows names_ c = .ok (col c) := by
    intro c hcn
    rw [List.mem_range] at hcn
    have e1 : mapE (nameAt names_ c) rows = .ok ((List.range names.length).map (fun i => names_.getD ((idx i).getD c 0) "")) := by
      rw [mapE_ok_iff, forall₂_getElem]
      refine ⟨by simp [hl], fun t ht ht' => ?_⟩
      obtain ⟨⟨h1, -, h2, -⟩, -⟩ := h t ht
      have hm : c < rows[t].inds.length := by omega
      have hb := hc t _ (h2 _ (List.getElem_mem hm))
      rw [nameAt, List.getElem?_eq_getElem hm]
      simp only [Option.bind_some, List.getElem_map, List.getElem_range]
      rw [hidx t ht, List.getD_eq_getElem _ _ hm, List.getD_eq_getElem _ _ hb, List.getElem?_eq_getElem hb]
    have e2 : mapE (distAt c) rows = .ok ((List.range names.length).map (fun i => d i ((idx i).getD c 0))) := by
      rw [mapE_ok_iff, forall₂_getElem]
      refine ⟨by simp [hl], fun t ht ht' => ?_⟩
      obtain ⟨⟨h1, -, h2, -⟩, h3⟩ := h t ht
      have hm : c < rows[t].inds.length := by omega
      rw [distAt, h3, List.getElem?_map, List.getElem?_eq_getElem hm]
      simp only [Option.map_some, List.getElem_map, List.getElem_range]
      rw [hidx t ht, List.getD_eq_getElem _ _ hm]
    rw [nearestColumn, e1, e2]
    rfl
  refine ⟨.nearest names ((List.range n).map col), ?_, (List.range n).map col, idx, rfl, by simp, fun i hi => ?_, fun c hcn => ?_⟩
  · rw [nearestFrame, mapE_ok key]
    simp [hl]
  · rw [hidx i (by omega)]
    exact (h i (by omega)).1
  · rw [List.getElem?_map, List.getElem?_range hcn]
    rfl

theorem overrideKw_cons {key : String} {v : PyVal} {kwargs d : Kwargs} (h : ∀ p ∈ d, p.1 ≠ key) : overrideKw ((key, v) :: kwargs) d = overrideKw kwargs d := by
  rw [overrideKw, overrideKw]
  refine List.map_congr_left fun p hp => ?_
  rw [List.lookup_cons, beq_false_of_ne (h p hp)]

/-- `compare` once the crystals are read. -/
theorem compare_amd {env : Env} {inp : Input} {args : CompareArgs} {kwargs : Kwargs} {fuel : ℕ} {cs : List Crystal} (hby : upper args.by_ = "AMD")
    (hg : getCrystals env args.csdRefcodes (routeKwargs args.verbose kwargs) inp = .ok cs) :
    compare env inp none args kwargs fuel = compareAmd env (routeKwargs args.verbose kwargs) cs none args.k args.nNeighbors fuel ∧
    ∀ inp' cs', getCrystals env args.csdRefcodes (routeKwargs args.verbose kwargs) inp' = .ok cs' → compare env inp (some inp') args kwargs fuel =
      compareAmd env (routeKwargs args.verbose kwargs) cs (some cs') args.k args.nNeighbors fuel := by
  constructor
  · simp [compare, hby, hg, bind, Except.bind]
  · intro inp' cs' hg'
    simp [compare, hby, hg, hg', bind, Except.bind, Except.map]

/-- `compare` once the crystals are read. -/
theorem compare_pdd {env : Env} {inp : Input} {args : CompareArgs} {kwargs : Kwargs} {fuel : ℕ} {cs : List Crystal} (hby : upper args.by_ = "PDD")
    (hg : getCrystals env args.csdRefcodes (routeKwargs args.verbose kwargs) inp = .ok cs) :
    compare env inp none args kwargs fuel = comparePdd env (routeKwargs args.verbose kwargs) cs none args.k args.nNeighbors fuel ∧
    ∀ inp' cs', getCrystals env args.csdRefcodes (routeKwargs args.verbose kwargs) inp' = .ok cs' → compare env inp (some inp') args kwargs fuel =
      comparePdd env (routeKwargs args.verbose kwargs) cs (some cs') args.k args.nNeighbors fuel := by
  constructor
  · simp [compare, hby, hg, bind, Except.bind]
  · intro inp' cs' hg'
    simp [compare, hby, hg, hg', bind, Except.bind, Except.map]

end Amd
