import Verif.Spec.Tables
import Verif.Proof.Pairs

/-! Tables of nearest neighbours in terms of the matrix. -/

namespace Amd

open Classical

theorem AreNearest.congr {n : ℕ} {cand cand' : ℕ → Prop} {d d' : ℕ → ℝ} {idx : List ℕ} (h : AreNearest n cand d idx) (hc : ∀ j, cand j ↔ cand' j) (hd : ∀ j, cand j → d j = d' j) :
    AreNearest n cand' d' idx := by
  obtain ⟨h1, h2, h3, h4, h5⟩ := h
  have e : idx.map d = idx.map d' := List.map_congr_left fun j hj => hd j (h3 j hj)
  refine ⟨h1, h2, fun j hj => (hc j).1 (h3 j hj), e ▸ h4, fun j hj hji i hi => ?_⟩
  have hj := (hc j).2 hj
  rw [← hd i (h3 i hi), ← hd j hj]
  exact h5 j hj hji i hi

theorem IsNearestTable.congr {n : ℕ} {names names_ : List String} {cand cand' : ℕ → ℕ → Prop} {d d' : ℕ → ℕ → ℝ} {f : Frame} (h : IsNearestTable n names names_ cand d f)
    (hc : ∀ i < names.length, ∀ j, cand i j ↔ cand' i j) (hd : ∀ i < names.length, ∀ j, cand i j → d i j = d' i j) : IsNearestTable n names names_ cand' d' f := by
  obtain ⟨cols, idx, h1, h2, h3, h4⟩ := h
  refine ⟨cols, idx, h1, h2, fun i hi => (h3 i hi).congr (hc i hi) (hd i hi), fun c hcn => ?_⟩
  rw [h4 c hcn]
  congr 2
  refine List.map_congr_left fun i hi => ?_
  rw [List.mem_range] at hi
  obtain ⟨l, -, hm, -⟩ := h3 i hi
  refine hd i hi _ (hm _ ?_)
  rw [List.getD_eq_getElem _ _ (by omega)]
  exact List.getElem_mem _

theorem AreNearest.le {n n' : ℕ} {cand : ℕ → Prop} {d : ℕ → ℝ} {idx idx' : List ℕ} (h : AreNearest n cand d idx) (h' : AreNearest n' cand d idx') {c : ℕ} (hc : c < idx.length) (hc' : c < idx'.length) :
    d idx'[c] ≤ d idx[c] := by
  obtain ⟨h1, h2, h3, h4, -⟩ := h
  obtain ⟨g1, g2, g3, g4, g5⟩ := h'
  by_contra hlt
  push Not at hlt
  rw [List.pairwise_map, List.pairwise_iff_getElem] at h4 g4
  have hsub : idx.take (c + 1) ⊆ idx'.take c := by
    intro j hj
    obtain ⟨a, ha, rfl⟩ := List.mem_iff_getElem.1 hj
    rw [List.length_take] at ha
    rw [List.getElem_take]
    have hle : d idx[a] ≤ d idx[c] := by
      rcases Nat.lt_or_ge a c with hac | hac
      · exact h4 a c (by omega) hc hac
      · have : a = c := by omega
        subst this
        exact le_rfl
    have hmem : idx[a] ∈ idx' := by
      by_contra hn
      have := g5 _ (h3 _ (List.getElem_mem _)) hn idx'[c] (List.getElem_mem _)
      linarith
    obtain ⟨b, hb, e⟩ := List.mem_iff_getElem.1 hmem
    have hbc : b < c := by
      by_contra hbc
      have : d idx'[c] ≤ d idx'[b] := by
        rcases Nat.lt_or_ge c b with h | h
        · exact g4 c b hc' hb h
        · have : b = c := by omega
          subst this
          exact le_rfl
      rw [e] at this
      linarith
    exact List.mem_iff_getElem.2 ⟨b, by rw [List.length_take]; omega, by rw [List.getElem_take, e]⟩
  have := (List.subperm_of_subset (h2.sublist (List.take_sublist _ _)) hsub).length_le
  rw [List.length_take, List.length_take] at this
  omega

theorem IsNearestTable.distColumn {n n' : ℕ} {names names_ : List String} {cand : ℕ → ℕ → Prop} {d : ℕ → ℕ → ℝ} {f f' : Frame} (h : IsNearestTable n names names_ cand d f)
    (h' : IsNearestTable n' names names_ cand d f') {c : ℕ} (hc : c < n) (hc' : c < n') : f.distColumn c = f'.distColumn c := by
  obtain ⟨cols, idx, rfl, h2, h3, h4⟩ := h
  obtain ⟨cols', idx', rfl, g2, g3, g4⟩ := h'
  simp only [Frame.distColumn, h4 c hc, g4 c hc', Option.map_some]
  congr 1
  refine List.map_congr_left fun i hi => ?_
  rw [List.mem_range] at hi
  have l := (h3 i hi).1
  have l' := (g3 i hi).1
  rw [List.getD_eq_getElem _ _ (by omega), List.getD_eq_getElem _ _ (by omega)]
  exact le_antisymm ((g3 i hi).le (h3 i hi) _ _) ((h3 i hi).le (g3 i hi) _ _)

theorem IsNearestTable.exists_column {n : ℕ} {names names_ : List String} {cand : ℕ → ℕ → Prop} {d : ℕ → ℕ → ℝ} {f : Frame} (h : IsNearestTable n names names_ cand d f) {c : ℕ} (hc : c < n) :
    ∃ v, f.distColumn c = some v := by
  obtain ⟨cols, idx, rfl, h2, h3, h4⟩ := h
  simp [Frame.distColumn, h4 c hc]

variable {env : Env} {args : CompareArgs} {kwargs : Kwargs} {inp : Input} {inp' : Option Input} {cs cs' : List Crystal}

/-- By AMD with any metric for which the library finds the nearest items. -/
theorem amd_nearest (hc : Collections env args kwargs inp inp' cs cs') (hv : ∀ c ∈ cs ++ cs', c.Valid) (hby : upper args.by_ = "AMD") {n : ℕ} (hn : args.nNeighbors = some n) (hn0 : 0 < n)
    (hnl : n ≤ cs'.length) (hnl' : inp' = none → n < cs'.length) {metric : MetricArg ℝ} (hm : (kwOr kwargs "metric" (.str "chebyshev")).toMetric = .ok metric)
    (hd : RowMetric args.k (metric.dist env.other)) (hknn : KnnContract (metric.dist env.other) (env.knn (routeKwargs args.verbose kwargs).near metric)) :
    ∃ (a b : ℕ → List ℝ) (f : Frame) (F : ℕ), IsNearestTable n (cs.map Crystal.name) (cs'.map Crystal.name) (Candidate inp' cs'.length) (fun i j => metric.dist env.other (a i) (b j)) f ∧
      ∀ fuel ≥ F, (∀ i (hi : i < cs.length), AMD cs[i].set args.k fuel = .ok (a i)) ∧ (∀ j (hj : j < cs'.length), AMD cs'[j].set args.k fuel = .ok (b j)) ∧
        compare env inp inp' args kwargs fuel = .ok f := by
  obtain ⟨hg, hg'⟩ := hc
  have hv1 : ∀ c ∈ cs, c.Valid := fun c hc => hv c (List.mem_append_left _ hc)
  have hv2 : ∀ c ∈ cs', c.Valid := fun c hc => hv c (List.mem_append_right _ hc)
  obtain ⟨a, F, h1, h2, h3⟩ := amds_all hv1 args.k
  have hmet : (argOf (routeKwargs args.verbose kwargs).near "metric").toMetric = .ok metric := hm
  cases inp' with
  | none =>
    subst hg'
    have hnl' := hnl' rfl
    obtain ⟨nn, e1, e2, e3⟩ := nearestItems_one hknn (xa := a) (fun x hx => hd.self x (h2 x hx)) (fun x hx y hy => hd.nonneg x y (h2 x hx) (h2 y hy)) hn0 (by omega)
    rw [h1] at e3
    obtain ⟨f, f1, f2⟩ := nearestFrame_ok (names := cs'.map Crystal.name) (names_ := cs'.map Crystal.name) (by simp [e2, h1]) (fun i j hj => by simpa using hj.1) e3
    refine ⟨fun i => a.getD i [], fun i => a.getD i [], f, F, f2.congr (fun i _ j => by simp [Candidate]) (fun _ _ _ _ => rfl), fun fuel hf => ⟨(h3 fuel hf).2, (h3 fuel hf).2, ?_⟩⟩
    rw [(compare_amd hby hg).1, compareAmd, (h3 fuel hf).1, hn]
    simp only [lift, bind, Except.bind, hmet, e1]
    exact f1
  | some inp' =>
    obtain ⟨b, G, g1, g2, g3⟩ := amds_all hv2 args.k
    obtain ⟨nn, e1, e2, e3⟩ := nearestItems_two hknn (xa := a) (xb := b) hn0 (by omega)
    rw [g1] at e3
    obtain ⟨f, f1, f2⟩ := nearestFrame_ok (names := cs.map Crystal.name) (names_ := cs'.map Crystal.name) (cand := fun _ j => j < cs'.length) (by simp [e2, h1])
      (fun i j hj => by simpa using hj) e3
    refine ⟨fun i => a.getD i [], fun i => b.getD i [], f, max F G, f2.congr (fun i _ j => by simp [Candidate]) (fun _ _ _ _ => rfl),
      fun fuel hf => ⟨(h3 fuel (by omega)).2, (g3 fuel (by omega)).2, ?_⟩⟩
    rw [(compare_amd hby hg).2 _ _ hg', compareAmd, (h3 fuel (by omega)).1, hn]
    simp only [lift, bind, Except.bind, hmet, e1, (g3 fuel (by omega)).1]
    exact f1

end Amd
