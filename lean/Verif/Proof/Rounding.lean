import Verif.Model.Rounding
import Verif.Proof.Searchable
import Verif.Proof.PointRows

/-! Helper lemmas: `nearest_neighbors` with rounded arithmetic. -/

set_option linter.unusedSectionVars false

namespace Amd

variable {m D : ℕ}

theorem mem_latticeSites {l : List (Fin D → ℤ)} {s : Site m D} : s ∈ latticeSites m l ↔ s.2 ∈ l := by
  unfold latticeSites
  rw [List.mem_flatMap]
  constructor
  · rintro ⟨n, hn, hs⟩
    obtain ⟨i, _, rfl⟩ := List.mem_map.mp hs
    exact hn
  · intro h
    exact ⟨s.2, h, List.mem_map.mpr ⟨s.1, List.mem_finRange _, rfl⟩⟩

theorem nodup_latticeSites {l : List (Fin D → ℤ)} (h : l.Nodup) : (latticeSites m l).Nodup := by
  unfold latticeSites
  rw [List.nodup_flatMap]
  refine ⟨fun n _ => (List.nodup_finRange m).map fun a b h => (Prod.mk.inj h).1, h.imp fun {a b} hab => ?_⟩
  intro s hs hs'
  obtain ⟨_, _, rfl⟩ := List.mem_map.mp hs
  obtain ⟨_, _, h'⟩ := List.mem_map.mp hs'
  exact hab (Prod.mk.inj h').2.symm

theorem length_latticeSites (l : List (Fin D → ℤ)) : (latticeSites m l).length = l.length * m := by
  unfold latticeSites
  induction l with
  | nil => simp
  | cons a l ih => rw [List.flatMap_cons, List.length_append, ih, List.length_map, List.length_finRange, List.length_cons]; ring

/-- Rows of the `k` smallest computed squared distances of the sites `E`. -/
noncomputable def rowsOf (C : Computed m D) (nx k : ℕ) (E : List (Site m D)) : List (List ℝ) := (List.range nx).map fun i => kSmallest k (E.map (C.cost i))

theorem maxLast_rowsOf (C : Computed m D) {nx k : ℕ} {E : List (Site m D)} (hx : 0 < nx) (hk : 0 < k) (hlen : k ≤ E.length) :
    ∃ a, maxLast (rowsOf C nx k E) = .ok a ∧ (∀ row ∈ rowsOf C nx k E, ∀ r ∈ row, r ≤ a) ∧ ∃ row ∈ rowsOf C nx k E, row.getLast? = some a := by
  have hlast : ∀ i, ∃ v, (kSmallest k (E.map (C.cost i))).getLast? = some v := by
    intro i
    have hl := length_kSmallest k (E.map (C.cost i))
    rw [List.length_map, min_eq_left hlen] at hl
    cases hc : (kSmallest k (E.map (C.cost i))).getLast? with
    | some v => exact ⟨v, rfl⟩
    | none =>
      rw [List.getLast?_eq_none_iff] at hc
      rw [hc] at hl; simp at hl; omega
  have hne : ((rowsOf C nx k E).flatMap fun r => r.getLast?.toList) ≠ [] := by
    obtain ⟨v, hv⟩ := hlast 0
    apply List.ne_nil_of_mem (a := v)
    rw [List.mem_flatMap]
    exact ⟨_, List.mem_map.mpr ⟨0, by simpa using hx, rfl⟩, by rw [hv]; simp⟩
  obtain ⟨a, h1, h2, h3⟩ := maxE_spec hne
  refine ⟨a, h1, ?_, ?_⟩
  · intro row hrow r hr
    obtain ⟨i, hi, rfl⟩ := List.mem_map.mp hrow
    obtain ⟨v, hv⟩ := hlast i
    refine (getLast?_ge (isKS_kSmallest k _).1 hv r hr).trans (h3 v ?_)
    rw [List.mem_flatMap]
    exact ⟨_, hrow, by rw [hv]; simp⟩
  · rw [List.mem_flatMap] at h2
    obtain ⟨row, hrow, ha⟩ := h2
    exact ⟨row, hrow, by simpa using ha⟩

/-- What is needed of the computed numbers for the search to run without reading outside its arrays: every query point is a motif point, at computed distance 0
from itself, and no squared distance is negative. -/
structure SelfZero (C : Computed m D) (nx : ℕ) : Prop where
  self : ∀ i < nx, ∃ s : Fin m, C.cost i (s, 0) = 0
  nonneg : ∀ i < nx, ∀ s, 0 ≤ C.cost i s

theorem head_rowsOf {C : Computed m D} {nx k : ℕ} {E : List (Site m D)} (hC : SelfZero C nx) (hE : ∀ a : Fin m, (a, 0) ∈ E) (hk : 0 < k) {i : ℕ} (hi : i < nx) :
    (kSmallest k (E.map (C.cost i)))[0]? = some 0 := by
  obtain ⟨h1, h2, rest, h3, h4⟩ := isKS_kSmallest k (E.map (C.cost i))
  obtain ⟨s, hs⟩ := hC.self i hi
  have hmem : (0 : ℝ) ∈ E.map (C.cost i) := List.mem_map.mpr ⟨_, hE s, hs⟩
  have hnn : ∀ a ∈ E.map (C.cost i), (0 : ℝ) ≤ a := by
    intro a ha
    obtain ⟨q, _, rfl⟩ := List.mem_map.mp ha
    exact hC.nonneg _ hi _
  have hpos := List.length_pos_of_mem hmem
  generalize kSmallest k (E.map (C.cost i)) = r at *
  cases r with
  | nil => rw [List.length_nil] at h2; omega
  | cons a r =>
    simp only [List.getElem?_cons_zero, Option.some.injEq]
    apply le_antisymm
    · rcases List.mem_append.mp (h3.subset hmem) with h | h
      · rcases List.mem_cons.mp h with h | h
        · rw [← h]
        · exact (List.pairwise_cons.mp h1).1 0 h
      · exact h4 a (by simp) 0 h
    · exact hnn a (h3.symm.subset (by simp))

/-- The site was not used for the bound `a`: its lattice vector is too long, or no query point is nearer than `a`. -/
def FarBeyond (C : Computed m D) (nx : ℕ) (diamSq a : ℝ) (s : Site m D) : Prop := C.bound a diamSq ≤ C.norm s.2 ∨ ∀ i < nx, a ≤ C.cost i s

/-- The state of the search before layer `d`: the sites `E` have been used, the others in earlier layers are far. -/
structure SearchedTo (C : Computed m D) (nx k : ℕ) (diamSq : ℝ) (d : ℕ) (E : List (Site m D)) : Prop where
  nodup : E.Nodup
  layers : ∀ s ∈ E, s.2 ∈ layersUpTo D d
  self : ∀ a : Fin m, (a, 0) ∈ E
  many : k ≤ E.length
  far : ∀ s : Site m D, s.2 ∈ layersUpTo D d → s ∉ E → ∃ a, 0 ≤ a ∧ (∀ row ∈ rowsOf C nx k E, ∀ r ∈ row, r ≤ a) ∧ FarBeyond C nx diamSq a s

theorem rowsOf_append_le {C : Computed m D} {nx k : ℕ} {E E' : List (Site m D)} {b : ℝ} (hlen : k ≤ E.length)
    (h : ∀ row ∈ rowsOf C nx k E, ∀ r ∈ row, r ≤ b) : ∀ row ∈ rowsOf C nx k (E ++ E'), ∀ r ∈ row, r ≤ b := by
  intro row hrow r hr
  obtain ⟨i, hi, rfl⟩ := List.mem_map.mp hrow
  have hks' := isKS_kSmallest k ((E ++ E').map (C.cost i))
  have hb := h _ (List.mem_map.mpr ⟨i, hi, rfl⟩)
  obtain ⟨_, e2, rest, e3, _⟩ := isKS_kSmallest k (E.map (C.cost i))
  have hperm : ((E ++ E').map (C.cost i)).Perm (kSmallest k (E.map (C.cost i)) ++ (rest ++ E'.map (C.cost i))) := by
    rw [List.map_append, ← List.append_assoc]
    exact e3.append_right _
  exact (hks'.perm hperm).le_of_left (by rw [e2, List.length_map]; omega) hb r hr

/-- One round of the loop. -/
theorem nnLoopR_step {C : Computed m D} {nx k : ℕ} {diamSq : ℝ} (hD : 0 < D) (hx : 0 < nx) (hk : 0 < k) (hC : SelfZero C nx) {d : ℕ} {E : List (Site m D)}
    (hE : SearchedTo C nx k diamSq d E) :
    ((∀ f, nnLoopR C nx k diamSq (f + 1) d (rowsOf C nx k E) = .ok (rowsOf C nx k E)) ∧ ∀ s : Site m D, s.2 ∈ layersUpTo D (d + 1) → s ∉ E →
      ∃ a, 0 ≤ a ∧ (∀ row ∈ rowsOf C nx k E, ∀ r ∈ row, r ≤ a) ∧ FarBeyond C nx diamSq a s) ∨
    ∃ E', SearchedTo C nx k diamSq (d + 1) (E ++ E') ∧
      (∀ f, nnLoopR C nx k diamSq (f + 1) d (rowsOf C nx k E) = nnLoopR C nx k diamSq f (d + 1) (rowsOf C nx k (E ++ E'))) ∧
      ∃ n ∈ intLayer D d, ∃ a, 0 ≤ a ∧ (∃ row ∈ rowsOf C nx k E, a ∈ row) ∧ C.norm n < C.bound a diamSq := by
  obtain ⟨a, ha, hage, harow⟩ := maxLast_rowsOf C hx hk hE.many
  have ha0 : 0 ≤ a := hage _ (List.mem_map.mpr ⟨0, by simpa using hx, rfl⟩) 0 (List.mem_of_getElem? (head_rowsOf hC hE.self hk hx))
  have hstop : (∀ s : Site m D, s.2 ∈ intLayer D d → FarBeyond C nx diamSq a s) → ∀ s : Site m D, s.2 ∈ layersUpTo D (d + 1) → s ∉ E →
      ∃ a, 0 ≤ a ∧ (∀ row ∈ rowsOf C nx k E, ∀ r ∈ row, r ≤ a) ∧ FarBeyond C nx diamSq a s := by
    intro h s hs hsE
    rw [layersUpTo_succ] at hs
    rcases List.mem_append.mp hs with hs | hs
    · exact hE.far s hs hsE
    · exact ⟨a, ha0, hage, h s hs⟩
  by_cases hlat : ((intLayer D d).filter fun n => decide (C.norm n < C.bound a diamSq)).isEmpty = true
  · left
    refine ⟨fun f => by unfold nnLoopR; rw [ha]; simp only [bind, Except.bind]; rw [if_pos hlat], hstop fun s hs => Or.inl ?_⟩
    rw [List.isEmpty_iff, List.filter_eq_nil_iff] at hlat
    have := hlat s.2 hs
    simpa using this
  · by_cases hclose : ((latticeSites m ((intLayer D d).filter fun n => decide (C.norm n < C.bound a diamSq))).filter
        fun s => (List.range nx).any fun i => decide (C.cost i s < a)).isEmpty = true
    · left
      refine ⟨fun f => by unfold nnLoopR; rw [ha]; simp only [bind, Except.bind]; rw [if_neg hlat, if_pos hclose], hstop fun s hs => ?_⟩
      by_cases hn : C.norm s.2 < C.bound a diamSq
      · right
        intro i hi
        rw [List.isEmpty_iff, List.filter_eq_nil_iff] at hclose
        have := hclose s (mem_latticeSites.mpr (List.mem_filter.mpr ⟨hs, by simpa using hn⟩))
        by_contra hc
        exact this (List.any_eq_true.mpr ⟨i, by simpa using hi, by simpa using hc⟩)
      · exact Or.inl (not_lt.mp hn)
    · right
      set L := latticeSites m ((intLayer D d).filter fun n => decide (C.norm n < C.bound a diamSq)) with hL
      have hLmem : ∀ s : Site m D, s ∈ L ↔ s.2 ∈ intLayer D d ∧ C.norm s.2 < C.bound a diamSq := by
        intro s
        rw [hL, mem_latticeSites, List.mem_filter, decide_eq_true_eq]
      have hnd := nodup_layersUpTo hD (d + 1)
      rw [layersUpTo_succ, List.nodup_append] at hnd
      have hLnd : L.Nodup := nodup_latticeSites (hnd.2.1.filter _)
      have hdis : ∀ s ∈ E, ∀ t ∈ L, s ≠ t := by
        rintro s hs _ ht rfl
        exact hnd.2.2 _ (hE.layers s hs) _ ((hLmem s).1 ht).1 rfl
      refine ⟨L, ⟨List.nodup_append.mpr ⟨hE.nodup, hLnd, hdis⟩, ?_, fun b => List.mem_append_left _ (hE.self b), ?_, ?_⟩, fun f => ?_, ?_⟩
      · intro s hs
        rw [layersUpTo_succ]
        rcases List.mem_append.mp hs with hs | hs
        · exact List.mem_append_left _ (hE.layers s hs)
        · exact List.mem_append_right _ ((hLmem s).1 hs).1
      · rw [List.length_append]; have := hE.many; omega
      · intro s hs hsE
        rw [List.mem_append, not_or] at hsE
        have hage' := rowsOf_append_le (E' := L) hE.many hage
        rw [layersUpTo_succ] at hs
        rcases List.mem_append.mp hs with hs | hs
        · obtain ⟨b, hb0, hb, hfar⟩ := hE.far s hs hsE.1
          exact ⟨b, hb0, rowsOf_append_le hE.many hb, hfar⟩
        · refine ⟨a, ha0, hage', Or.inl ?_⟩
          by_contra hc
          exact hsE.2 ((hLmem s).2 ⟨hs, not_le.mp hc⟩)
      · rw [nnLoopR, ha]
        simp only [bind, Except.bind]
        rw [if_neg hlat, if_neg hclose]
        generalize hcl : L.filter (fun s => (List.range nx).any fun i => decide (C.cost i s < a)) = close at hclose
        have hcne : close ≠ [] := by simpa using hclose
        have hmerge : mergeRows (rowsOf C nx k E) ((List.range nx).map fun i => kSmallest k (close.map (C.cost i))) = .ok (rowsOf C nx k (E ++ L)) := by
          refine mergeRows_map _ _ _ _ fun i hi => ?_
          have hi' : i < nx := by simpa using hi
          have hks := isKS_kSmallest k (E.map (C.cost i))
          have hks' := isKS_kSmallest k (close.map (C.cost i))
          have hhead := head_rowsOf hC hE.self hk hi'
          have hnew : ∃ w, (kSmallest k (close.map (C.cost i)))[0]? = some w ∧ 0 ≤ w := by
            have hl := hks'.2.1
            obtain ⟨_, _, rest, h3, _⟩ := hks'
            have hcpos : 0 < close.length := List.length_pos_iff.mpr hcne
            generalize kSmallest k (close.map (C.cost i)) = r at *
            cases r with
            | nil => simp at hl; omega
            | cons w r =>
              refine ⟨w, rfl, ?_⟩
              have := h3.symm.subset (List.mem_append_left rest (List.mem_cons_self (a := w) (l := r)))
              obtain ⟨c, _, rfl⟩ := List.mem_map.mp this
              exact hC.nonneg _ hi' _
          obtain ⟨w, hw, hw0⟩ := hnew
          obtain ⟨r, hr, hrks⟩ := mergeRow_spec hks.1 hks'.1 hhead hw hw0
          rw [hr]
          have hkl : (kSmallest k (E.map (C.cost i))).length = k := by
            rw [hks.2.1, List.length_map]; have := hE.many; omega
          rw [hkl] at hrks
          have hm := hks.merge hks' hrks
          rw [← List.map_append] at hm
          have hall : IsKS k (((E ++ close) ++ L.filter fun s => !((List.range nx).any fun i => decide (C.cost i s < a))).map (C.cost i)) r := by
            rw [List.map_append]
            apply hm.append_of_ge
            · rw [List.length_map, List.length_append]; have := hE.many; omega
            · intro u hu v hv
              obtain ⟨c, hc, rfl⟩ := List.mem_map.mp hv
              have hfar : a ≤ C.cost i c := by
                have := (List.mem_filter.mp hc).2
                rw [Bool.not_eq_true', List.any_eq_false] at this
                simpa using this i hi
              refine le_trans ?_ hfar
              obtain ⟨b, hb⟩ : ∃ b, (kSmallest k (E.map (C.cost i))).getLast? = some b := by
                cases hc : (kSmallest k (E.map (C.cost i))).getLast? with
                | some v => exact ⟨v, rfl⟩
                | none =>
                  rw [List.getLast?_eq_none_iff] at hc
                  rw [hc] at hkl; simp at hkl; omega
              have hba : b ≤ a := hage _ (List.mem_map.mpr ⟨i, hi, rfl⟩) b (List.mem_of_getLast? hb)
              refine le_trans ?_ hba
              exact hrks.le_of_left hkl (fun y hy => getLast?_ge hks.1 hb y hy) u hu
          have hfinal : IsKS k ((E ++ L).map (C.cost i)) r := by
            refine hall.perm ?_
            apply List.Perm.map
            rw [List.append_assoc, ← hcl]
            exact (List.filter_append_perm _ _).append_left _
          rw [hfinal.unique (isKS_kSmallest k _)]
        rw [hmerge]
      · rw [List.isEmpty_iff, List.filter_eq_nil_iff] at hlat
        push Not at hlat
        obtain ⟨n, hn, hn'⟩ := hlat
        obtain ⟨row, hrow, hlast⟩ := harow
        exact ⟨n, hn, a, ha0, ⟨row, hrow, List.mem_of_getLast? hlast⟩, by simpa using hn'⟩

theorem nnLoopR_spec {C : Computed m D} {nx k : ℕ} {diamSq : ℝ} (hD : 0 < D) (hx : 0 < nx) (hk : 0 < k) (hC : SelfZero C nx) :
    ∀ (f d : ℕ) (E : List (Site m D)), SearchedTo C nx k diamSq d E →
    nnLoopR C nx k diamSq f d (rowsOf C nx k E) = .error .fuel ∨
    ∃ d' E', d ≤ d' ∧ nnLoopR C nx k diamSq f d (rowsOf C nx k E) = .ok (rowsOf C nx k E') ∧ SearchedTo C nx k diamSq d' E' ∧
      ∀ s : Site m D, s.2 ∈ layersUpTo D (d' + 1) → s ∉ E' → ∃ a, 0 ≤ a ∧ (∀ row ∈ rowsOf C nx k E', ∀ r ∈ row, r ≤ a) ∧ FarBeyond C nx diamSq a s
  | 0, _, _, _ => Or.inl rfl
  | f + 1, d, E, hE => by
    rcases nnLoopR_step hD hx hk hC hE with ⟨h1, h2⟩ | ⟨E', hE', h1, -⟩
    · exact Or.inr ⟨d, E, le_refl d, h1 f, hE, h2⟩
    · rw [h1 f]
      rcases nnLoopR_spec hD hx hk hC f (d + 1) _ hE' with h | ⟨d', E'', h2, h3, h4, h5⟩
      · exact Or.inl h
      · exact Or.inr ⟨d', E'', by omega, h3, h4, h5⟩

end Amd
