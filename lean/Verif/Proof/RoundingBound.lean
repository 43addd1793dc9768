import Verif.Proof.Rounding
import Verif.Spec.Rounding

/-! Helper lemmas: the error of `nearest_neighbors` with rounded arithmetic. -/

set_option linter.unusedSectionVars false

namespace Amd

variable {D : ℕ}

theorem IsKNearest.cons_min {ι : Type*} {δ : ι → ℝ} {s₀ : ι} {r : List ℝ} (h : IsKNearest (fun s : {s : ι // s ≠ s₀} => δ s) r) (hmin : ∀ i, δ s₀ ≤ δ i) :
    IsKNearest δ (δ s₀ :: r) := by
  obtain ⟨idx, n, e, s, o⟩ := h
  refine ⟨s₀ :: idx.map Subtype.val, ?_, ?_, ?_, ?_⟩
  · rw [List.nodup_cons]
    refine ⟨?_, n.map Subtype.val_injective⟩
    intro hc
    obtain ⟨a, _, ha⟩ := List.mem_map.mp hc
    exact a.2 ha
  · rw [List.map_cons, List.map_map, e]; rfl
  · rw [List.pairwise_cons]
    refine ⟨?_, s⟩
    intro a ha
    rw [e] at ha
    obtain ⟨b, _, rfl⟩ := List.mem_map.mp ha
    exact hmin _
  · intro j hj a ha
    rw [List.mem_cons, not_or] at hj
    rcases List.mem_cons.mp ha with rfl | ha
    · exact hmin j
    · refine o ⟨j, hj.1⟩ ?_ a ha
      intro hc
      exact hj.2 (List.mem_map.mpr ⟨_, hc, rfl⟩)

theorem IsKNearest.getElem_le_map {ι : Type*} {δ δ' : ι → ℝ} {r r' : List ℝ} (h : IsKNearest δ r) (h' : IsKNearest δ' r') {φ : ℝ → ℝ} (hφ : Monotone φ)
    (hle : ∀ i, δ' i ≤ φ (δ i)) (j : ℕ) (hj : j < r.length) (hj' : j < r'.length) : r'[j] ≤ φ r[j] := by
  have := (h.map hφ).getElem_le h' (η := 0) (fun i => by simpa using hle i) j (by simpa using hj) hj'
  simpa using this

theorem IsKNearest.le_getElem_map {ι : Type*} {δ δ' : ι → ℝ} {r r' : List ℝ} (h : IsKNearest δ r) (h' : IsKNearest δ' r') {φ : ℝ → ℝ} (hφ : Monotone φ)
    (hle : ∀ i, φ (δ i) ≤ δ' i) (j : ℕ) (hj : j < r.length) (hj' : j < r'.length) : φ r[j] ≤ r'[j] := by
  have := h'.getElem_le (h.map hφ) (η := 0) (fun i => by simpa using hle i) j hj' (by simpa using hj)
  simpa using this

section
variable {motif : List (Pt D ℝ)} {cell : Fin D → Pt D ℝ} {inds : List (Fin motif.length)} {C : Computed motif.length D} {ε M : ℝ}

theorem Accurate.selfZero (hC : Accurate C cell inds ε M) : SelfZero C inds.length :=
  ⟨fun i hi => ⟨inds[i], hC.self i hi⟩, hC.nonneg⟩

theorem latLength_le (p q : Pt D ℝ) (n : Fin D → ℤ) : latLength cell n ≤ eucl p (q + latVec cell n) + eucl p q := by
  have h1 : latLength cell n = eucl (q + latVec cell n) q := by
    unfold eucl latLength
    rw [← sqNorm_eq]
    rfl
  have h2 := eucl_triangle (q + latVec cell n) p q
  rw [eucl_comm (q + latVec cell n) p] at h2
  rw [h1]
  exact h2

/-- Sites that are not used are as far as the computed numbers say, up to rounding. -/
theorem far_dist (hε : 0 ≤ ε) (hε' : ε ≤ 1 / 16) (hM : ∀ p ∈ motif, ∀ q ∈ motif, eucl p q ≤ M) (hC : Accurate C cell inds ε M) {diamSq a : ℝ}
    (hdiam : ∀ i < inds.length, ∀ b : Fin motif.length, C.cost i (b, 0) ≤ diamSq) (ha : 0 ≤ a) {s : Site motif.length D}
    (hfar : FarBeyond C inds.length diamSq a s) {i : ℕ} (hi : i < inds.length) :
    √a ≤ eucl motif[inds[i]] (sitePos motif cell s) + 5 * ε * (eucl motif[inds[i]] (sitePos motif cell s) + M) := by
  set δ := eucl motif[inds[i]] (sitePos motif cell s) with hδ
  have hδ0 : 0 ≤ δ := eucl_nonneg _ _
  have hM0 : 0 ≤ M := (eucl_nonneg _ _).trans (hM _ (List.getElem_mem inds[i].2) _ (List.getElem_mem inds[i].2))
  have hprod : 0 ≤ ε * (δ + M) := by positivity
  rcases hfar with h | h
  · set δ₀ := eucl motif[inds[i]] (sitePos motif cell (s.1, 0)) with hδ₀
    have e0 : sitePos motif cell (s.1, 0) = motif[s.1] := by
      funext j; simp [sitePos]
    have h00 : 0 ≤ δ₀ := eucl_nonneg _ _
    have h0M : δ₀ ≤ M := by rw [hδ₀, e0]; exact hM _ (List.getElem_mem inds[i].2) _ (List.getElem_mem s.1.2)
    have h1 := abs_le.mp (hC.dist i hi (s.1, 0))
    have h2 : √(C.cost i (s.1, 0)) ≤ √diamSq := Real.sqrt_le_sqrt (hdiam i hi s.1)
    have h3 := abs_le.mp (hC.bound a diamSq ha ((hC.nonneg _ hi _).trans (hdiam i hi s.1)))
    have h4 := abs_le.mp (hC.norm s.2)
    have h5 : √(C.bound a diamSq) ≤ √(C.norm s.2) := Real.sqrt_le_sqrt h
    have h6 : latLength cell s.2 ≤ δ + δ₀ := by
      rw [hδ₀, e0]
      exact latLength_le _ _ _
    have ha' := Real.sqrt_nonneg a
    set A := √a
    set B := √diamSq
    -- (1 - ε) (A + B) ≤ (1 + ε) (δ + δ₀), B ≥ δ₀ - ε (δ₀ + M)
    have hB : δ₀ - ε * (δ₀ + M) ≤ B := by
      rw [← hδ₀] at h1
      linarith [h1.1]
    have hmain : (1 - ε) * (A + B) ≤ (1 + ε) * (δ + δ₀) := by
      have : (1 + ε) * latLength cell s.2 ≤ (1 + ε) * (δ + δ₀) := by gcongr
      nlinarith [h3.1, h4.2]
    have h7 : (1 - ε) * (A + (δ₀ - ε * (δ₀ + M))) ≤ (1 + ε) * (δ + δ₀) := by
      refine le_trans ?_ hmain
      have : 0 ≤ 1 - ε := by linarith
      gcongr
    -- (1 - ε) A ≤ (1 + ε) (δ + δ₀) - (1 - ε) δ₀ + (1 - ε) ε (δ₀ + M)
    have h8 : (1 - ε) * A ≤ (1 - ε) * (δ + 5 * ε * (δ + M)) := by
      have e1 : ε * δ₀ ≤ ε * M := by gcongr
      have e2 : 0 ≤ ε * δ := by positivity
      have e3 : 0 ≤ ε * M := by positivity
      have e4 : ε * (ε * δ) ≤ 1 / 16 * (ε * δ) := by gcongr
      have e5 : ε * (ε * M) ≤ 1 / 16 * (ε * M) := by gcongr
      have e6 : 0 ≤ ε * (ε * δ₀) := by positivity
      have e7 : 0 ≤ ε * (ε * M) := by positivity
      nlinarith
    exact le_of_mul_le_mul_left h8 (by linarith)
  · have h1 := Real.sqrt_le_sqrt (h i hi)
    have h2 := abs_le.mp (hC.dist i hi s)
    rw [← hδ] at h2
    nlinarith [h2.2]

/-- Computed rows of a complete search. -/
theorem rowsOf_error (hD : 0 < D) (hε : 0 ≤ ε) (hε' : ε ≤ 1 / 16) (hM : ∀ p ∈ motif, ∀ q ∈ motif, eucl p q ≤ M) (hC : Accurate C cell inds ε M) {diamSq : ℝ}
    (hdiam : ∀ i < inds.length, ∀ b : Fin motif.length, C.cost i (b, 0) ≤ diamSq) {P : (Fin D → ℝ) → Prop} {r d k : ℕ} (hdes : Descends cell P r)
    (hfit : FracDiff motif cell P) (hrd : r ≤ d) {E : List (Site motif.length D)} (hE : SearchedTo C inds.length k diamSq d E)
    (hfar : ∀ s : Site motif.length D, s.2 ∈ layersUpTo D (d + 1) → s ∉ E →
      ∃ a, 0 ≤ a ∧ (∀ row ∈ rowsOf C inds.length k E, ∀ v ∈ row, v ≤ a) ∧ FarBeyond C inds.length diamSq a s)
    {i : ℕ} (hi : i < inds.length) {row : List ℝ} (hrow : IsKNearest (fun s => eucl motif[inds[i]] (sitePos motif cell s)) row) (j : ℕ)
    (hj : j < row.length) (hj' : j < (kSmallest k (E.map (C.cost i))).length) :
    √((kSmallest k (E.map (C.cost i)))[j]) ≤ row[j] + 5 * ε * (row[j] + M) ∧ row[j] - ε * (row[j] + M) ≤ √((kSmallest k (E.map (C.cost i)))[j]) := by
  classical
  have hM0 : 0 ≤ M := (eucl_nonneg _ _).trans (hM _ (List.getElem_mem inds[i].2) _ (List.getElem_mem inds[i].2))
  set p := motif[inds[i]] with hp
  have hpm : p ∈ motif := List.getElem_mem inds[i].2
  set δ : Site motif.length D → ℝ := fun s => eucl p (sitePos motif cell s) with hδ
  have hδ0 : ∀ s, 0 ≤ δ s := fun s => eucl_nonneg _ _
  let φ : ℝ → ℝ := fun t => t + 5 * ε * (t + M)
  have hφ : Monotone φ := by
    intro a b hab
    simp only [φ]
    have : 5 * ε * (a + M) ≤ 5 * ε * (b + M) := by gcongr
    linarith
  have hφ0 : ∀ t, 0 ≤ t → 0 ≤ φ t := by
    intro t ht
    simp only [φ]
    positivity
  -- entries of the computed row are bounded by the sites left out
  have hout : ∀ s, s ∉ E → ∀ v ∈ kSmallest k (E.map (C.cost i)), √v ≤ φ (δ s) := by
    intro s hs v hv
    have hin : ∀ s : Site motif.length D, s.2 ∈ layersUpTo D (d + 1) → s ∉ E → √v ≤ φ (δ s) := by
      intro s hs hsE
      obtain ⟨a, ha0, ha, hf⟩ := hfar s hs hsE
      exact (Real.sqrt_le_sqrt (ha _ (List.mem_map.mpr ⟨i, by simpa using hi, rfl⟩) v hv)).trans (far_dist hε hε' hM hC hdiam ha0 hf hi)
    by_cases hl : s.2 ∈ layersUpTo D d
    · exact hin s (by rw [layersUpTo_succ]; exact List.mem_append_left _ hl) hs
    · set B := max ((√v - 5 * ε * M) / (1 + 5 * ε)) 0 with hB
      have hB0 : 0 ≤ B := le_max_right _ _
      have hpos : 0 < 1 + 5 * ε := by positivity
      have hiff : ∀ t, 0 ≤ t → (√v ≤ φ t ↔ B ≤ t) := by
        intro t ht
        rw [hB, max_le_iff, div_le_iff₀ hpos]
        simp only [φ]
        constructor
        · intro h; exact ⟨by nlinarith, ht⟩
        · intro h; nlinarith [h.1]
      have hsq : ∀ s, (B ≤ δ s ↔ B ^ 2 ≤ sqDist p (sitePos motif cell s)) := by
        intro s
        simp only [hδ, eucl]
        rw [Real.le_sqrt hB0]
        exact Finset.sum_nonneg fun _ _ => sq_nonneg _
      rw [hiff _ (hδ0 s), hsq, sitePos_eq]
      refine complete_of_descends (x := [p]) hD hdes hrd hfit (by simpa using hpm) ?_ s.2 hl p (by simp) _ (List.getElem_mem s.1.2)
      intro n hn p' hp' q hq
      rw [List.mem_singleton] at hp'
      subst hp'
      obtain ⟨b, hb, rfl⟩ := List.getElem_of_mem hq
      have hnd := nodup_layersUpTo hD (d + 1)
      rw [layersUpTo_succ, List.nodup_append] at hnd
      have hnE : ((⟨b, hb⟩, n) : Site motif.length D) ∉ E := fun hc => hnd.2.2 _ (hE.layers _ hc) _ hn rfl
      have := hin (⟨b, hb⟩, n) (by rw [layersUpTo_succ]; exact List.mem_append_right _ hn) hnE
      rw [hiff _ (hδ0 _), hsq, sitePos_eq] at this
      exact this
  -- the computed row is the row of other numbers
  let γ : Site motif.length D → ℝ := fun s => if s ∈ E then C.cost i s else φ (δ s) ^ 2
  have hγ : IsKNearest γ (kSmallest k (E.map (C.cost i))) := by
    refine isKNearest_of_list (k := k) hE.nodup ?_ ?_
    · have : E.map γ = E.map (C.cost i) := by
        apply List.map_congr_left
        intro s hs
        simp only [γ, if_pos hs]
      rw [this]
      exact isKS_kSmallest k _
    · intro s hs v hv
      simp only [γ, if_neg hs]
      have h1 := hout s hs v hv
      rwa [Real.sqrt_le_left (hφ0 _ (hδ0 s))] at h1
  have hγ' := hγ.map (φ := Real.sqrt) fun _ _ h => Real.sqrt_le_sqrt h
  have hγs : ∀ s, s ∉ E → √(γ s) = φ (δ s) := by
    intro s hs
    simp only [γ, if_neg hs]
    exact Real.sqrt_sq (hφ0 _ (hδ0 s))
  have hγE : ∀ s, s ∈ E → √(γ s) = √(C.cost i s) := by
    intro s hs
    simp only [γ, if_pos hs]
  have hprod : ∀ s, 0 ≤ ε * (δ s + M) := fun s => mul_nonneg hε (add_nonneg (hδ0 s) hM0)
  constructor
  · have := hrow.getElem_le_map hγ' hφ (fun s => by
      by_cases hs : s ∈ E
      · rw [hγE s hs]
        have h2 := abs_le.mp (hC.dist i hi s)
        simp only [φ]
        have := hprod s
        simp only [hδ] at this ⊢
        rw [← hp] at h2
        nlinarith [h2.2]
      · rw [hγs s hs]) j hj (by simpa using hj')
    simpa using this
  · have := hrow.le_getElem_map hγ' (φ := fun t => t - ε * (t + M)) (fun a b hab => by
      have : 0 ≤ (1 - ε) * (b - a) := mul_nonneg (by linarith) (by linarith)
      simp only
      nlinarith) (fun s => by
      by_cases hs : s ∈ E
      · rw [hγE s hs]
        have h2 := abs_le.mp (hC.dist i hi s)
        rw [← hp] at h2
        linarith [h2.1]
      · rw [hγs s hs]
        simp only [φ]
        have := hprod s
        simp only [hδ] at this ⊢
        nlinarith) j hj (by simpa using hj')
    simpa using this

/-- The start of the search. -/
theorem diamR_spec (hD : 0 < D) {C : Computed motif.length D} {nx : ℕ} (hx : 0 < nx) (hm : motif ≠ []) (k : ℕ) :
    ∃ dsq, maxE (((List.range nx).map fun i => (latticeSites motif.length (layersUpTo D (numLayers D motif.length k))).map (C.cost i)).flatMap
      (·.take motif.length)) = .ok dsq ∧ (∀ i < nx, ∀ b : Fin motif.length, C.cost i (b, 0) ≤ dsq) ∧ ∃ i < nx, ∃ b : Fin motif.length, C.cost i (b, 0) = dsq := by
  have hmpos : 0 < motif.length := List.length_pos_iff.mpr hm
  obtain ⟨t, ht⟩ : ∃ t, numLayers D motif.length k = t + 1 := ⟨numLayers D motif.length k - 1, by have := two_le_numLayers (k := k) hD hmpos; omega⟩
  have hsplit : ∀ t, ∃ rest, layersUpTo D (t + 1) = (fun _ => 0) :: rest := by
    intro t
    induction t with
    | zero => exact ⟨[], layersUpTo_one hD⟩
    | succ t ih =>
      obtain ⟨rest, hr⟩ := ih
      exact ⟨rest ++ intLayer D (t + 1), by rw [layersUpTo_succ D (t + 1), hr]; rfl⟩
  obtain ⟨rest, hrest⟩ := hsplit t
  have hrow : (((List.range nx).map fun i => (latticeSites motif.length (layersUpTo D (numLayers D motif.length k))).map (C.cost i)).flatMap
      (·.take motif.length)) = (List.range nx).flatMap fun i => (List.finRange motif.length).map fun b => C.cost i (b, 0) := by
    rw [List.flatMap_map]
    congr 1
    funext i
    rw [ht, hrest]
    unfold latticeSites
    rw [List.flatMap_cons, List.map_append, List.map_map, List.take_left' (by simp)]
    rfl
  rw [hrow]
  have hne : ((List.range nx).flatMap fun i => (List.finRange motif.length).map fun b => C.cost i (b, 0)) ≠ [] := by
    apply List.ne_nil_of_mem (a := C.cost 0 (⟨0, hmpos⟩, 0))
    rw [List.mem_flatMap]
    exact ⟨0, by simpa using hx, List.mem_map.mpr ⟨_, List.mem_finRange _, rfl⟩⟩
  obtain ⟨a, h1, h2, h3⟩ := maxE_spec hne
  refine ⟨a, h1, ?_, ?_⟩
  · intro i hi b
    apply h3
    rw [List.mem_flatMap]
    exact ⟨i, by simpa using hi, List.mem_map.mpr ⟨b, List.mem_finRange _, rfl⟩⟩
  · rw [List.mem_flatMap] at h2
    obtain ⟨i, hi, h2⟩ := h2
    obtain ⟨b, _, h2⟩ := List.mem_map.mp h2
    exact ⟨i, by simpa using hi, b, h2⟩

theorem searchedTo_start (hD : 0 < D) (hm : motif ≠ []) (C : Computed motif.length D) (nx k : ℕ) (diamSq : ℝ) :
    SearchedTo C nx k diamSq (numLayers D motif.length k) (latticeSites motif.length (layersUpTo D (numLayers D motif.length k))) := by
  have hmpos : 0 < motif.length := List.length_pos_iff.mpr hm
  refine ⟨nodup_latticeSites (nodup_layersUpTo hD _), fun s hs => mem_latticeSites.mp hs, fun a => mem_latticeSites.mpr ?_, ?_, ?_⟩
  · have h := two_le_numLayers (k := k) hD hmpos
    obtain ⟨t, ht⟩ : ∃ t, numLayers D motif.length k = t + 1 := ⟨numLayers D motif.length k - 1, by omega⟩
    rw [ht, mem_layersUpTo hD]
    simp [normSq]
  · obtain ⟨s, h1, h2, h3, _⟩ := numLayers_spec (k := k) hD hmpos
    rw [length_latticeSites, h2, length_layersUpTo_succ, Nat.add_mul]
    omega
  · intro s hs hc
    exact absurd (mem_latticeSites.mpr hs) hc

theorem nearestNeighborsR_eq {C : Computed motif.length D} {nx : ℕ} (k fuel : ℕ) {dsq : ℝ}
    (h : maxE (((List.range nx).map fun i => (latticeSites motif.length (layersUpTo D (numLayers D motif.length k))).map (C.cost i)).flatMap
      (·.take motif.length)) = .ok dsq) :
    nearestNeighborsR C nx k fuel = (nnLoopR C nx k dsq fuel (numLayers D motif.length k)
      (rowsOf C nx k (latticeSites motif.length (layersUpTo D (numLayers D motif.length k))))).map fun rows => rows.map (·.map C.root) := by
  unfold nearestNeighborsR
  simp only [h, bind, Except.bind]
  rw [List.map_map]
  have : (kSmallest k ∘ fun i => (latticeSites motif.length (layersUpTo D (numLayers D motif.length k))).map (C.cost i)) =
      fun i => kSmallest k ((latticeSites motif.length (layersUpTo D (numLayers D motif.length k))).map (C.cost i)) := rfl
  rw [this]
  unfold rowsOf
  cases nnLoopR C nx k dsq fuel (numLayers D motif.length k) _ <;> rfl

theorem motif_ne_of_inds (hne : inds ≠ []) : motif ≠ [] := by
  rintro rfl
  obtain ⟨i, _⟩ := List.exists_mem_of_ne_nil inds hne
  exact i.elim0

/-- The rows of a search with rounded arithmetic. -/
theorem nearestNeighborsR_error (hD : 0 < D) (hcell : NonSingular cell) (hne : inds ≠ []) (hε : 0 ≤ ε) (hε' : ε ≤ 1 / 16)
    (hM : ∀ p ∈ motif, ∀ q ∈ motif, eucl p q ≤ M) (hC : Accurate C cell inds ε M) {k fuel : ℕ} (hs : Searchable motif cell (k + 1)) {rows : List (List ℝ)}
    (h : nearestNeighborsR C inds.length (k + 1) fuel = .ok rows) :
    List.Forall₂ (fun i row => row.length = k + 1 ∧ row.getD 0 0 = 0 ∧ ∃ r, IsNeighbourRow motif cell i k r ∧
      ∀ j < k, |row.getD (j + 1) 0 - r.getD j 0| ≤ 7 * ε * (r.getD j 0 + M)) inds rows := by
  have hm := motif_ne_of_inds hne
  have hmpos : 0 < motif.length := List.length_pos_iff.mpr hm
  have hx : 0 < inds.length := List.length_pos_iff.mpr hne
  obtain ⟨P, r, hdes, hfit, hst⟩ := hs
  obtain ⟨dsq, h1, h2, h3⟩ := diamR_spec hD (C := C) hx hm (k + 1)
  rw [nearestNeighborsR_eq _ _ h1] at h
  rcases nnLoopR_spec hD hx (by omega) hC.selfZero fuel _ _ (searchedTo_start hD hm C inds.length (k + 1) dsq) with hf | ⟨d, E, hd, hok, hE, hfar⟩
  · rw [hf] at h; cases h
  · rw [hok] at h
    injection h with h
    subst h
    have hr : r ≤ d := (le_numLayers hD hmpos hst).trans hd
    rw [List.forall₂_iff_get]
    refine ⟨by simp [rowsOf], ?_⟩
    intro i hi hi'
    simp only [List.get_eq_getElem, rowsOf, List.getElem_map, List.getElem_range]
    have hlen : (kSmallest (k + 1) (E.map (C.cost i))).length = k + 1 := by
      rw [length_kSmallest, List.length_map]; have := hE.many; omega
    obtain ⟨row, hrow⟩ := exists_neighbourRow hD hcell inds[i] k
    refine ⟨by rw [List.length_map, hlen], ?_, row, hrow, ?_⟩
    · have h0 := head_rowsOf hC.selfZero hE.self (by omega : 0 < k + 1) hi
      have hroot := hC.root 0 (le_refl 0)
      rw [Real.sqrt_zero] at hroot
      have : C.root 0 = 0 := by simpa using hroot
      rw [List.getD_eq_getElem?_getD, List.getElem?_map, h0]
      simp [this]
    · intro j hj
      have hself : ∀ s : Site motif.length D, eucl motif[inds[i]] (sitePos motif cell (inds[i], 0)) ≤ eucl motif[inds[i]] (sitePos motif cell s) := by
        intro s
        have : eucl motif[inds[i]] (sitePos motif cell (inds[i], 0)) = 0 := by
          have : sitePos motif cell (inds[i], 0) = motif[inds[i]] := by funext j; simp [sitePos]
          rw [this]
          simp [eucl, sqDist]
        rw [this]
        exact eucl_nonneg _ _
      have hfull := IsKNearest.cons_min (s₀ := ((inds[i], 0) : Site motif.length D)) (δ := fun s => eucl motif[inds[i]] (sitePos motif cell s)) hrow.2 hself
      have hjr : j < row.length := by rw [hrow.1]; exact hj
      have hjk : j + 1 < (kSmallest (k + 1) (E.map (C.cost i))).length := by rw [hlen]; omega
      obtain ⟨u, l⟩ := rowsOf_error hD hε hε' hM hC h2 hdes hfit hr hE hfar hi hfull (j + 1)
        (by rw [List.length_cons]; omega) hjk
      simp only [List.getElem_cons_succ] at u l
      have hM0 : 0 ≤ M := (eucl_nonneg _ _).trans (hM _ (List.getElem_mem inds[i].2) _ (List.getElem_mem inds[i].2))
      have hr0 : 0 ≤ row[j] := by
        obtain ⟨idx, _, e, _⟩ := hrow.2
        have hmem : row[j] ∈ row := List.getElem_mem hjr
        obtain ⟨s, _, hs⟩ := List.mem_map.mp (e.subst (motive := fun l => row[j] ∈ l) hmem)
        rw [← hs]
        exact eucl_nonneg _ _
      have hc0 : 0 ≤ (kSmallest (k + 1) (E.map (C.cost i)))[j + 1] := by
        obtain ⟨_, _, rest, e3, _⟩ := isKS_kSmallest (k + 1) (E.map (C.cost i))
        have := e3.symm.subset (List.mem_append_left rest (List.getElem_mem hjk))
        obtain ⟨c, _, hc⟩ := List.mem_map.mp this
        rw [← hc]
        exact hC.nonneg _ hi _
      have hroot := abs_le.mp (hC.root _ hc0)
      rw [List.getD_eq_getElem _ _ (by simpa using hjk), List.getD_eq_getElem _ _ hjr, List.getElem_map]
      set c := √((kSmallest (k + 1) (E.map (C.cost i)))[j + 1])
      set t := row[j]
      have e1 : 0 ≤ ε * (t + M) := by positivity
      have e2 : ε * (ε * (t + M)) ≤ 1 / 16 * (ε * (t + M)) := by gcongr
      have e3 : 0 ≤ ε * M := by positivity
      have e4 : ε * c ≤ ε * (t + 5 * ε * (t + M)) := by gcongr
      rw [abs_le]
      constructor
      · nlinarith [hroot.1]
      · nlinarith [hroot.2]

/-- No other failure than too little fuel. -/
theorem nearestNeighborsR_cases (hD : 0 < D) {C : Computed motif.length D} {nx k : ℕ} (hx : 0 < nx) (hm : motif ≠ []) (hk : 0 < k) (hC : SelfZero C nx) (fuel : ℕ) :
    nearestNeighborsR C nx k fuel = .error .fuel ∨ ∃ rows, nearestNeighborsR C nx k fuel = .ok rows := by
  obtain ⟨dsq, h1, h2, h3⟩ := diamR_spec hD (C := C) hx hm k
  rw [nearestNeighborsR_eq _ _ h1]
  rcases nnLoopR_spec hD hx hk hC fuel _ _ (searchedTo_start hD hm C nx k dsq) with hf | ⟨d, E, hd, hok, hE, hfar⟩
  · rw [hf]; exact Or.inl rfl
  · rw [hok]; exact Or.inr ⟨_, rfl⟩

theorem nnLoopR_terminates {m : ℕ} {C : Computed m D} {nx k : ℕ} {diamSq : ℝ} (hD : 0 < D) (hx : 0 < nx) (hk : 0 < k) (hC : SelfZero C nx) {A : ℝ} {N : ℕ}
    (hN : ∀ d, N ≤ d → ∀ n ∈ intLayer D d, ∀ a, 0 ≤ a → a ≤ A → C.bound a diamSq ≤ C.norm n) :
    ∀ (f d : ℕ) (E : List (Site m D)), SearchedTo C nx k diamSq d E → (∀ row ∈ rowsOf C nx k E, ∀ r ∈ row, r ≤ A) → N < f + d →
    nnLoopR C nx k diamSq f d (rowsOf C nx k E) ≠ .error .fuel ∨ f = 0
  | 0, _, _, _, _, _ => Or.inr rfl
  | f + 1, d, E, hE, hA, hf => by
    left
    rcases nnLoopR_step hD hx hk hC hE with ⟨h1, -⟩ | ⟨E', hE', h1, n, hn, a, ha0, ⟨row, hrow, har⟩, hlt⟩
    · rw [h1 f]; simp
    · rw [h1 f]
      have hd : d < N := by
        by_contra hc
        exact absurd hlt (not_lt.mpr (hN d (not_lt.mp hc) n hn a ha0 (hA row hrow a har)))
      rcases nnLoopR_terminates hD hx hk hC hN f (d + 1) _ hE' (rowsOf_append_le hE.many hA) (by omega) with h | h
      · exact h
      · omega

/-- With accurate numbers the search ends. -/
theorem nearestNeighborsR_terminates (hD : 0 < D) (hcell : NonSingular cell) (hne : inds ≠ []) (hε' : ε ≤ 1 / 16) (hC : Accurate C cell inds ε M)
    {k : ℕ} (hk : 0 < k) : ∃ F, ∀ fuel, F ≤ fuel → ∃ rows, nearestNeighborsR C inds.length k fuel = .ok rows := by
  have hm := motif_ne_of_inds hne
  have hmpos : 0 < motif.length := List.length_pos_iff.mpr hm
  have hx : 0 < inds.length := List.length_pos_iff.mpr hne
  obtain ⟨dsq, h1, h2, -⟩ := diamR_spec hD (C := C) hx hm k
  have hdsq : 0 ≤ dsq := (hC.nonneg 0 hx _).trans (h2 0 hx ⟨0, hmpos⟩)
  have hst := searchedTo_start hD hm C inds.length k dsq
  obtain ⟨A, -, hA, -⟩ := maxLast_rowsOf C hx hk hst.many
  obtain ⟨c, hc0, hc⟩ := exists_lower_bound hcell
  set R := 2 * (√A + √dsq) with hR
  have hR0 : 0 ≤ R := by positivity
  obtain ⟨e, he⟩ := exists_nat_ge (R ^ 2 / c)
  have hN : ∀ d, e + 2 ≤ d → ∀ n ∈ intLayer D d, ∀ a, 0 ≤ a → a ≤ A → C.bound a dsq ≤ C.norm n := by
    intro d hd n hn a ha haA
    by_contra hlt
    rw [not_le] at hlt
    have h3 := Real.sqrt_le_sqrt hlt.le
    have h4 := (abs_le.mp (hC.norm n)).1
    have h5 := (abs_le.mp (hC.bound a dsq ha hdsq)).2
    have h6 : √a ≤ √A := Real.sqrt_le_sqrt haA
    have h7 : √(C.bound a dsq) ≤ 17 / 16 * (√A + √dsq) := by
      have : ε * (√a + √dsq) ≤ 1 / 16 * (√A + √dsq) := by gcongr
      linarith
    have hl0 : 0 ≤ latLength cell n := Real.sqrt_nonneg _
    have h8 : 15 / 16 * latLength cell n ≤ √(C.norm n) := by
      have : ε * latLength cell n ≤ 1 / 16 * latLength cell n := by gcongr
      linarith
    have hs0 : 0 ≤ √A + √dsq := by positivity
    have h9 : latLength cell n ≤ R := by rw [hR]; linarith
    have h10 : sqNorm (latVec cell n) ≤ R ^ 2 := by
      have e1 : latLength cell n ^ 2 = sqNorm (latVec cell n) := Real.sq_sqrt (Finset.sum_nonneg fun _ _ => sq_nonneg _)
      rw [← e1]
      exact pow_le_pow_left₀ hl0 h9 2
    rw [mem_intLayer hD] at hn
    have hn2 : ((d : ℝ) - 1) ^ 2 < (normSq n : ℝ) := by
      rcases hn.2 with h | h
      · omega
      · exact_mod_cast h
    have hd' : (e : ℝ) + 2 ≤ d := by exact_mod_cast hd
    have he0 : (0 : ℝ) ≤ e := Nat.cast_nonneg e
    have hbig : (e : ℝ) < (normSq n : ℝ) := by nlinarith
    have h11 : c * (R ^ 2 / c) < c * (normSq n : ℝ) := mul_lt_mul_of_pos_left (he.trans_lt hbig) hc0
    have h12 : c * (R ^ 2 / c) = R ^ 2 := by field_simp
    linarith [hc n]
  refine ⟨e + 3, fun fuel hf => ?_⟩
  rcases nearestNeighborsR_cases hD hx hm hk hC.selfZero fuel with h | h
  · exfalso
    rw [nearestNeighborsR_eq _ _ h1] at h
    rcases nnLoopR_terminates hD hx hk hC.selfZero hN fuel _ _ hst hA (by omega) with h' | h'
    · cases hr : nnLoopR C inds.length k dsq fuel (numLayers D motif.length k) (rowsOf C inds.length k
        (latticeSites motif.length (layersUpTo D (numLayers D motif.length k)))) with
      | error er =>
        rw [hr] at h
        injection h with h
        rw [h] at hr
        exact h' hr
      | ok r => rw [hr] at h; cases h
    · omega
  · exact h

/-! ### Without rounding -/

theorem latticeToCloud_eq_sites (l : List (Fin D → ℤ)) : latticeToCloud motif (l.map (latVec cell)) = (latticeSites motif.length l).map (sitePos motif cell) := by
  unfold latticeToCloud latticeSites
  rw [List.flatMap_map, List.map_flatMap]
  congr 1
  funext n
  rw [List.map_map]
  apply List.ext_getElem
  · simp
  · intro i h1 h2
    simp [sitePos_eq]

theorem map_eq_range {α β : Type*} (x : List α) (z : α) (f : α → β) : x.map f = (List.range x.length).map fun i => f (x.getD i z) := by
  apply List.ext_getElem
  · simp
  · intro i h1 h2
    have : i < x.length := by simpa using h1
    simp [this]

theorem cdistSq_eq_sites (x : List (Pt D ℝ)) (S : List (Site motif.length D)) :
    cdistSq x (S.map (sitePos motif cell)) = (List.range x.length).map fun i => S.map ((exactly motif cell x).cost i) := by
  unfold cdistSq
  rw [map_eq_range x 0]
  apply List.map_congr_left
  intro i _
  rw [List.map_map]
  rfl

theorem nnLoopR_exact (x : List (Pt D ℝ)) (k : ℕ) (diamSq : ℝ) : ∀ (f d : ℕ) (rows : List (List ℝ)),
    nnLoopR (exactly motif cell x) x.length k diamSq f d rows = nnLoop nearReal motif cell x k diamSq f d rows
  | 0, _, _ => rfl
  | f + 1, d, rows => by
    unfold nnLoopR nnLoop
    cases hm : maxLast rows with
    | error e => rfl
    | ok a =>
      simp only [bind, Except.bind]
      have hlat : ((intLayer D d).map (latVec cell)).filter (fun l => nearReal (sqNorm l) a diamSq) =
          ((intLayer D d).filter fun n => decide ((exactly motif cell x).norm n < (exactly motif cell x).bound a diamSq)).map (latVec cell) := by
        rw [List.filter_map]
        rfl
      rw [hlat, List.isEmpty_map]
      set L := (intLayer D d).filter fun n => decide ((exactly motif cell x).norm n < (exactly motif cell x).bound a diamSq)
      by_cases hL : L.isEmpty = true
      · rw [if_pos hL, if_pos hL]
      · rw [if_neg hL, if_neg hL, latticeToCloud_eq_sites]
        have hclose : ((latticeSites motif.length L).map (sitePos motif cell)).filter (fun c => x.any fun p => decide (sqDist p c < a)) =
            ((latticeSites motif.length L).filter fun s => (List.range x.length).any fun i => decide ((exactly motif cell x).cost i s < a)).map
              (sitePos motif cell) := by
          rw [List.filter_map]
          congr 2
          funext s
          simp only [Function.comp_apply]
          have : ∀ g : Pt D ℝ → Bool, x.any g = (List.range x.length).any fun i => g (x.getD i 0) := by
            intro g
            conv_lhs => rw [← List.map_id x, map_eq_range x 0 id, List.any_map]
            rfl
          rw [this]
          rfl
        rw [hclose, List.isEmpty_map]
        set S := (latticeSites motif.length L).filter fun s => (List.range x.length).any fun i => decide ((exactly motif cell x).cost i s < a)
        by_cases hS : S.isEmpty = true
        · rw [if_pos hS, if_pos hS]
        · rw [if_neg hS, if_neg hS, cdistSq_eq_sites, List.map_map]
          have : (kSmallest k ∘ fun i => S.map ((exactly motif cell x).cost i)) = fun i => kSmallest k (S.map ((exactly motif cell x).cost i)) := rfl
          rw [this]
          cases mergeRows rows _ with
          | error e => rfl
          | ok rows' => exact nnLoopR_exact x k diamSq f (d + 1) rows'

/-- Exact numbers give the model without rounding. -/
theorem nearestNeighborsR_exact (motif : List (Pt D ℝ)) (cell : Fin D → Pt D ℝ) (x : List (Pt D ℝ)) (k fuel : ℕ) :
    nearestNeighborsR (exactly motif cell x) x.length k fuel = nearestNeighbors motif cell x k fuel := by
  unfold nearestNeighborsR nearestNeighbors nearestNeighborsSq
  simp only
  rw [latticeToCloud_eq_sites, cdistSq_eq_sites]
  generalize maxE (K := ℝ) _ = o
  cases o with
  | error e => rfl
  | ok a =>
    simp only [bind, Except.bind]
    rw [nnLoopR_exact]
    cases nnLoop nearReal motif cell x k a fuel _ _ <;> rfl

end

end Amd
