import Verif.Proof.SitesRead
import Verif.Props.Nearby
import Verif.Spec.DescribedNear

/-! Invariants of descriptions of crystals that are almost the same. -/

namespace Amd

open Classical

/-! ### Rows of two sets that are almost the same -/

section
variable {D k : ℕ} {S S' : PeriodicSet D} {R : Fin S.motif.length → List ℝ} {R' : Fin S'.motif.length → List ℝ} {δ : ℝ}

/-- The means of rows. -/
noncomputable def rowMeans {m : ℕ} (k : ℕ) (R : Fin m → List ℝ) : List ℝ := (List.range k).map fun j => (∑ i, (R i).getD j 0) / m

theorem almostListed_nonneg (h : AlmostIsometricListed δ S S') (hne : S.motif ≠ []) : 0 ≤ δ := by
  obtain ⟨φ, h⟩ := h
  exact (abs_nonneg _).trans (h (⟨0, List.length_pos_iff.2 hne⟩, 0) (⟨0, List.length_pos_iff.2 hne⟩, 0))

theorem almostListed_amd (hD : 0 < D) (hc : NonSingular S.cell) (hc' : NonSingular S'.cell) (hne : S.motif ≠ []) (hne' : S'.motif ≠ []) (h : AlmostIsometricListed δ S S')
    (hR : ∀ i, IsNeighbourRow S.motif S.cell i k (R i)) (hR' : ∀ i, IsNeighbourRow S'.motif S'.cell i k (R' i)) : chebyshev (rowMeans k R) (rowMeans k R') ≤ δ := by
  have h0 := almostListed_nonneg h hne
  obtain ⟨φ, h⟩ := h
  obtain ⟨g, hg, hgd⟩ := site_plan hD hc hc' hne hne' φ h
  refine (chebyshev_le_iff (by simp [rowMeans])).2 ⟨h0, fun t ht => ?_⟩
  have ht' : t < k := by simpa [rowMeans] using ht
  have := mean_of_plan (x := fun i => (R i).getD t 0) (y := fun i => (R' i).getD t 0) (List.length_pos_iff.2 hne) hg fun i l hil => hgd i l hil k _ _ (hR i) (hR' l) t ht'
  simpa [rowMeans, ht'] using this

theorem almostListed_pdd (hD : 0 < D) (hc : NonSingular S.cell) (hc' : NonSingular S'.cell) (hne : S.motif ≠ []) (hne' : S'.motif ≠ []) (h : AlmostIsometricListed δ S S')
    (hR : ∀ i, IsNeighbourRow S.motif S.cell i k (R i)) (hR' : ∀ i, IsNeighbourRow S'.motif S'.cell i k (R' i)) (hl : S.motif.length ≤ 100000000)
    (hl' : S'.motif.length ≤ 100000000) {p p' : List (PRow ℝ)} (hp : WeightedRows k p) (hp' : WeightedRows k p')
    (hw : ∀ x, weightAt p x = (∑ i, (if R i = x then (1 : ℝ) else 0)) / S.motif.length)
    (hw' : ∀ x, weightAt p' x = (∑ i, (if R' i = x then (1 : ℝ) else 0)) / S'.motif.length) : exactEmd chebyshev p p' ≤ δ := by
  have h0 := almostListed_nonneg h hne
  obtain ⟨φ, h⟩ := h
  obtain ⟨g, hg, hgd⟩ := site_plan hD hc hc' hne hne' φ h
  exact exactEmd_of_plan (List.length_pos_iff.2 hne) (List.length_pos_iff.2 hne') hl hl' (fun i => (hR i).1) (fun j => (hR' j).1) hg h0
      (fun i j hij => hgd i j hij k _ _ (hR i) (hR' j)) hp hp' hw hw'

end

/-! ### Crystals with sites that do not overlap -/

section
variable {c c' : Described} {S S' : PeriodicSet 3} {k : ℕ} {δ : ℝ}

theorem bijOn_isometry {T : Pt 3 ℝ → Pt 3 ℝ} (hT : ∀ p q, eucl (T p) (T q) = eucl p q) {P Q : Set (Pt 3 ℝ)} (h : Q = T '' P) : Set.BijOn T P Q := by
  rw [h]
  exact ((isometry_injective hT).injOn).bijOn_image

theorem ReadFacts.almost (h : ReadFacts c S) (h' : ReadFacts c' S') (hn : DescribeNear δ c c') : AlmostIsometricListed δ S S' := by
  obtain ⟨cell, cell', hc, hc', f, hf, hd⟩ := hn
  obtain ⟨_, _, hdesc⟩ := h.desc
  obtain ⟨_, _, hdesc'⟩ := h'.desc
  have hg' := gram_of_cellpar hc' h'.cell
  obtain ⟨T1, h1, p1⟩ := crystalPoints_congr (gram_of_cellpar h.cell hc) hdesc.cell c.ops c.sites
  obtain ⟨T2, h2, p2⟩ := crystalPoints_congr hg' (nonSingular_congr (fun i j => (hg' i j).symm) hdesc'.cell) c'.ops c'.sites
  have b1 : Set.BijOn T1 (periodicPoints S.motif S.cell) (c.points cell) := bijOn_isometry h1 (by rw [h.points]; exact p1)
  have b2 : Set.BijOn T2 (c'.points cell') (periodicPoints S'.motif S'.cell) := bijOn_isometry h2 (by rw [h'.points]; exact p2)
  obtain ⟨φ, hφ⟩ := exists_sitePairing hdesc.once hdesc'.once (b2.comp (hf.comp b1))
  refine ⟨φ, fun s t => ?_⟩
  rw [hφ, hφ]
  simp only [Function.comp]
  rw [h2, ← h1 (sitePos S.motif S.cell s)]
  exact hd _ (b1.mapsTo ⟨s, rfl⟩) _ (b1.mapsTo ⟨t, rfl⟩)

theorem ReadFacts.amd_means (h : ReadFacts c S) {R : Fin S.motif.length → List ℝ} (hR : MotifRows (periodicPoints S.motif S.cell) k S.motif S.cell R) {a : List ℝ}
    (ha : c.IsAMD k a) : a = rowMeans k R := by
  obtain ⟨cell, hc, ha⟩ := ha
  obtain ⟨T, hT, hP⟩ := h.moved hc
  exact (IsCrystalAMD.unique (by norm_num) ⟨_, _, R, hR, rfl⟩ ha hT hP).symm

theorem ReadFacts.pdd_weights (h : ReadFacts c S) {R : Fin S.motif.length → List ℝ} (hR : MotifRows (periodicPoints S.motif S.cell) k S.motif S.cell R) {p : List (PRow ℝ)}
    (hp : c.IsPDD k p) (x : List ℝ) : weightAt p x = (∑ i, (if R i = x then (1 : ℝ) else 0)) / S.motif.length := by
  obtain ⟨cell, hc, -, m, b, R', hR', hp⟩ := hp
  obtain ⟨T, hT, hP⟩ := h.moved hc
  rw [hp]
  exact (hR.mean (by norm_num) hR' hT hP fun r => if r = x then (1 : ℝ) else 0).symm

theorem DescribeNear.amd (h : ReadFacts c S) (h' : ReadFacts c' S') (hn : DescribeNear δ c c') {a a' : List ℝ} (ha : c.IsAMD k a) (ha' : c'.IsAMD k a') :
    chebyshev a a' ≤ δ := by
  obtain ⟨_, _, hd⟩ := h.desc
  obtain ⟨_, _, hd'⟩ := h'.desc
  obtain ⟨R, hR, hn1⟩ := hd.motifRows (by norm_num) k
  obtain ⟨R', hR', hn2⟩ := hd'.motifRows (by norm_num) k
  rw [h.amd_means hR ha, h'.amd_means hR' ha']
  exact almostListed_amd (by norm_num) hd.cell hd'.cell hd.nonempty hd'.nonempty (h.almost h' hn) hn1 hn2

theorem DescribeNear.pdd (h : ReadFacts c S) (h' : ReadFacts c' S') (hl : c.size ≤ 100000000) (hl' : c'.size ≤ 100000000) (hn : DescribeNear δ c c') {p p' : List (PRow ℝ)}
    (hp : c.IsPDD k p) (hp' : c'.IsPDD k p') : exactEmd chebyshev p p' ≤ δ := by
  obtain ⟨_, _, hd⟩ := h.desc
  obtain ⟨_, _, hd'⟩ := h'.desc
  obtain ⟨R, hR, hn1⟩ := hd.motifRows (by norm_num) k
  obtain ⟨R', hR', hn2⟩ := hd'.motifRows (by norm_num) k
  exact almostListed_pdd (by norm_num) hd.cell hd'.cell hd.nonempty hd'.nonempty (h.almost h' hn) hn1 hn2 (h.size.trans hl) (h'.size.trans hl')
    (by obtain ⟨_, _, hw, -⟩ := hp; exact hw) (by obtain ⟨_, _, hw, -⟩ := hp'; exact hw) (h.pdd_weights hR hp) (h'.pdd_weights hR' hp')

end

/-! ### Crystals with overlapping sites -/

section
variable {c c' : SitesDescribed} {S S' : PeriodicSet 3} {k : ℕ} {δ : ℝ}

theorem listed_card {cell : Fin 3 → Pt 3 ℝ} (p : Pt 3 ℝ) : Nat.card {s : c.Listed cell // (s.2 : Pt 3 ℝ) = p} = c.times cell p := by
  rw [SitesDescribed.times, ← card_countP c.sites fun x => p ∈ crystalPoints cell c.ops {x}]
  refine Nat.card_congr ⟨fun s => ⟨s.1.1, by obtain ⟨⟨i, q, hq⟩, rfl⟩ := s; exact hq⟩, fun i => ⟨⟨i.1, p, i.2⟩, rfl⟩, fun s => ?_, fun i => rfl⟩
  obtain ⟨⟨i, q, hq⟩, rfl⟩ := s
  rfl

theorem listed_finite {cell : Fin 3 → Pt 3 ℝ} (p : Pt 3 ℝ) : Finite {s : c.Listed cell // (s.2 : Pt 3 ℝ) = p} := by
  refine Finite.of_injective (β := Fin c.sites.length) (fun s => s.1.1) ?_
  rintro ⟨⟨i, q, hq⟩, rfl⟩ ⟨⟨j, q', hq'⟩, h⟩ (e : i = j)
  subst e
  have h : q' = q := h
  subst h
  rfl

/-- The sites of a set that lists the crystal are the listed points. -/
theorem SitesFacts.listed (h : SitesFacts c S) {cell : Fin 3 → Pt 3 ℝ} (hc : c.HasCell cell) :
    ∃ T : Pt 3 ℝ → Pt 3 ℝ, (∀ p q, eucl (T p) (T q) = eucl p q) ∧
      ∃ e : Site S.motif.length 3 ≃ c.Listed cell, ∀ s, ((e s).2 : Pt 3 ℝ) = T (sitePos S.motif S.cell s) := by
  obtain ⟨T, hT, ht⟩ := h.moved hc
  obtain ⟨_, _, hl⟩ := h.listing
  refine ⟨T, hT, ?_⟩
  let τ := Equiv.ofBijective T ⟨isometry_injective hT, isometry_surjective hT⟩
  have hn : ∀ p, Nonempty ({s // sitePos S.motif S.cell s = p} ≃ {t : c.Listed cell // (t.2 : Pt 3 ℝ) = τ p}) := by
    intro p
    have := finite_sitesAt (S := S) (by norm_num) hl.cell p
    have := listed_finite (c := c) (cell := cell) (τ p)
    refine Finite.card_eq.1 ?_
    rw [listed_card]
    exact (ht p).symm
  let e := fun p => Classical.choice (hn p)
  exact ⟨(Equiv.sigmaFiberEquiv (sitePos S.motif S.cell)).symm.trans ((Equiv.sigmaCongr τ fun p => e p).trans (Equiv.sigmaFiberEquiv fun t : c.Listed cell => (t.2 : Pt 3 ℝ))),
    fun s => (e (sitePos S.motif S.cell s) ⟨s, rfl⟩).2⟩

theorem SitesFacts.almost (h : SitesFacts c S) (h' : SitesFacts c' S') (hn : SitesNear δ c c') : AlmostIsometricListed δ S S' := by
  obtain ⟨cell, cell', hc, hc', φ, hd⟩ := hn
  obtain ⟨T, hT, e, he⟩ := h.listed hc
  obtain ⟨T', hT', e', he'⟩ := h'.listed hc'
  refine ⟨(e.trans φ).trans e'.symm, fun s t => ?_⟩
  have hp : ∀ u : c'.Listed cell', (u.2 : Pt 3 ℝ) = T' (sitePos S'.motif S'.cell (e'.symm u)) := by
    intro u
    obtain ⟨v, rfl⟩ := e'.surjective u
    rw [Equiv.symm_apply_apply]
    exact he' v
  have h3 := hd (e s) (e t)
  rw [hp, hp, he, he, hT', hT] at h3
  exact h3

theorem SitesFacts.amd_means (h : SitesFacts c S) {R : Fin S.motif.length → List ℝ} (hR : ListedRows (timesListed S) k S.motif S.cell R) {a : List ℝ}
    (ha : c.IsAMD k a) : a = rowMeans k R := by
  obtain ⟨cell, hc, ha⟩ := ha
  obtain ⟨T, hT, ht⟩ := h.moved hc
  exact (IsListedAMD.unique (by norm_num) ⟨_, _, R, hR, rfl⟩ ha hT ht).symm

theorem SitesFacts.pdd_weights (h : SitesFacts c S) {R : Fin S.motif.length → List ℝ} (hR : ListedRows (timesListed S) k S.motif S.cell R) {p : List (PRow ℝ)}
    (hp : c.IsPDD k p) (x : List ℝ) : weightAt p x = (∑ i, (if R i = x then (1 : ℝ) else 0)) / S.motif.length := by
  obtain ⟨cell, hc, -, m, b, R', hR', hp⟩ := hp
  obtain ⟨T, hT, ht⟩ := h.moved hc
  rw [hp]
  exact (hR.mean (by norm_num) hR' hT ht fun r => if r = x then (1 : ℝ) else 0).symm

theorem SitesNear.amd (h : SitesFacts c S) (h' : SitesFacts c' S') (hn : SitesNear δ c c') {a a' : List ℝ} (ha : c.IsAMD k a) (ha' : c'.IsAMD k a') : chebyshev a a' ≤ δ := by
  obtain ⟨_, _, hd⟩ := h.listing
  obtain ⟨_, _, hd'⟩ := h'.listing
  obtain ⟨R, hR⟩ := hd.listedRows (by norm_num) k
  obtain ⟨R', hR'⟩ := hd'.listedRows (by norm_num) k
  rw [h.amd_means hR ha, h'.amd_means hR' ha']
  exact almostListed_amd (by norm_num) hd.cell hd'.cell hd.nonempty hd'.nonempty (h.almost h' hn) hR.rows hR'.rows

theorem SitesNear.pdd (h : SitesFacts c S) (h' : SitesFacts c' S') (hl : c.size ≤ 100000000) (hl' : c'.size ≤ 100000000) (hn : SitesNear δ c c') {p p' : List (PRow ℝ)}
    (hp : c.IsPDD k p) (hp' : c'.IsPDD k p') : exactEmd chebyshev p p' ≤ δ := by
  obtain ⟨_, _, hd⟩ := h.listing
  obtain ⟨_, _, hd'⟩ := h'.listing
  obtain ⟨R, hR⟩ := hd.listedRows (by norm_num) k
  obtain ⟨R', hR'⟩ := hd'.listedRows (by norm_num) k
  exact almostListed_pdd (by norm_num) hd.cell hd'.cell hd.nonempty hd'.nonempty (h.almost h' hn) hR.rows hR'.rows (h.size.trans hl) (h'.size.trans hl')
    (by obtain ⟨_, _, hw, -⟩ := hp; exact hw) (by obtain ⟨_, _, hw, -⟩ := hp'; exact hw) (h.pdd_weights hR hp) (h'.pdd_weights hR' hp')

end

/-! ### Moved sites -/

section
variable {cell : Fin 3 → Pt 3 ℝ} {G : Set (FracOp 3)} {P : Set (Pt 3 ℝ)} {τ : Pt 3 ℝ → Pt 3 ℝ} {ε : ℝ}

/-- Moving the sites moves all points. -/
theorem crystalPoints_moved (hns : NonSingular cell) (hG : IsSpaceGroup cell G) (hs : ∀ p ∈ P, ∀ q ∈ P, SameImages G p q (τ p) (τ q))
    (hε : ∀ p ∈ P, eucl (cartesian cell p) (cartesian cell (τ p)) ≤ ε) :
    ∃ f : Pt 3 ℝ → Pt 3 ℝ, Set.BijOn f (crystalPoints cell G P) (crystalPoints cell G (τ '' P)) ∧ ∀ p ∈ crystalPoints cell G P, eucl p (f p) ≤ ε := by
  have key : ∀ p ∈ P, ∀ q ∈ P, ∀ g ∈ G, ∀ h ∈ G, ∀ n m : Fin 3 → ℤ,
      (cartesian cell (fun i => opPoint g p i + n i) = cartesian cell fun i => opPoint h q i + m i) ↔
        cartesian cell (fun i => opPoint g (τ p) i + n i) = cartesian cell fun i => opPoint h (τ q) i + m i := by
    intro p hp q hq g hg h hh n m
    have e := hs p hp q hq g hg h hh fun i => m i - n i
    have r : ∀ x y : Pt 3 ℝ, (cartesian cell (fun i => x i + n i) = cartesian cell fun i => y i + m i) ↔ ∀ i, x i = y i + ((m i - n i : ℤ) : ℝ) := by
      intro x y
      constructor
      · intro h0 i
        have := congrFun (cartesian_injective hns h0) i
        push_cast
        linarith
      · intro h0
        congr 1
        funext i
        have := h0 i
        push_cast at this
        linarith
    rw [r, r]
    exact e
  have hex : ∀ x, ∃ y, ∀ p ∈ P, ∀ g ∈ G, ∀ n : Fin 3 → ℤ, x = cartesian cell (fun i => opPoint g p i + n i) → y = cartesian cell fun i => opPoint g (τ p) i + n i := by
    intro x
    by_cases hx : x ∈ crystalPoints cell G P
    · obtain ⟨p, hp, g, hg, n, rfl⟩ := hx
      exact ⟨_, fun q hq h hh m e => (key p hp q hq g hg h hh n m).1 e⟩
    · exact ⟨x, fun p hp g hg n e => absurd ⟨p, hp, g, hg, n, e⟩ hx⟩
  choose f hf using hex
  refine ⟨f, ⟨?_, ?_, ?_⟩, ?_⟩
  · rintro x ⟨p, hp, g, hg, n, e⟩
    exact ⟨τ p, ⟨p, hp, rfl⟩, g, hg, n, hf x p hp g hg n e⟩
  · rintro x ⟨p, hp, g, hg, n, e⟩ y ⟨q, hq, h, hh, m, e'⟩ hxy
    rw [hf x p hp g hg n e, hf y q hq h hh m e'] at hxy
    rw [e, e']
    exact (key p hp q hq g hg h hh n m).2 hxy
  · rintro y ⟨_, ⟨p, hp, rfl⟩, g, hg, n, rfl⟩
    exact ⟨_, ⟨p, hp, g, hg, n, rfl⟩, hf _ p hp g hg n rfl⟩
  · rintro x ⟨p, hp, g, hg, n, rfl⟩
    rw [hf _ p hp g hg n rfl]
    refine le_trans (le_of_eq ?_) (hε p hp)
    rw [← hG.isometry g hg p]
    have hc : ∀ y : Pt 3 ℝ, cartesian cell (fun i => y i + n i) = cartesian cell y + cartesian cell fun i => (n i : ℝ) := by
      intro y
      funext b
      simp [cartesian, add_mul, Finset.sum_add_distrib]
    rw [hc, hc]
    unfold eucl sqDist
    simp

end

theorem two_moved {x y x' y' : Pt 3 ℝ} {ε : ℝ} (hx : eucl x x' ≤ ε) (hy : eucl y y' ≤ ε) : |eucl x' y' - eucl x y| ≤ 2 * ε := by
  have t1 := eucl_triangle x x' y'
  have t2 := eucl_triangle x y y'
  have t3 := eucl_triangle x' x y
  have t4 := eucl_triangle x' y' y
  have t5 := eucl_triangle x x' y
  have t6 := eucl_triangle x' y y'
  rw [abs_le]
  have s1 := eucl_comm x x'
  have s2 := eucl_comm y y'
  constructor <;> linarith

theorem SitesMoved.near {c c' : Described} {ε : ℝ} (hp : c.Proper) (h : SitesMoved ε c c') : DescribeNear (2 * ε) c c' := by
  obtain ⟨cell, hc, hns, hG⟩ := hp.group
  obtain ⟨e1, e2, τ, e3, hs, hε⟩ := h
  obtain ⟨f, hf, hd⟩ := crystalPoints_moved hns hG hs (hε cell hc)
  refine ⟨cell, cell, hc, by rw [Described.HasCell, e1]; exact hc, f, ?_, fun p hp q hq => two_moved (hd p hp) (hd q hq)⟩
  rw [Described.points, Described.points, e2, e3]
  exact hf

theorem ListedSitesMoved.near {c c' : SitesDescribed} {ε : ℝ} (hp : c.Proper) (h : ListedSitesMoved ε c c') : SitesNear (2 * ε) c c' := by
  obtain ⟨cell, hc, hns, hG⟩ := hp.group
  obtain ⟨e1, e2, hf⟩ := h
  have hl := hf.length_eq
  have hi : ∀ i : Fin c.sites.length, ∃ f : Pt 3 ℝ → Pt 3 ℝ,
      Set.BijOn f (crystalPoints cell c.ops {c.sites[i]}) (crystalPoints cell c'.ops {c'.sites[finCongr hl i]}) ∧ ∀ p ∈ crystalPoints cell c.ops {c.sites[i]}, eucl p (f p) ≤ ε := by
    intro i
    have h0 := (List.forall₂_iff_get.1 hf).2 i i.2 (hl ▸ i.2)
    have := crystalPoints_moved (P := {c.sites[i]}) (τ := fun _ => c'.sites[finCongr hl i]) (ε := ε) hns hG
      (by rintro p rfl q rfl; exact h0.1) (by rintro p rfl; exact h0.2 cell hc)
    rw [Set.image_singleton, ← e2] at this
    rw [← e2]
    exact this
  choose f hf hd using hi
  refine ⟨cell, cell, hc, by rw [SitesDescribed.HasCell, e1]; exact hc, Equiv.sigmaCongr (finCongr hl) fun i => (hf i).equiv, ?_⟩
  rintro ⟨i, p, hp⟩ ⟨j, q, hq⟩
  exact two_moved (hd i p hp) (hd j q hq)

end Amd
