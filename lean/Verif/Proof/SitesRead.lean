import Verif.Proof.ListsOrbits
import Verif.Props.Repeated
import Verif.Proof.Described
import Verif.Proof.AllSites
import Verif.Spec.AllSitesCompare

/-! Descriptions of crystals with overlapping sites, sets that list them, and their invariants. -/

namespace Amd

open Classical

section
variable {D : ℕ} {times times' : Pt D ℝ → ℕ} {k : ℕ} {motif motif' : List (Pt D ℝ)} {cell cell' : Fin D → Pt D ℝ} {R : Fin motif.length → List ℝ} {R' : Fin motif'.length → List ℝ}
  {T : Pt D ℝ → Pt D ℝ}

/-- The mean over a motif does not depend on the motif, nor on the position of the crystal in space. -/
theorem ListedRows.mean (hD : 0 < D) (h : ListedRows times k motif cell R) (h' : ListedRows times' k motif' cell' R') (hT : ∀ p q, eucl (T p) (T q) = eucl p q)
    (ht : ∀ p, times' (T p) = times p) (φ : List ℝ → ℝ) : (∑ i, φ (R i)) / motif.length = (∑ i, φ (R' i)) / motif'.length := by
  have hc : Carries T { motif := motif, cell := cell } { motif := motif', cell := cell' } := ⟨hT, fun p => by rw [h.times, h'.times, ht]⟩
  obtain ⟨σ, hσ⟩ := IsometricListed.almost hD (S := { motif := motif, cell := cell }) (S' := { motif := motif', cell := cell' }) h.independent h'.independent h.nonempty ⟨T, hc⟩
  obtain ⟨g, hg, hgd⟩ := site_plan hD h.independent h'.independent h.nonempty h'.nonempty σ hσ
  have := mean_of_plan (δ := 0) (x := fun i => φ (R i)) (y := fun i => φ (R' i)) (List.length_pos_iff.2 h.nonempty) hg fun i l hil => by
    have e : R i = R' l := by
      refine List.ext_getElem ((h.rows i).1.trans (h'.rows l).1.symm) fun n h1 h2 => ?_
      have h3 := hgd i l hil k _ _ (h.rows i) (h'.rows l) n (by rw [← (h.rows i).1]; exact h1)
      rw [List.getD_eq_getElem _ _ h1, List.getD_eq_getElem _ _ h2] at h3
      exact sub_eq_zero.1 (abs_eq_zero.1 (le_antisymm h3 (abs_nonneg _)))
    rw [e, sub_self, abs_zero]
  exact sub_eq_zero.1 (abs_eq_zero.1 (le_antisymm this (abs_nonneg _)))

theorem IsListedAMD.unique (hD : 0 < D) {a a' : List ℝ} (h : IsListedAMD times k a) (h' : IsListedAMD times' k a') (hT : ∀ p q, eucl (T p) (T q) = eucl p q)
    (ht : ∀ p, times' (T p) = times p) : a = a' := by
  obtain ⟨m, c, R, hR, rfl⟩ := h
  obtain ⟨m', c', R', hR', rfl⟩ := h'
  exact List.map_congr_left fun j _ => hR.mean hD hR' hT ht fun r => r.getD j 0

theorem IsListedPDD.unique (hD : 0 < D) {p p' : List (PRow ℝ)} (h : IsListedPDD times k p) (h' : IsListedPDD times' k p') (hT : ∀ p q, eucl (T p) (T q) = eucl p q)
    (ht : ∀ p, times' (T p) = times p) (x : List ℝ) : weightAt p x = weightAt p' x := by
  obtain ⟨-, m, c, R, hR, hp⟩ := h
  obtain ⟨-, m', c', R', hR', hp'⟩ := h'
  rw [hp, hp']
  exact hR.mean hD hR' hT ht fun r => if r = x then (1 : ℝ) else 0

variable {S : PeriodicSet D} {inds : List (Fin S.motif.length)} {mult : List ℕ}

theorem IsListing.listedRows (hD : 0 < D) (h : IsListing S inds mult) (k : ℕ) :
    ∃ R, ListedRows (timesListed S) k S.motif S.cell R := by
  choose R hR using fun i : Fin S.motif.length => exists_neighbourRow hD h.cell i k
  exact ⟨R, h.cell, h.nonempty, fun p => rfl, hR⟩

theorem AMD_isListedAMD (hD : 0 < D) (h : IsListing S inds mult) (hs : Searchable S.motif S.cell (k + 1)) {fuel : ℕ} {a : List ℝ} (ha : AMD S k fuel = .ok a) :
    IsListedAMD (timesListed S) k a := by
  obtain ⟨R, hR⟩ := h.listedRows hD k
  refine ⟨S.motif, S.cell, R, hR, ?_⟩
  rw [AMD_eq_rows hD h.units h.inds_ne hs ha fun i _ => hR.rows i]
  refine List.map_congr_left fun j _ => ?_
  rw [zipWith_swap, h.sum_fun hD hR.rows fun r => r.getD j 0, h.sum_mult]

theorem PDD_isListedPDD (hD : 0 < D) (h : IsListing S inds mult) (hl : S.motif.length ≤ 100000000) (hs : Searchable S.motif S.cell (k + 1)) {lexsort : Bool}
    {tol : ℝ} {fuel : ℕ} {p : List (PRow ℝ)} (hp : PDD S k lexsort false tol fuel = .ok p) : IsListedPDD (timesListed S) k p := by
  obtain ⟨R, hR⟩ := h.listedRows hD k
  exact ⟨EMD_input_of_PDD hD h.units h.inds_ne h.pos h.sum hl hp, S.motif, S.cell, R, hR, fun x => h.weightAt_PDD hD hs hR.rows hp x⟩

/-- The computed PDD is within what merging allows of the PDD of the crystal. -/
theorem PDD_near_listed (hD : 0 < D) (h : IsListing S inds mult) (hl : S.motif.length ≤ 100000000) (hs : Searchable S.motif S.cell (k + 1)) {lexsort collapse : Bool}
    {tol : ℝ} (htol : 0 ≤ tol) {fuel : ℕ} {p : List (PRow ℝ)} (hp : PDD S k lexsort collapse tol fuel = .ok p) (hT : ∀ p q, eucl (T p) (T q) = eucl p q)
    (ht : ∀ p, times (T p) = timesListed S p) {q : List (PRow ℝ)} (hq : IsListedPDD times k q) :
    WeightedRows k p ∧ exactEmd chebyshev p q ≤ collapseError collapse tol := by
  have hw := EMD_input_of_PDD hD h.units h.inds_ne h.pos h.sum hl hp
  refine ⟨hw, ?_⟩
  cases collapse with
  | false =>
    rw [exactEmd_zero (EMD_default_metric k) hw hq.1 ((PDD_isListedPDD hD h hl hs hp).unique hD hq hT ht)]
    simp [collapseError]
  | true =>
    obtain ⟨rows, hr, -⟩ := PDD_rows hD h.units h.inds_ne hp
    obtain ⟨b, hb⟩ := PDD_ok_of hD h.units h.inds_ne k false false tol hr
    have hwb := EMD_input_of_PDD hD h.units h.inds_ne h.pos h.sum hl hb
    have h1 := exactEmd_collapse hD h.units h.inds_ne htol hp hb hw hwb
    have h3 := exactEmd_zero (EMD_default_metric k) hwb hq.1 ((PDD_isListedPDD hD h hl hs hb).unique hD hq hT ht)
    have t1 := exactEmd_triangle (EMD_default_metric k) hw hwb hq.1
    rw [exactEmd_symm (EMD_default_metric k) hwb hw] at t1
    simp only [collapseError, if_true]
    linarith

theorem exists_listedAMD (hD : 0 < D) (h : IsListing S inds mult) (k : ℕ) : ∃ a, IsListedAMD (timesListed S) k a := by
  obtain ⟨R, hR⟩ := h.listedRows hD k
  exact ⟨_, _, _, R, hR, rfl⟩

theorem exists_listedPDD (hD : 0 < D) (h : IsListing S inds mult) (hl : S.motif.length ≤ 100000000) (k : ℕ) : ∃ p, IsListedPDD (timesListed S) k p := by
  obtain ⟨R, hR⟩ := h.listedRows hD k
  have hpos := List.length_pos_iff.2 h.nonempty
  exact ⟨_, fullRows_weighted hpos hl fun i => (hR.rows i).1, _, _, R, hR, fun x => fullRows_weightAt R x⟩

end

/-! ### Sets that list what is described -/

variable {c c' : SitesDescribed} {S S' : PeriodicSet 3}

/-- The set lists the crystal that is described. -/
structure SitesFacts (c : SitesDescribed) (S : PeriodicSet 3) : Prop where
  cell : c.HasCell S.cell
  listing : ∃ inds mult, IsListing S inds mult
  fits : FitsInCell S.motif S.cell
  size : S.motif.length ≤ c.size
  times : ∀ p, timesListed S p = c.times S.cell p

theorem orbits_size {G : Set (FracOp 3)} (hG : G.Finite) {orbits : List SiteOrbit} (h : ListsOrbits G orbits S) : S.motif.length ≤ orbits.length * G.ncard := by
  rw [h.motif, List.length_flatMap]
  have h1 := h.once
  have h2 := h.orbit
  clear h
  induction orbits with
  | nil => simp
  | cons x orbits ih =>
    have hx : x.points.length ≤ 1 * G.ncard :=
      size_of_points hG (n := 1) (fun _ => x.site) (P := {x.site}) (fun y hy => ⟨0, hy.symm⟩) (h1 x (by simp)) (h2 x (by simp))
    have := ih (fun y hy => h1 y (by simp [hy])) (fun y hy => h2 y (by simp [hy]))
    rw [List.map_cons, List.sum_cons, List.length_cons, Nat.add_mul]
    omega

theorem ListsOrbits.facts (hc : c.Comparable) (hcell : c.HasCell S.cell) {orbits : List SiteOrbit} (h : ListsOrbits c.ops orbits S) (hs : orbits.map SiteOrbit.site = c.sites) :
    SitesFacts c S := by
  obtain ⟨cell, hcell', hns, hG⟩ := hc.proper.group
  have hgram := gram_of_cellpar hcell' hcell
  have hns' := nonSingular_congr hgram hns
  refine ⟨hcell, h.listing hns' (isSpaceGroup_congr hgram hG) fun h0 => hc.nonempty (by rw [← hs, h0]; rfl), h.inside, ?_, fun p => ?_⟩
  · have := orbits_size hc.finiteOps h
    rwa [SitesDescribed.size, ← hs, List.length_map]
  · rw [h.times hns', hs]
    rfl

/-- There is a set that lists the crystal. -/
theorem SitesDescribed.Comparable.reads (h : c.Comparable) : ∃ S, SitesFacts c S := by
  obtain ⟨ops, hops⟩ := exists_opSet h.finiteOps
  obtain ⟨cell, hcell, hns, hG⟩ := h.proper.group
  have hne : ops ≠ [] := by
    rintro rfl
    obtain ⟨g, hg, -⟩ := hG.one
    rw [← hops] at hg
    obtain ⟨o, ho, -⟩ := hg
    cases ho
  obtain ⟨hL, -⟩ := assemble_all (name := "") hns hne c.sites (List.replicate c.sites.length 0) (by simp) (by rw [hops]; exact h.proper.exact)
  rw [hops] at hL
  refine ⟨_, ListsOrbits.facts h (by exact hcell) hL ?_⟩
  rw [List.map_map]
  exact List.map_fst_zip (by simp)

theorem SitesFacts.valid (h : SitesFacts c S) (he : c.size ≤ 100000000) (n : String) : (⟨n, 3, S⟩ : Crystal).Valid := by
  obtain ⟨inds, mult, hl⟩ := h.listing
  exact ⟨Nat.succ_pos 2, hl.cell, h.size.trans he, inds, mult, hl.units, hl.inds_ne, hl.pos, hl.sum⟩

theorem SitesFacts.searchable (h : SitesFacts c S) {k : ℕ} (hk : c.WellShaped k) : Searchable S.motif S.cell (k + 1) := by
  obtain ⟨cell, hc, hk⟩ := hk
  have hg := gram_of_cellpar hc h.cell
  rcases hk with hk | ⟨hr, hk⟩
  · exact searchable_of_halfDominant (by decide) (halfDominant_congr hg hk) h.fits _
  · exact searchable_of_reduced (reduced_congr hg hr) h.fits (h.size.trans hk)

theorem SitesFacts.edge (h : SitesFacts c S) : eucl (S.cell 0) 0 = c.cell.a ∧ (0 : ℝ) ≤ c.cell.a := by
  obtain ⟨⟨h0, h1⟩, -⟩ := h.cell
  refine ⟨?_, h0⟩
  have : sqDist (S.cell 0) 0 = (c.cell.a : ℝ) ^ 2 := by
    rw [← h1]
    unfold sqDist
    simp
  rw [eucl, this, Real.sqrt_sq h0]

variable {k : ℕ}

/-- Listing does not depend on the vectors of the cell, up to isometry. -/
theorem times_congr {cell cell' : Fin 3 → Pt 3 ℝ} (hc : c.HasCell cell) (hc' : c.HasCell cell') (hns : NonSingular cell) :
    ∃ T : Pt 3 ℝ → Pt 3 ℝ, (∀ p q, eucl (T p) (T q) = eucl p q) ∧ ∀ p, c.times cell' (T p) = c.times cell p := by
  obtain ⟨T, hT, hP⟩ := crystalPoints_uniform (gram_of_cellpar hc hc') hns c.ops
  refine ⟨T, hT, fun p => List.countP_congr fun x _ => ?_⟩
  rw [decide_eq_true_iff, decide_eq_true_iff, hP, (isometry_injective hT).mem_set_image]

theorem SitesFacts.moved (h : SitesFacts c S) {cell : Fin 3 → Pt 3 ℝ} (hc : c.HasCell cell) :
    ∃ T : Pt 3 ℝ → Pt 3 ℝ, (∀ p q, eucl (T p) (T q) = eucl p q) ∧ ∀ p, c.times cell (T p) = timesListed S p := by
  obtain ⟨_, _, hl⟩ := h.listing
  obtain ⟨T, hT, ht⟩ := times_congr h.cell hc hl.cell
  exact ⟨T, hT, fun p => by rw [ht, h.times]⟩

theorem SitesFacts.exists_amd (h : SitesFacts c S) (k : ℕ) : ∃ a, c.IsAMD k a := by
  obtain ⟨_, _, hl⟩ := h.listing
  obtain ⟨a, ha⟩ := exists_listedAMD (by norm_num) hl k
  exact ⟨a, S.cell, h.cell, by rw [← funext h.times]; exact ha⟩

theorem SitesFacts.exists_pdd (h : SitesFacts c S) (he : c.size ≤ 100000000) (k : ℕ) : ∃ p, c.IsPDD k p := by
  obtain ⟨_, _, hl⟩ := h.listing
  obtain ⟨a, ha⟩ := exists_listedPDD (by norm_num) hl (h.size.trans he) k
  exact ⟨a, S.cell, h.cell, by rw [← funext h.times]; exact ha⟩

theorem SitesFacts.amd (h : SitesFacts c S) (hs : Searchable S.motif S.cell (k + 1)) {fuel : ℕ} {a b : List ℝ} (ha : AMD S k fuel = .ok a)
    (hb : c.IsAMD k b) : a = b := by
  obtain ⟨_, _, hl⟩ := h.listing
  obtain ⟨cell, hc, hb⟩ := hb
  obtain ⟨T, hT, ht⟩ := h.moved hc
  exact (AMD_isListedAMD (by norm_num) hl hs ha).unique (by norm_num) hb hT ht

theorem SitesFacts.pdd (h : SitesFacts c S) (he : c.size ≤ 100000000) (hs : Searchable S.motif S.cell (k + 1)) {lexsort collapse : Bool} {tol : ℝ} (htol : 0 ≤ tol)
    {fuel : ℕ} {p q : List (PRow ℝ)} (hp : PDD S k lexsort collapse tol fuel = .ok p) (hq : c.IsPDD k q) :
    WeightedRows k p ∧ exactEmd chebyshev p q ≤ collapseError collapse tol := by
  obtain ⟨_, _, hl⟩ := h.listing
  obtain ⟨cell, hc, hq⟩ := hq
  obtain ⟨T, hT, ht⟩ := h.moved hc
  exact PDD_near_listed (by norm_num) hl (h.size.trans he) hs htol hp hT ht hq

/-- The invariants of what is described, for any vectors of the cells. -/
theorem SameSites.carried (h : SitesFacts c S) (h' : SitesFacts c' S') (hsame : SameSites c c') {cell cell' : Fin 3 → Pt 3 ℝ} (hc : c.HasCell cell) (hc' : c'.HasCell cell') :
    ∃ T : Pt 3 ℝ → Pt 3 ℝ, (∀ p q, eucl (T p) (T q) = eucl p q) ∧ ∀ p, c'.times cell' (T p) = c.times cell p := by
  obtain ⟨a, a', ha, ha', T, hT, ht⟩ := hsame
  obtain ⟨_, _, hl⟩ := h.listing
  obtain ⟨_, _, hl'⟩ := h'.listing
  obtain ⟨T1, h1, t1⟩ := times_congr hc ha (nonSingular_congr (gram_of_cellpar h.cell hc) hl.cell)
  obtain ⟨T2, h2, t2⟩ := times_congr ha' hc' (nonSingular_congr (gram_of_cellpar h'.cell ha') hl'.cell)
  exact ⟨fun p => T2 (T (T1 p)), fun p q => by rw [h2, hT, h1], fun p => by rw [t2, ht, t1]⟩

theorem SameSites.amd (h : SitesFacts c S) (h' : SitesFacts c' S') (hsame : SameSites c c') {a a' : List ℝ} (ha : c.IsAMD k a) (ha' : c'.IsAMD k a') : a = a' := by
  obtain ⟨cell, hc, ha⟩ := ha
  obtain ⟨cell', hc', ha'⟩ := ha'
  obtain ⟨T, hT, ht⟩ := hsame.carried h h' hc hc'
  exact ha.unique (by norm_num) ha' hT ht

theorem SameSites.pdd (h : SitesFacts c S) (h' : SitesFacts c' S') (hsame : SameSites c c') {p p' : List (PRow ℝ)} (hp : c.IsPDD k p) (hp' : c'.IsPDD k p') (x : List ℝ) :
    weightAt p x = weightAt p' x := by
  obtain ⟨cell, hc, hp⟩ := hp
  obtain ⟨cell', hc', hp'⟩ := hp'
  obtain ⟨T, hT, ht⟩ := hsame.carried h h' hc hc'
  exact hp.unique (by norm_num) hp' hT ht x

theorem SameSites.refl (h : SitesFacts c S) : SameSites c c := ⟨S.cell, S.cell, h.cell, h.cell, id, fun _ _ => rfl, fun _ => rfl⟩

end Amd
