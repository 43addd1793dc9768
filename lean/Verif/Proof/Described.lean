import Verif.Proof.SameCell
import Verif.Proof.PddRange
import Verif.Props.CcdcPoints
import Verif.Props.Compare
import Verif.Spec.Described

/-! Descriptions of crystals, sets that represent them, and their invariants. -/

namespace Amd

open Classical

section
variable {D : ℕ} {P P' : Set (Pt D ℝ)} {k : ℕ} {motif motif' : List (Pt D ℝ)} {cell cell' : Fin D → Pt D ℝ} {R : Fin motif.length → List ℝ} {R' : Fin motif'.length → List ℝ}

theorem MotifRows.neighbour (hD : 0 < D) (h : MotifRows P k motif cell R) (i : Fin motif.length) : IsNeighbourRow motif cell i k (R i) := by
  obtain ⟨r, hr⟩ := exists_neighbourRow hD h.independent i k
  have h1 := isPointRow_of_neighbourRow h.once hr
  rw [h.points] at h1
  rwa [(h.rows i).unique h1]

theorem IsDescription.motifRows (hD : 0 < D) {S : PeriodicSet D} {inds : List (Fin S.motif.length)} {mult : List ℕ} (h : IsDescription S inds mult) (k : ℕ) :
    ∃ R, MotifRows (periodicPoints S.motif S.cell) k S.motif S.cell R ∧ ∀ i, IsNeighbourRow S.motif S.cell i k (R i) := by
  choose R hR using fun i : Fin S.motif.length => exists_neighbourRow hD h.cell i k
  exact ⟨R, ⟨h.cell, h.nonempty, h.once, rfl, fun i => isPointRow_of_neighbourRow h.once (hR i)⟩, hR⟩

/-- The mean over a motif does not depend on the motif, nor on the position of the crystal in space. -/
theorem MotifRows.mean (hD : 0 < D) (h : MotifRows P k motif cell R) (h' : MotifRows P' k motif' cell' R') {T : Pt D ℝ → Pt D ℝ}
    (hT : ∀ p q, eucl (T p) (T q) = eucl p q) (hP : P' = T '' P) (φ : List ℝ → ℝ) : (∑ i, φ (R i)) / motif.length = (∑ i, φ (R' i)) / motif'.length :=
  mean_rows_isometry hT h.once h'.once (by rw [h.points, h'.points, hP]) h.nonempty h'.nonempty (h.neighbour hD) (h'.neighbour hD) φ

theorem IsCrystalAMD.unique (hD : 0 < D) {a a' : List ℝ} (h : IsCrystalAMD P k a) (h' : IsCrystalAMD P' k a') {T : Pt D ℝ → Pt D ℝ}
    (hT : ∀ p q, eucl (T p) (T q) = eucl p q) (hP : P' = T '' P) : a = a' := by
  obtain ⟨m, c, R, hR, rfl⟩ := h
  obtain ⟨m', c', R', hR', rfl⟩ := h'
  exact List.map_congr_left fun j _ => hR.mean hD hR' hT hP fun r => r.getD j 0

theorem IsCrystalPDD.unique (hD : 0 < D) {p p' : List (PRow ℝ)} (h : IsCrystalPDD P k p) (h' : IsCrystalPDD P' k p') {T : Pt D ℝ → Pt D ℝ}
    (hT : ∀ p q, eucl (T p) (T q) = eucl p q) (hP : P' = T '' P) (x : List ℝ) : weightAt p x = weightAt p' x := by
  obtain ⟨-, m, c, R, hR, hp⟩ := h
  obtain ⟨-, m', c', R', hR', hp'⟩ := h'
  rw [hp, hp']
  exact hR.mean hD hR' hT hP fun r => if r = x then (1 : ℝ) else 0

variable {S : PeriodicSet D} {inds : List (Fin S.motif.length)} {mult : List ℕ}

theorem AMD_isCrystalAMD (hD : 0 < D) (h : IsDescription S inds mult) (hs : Searchable S.motif S.cell (k + 1)) {fuel : ℕ} {a : List ℝ} (ha : AMD S k fuel = .ok a) :
    IsCrystalAMD (periodicPoints S.motif S.cell) k a := by
  obtain ⟨R, hR, hn⟩ := h.motifRows hD k
  refine ⟨S.motif, S.cell, R, hR, ?_⟩
  rw [AMD_eq_rows hD h.units h.inds_ne hs ha fun i _ => hn i]
  refine List.map_congr_left fun j _ => ?_
  rw [zipWith_swap, isAsymUnit_sum_fun h.once h.asym hn fun r => r.getD j 0, isAsymUnit_mult h.asym]

theorem PDD_isCrystalPDD (hD : 0 < D) (h : IsDescription S inds mult) (hl : S.motif.length ≤ 100000000) (hs : Searchable S.motif S.cell (k + 1)) {lexsort : Bool}
    {tol : ℝ} {fuel : ℕ} {p : List (PRow ℝ)} (hp : PDD S k lexsort false tol fuel = .ok p) : IsCrystalPDD (periodicPoints S.motif S.cell) k p := by
  obtain ⟨R, hR, hn⟩ := h.motifRows hD k
  exact ⟨EMD_input_of_PDD hD h.units h.inds_ne h.pos h.sum hl hp, S.motif, S.cell, R, hR, fun x => weightAt_PDD hD h hs hn hp x⟩

/-- The computed PDD is within what merging allows of the PDD of the crystal. -/
theorem PDD_near_crystal (hD : 0 < D) (h : IsDescription S inds mult) (hl : S.motif.length ≤ 100000000) (hs : Searchable S.motif S.cell (k + 1)) {lexsort collapse : Bool}
    {tol : ℝ} (htol : 0 ≤ tol) {fuel : ℕ} {p : List (PRow ℝ)} (hp : PDD S k lexsort collapse tol fuel = .ok p) {T : Pt D ℝ → Pt D ℝ}
    (hT : ∀ p q, eucl (T p) (T q) = eucl p q) (hP : P = T '' periodicPoints S.motif S.cell) {q : List (PRow ℝ)} (hq : IsCrystalPDD P k q) :
    WeightedRows k p ∧ exactEmd chebyshev p q ≤ collapseError collapse tol := by
  have hw := EMD_input_of_PDD hD h.units h.inds_ne h.pos h.sum hl hp
  refine ⟨hw, ?_⟩
  cases collapse with
  | false =>
    rw [exactEmd_zero (EMD_default_metric k) hw hq.1 ((PDD_isCrystalPDD hD h hl hs hp).unique hD hq hT hP)]
    simp [collapseError]
  | true =>
    obtain ⟨rows, hr, -⟩ := PDD_rows hD h.units h.inds_ne hp
    obtain ⟨b, hb⟩ := PDD_ok_of hD h.units h.inds_ne k false false tol hr
    have hwb := EMD_input_of_PDD hD h.units h.inds_ne h.pos h.sum hl hb
    have h1 := exactEmd_collapse hD h.units h.inds_ne htol hp hb hw hwb
    have h3 := exactEmd_zero (EMD_default_metric k) hwb hq.1 ((PDD_isCrystalPDD hD h hl hs hb).unique hD hq hT hP)
    have t1 := exactEmd_triangle (EMD_default_metric k) hw hwb hq.1
    rw [exactEmd_symm (EMD_default_metric k) hwb hw] at t1
    simp only [collapseError, if_true]
    linarith

/-- The crystal has an AMD. -/
theorem exists_crystalAMD (hD : 0 < D) (h : IsDescription S inds mult) (k : ℕ) : ∃ a, IsCrystalAMD (periodicPoints S.motif S.cell) k a := by
  obtain ⟨R, hR, -⟩ := h.motifRows hD k
  exact ⟨_, _, _, R, hR, rfl⟩

/-- The crystal has a PDD. -/
theorem exists_crystalPDD (hD : 0 < D) (h : IsDescription S inds mult) (hl : S.motif.length ≤ 100000000) (k : ℕ) :
    ∃ p, IsCrystalPDD (periodicPoints S.motif S.cell) k p := by
  obtain ⟨R, hR, -⟩ := h.motifRows hD k
  have hpos : (0 : ℝ) < S.motif.length := by exact_mod_cast List.length_pos_iff.2 h.nonempty
  refine ⟨(List.finRange S.motif.length).map fun i => ⟨1 / (S.motif.length : ℝ), R i, []⟩, ⟨?_, ?_, ?_, ?_⟩, _, _, R, hR, fun x => ?_⟩
  · intro h0
    rw [List.map_eq_nil_iff, List.finRange_eq_nil_iff] at h0
    exact h.nonempty (List.length_eq_zero_iff.1 h0)
  · intro r hr
    obtain ⟨i, -, rfl⟩ := List.mem_map.1 hr
    exact (hR.rows i).1
  · intro r hr
    obtain ⟨i, -, rfl⟩ := List.mem_map.1 hr
    have : (S.motif.length : ℝ) ≤ 100000000 := by exact_mod_cast hl
    exact one_div_le_one_div_of_le hpos this
  · rw [List.map_map]
    have : ((fun r : PRow ℝ => r.weight) ∘ fun i : Fin S.motif.length => (⟨1 / (S.motif.length : ℝ), R i, []⟩ : PRow ℝ)) = fun _ => 1 / (S.motif.length : ℝ) := rfl
    rw [this, List.map_const', List.sum_replicate, List.length_finRange, nsmul_eq_mul]
    field_simp
  · unfold weightAt
    rw [Finset.sum_div, ← List.sum_ofFn, List.ofFn_eq_map]
    generalize List.finRange S.motif.length = l
    induction l with
    | nil => rfl
    | cons i l ih =>
      rw [List.map_cons, List.filter_cons]
      by_cases hx : R i = x
      · simp only [hx, decide_true, if_true, List.map_cons, List.sum_cons, ih]
      · simp only [hx, decide_false, if_false, List.map_cons, List.sum_cons, ih, zero_div, zero_add, Bool.false_eq_true]

end

/-! ### Sets that represent what is described -/

variable {c c' : Described} {S S' : PeriodicSet 3}

/-- The set represents the crystal that is described. -/
structure ReadFacts (c : Described) (S : PeriodicSet 3) : Prop where
  cell : c.HasCell S.cell
  desc : ∃ inds mult, IsDescription S inds mult
  fits : FitsInCell S.motif S.cell
  size : S.motif.length ≤ c.size
  points : periodicPoints S.motif S.cell = c.points S.cell

/-- The crystal is a reading of the description. -/
def Reads (c : Described) (x : Crystal) : Prop := ∃ S, x = ⟨c.name, 3, S⟩ ∧ ReadFacts c S

theorem opSet_finite (ops : List (AffineOp 3)) : (opSet ops).Finite := by
  have : opSet ops = (fun o : AffineOp 3 => ((o.rot, o.trans) : FracOp 3)) '' {o | o ∈ ops} := by
    ext g
    constructor
    · rintro ⟨o, ho, rfl⟩; exact ⟨o, ho, rfl⟩
    · rintro ⟨o, ho, rfl⟩; exact ⟨o, ho, rfl⟩
  rw [this]
  exact (List.finite_toSet ops).image _

theorem exists_opSet {G : Set (FracOp 3)} (h : G.Finite) : ∃ ops : List (AffineOp 3), opSet ops = G := by
  refine ⟨h.toFinset.toList.map fun g => ⟨g.1, g.2⟩, ?_⟩
  ext g
  constructor
  · rintro ⟨o, ho, rfl⟩
    obtain ⟨g, hg, rfl⟩ := List.mem_map.1 ho
    simpa using hg
  · intro hg
    exact ⟨⟨g.1, g.2⟩, List.mem_map.2 ⟨g, by simpa using hg, rfl⟩, rfl⟩

/-- Each point of the motif comes from a row and an operation, and different ones from different pairs. -/
theorem size_of_points {cell : Fin 3 → Pt 3 ℝ} {motif : List (Pt 3 ℝ)} {G : Set (FracOp 3)} (hG : G.Finite) {n : ℕ} (f : Fin n → Pt 3 ℝ) {P : Set (Pt 3 ℝ)}
    (hf : ∀ x ∈ P, ∃ i, f i = x) (hinj : Function.Injective (sitePos motif cell)) (hP : periodicPoints motif cell = crystalPoints cell G P) :
    motif.length ≤ n * G.ncard := by
  have h : ∀ i : Fin motif.length, ∃ (t : Fin n) (g : G), ∃ m : Fin 3 → ℤ, sitePos motif cell (i, 0) = cartesian cell fun a => opPoint g.1 (f t) a + m a := by
    intro i
    have : sitePos motif cell (i, 0) ∈ crystalPoints cell G P := by rw [← hP]; exact ⟨_, rfl⟩
    obtain ⟨p, hp, g, hg, m, e⟩ := this
    obtain ⟨t, rfl⟩ := hf p hp
    exact ⟨t, ⟨g, hg⟩, m, e⟩
  choose t g m e using h
  have hi : Function.Injective fun i => (t i, g i) := by
    intro i j hij
    have h1 : t i = t j := congrArg Prod.fst hij
    have h2 : g i = g j := congrArg Prod.snd hij
    have h3 : sitePos motif cell (i, 0) = sitePos motif cell (j, fun a => m i a - m j a) := by
      have e1 := e i
      have e2 := e j
      funext b
      have e1 := congrFun e1 b
      have e2 := congrFun e2 b
      rw [e1]
      rw [h1, h2]
      simp only [sitePos, cartesian, Pi.zero_apply, Int.cast_zero, zero_mul, Finset.sum_const_zero, add_zero] at e2 ⊢
      rw [e2, ← Finset.sum_add_distrib]
      refine Finset.sum_congr rfl fun a _ => ?_
      push_cast
      ring
    exact congrArg Prod.fst (hinj h3)
  have := hG.fintype
  have hc := Fintype.card_le_of_injective _ hi
  rw [Fintype.card_fin, Fintype.card_prod, Fintype.card_fin] at hc
  rwa [Set.ncard_eq_toFinset_card', Set.toFinset_card]

theorem motif_le_size {cell : Fin 3 → Pt 3 ℝ} {motif : List (Pt 3 ℝ)} (h1 : c.ops.Finite) (h2 : c.sites.Finite) (hinj : Function.Injective (sitePos motif cell))
    (hP : periodicPoints motif cell = c.points cell) : motif.length ≤ c.size := by
  have := h2.fintype
  have e : c.sites.ncard = Fintype.card c.sites := by rw [Set.ncard_eq_toFinset_card', Set.toFinset_card]
  have := size_of_points h1 (fun i => ((Fintype.equivFin c.sites).symm i : Pt 3 ℝ)) (P := c.sites) (fun x hx => ⟨Fintype.equivFin c.sites ⟨x, hx⟩, by simp⟩) hinj hP
  rwa [← e] at this

/-- There is a reading of a proper description. -/
theorem Described.Proper.reads (h : c.Proper) : ∃ S, ReadFacts c S := by
  obtain ⟨ops, hops⟩ := exists_opSet h.finiteOps
  obtain ⟨cell, hcell, hns, hG⟩ := h.group
  rw [← hops] at hG
  have hx := h.exact
  have hs : c.sites = {p | p ∈ h.finiteSites.toFinset.toList} := by
    ext x
    simp
  have hne : h.finiteSites.toFinset.toList ≠ [] := by
    obtain ⟨x, hx⟩ := h.nonempty
    intro e
    have : x ∈ h.finiteSites.toFinset.toList := by simpa using hx
    rw [e] at this
    cases this
  generalize h.finiteSites.toFinset.toList = asym at hs hne
  rw [← hops, hs] at hx
  have hu := used_exact (d := "skip") hG hx
  rw [if_neg (by decide)] at hu
  have hx' : ExactSites eqSiteTol (opSet ops) {p | p ∈ kept eqSiteTol (asym.map fractPt)} := by rw [hu]; exact exact_fract hG hx
  obtain ⟨inds, mult, hd⟩ := expandedSet_description hns hG hx' (kept_ne_nil (by simpa using hne))
  have hp : periodicPoints (expandedSet cell (kept eqSiteTol (asym.map fractPt)) ops true).motif cell = c.points cell := by
    rw [expandedSet_points hx', hu, Described.points, hs, ← hops]
    exact crystal_fract hG asym
  exact ⟨_, hcell, ⟨inds, mult, hd⟩, expandedSet_fits hx', motif_le_size h.finiteOps h.finiteSites hd.once hp, hp⟩

theorem ReadFacts.valid (h : ReadFacts c S) (he : c.size ≤ 100000000) (n : String) :
    (⟨n, 3, S⟩ : Crystal).Valid := by
  obtain ⟨inds, mult, hdesc⟩ := h.desc
  exact ⟨Nat.succ_pos 2, hdesc.cell, h.size.trans he, inds, mult, hdesc.units, hdesc.inds_ne, hdesc.pos, hdesc.sum⟩

theorem ReadFacts.isometric (h : ReadFacts c S) (h' : ReadFacts c' S')
    (hsame : DescribeSame c c') : Isometric S S' := by
  obtain ⟨cell, cell', hc, hc', T, hT, hP⟩ := hsame
  obtain ⟨_, _, hdesc⟩ := h.desc
  obtain ⟨_, _, hdesc'⟩ := h'.desc
  have hg := gram_of_cellpar h.cell hc
  have hg' := gram_of_cellpar hc' h'.cell
  obtain ⟨T1, h1, p1⟩ := crystalPoints_congr hg hdesc.cell c.ops c.sites
  obtain ⟨T2, h2, p2⟩ := crystalPoints_congr hg' (nonSingular_congr (fun i j => (hg' i j).symm) hdesc'.cell) c'.ops c'.sites
  change c.points cell = T1 '' c.points S.cell at p1
  change c'.points S'.cell = T2 '' c'.points cell' at p2
  refine ⟨fun p => T2 (T (T1 p)), fun p q => by rw [h2, hT, h1], ?_⟩
  rw [h.points, h'.points, p2, hP, p1, Set.image_image, Set.image_image]

theorem ReadFacts.searchable (h : ReadFacts c S) {k : ℕ} (hk : c.WellShaped k) :
    Searchable S.motif S.cell (k + 1) := by
  obtain ⟨cell, hc, hk⟩ := hk
  have hg := gram_of_cellpar hc h.cell
  rcases hk with hk | ⟨hr, hk⟩
  · exact searchable_of_halfDominant (by decide) (halfDominant_congr hg hk) h.fits _
  · exact searchable_of_reduced (reduced_congr hg hr) h.fits (h.size.trans hk)

/-! ### Invariants of what is described -/

variable {k : ℕ}

/-- The points that are read and the points that are described differ by an isometry. -/
theorem ReadFacts.moved (h : ReadFacts c S) {cell : Fin 3 → Pt 3 ℝ} (hc : c.HasCell cell) :
    ∃ T : Pt 3 ℝ → Pt 3 ℝ, (∀ p q, eucl (T p) (T q) = eucl p q) ∧
      crystalPoints cell c.ops c.sites = T '' periodicPoints S.motif S.cell := by
  obtain ⟨_, _, hdesc⟩ := h.desc
  rw [h.points]
  exact crystalPoints_congr (gram_of_cellpar h.cell hc) hdesc.cell c.ops c.sites

theorem ReadFacts.exists_amd (h : ReadFacts c S) (k : ℕ) : ∃ a, c.IsAMD k a := by
  obtain ⟨_, _, hdesc⟩ := h.desc
  obtain ⟨a, ha⟩ := exists_crystalAMD (by norm_num) hdesc k
  exact ⟨a, S.cell, h.cell, by rw [← h.points]; exact ha⟩

theorem ReadFacts.exists_pdd (h : ReadFacts c S) (he : c.size ≤ 100000000) (k : ℕ) : ∃ p, c.IsPDD k p := by
  obtain ⟨_, _, hdesc⟩ := h.desc
  obtain ⟨a, ha⟩ := exists_crystalPDD (by norm_num) hdesc (h.size.trans he) k
  exact ⟨a, S.cell, h.cell, by rw [← h.points]; exact ha⟩

theorem ReadFacts.amd (h : ReadFacts c S) (hs : Searchable S.motif S.cell (k + 1)) {fuel : ℕ} {a b : List ℝ} (ha : AMD S k fuel = .ok a)
    (hb : c.IsAMD k b) : a = b := by
  obtain ⟨_, _, hdesc⟩ := h.desc
  obtain ⟨cell, hc, hb⟩ := hb
  obtain ⟨T, hT, hP⟩ := h.moved hc
  exact (AMD_isCrystalAMD (by norm_num) hdesc hs ha).unique (by norm_num) hb hT hP

theorem ReadFacts.pdd (h : ReadFacts c S) (he : c.size ≤ 100000000) (hs : Searchable S.motif S.cell (k + 1)) {lexsort collapse : Bool} {tol : ℝ} (htol : 0 ≤ tol)
    {fuel : ℕ} {p q : List (PRow ℝ)} (hp : PDD S k lexsort collapse tol fuel = .ok p) (hq : c.IsPDD k q) :
    WeightedRows k p ∧ exactEmd chebyshev p q ≤ collapseError collapse tol := by
  obtain ⟨_, _, hdesc⟩ := h.desc
  obtain ⟨cell, hc, hq⟩ := hq
  obtain ⟨T, hT, hP⟩ := h.moved hc
  exact PDD_near_crystal (by norm_num) hdesc (h.size.trans he) hs htol hp hT hP hq

/-- Descriptions of the same crystal have the same AMD. -/
theorem DescribeSame.amd (h : ReadFacts c S) (h' : ReadFacts c' S') (hsame : DescribeSame c c') {a a' : List ℝ}
    (ha : c.IsAMD k a) (ha' : c'.IsAMD k a') : a = a' := by
  obtain ⟨T, hT, hP⟩ := h.isometric h' hsame
  obtain ⟨_, _, hdesc⟩ := h.desc
  obtain ⟨_, _, hdesc'⟩ := h'.desc
  obtain ⟨b, hb⟩ := exists_crystalAMD (by norm_num) hdesc k
  obtain ⟨b', hb'⟩ := exists_crystalAMD (by norm_num) hdesc' k
  obtain ⟨c, hc, ha⟩ := ha
  obtain ⟨c', hc', ha'⟩ := ha'
  obtain ⟨T1, h1, p1⟩ := h.moved hc
  obtain ⟨T2, h2, p2⟩ := h'.moved hc'
  rw [← hb.unique (by norm_num) ha h1 p1, ← hb'.unique (by norm_num) ha' h2 p2]
  exact hb.unique (by norm_num) hb' hT hP

theorem DescribeSame.pdd (h : ReadFacts c S) (h' : ReadFacts c' S') (hl : c.size ≤ 100000000) (hl' : c'.size ≤ 100000000)
    (hsame : DescribeSame c c') {p p' : List (PRow ℝ)}
    (ha : c.IsPDD k p) (ha' : c'.IsPDD k p') (x : List ℝ) : weightAt p x = weightAt p' x := by
  obtain ⟨T, hT, hP⟩ := h.isometric h' hsame
  obtain ⟨_, _, hdesc⟩ := h.desc
  obtain ⟨_, _, hdesc'⟩ := h'.desc
  obtain ⟨b, hb⟩ := exists_crystalPDD (by norm_num) hdesc (h.size.trans hl) k
  obtain ⟨b', hb'⟩ := exists_crystalPDD (by norm_num) hdesc' (h'.size.trans hl') k
  obtain ⟨c, hc, ha⟩ := ha
  obtain ⟨c', hc', ha'⟩ := ha'
  obtain ⟨T1, h1, p1⟩ := h.moved hc
  obtain ⟨T2, h2, p2⟩ := h'.moved hc'
  rw [← hb.unique (by norm_num) ha h1 p1, ← hb'.unique (by norm_num) ha' h2 p2]
  exact hb.unique (by norm_num) hb' hT hP x

end Amd
