import Verif.Proof.Sites
import Verif.Proof.PointRows
import Verif.Spec.SpaceGroup
import Verif.Spec.Cells
import Mathlib.LinearAlgebra.Matrix.ToLin
import Mathlib.LinearAlgebra.FiniteDimensional.Basic
import Mathlib.LinearAlgebra.Matrix.NonsingularInverse
import Mathlib.Data.List.GetD

/-! Crystals given by an asymmetric unit and a space group. -/

set_option linter.unusedSectionVars false

namespace Amd

variable {D : ℕ} {cell : Fin D → Pt D ℝ} {G : Set (FracOp D)} {P : Set (Pt D ℝ)} {tol : ℝ}

/-! ### Equality modulo the lattice -/

/-- Equality modulo the integers. -/
def IntEq (x y : Pt D ℝ) : Prop := ∃ n : Fin D → ℤ, ∀ i, x i = y i + n i

theorem IntEq.refl (x : Pt D ℝ) : IntEq x x := ⟨0, fun i => by simp⟩

theorem IntEq.symm {x y : Pt D ℝ} (h : IntEq x y) : IntEq y x := by
  obtain ⟨n, hn⟩ := h
  exact ⟨fun i => -n i, fun i => by rw [hn i]; push_cast; ring⟩

theorem IntEq.trans {x y z : Pt D ℝ} (h : IntEq x y) (h' : IntEq y z) : IntEq x z := by
  obtain ⟨n, hn⟩ := h
  obtain ⟨m, hm⟩ := h'
  exact ⟨fun i => n i + m i, fun i => by rw [hn i, hm i]; push_cast; ring⟩

theorem IntEq.eq_of_cell {x y : Pt D ℝ} (h : IntEq x y) (hx : ∀ i, 0 ≤ x i ∧ x i < 1) (hy : ∀ i, 0 ≤ y i ∧ y i < 1) : x = y := by
  obtain ⟨n, hn⟩ := h
  funext i
  have h1 := hn i
  have h2 : -1 < (n i : ℝ) := by linarith [(hx i).1, (hy i).2]
  have h3 : (n i : ℝ) < 1 := by linarith [(hx i).2, (hy i).1]
  have h4 : -1 < n i := by exact_mod_cast h2
  have h5 : n i < 1 := by exact_mod_cast h3
  have h6 : n i = 0 := by omega
  rw [h1, h6]; simp

theorem opPoint_congr (hl : ∀ g ∈ G, ∀ i j, ∃ n : ℤ, g.1 i j = n) {g : FracOp D} (hg : g ∈ G) {x y : Pt D ℝ} (h : IntEq x y) :
    IntEq (opPoint g x) (opPoint g y) := by
  obtain ⟨n, hn⟩ := h
  choose m hm using hl g hg
  refine ⟨fun i => ∑ j, m i j * n j, fun i => ?_⟩
  simp only [opPoint]
  push_cast
  simp only [hm, hn, mul_add, Finset.sum_add_distrib]
  ring

theorem isImage_intEq {R : Fin D → Fin D → ℝ} {t : Fin D → ℝ} {p q : Pt D ℝ} :
    IsImage R t p q ↔ (∀ i, 0 ≤ q i ∧ q i < 1) ∧ IntEq (opPoint (R, t) p) q := by
  constructor
  · intro h
    refine ⟨fun i => ⟨(h i).1, (h i).2.1⟩, ?_⟩
    choose n hn using fun i => (h i).2.2
    exact ⟨n, hn⟩
  · rintro ⟨h, n, hn⟩ i
    exact ⟨(h i).1, (h i).2, n i, hn i⟩

/-! ### The cell as a linear equivalence -/

theorem cartesian_eq (x : Pt D ℝ) : cartesian cell x = Matrix.vecMul x (Matrix.of cell) := rfl

theorem cartesian_add (x y : Pt D ℝ) : cartesian cell (fun i => x i + y i) = cartesian cell x + cartesian cell y := by
  funext j
  simp [cartesian, add_mul, Finset.sum_add_distrib]

theorem cartesian_injective (h : NonSingular cell) : Function.Injective (cartesian cell) :=
  Matrix.vecMul_injective_iff.2 (show LinearIndependent ℝ (Matrix.of cell).row from h)

theorem cartesian_surjective (h : NonSingular cell) : Function.Surjective (cartesian cell) := by
  have h1 : Function.Injective (Matrix.of cell).vecMulLinear := cartesian_injective h
  exact LinearMap.injective_iff_surjective.1 h1

/-! ### The crystal -/

/-- The points in fractional coordinates. -/
def fracCrystal (G : Set (FracOp D)) (P : Set (Pt D ℝ)) : Set (Pt D ℝ) := {x | ∃ p ∈ P, ∃ g ∈ G, IntEq x (opPoint g p)}

theorem crystalPoints_eq : crystalPoints cell G P = cartesian cell '' fracCrystal G P := by
  ext q
  constructor
  · rintro ⟨p, hp, g, hg, n, rfl⟩
    exact ⟨_, ⟨p, hp, g, hg, n, fun i => rfl⟩, rfl⟩
  · rintro ⟨x, ⟨p, hp, g, hg, n, hn⟩, rfl⟩
    exact ⟨p, hp, g, hg, n, congrArg _ (funext hn)⟩

theorem fracCrystal_congr {x y : Pt D ℝ} (h : IntEq x y) (hy : y ∈ fracCrystal G P) : x ∈ fracCrystal G P := by
  obtain ⟨p, hp, g, hg, e⟩ := hy
  exact ⟨p, hp, g, hg, h.trans e⟩

theorem fracCrystal_op (hG : IsSpaceGroup cell G) {g : FracOp D} (hg : g ∈ G) {x : Pt D ℝ} (hx : x ∈ fracCrystal G P) : opPoint g x ∈ fracCrystal G P := by
  obtain ⟨p, hp, h, hh, e⟩ := hx
  obtain ⟨k, hk, n, hn⟩ := hG.mul g hg h hh
  exact ⟨p, hp, k, hk, (opPoint_congr hG.lattice hg e).trans ⟨n, fun i => hn p i⟩⟩

/-- An operation followed by a lattice translation is a symmetry of the crystal. -/
theorem exists_symmetry (hcell : NonSingular cell) (hG : IsSpaceGroup cell G) {g : FracOp D} (hg : g ∈ G) (m : Fin D → ℤ) :
    ∃ T, IsSymmetry (crystalPoints cell G P) T ∧ ∀ x, T (cartesian cell x) = cartesian cell fun i => opPoint g x i + m i := by
  let e := Equiv.ofBijective (cartesian cell) ⟨cartesian_injective hcell, cartesian_surjective hcell⟩
  have he : ∀ x, e.symm (cartesian cell x) = x := fun x => e.symm_apply_apply x
  have hsub : ∀ x y : Pt D ℝ, eucl (cartesian cell fun i => x i + m i) (cartesian cell fun i => y i + m i) = eucl (cartesian cell x) (cartesian cell y) := by
    intro x y
    rw [cartesian_add x (fun i => (m i : ℝ)), cartesian_add y (fun i => (m i : ℝ)), eucl_add_right]
  refine ⟨fun q => cartesian cell fun i => opPoint g (e.symm q) i + m i, ⟨fun p q => ?_, fun q hq => ?_, fun q hq => ?_⟩, fun x => by simp only [he]⟩
  · obtain ⟨x, rfl⟩ := cartesian_surjective hcell p
    obtain ⟨y, rfl⟩ := cartesian_surjective hcell q
    simp only [he]
    rw [hsub, hG.isometry g hg]
  · rw [crystalPoints_eq] at hq ⊢
    obtain ⟨x, hx, rfl⟩ := hq
    simp only [he]
    exact ⟨_, fracCrystal_congr ⟨m, fun i => rfl⟩ (fracCrystal_op hG hg hx), rfl⟩
  · rw [crystalPoints_eq] at hq ⊢
    obtain ⟨x, hx, rfl⟩ := hq
    obtain ⟨h, hh, ⟨n, hn⟩, -⟩ := hG.inv g hg
    refine ⟨_, ⟨opPoint h fun i => x i + ((-(n i) - m i : ℤ) : ℝ), fracCrystal_op hG hh (fracCrystal_congr ⟨_, fun i => rfl⟩ hx), rfl⟩, ?_⟩
    simp only [he, hn]
    congr 1
    funext i
    push_cast
    ring

/-! ### A motif with its orbits -/

/-- What the readers make of an asymmetric unit. `F` is the motif in fractional coordinates, `orbit` the number of the site of each point. -/
structure ExpandsTo (G : Set (FracOp D)) (asym : List (Pt D ℝ)) (F : List (Pt D ℝ)) (orbit : List ℕ) : Prop where
  length : orbit.length = F.length
  image : ∀ t (h : t < F.length) (h' : t < orbit.length), ∃ hi : orbit[t] < asym.length, ∃ g ∈ G, IsImage g.1 g.2 asym[orbit[t]] F[t]
  all : ∀ p ∈ asym, ∀ g ∈ G, ∀ q, IsImage g.1 g.2 p q → q ∈ F

theorem ExpandsTo.cellwise {asym F : List (Pt D ℝ)} {orbit : List ℕ} (h : ExpandsTo G asym F orbit) {t : ℕ} (ht : t < F.length) (i : Fin D) :
    0 ≤ F[t] i ∧ F[t] i < 1 := by
  obtain ⟨_, g, _, hi⟩ := h.image t ht (by rw [h.length]; exact ht)
  exact ⟨(hi i).1, (hi i).2.1⟩

theorem sitePos_cartesian {F : List (Pt D ℝ)} (s : Site (F.map (cartesian cell)).length D) :
    sitePos (F.map (cartesian cell)) cell s = cartesian cell fun i => (F[s.1.val]'(by simpa using s.1.2)) i + s.2 i := by
  rw [cartesian_add]
  funext j
  simp [sitePos, cartesian]

theorem exists_fract (x : Pt D ℝ) : ∃ q : Pt D ℝ, (∀ i, 0 ≤ q i ∧ q i < 1) ∧ IntEq x q :=
  ⟨fun i => Int.fract (x i), fun i => ⟨Int.fract_nonneg _, Int.fract_lt_one _⟩, fun i => ⌊x i⌋, fun i => by simp⟩

/-- The periodic set is the crystal. -/
theorem ExpandsTo.points {asym F : List (Pt D ℝ)} {orbit : List ℕ} (h : ExpandsTo G asym F orbit) :
    periodicPoints (F.map (cartesian cell)) cell = crystalPoints cell G {p | p ∈ asym} := by
  rw [crystalPoints_eq]
  ext q
  constructor
  · rintro ⟨s, rfl⟩
    have hs : s.1.val < F.length := by simpa using s.1.2
    obtain ⟨hi, g, hg, hx⟩ := h.image s.1.val hs (by rw [h.length]; exact hs)
    rw [sitePos_cartesian]
    exact ⟨_, ⟨_, List.getElem_mem hi, g, hg, IntEq.trans ⟨s.2, fun i => rfl⟩ (isImage_intEq.1 hx).2.symm⟩, rfl⟩
  · rintro ⟨x, ⟨p, hp, g, hg, e⟩, rfl⟩
    obtain ⟨q, hq, e'⟩ := exists_fract (opPoint g p)
    obtain ⟨t, ht, rfl⟩ := List.mem_iff_getElem.1 (h.all p hp g hg q (isImage_intEq.2 ⟨hq, e'⟩))
    obtain ⟨n, hn⟩ := e.trans e'
    refine ⟨(⟨t, by simpa using ht⟩, n), ?_⟩
    rw [sitePos_cartesian]
    exact congrArg _ (funext fun i => (hn i).symm)

/-- No point is listed twice. -/
theorem ExpandsTo.injective {asym F : List (Pt D ℝ)} {orbit : List ℕ} (h : ExpandsTo G asym F orbit) (hcell : NonSingular cell) (hnd : F.Nodup) :
    Function.Injective (sitePos (F.map (cartesian cell)) cell) := by
  rintro ⟨s, n⟩ ⟨s', n'⟩ e
  rw [sitePos_cartesian, sitePos_cartesian] at e
  have e := cartesian_injective hcell e
  have hs : s.val < F.length := by simpa using s.2
  have hs' : s'.val < F.length := by simpa using s'.2
  have e1 : F[s.val] = F[s'.val] := by
    refine IntEq.eq_of_cell ⟨fun i => n' i - n i, fun i => ?_⟩ (h.cellwise hs) (h.cellwise hs')
    have := congrFun e i
    simp only at this
    push_cast
    linarith
  have e2 : s = s' := Fin.ext ((List.Nodup.getElem_inj_iff hnd).1 e1)
  subst e2
  refine Prod.ext rfl (funext fun i => ?_)
  have := congrFun e i
  simp only [add_right_inj] at this
  exact_mod_cast this

theorem ExpandsTo.fits {asym F : List (Pt D ℝ)} {orbit : List ℕ} (h : ExpandsTo G asym F orbit) : FitsInCell (F.map (cartesian cell)) cell := by
  refine ⟨0, fun q hq => ?_⟩
  obtain ⟨x, hx, rfl⟩ := List.mem_map.1 hq
  obtain ⟨t, ht, rfl⟩ := List.mem_iff_getElem.1 hx
  exact ⟨_, h.cellwise ht, by funext j; simp [cartesian]⟩

/-- Points of one orbit are carried to each other by a symmetry. -/
theorem ExpandsTo.symmetry {asym F : List (Pt D ℝ)} {orbit : List ℕ} (h : ExpandsTo G asym F orbit) (hcell : NonSingular cell) (hG : IsSpaceGroup cell G)
    {s t : ℕ} (hs : s < F.length) (ht : t < F.length) (hs' : s < orbit.length) (ht' : t < orbit.length) (e : orbit[s] = orbit[t]) :
    ∃ T, IsSymmetry (periodicPoints (F.map (cartesian cell)) cell) T ∧ T (cartesian cell F[s]) = cartesian cell F[t] := by
  obtain ⟨hi, g, hg, hx⟩ := h.image s hs hs'
  obtain ⟨hi', g', hg', hx'⟩ := h.image t ht ht'
  have ex := (isImage_intEq.1 hx).2
  have ex' := (isImage_intEq.1 hx').2
  simp only [← e] at ex'
  obtain ⟨k, hk, -, n, hn⟩ := hG.inv g hg
  obtain ⟨l, hl, m, hm⟩ := hG.mul g' hg' k hk
  have e1 : IntEq (opPoint k F[s]) asym[orbit[s]] := (opPoint_congr hG.lattice hk ex.symm).trans ⟨n, hn _⟩
  have e2 : IntEq F[t] (opPoint l F[s]) := (ex'.symm.trans (opPoint_congr hG.lattice hg' e1.symm)).trans ⟨m, hm _⟩
  obtain ⟨c, hc⟩ := e2
  obtain ⟨T, hT, hT'⟩ := exists_symmetry (P := {p | p ∈ asym}) hcell hG hl c
  rw [h.points]
  exact ⟨T, hT, by rw [hT']; exact congrArg _ (funext fun i => (hc i).symm)⟩

/-! ### The asymmetric unit -/

theorem card_block {n a c : ℕ} (h : a + c ≤ n) : (Finset.univ.filter fun i : Fin n => a ≤ i.val ∧ i.val < a + c).card = c := by
  have : ((Finset.univ.filter fun i : Fin n => a ≤ i.val ∧ i.val < a + c).map Fin.valEmbedding) = Finset.Ico a (a + c) := by
    ext x
    simp only [Finset.mem_map, Finset.mem_filter, Finset.mem_univ, true_and, Fin.valEmbedding_apply, Finset.mem_Ico]
    constructor
    · rintro ⟨i, hi, rfl⟩; exact hi
    · intro hx
      exact ⟨⟨x, by omega⟩, hx, rfl⟩
  rw [← Finset.card_map Fin.valEmbedding, this]
  simp

theorem Orbits.lt {orbit asym mult : List ℕ} (h : Orbits orbit asym mult) {m : ℕ} (hm : m < asym.length) : asym[m] < orbit.length := by
  have hm' : m < mult.length := by rw [← h.length]; exact hm
  have h1 := (h.block m hm hm').1
  have h2 := h.pos _ (List.getElem_mem hm')
  omega

theorem Orbits.unique {orbit asym mult : List ℕ} (h : Orbits orbit asym mult) {t m m' : ℕ} (hm : m < asym.length) (hm' : m' < asym.length)
    (h1 : m < mult.length) (h2 : m' < mult.length) (ht : t < orbit.length)
    (b : asym[m] ≤ t ∧ t < asym[m] + mult[m]) (b' : asym[m'] ≤ t ∧ t < asym[m'] + mult[m']) : m = m' := by
  have e : orbit[asym[m]]'(h.lt hm) = orbit[asym[m']]'(h.lt hm') :=
    (((h.block m hm h1).2 t ht (h.lt hm)).1 b).symm.trans (((h.block m' hm' h2).2 t ht (h.lt hm')).1 b')
  have i1 := ((h.block m hm h1).2 _ (h.lt hm') (h.lt hm)).2 e.symm
  have i2 := ((h.block m' hm' h2).2 _ (h.lt hm) (h.lt hm')).2 e
  have hst := List.pairwise_iff_getElem.1 h.starts
  rcases lt_trichotomy m m' with hlt | rfl | hlt
  · have := hst m m' hm hm' hlt; omega
  · rfl
  · have := hst m' m hm' hm hlt; omega

/-- The orbits give an asymmetric unit. -/
theorem ExpandsTo.asymUnit {sites F : List (Pt D ℝ)} {orbit asym mult : List ℕ} (h : ExpandsTo G sites F orbit) (hcell : NonSingular cell)
    (hG : IsSpaceGroup cell G) (ho : Orbits orbit asym mult) :
    ∃ inds : List (Fin (F.map (cartesian cell)).length), inds.map Fin.val = asym ∧ IsAsymUnit (F.map (cartesian cell)) cell inds mult := by
  have hlen : (F.map (cartesian cell)).length = orbit.length := by simp [h.length]
  have hlt : ∀ m (hm : m < asym.length), asym[m] < (F.map (cartesian cell)).length := fun m hm => by rw [hlen]; exact ho.lt hm
  let inds : List (Fin (F.map (cartesian cell)).length) := List.ofFn fun m : Fin asym.length => ⟨asym[m.val], hlt m.val m.2⟩
  have hil : inds.length = asym.length := by simp [inds]
  have hig : ∀ m (hm : m < inds.length) (hm' : m < asym.length), (inds[m]).val = asym[m] := fun m hm hm' => by simp [inds]
  choose orb' h1 h2 h3 h4 using fun t : Fin (F.map (cartesian cell)).length => ho.cover t.val (by rw [← hlen]; exact t.2)
  refine ⟨inds, ?_, fun t => ⟨orb' t, by rw [hil]; exact h1 t⟩, ?_, fun t => ?_⟩
  · refine List.ext_getElem (by simp [hil]) fun m hm hm' => ?_
    rw [List.getElem_map, hig]
  · refine List.ext_getElem (by simp [hil, ho.length]) fun m hm hm' => ?_
    have hma : m < asym.length := by rw [ho.length]; exact hm
    rw [List.getElem_map, List.getElem_finRange]
    have hb : asym[m] + mult[m] ≤ (F.map (cartesian cell)).length := by rw [hlen]; exact (ho.block m hma hm).1
    rw [← card_block hb]
    congr 1
    refine Finset.filter_congr fun t _ => ?_
    constructor
    · intro hb'
      refine Fin.ext ?_
      exact ho.unique (h1 t) hma (h2 t) hm (by rw [← hlen]; exact t.2) ⟨h3 t, h4 t⟩ hb'
    · intro e
      have e' : orb' t = m := by simpa using congrArg Fin.val e
      have h3 := h3 t
      have h4 := h4 t
      simp only [e'] at h3 h4
      exact ⟨h3, h4⟩
  · have ht : t.val < orbit.length := by rw [← hlen]; exact t.2
    have ht' : t.val < F.length := by rw [← h.length]; exact ht
    have ha := ho.lt (h1 t)
    have e := ((ho.block _ (h1 t) (h2 t)).2 t.val ht ha).1 ⟨h3 t, h4 t⟩
    obtain ⟨T, hT, hT'⟩ := h.symmetry hcell hG ht' (by rw [← h.length]; exact ha) ht ha e
    refine ⟨T, hT, ?_⟩
    simp only [Fin.getElem_fin, List.getElem_map] at hT' ⊢
    rw [hT']
    congr 1
    simp [inds]

end Amd
