import Verif.Proof.Repeated
import Verif.Proof.Crystal
import Verif.Props.Isometry
import Verif.Spec.AllSites
import Mathlib.Algebra.BigOperators.Fin

/-! Sets that list orbits are listings. -/

namespace Amd

section
variable {D : ℕ} {cell : Fin D → Pt D ℝ} {G : Set (FracOp D)}

/-! ### Symmetries -/

/-- An operation followed by a lattice translation is a symmetry of all orbits. -/
theorem exists_symmetry_all (hcell : NonSingular cell) (hG : IsSpaceGroup cell G) {g : FracOp D} (hg : g ∈ G) (m : Fin D → ℤ) :
    ∃ T, (∀ P, IsSymmetry (crystalPoints cell G P) T) ∧ ∀ x, T (cartesian cell x) = cartesian cell fun i => opPoint g x i + m i := by
  obtain ⟨T, -, hT⟩ := exists_symmetry (P := ∅) hcell hG hg m
  refine ⟨T, fun P => ?_, hT⟩
  obtain ⟨T', h', hT'⟩ := exists_symmetry (P := P) hcell hG hg m
  have e : T' = T := by
    funext p
    obtain ⟨x, rfl⟩ := cartesian_surjective hcell p
    rw [hT, hT']
  exact e ▸ h'

/-- Points of an orbit are carried to each other. -/
theorem orbit_symmetry (hcell : NonSingular cell) (hG : IsSpaceGroup cell G) {x p q : Pt D ℝ} (hp : p ∈ crystalPoints cell G {x}) (hq : q ∈ crystalPoints cell G {x}) :
    ∃ T, (∀ P, IsSymmetry (crystalPoints cell G P) T) ∧ T p = q := by
  obtain ⟨_, rfl, g, hg, n, rfl⟩ := hp
  obtain ⟨_, rfl, g', hg', n', rfl⟩ := hq
  rename_i x
  obtain ⟨h, hh, -, a, ha⟩ := hG.inv g hg
  obtain ⟨l, hl, m, hm⟩ := hG.mul g' hg' h hh
  have e0 : IntEq (fun i => opPoint g x i + n i) (opPoint g x) := ⟨n, fun i => rfl⟩
  have e1 : IntEq (opPoint h fun i => opPoint g x i + n i) x := (opPoint_congr hG.lattice hh e0).trans ⟨a, ha _⟩
  have e3 : IntEq (fun i => opPoint g' x i + n' i) (opPoint g' x) := ⟨n', fun i => rfl⟩
  have e2 : IntEq (fun i => opPoint g' x i + n' i) (opPoint l fun i => opPoint g x i + n i) :=
    (e3.trans (opPoint_congr hG.lattice hg' e1.symm)).trans ⟨m, hm _⟩
  obtain ⟨c, hc⟩ := e2
  obtain ⟨T, hT, hT'⟩ := exists_symmetry_all hcell hG hl c
  exact ⟨T, hT, by rw [hT']; exact congrArg _ (funext fun i => (hc i).symm)⟩

/-! ### How often points are listed -/

theorem card_countP {α : Type} (l : List α) (P : α → Prop) : Nat.card {i : Fin l.length // P l[i]} = (open Classical in l.countP fun x => P x) := by
  classical
  rw [Nat.card_eq_fintype_card, Fintype.card_subtype]
  have e : l = (List.finRange l.length).map l.get := by rw [← List.ofFn_eq_map, List.ofFn_get]
  conv_rhs => rw [e, List.countP_map, List.countP_eq_length_filter]
  rw [Finset.univ, Fin.fintype]
  simp only [Finset.filter, Finset.card, Multiset.filter_coe, Multiset.coe_card]
  rfl

theorem timesListed_countP {S : PeriodicSet D} (h : NonSingular S.cell) (p : Pt D ℝ) :
    timesListed S p = (open Classical in S.motif.countP fun q => p ∈ periodicPoints [q] S.cell) := by
  rw [← card_countP, timesListed]
  have key : ∀ i n, sitePos S.motif S.cell (i, n) = sitePos [S.motif[i]] S.cell (⟨0, by simp⟩, n) := fun i n => rfl
  refine Nat.card_congr (Equiv.ofBijective (fun s => ⟨s.1.1, ⟨(⟨0, by simp⟩, s.1.2), s.2⟩⟩) ⟨?_, ?_⟩)
  · rintro ⟨⟨i, n⟩, h1⟩ ⟨⟨j, m⟩, h2⟩ e
    obtain rfl : i = j := congrArg (fun x => x.1) e
    have : sitePos [S.motif[i]] S.cell (⟨0, by simp⟩, n) = sitePos [S.motif[i]] S.cell (⟨0, by simp⟩, m) := by rw [← key, ← key, h1, h2]
    have := congrArg Prod.snd (single_injective rfl h this)
    simp only at this
    subst this
    rfl
  · rintro ⟨i, ⟨⟨⟨a, ha⟩, n⟩, rfl⟩⟩
    have ha' : a = 0 := by simpa using ha
    subst ha'
    exact ⟨⟨(i, n), key i n⟩, rfl⟩

/-! ### Lists of lists -/

theorem flatten_get {α : Type} (l : List (List α)) (a b : ℕ) (ha : a < l.length) (hb : b < l[a].length) (h : ((l.map List.length).take a).sum + b < l.flatten.length) :
    l.flatten[((l.map List.length).take a).sum + b] = l[a][b] := by
  induction l generalizing a with
  | nil => cases ha
  | cons x l ih =>
    cases a with
    | zero =>
      simp only [List.map_cons, List.take_zero, List.sum_nil, Nat.zero_add, List.flatten_cons, List.getElem_cons_zero] at hb ⊢
      exact List.getElem_append_left hb
    | succ a =>
      simp only [List.map_cons, List.take_succ_cons, List.sum_cons, List.flatten_cons, List.getElem_cons_succ, Nat.add_assoc] at hb h ⊢
      rw [List.getElem_append_right (by omega)]
      simp only [Nat.add_sub_cancel_left]
      exact ih a (by simpa using ha) hb _

theorem sum_take_castLE (l : List ℕ) (a : ℕ) (h : a ≤ l.length) : ∑ i : Fin a, l[(Fin.castLE h i).1] = (l.take a).sum := by
  rw [← List.sum_ofFn]
  congr 1
  refine List.ext_getElem (by simp [h]) fun i h1 h2 => ?_
  simp

/-- The positions in a list of lists that are put one after the other. -/
theorem exists_blocks {α : Type} (l : List (List α)) : ∃ e : (Σ a : Fin l.length, Fin l[a].length) ≃ Fin l.flatten.length,
    (∀ a b, (e ⟨a, b⟩).1 = ((l.map List.length).take a).sum + b) ∧ ∀ a b, l.flatten[e ⟨a, b⟩] = l[a][b] := by
  have hl : ∑ a : Fin l.length, l[a].length = l.flatten.length := by
    rw [List.length_flatten, ← List.sum_ofFn]
    congr 1
    exact List.ext_getElem (by simp) fun i h1 h2 => by simp
  let e := (finSigmaFinEquiv (n := fun a : Fin l.length => l[a].length)).trans (finCongr hl)
  have h1 : ∀ a b, (e ⟨a, b⟩).1 = ((l.map List.length).take a).sum + b := by
    intro a b
    have := finSigmaFinEquiv_apply (n := fun a : Fin l.length => l[a].length) ⟨a, b⟩
    simp only [e, Equiv.trans_apply, finCongr_apply, Fin.val_cast]
    rw [this]
    congr 1
    have := sum_take_castLE (l.map List.length) a (by simp)
    rw [← this]
    refine Finset.sum_congr rfl fun i _ => ?_
    simp
  refine ⟨e, h1, fun a b => ?_⟩
  have h2 : ((l.map List.length).take a).sum + b.1 < l.flatten.length := by rw [← h1]; exact (e ⟨a, b⟩).2
  have h3 := flatten_get l a b a.2 b.2 h2
  simp only [Fin.getElem_fin] at h3 ⊢
  rw [← h3]
  congr 1
  exact h1 a b

theorem card_fibre {ι : Type} [Fintype ι] [DecidableEq ι] {n : ι → ℕ} {N : ℕ} (e : (Σ a, Fin (n a)) ≃ Fin N) (a : ι) :
    (Finset.univ.filter fun i => (e.symm i).1 = a).card = n a := by
  rw [← Fintype.card_subtype, ← Fintype.card_fin (n a)]
  exact Fintype.card_congr ((e.symm.subtypeEquiv fun i => Iff.rfl).trans (Equiv.sigmaSubtype a))

/-- The first positions of the blocks, and the block of each position. -/
theorem exists_units {α : Type} (l : List (List α)) (hne : ∀ x ∈ l, x ≠ []) : ∃ (inds : List (Fin l.flatten.length)) (orb : Fin l.flatten.length → Fin inds.length),
    inds.map Fin.val = (List.range l.length).map (fun a => ((l.map List.length).take a).sum) ∧
    l.map List.length = (List.finRange inds.length).map (fun a => (Finset.univ.filter fun i => orb i = a).card) ∧
    ∀ i, ∃ x ∈ l, l.flatten[i] ∈ x ∧ l.flatten[inds[orb i]] ∈ x := by
  obtain ⟨e, h1, h2⟩ := exists_blocks l
  have hpos : ∀ a : Fin l.length, 0 < l[a].length := fun a => List.length_pos_iff.2 (hne _ (List.getElem_mem a.2))
  have hl : ((List.finRange l.length).map fun a => e ⟨a, ⟨0, hpos a⟩⟩).length = l.length := by simp
  refine ⟨(List.finRange l.length).map fun a => e ⟨a, ⟨0, hpos a⟩⟩, fun i => Fin.cast hl.symm (e.symm i).1, ?_, ?_, fun i => ?_⟩
  · refine List.ext_getElem (by simp) fun i hi hi' => ?_
    simp only [List.getElem_map, List.getElem_range, List.getElem_finRange, h1]
    rfl
  · refine List.ext_getElem (by simp) fun i hi hi' => ?_
    have ha : i < l.length := by simpa using hi
    simp only [List.getElem_map, List.getElem_finRange]
    refine (card_fibre e ⟨i, ha⟩).symm.trans (congrArg Finset.card (Finset.filter_congr fun t _ => ?_))
    exact ⟨fun h => by rw [h]; rfl, fun h => by
      have h' := Fin.ext_iff.1 h
      exact Fin.ext h'⟩
  · obtain ⟨⟨a, b⟩, rfl⟩ := e.surjective i
    refine ⟨l[a], List.getElem_mem a.2, by rw [h2]; exact List.getElem_mem b.2, ?_⟩
    have h3 : ∀ c : Fin l.length, l.flatten[((List.finRange l.length).map fun a => e ⟨a, ⟨0, hpos a⟩⟩)[Fin.cast hl.symm c]] ∈ l[c] := by
      intro c
      have : ((List.finRange l.length).map fun a => e ⟨a, ⟨0, hpos a⟩⟩)[Fin.cast hl.symm c] = e ⟨c, ⟨0, hpos c⟩⟩ := by
        rw [Fin.getElem_fin, List.getElem_map, List.getElem_finRange]
        rfl
      have h4 : ∀ x y : Fin l.flatten.length, x = y → l.flatten[x] = l.flatten[y] := by
        rintro x _ rfl
        rfl
      rw [h4 _ _ this, h2]
      exact List.getElem_mem _
    have h5 : (e.symm (e ⟨a, b⟩)).1 = a := by rw [Equiv.symm_apply_apply]
    have h6 := h3 (e.symm (e ⟨a, b⟩)).1
    have h7 : l[(e.symm (e ⟨a, b⟩)).1] = l[a] := by simp only [h5]
    rw [h7] at h6
    exact h6

end

/-! ### Sets that list orbits -/

variable {G : Set (FracOp 3)} {orbits : List SiteOrbit} {S : PeriodicSet 3}

/-- A point is listed once for each site that has it as an image. -/
theorem ListsOrbits.times (h : ListsOrbits G orbits S) (hcell : NonSingular S.cell) (p : Pt 3 ℝ) :
    timesListed S p = (open Classical in (orbits.map SiteOrbit.site).countP fun x => p ∈ crystalPoints S.cell G {x}) := by
  classical
  rw [timesListed_countP hcell, h.motif, List.countP_map, List.countP_flatMap]
  have h1 := h.once
  have h2 := h.orbit
  clear h
  induction orbits with
  | nil => rfl
  | cons x orbits ih =>
    rw [List.map_cons, List.sum_cons, ih (fun y hy => h1 y (by simp [hy])) (fun y hy => h2 y (by simp [hy])), List.countP_cons, Nat.add_comm]
    congr 1
    have e := timesListed_countP (S := { motif := x.points, cell := S.cell }) hcell p
    rw [timesListed_once (S := { motif := x.points, cell := S.cell }) (h1 x (by simp))] at e
    simp only [Function.comp_apply, decide_eq_true_eq] at e ⊢
    rw [← h2 x (by simp)]
    exact e.symm

theorem ListsOrbits.carries (h : ListsOrbits G orbits S) (hcell : NonSingular S.cell) {T : Pt 3 ℝ → Pt 3 ℝ} (hT : ∀ P, IsSymmetry (crystalPoints S.cell G P) T) :
    Carries T S S := by
  refine ⟨(hT ∅).isometry, fun p => ?_⟩
  rw [h.times hcell, h.times hcell]
  classical
  refine List.countP_congr fun x _ => ?_
  rw [decide_eq_true_iff, decide_eq_true_iff, (hT {x}).mem_iff]

/-- A set that lists orbits is a listing. -/
theorem ListsOrbits.listing (h : ListsOrbits G orbits S) (hcell : NonSingular S.cell) (hG : IsSpaceGroup S.cell G) (hne : orbits ≠ []) :
    ∃ inds mult, IsListing S inds mult := by
  have hm : S.motif = (orbits.map SiteOrbit.points).flatten := by rw [h.motif, List.flatMap_def]
  obtain ⟨motif, cell, asym, mults⟩ := S
  simp only at hm
  subst hm
  obtain ⟨inds, orb, h1, h2, h3⟩ := exists_units (orbits.map SiteOrbit.points) (by
    intro x hx
    obtain ⟨y, hy, rfl⟩ := List.mem_map.1 hx
    exact h.nonempty y hy)
  have hmul : (orbits.map SiteOrbit.points).map List.length = orbits.map fun x => x.points.length := by
    rw [List.map_map]
    rfl
  refine ⟨inds, orbits.map fun x => x.points.length, hcell, ?_, Or.inl ⟨?_, h.mult, ?_⟩, ⟨orb, hmul.symm.trans h2, fun i => ?_⟩, ?_⟩
  · obtain ⟨x, l, rfl⟩ := List.exists_cons_of_ne_nil hne
    have := h.nonempty x (by simp)
    simp [this]
  · rw [h.asym, h1, hmul, List.length_map]
    simp only [List.map_take]
  · simpa using (congrArg List.length h1)
  · obtain ⟨x, hx, hp, hq⟩ := h3 i
    obtain ⟨y, hy, rfl⟩ := List.mem_map.1 hx
    have hin : ∀ p ∈ y.points, p ∈ crystalPoints cell G {y.site} := by
      intro p hp
      have ho : periodicPoints y.points cell = crystalPoints cell G {y.site} := h.orbit y hy
      rw [← ho]
      obtain ⟨b, hb, rfl⟩ := List.mem_iff_getElem.1 hp
      exact ⟨(⟨b, hb⟩, 0), sitePos_zero _ _ _⟩
    obtain ⟨T, hT, hp⟩ := orbit_symmetry hcell hG (hin _ hp) (hin _ hq)
    exact ⟨T, h.carries hcell hT, hp⟩
  · intro n hn
    obtain ⟨x, hx, rfl⟩ := List.mem_map.1 hn
    exact List.length_pos_iff.2 (h.nonempty x hx)

end Amd
