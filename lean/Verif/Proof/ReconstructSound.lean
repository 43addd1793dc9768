import Verif.Proof.Reconstruct
import Verif.Proof.MinvalTerm
import Verif.Spec.Reconstruct
import Mathlib.LinearAlgebra.Matrix.Determinant.Basic
import Mathlib.Data.List.Nodup
import Mathlib.Data.List.GetD
import Mathlib.Data.List.Perm.Basic

/-! Helper lemmas: what `reconstruct` returns fits the PDD. -/

set_option linter.unusedSectionVars false

namespace Amd

variable {D : ℕ} {cell : Fin D → Pt D ℝ} {prec : ℝ}

theorem eucl_eq_vnorm (p q : Pt D ℝ) : eucl p q = vnorm (p - q) := rfl

theorem vnorm_sub_comm (p q : Pt D ℝ) : vnorm (p - q) = vnorm (q - p) := by
  rw [vnorm, vnorm]
  congr 1
  exact Finset.sum_congr rfl fun j _ => by rw [Pi.sub_apply, Pi.sub_apply]; ring

theorem eucl_zero (q : Pt D ℝ) : eucl 0 q = vnorm q := by rw [eucl_eq_vnorm, vnorm_sub_comm, sub_zero]

theorem latVec_eq (n : Fin D → ℤ) : latVec cell n = latticePoint cell n := rfl

/-! ### Lists of distances -/

theorem uniqueTolFrom_sub (pre l : List ℝ) : ∀ x ∈ uniqueTolFrom prec pre l, x ∈ l := by
  induction l generalizing pre with
  | nil => intro x hx; exact hx
  | cons a l ih =>
    intro x hx
    rw [uniqueTolFrom] at hx
    split_ifs at hx
    · exact List.mem_cons_of_mem _ (ih _ _ hx)
    · rcases List.mem_cons.1 hx with rfl | hx
      · exact List.mem_cons_self
      · exact List.mem_cons_of_mem _ (ih _ _ hx)

theorem mem_removeVals {l vals : List ℝ} {x : ℝ} (h : x ∈ removeVals l vals prec) : x ∈ l := List.mem_of_mem_filter h

theorem mem_sharedVals {v1 v2 : List ℝ} {x : ℝ} (h : x ∈ sharedVals v1 v2 prec) : x ∈ v1 ∧ ∃ y ∈ v2, |x - y| < prec := by
  obtain ⟨a, ha, hx⟩ := List.mem_flatMap.1 h
  obtain ⟨y, hy, rfl⟩ := List.mem_map.1 hx
  obtain ⟨hy1, hy2⟩ := List.mem_filter.1 hy
  exact ⟨ha, y, hy1, by simpa using hy2⟩

theorem mem_shared {row1 row lat : List ℝ} {x : ℝ} (h : x ∈ uniqueWithinTol (sharedVals (removeVals row1 lat prec) (removeVals row lat prec) prec) prec) :
    SharedDistance prec (removeVals row1 lat prec) (removeVals row lat prec) x := mem_sharedVals (uniqueTolFrom_sub _ _ _ h)

theorem sharedVals_head {row : List ℝ} : ∀ {row1 : List ℝ} {x : ℝ}, (sharedVals row1 row prec).head? = some x → FirstShared prec row1 row x
  | [], x, h => by cases h
  | a :: l, x, h => by
    rw [sharedVals, List.flatMap_cons] at h
    by_cases hm : ∃ y ∈ row, |a - y| < prec
    · obtain ⟨y, hy, hay⟩ := hm
      have hmem : y ∈ row.filter fun y => decide (|a - y| < prec) := List.mem_filter.2 ⟨hy, by simpa using hay⟩
      obtain ⟨b, t, hbt⟩ : ∃ b t, (row.filter fun y => decide (|a - y| < prec)) = b :: t := by
        cases hf : row.filter fun y => decide (|a - y| < prec) with
        | nil => rw [hf] at hmem; cases hmem
        | cons b t => exact ⟨b, t, rfl⟩
      rw [hbt, List.map_cons, List.cons_append, List.head?_cons, Option.some.injEq] at h
      subst h
      exact ⟨[], l, rfl, ⟨y, hy, hay⟩, fun z hz => (by cases hz)⟩
    · have he : (row.filter fun y => decide (|a - y| < prec)) = [] := by
        rw [List.filter_eq_nil_iff]
        intro y hy hay
        exact hm ⟨y, hy, by simpa using hay⟩
      rw [he, List.map_nil, List.nil_append] at h
      obtain ⟨p, r, e, h1, h2⟩ := sharedVals_head (row1 := l) h
      refine ⟨a :: p, r, by rw [e]; rfl, h1, fun z hz y hy => ?_⟩
      rcases List.mem_cons.1 hz with rfl | hz
      · exact not_lt.1 fun hlt => hm ⟨y, hy, hlt⟩
      · exact h2 z hz y hy

theorem uniqueWithinTol_head (l : List ℝ) : (uniqueWithinTol l prec).head? = l.head? := by
  cases l with
  | nil => rfl
  | cons a l => rfl

theorem FirstShared.shared {row1 row : List ℝ} {x : ℝ} (h : FirstShared prec row1 row x) : SharedDistance prec row1 row x := by
  obtain ⟨l, r, rfl, h1, -⟩ := h
  exact ⟨by simp, h1⟩

theorem head_shared {row1 row lat : List ℝ} {x : ℝ} (h : (uniqueWithinTol (sharedVals (removeVals row1 lat prec) (removeVals row lat prec) prec) prec).head? = some x) :
    FirstShared prec (removeVals row1 lat prec) (removeVals row lat prec) x := sharedVals_head (by rw [← uniqueWithinTol_head]; exact h)

theorem SharedDistance.mono {row1 row row1' row' : List ℝ} {x : ℝ} (h : SharedDistance prec row1 row x) (h1 : ∀ z ∈ row1, z ∈ row1') (h2 : ∀ z ∈ row, z ∈ row') :
    SharedDistance prec row1' row' x := by
  obtain ⟨a, y, b, c⟩ := h
  exact ⟨h1 x a, y, h2 y b, c⟩

/-- Values that are equal or further apart than the tolerance are all kept once. -/
theorem mem_uniqueTolFrom {l : List ℝ} : ∀ {pre : List ℝ} {x : ℝ}, (∀ y ∈ pre ++ l, y = x ∨ prec ≤ |y - x|) → x ∉ pre → x ∈ l → x ∈ uniqueTolFrom prec pre l := by
  induction l with
  | nil => intro pre x _ _ h; cases h
  | cons a l ih =>
    intro pre x hs hp hx
    by_cases hax : a = x
    · subst hax
      rw [uniqueTolFrom, if_neg]
      · exact List.mem_cons_self
      · rw [List.any_eq_true]
        rintro ⟨y, hy, hy'⟩
        rcases hs y (by simp [hy]) with rfl | h
        · exact hp hy
        · exact absurd (by simpa using hy') (not_lt.2 h)
    · have hx' : x ∈ l := by
        rcases List.mem_cons.1 hx with h | h
        · exact absurd h.symm hax
        · exact h
      have := ih (pre := pre ++ [a]) (x := x) (by simpa using hs) (by simp [hp, Ne.symm hax]) hx'
      rw [uniqueTolFrom]
      split_ifs
      · exact this
      · exact List.mem_cons_of_mem _ this

/-! ### Choices -/

theorem combinations_spec {α : Type} : ∀ (n : ℕ) (l c : List α), c ∈ combinations n l → c.length = n ∧ ∀ x ∈ c, x ∈ l
  | 0, l, c, h => by
    have : c = [] := by simpa [combinations] using h
    subst this
    exact ⟨rfl, fun x hx => (by cases hx)⟩
  | n + 1, [], c, h => by cases h
  | n + 1, a :: l, c, h => by
    rw [combinations, List.mem_append] at h
    rcases h with h | h
    · obtain ⟨c', hc', rfl⟩ := List.mem_map.1 h
      obtain ⟨h1, h2⟩ := combinations_spec n l c' hc'
      refine ⟨by rw [List.length_cons, h1], fun x hx => ?_⟩
      rcases List.mem_cons.1 hx with rfl | hx
      · exact List.mem_cons_self
      · exact List.mem_cons_of_mem _ (h2 x hx)
    · obtain ⟨h1, h2⟩ := combinations_spec (n + 1) l c h
      exact ⟨h1, fun x hx => List.mem_cons_of_mem _ (h2 x hx)⟩

theorem picks_perm {α : Type} (l : List α) : ∀ x ∈ picks l, (x.1 :: x.2).Perm l := by
  induction l with
  | nil => intro x hx; cases hx
  | cons a l ih =>
    intro x hx
    rw [picks, List.mem_cons] at hx
    rcases hx with rfl | hx
    · exact .refl _
    · obtain ⟨y, hy, rfl⟩ := List.mem_map.1 hx
      exact (List.Perm.swap _ _ _).trans ((ih y hy).cons a)

theorem permutationsOf_perm {α : Type} : ∀ (n : ℕ) (l c : List α), l.length = n → c ∈ permutationsOf n l → c.Perm l
  | 0, l, c, hl, h => by
    have : c = [] := by simpa [permutationsOf] using h
    rw [this, List.length_eq_zero_iff.1 hl]
  | n + 1, l, c, hl, h => by
    rw [permutationsOf] at h
    obtain ⟨x, hx, hc⟩ := List.mem_flatMap.1 h
    obtain ⟨c', hc', rfl⟩ := List.mem_map.1 hc
    have hp := picks_perm l x hx
    have hl' : x.2.length = n := by
      have := hp.length_eq
      rw [List.length_cons, hl] at this
      omega
    exact ((permutationsOf_perm n x.2 c' hl' hc').cons x.1).trans hp

theorem linearIndependent_getD_iff {l : List (Pt D ℝ)} (hl : l.length = D) :
    LinearIndependent ℝ (fun i : Fin D => l.getD i 0) ↔ l.Nodup ∧ LinearIndepOn ℝ id {x | x ∈ l} := by
  have hr : Set.range (fun i : Fin D => l.getD i 0) = {x | x ∈ l} := by
    ext x
    constructor
    · rintro ⟨i, rfl⟩
      have hi : (i : ℕ) < l.length := by rw [hl]; exact i.2
      change l.getD i 0 ∈ l
      rw [List.getD_eq_getElem _ _ hi]
      exact List.getElem_mem hi
    · intro hx
      obtain ⟨i, hi, rfl⟩ := List.getElem_of_mem hx
      exact ⟨⟨i, hl ▸ hi⟩, List.getD_eq_getElem _ _ hi⟩
  have hnd : l.Nodup ↔ Function.Injective (fun i : Fin D => l.getD i 0) := by
    constructor
    · intro h i j hij
      have hi : (i : ℕ) < l.length := by rw [hl]; exact i.2
      have hj : (j : ℕ) < l.length := by rw [hl]; exact j.2
      dsimp only at hij
      rw [List.getD_eq_getElem _ _ hi, List.getD_eq_getElem _ _ hj] at hij
      exact Fin.ext ((List.Nodup.getElem_inj_iff h).1 hij)
    · intro h
      rw [List.nodup_iff_injective_getElem]
      intro i j hij
      have := @h ⟨i, lt_of_lt_of_eq i.2 hl⟩ ⟨j, lt_of_lt_of_eq j.2 hl⟩ (by
        dsimp only
        rw [List.getD_eq_getElem _ _ i.2, List.getD_eq_getElem _ _ j.2]
        exact hij)
      exact Fin.ext (Fin.mk.inj_iff.1 this)
  constructor
  · intro h
    refine ⟨hnd.2 h.injective, ?_⟩
    rw [← hr, linearIndepOn_id_range_iff h.injective]
    exact h
  · rintro ⟨h1, h2⟩
    rw [← hr, linearIndepOn_id_range_iff (hnd.1 h1)] at h2
    exact h2

theorem basesOf_spec (hprec : 0 ≤ prec) {nn : List (Pt D ℝ)} {b : List (Pt D ℝ)} (h : b ∈ basesOf nn prec) :
    b.length = D ∧ (∀ x ∈ b, x ∈ nn) ∧ LinearIndependent ℝ (fun i : Fin D => b.getD i 0) := by
  obtain ⟨vecs, hv, hb⟩ := List.mem_flatMap.1 h
  obtain ⟨hl, hsub⟩ := combinations_spec _ _ _ hv
  split_ifs at hb with hdet
  swap
  · cases hb
  have hp := permutationsOf_perm D vecs b hl hb
  have hdet' : (Matrix.of fun i j : Fin D => (vecs.getD i 0) j).det ≠ 0 := by
    intro h0
    rw [detRows, h0, abs_zero] at hdet
    exact absurd hdet (not_lt.2 hprec)
  have hli : LinearIndependent ℝ (fun i : Fin D => vecs.getD i 0) := Matrix.linearIndependent_rows_of_det_ne_zero hdet'
  have hlb : b.length = D := hp.length_eq.trans hl
  refine ⟨hlb, fun x hx => hsub x (hp.mem_iff.1 hx), ?_⟩
  rw [linearIndependent_getD_iff hl] at hli
  rw [linearIndependent_getD_iff hlb]
  refine ⟨hp.nodup_iff.2 hli.1, ?_⟩
  have : {x | x ∈ b} = {x | x ∈ vecs} := Set.ext fun x => hp.mem_iff
  rw [this]
  exact hli.2

/-! ### Sphere intersections -/

theorem sphereIntersect_spec {basis : List (Pt D ℝ)} {dists : List ℝ} {absQ : ℝ} {q : Pt D ℝ} (hd : ∀ x ∈ dists, 0 ≤ x)
    (h : sphereIntersect D basis dists absQ prec = some q) :
    (∀ i : Fin D, vnorm (basis.getD i 0 - q) ∈ dists) ∧ |vnorm q - absQ| < prec := by
  unfold sphereIntersect at h
  split at h
  · rename_i p1 p2 r1 r2
    obtain ⟨h1, h2, h3⟩ := bilaterate_spec h
    refine ⟨fun i => ?_, h3⟩
    fin_cases i
    · change vnorm (p1 - q) ∈ _
      rw [vnorm_sub_comm, h1]; simp
    · change vnorm (p2 - q) ∈ _
      rw [vnorm_sub_comm, h2]; simp
  · rename_i p1 p2 p3 r1 r2 r3
    obtain ⟨h1, h2, h3, h4⟩ := trilaterate_spec (hd _ (by simp)) (hd _ (by simp)) (hd _ (by simp)) h
    refine ⟨fun i => ?_, h4⟩
    fin_cases i
    · change vnorm (p1 - q) ∈ _
      rw [vnorm_sub_comm, h1]; simp
    · change vnorm (p2 - q) ∈ _
      rw [vnorm_sub_comm, h2]; simp
    · change vnorm (p3 - q) ∈ _
      rw [vnorm_sub_comm, h3]; simp
  · cases h

/-! ### The lattice points -/

theorem latticeCloud_spec {diam : ℝ} : ∀ (fuel n : ℕ) (cloud : List (Pt D ℝ)), latticeCloud cell diam fuel n = some cloud →
    ∃ m, n ≤ m ∧ cloud = ((List.range' n (m - n)).flatMap fun k => (intLayer D k).map (latVec cell)) ∧
      (∀ v ∈ intLayer D m, ¬vnorm (latVec cell v) ≤ diam) ∧ ∀ k, n ≤ k → k < m → ∃ v ∈ intLayer D k, vnorm (latVec cell v) ≤ diam
  | 0, n, cloud, h => by cases h
  | fuel + 1, n, cloud, h => by
    rw [latticeCloud] at h
    split_ifs at h with hc
    · obtain ⟨rest, hr, rfl⟩ := Option.map_eq_some_iff.1 h
      obtain ⟨m, hm, e, hm', hr'⟩ := latticeCloud_spec fuel (n + 1) rest hr
      refine ⟨m, by omega, ?_, hm', fun k hk hkm => ?_⟩
      rotate_left
      · rcases Nat.eq_or_lt_of_le hk with rfl | hk
        · rw [List.any_eq_true] at hc
          obtain ⟨x, hx, hx'⟩ := hc
          obtain ⟨v, hv, rfl⟩ := List.mem_map.1 hx
          exact ⟨v, hv, by simpa using hx'⟩
        · exact hr' k hk hkm
      obtain ⟨k, hk⟩ : ∃ k, m - n = k + 1 := ⟨m - n - 1, by omega⟩
      rw [hk, List.range'_succ, List.flatMap_cons, e]
      have : m - (n + 1) = k := by omega
      rw [this]
    · rw [Option.some.injEq] at h
      subst h
      refine ⟨n, le_rfl, by simp, fun v hv hle => hc ?_, fun k hk hkm => absurd hkm (by omega)⟩
      rw [List.any_eq_true]
      exact ⟨_, List.mem_map_of_mem hv, by simpa using hle⟩

theorem shell_of_ne_zero {n : Fin D → ℤ} (hn : n ≠ 0) {m : ℕ} (h : ∑ i, n i ^ 2 ≤ (m : ℤ) ^ 2) : ∃ k : ℕ, 1 ≤ k ∧ k ≤ m ∧ InShell k n := by
  have hex : ∃ k : ℕ, ∑ i, n i ^ 2 ≤ (k : ℤ) ^ 2 := ⟨m, h⟩
  classical
  refine ⟨Nat.find hex, ?_, Nat.find_min' hex h, Nat.find_spec hex, ?_⟩
  · rw [Nat.one_le_iff_ne_zero]
    intro h0
    have := Nat.find_spec hex
    rw [h0] at this
    apply hn
    funext i
    have h1 : n i ^ 2 ≤ ∑ i, n i ^ 2 := Finset.single_le_sum (f := fun i => n i ^ 2) (fun i _ => sq_nonneg _) (Finset.mem_univ i)
    have h2 : n i ^ 2 = 0 := le_antisymm (h1.trans (by simpa using this)) (sq_nonneg _)
    exact pow_eq_zero_iff two_ne_zero |>.1 h2
  · rcases Nat.eq_zero_or_pos (Nat.find hex) with h0 | h0
    · exact .inl h0
    · right
      have := Nat.find_min hex (m := Nat.find hex - 1) (by omega)
      rw [not_le] at this
      rw [normSq]
      have e : ((Nat.find hex - 1 : ℕ) : ℤ) = (Nat.find hex : ℤ) - 1 := by omega
      rw [e] at this
      exact this

theorem mem_cloud_of_reach {diam : ℝ} (hD : 0 < D) {fuel : ℕ} {cloud : List (Pt D ℝ)} (h : latticeCloud cell diam fuel 1 = some cloud) {m : ℕ}
    (hr : LayersReach cell diam m) {n : Fin D → ℤ} (hn : n ≠ 0) (hm : ∑ i, n i ^ 2 ≤ (m : ℤ) ^ 2) : latticePoint cell n ∈ cloud := by
  obtain ⟨M, hM, e, hM', -⟩ := latticeCloud_spec fuel 1 cloud h
  obtain ⟨k, hk1, hkm, hsh⟩ := shell_of_ne_zero hn hm
  have hlt : k < M := by
    by_contra hge
    rw [not_lt] at hge
    obtain ⟨v, hv1, hv2, hv3⟩ := hr M hM (hge.trans hkm)
    refine hM' v ?_ (by rw [← eucl_zero]; exact hv3)
    rw [mem_intLayer hD]
    exact ⟨hv2, .inr hv1⟩
  rw [e]
  refine List.mem_flatMap.2 ⟨k, ?_, List.mem_map_of_mem ((mem_intLayer hD k n).2 hsh)⟩
  rw [List.mem_range'_1]
  omega

/-- The lengths that are removed from rows are those of lattice vectors. -/
theorem removeVals_eq {diam : ℝ} (hD : 0 < D) {fuel : ℕ} {cloud : List (Pt D ℝ)} (h : latticeCloud cell diam fuel 1 = some cloud) (hsep : SeparateLengths prec diam cell)
    (row : List ℝ) : removeVals row (uniqueWithinTol ((cloud.map vnorm).filter fun x => decide (x ≤ diam)) prec) prec = offLattice prec diam cell row := by
  classical
  have hin : ∀ x ∈ (cloud.map vnorm).filter (fun x => decide (x ≤ diam)), LatticeLength diam cell x := by
    intro x hx
    obtain ⟨hx, hle⟩ := List.mem_filter.1 hx
    rw [decide_eq_true_iff] at hle
    obtain ⟨c, hc, rfl⟩ := List.mem_map.1 hx
    obtain ⟨M, hM, e, -, hr⟩ := latticeCloud_spec fuel 1 cloud h
    rw [e] at hc
    obtain ⟨k, hk, hc⟩ := List.mem_flatMap.1 hc
    rw [List.mem_range'_1] at hk
    obtain ⟨v, hv, rfl⟩ := List.mem_map.1 hc
    have hv' := (mem_intLayer hD k v).1 hv
    refine ⟨k, v, fun l h1 hl => ?_, ?_, hv'.1, by rw [eucl_zero]; rfl, hle⟩
    · obtain ⟨w, hw, hw'⟩ := hr l h1 (by omega)
      have := (mem_intLayer hD l w).1 hw
      refine ⟨w, ?_, this.1, by rw [eucl_zero]; exact hw'⟩
      rcases this.2 with h0 | h0
      · omega
      · exact h0
    · rintro rfl
      rcases hv'.2 with h0 | h0
      · omega
      · rw [normSq] at h0
        simp at h0
        have : (0 : ℤ) ≤ ((k : ℤ) - 1) ^ 2 := sq_nonneg _
        omega
  have hlat : ∀ x, x ∈ uniqueWithinTol ((cloud.map vnorm).filter fun x => decide (x ≤ diam)) prec ↔ LatticeLength diam cell x := by
    intro x
    constructor
    · exact fun hx => hin x (uniqueTolFrom_sub _ _ _ hx)
    · intro hx
      have hx' := hx
      obtain ⟨m, n, hr, hn, hm, rfl, hle⟩ := hx
      have hmem := mem_cloud_of_reach hD h hr hn hm
      refine mem_uniqueTolFrom (fun y hy => ?_) (by simp) (List.mem_filter.2 ⟨List.mem_map.2 ⟨_, hmem, (eucl_zero _).symm⟩, by simpa using hle⟩)
      exact hsep y _ (hin y (by simpa using hy)) hx'
  rw [removeVals, offLattice]
  refine List.filter_congr fun x _ => ?_
  rw [Bool.eq_iff_iff, Bool.not_eq_true', List.any_eq_false, decide_eq_true_iff]
  constructor
  · intro hx y hy
    have := hx y ((hlat y).2 hy)
    rw [decide_eq_true_iff, not_lt] at this
    exact this
  · intro hx y hy
    rw [decide_eq_true_iff, not_lt]
    exact hx y ((hlat y).1 hy)

theorem neighborLoop_lattice (vecs : List (Pt D ℝ)) : ∀ (fuel n : ℕ) (cloud : List (Pt D ℝ)) (a b : Option (List (List ℝ))) (out : List (Pt D ℝ)),
    (∀ v ∈ cloud, ∃ n, v = latticePoint cell n) → neighborLoop cell vecs fuel n cloud a b = some out → ∀ v ∈ out, ∃ n, v = latticePoint cell n
  | 0, _, _, _, _, _, _, h => by cases h
  | fuel + 1, n, cloud, a, b, out, hc, h => by
    rw [neighborLoop] at h
    split_ifs at h
    · rw [Option.some.injEq] at h
      subst h
      exact hc
    · refine neighborLoop_lattice vecs fuel (n + 2) _ _ _ out ?_ h
      intro v hv
      rw [List.mem_append, List.mem_append] at hv
      rcases hv with (hv | hv) | hv
      · exact hc v hv
      · obtain ⟨w, _, rfl⟩ := List.mem_map.1 hv
        exact ⟨w, rfl⟩
      · obtain ⟨w, _, rfl⟩ := List.mem_map.1 hv
        exact ⟨w, rfl⟩

theorem neighborSet_lattice {memory : Option (List (List ℝ))} {order : List (Pt D ℝ) → Pt D ℝ → List ℕ} {fuel : ℕ} {out : List (Pt D ℝ)}
    (h : neighborSet memory order cell prec fuel = some out) : ∀ v ∈ out, ∃ n, v = latticePoint cell n := by
  rw [neighborSet] at h
  obtain ⟨cloud, hc, rfl⟩ := Option.map_eq_some_iff.1 h
  intro v hv
  have hv := List.mem_of_mem_filter hv
  obtain ⟨i, hi, rfl⟩ := List.mem_map.1 hv
  have hi := List.mem_range.1 (List.mem_of_mem_filter hi)
  refine neighborLoop_lattice _ _ _ _ _ _ _ ?_ hc _ ?_
  · intro v hv
    obtain ⟨w, _, rfl⟩ := List.mem_map.1 hv
    exact ⟨w, rfl⟩
  · rw [List.getD_eq_getElem _ _ hi]
    exact List.getElem_mem hi

/-! ### The points -/

theorem fits_of_found {nn cloud : List (Pt D ℝ)} {diam : ℝ} {fuel : ℕ} {row1 row : List ℝ} {absQ : ℝ} {dists : List ℝ} {basis : List (Pt D ℝ)} {p : Pt D ℝ}
    (hD : 0 < D) (hprec : 0 ≤ prec) (hnn : ∀ v ∈ nn, ∃ n, v = latticePoint cell n) (hcloud : latticeCloud cell diam fuel 1 = some cloud)
    (hpos : ∀ x ∈ row1, 0 ≤ x) (hq : SharedDistance prec row1 row absQ) (hds : ∀ x ∈ dists, SharedDistance prec row1 row x)
    (hb : basis ∈ basesOf nn prec) (hs : sphereIntersect D basis dists absQ prec = some p) (hv : inVoronoi cloud absQ prec p = true) :
    Fits prec diam cell row1 row p := by
  obtain ⟨h1, h2⟩ := sphereIntersect_spec (fun x hx => hpos x (hds x hx).1) hs
  obtain ⟨hl, hsub, hli⟩ := basesOf_spec hprec hb
  refine ⟨⟨absQ, hq, by rw [eucl_zero]; exact h2⟩, ?_, ?_⟩
  · have : ∀ i : Fin D, ∃ n, basis.getD i 0 = latticePoint cell n := fun i => by
      have hi : (i : ℕ) < basis.length := by rw [hl]; exact i.2
      rw [List.getD_eq_getElem _ _ hi]
      exact hnn _ (hsub _ (List.getElem_mem hi))
    choose n hn using this
    refine ⟨n, ?_, fun i => ?_⟩
    · have e : (fun i : Fin D => latticePoint cell (n i)) = fun i : Fin D => basis.getD i 0 := funext fun i => (hn i).symm
      rw [e]
      exact hli
    · rw [← hn i]
      exact hds _ (h1 i)
  · intro m n hr hn hm
    have hmem := mem_cloud_of_reach hD hcloud hr hn hm
    have := List.all_eq_true.1 hv _ hmem
    rw [decide_eq_true_iff] at this
    have h3 := abs_lt.1 h2
    rw [eucl_zero, eucl_eq_vnorm]
    linarith [h3.1, h3.2]

theorem findSecondPoint_spec {shared : List ℝ} {bases : List (List (Pt D ℝ))} {cloud : List (Pt D ℝ)} {p : Pt D ℝ}
    (h : findSecondPoint shared bases cloud prec = .ok (some p)) :
    ∃ absQ dists basis, shared.head? = some absQ ∧ (∀ x ∈ dists, x ∈ shared) ∧ basis ∈ bases ∧ sphereIntersect D basis dists absQ prec = some p ∧
      inVoronoi cloud absQ prec p = true := by
  unfold findSecondPoint at h
  split at h
  · cases h
  · rename_i absQ rest
    rw [Except.ok.injEq] at h
    obtain ⟨dists, hd, h⟩ := List.exists_of_findSome?_eq_some h
    obtain ⟨basis, hb, h⟩ := List.exists_of_findSome?_eq_some h
    obtain ⟨q, hq, h⟩ := Option.bind_eq_some_iff.1 h
    split_ifs at h with hv
    rw [Option.some.injEq] at h
    subst h
    exact ⟨absQ, dists, basis, rfl, fun x hx => List.mem_cons_of_mem _ ((combinations_spec _ _ _ hd).2 x hx), hb, hq, hv⟩

theorem findFurtherPoint_spec {shared1 shared2 : List ℝ} {bases : List (List (Pt D ℝ))} {cloud : List (Pt D ℝ)} {q p : Pt D ℝ}
    (h : findFurtherPoint shared1 shared2 bases cloud q prec = .ok (some p)) :
    (∃ absQ dists basis, shared1.head? = some absQ ∧ (∀ x ∈ dists, x ∈ shared1) ∧ basis ∈ bases ∧ sphereIntersect D basis dists absQ prec = some p ∧
      inVoronoi cloud absQ prec p = true) ∧ ∃ x ∈ shared2, |x - vnorm (q - p)| < prec := by
  unfold findFurtherPoint at h
  split at h
  · cases h
  · rename_i absQ rest
    rw [Except.ok.injEq] at h
    obtain ⟨dists, hd, h⟩ := List.exists_of_findSome?_eq_some h
    obtain ⟨basis, hb, h⟩ := List.exists_of_findSome?_eq_some h
    obtain ⟨p', hp', h⟩ := Option.bind_eq_some_iff.1 h
    split_ifs at h with hv
    rw [Option.some.injEq] at h
    subst h
    rw [Bool.and_eq_true, List.any_eq_true] at hv
    obtain ⟨hv, x, hx, hx'⟩ := hv
    exact ⟨⟨absQ, dists, basis, rfl, fun x hx => List.mem_cons_of_mem _ ((combinations_spec _ _ _ hd).2 x hx), hb, hp', hv⟩,
      x, hx, by simpa using hx'⟩

theorem furtherPoints_spec {lat row1 row2 : List ℝ} {bases : List (List (Pt D ℝ))} {cloud : List (Pt D ℝ)} {q : Pt D ℝ} :
    ∀ (rows : List (List ℝ)) (ps : List (Pt D ℝ)), furtherPoints lat row1 row2 bases cloud q prec rows = .ok ps →
    List.Forall₂ (fun row p => findFurtherPoint (uniqueWithinTol (sharedVals row1 (removeVals row lat prec) prec) prec)
      (uniqueWithinTol (sharedVals row2 (removeVals row lat prec) prec) prec) bases cloud q prec = .ok (some p)) rows ps
  | [], ps, h => by
    rw [furtherPoints, Except.ok.injEq] at h
    subst h
    exact .nil
  | row :: rows, ps, h => by
    rw [furtherPoints] at h
    cases hf : findFurtherPoint (uniqueWithinTol (sharedVals row1 (removeVals row lat prec) prec) prec)
      (uniqueWithinTol (sharedVals row2 (removeVals row lat prec) prec) prec) bases cloud q prec with
    | error e => rw [hf] at h; cases h
    | ok o =>
      rw [hf] at h
      cases o with
      | none => cases h
      | some p =>
        cases hr : furtherPoints lat row1 row2 bases cloud q prec rows with
        | error e =>
          simp only [hr, bind, Except.bind] at h
          cases h
        | ok ps' =>
          simp only [hr, bind, Except.bind, Except.ok.injEq] at h
          subst h
          exact .cons hf (furtherPoints_spec rows ps' hr)

theorem reduceToCell_same (hdet : (Matrix.of cell).det ≠ 0) (p : Pt D ℝ) : LatticeTranslate cell (reduceToCell cell p) p := by
  refine ⟨fun i => -⌊Matrix.vecMul p (Matrix.of cell)⁻¹ i⌋, ?_⟩
  have hp : Matrix.vecMul (Matrix.vecMul p (Matrix.of cell)⁻¹) (Matrix.of cell) = p := by
    rw [Matrix.vecMul_vecMul, Matrix.nonsing_inv_mul _ (isUnit_iff_ne_zero.2 hdet), Matrix.vecMul_one]
  funext j
  have hj := congrFun hp j
  rw [Pi.add_apply]
  conv_rhs => rw [← hj]
  simp only [reduceToCell, latticePoint, Matrix.vecMul, dotProduct, Matrix.of_apply]
  rw [← Finset.sum_add_distrib]
  refine Finset.sum_congr rfl fun i _ => ?_
  rw [Int.fract]
  push_cast
  ring

theorem reduceToCell_in (p : Pt D ℝ) : InUnitCell cell (reduceToCell cell p) :=
  ⟨fun i => Int.fract (Matrix.vecMul p (Matrix.of cell)⁻¹ i), fun _ => ⟨Int.fract_nonneg _, Int.fract_lt_one _⟩, rfl⟩

theorem reduceToCell_zero : reduceToCell cell 0 = 0 := by
  funext j
  simp [reduceToCell, Matrix.zero_vecMul]

theorem reconstruct_spec {memory : Option (List (List ℝ))} {order : List (Pt D ℝ) → Pt D ℝ → List ℕ} {pdd : List (List ℝ)} {fuel : ℕ} {motif : List (Pt D ℝ)}
    (h : reconstruct memory order pdd cell fuel = .ok motif) : 0 < D ∧ ∃ diam, diameter D cell = .ok diam ∧ ((pdd.length = 1 ∧ motif = [0]) ∨
      ∃ cloud nn row1 row2 rows q, latticeCloud cell diam fuel 1 = some cloud ∧ neighborSet memory order cell (1 / 10 ^ 10) fuel = some nn ∧
        pdd = row1 :: row2 :: rows ∧ ∃ lat, lat = uniqueWithinTol ((cloud.map vnorm).filter fun x => decide (x ≤ diam)) (1 / 10 ^ 10) ∧ findSecondPoint (uniqueWithinTol (sharedVals (removeVals row1 lat (1 / 10 ^ 10)) (removeVals row2 lat (1 / 10 ^ 10))
          (1 / 10 ^ 10)) (1 / 10 ^ 10)) (basesOf nn (1 / 10 ^ 10)) cloud (1 / 10 ^ 10) = .ok (some q) ∧ ((rows = [] ∧ motif = [0, q]) ∨
        ∃ ps, furtherPoints lat (removeVals row1 lat (1 / 10 ^ 10)) (removeVals row2 lat (1 / 10 ^ 10)) (basesOf nn (1 / 10 ^ 10)) cloud q (1 / 10 ^ 10) rows = .ok ps ∧
          rows ≠ [] ∧ (Matrix.of cell).det ≠ 0 ∧ motif = ([0, q] ++ ps).map (reduceToCell cell))) := by
  rw [reconstruct] at h
  dsimp only at h
  by_cases hD : D ≠ 2 ∧ D ≠ 3
  · rw [if_pos hD] at h; cases h
  rw [if_neg hD] at h
  refine ⟨by omega, ?_⟩
  cases hdiam : diameter D cell with
  | error e => rw [hdiam] at h; cases h
  | ok diam =>
    rw [hdiam] at h
    dsimp only at h
    refine ⟨diam, rfl, ?_⟩
    by_cases h1 : pdd.length = 1
    · rw [if_pos h1, Except.ok.injEq] at h
      exact .inl ⟨h1, h.symm⟩
    · right
      rw [if_neg h1] at h
      split at h
      · cases h
      · cases h
      · cases h
      · rename_i cloud nn hcl hcloud hnn
        split at h
        · rename_i row1 row2 rows
          refine ⟨cloud, nn, row1, row2, rows, ?_⟩
          generalize hlat : uniqueWithinTol ((cloud.map vnorm).filter fun x => decide (x ≤ diam)) (1 / 10 ^ 10) = lat at h
          generalize hf : findSecondPoint (uniqueWithinTol (sharedVals (removeVals row1 lat (1 / 10 ^ 10)) (removeVals row2 lat (1 / 10 ^ 10))
            (1 / 10 ^ 10)) (1 / 10 ^ 10)) (basesOf nn (1 / 10 ^ 10)) cloud (1 / 10 ^ 10) = f at h
          cases f with
          | error e => cases h
          | ok o =>
            cases o with
            | none => cases h
            | some q =>
              refine ⟨q, hcloud, hnn, rfl, lat, rfl, hf, ?_⟩
              simp only [bind, Except.bind] at h
              by_cases h2 : rows = []
              · rw [if_pos h2, Except.ok.injEq] at h
                exact .inl ⟨h2, h.symm⟩
              · right
                rw [if_neg h2] at h
                generalize hg : furtherPoints lat (removeVals row1 lat (1 / 10 ^ 10)) (removeVals row2 lat (1 / 10 ^ 10)) (basesOf nn (1 / 10 ^ 10)) cloud q
                  (1 / 10 ^ 10) rows = g at h
                cases g with
                | error e => cases h
                | ok ps =>
                  dsimp only at h
                  split_ifs at h with h3
                  rw [Except.ok.injEq] at h
                  exact ⟨ps, rfl, h2, h3, h.symm⟩
        · cases h

end Amd
