import Verif.Model.Minval
import Verif.Proof.Asymptotics
import Verif.Proof.NNExact

/-! Helper lemmas: `nearest_neighbors_minval`. -/

set_option linter.unusedSectionVars false

namespace Amd

/-! ### Columns -/

section
variable {L : Type*} [LinearOrder L] [Zero L]

theorem firstCol_some {ge : L → Bool} {dists : List (List L)} {c : ℕ} (h : firstCol ge dists = some c) :
    c < (dists.headD []).length ∧ (∀ r ∈ dists, ge (r.getD c 0) = true) ∧
      ∀ c' < c, ∃ r ∈ dists, ge (r.getD c' 0) = false := by
  unfold firstCol at h
  rw [List.find?_range_eq_some] at h
  obtain ⟨h1, h2, h3⟩ := h
  refine ⟨List.mem_range.mp h2, fun r hr => List.all_eq_true.mp h1 r hr, fun c' hc' => ?_⟩
  have := h3 c' hc'
  rw [Bool.not_eq_true', List.all_eq_false] at this
  obtain ⟨r, hr, h⟩ := this
  exact ⟨r, hr, by simpa using h⟩

theorem firstCol_eq_some {ge : L → Bool} {dists : List (List L)} {c : ℕ} (h1 : c < (dists.headD []).length)
    (h2 : ∀ r ∈ dists, ge (r.getD c 0) = true) (h3 : ∀ c' < c, ∃ r ∈ dists, ge (r.getD c' 0) = false) :
    firstCol ge dists = some c := by
  unfold firstCol
  rw [List.find?_range_eq_some]
  refine ⟨List.all_eq_true.mpr h2, List.mem_range.mpr h1, fun j hj => ?_⟩
  rw [Bool.not_eq_true', List.all_eq_false]
  obtain ⟨r, hr, h⟩ := h3 j hj
  exact ⟨r, hr, by rw [h]; simp⟩

theorem getD_take {r : List L} {c n : ℕ} (h : c < n) : (r.take n).getD c 0 = r.getD c 0 := by
  rw [List.getD_eq_getElem?_getD, List.getD_eq_getElem?_getD, List.getElem?_take_of_lt h]

/-- `k` of line 592 and `col` of line 576 belong together. -/
theorem firstCol_of_take {ge : L → Bool} {prev cur : List (List L)} {c : ℕ} (h : firstCol ge cur = some c)
    (he : prev.map (·.take (c + 1)) = cur.map (·.take (c + 1))) : firstCol ge prev = some c := by
  obtain ⟨h1, h2, h3⟩ := firstCol_some h
  have key : ∀ c' ≤ c, ∀ r ∈ prev, ∃ r' ∈ cur, r.getD c' 0 = r'.getD c' 0 := by
    intro c' hc' r hr
    have : r.take (c + 1) ∈ cur.map (·.take (c + 1)) := he ▸ List.mem_map.mpr ⟨r, hr, rfl⟩
    obtain ⟨r', hr', e⟩ := List.mem_map.mp this
    refine ⟨r', hr', ?_⟩
    rw [← getD_take (r := r) (n := c + 1) (by omega), ← e, getD_take (by omega)]
  have key' : ∀ c' ≤ c, ∀ r ∈ cur, ∃ r' ∈ prev, r.getD c' 0 = r'.getD c' 0 := by
    intro c' hc' r hr
    have : r.take (c + 1) ∈ prev.map (·.take (c + 1)) := he ▸ List.mem_map.mpr ⟨r, hr, rfl⟩
    obtain ⟨r', hr', e⟩ := List.mem_map.mp this
    refine ⟨r', hr', ?_⟩
    rw [← getD_take (r := r) (n := c + 1) (by omega), ← e, getD_take (by omega)]
  refine firstCol_eq_some ?_ ?_ ?_
  · cases cur with
    | nil => simp at h1
    | cons a l =>
      cases prev with
      | nil => simp at he
      | cons b l' =>
        simp only [List.map_cons, List.cons.injEq] at he
        have := congrArg List.length he.1
        simp only [List.length_take, List.headD_cons] at this h1 ⊢
        omega
  · intro r hr
    obtain ⟨r', hr', e⟩ := key c le_rfl r hr
    rw [e]; exact h2 r' hr'
  · intro c' hc'
    obtain ⟨r, hr, e⟩ := h3 c' hc'
    obtain ⟨r', hr', e'⟩ := key' c' hc'.le r hr
    exact ⟨r', hr', by rw [← e']; exact e⟩

theorem minvalStable_spec {ge : L → Bool} {prev cur : List (List L)} (h : minvalStable ge prev cur = true) :
    ∃ c, firstCol ge cur = some c ∧ prev.map (·.take (c + 1)) = cur.map (·.take (c + 1)) := by
  unfold minvalStable at h
  rw [Bool.and_eq_true] at h
  obtain ⟨_, h⟩ := h
  cases hf : firstCol ge cur with
  | none => rw [hf] at h; cases h
  | some c => rw [hf] at h; exact ⟨c, rfl, by simpa using h⟩

end

/-! ### What the loop returns -/

section
variable {K L : Type*} [CommRing K] [LinearOrder L] [Zero L] {D : ℕ}

theorem latticeToCloud_append (motif l l' : List (Pt D K)) :
    latticeToCloud motif (l ++ l') = latticeToCloud motif l ++ latticeToCloud motif l' := by
  simp [latticeToCloud]

/-- The lattice vectors used after all layers before `d`. -/
structure Used (d : ℕ) (ns : List (Fin D → ℤ)) : Prop where
  nodup : ns.Nodup
  zero : 0 ∈ ns
  lt : ∀ n ∈ ns, ∃ d' < d, n ∈ intLayer D d'

theorem intLayer_disjoint {n : Fin D → ℤ} (hD : 0 < D) {d d' : ℕ} (h : n ∈ intLayer D d) (h' : n ∈ intLayer D d') : d = d' := by
  rw [mem_intLayer hD] at h h'
  have key : ∀ {a b : ℕ}, InShell a n → InShell b n → ¬ a < b := by
    intro a b ha hb hab
    rcases hb.2 with h0 | h0
    · omega
    · have h1 := ha.1
      have h2 : (a : ℤ) ≤ (b : ℤ) - 1 := by omega
      have h3 : (0 : ℤ) ≤ a := Int.natCast_nonneg _
      nlinarith
  have h1 := key h h'
  have h2 := key h' h
  omega

theorem Used.next {d : ℕ} {ns : List (Fin D → ℤ)} (hD : 0 < D) (h : Used d ns) (p : (Fin D → ℤ) → Bool) :
    Used (d + 1) (ns ++ (intLayer D d).filter p) := by
  refine ⟨?_, List.mem_append_left _ h.zero, ?_⟩
  · rw [List.nodup_append]
    refine ⟨h.nodup, (nodup_intLayer D d).filter _, ?_⟩
    intro a ha b hb e
    obtain ⟨d', hd', ha'⟩ := h.lt a ha
    subst e
    have := intLayer_disjoint hD ha' (List.mem_filter.mp hb).1
    omega
  · intro n hn
    rcases List.mem_append.mp hn with h' | h'
    · obtain ⟨d', hd', h''⟩ := h.lt n h'
      exact ⟨d', by omega, h''⟩
    · exact ⟨d, by omega, (List.mem_filter.mp h').1⟩

theorem used_three (hD : 0 < D) : Used 3 (layersUpTo D 3) := by
  have h0 : (0 : Fin D → ℤ) ∈ intLayer D 0 := by
    rw [mem_intLayer hD]
    exact ⟨by simp [normSq], Or.inl rfl⟩
  have hr : List.range 3 = [0, 1, 2] := rfl
  refine ⟨?_, ?_, ?_⟩
  · unfold layersUpTo
    rw [List.nodup_flatMap]
    refine ⟨fun d _ => nodup_intLayer D d, ?_⟩
    refine (List.nodup_range (n := 3)).imp ?_
    intro a b hab n hn hn'
    exact hab (intLayer_disjoint hD hn hn')
  · exact List.mem_flatMap.mpr ⟨0, by simp, h0⟩
  · intro n hn
    obtain ⟨d, hd, h⟩ := List.mem_flatMap.mp hn
    exact ⟨d, List.mem_range.mp hd, h⟩

variable {δ : Pt D K → Pt D K → L} {nrm : Pt D K → L} {close : L → L → Bool} {ge : L → Bool}
  {motif : List (Pt D K)} {cell : Fin D → Pt D K}

/-- The cloud made of the given lattice vectors. -/
def cloudOf (motif : List (Pt D K)) (cell : Fin D → Pt D K) (ns : List (Fin D → ℤ)) : List (Pt D K) :=
  latticeToCloud motif (ns.map (latVec cell))

theorem minvalLoop_ok (hD : 0 < D) : ∀ (fuel d : ℕ) (ns : List (Fin D → ℤ)) (prev : List (List L))
    {prev' cur' : List (List L)}, Used d ns →
    minvalLoop δ nrm close ge motif cell fuel d (cloudOf motif cell ns) prev (queryAll δ motif (cloudOf motif cell ns)) =
      .ok (prev', cur') →
    (∃ d' ns', Used d' ns' ∧ cur' = queryAll δ motif (cloudOf motif cell ns')) ∧
      (prev' = cur' ∨ minvalStable ge prev' cur' = true) := by
  intro fuel
  induction fuel with
  | zero => intro d ns prev prev' cur' _ h; simp [minvalLoop] at h
  | succ f ih =>
    intro d ns prev prev' cur' hu h
    rw [minvalLoop] at h
    split_ifs at h with hs
    · injection h with h
      injection h with h1 h2
      exact ⟨⟨d, ns, hu, h2.symm⟩, Or.inr (by rw [← h1, ← h2]; exact hs)⟩
    · cases hm : ((queryAll δ motif (cloudOf motif cell ns)).flatMap fun r => r.getLast?.toList).max? with
      | none => rw [hm] at h; cases h
      | some mx =>
        rw [hm] at h
        simp only at h
        split_ifs at h with he
        · injection h with h
          injection h with h1 h2
          exact ⟨⟨d, ns, hu, h2.symm⟩, Or.inl (h1.symm.trans h2)⟩
        · have e : cloudOf motif cell ns ++ latticeToCloud motif (((intLayer D d).map (latVec cell)).filter fun l => close (nrm l) mx) =
              cloudOf motif cell (ns ++ (intLayer D d).filter fun n => close (nrm (latVec cell n)) mx) := by
            unfold cloudOf
            rw [List.map_append, latticeToCloud_append, List.filter_map]
            rfl
          rw [e] at h
          exact ih (d + 1) _ _ (hu.next hD _) h

theorem minvalRows_ok (hD : 0 < D) {fuel : ℕ} {rows : List (List L)}
    (h : minvalRows δ nrm close ge motif cell fuel = .ok rows) :
    ∃ d ns k, Used d ns ∧ rows = (queryAll δ motif (cloudOf motif cell ns)).map (fun r => (r.take (k + 1)).drop 1) ∧
      firstCol ge (queryAll δ motif (cloudOf motif cell ns)) = some k := by
  unfold minvalRows at h
  simp only at h
  cases hl : minvalLoop δ nrm close ge motif cell fuel 3 (latticeToCloud motif ((layersUpTo D 3).map (latVec cell)))
    ((queryAll δ motif (latticeToCloud motif ((layersUpTo D 3).map (latVec cell)))).map fun r => r.map fun _ => (0 : L))
    (queryAll δ motif (latticeToCloud motif ((layersUpTo D 3).map (latVec cell)))) with
  | error e => rw [hl] at h; cases h
  | ok pc =>
    obtain ⟨prev, cur⟩ := pc
    rw [hl] at h
    simp only at h
    obtain ⟨⟨d, ns, hu, hc⟩, hs⟩ := minvalLoop_ok hD fuel 3 (layersUpTo D 3) _ (used_three hD) hl
    cases hf : firstCol ge prev with
    | none => rw [hf] at h; cases h
    | some k =>
      rw [hf] at h
      injection h with h
      refine ⟨d, ns, k, hu, by rw [← h, hc], ?_⟩
      rw [← hc]
      rcases hs with hs | hs
      · rw [← hs]; exact hf
      · obtain ⟨c, h1, h2⟩ := minvalStable_spec hs
        have := firstCol_of_take h1 h2
        rw [hf] at this
        injection this with this
        rw [this]; exact h1

/-- The two kinds of error. -/
theorem minvalLoop_error : ∀ (fuel d : ℕ) (cloud : List (Pt D K)) (prev : List (List L)) {e : Err}, motif ≠ [] → cloud ≠ [] →
    minvalLoop δ nrm close ge motif cell fuel d cloud prev (queryAll δ motif cloud) = .error e → e = .fuel := by
  intro fuel
  induction fuel with
  | zero => intro d cloud prev e _ _ h; simp only [minvalLoop, Except.error.injEq] at h; exact h.symm
  | succ f ih =>
    intro d cloud prev e hm hc h
    rw [minvalLoop] at h
    split_ifs at h with hs
    cases hmx : ((queryAll δ motif cloud).flatMap fun r => r.getLast?.toList).max? with
    | none =>
      rw [List.max?_eq_none_iff, List.flatMap_eq_nil_iff] at hmx
      obtain ⟨p, hp⟩ := List.exists_mem_of_ne_nil motif hm
      have := hmx _ (List.mem_map.mpr ⟨p, hp, rfl⟩)
      rw [Option.toList_eq_nil_iff, List.getLast?_eq_none_iff] at this
      have hl := congrArg List.length this
      simp only [List.length_insertionSort, List.length_map, List.length_nil] at hl
      exact absurd (List.length_eq_zero_iff.mp hl) hc
    | some mx =>
      rw [hmx] at h
      simp only at h
      split_ifs at h with he
      exact ih (d + 1) _ _ hm (by simp [hc]) h

end

/-! ### Rows over the reals -/

section
variable {D : ℕ}

/-- The sites of the given lattice vectors. -/
def sitesOf (m : ℕ) (ns : List (Fin D → ℤ)) : List (Site m D) :=
  ns.flatMap fun n => (List.finRange m).map fun i => (i, n)

theorem nodup_sitesOf {m : ℕ} {ns : List (Fin D → ℤ)} (h : ns.Nodup) : (sitesOf m ns).Nodup := by
  unfold sitesOf
  rw [List.nodup_flatMap]
  refine ⟨fun n _ => (List.nodup_finRange _).map fun a b h => congrArg Prod.fst h, ?_⟩
  refine h.imp ?_
  intro a b hab s hs hs'
  obtain ⟨i, _, rfl⟩ := List.mem_map.mp hs
  obtain ⟨j, _, h⟩ := List.mem_map.mp hs'
  exact hab (congrArg Prod.snd h).symm

theorem mem_sitesOf {m : ℕ} {ns : List (Fin D → ℤ)} (s : Site m D) : s ∈ sitesOf m ns ↔ s.2 ∈ ns := by
  obtain ⟨i, n⟩ := s
  simp [sitesOf]

theorem cloudOf_eq (motif : List (Pt D ℝ)) (cell : Fin D → Pt D ℝ) (ns : List (Fin D → ℤ)) :
    cloudOf motif cell ns = (sitesOf motif.length ns).map (sitePos motif cell) := by
  unfold cloudOf latticeToCloud sitesOf
  rw [List.flatMap_map, List.map_flatMap]
  congr 1
  funext n
  rw [List.map_map]
  conv_lhs => rw [← map_finRange_getElem motif]
  rw [List.map_map]
  apply List.map_congr_left
  intro i _
  exact (sitePos_eq motif cell (i, n)).symm

/-- A sorted row begins with the point itself; the rest are the other sites. -/
theorem query_row {motif : List (Pt D ℝ)} {cell : Fin D → Pt D ℝ} {ns : List (Fin D → ℤ)} (hnd : ns.Nodup) (h0 : 0 ∈ ns)
    (i : Fin motif.length) :
    ∃ sites : List (Site motif.length D), sites.Nodup ∧ (∀ s, s ∈ sites ↔ s.2 ∈ ns ∧ s ≠ (i, 0)) ∧
      ((cloudOf motif cell ns).map (eucl motif[i])).insertionSort (· ≤ ·) =
        0 :: sites.map fun s => eucl motif[i] (sitePos motif cell s) := by
  set δ : Site motif.length D → ℝ := fun s => eucl motif[i] (sitePos motif cell s) with hδ
  have hnd' := nodup_sitesOf (m := motif.length) hnd
  have hmem : (i, 0) ∈ sitesOf motif.length ns := (mem_sitesOf _).mpr h0
  set rest := (sitesOf motif.length ns).erase (i, 0) with hrest
  set sites := rest.insertionSort (fun a b => δ a ≤ δ b) with hsites
  have hp : sites.Perm rest := List.perm_insertionSort _ _
  refine ⟨sites, hp.nodup_iff.mpr (hnd'.erase _), ?_, ?_⟩
  · intro s
    rw [hp.mem_iff, hnd'.mem_erase_iff, mem_sitesOf]
    tauto
  · rw [cloudOf_eq, List.map_map]
    have h00 : δ (i, 0) = 0 := by
      simp only [hδ, sitePos_zero]
      simp [eucl, sqDist]
    apply eq_of_perm_sorted
    · refine (List.perm_insertionSort _ _).trans ?_
      have h1 : (sitesOf motif.length ns).Perm ((i, 0) :: rest) := List.perm_cons_erase hmem
      refine (h1.map _).trans ?_
      rw [List.map_cons]
      have : (eucl motif[i] ∘ sitePos motif cell) (i, 0) = 0 := h00
      rw [this]
      exact (hp.symm.map _).cons _
    · exact sorted_insertionSort' _
    · rw [List.pairwise_cons]
      refine ⟨?_, ?_⟩
      · intro a ha
        obtain ⟨s, _, rfl⟩ := List.mem_map.mp ha
        exact eucl_nonneg _ _
      · rw [List.pairwise_map]
        have : IsTrans (Site motif.length D) (fun a b => δ a ≤ δ b) := ⟨fun a b c h h' => le_trans h h'⟩
        have : Std.Total (fun a b : Site motif.length D => δ a ≤ δ b) := ⟨fun a b => le_total _ _⟩
        exact List.pairwise_insertionSort _ _

theorem queryAll_eq (motif : List (Pt D ℝ)) (cell : Fin D → Pt D ℝ) (ns : List (Fin D → ℤ)) :
    queryAll eucl motif (cloudOf motif cell ns) =
      (List.finRange motif.length).map fun i => ((cloudOf motif cell ns).map (eucl motif[i])).insertionSort (· ≤ ·) := by
  unfold queryAll
  conv_lhs => rw [← map_finRange_getElem motif]
  rw [List.map_map]
  simp only [map_finRange_getElem]
  rfl

end

/-! ### Transport from integer coordinates -/

section
variable {D : ℕ}

/-- Squared integer distances, and the tests of the code on them. -/
def sqDistN (p q : Pt D ℤ) : ℕ := (sqDist p q).toNat
def sqNormN (p : Pt D ℤ) : ℕ := (sqNorm p).toNat
def closeN (mc n mx : ℕ) : Bool := decide (n ≤ mx + mc) || decide ((n - mx - mc) ^ 2 ≤ 4 * mx * mc)
def geN (mv v : ℕ) : Bool := decide (mv ≤ v)

/-- `nearest_neighbors_minval` on squared integer data. -/
def minvalRowsN (mc mv : ℕ) (motif : List (Pt D ℤ)) (cell : Fin D → Pt D ℤ) (fuel : ℕ) : Except Err (List (List ℕ)) :=
  minvalRows sqDistN sqNormN (closeN mc) (geN mv) motif cell fuel

noncomputable def rootN (n : ℕ) : ℝ := √(n : ℝ)

theorem rootN_le_iff (a b : ℕ) : rootN a ≤ rootN b ↔ a ≤ b := by
  unfold rootN
  rw [Real.sqrt_le_sqrt_iff (Nat.cast_nonneg b)]
  exact Nat.cast_le

theorem rootN_injective : Function.Injective rootN := fun a b h =>
  le_antisymm ((rootN_le_iff a b).mp h.le) ((rootN_le_iff b a).mp h.ge)

theorem rootN_zero : rootN 0 = 0 := by simp [rootN]

theorem eucl_castPt (p q : Pt D ℤ) : eucl (castPt p) (castPt q) = rootN (sqDistN p q) := by
  unfold eucl rootN sqDistN
  congr 1
  have h0 : 0 ≤ sqDist p q := Finset.sum_nonneg fun j _ => sq_nonneg _
  have : ((sqDist p q).toNat : ℝ) = ((sqDist p q : ℤ) : ℝ) := by exact_mod_cast Int.toNat_of_nonneg h0
  rw [this]
  simp [sqDist, castPt]

theorem norm_castPt (p : Pt D ℤ) : √(sqNorm (castPt p)) = rootN (sqNormN p) := by
  unfold rootN sqNormN
  congr 1
  have h0 : 0 ≤ sqNorm p := Finset.sum_nonneg fun j _ => sq_nonneg _
  have : ((sqNorm p).toNat : ℝ) = ((sqNorm p : ℤ) : ℝ) := by exact_mod_cast Int.toNat_of_nonneg h0
  rw [this]
  simp [sqNorm, castPt]

theorem closeN_iff (mc n mx : ℕ) : decide (rootN n - rootN mc ≤ rootN mx) = closeN mc n mx := by
  unfold closeN rootN
  rw [← Bool.decide_or, decide_eq_decide]
  have hn : (0 : ℝ) ≤ n := Nat.cast_nonneg _
  have hm : (0 : ℝ) ≤ mc := Nat.cast_nonneg _
  have hx : (0 : ℝ) ≤ mx := Nat.cast_nonneg _
  have e1 : √(n : ℝ) - √(mc : ℝ) ≤ √(mx : ℝ) ↔ (n : ℝ) ≤ mx + mc + 2 * (√(mx : ℝ) * √(mc : ℝ)) := by
    rw [sub_le_iff_le_add]
    rw [Real.sqrt_le_left (by positivity)]
    have : (√(mx : ℝ) + √(mc : ℝ)) ^ 2 = mx + mc + 2 * (√(mx : ℝ) * √(mc : ℝ)) := by
      have h1 := Real.sq_sqrt hx
      have h2 := Real.sq_sqrt hm
      ring_nf
      rw [h1, h2]
    rw [this]
  rw [e1]
  have hs : (√(mx : ℝ) * √(mc : ℝ)) ^ 2 = mx * mc := by rw [mul_pow, Real.sq_sqrt hx, Real.sq_sqrt hm]
  have hs0 : 0 ≤ √(mx : ℝ) * √(mc : ℝ) := by positivity
  set s := √(mx : ℝ) * √(mc : ℝ)
  by_cases h : n ≤ mx + mc
  · have : (n : ℝ) ≤ mx + mc := by exact_mod_cast h
    simp only [h, true_or, iff_true]
    linarith
  · simp only [h, false_or]
    have hc : ((n - mx - mc : ℕ) : ℝ) = (n : ℝ) - mx - mc := by
      rw [Nat.cast_sub (by omega), Nat.cast_sub (by omega)]
    have h' : (mx : ℝ) + mc < n := by exact_mod_cast (not_le.mp h)
    have hi : ((n - mx - mc) ^ 2 ≤ 4 * mx * mc) ↔ ((n : ℝ) - mx - mc) ^ 2 ≤ 4 * mx * mc := by
      rw [← hc]
      exact_mod_cast Iff.rfl
    rw [hi]
    constructor
    · intro h1; nlinarith
    · intro h1
      by_contra hcon
      rw [not_le] at hcon
      nlinarith

theorem latVec_castPt (cell : Fin D → Pt D ℤ) (n : Fin D → ℤ) :
    latVec (fun i => castPt (cell i)) n = castPt (latVec cell n) := by
  funext j; simp [latVec, castPt]

theorem latticeToCloud_castPt (motif lattice : List (Pt D ℤ)) :
    latticeToCloud (motif.map castPt) (lattice.map castPt) = (latticeToCloud motif lattice).map castPt := by
  unfold latticeToCloud
  rw [List.flatMap_map, List.map_flatMap]
  congr 1
  funext t
  rw [List.map_map, List.map_map]
  apply List.map_congr_left
  intro p _
  funext j
  simp [castPt]

theorem queryAll_castPt (motif cloud : List (Pt D ℤ)) :
    queryAll eucl (motif.map castPt) (cloud.map castPt) = (queryAll sqDistN motif cloud).map (·.map rootN) := by
  unfold queryAll
  rw [List.map_map, List.map_map]
  apply List.map_congr_left
  intro p _
  simp only [Function.comp_apply]
  rw [← insertionSort_congr_map rootN (· ≤ ·) (· ≤ ·) (fun a b => rootN_le_iff a b), List.map_map, List.map_map]
  congr 1
  apply List.map_congr_left
  intro q _
  exact eucl_castPt p q

theorem firstCol_root {ge : ℝ → Bool} {geN' : ℕ → Bool} (hge : ∀ n, ge (rootN n) = geN' n) (rows : List (List ℕ)) :
    firstCol ge (rows.map (·.map rootN)) = firstCol geN' rows := by
  unfold firstCol
  have e : ((rows.map (·.map rootN)).headD []).length = (rows.headD []).length := by cases rows <;> simp
  rw [e]
  congr 1
  funext c
  rw [List.all_map]
  congr 1
  funext r
  rw [← hge, ← rootN_zero]
  simp only [Function.comp_apply, List.getD_eq_getElem?_getD, List.getElem?_map, Option.getD_map]

theorem map_root_injective : Function.Injective (fun r : List ℕ => r.map rootN) :=
  List.map_injective_iff.mpr rootN_injective

theorem minvalStable_root {ge : ℝ → Bool} {geN' : ℕ → Bool} (hge : ∀ n, ge (rootN n) = geN' n) (prev cur : List (List ℕ)) :
    minvalStable ge (prev.map (·.map rootN)) (cur.map (·.map rootN)) = minvalStable geN' prev cur := by
  unfold minvalStable
  congr 1
  · rw [List.all_map]
    congr 1
    funext r
    simp only [Function.comp_apply, List.getLast?_map]
    cases r.getLast? with
    | none => rfl
    | some v => simp [hge]
  · rw [firstCol_root hge]
    cases firstCol geN' cur with
    | none => rfl
    | some c =>
      simp only
      have e : ∀ rows : List (List ℕ), (rows.map (·.map rootN)).map (·.take (c + 1)) = (rows.map (·.take (c + 1))).map fun r => r.map rootN := by
        intro rows
        rw [List.map_map, List.map_map]
        apply List.map_congr_left
        intro r _
        simp [List.map_take]
      rw [e, e, Bool.eq_iff_iff, beq_iff_eq, beq_iff_eq]
      exact (List.map_injective_iff.mpr map_root_injective).eq_iff

theorem max?_root (l : List ℕ) : (l.map rootN).max? = l.max?.map rootN := by
  cases l with
  | nil => rfl
  | cons a l =>
    rw [List.map_cons, List.max?_cons', List.max?_cons', Option.map_some]
    congr 1
    induction l generalizing a with
    | nil => rfl
    | cons b l ih =>
      rw [List.map_cons, List.foldl_cons, List.foldl_cons]
      have : max (rootN a) (rootN b) = rootN (max a b) := by
        have hm : Monotone rootN := fun a b h => (rootN_le_iff a b).mpr h
        exact (hm.map_max).symm
      rw [this, ih]

theorem minvalLoop_root {close : ℝ → ℝ → Bool} {closeN' : ℕ → ℕ → Bool} {ge : ℝ → Bool} {geN' : ℕ → Bool}
    (hcl : ∀ n m, close (rootN n) (rootN m) = closeN' n m) (hge : ∀ n, ge (rootN n) = geN' n)
    (motif : List (Pt D ℤ)) (cell : Fin D → Pt D ℤ) : ∀ (fuel d : ℕ) (cloud : List (Pt D ℤ)) (prev cur : List (List ℕ)),
    minvalLoop eucl (fun l => √(sqNorm l)) close ge (motif.map castPt) (fun i => castPt (cell i)) fuel d (cloud.map castPt)
      (prev.map (·.map rootN)) (cur.map (·.map rootN)) =
    (minvalLoop sqDistN sqNormN closeN' geN' motif cell fuel d cloud prev cur).map fun pc =>
      (pc.1.map (·.map rootN), pc.2.map (·.map rootN)) := by
  intro fuel
  induction fuel with
  | zero => intro d cloud prev cur; rfl
  | succ f ih =>
    intro d cloud prev cur
    rw [minvalLoop, minvalLoop, minvalStable_root hge]
    split_ifs with hs
    · rfl
    · have e1 : ((cur.map (·.map rootN)).flatMap fun r => r.getLast?.toList) = (cur.flatMap fun r => r.getLast?.toList).map rootN := by
        rw [List.flatMap_map, List.map_flatMap]
        congr 1
        funext r
        rw [List.getLast?_map]
        cases r.getLast? <;> rfl
      rw [e1, max?_root]
      cases (cur.flatMap fun r => r.getLast?.toList).max? with
      | none => rfl
      | some mx =>
        simp only [Option.map_some]
        have e2 : ((intLayer D d).map (latVec fun i => castPt (cell i))).filter (fun l => close √(sqNorm l) (rootN mx)) =
            (((intLayer D d).map (latVec cell)).filter fun l => closeN' (sqNormN l) mx).map castPt := by
          have : (intLayer D d).map (latVec fun i => castPt (cell i)) = ((intLayer D d).map (latVec cell)).map castPt := by
            rw [List.map_map]
            exact List.map_congr_left fun n _ => latVec_castPt cell n
          rw [this, List.filter_map]
          congr 1
          apply List.filter_congr
          intro l _
          simp only [Function.comp_apply, norm_castPt, hcl]
        rw [e2]
        have e3 : ∀ l : List (Pt D ℤ), (l.map castPt).isEmpty = l.isEmpty := by intro l; cases l <;> rfl
        rw [e3]
        split_ifs with he
        · rfl
        · rw [latticeToCloud_castPt, ← List.map_append, queryAll_castPt]
          exact ih (d + 1) _ cur _

theorem minvalRows_root {close : ℝ → ℝ → Bool} {closeN' : ℕ → ℕ → Bool} {ge : ℝ → Bool} {geN' : ℕ → Bool}
    (hcl : ∀ n m, close (rootN n) (rootN m) = closeN' n m) (hge : ∀ n, ge (rootN n) = geN' n)
    (motif : List (Pt D ℤ)) (cell : Fin D → Pt D ℤ) (fuel : ℕ) :
    minvalRows eucl (fun l => √(sqNorm l)) close ge (motif.map castPt) (fun i => castPt (cell i)) fuel =
      (minvalRows sqDistN sqNormN closeN' geN' motif cell fuel).map fun rows => rows.map (·.map rootN) := by
  unfold minvalRows
  have e0 : (layersUpTo D 3).map (latVec fun i => castPt (cell i)) = ((layersUpTo D 3).map (latVec cell)).map castPt := by
    rw [List.map_map]
    exact List.map_congr_left fun n _ => latVec_castPt cell n
  simp only
  rw [e0, latticeToCloud_castPt, queryAll_castPt]
  have e1 : ∀ cur : List (List ℕ), (cur.map (·.map rootN)).map (fun r => r.map fun _ => (0 : ℝ)) = (cur.map fun r => r.map fun _ => (0 : ℕ)).map (·.map rootN) := by
    intro cur
    rw [List.map_map, List.map_map]
    apply List.map_congr_left
    intro r _
    simp only [Function.comp_apply, List.map_map]
    apply List.map_congr_left
    intro a _
    exact rootN_zero.symm
  rw [e1, minvalLoop_root hcl hge]
  cases minvalLoop sqDistN sqNormN closeN' geN' motif cell fuel 3 (latticeToCloud motif ((layersUpTo D 3).map (latVec cell)))
      ((queryAll sqDistN motif (latticeToCloud motif ((layersUpTo D 3).map (latVec cell)))).map fun r => r.map fun _ => (0 : ℕ))
      (queryAll sqDistN motif (latticeToCloud motif ((layersUpTo D 3).map (latVec cell)))) with
  | error e => rfl
  | ok pc =>
    obtain ⟨prev, cur⟩ := pc
    simp only [Except.map]
    rw [firstCol_root hge]
    cases firstCol geN' prev with
    | none => rfl
    | some k =>
      simp only [List.map_map]
      congr 1
      apply List.map_congr_left
      intro r _
      simp [List.map_take]

theorem nearestNeighborsMinval_cast (motif : List (Pt D ℤ)) (cell : Fin D → Pt D ℤ) {mc mv : ℕ} {minVal : ℝ}
    (hmc : maxCdist (motif.map castPt) = rootN mc) (hmv : minVal = rootN mv) (fuel : ℕ) :
    nearestNeighborsMinval (motif.map castPt) (fun i => castPt (cell i)) minVal fuel =
      (minvalRowsN mc mv motif cell fuel).map fun rows => rows.map (·.map rootN) := by
  unfold nearestNeighborsMinval minvalRowsN
  apply minvalRows_root
  · intro n m
    rw [hmc, closeN_iff]
  · intro n
    rw [hmv]
    unfold geN
    rw [decide_eq_decide]
    exact rootN_le_iff _ _

end

end Amd
