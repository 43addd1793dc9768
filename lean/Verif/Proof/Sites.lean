import Verif.Model.Sites
import Verif.Spec.Sites
import Mathlib.Data.List.Dedup
import Mathlib.Data.List.Sort
import Mathlib.Logic.Relation
import Mathlib.Algebra.BigOperators.Group.List.Basic

/-!
# Lemmas about sites
-/

set_option linter.unusedSectionVars false

namespace Amd

variable {D : ℕ} {tol : ℝ}

theorem siteClose_iff {p q : Pt D ℝ} : siteClose tol p q = true ↔ ∀ j, |p j - q j| ≤ tol ∨ |(|p j - q j| - 1)| ≤ tol := by
  simp [siteClose]

theorem siteClose_symm (p q : Pt D ℝ) : siteClose tol p q = siteClose tol q p := by
  rw [Bool.eq_iff_iff, siteClose_iff, siteClose_iff]
  simp only [abs_sub_comm]

theorem siteClose_refl (h : 0 ≤ tol) (p : Pt D ℝ) : siteClose tol p p = true := by
  rw [siteClose_iff]
  intro j
  left
  simpa using h

/-- The sites kept by `_unique_sites`, those in `pre` being compared with but not kept. -/
noncomputable def keptFrom (tol : ℝ) (pre : List (Pt D ℝ)) : List (Pt D ℝ) → List (Pt D ℝ)
  | [] => []
  | p :: ps => (if pre.any fun q => siteClose tol q p then [] else [p]) ++ keptFrom tol (pre ++ [p]) ps

theorem select_unique : ∀ (pre l : List (Pt D ℝ)), selectMask l (uniqueFrom tol pre l) = keptFrom tol pre l
  | _, [] => rfl
  | pre, p :: ps => by
    rw [uniqueFrom, selectMask, keptFrom, select_unique (pre ++ [p]) ps]
    cases pre.any fun q => siteClose tol q p <;> simp

/-- The unique sites. -/
noncomputable def kept (tol : ℝ) (l : List (Pt D ℝ)) : List (Pt D ℝ) := keptFrom tol [] l

theorem select_uniqueSites (l : List (Pt D ℝ)) : selectMask l (uniqueSites tol l) = kept tol l := select_unique [] l

theorem keptFrom_sublist : ∀ (pre l : List (Pt D ℝ)), (keptFrom tol pre l).Sublist l
  | _, [] => List.Sublist.refl _
  | pre, p :: ps => by
    rw [keptFrom]
    have := keptFrom_sublist (pre ++ [p]) ps
    split
    · exact List.Sublist.cons _ this
    · exact List.Sublist.cons_cons _ this

theorem kept_sublist (l : List (Pt D ℝ)) : (kept tol l).Sublist l := keptFrom_sublist [] l

theorem keptFrom_apart : ∀ (pre l : List (Pt D ℝ)), (∀ p ∈ keptFrom tol pre l, ∀ q ∈ pre, siteClose tol q p = false) ∧
    (keptFrom tol pre l).Pairwise fun p q => siteClose tol p q = false
  | _, [] => ⟨fun p hp => (by cases hp), List.Pairwise.nil⟩
  | pre, p :: ps => by
    obtain ⟨h1, h2⟩ := keptFrom_apart (pre ++ [p]) ps
    rw [keptFrom]
    split
    · exact ⟨fun q hq r hr => h1 q hq r (by simp [hr]), h2⟩
    · rename_i hp
      refine ⟨fun q hq r hr => ?_, ?_⟩
      · rw [List.singleton_append, List.mem_cons] at hq
        rcases hq with rfl | hq
        · rw [Bool.not_eq_true, List.any_eq_false] at hp
          simpa using hp r hr
        · exact h1 q hq r (by simp [hr])
      · rw [List.singleton_append, List.pairwise_cons]
        exact ⟨fun q hq => h1 q hq p (by simp), h2⟩

theorem kept_apart (l : List (Pt D ℝ)) : (kept tol l).Pairwise fun p q => siteClose tol p q = false := (keptFrom_apart [] l).2

/-- Two sites of a list are linked if they are close. -/
def Linked (tol : ℝ) (l : List (Pt D ℝ)) (p q : Pt D ℝ) : Prop := p ∈ l ∧ q ∈ l ∧ siteClose tol p q = true

/-- Each site is linked, possibly through other sites, to one that is kept. -/
theorem kept_chain (l : List (Pt D ℝ)) : ∀ (n : ℕ) (a c : List (Pt D ℝ)) (p : Pt D ℝ), a.length ≤ n → l = a ++ p :: c →
    ∃ m ∈ kept tol l, Relation.ReflTransGen (Linked tol l) p m := by
  intro n
  induction n with
  | zero =>
    intro a c p ha hl
    have : a = [] := List.length_eq_zero_iff.1 (by omega)
    subst this
    refine ⟨p, ?_, Relation.ReflTransGen.refl⟩
    rw [hl, List.nil_append, kept, keptFrom]
    simp
  | succ n ih =>
    intro a c p ha hl
    -- either no site of `a` is close to `p`, or one is
    by_cases h : ∃ q ∈ a, siteClose tol q p = true
    · obtain ⟨q, hq, hc⟩ := h
      obtain ⟨a', b', hab⟩ := List.append_of_mem hq
      obtain ⟨m, hm, hr⟩ := ih a' (b' ++ p :: c) q (by rw [hab] at ha; simp at ha; omega) (by rw [hl, hab]; simp)
      refine ⟨m, hm, Relation.ReflTransGen.head ⟨?_, ?_, ?_⟩ hr⟩
      · rw [hl]; simp
      · rw [hl]; simp [hq]
      · rw [siteClose_symm]; exact hc
    · refine ⟨p, ?_, Relation.ReflTransGen.refl⟩
      have key : ∀ (pre a : List (Pt D ℝ)), (∀ q ∈ pre ++ a, siteClose tol q p = false) → p ∈ keptFrom tol pre (a ++ p :: c) := by
        intro pre a
        induction a generalizing pre with
        | nil =>
          intro h
          rw [List.nil_append, keptFrom, if_neg]
          · simp
          · rw [Bool.not_eq_true, List.any_eq_false]
            intro q hq
            simpa using h q (by simp [hq])
        | cons x a ih =>
          intro h
          rw [List.cons_append, keptFrom]
          exact List.mem_append_right _ (ih (pre ++ [x]) fun q hq => h q (by simpa using hq))
      rw [hl]
      refine key [] a fun q hq => ?_
      by_contra hx
      exact h ⟨q, by simpa using hq, by simpa using hx⟩

theorem kept_chain' {l : List (Pt D ℝ)} {p : Pt D ℝ} (hp : p ∈ l) : ∃ m ∈ kept tol l, Relation.ReflTransGen (Linked tol l) p m := by
  obtain ⟨a, c, h⟩ := List.append_of_mem hp
  exact kept_chain l a.length a c p le_rfl h

theorem kept_ne_nil {l : List (Pt D ℝ)} (h : l ≠ []) : kept tol l ≠ [] := by
  rcases l with _ | ⟨p, l⟩
  · exact absurd rfl h
  · rw [kept, keptFrom]; simp

theorem uniqueFrom_all : ∀ (pre l : List (Pt D ℝ)), (uniqueFrom tol pre l).all id = true →
    (∀ p ∈ l, ∀ q ∈ pre, siteClose tol q p = false) ∧ l.Pairwise fun p q => siteClose tol p q = false
  | _, [], _ => ⟨fun p hp => (by cases hp), List.Pairwise.nil⟩
  | pre, p :: ps, h => by
    rw [uniqueFrom, List.all_cons, Bool.and_eq_true] at h
    obtain ⟨h1, h2⟩ := h
    obtain ⟨h3, h4⟩ := uniqueFrom_all (pre ++ [p]) ps h2
    refine ⟨fun q hq r hr => ?_, List.pairwise_cons.2 ⟨fun q hq => h3 q hq p (by simp), h4⟩⟩
    rcases List.mem_cons.1 hq with rfl | hq
    · simp only [id, Bool.not_eq_true', List.any_eq_false] at h1
      simpa using h1 r hr
    · exact h3 q hq r (by simp [hr])

/-! ### The fast reduction -/

theorem reduceFrom_length : ∀ (i : ℕ) (l : List (List (Pt D ℝ))), (reduceFrom tol i l).2.length = (reduceFrom tol i l).1.length
  | _, [] => rfl
  | i, s :: l => by simp [reduceFrom, reduceFrom_length (i + 1) l]

/-- What both reductions return: points of the expanded sites with the number of their site in increasing order. -/
structure Reduction (tol : ℝ) (expanded : List (List (Pt D ℝ))) (motif : List (Pt D ℝ)) (invs : List ℕ) : Prop where
  length : invs.length = motif.length
  sorted : invs.Pairwise (· ≤ ·)
  image : ∀ x ∈ motif.zip invs, ∃ sites, expanded[x.2]? = some sites ∧ x.1 ∈ sites
  orbit : (motif.zip invs).Pairwise fun x y => x.2 = y.2 → siteClose tol x.1 y.1 = false

theorem zip_replicate {u : List (Pt D ℝ)} {i : ℕ} : u.zip (List.replicate u.length i) = u.map fun p => (p, i) := by
  induction u with
  | nil => rfl
  | cons p u ih => simp [List.replicate_succ, ih]

theorem zip_append_replicate {u r : List (Pt D ℝ)} {i : ℕ} {l : List ℕ} :
    (u ++ r).zip (List.replicate u.length i ++ l) = (u.map fun p => (p, i)) ++ r.zip l := by
  rw [List.zip_append (by simp), zip_replicate]

theorem reduceFrom_zip_ge : ∀ (i : ℕ) (l : List (List (Pt D ℝ))), ∀ n ∈ (reduceFrom tol i l).2, i ≤ n
  | _, [], n, h => by cases h
  | i, s :: l, n, h => by
    simp only [reduceFrom, List.mem_append] at h
    rcases h with h | h
    · rw [List.eq_of_mem_replicate h]
    · have := reduceFrom_zip_ge (i + 1) l n h; omega

theorem reduceFrom_spec : ∀ (i : ℕ) (l : List (List (Pt D ℝ))),
    (reduceFrom tol i l).2.Pairwise (· ≤ ·) ∧
    (∀ x ∈ (reduceFrom tol i l).1.zip (reduceFrom tol i l).2, ∃ sites, l[x.2 - i]? = some sites ∧ x.1 ∈ kept tol sites) ∧
    ((reduceFrom tol i l).1.zip (reduceFrom tol i l).2).Pairwise (fun x y => x.2 = y.2 → siteClose tol x.1 y.1 = false) ∧
    ∀ (n : ℕ) (sites : List (Pt D ℝ)), l[n]? = some sites → ∀ p ∈ kept tol sites, (p, i + n) ∈ (reduceFrom tol i l).1.zip (reduceFrom tol i l).2
  | _, [] => ⟨List.Pairwise.nil, fun x hx => by simp [reduceFrom] at hx, by simp [reduceFrom], fun n s h => by simp at h⟩
  | i, s :: l => by
    obtain ⟨h1, h2, h3, h4⟩ := reduceFrom_spec (i + 1) l
    have hge := reduceFrom_zip_ge (tol := tol) (i + 1) l
    have hmem : ∀ x ∈ (reduceFrom tol (i + 1) l).1.zip (reduceFrom tol (i + 1) l).2, i + 1 ≤ x.2 :=
      fun x hx => hge _ (List.of_mem_zip (a := x.1) (b := x.2) hx).2
    rw [reduceFrom]
    simp only
    rw [select_uniqueSites, zip_append_replicate]
    refine ⟨?_, ?_, ?_, ?_⟩
    · rw [List.pairwise_append]
      refine ⟨List.pairwise_replicate.2 (Or.inr le_rfl), h1, fun a ha b hb => ?_⟩
      rw [List.eq_of_mem_replicate ha]
      have := hge b hb; omega
    · intro x hx
      rw [List.mem_append] at hx
      rcases hx with hx | hx
      · obtain ⟨p, hp, rfl⟩ := List.mem_map.1 hx
        exact ⟨s, by simp, hp⟩
      · obtain ⟨sites, e, hs⟩ := h2 x hx
        have := hmem x hx
        refine ⟨sites, ?_, hs⟩
        have e' : x.2 - i = (x.2 - (i + 1)) + 1 := by omega
        rw [e', List.getElem?_cons_succ]
        exact e
    · rw [List.pairwise_append]
      refine ⟨?_, h3, fun x hx y hy hxy => ?_⟩
      · rw [List.pairwise_map]
        exact (kept_apart s).imp (S := fun a b => i = i → siteClose tol a b = false) fun h _ => h
      · obtain ⟨p, hp, rfl⟩ := List.mem_map.1 hx
        have := hmem y hy
        simp only at hxy
        omega
    · intro n sites hn p hp
      rw [List.mem_append]
      rcases n with _ | n
      · simp only [List.getElem?_cons_zero, Option.some.injEq] at hn
        subst hn
        exact Or.inl (List.mem_map.2 ⟨p, hp, rfl⟩)
      · right
        rw [List.getElem?_cons_succ] at hn
        have := h4 n sites hn p hp
        rwa [show i + (n + 1) = i + 1 + n by omega]

theorem reduceFrom_reduction (l : List (List (Pt D ℝ))) : Reduction tol l (reduceFrom tol 0 l).1 (reduceFrom tol 0 l).2 := by
  obtain ⟨h1, h2, h3, -⟩ := reduceFrom_spec (tol := tol) 0 l
  refine ⟨reduceFrom_length 0 l, h1, fun x hx => ?_, h3⟩
  obtain ⟨s, e, hs⟩ := h2 x hx
  exact ⟨s, e, (kept_sublist s).subset hs⟩

/-! ### The slow reduction -/

theorem newPoints_spec {motif : List (Pt D ℝ)} {invs : List ℕ} {i : ℕ} : ∀ l : List (Pt D ℝ),
    (newPoints tol motif invs i l).1 = l.filter fun p => !motif.any fun q => siteClose tol p q
  | [] => rfl
  | p :: l => by
    rw [newPoints, List.filter_cons]
    have e : (motif.map fun q => siteClose tol p q).any id = motif.any fun q => siteClose tol p q := by rw [List.any_map]; rfl
    rw [e, newPoints_spec l]
    cases motif.any fun q => siteClose tol p q <;> simp

/-- What holds of the motif during the slow reduction, after the first `i` sites. -/
structure SlowInv (tol : ℝ) (done : List (List (Pt D ℝ))) (motif : List (Pt D ℝ)) (invs : List ℕ) : Prop where
  length : invs.length = motif.length
  sorted : invs.Pairwise (· ≤ ·)
  bound : ∀ n ∈ invs, n < done.length
  image : ∀ x ∈ motif.zip invs, ∃ sites, done[x.2]? = some sites ∧ x.1 ∈ sites
  apart : motif.Pairwise fun p q => siteClose tol p q = false
  cover : ∀ sites ∈ done, ∀ p ∈ kept tol sites, p ∈ motif ∨ ∃ q ∈ motif, siteClose tol p q = true

theorem slow_step {done : List (List (Pt D ℝ))} {motif : List (Pt D ℝ)} {invs : List ℕ} (h : SlowInv tol done motif invs) (sites : List (Pt D ℝ)) :
    SlowInv tol (done ++ [sites]) (motif ++ (newPoints tol motif invs done.length (kept tol sites)).1)
      (invs ++ List.replicate (newPoints tol motif invs done.length (kept tol sites)).1.length done.length) := by
  rw [newPoints_spec]
  set new := (kept tol sites).filter fun p => !motif.any fun q => siteClose tol p q with hnew
  have hnm : ∀ p ∈ new, p ∈ kept tol sites ∧ ∀ q ∈ motif, siteClose tol p q = false := by
    intro p hp
    rw [hnew, List.mem_filter, Bool.not_eq_true', List.any_eq_false] at hp
    exact ⟨hp.1, fun q hq => by simpa using hp.2 q hq⟩
  have hb : ∀ n ∈ List.replicate new.length done.length, n = done.length := fun n hn => List.eq_of_mem_replicate hn
  refine ⟨by simp [h.length], ?_, ?_, ?_, ?_, ?_⟩
  · rw [List.pairwise_append]
    refine ⟨h.sorted, List.pairwise_replicate.2 (Or.inr le_rfl), fun a ha b hb' => ?_⟩
    rw [hb b hb']
    exact (h.bound a ha).le
  · intro n hn
    rw [List.mem_append] at hn
    rw [List.length_append, List.length_singleton]
    rcases hn with hn | hn
    · have := h.bound n hn; omega
    · have := hb n hn; omega
  · intro x hx
    rw [List.zip_append h.length.symm, List.mem_append] at hx
    rcases hx with hx | hx
    · obtain ⟨s, e, hs⟩ := h.image x hx
      refine ⟨s, ?_, hs⟩
      have hlt : x.2 < done.length := h.bound _ (List.of_mem_zip (a := x.1) (b := x.2) hx).2
      rw [List.getElem?_append_left hlt]
      exact e
    · rw [zip_replicate] at hx
      obtain ⟨p, hp, rfl⟩ := List.mem_map.1 hx
      exact ⟨sites, by simp, (kept_sublist sites).subset (hnm p hp).1⟩
  · rw [List.pairwise_append]
    refine ⟨h.apart, (kept_apart sites).sublist List.filter_sublist, fun p hp q hq => ?_⟩
    rw [siteClose_symm]
    exact (hnm q hq).2 p hp
  · intro s hs p hp
    rw [List.mem_append, List.mem_singleton] at hs
    rcases hs with hs | rfl
    · rcases h.cover s hs p hp with hc | ⟨q, hq, hc⟩
      · exact Or.inl (List.mem_append_left _ hc)
      · exact Or.inr ⟨q, List.mem_append_left _ hq, hc⟩
    · by_cases hx : (motif.any fun q => siteClose tol p q) = true
      · obtain ⟨q, hq, hc⟩ := List.any_eq_true.1 hx
        exact Or.inr ⟨q, List.mem_append_left _ hq, hc⟩
      · left
        refine List.mem_append_right _ ?_
        rw [hnew, List.mem_filter]
        exact ⟨hp, by simpa using hx⟩

theorem slow_loop : ∀ (rest done : List (List (Pt D ℝ))) (motif : List (Pt D ℝ)) (invs : List ℕ), SlowInv tol done motif invs →
    SlowInv tol (done ++ rest) (reduceEquivLoop tol motif invs done.length rest).1 (reduceEquivLoop tol motif invs done.length rest).2.1
  | [], done, motif, invs, h => by simpa [reduceEquivLoop] using h
  | s :: rest, done, motif, invs, h => by
    rw [reduceEquivLoop]
    simp only
    rw [select_uniqueSites]
    have := slow_loop rest (done ++ [s]) _ _ (slow_step h s)
    rw [List.append_assoc, List.singleton_append, List.length_append, List.length_singleton] at this
    exact this

theorem reduceEquiv_inv (l : List (List (Pt D ℝ))) : SlowInv tol l (reduceEquiv tol l).1 (reduceEquiv tol l).2.1 := by
  rcases l with _ | ⟨s, l⟩
  · exact ⟨rfl, List.Pairwise.nil, fun n h => (by cases h), fun x h => (by cases h), List.Pairwise.nil, fun s h => (by cases h)⟩
  · rw [reduceEquiv, select_uniqueSites]
    have h0 : SlowInv tol [s] (kept tol s) (List.replicate (kept tol s).length 0) := by
      refine ⟨by simp, List.pairwise_replicate.2 (Or.inr le_rfl), fun n hn => ?_, fun x hx => ?_, kept_apart s, fun t ht p hp => ?_⟩
      · rw [List.eq_of_mem_replicate hn]; simp
      · rw [zip_replicate] at hx
        obtain ⟨p, hp, rfl⟩ := List.mem_map.1 hx
        exact ⟨s, rfl, (kept_sublist s).subset hp⟩
      · rw [List.mem_singleton.1 ht] at hp
        exact Or.inl hp
    exact slow_loop l [s] _ _ h0

theorem SlowInv.reduction {l : List (List (Pt D ℝ))} {motif : List (Pt D ℝ)} {invs : List ℕ} (h : SlowInv tol l motif invs) : Reduction tol l motif invs := by
  refine ⟨h.length, h.sorted, h.image, ?_⟩
  have e : motif = (motif.zip invs).map Prod.fst := by rw [List.map_fst_zip]; exact h.length.ge
  have := h.apart
  rw [e, List.pairwise_map] at this
  exact List.Pairwise.imp (R := fun x y : Pt D ℝ × ℕ => siteClose tol x.1 y.1 = false) (S := fun x y : Pt D ℝ × ℕ => x.2 = y.2 → siteClose tol x.1 y.1 = false) (fun hc _ => hc) this

/-! ### Multiplicities -/

theorem asymInds_cons (c : ℕ) (ms : List ℕ) : asymInds (c :: ms) = 0 :: (asymInds ms).map (c + ·) := by
  rw [asymInds, asymInds, List.scanl_cons]
  have key : ∀ (ms : List ℕ) (a : ℕ), ms.scanl (· + ·) (c + a) = (ms.scanl (· + ·) a).map (c + ·) := by
    intro ms
    induction ms with
    | nil => intro a; simp
    | cons m ms ih => intro a; rw [List.scanl_cons, List.scanl_cons, List.map_cons, ← ih, Nat.add_assoc]
  have h := key ms 0
  rw [Nat.add_zero] at h
  rw [Nat.zero_add, h, List.dropLast_cons_of_ne_nil (by simp), List.map_dropLast]

theorem sites_sorted_split {x : ℕ} {l : List ℕ} (h : (x :: l).Pairwise (· ≤ ·)) :
    ∃ (c : ℕ) (l' : List ℕ), x :: l = List.replicate (c + 1) x ++ l' ∧ (∀ y ∈ l', x < y) ∧ l'.Pairwise (· ≤ ·) := by
  induction l with
  | nil => exact ⟨0, [], rfl, fun y h => (by cases h), List.Pairwise.nil⟩
  | cons y l ih =>
    rw [List.pairwise_cons, List.pairwise_cons] at h
    obtain ⟨h1, h2, h3⟩ := h
    by_cases hxy : y = x
    · subst hxy
      obtain ⟨c, l', e, hl, hs⟩ := ih (List.pairwise_cons.2 ⟨h2, h3⟩)
      exact ⟨c + 1, l', by rw [e, List.replicate_succ (n := c + 1)]; rfl, hl, hs⟩
    · refine ⟨0, y :: l, rfl, fun z hz => ?_, List.pairwise_cons.2 ⟨h2, h3⟩⟩
      have hx : x < y := lt_of_le_of_ne (h1 y (by simp)) (Ne.symm hxy)
      rcases List.mem_cons.1 hz with rfl | hz
      · exact hx
      · exact lt_of_lt_of_le hx (h2 z hz)

theorem dedup_replicate_append {c x : ℕ} {l : List ℕ} (h : x ∉ l) : (List.replicate (c + 1) x ++ l).dedup = x :: l.dedup := by
  induction c with
  | zero => simp [h]
  | succ c ih => rw [List.replicate_succ, List.cons_append, List.dedup_cons_of_mem (by simp), ih]

theorem uniqueCounts_sorted {l : List ℕ} (h : l.Pairwise (· ≤ ·)) : uniqueCounts l = l.dedup.map fun x => l.count x := by
  rw [uniqueCounts, List.mergeSort_of_pairwise]
  exact h.imp fun h => by simpa using h

theorem uniqueCounts_split {c x : ℕ} {l : List ℕ} (hx : ∀ y ∈ l, x < y) (hs : l.Pairwise (· ≤ ·)) :
    uniqueCounts (List.replicate (c + 1) x ++ l) = (c + 1) :: uniqueCounts l := by
  have hxl : x ∉ l := fun h => lt_irrefl _ (hx x h)
  have hs' : (List.replicate (c + 1) x ++ l).Pairwise (· ≤ ·) := by
    rw [List.pairwise_append]
    refine ⟨List.pairwise_replicate.2 (Or.inr le_rfl), hs, fun a ha b hb => ?_⟩
    rw [List.eq_of_mem_replicate ha]
    exact (hx b hb).le
  rw [uniqueCounts_sorted hs', uniqueCounts_sorted hs, dedup_replicate_append hxl, List.map_cons]
  congr 1
  · rw [List.count_append, List.count_replicate_self, List.count_eq_zero_of_not_mem hxl]
  · refine List.map_congr_left fun y hy => ?_
    have hy' : y ∈ l := List.mem_dedup.1 hy
    rw [List.count_append, List.count_replicate, if_neg]
    · simp
    · have := hx y hy'
      simp only [beq_iff_eq]
      omega

theorem orbits_of_sorted : ∀ (n : ℕ) (l : List ℕ), l.length ≤ n → l.Pairwise (· ≤ ·) → Orbits l (asymInds (uniqueCounts l)) (uniqueCounts l)
  | _, [], _, _ => ⟨by simp [uniqueCounts, asymInds], fun c h => (by simp [uniqueCounts] at h), by simp [uniqueCounts], fun m h => (by simp [uniqueCounts, asymInds] at h),
      by simp [uniqueCounts, asymInds], fun t ht => (by simp at ht)⟩
  | 0, x :: l, h, _ => by simp at h
  | n + 1, x :: l, hn, hs => by
    obtain ⟨c, l', e, hx, hs'⟩ := sites_sorted_split hs
    have hlen : l'.length ≤ n := by
      have := congrArg List.length e
      simp at this hn
      omega
    have ih := orbits_of_sorted n l' hlen hs'
    rw [e, uniqueCounts_split hx hs', asymInds_cons]
    have hl1 : ∀ t (ht : t < (List.replicate (c + 1) x ++ l').length), t < c + 1 → (List.replicate (c + 1) x ++ l')[t] = x := by
      intro t ht h
      rw [List.getElem_append_left (by simpa using h), List.getElem_replicate]
    have hl2 : ∀ t (ht : t < (List.replicate (c + 1) x ++ l').length) (ht' : t - (c + 1) < l'.length), c + 1 ≤ t →
        (List.replicate (c + 1) x ++ l')[t] = l'[t - (c + 1)] := by
      intro t ht ht' h
      rw [List.getElem_append_right (by simpa using h)]
      simp
    refine ⟨by simp [ih.length], fun d hd => ?_, ?_, fun m h h' => ?_, ?_, fun t ht => ?_⟩
    · rcases List.mem_cons.1 hd with rfl | hd
      · omega
      · exact ih.pos d hd
    · rw [List.sum_cons, ih.sum]; simp
    · rcases m with _ | m
      · simp only [List.getElem_cons_zero]
        refine ⟨by simp, fun t ht ha => ?_⟩
        rw [hl1 0 ha (by omega)]
        constructor
        · rintro ⟨-, h2⟩
          exact hl1 t ht (by omega)
        · intro h2
          refine ⟨by omega, ?_⟩
          by_contra h3
          have ht' : t - (c + 1) < l'.length := by simp at ht; omega
          rw [hl2 t ht ht' (by omega)] at h2
          have := hx _ (List.getElem_mem ht')
          omega
      · simp only [List.getElem_cons_succ, List.getElem_map]
        have hm : m < (asymInds (uniqueCounts l')).length := by simpa using h
        have hm' : m < (uniqueCounts l').length := by simpa using h'
        obtain ⟨b1, b2⟩ := ih.block m hm hm'
        have hp := ih.pos _ (List.getElem_mem hm')
        refine ⟨by simp; omega, fun t ht ha => ?_⟩
        have ha' : (asymInds (uniqueCounts l'))[m] < l'.length := by omega
        rw [hl2 _ ha (by omega) (by omega)]
        simp only [Nat.add_sub_cancel_left]
        by_cases hc : c + 1 ≤ t
        · have ht' : t - (c + 1) < l'.length := by simp at ht; omega
          rw [hl2 t ht ht' hc, ← b2 _ ht' ha']
          omega
        · rw [hl1 t ht (by omega)]
          have := hx _ (List.getElem_mem ha')
          constructor
          · omega
          · intro h2; omega
    · rw [List.pairwise_cons]
      refine ⟨fun a ha => ?_, ?_⟩
      · obtain ⟨b, -, rfl⟩ := List.mem_map.1 ha
        omega
      · rw [List.pairwise_map]
        exact ih.starts.imp fun h => by omega
    · by_cases hc : t < c + 1
      · exact ⟨0, by simp, by simp, by simp, by simpa using hc⟩
      · have ht' : t - (c + 1) < l'.length := by simp at ht; omega
        obtain ⟨m, h, h', h1, h2⟩ := ih.cover _ ht'
        refine ⟨m + 1, by simpa using h, by simpa using h', ?_⟩
        simp only [List.getElem_cons_succ, List.getElem_map]
        omega

/-! ### The specification of equality -/

theorem siteClose_iff_sameSite (h1 : tol < 1) {p q : Pt D ℝ} (hp : ∀ j, 0 ≤ p j ∧ p j < 1) (hq : ∀ j, 0 ≤ q j ∧ q j < 1) :
    siteClose tol p q = true ↔ SameSite tol p q := by
  rw [siteClose_iff]
  refine forall_congr' fun j => ?_
  have hd : -1 < p j - q j ∧ p j - q j < 1 := by
    have := hp j; have := hq j
    constructor <;> linarith
  constructor
  · rintro (h | h)
    · exact ⟨0, by simpa using h⟩
    · rcases le_total 0 (p j - q j) with h0 | h0
      · rw [abs_of_nonneg h0] at h
        exact ⟨1, by simpa using h⟩
      · rw [abs_of_nonpos h0] at h
        refine ⟨-1, ?_⟩
        rw [abs_le] at h ⊢
        push_cast
        constructor <;> linarith [h.1, h.2]
  · rintro ⟨n, hn⟩
    rw [abs_le] at hn
    have hn1 : n < 2 := by
      have : (n : ℝ) < 2 := by linarith [hn.1]
      exact_mod_cast this
    have hn2 : -2 < n := by
      have : (-2 : ℝ) < n := by linarith [hn.2]
      exact_mod_cast this
    have : n = -1 ∨ n = 0 ∨ n = 1 := by omega
    rcases this with rfl | rfl | rfl
    · push_cast at hn
      right
      rcases le_total 0 (p j - q j) with h0 | h0
      · rw [abs_of_nonneg h0, abs_le]; constructor <;> linarith [hn.1, hn.2]
      · rw [abs_of_nonpos h0, abs_le]; constructor <;> linarith [hn.1, hn.2]
    · left
      rw [abs_le]
      push_cast at hn
      constructor <;> linarith [hn.1, hn.2]
    · push_cast at hn
      right
      rcases le_total 0 (p j - q j) with h0 | h0
      · rw [abs_of_nonneg h0, abs_le]; constructor <;> linarith [hn.1, hn.2]
      · rw [abs_of_nonpos h0, abs_le]; constructor <;> linarith [hn.1, hn.2]

theorem isImage_iff {o : AffineOp D} {p q : Pt D ℝ} : IsImage o.rot o.trans p q ↔ q = o.apply p := by
  constructor
  · intro h
    funext i
    obtain ⟨h0, h1, n, hn⟩ := h i
    rw [AffineOp.apply, hn, Int.fract_add_intCast, Int.fract_eq_self.2 ⟨h0, h1⟩]
  · rintro rfl i
    exact ⟨Int.fract_nonneg _, Int.fract_lt_one _, ⌊_⌋, (Int.fract_add_floor _).symm⟩

theorem mem_expandSites {asym : List (Pt D ℝ)} {ops : List (AffineOp D)} {i : ℕ} {sites : List (Pt D ℝ)} :
    (expandSites asym ops)[i]? = some sites ↔ ∃ h : i < asym.length, sites = ops.map fun o => o.apply asym[i] := by
  rw [expandSites, List.getElem?_map, Option.map_eq_some_iff]
  constructor
  · rintro ⟨p, hp, rfl⟩
    obtain ⟨h, rfl⟩ := List.getElem?_eq_some_iff.1 hp
    exact ⟨h, rfl⟩
  · rintro ⟨h, rfl⟩
    exact ⟨asym[i], List.getElem?_eq_getElem h, rfl⟩

theorem expand_cases (asym : List (Pt D ℝ)) (ops : List (AffineOp D)) (tol : ℝ) (u : Bool) :
    (u = true ∧ expandAsymUnit asym ops tol u = reduceEquiv tol (expandSites asym ops)) ∨
    (expandAsymUnit asym ops tol u = ((reduceFrom tol 0 (expandSites asym ops)).1, (reduceFrom tol 0 (expandSites asym ops)).2, []) ∧
      (u = true → (uniqueSites tol (reduceFrom tol 0 (expandSites asym ops)).1).all id = true)) := by
  rw [expandAsymUnit]
  by_cases h : (u && !(uniqueSites tol (reduceFrom tol 0 (expandSites asym ops)).1).all id) = true
  · left
    rw [if_pos h]
    rw [Bool.and_eq_true] at h
    exact ⟨h.1, rfl⟩
  · right
    rw [if_neg h]
    refine ⟨rfl, fun hu => ?_⟩
    subst hu
    simpa using h

theorem expand_reduction (asym : List (Pt D ℝ)) (ops : List (AffineOp D)) (tol : ℝ) (u : Bool) :
    Reduction tol (expandSites asym ops) (expandAsymUnit asym ops tol u).1 (expandAsymUnit asym ops tol u).2.1 := by
  rcases expand_cases asym ops tol u with ⟨-, h⟩ | ⟨h, -⟩
  · rw [h]; exact (reduceEquiv_inv _).reduction
  · rw [h]; exact reduceFrom_reduction _

theorem expand_apart (asym : List (Pt D ℝ)) (ops : List (AffineOp D)) (tol : ℝ) :
    (expandAsymUnit asym ops tol true).1.Pairwise fun p q => siteClose tol p q = false := by
  rcases expand_cases asym ops tol true with ⟨-, h⟩ | ⟨h, hu⟩
  · rw [h]; exact (reduceEquiv_inv _).apart
  · rw [h]; exact (uniqueFrom_all [] _ (hu rfl)).2

/-- The images kept of a site are close to a point of the motif. -/
theorem expand_cover (h0 : 0 ≤ tol) (asym : List (Pt D ℝ)) (ops : List (AffineOp D)) (u : Bool) {sites : List (Pt D ℝ)} (hs : sites ∈ expandSites asym ops)
    {p : Pt D ℝ} (hp : p ∈ kept tol sites) : ∃ q ∈ (expandAsymUnit asym ops tol u).1, siteClose tol p q = true := by
  rcases expand_cases asym ops tol u with ⟨-, h⟩ | ⟨h, -⟩
  · rw [h]
    rcases (reduceEquiv_inv _).cover sites hs p hp with hc | hc
    · exact ⟨p, hc, siteClose_refl h0 p⟩
    · exact hc
  · rw [h]
    obtain ⟨n, hn⟩ := List.mem_iff_getElem?.1 hs
    have := (reduceFrom_spec (tol := tol) 0 (expandSites asym ops)).2.2.2 n sites hn p hp
    exact ⟨p, (List.of_mem_zip this).1, siteClose_refl h0 p⟩

/-! ### One orbit for each site -/

theorem uniqueFrom_all_iff : ∀ (pre l : List (Pt D ℝ)), (uniqueFrom tol pre l).all id = true ↔
    (∀ p ∈ l, ∀ q ∈ pre, siteClose tol q p = false) ∧ l.Pairwise fun p q => siteClose tol p q = false
  | pre, l => by
    refine ⟨uniqueFrom_all pre l, ?_⟩
    induction l generalizing pre with
    | nil => intro _; rfl
    | cons p ps ih =>
      rintro ⟨h1, h2⟩
      rw [List.pairwise_cons] at h2
      rw [uniqueFrom, List.all_cons, Bool.and_eq_true]
      refine ⟨?_, ih (pre ++ [p]) ⟨fun q hq r hr => ?_, h2.2⟩⟩
      · simp only [id, Bool.not_eq_true', List.any_eq_false]
        intro q hq
        simpa using h1 p (by simp) q hq
      · rw [List.mem_append, List.mem_singleton] at hr
        rcases hr with hr | rfl
        · exact h1 q (by simp [hq]) r hr
        · exact h2.1 q hq

theorem kept_head {l : List (Pt D ℝ)} : (kept tol l)[0]? = l[0]? := by
  rcases l with _ | ⟨p, l⟩
  · rfl
  · rw [kept, keptFrom]; simp

theorem reduceFrom_orbits : ∀ (i : ℕ) (l : List (List (Pt D ℝ))), (∀ s ∈ l, s ≠ []) →
    uniqueCounts (reduceFrom tol i l).2 = (l.map fun s => (kept tol s).length) ∧
    ∀ m (h : m < l.length), ∃ a, (asymInds (uniqueCounts (reduceFrom tol i l).2))[m]? = some a ∧ (reduceFrom tol i l).2[a]? = some (i + m) ∧
      (reduceFrom tol i l).1[a]? = l[m][0]?
  | _, [], _ => ⟨by simp [reduceFrom, uniqueCounts], fun m h => absurd h (by simp)⟩
  | i, s :: l, hne => by
    obtain ⟨h1, h2⟩ := reduceFrom_orbits (i + 1) l fun t ht => hne t (by simp [ht])
    have hge := reduceFrom_zip_ge (tol := tol) (i + 1) l
    have hsort := (reduceFrom_spec (tol := tol) (i + 1) l).1
    have hk : kept tol s ≠ [] := kept_ne_nil (hne s (by simp))
    obtain ⟨c, hc⟩ : ∃ c, (kept tol s).length = c + 1 := ⟨(kept tol s).length - 1, by have := List.length_pos_iff.2 hk; omega⟩
    rw [reduceFrom, select_uniqueSites, hc]
    have hu := uniqueCounts_split (c := c) (x := i) (l := (reduceFrom tol (i + 1) l).2) (fun y hy => by have := hge y hy; omega) hsort
    simp only
    rw [hu, h1]
    refine ⟨by simp [hc], fun m h => ?_⟩
    rw [asymInds_cons]
    rcases m with _ | m
    · refine ⟨0, by simp, by simp [List.replicate_succ], ?_⟩
      simp only [List.getElem_cons_zero]
      rw [List.getElem?_append_left (by omega), kept_head]
    · have hm : m < l.length := by simpa using h
      obtain ⟨a, e1, e2, e3⟩ := h2 m hm
      rw [h1] at e1
      refine ⟨c + 1 + a, ?_, ?_, ?_⟩
      · rw [List.getElem?_cons_succ, List.getElem?_map, e1]; rfl
      · rw [List.getElem?_append_right (by simp), List.length_replicate, Nat.add_sub_cancel_left, e2]
        congr 1; omega
      · rw [List.getElem?_append_right (by omega), hc, Nat.add_sub_cancel_left, e3]
        rfl

theorem uniqueCounts_ne {l : List ℕ} : (uniqueCounts l).length = l.dedup.length := by
  rw [uniqueCounts, List.length_map]
  exact ((List.mergeSort_perm l _).dedup).length_eq

end Amd
