import Verif.Proof.EmdProps
import Verif.Props.PddRows

/-! The distance between a PDD and its collapsed version. -/

set_option linter.unusedSectionVars false

namespace Amd

open Finset

variable {D : ℕ}

theorem sum_indicator_nodup {g : List ℕ} (hg : g.Nodup) (i : ℕ) (w : ℝ) : (g.map fun i' => if i' = i then w else 0).sum = if i ∈ g then w else 0 := by
  induction g with
  | nil => simp
  | cons a g ih =>
    rw [List.nodup_cons] at hg
    rw [List.map_cons, List.sum_cons, ih hg.2]
    by_cases h : a = i
    · subst h
      simp [hg.1]
    · have h' : i ≠ a := fun e => h e.symm
      simp [h, h']

theorem sum_nodup_fin {g : List ℕ} (hg : g.Nodup) {n : ℕ} (hlt : ∀ i ∈ g, i < n) (f : ℕ → ℝ) :
    (∑ i : Fin n, if i.val ∈ g then f i else 0) = (g.map f).sum := by
  induction g with
  | nil => simp
  | cons a g ih =>
    rw [List.nodup_cons] at hg
    rw [List.map_cons, List.sum_cons, ← ih hg.2 fun i hi => hlt i (by simp [hi])]
    have ha := hlt a (by simp)
    have e : ∀ i : Fin n, (if i.val ∈ a :: g then f i else 0) = (if i = ⟨a, ha⟩ then f a else 0) + if i.val ∈ g then f i else 0 := by
      intro i
      by_cases h : i = ⟨a, ha⟩
      · subst h
        simp [hg.1]
      · have h' : i.val ≠ a := fun e => h (Fin.ext e)
        simp [h, h']
    simp only [e, sum_add_distrib, sum_ite_eq', mem_univ, if_true]

/-- Sending every index to the group that contains it is a plan. -/
theorem merge_plan {n m : ℕ} {w : ℕ → ℝ} (hw : ∀ i < n, 0 ≤ w i) {G : Fin m → List ℕ} (hperm : (List.ofFn G).flatten.Perm (List.range n)) :
    IsPlan (fun i : Fin n => w i) (fun j => ((G j).map w).sum) fun i j => if i.val ∈ G j then w i else 0 := by
  have hnd : (List.ofFn G).flatten.Nodup := hperm.nodup_iff.2 List.nodup_range
  have hm : ∀ j, G j ∈ List.ofFn G := fun j => by simp
  have hgn : ∀ j, (G j).Nodup := fun j => (List.nodup_flatten.1 hnd).1 _ (hm j)
  have hgl : ∀ j, ∀ i ∈ G j, i < n := fun j i hi => by
    have := hperm.subset (List.mem_flatten.2 ⟨_, hm j, hi⟩)
    simpa using this
  refine ⟨fun i j => ?_, fun i => ?_, fun j => ?_⟩
  · split_ifs
    · exact hw i i.2
    · exact le_rfl
  · have e : ∀ j, (if i.val ∈ G j then w i else 0) = ((G j).map fun i' => if i' = i.val then w i else 0).sum := fun j => by
      rw [sum_indicator_nodup (hgn j)]
    simp only [e]
    have e2 : ∑ j, ((G j).map fun i' => if i' = i.val then w i else 0).sum =
        ((List.ofFn G).map fun l => (l.map fun i' => if i' = i.val then w i else 0).sum).sum := by
      rw [List.map_ofFn, List.sum_ofFn]
      rfl
    rw [e2, sum_groups, (hperm.map _).sum_eq, sum_indicator_nodup List.nodup_range]
    simp
  · exact sum_nodup_fin (hgn j) (hgl j) w

/-- Moving every row of `base` to the row of `q` that it was merged into costs at most `c`, if it is never further than `c`. -/
theorem exactEmd_merge {k : ℕ} {base q : List (PRow ℝ)} {c : ℝ} (hb : WeightedRows k base) (hq : WeightedRows k q)
    (hperm : (q.map fun r => r.group).flatten.Perm (List.range base.length))
    (hw : ∀ r ∈ q, r.weight = (r.group.map fun i => (base.map fun r => r.weight).getD i 0).sum)
    (hd : ∀ r ∈ q, ∀ i ∈ r.group, chebyshev ((base.map fun r => r.dists).getD i []) r.dists ≤ c) : exactEmd chebyshev base q ≤ c := by
  have hmem : ∀ j : Fin q.length, q[j] ∈ q := fun j => List.getElem_mem _
  have hwi : ∀ i : Fin base.length, (base.map fun r => r.weight).getD i 0 = base[i].weight := fun i => by
    rw [List.getD_eq_getElem _ _ (by simp)]
    simp
  have hdi : ∀ i : Fin base.length, (base.map fun r => r.dists).getD i [] = base[i].dists := fun i => by
    rw [List.getD_eq_getElem _ _ (by simp)]
    simp
  have hof : (List.ofFn fun j : Fin q.length => q[j].group) = q.map fun r => r.group := by
    refine List.ext_getElem (by simp) fun m h1 h2 => ?_
    simp
  have hplan := merge_plan (n := base.length) (w := fun i => (base.map fun r => r.weight).getD i 0) (G := fun j : Fin q.length => q[j].group)
    (fun i hi => by rw [hwi ⟨i, hi⟩]; exact hb.nonneg ⟨i, hi⟩) (by rw [hof]; exact hperm)
  have ew : (fun j : Fin q.length => (q[j].group.map fun i => (base.map fun r => r.weight).getD i 0).sum) = fun j => q[j].weight := by
    funext j
    exact (hw _ (hmem j)).symm
  rw [ew] at hplan
  have ei : (fun i : Fin base.length => (base.map fun r => r.weight).getD i 0) = fun i => base[i].weight := funext hwi
  rw [ei] at hplan
  refine (wasserstein_le (fun i j => (chebyshev_metric k).nonneg _ _ (hb.len i) (hq.len j)) hplan).trans ?_
  have hle : ∀ (i : Fin base.length) (j : Fin q.length), (if i.val ∈ q[j].group then (base.map fun r => r.weight).getD i 0 else 0) * chebyshev base[i].dists q[j].dists ≤
      (if i.val ∈ q[j].group then (base.map fun r => r.weight).getD i 0 else 0) * c := fun i j => by
    split_ifs with h
    · refine mul_le_mul_of_nonneg_left ?_ (by rw [hwi]; exact hb.nonneg i)
      have := hd _ (hmem j) _ h
      rw [hdi] at this
      exact this
    · simp
  refine (sum_le_sum fun i _ => sum_le_sum fun j _ => hle i j).trans (le_of_eq ?_)
  simp only [← sum_mul]
  have : ∑ i : Fin base.length, ∑ j : Fin q.length, (if i.val ∈ q[j].group then (base.map fun r => r.weight).getD i 0 else 0) = 1 :=
    (sum_congr rfl fun i _ => hplan.rows i).trans hb.sum_eq
  rw [this, one_mul]

theorem mean_close {c : ℝ} {l : List ℕ} (hl : l ≠ []) (f : ℕ → ℝ) {x : ℝ} (h : ∀ i ∈ l, |f i - x| ≤ c) : |(l.map f).sum / l.length - x| ≤ c := by
  have hlen : (0 : ℝ) < l.length := by exact_mod_cast List.length_pos_iff.mpr hl
  have e : (l.map f).sum / l.length - x = (l.map fun i => f i - x).sum / l.length := by
    rw [← list_sum_sub]
    simp only [List.map_const', List.sum_replicate, nsmul_eq_mul]
    field_simp
  rw [e, abs_div, abs_of_pos hlen, div_le_iff₀ hlen]
  refine (list_abs_sum_le).trans ((list_sum_le (g := fun _ => c) h).trans ?_)
  simp only [List.map_const', List.sum_replicate, nsmul_eq_mul]
  linarith

theorem exactEmd_perm {k : ℕ} {p q r : List (PRow ℝ)} {δ : List ℝ → List ℝ → ℝ} (hδ : RowMetric k δ) (hp : WeightedRows k p) (hq : WeightedRows k q)
    (hr : WeightedRows k r) (h : p.Perm q) : exactEmd δ p r = exactEmd δ q r :=
  exactEmd_congr hδ hp hq hr fun x => by
    unfold weightAt
    exact ((h.filter _).map _).sum_eq

/-- The collapsed PDD is at exact distance at most twice the tolerance from the uncollapsed one. -/
theorem exactEmd_collapse {S : PeriodicSet D} {inds : List (Fin S.motif.length)} {mult : List ℕ} (hD : 0 < D)
    (hu : S.Units inds mult) (hne : inds ≠ []) {k : ℕ} {lexsort lexsort' : Bool} {tol : ℝ} (htol : 0 ≤ tol) {tol' : ℝ} {fuel : ℕ}
    {pdd base : List (PRow ℝ)} (h : PDD S k lexsort true tol fuel = .ok pdd) (hb : PDD S k lexsort' false tol' fuel = .ok base)
    (hw : WeightedRows k pdd) (hwb : WeightedRows k base) : exactEmd chebyshev base pdd ≤ 2 * tol := by
  classical
  have hb0 : ∃ base0, PDD S k false false tol fuel = .ok base0 ∧ base.Perm base0 := by
    obtain ⟨rows, hr, e⟩ := PDD_rows hD hu hne hb
    obtain ⟨p, hp⟩ := PDD_ok_of hD hu hne k false false tol hr
    obtain ⟨rows', hr', e'⟩ := PDD_rows hD hu hne hp
    rw [hr] at hr'
    obtain rfl := Except.ok.inj hr'
    refine ⟨p, hp, ?_⟩
    rw [e, e', collapseRows_false, collapseRows_false]
    exact (lexsortRows_perm _ _).trans (lexsortRows_perm _ _).symm
  obtain ⟨base0, hb0, hperm⟩ := hb0
  have hwb0 : WeightedRows k base0 := by
    refine ⟨fun e => hwb.nonempty (by rw [e] at hperm; exact hperm.eq_nil), fun r hr => hwb.width r (hperm.symm.subset hr),
      fun r hr => hwb.weights r (hperm.symm.subset hr), ?_⟩
    rw [← (hperm.map _).sum_eq]
    exact hwb.total
  rw [exactEmd_perm (chebyshev_metric k) hwb hwb0 hw hperm]
  obtain ⟨rows, hp, -, hG, hr⟩ := C16_groups_partial hD hu hne h hb0
  refine exactEmd_merge hwb0 hw ?_ (fun r hm => (hr r (hp.subset hm)).1) fun r hm i hi => ?_
  · exact ((hp.map _).flatten).trans hG.perm
  · obtain ⟨-, hl, hd⟩ := hr r (hp.subset hm)
    have hgm : r.group ∈ rows.map fun r => r.group := List.mem_map_of_mem (hp.subset hm)
    have hlt : ∀ i ∈ r.group, i < base0.length := fun i hi => by
      have := hG.perm.subset (List.mem_flatten.2 ⟨_, hgm, hi⟩)
      simpa using this
    have hlen : ∀ i ∈ r.group, ((base0.map fun r => r.dists).getD i []).length = k := fun i hi => by
      rw [List.getD_eq_getElem _ _ (by simpa using hlt i hi), List.getElem_map]
      exact hwb0.width _ (List.getElem_mem _)
    have hlead : ∃ l ∈ r.group, ∀ i ∈ r.group, ∀ j, |((base0.map fun r => r.dists).getD l []).getD j 0 - ((base0.map fun r => r.dists).getD i []).getD j 0| ≤ tol := by
      obtain ⟨l, t, e⟩ := List.exists_cons_of_ne_nil (hG.nonempty _ hgm)
      refine ⟨l, by rw [e]; simp, fun i hi j => ?_⟩
      rw [e] at hi
      rcases List.mem_cons.mp hi with rfl | h'
      · simpa using htol
      · have := hG.within _ hgm l (by rw [e]; simp) i (by rw [e]; simpa using h')
        exact (of_decide_eq_true this).2 j
    obtain ⟨l, hlm, hcl⟩ := hlead
    refine (chebyshev_le_iff ((hlen i hi).trans hl.symm)).2 ⟨by linarith, fun j hj => ?_⟩
    rw [hlen i hi] at hj
    rw [hd j hj]
    have h1 := mean_close (List.ne_nil_of_mem hi) (fun i => ((base0.map fun r => r.dists).getD i []).getD j 0) (x := ((base0.map fun r => r.dists).getD l []).getD j 0)
      fun i hi => by rw [abs_sub_comm]; exact hcl i hi j
    have h2 := hcl i hi j
    rw [abs_le] at *
    constructor <;> linarith [h1.1, h1.2, h2.1, h2.2]

end Amd
