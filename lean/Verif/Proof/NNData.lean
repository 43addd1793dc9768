import Verif.Model.NeighborsData
import Verif.Proof.NNReal
import Mathlib.Data.List.GetD

/-! Helper lemmas for `nearest_neighbors_data`. -/

set_option linter.unusedSectionVars false

namespace Amd

section
variable {K : Type*} [CommRing K] [LinearOrder K] {D : ℕ}

theorem mergeFillInds_fst (a b : List (K × ℕ)) : ∀ r dp dp_,
    (mergeFillInds a b r dp dp_).map (fun l => l.map (·.1)) = mergeFill (a.map (·.1)) (b.map (·.1)) r dp dp_
  | 0, _, _ => rfl
  | r + 1, dp, dp_ => by
    rw [mergeFillInds, mergeFill, List.getElem?_map, List.getElem?_map]
    cases ha : a[dp]? with
    | none => simp
    | some u =>
      cases hb : b[dp_]? with
      | none =>
        simp only [Option.map_some, Option.map_none]
        rw [← mergeFillInds_fst a b r (dp + 1) dp_]
        cases mergeFillInds a b r (dp + 1) dp_ <;> rfl
      | some v =>
        simp only [Option.map_some]
        split_ifs
        · rw [← mergeFillInds_fst a b r (dp + 1) dp_]
          cases mergeFillInds a b r (dp + 1) dp_ <;> rfl
        · rw [← mergeFillInds_fst a b r dp (dp_ + 1)]
          cases mergeFillInds a b r dp (dp_ + 1) <;> rfl

theorem mergeRowInds_fst (a b : List (K × ℕ)) :
    (mergeRowInds a b).map (fun l => l.map (·.1)) = mergeRow (a.map (·.1)) (b.map (·.1)) := by
  unfold mergeRowInds mergeRow
  rw [List.getElem?_map, List.length_map]
  cases hb : b[0]? with
  | none => rfl
  | some v =>
    simp only [Option.map_some]
    cases hs : backScan (a.map (·.1)) v.1 a.length with
    | none => rfl
    | some j =>
      simp only
      rw [← mergeFillInds_fst]
      cases mergeFillInds a b (a.length - j) j 0 with
      | none => rfl
      | some l => simp [Except.map]

theorem mergeRowsInds_fst : ∀ a b : List (List (K × ℕ)),
    (mergeRowsInds a b).map (fun rows => rows.map fun l => l.map (·.1)) =
      mergeRows (a.map fun l => l.map (·.1)) (b.map fun l => l.map (·.1))
  | [], _ => rfl
  | _ :: _, [] => rfl
  | r :: rs, r' :: rs' => by
    rw [mergeRowsInds, List.map_cons, List.map_cons, mergeRows, ← mergeRowInds_fst, ← mergeRowsInds_fst rs rs']
    cases mergeRowInds r r' with
    | error e => rfl
    | ok u =>
      cases mergeRowsInds rs rs' with
      | error e => rfl
      | ok v => rfl

theorem mergeFillInds_perm (a b : List (K × ℕ)) : ∀ r dp dp_ l, mergeFillInds a b r dp dp_ = some l →
    ∃ rest, (a.drop dp ++ b.drop dp_).Perm (l ++ rest)
  | 0, dp, dp_, l, h => by
    rw [mergeFillInds] at h
    injection h with h
    subst h
    exact ⟨_, List.Perm.refl _⟩
  | r + 1, dp, dp_, l, h => by
    have hdrop : ∀ {α : Type _} {c : List α} {i : ℕ} {u : α}, c[i]? = some u → c.drop i = u :: c.drop (i + 1) := by
      intro α c i u hc
      obtain ⟨hi, rfl⟩ := List.getElem?_eq_some_iff.mp hc
      exact List.drop_eq_getElem_cons hi
    rw [mergeFillInds] at h
    cases ha : a[dp]? with
    | none => rw [ha] at h; simp at h
    | some u =>
      rw [ha] at h
      cases hb : b[dp_]? with
      | none =>
        rw [hb] at h
        simp only [Option.map_eq_some_iff] at h
        obtain ⟨l', h', rfl⟩ := h
        obtain ⟨rest, hp⟩ := mergeFillInds_perm a b r (dp + 1) dp_ l' h'
        refine ⟨rest, ?_⟩
        rw [hdrop ha]
        exact hp.cons u
      | some v =>
        rw [hb] at h
        simp only at h
        split_ifs at h
        · simp only [Option.map_eq_some_iff] at h
          obtain ⟨l', h', rfl⟩ := h
          obtain ⟨rest, hp⟩ := mergeFillInds_perm a b r (dp + 1) dp_ l' h'
          refine ⟨rest, ?_⟩
          rw [hdrop ha]
          exact hp.cons u
        · simp only [Option.map_eq_some_iff] at h
          obtain ⟨l', h', rfl⟩ := h
          obtain ⟨rest, hp⟩ := mergeFillInds_perm a b r dp (dp_ + 1) l' h'
          refine ⟨rest, ?_⟩
          rw [hdrop hb]
          exact List.perm_middle.trans (hp.cons v)

theorem mergeRowInds_perm {a b l : List (K × ℕ)} (h : mergeRowInds a b = .ok l) :
    ∃ rest, (a ++ b).Perm (l ++ rest) := by
  unfold mergeRowInds at h
  cases hb : b[0]? with
  | none => rw [hb] at h; cases h
  | some v =>
    rw [hb] at h
    simp only at h
    cases hs : backScan (a.map (·.1)) v.1 a.length with
    | none => rw [hs] at h; cases h
    | some j =>
      rw [hs] at h
      simp only at h
      cases hm : mergeFillInds a b (a.length - j) j 0 with
      | none => rw [hm] at h; cases h
      | some l' =>
        rw [hm] at h
        simp only at h
        injection h with h
        subst h
        obtain ⟨rest, hp⟩ := mergeFillInds_perm a b _ _ _ l' hm
        refine ⟨rest, ?_⟩
        rw [List.append_assoc]
        refine List.Perm.trans ?_ (hp.append_left _)
        rw [List.drop_zero, ← List.append_assoc, List.take_append_drop]

theorem mergeRowsInds_forall {α : Type*} {R R' R'' : α → List (K × ℕ) → Prop}
    (hR : ∀ p a b l, R p a → R' p b → mergeRowInds a b = .ok l → R'' p l) :
    ∀ (x : List α) (a b l : List (List (K × ℕ))), List.Forall₂ R x a → List.Forall₂ R' x b →
      mergeRowsInds a b = .ok l → List.Forall₂ R'' x l
  | [], _, _, _, .nil, .nil, h => by
    rw [mergeRowsInds] at h
    injection h with h
    subst h
    exact .nil
  | p :: x, r :: a, r' :: b, l, .cons h1 h2, .cons h1' h2', h => by
    rw [mergeRowsInds] at h
    cases hu : mergeRowInds r r' with
    | error e => rw [hu] at h; cases h
    | ok u =>
      cases hv : mergeRowsInds a b with
      | error e => rw [hu, hv] at h; cases h
      | ok v =>
        rw [hu, hv] at h
        injection h with h
        subst h
        exact .cons (hR p r r' u h1 h1' hu) (mergeRowsInds_forall hR x a b v h2 h2' hv)

theorem selectRow_fst {arg : ℕ → List K → List ℕ} (harg : ArgContract arg) (k off : ℕ) (row : List K) :
    (selectRow arg k off row).map (·.1) = kSmallest k row := by
  obtain ⟨h1, h2, h3, h4, h5⟩ := harg k row
  have e : (selectRow arg k off row).map (·.1) = (arg k row).map fun i => row.getD i 0 := by
    unfold selectRow; rw [List.map_map]; rfl
  rw [e]
  have hks : IsKS k row ((arg k row).map fun i => row.getD i 0) := by
    refine ⟨h4, by rw [List.length_map, h3], ((List.range row.length).filter fun j => decide (j ∉ arg k row)).map
      (fun i => row.getD i 0), ?_, ?_⟩
    · rw [← List.map_append]
      have hp : (List.range row.length).Perm (arg k row ++ (List.range row.length).filter fun j => decide (j ∉ arg k row)) := by
        rw [List.perm_ext_iff_of_nodup List.nodup_range]
        · intro j
          simp only [List.mem_append, List.mem_filter, List.mem_range, decide_eq_true_eq]
          constructor
          · intro hj
            by_cases hm : j ∈ arg k row
            · exact Or.inl hm
            · exact Or.inr ⟨hj, hm⟩
          · rintro (hj | hj)
            · exact h2 j hj
            · exact hj.1
        · rw [List.nodup_append]
          refine ⟨h1, List.nodup_range.filter _, ?_⟩
          rintro i hi j hj rfl
          have := (List.mem_filter.mp hj).2
          simp only [decide_eq_true_eq] at this
          exact this hi
      have := hp.map fun i => row.getD i 0
      refine List.Perm.trans (List.Perm.of_eq ?_) this
      apply List.ext_getElem
      · simp
      · intro i hi1 hi2
        simp only [List.getElem_map, List.getElem_range]
        rw [List.getD_eq_getElem _ _ hi1]
    · intro a ha b hb
      obtain ⟨i, hi, rfl⟩ := List.mem_map.mp ha
      obtain ⟨j, hj, rfl⟩ := List.mem_map.mp hb
      have := List.mem_filter.mp hj
      simp only [List.mem_range, decide_eq_true_eq] at this
      exact h5 i hi j this.1 this.2
  exact hks.unique (isKS_kSmallest k row)

variable [IsStrictOrderedRing K]

/-- Merging any subset of the next layer that contains everything close enough gives the rows of one more layer. -/
theorem mergeRows_rowsUpTo {motif : List (Pt D K)} {cell : Fin D → Pt D K}
    {x : List (Pt D K)} {k : ℕ} {a : K} (hD : 0 < D) (hxm : ∀ p ∈ x, p ∈ motif)
    (hk : 0 < k) (d : ℕ) (hd : 0 < d) (hlen : k ≤ (cloudUpTo motif cell d).length)
    (hage : ∀ row ∈ rowsUpTo motif cell x k d, ∀ r ∈ row, r ≤ a) {close far : List (Pt D K)} (hcne : close ≠ [])
    (hperm : (latticeToCloud motif ((intLayer D d).map (latVec cell))).Perm (close ++ far))
    (hfar : ∀ c ∈ far, ∀ p ∈ x, a ≤ sqDist p c) :
    mergeRows (rowsUpTo motif cell x k d) ((cdistSq x close).map (kSmallest k)) =
      .ok (rowsUpTo motif cell x k (d + 1)) := by
  have hlen' : k ≤ (cloudUpTo motif cell (d + 1)).length := by
    rw [cloudUpTo_succ, List.length_append]; omega
  unfold rowsUpTo cdistSq
  rw [List.map_map]
  apply mergeRows_map
  intro p hp
  simp only [Function.comp]
  have hks := isKS_kSmallest k ((cloudUpTo motif cell d).map (sqDist p))
  have hks' := isKS_kSmallest k (close.map (sqDist p))
  have hhead := head_rowsUpTo cell hD hd hk (hxm p hp)
  have hnew : ∃ w, (kSmallest k (close.map (sqDist p)))[0]? = some w ∧ 0 ≤ w := by
    have hl := hks'.2.1
    obtain ⟨_, _, rest, h3, _⟩ := hks'
    have hcpos : 0 < close.length := List.length_pos_iff.mpr hcne
    generalize kSmallest k (close.map (sqDist p)) = r at *
    cases r with
    | nil => simp at hl; omega
    | cons w r =>
      refine ⟨w, rfl, ?_⟩
      have := h3.symm.subset (List.mem_append_left rest (List.mem_cons_self (a := w) (l := r)))
      obtain ⟨c, _, rfl⟩ := List.mem_map.mp this
      exact sqDist_nonneg _ _
  obtain ⟨w, hw, hw0⟩ := hnew
  obtain ⟨r, hr, hrks⟩ := mergeRow_spec hks.1 hks'.1 hhead hw hw0
  rw [hr]
  have hkl : (kSmallest k ((cloudUpTo motif cell d).map (sqDist p))).length = k := by
    rw [hks.2.1, List.length_map]; omega
  rw [hkl] at hrks
  have hm := hks.merge hks' hrks
  rw [← List.map_append] at hm
  have hall : IsKS k (((cloudUpTo motif cell d ++ close) ++ far).map (sqDist p)) r := by
    rw [List.map_append]
    apply hm.append_of_ge
    · rw [List.length_map, List.length_append]; omega
    · intro u hu v hv
      obtain ⟨c, hc, rfl⟩ := List.mem_map.mp hv
      refine le_trans ?_ (hfar c hc p hp)
      obtain ⟨b, hb⟩ : ∃ b, (kSmallest k ((cloudUpTo motif cell d).map (sqDist p))).getLast? = some b := by
        cases hc : (kSmallest k ((cloudUpTo motif cell d).map (sqDist p))).getLast? with
        | some v => exact ⟨v, rfl⟩
        | none =>
          rw [List.getLast?_eq_none_iff] at hc
          rw [hc] at hkl; simp at hkl; omega
      have hba : b ≤ a := by
        refine hage _ (List.mem_map.mpr ⟨p, hp, rfl⟩) b ?_
        exact List.mem_of_getLast? hb
      refine le_trans ?_ hba
      exact hrks.le_of_left hkl (fun y hy => getLast?_ge hks.1 hb y hy) u hu
  have hfinal : IsKS k ((cloudUpTo motif cell (d + 1)).map (sqDist p)) r := by
    refine hall.perm ?_
    apply List.Perm.map
    rw [cloudUpTo_succ, List.append_assoc]
    exact hperm.symm.append_left _
  rw [hfinal.unique (isKS_kSmallest k _)]

/-- The two loops compute the same distances. -/
theorem nndLoop_fst {near : K → K → K → Bool} {arg : ℕ → List K → List ℕ} (harg : ArgContract arg)
    {motif : List (Pt D K)} {cell : Fin D → Pt D K} {x : List (Pt D K)} {k : ℕ} {diamSq : K} (hD : 0 < D) (hx : x ≠ [])
    (hxm : ∀ p ∈ x, p ∈ motif) (hk : 0 < k) (hnear : NearSound near motif x diamSq) :
    ∀ (f d off : ℕ) (full : List (Pt D K)) (rows : List (List (K × ℕ))), 0 < d →
      k ≤ (cloudUpTo motif cell d).length → (rows.map fun r => r.map (·.1)) = rowsUpTo motif cell x k d →
      (nndLoop near arg motif cell x k diamSq f d off full rows).map (fun r => r.1.map fun l => l.map (·.1)) =
        nnLoop near motif cell x k diamSq f d (rowsUpTo motif cell x k d)
  | 0, _, _, _, _, _, _, _ => rfl
  | f + 1, d, off, full, rows, hd, hlen, hrows => by
    obtain ⟨a, ha, hage, harow⟩ := maxLast_rowsUpTo motif cell hx hk hlen
    have ha0 : 0 ≤ a := by
      obtain ⟨p, hp⟩ := List.exists_mem_of_ne_nil x hx
      refine hage _ (List.mem_map.mpr ⟨p, hp, rfl⟩) 0 ?_
      exact List.mem_of_getElem? (head_rowsUpTo cell hD hd hk (hxm p hp))
    rw [nndLoop, hrows, nnLoop, ha]
    simp only [bind, Except.bind]
    by_cases hlat : (((intLayer D d).map (latVec cell)).filter fun l => near (sqNorm l) a diamSq).isEmpty = true
    · rw [if_pos hlat, if_pos hlat]
      simp [Except.map, hrows]
    · rw [if_neg hlat, if_neg hlat]
      generalize hcd : latticeToCloud motif (((intLayer D d).map (latVec cell)).filter
        fun l => near (sqNorm l) a diamSq) = cloud
      have hfarlat : ∀ c ∈ latticeToCloud motif (((intLayer D d).map (latVec cell)).filter
          fun l => !(near (sqNorm l) a diamSq)), ∀ p ∈ x, a ≤ sqDist p c := by
        intro c hc p hp
        unfold latticeToCloud at hc
        rw [List.mem_flatMap] at hc
        obtain ⟨l, hl, hc⟩ := hc
        obtain ⟨q, hq, rfl⟩ := List.mem_map.mp hc
        have := (List.mem_filter.mp hl).2
        exact hnear a l ha0 (by simpa using this) p hp q hq
      have hp1 : (latticeToCloud motif ((intLayer D d).map (latVec cell))).Perm (cloud ++
          latticeToCloud motif (((intLayer D d).map (latVec cell)).filter fun l => !(near (sqNorm l) a diamSq))) := by
        rw [← hcd]
        unfold latticeToCloud
        rw [← List.flatMap_append]
        exact List.Perm.flatMap_right _ (List.filter_append_perm _ _).symm
      by_cases hany : (cloud.any fun c => x.any fun p => decide (sqDist p c < a)) = true
      · have hclose : ¬ (cloud.filter fun c => x.any fun p => decide (sqDist p c < a)).isEmpty = true := by
          rw [List.isEmpty_iff, List.filter_eq_nil_iff]
          rw [List.any_eq_true] at hany
          obtain ⟨c, hc, hc'⟩ := hany
          exact fun h => h c hc hc'
        rw [if_pos hany, if_neg hclose]
        have hcne : cloud ≠ [] := by
          rintro rfl
          simp at hany
        have hm1 := mergeRows_rowsUpTo hD hxm hk d hd hlen hage hcne hp1 hfarlat
        have hm2 := mergeRows_rowsUpTo (a := a) (close := cloud.filter fun c => x.any fun p => decide (sqDist p c < a))
          (far := (cloud.filter fun c => !(x.any fun p => decide (sqDist p c < a))) ++
            latticeToCloud motif (((intLayer D d).map (latVec cell)).filter fun l => !(near (sqNorm l) a diamSq)))
          hD hxm hk d hd hlen hage (by simpa using hclose)
          (by
            rw [← List.append_assoc]
            exact hp1.trans (List.Perm.append_right _ (List.filter_append_perm _ _).symm))
          (by
            intro c hc p hp
            rcases List.mem_append.mp hc with hc | hc
            · have := (List.mem_filter.mp hc).2
              rw [Bool.not_eq_true', List.any_eq_false] at this
              simpa using this p hp
            · exact hfarlat c hc p hp)
        rw [hm2]
        simp only
        have hsel : ((cdistSq x cloud).map (selectRow arg k off)).map (fun r => r.map (·.1)) =
            (cdistSq x cloud).map (kSmallest k) := by
          rw [List.map_map]
          exact List.map_congr_left fun r _ => selectRow_fst harg k off r
        have hmi := mergeRowsInds_fst rows ((cdistSq x cloud).map (selectRow arg k off))
        rw [hrows, hsel, hm1] at hmi
        cases hr : mergeRowsInds rows ((cdistSq x cloud).map (selectRow arg k off)) with
        | error e => rw [hr] at hmi; cases hmi
        | ok rows' =>
          rw [hr] at hmi
          injection hmi with hmi
          refine nndLoop_fst harg hD hx hxm hk hnear f (d + 1) _ _ rows' (by omega) ?_ hmi
          rw [cloudUpTo_succ, List.length_append]; omega
      · have hclose : (cloud.filter fun c => x.any fun p => decide (sqDist p c < a)).isEmpty = true := by
          rw [List.isEmpty_iff, List.filter_eq_nil_iff]
          intro c hc hc'
          exact hany (List.any_eq_true.mpr ⟨c, hc, hc'⟩)
        rw [if_neg hany, if_pos hclose]
        simp [Except.map, hrows]

/-- Row `row` of query point `p` refers to distinct points of `cloud` at the stated distances. -/
def RefersTo (cloud : List (Pt D K)) (p : Pt D K) (row : List (K × ℕ)) : Prop :=
  (row.map (·.2)).Nodup ∧ ∀ v ∈ row, ∃ c, cloud[v.2]? = some c ∧ v.1 = sqDist p c

theorem RefersTo.mono {cloud : List (Pt D K)} {p : Pt D K} {row : List (K × ℕ)} (h : RefersTo cloud p row)
    (more : List (Pt D K)) : RefersTo (cloud ++ more) p row := by
  refine ⟨h.1, fun v hv => ?_⟩
  obtain ⟨c, hc, e⟩ := h.2 v hv
  obtain ⟨hi, rfl⟩ := List.getElem?_eq_some_iff.mp hc
  exact ⟨_, by rw [List.getElem?_append_left hi, List.getElem?_eq_getElem hi], e⟩

theorem selectRow_refers {arg : ℕ → List K → List ℕ} (harg : ArgContract arg) (k : ℕ) (full cloud : List (Pt D K))
    (p : Pt D K) : RefersTo (full ++ cloud) p (selectRow arg k full.length (cloud.map (sqDist p))) ∧
      ∀ v ∈ selectRow arg k full.length (cloud.map (sqDist p)), full.length ≤ v.2 := by
  obtain ⟨h1, h2, _⟩ := harg k (cloud.map (sqDist p))
  unfold selectRow
  refine ⟨⟨?_, ?_⟩, ?_⟩
  · rw [List.map_map]
    refine h1.map ?_
    intro i j h
    simpa using h
  · intro v hv
    obtain ⟨i, hi, rfl⟩ := List.mem_map.mp hv
    have := h2 i hi
    rw [List.length_map] at this
    refine ⟨cloud[i], ?_, ?_⟩
    · rw [List.getElem?_append_right (by simp)]
      simp [this]
    · rw [List.getD_eq_getElem _ _ (by simpa using this)]; simp
  · intro v hv
    obtain ⟨i, hi, rfl⟩ := List.mem_map.mp hv
    simp

theorem forall₂_map {α β : Type*} {R : α → β → Prop} (f : α → β) (hf : ∀ p, R p (f p)) : ∀ x : List α,
    List.Forall₂ R x (x.map f)
  | [] => .nil
  | p :: x => .cons (hf p) (forall₂_map f hf x)

/-- The cloud consists of whole translates of the motif by distinct lattice vectors. -/
def WholeCells (motif : List (Pt D K)) (cell : Fin D → Pt D K) (lat : List (Fin D → ℤ)) (cloud : List (Pt D K)) : Prop :=
  lat.Nodup ∧ cloud = latticeToCloud motif (lat.map (latVec cell))

theorem nndLoop_inv {near : K → K → K → Bool} {arg : ℕ → List K → List ℕ} (harg : ArgContract arg)
    {motif : List (Pt D K)} {cell : Fin D → Pt D K} {x : List (Pt D K)} {k : ℕ} {diamSq : K} (hD : 0 < D) :
    ∀ (f d : ℕ) (lat : List (Fin D → ℤ)) (full : List (Pt D K)) (rows : List (List (K × ℕ))) r,
      List.Sublist lat (layersUpTo D d) → full = latticeToCloud motif (lat.map (latVec cell)) →
      List.Forall₂ (RefersTo full) x rows →
      nndLoop near arg motif cell x k diamSq f d full.length full rows = .ok r →
      (∃ lat', WholeCells motif cell lat' r.2) ∧ List.Forall₂ (RefersTo r.2) x r.1
  | 0, _, _, _, _, _, _, _, _, h => by rw [nndLoop] at h; cases h
  | f + 1, d, lat, full, rows, r, hlat, hfull, hrows, h => by
    rw [nndLoop] at h
    cases hm : maxLast (rows.map fun r => r.map (·.1)) with
    | error e => rw [hm] at h; cases h
    | ok a =>
      rw [hm] at h
      simp only [bind, Except.bind] at h
      -- the lattice points of the new cloud
      have hmapf : ((intLayer D d).map (latVec cell)).filter (fun l => near (sqNorm l) a diamSq) =
          ((intLayer D d).filter fun n => near (sqNorm (latVec cell n)) a diamSq).map (latVec cell) := by
        rw [List.filter_map]; rfl
      rw [hmapf] at h
      generalize hnew : ((intLayer D d).filter fun n => near (sqNorm (latVec cell n)) a diamSq) = new at h
      have hsub : List.Sublist (lat ++ new) (layersUpTo D (d + 1)) := by
        rw [layersUpTo_succ, ← hnew]
        exact hlat.append List.filter_sublist
      have hfull' : full ++ latticeToCloud motif (new.map (latVec cell)) =
          latticeToCloud motif ((lat ++ new).map (latVec cell)) := by
        rw [hfull]
        unfold latticeToCloud
        rw [List.map_append, List.flatMap_append]
      split_ifs at h with h1 h2
      · injection h with h
        subst h
        exact ⟨⟨lat, (nodup_layersUpTo hD d).sublist hlat, hfull⟩, hrows⟩
      · -- continue
        cases hr : mergeRowsInds rows ((cdistSq x (latticeToCloud motif (new.map (latVec cell)))).map
            (selectRow arg k full.length)) with
        | error e => rw [hr] at h; cases h
        | ok rows' =>
          rw [hr] at h
          simp only at h
          rw [← List.length_append] at h
          refine nndLoop_inv harg hD f (d + 1) (lat ++ new) _ rows' r hsub hfull' ?_ h
          refine mergeRowsInds_forall (R := RefersTo full)
            (R' := fun p row => RefersTo (full ++ latticeToCloud motif (new.map (latVec cell))) p row ∧
              ∀ v ∈ row, full.length ≤ v.2) ?_ x rows _ rows' hrows ?_ hr
          · rintro p u v l hu ⟨hv, hv'⟩ hl
            obtain ⟨rest, hp⟩ := mergeRowInds_perm hl
            have hu' := hu.mono (latticeToCloud motif (new.map (latVec cell)))
            constructor
            · have hnd : ((u ++ v).map (·.2)).Nodup := by
                rw [List.map_append, List.nodup_append]
                refine ⟨hu.1, hv.1, ?_⟩
                rintro i hi j hj rfl
                obtain ⟨y, hy, rfl⟩ := List.mem_map.mp hi
                obtain ⟨z, hz, e⟩ := List.mem_map.mp hj
                obtain ⟨c, hc, _⟩ := hu.2 y hy
                obtain ⟨hlt, _⟩ := List.getElem?_eq_some_iff.mp hc
                have := hv' z hz
                omega
              have := (hp.map (·.2)).nodup_iff.mp hnd
              rw [List.map_append, List.nodup_append] at this
              exact this.1
            · intro w hw
              rcases List.mem_append.mp (hp.symm.subset (List.mem_append_left rest hw)) with h | h
              · exact hu'.2 w h
              · exact hv.2 w h
          · unfold cdistSq
            rw [List.map_map]
            apply forall₂_map
            intro p
            exact selectRow_refers harg k full _ p
      · injection h with h
        subst h
        exact ⟨⟨lat ++ new, (nodup_layersUpTo hD (d + 1)).sublist hsub, hfull'⟩,
          hrows.imp fun p row hr => hr.mono _⟩

end

variable {D : ℕ}

theorem nearestNeighborsData_inv {arg : ℕ → List ℝ → List ℕ} (harg : ArgContract arg) {motif x : List (Pt D ℝ)}
    (cell : Fin D → Pt D ℝ) (hD : 0 < D) {k fuel : ℕ} {d : NeighborData D}
    (h : nearestNeighborsData arg motif cell x k fuel = .ok d) :
    (∃ lat, WholeCells motif cell lat d.cloud) ∧ ∃ rows : List (List (ℝ × ℕ)),
      d.dists = (rows.map fun row => row.map fun v => Real.sqrt v.1) ∧ d.inds = (rows.map fun row => row.map (·.2)) ∧
      List.Forall₂ (RefersTo d.cloud) x rows := by
  unfold nearestNeighborsData at h
  cases hr : nearestNeighborsDataSq nearReal arg motif cell x k fuel with
  | error e => rw [hr] at h; cases h
  | ok r =>
    rw [hr] at h
    simp only [Except.map] at h
    injection h with h
    subst h
    unfold nearestNeighborsDataSq at hr
    simp only at hr
    cases hm : maxE ((cdistSq x (latticeToCloud motif ((layersUpTo D (numLayers D motif.length k)).map
      (latVec cell)))).flatMap (·.take motif.length)) with
    | error e => rw [hm] at hr; cases hr
    | ok dsq =>
      rw [hm] at hr
      simp only [bind, Except.bind] at hr
      have hf : List.Forall₂ (RefersTo (latticeToCloud motif ((layersUpTo D (numLayers D motif.length k)).map
          (latVec cell)))) x ((cdistSq x (latticeToCloud motif ((layersUpTo D (numLayers D motif.length k)).map
          (latVec cell)))).map (selectRow arg k 0)) := by
        unfold cdistSq
        rw [List.map_map]
        apply forall₂_map
        intro p
        exact (selectRow_refers harg k [] _ p).1
      obtain ⟨h1, h2⟩ := nndLoop_inv harg hD fuel _ _ _ _ r (List.Sublist.refl _) rfl hf hr
      exact ⟨h1, r.1, rfl, rfl, h2⟩

end Amd
