import Verif.Model.IntegerK
import Verif.Proof.CompareFn
import Verif.Proof.Descent

/-! `k` as any integer: the loop ends, keeps the shape of the array, and does what the model for natural numbers does. -/

set_option linter.unusedSectionVars false

namespace Amd

variable {K : Type*} [CommRing K] [LinearOrder K] {D : ℕ}

/-! ### Merging -/

theorem mergeFill_facts {dists dists_ : List K} {b : K} (hb : ∀ v ∈ dists, v ≤ b) : ∀ (r dp dp_ : ℕ) (l : List K), mergeFill dists dists_ r dp dp_ = some l →
    l.length = r ∧ ∀ v ∈ l, v ≤ b
  | 0, _, _, l, h => by
    simp only [mergeFill, Option.some.injEq] at h
    subst h
    simp
  | r + 1, dp, dp_, l, h => by
    rw [mergeFill] at h
    have step : ∀ {v : K} {p p_ : ℕ}, v ≤ b → (mergeFill dists dists_ r p p_).map (v :: ·) = some l → l.length = r + 1 ∧ ∀ w ∈ l, w ≤ b := by
      intro v p p_ hv h
      rw [Option.map_eq_some_iff] at h
      obtain ⟨l', h', rfl⟩ := h
      obtain ⟨h1, h2⟩ := mergeFill_facts hb r p p_ l' h'
      refine ⟨by simp [h1], fun w hw => ?_⟩
      rcases List.mem_cons.1 hw with rfl | hw
      · exact hv
      · exact h2 w hw
    split at h
    · rename_i dist dist_ h1 h2
      have hd := hb _ (List.mem_of_getElem? h1)
      split_ifs at h with hle
      · exact step hd h
      · exact step ((not_le.1 hle).le.trans hd) h
    · rename_i dist h1 h2
      exact step (hb _ (List.mem_of_getElem? h1)) h
    · cases h

theorem mergeFill_length {dists dists_ : List K} (r dp dp_ : ℕ) (l : List K) (h : mergeFill dists dists_ r dp dp_ = some l) : l.length = r := by
  induction r generalizing dp dp_ l with
  | zero =>
    simp only [mergeFill, Option.some.injEq] at h
    subst h
    rfl
  | succ r ih =>
    rw [mergeFill] at h
    have step : ∀ {v : K} {p p_ : ℕ}, (mergeFill dists dists_ r p p_).map (v :: ·) = some l → l.length = r + 1 := by
      intro v p p_ h
      rw [Option.map_eq_some_iff] at h
      obtain ⟨l', h', rfl⟩ := h
      simp [ih _ _ _ h']
    split at h
    · split_ifs at h
      · exact step h
      · exact step h
    · exact step h
    · cases h

theorem backScan_le {dists : List K} {v : K} : ∀ (n j : ℕ), backScan dists v n = some j → j ≤ n
  | 0, j, h => by simp [backScan] at h
  | n + 1, j, h => by
    rw [backScan] at h
    split at h
    · cases h
    · split_ifs at h
      · simp only [Option.some.injEq] at h
        omega
      · have := backScan_le n j h
        omega

theorem mergeRow_facts {dists dists_ out : List K} {b : K} (hb : ∀ v ∈ dists, v ≤ b) (h : mergeRow dists dists_ = .ok out) : out.length = dists.length ∧ ∀ v ∈ out, v ≤ b := by
  rw [mergeRow] at h
  split at h
  · cases h
  · split at h
    · cases h
    · rename_i j hj
      split at h
      · cases h
      · rename_i l hl
        cases h
        obtain ⟨h1, h2⟩ := mergeFill_facts hb _ _ _ _ hl
        have := backScan_le _ _ hj
        refine ⟨by rw [List.length_append, List.length_take, h1]; omega, fun v hv => ?_⟩
        rcases List.mem_append.1 hv with hv | hv
        · exact hb v (List.mem_of_mem_take hv)
        · exact h2 v hv

theorem backScan_some {dists : List K} {v w : K} (h0 : dists[0]? = some w) (hw : w ≤ v) : ∀ n, 0 < n → n ≤ dists.length → ∃ j, 0 < j ∧ backScan dists v n = some j
  | 0, h, _ => by omega
  | n + 1, _, hn => by
    rw [backScan, List.getElem?_eq_getElem (by omega : n < dists.length)]
    simp only
    split_ifs with h
    · exact ⟨n + 1, by omega, rfl⟩
    · have hn0 : 0 < n := by
        rcases Nat.eq_zero_or_pos n with rfl | h'
        · rw [List.getElem?_eq_getElem (by omega : 0 < dists.length), Option.some.injEq] at h0
          exact absurd (h0 ▸ hw) h
        · exact h'
      exact backScan_some h0 hw n hn0 (by omega)

theorem mergeFill_some {dists dists_ : List K} : ∀ (r dp dp_ : ℕ), dp + r ≤ dists.length → ∃ l, mergeFill dists dists_ r dp dp_ = some l
  | 0, _, _, _ => ⟨[], rfl⟩
  | r + 1, dp, dp_, h => by
    rw [mergeFill, List.getElem?_eq_getElem (by omega : dp < dists.length)]
    obtain ⟨l, hl⟩ := mergeFill_some (dists := dists) (dists_ := dists_) r (dp + 1) dp_ (by omega)
    obtain ⟨l', hl'⟩ := mergeFill_some (dists := dists) (dists_ := dists_) r dp (dp_ + 1) (by omega)
    cases dists_[dp_]? with
    | none => exact ⟨_, by rw [hl]; rfl⟩
    | some d =>
      simp only
      split_ifs
      · exact ⟨_, by rw [hl]; rfl⟩
      · exact ⟨_, by rw [hl']; rfl⟩

/-- A row of `n` entries that are at most `b`, the first of which is at most 0. -/
def RowOk (n : ℕ) (b : K) (r : List K) : Prop := r.length = n ∧ (∀ v ∈ r, v ≤ b) ∧ ∃ w, r[0]? = some w ∧ w ≤ 0

theorem mergeRow_rowOk {n : ℕ} {b : K} {r r' : List K} (h : RowOk n b r) (h1 : r' ≠ []) (h2 : ∀ v ∈ r', 0 ≤ v) : ∃ out, mergeRow r r' = .ok out ∧ RowOk n b out := by
  obtain ⟨hn, hb, w, hw, hw0⟩ := h
  have hlen : 0 < r.length := by
    by_contra hc
    rw [List.length_eq_zero_iff.1 (by omega : r.length = 0)] at hw
    cases hw
  obtain ⟨a, t, rfl⟩ := List.exists_cons_of_ne_nil h1
  obtain ⟨j, hj0, hj⟩ := backScan_some hw (hw0.trans (h2 a (by simp))) r.length hlen le_rfl
  have hjle := backScan_le _ _ hj
  obtain ⟨l, hl⟩ := mergeFill_some (dists := r) (dists_ := a :: t) (r.length - j) j 0 (by omega)
  have hout : mergeRow r (a :: t) = .ok (r.take j ++ l) := by
    rw [mergeRow]
    simp only [List.getElem?_cons_zero, hj, hl]
  obtain ⟨o1, o2⟩ := mergeRow_facts hb hout
  refine ⟨_, hout, o1.trans hn, o2, w, ?_, hw0⟩
  rw [List.getElem?_append_left (by rw [List.length_take]; omega), List.getElem?_take_of_lt hj0, hw]

theorem mergeRows_ok {n : ℕ} {b : K} : ∀ {rows rows_ : List (List K)}, rows.length = rows_.length → (∀ r ∈ rows, RowOk n b r) →
    (∀ r ∈ rows_, r ≠ [] ∧ ∀ v ∈ r, 0 ≤ v) → ∃ out, mergeRows rows rows_ = .ok out ∧ out.length = rows.length ∧ ∀ r ∈ out, RowOk n b r
  | [], _, _, _, _ => ⟨[], by simp [mergeRows]⟩
  | _ :: _, [], h, _, _ => by simp at h
  | r :: rs, r' :: rs', h, h1, h2 => by
    obtain ⟨a, ha, ha'⟩ := mergeRow_rowOk (h1 r (by simp)) (h2 r' (by simp)).1 (h2 r' (by simp)).2
    obtain ⟨l, hl, hl1, hl2⟩ := mergeRows_ok (rows := rs) (rows_ := rs') (by simpa using h) (fun s hs => h1 s (by simp [hs])) fun s hs => h2 s (by simp [hs])
    refine ⟨a :: l, by simp [mergeRows, ha, hl, bind, Except.bind], by simp [hl1], fun s hs => ?_⟩
    rcases List.mem_cons.1 hs with rfl | hs
    · exact ha'
    · exact hl2 s hs

theorem mergeRow_length {r r' out : List K} (h : mergeRow r r' = .ok out) : out.length = r.length := by
  rw [mergeRow] at h
  split at h
  · cases h
  · split at h
    · cases h
    · rename_i j hj
      split at h
      · cases h
      · rename_i l hl
        cases h
        have := mergeFill_length _ _ _ _ hl
        have := backScan_le _ _ hj
        rw [List.length_append, List.length_take]
        omega

theorem mergeRows_length {n : ℕ} : ∀ {rows rows_ out : List (List K)}, mergeRows rows rows_ = .ok out → (∀ r ∈ rows, r.length = n) → ∀ r ∈ out, r.length = n
  | [], _, out, h, _ => by
    cases h
    simp
  | _ :: _, [], out, h, _ => by cases h
  | r :: rs, r' :: rs', out, h, hn => by
    rw [mergeRows] at h
    cases ha : mergeRow r r' with
    | error e' => simp [ha, bind, Except.bind] at h
    | ok a =>
      cases hb : mergeRows rs rs' with
      | error e' => simp [ha, hb, bind, Except.bind] at h
      | ok l =>
        simp only [ha, hb, bind, Except.bind] at h
        cases h
        intro s hs
        rcases List.mem_cons.1 hs with rfl | hs
        · exact (mergeRow_length ha).trans (hn r (by simp))
        · exact mergeRows_length hb (fun t ht => hn t (by simp [ht])) s hs

/-! ### Selecting the smallest -/

theorem partitionRows_cases {k : ℤ} {n : ℕ} : ∀ {rows : List (List K)}, rows ≠ [] → (∀ r ∈ rows, r.length = n) →
    partitionRows k rows = if -(n : ℤ) ≤ k - 1 ∧ k - 1 < n then .ok (rows.map (kSmallest (sliceLength n k))) else .error .value
  | [], h, _ => absurd rfl h
  | [r], _, hn => by
    have := hn r (by simp)
    simp only [partitionRows, partitionSlice, this]
    split_ifs <;> rfl
  | r :: r' :: rs, _, hn => by
    have := hn r (by simp)
    rw [partitionRows, partitionRows_cases (rows := r' :: rs) (by simp) fun s hs => hn s (List.mem_cons_of_mem _ hs)]
    simp only [partitionSlice, this]
    split_ifs <;> rfl

theorem newRows_natural {k n : ℕ} {rows : List (List K)} (hk : 0 < k) (hr : rows ≠ []) (hn : ∀ r ∈ rows, r.length = n) : newRows (k : ℤ) n rows = .ok (rows.map (kSmallest k)) := by
  rw [newRows]
  split_ifs with h
  · rw [partitionRows_cases hr hn, if_pos (by omega), sliceLength, if_pos (by omega), Int.toNat_natCast, min_eq_right (by omega)]
  · congr 1
    refine List.map_congr_left fun r hr => ?_
    rw [kSmallest, List.take_of_length_le]
    rw [List.length_insertionSort, hn r hr]
    omega

/-- For a negative `k` the new entries are a ValueError or rows of at least one of the entries. -/
theorem newRows_negative {k : ℤ} {n : ℕ} {rows : List (List K)} (hk : k < 0) (hr : rows ≠ []) (hn : ∀ r ∈ rows, r.length = n) : newRows k n rows = .error .value ∨
    ∃ out, newRows k n rows = .ok out ∧ out.length = rows.length ∧ ∀ r ∈ out, r ≠ [] ∧ ∀ v ∈ r, ∃ s ∈ rows, v ∈ s := by
  rw [newRows, if_pos (by omega), partitionRows_cases hr hn]
  split_ifs with h
  · refine .inr ⟨_, rfl, by simp, fun r hr => ?_⟩
    obtain ⟨s, hs, rfl⟩ := List.mem_map.1 hr
    refine ⟨?_, fun v hv => ⟨s, hs, (List.mem_insertionSort _).1 (List.mem_of_mem_take hv)⟩⟩
    rw [← List.length_pos_iff, kSmallest, List.length_take, List.length_insertionSort, hn s hs, sliceLength, if_neg (by omega)]
    omega
  · exact .inl rfl

theorem maxLastE_eq {rows : List (List K)} (h : ∀ r ∈ rows, r ≠ []) : maxLastE rows = maxLast rows := by
  rw [maxLastE, if_neg]
  simp only [List.any_eq_true, List.isEmpty_iff, not_exists, not_and]
  exact h

theorem maxLast_le {rows : List (List K)} {b : K} (h0 : rows ≠ []) (h : ∀ r ∈ rows, r ≠ [] ∧ ∀ v ∈ r, v ≤ b) : ∃ a ≤ b, maxLast rows = .ok a := by
  have key : ∀ v ∈ rows.flatMap fun r => r.getLast?.toList, v ≤ b := by
    intro v hv
    obtain ⟨r, hr, hv⟩ := List.mem_flatMap.1 hv
    rw [Option.mem_toList] at hv
    exact (h r hr).2 v (List.mem_of_getLast? hv)
  rw [maxLast]
  cases hl : rows.flatMap fun r => r.getLast?.toList with
  | nil =>
    obtain ⟨r, t, rfl⟩ := List.exists_cons_of_ne_nil h0
    have := (h r (by simp)).1
    simp [List.getLast?_eq_some_getLast this] at hl
  | cons c l =>
    rw [hl] at key
    refine ⟨_, ?_, rfl⟩
    have : ∀ (l : List K) (c : K), c ≤ b → (∀ v ∈ l, v ≤ b) → l.foldl max c ≤ b := by
      intro l
      induction l with
      | nil => exact fun c hc _ => hc
      | cons x l ih => exact fun c hc hl => ih _ (max_le hc (hl x (by simp))) fun v hv => hl v (by simp [hv])
    exact this l c (key c (by simp)) fun v hv => key v (by simp [hv])

/-! ### The loop -/

section

variable {near : K → K → K → Bool} {motif : List (Pt D K)} {cell : Fin D → Pt D K} {x : List (Pt D K)} {diamSq b : K}

theorem cdistSq_ne {xb : List (Pt D K)} (hx : x ≠ []) : cdistSq x xb ≠ [] := by
  rw [cdistSq]
  simpa using hx

theorem cdistSq_length {xb : List (Pt D K)} : ∀ r ∈ cdistSq x xb, r.length = xb.length := by
  intro r hr
  obtain ⟨p, hp, rfl⟩ := List.mem_map.1 hr
  simp

theorem nnLoopInt_natural {k n : ℕ} (hk : 0 < k) (hx : x ≠ []) (hn : 0 < n) : ∀ (f d : ℕ) (rows : List (List K)), (∀ r ∈ rows, r.length = n) →
    nnLoopInt near motif cell x (k : ℤ) diamSq f d rows = nnLoop near motif cell x k diamSq f d rows
  | 0, _, _, _ => rfl
  | f + 1, d, rows, h => by
    have hne : ∀ r ∈ rows, r ≠ [] := fun r hr h' => by
      have := h r hr
      rw [h'] at this
      simp at this
      omega
    rw [nnLoopInt, nnLoop, maxLastE_eq hne]
    cases maxLast rows with
    | error e => rfl
    | ok a =>
      simp only [bind, Except.bind]
      split_ifs
      · rfl
      · rfl
      · rw [newRows_natural hk (cdistSq_ne hx) cdistSq_length]
        simp only
        cases hm : mergeRows rows _ with
        | error e => rfl
        | ok rows' =>
          simp only
          exact nnLoopInt_natural hk hx hn f (d + 1) rows' (mergeRows_length hm h)

end

section

variable [IsStrictOrderedRing K] {near : K → K → K → Bool} {motif : List (Pt D K)} {cell : Fin D → Pt D K} {x : List (Pt D K)} {diamSq b : K}

theorem nnLoopInt_negative {k : ℤ} {n dstar : ℕ} (hk : k < 0) (hx : x ≠ []) (hn : 0 < n)
    (hstar : ∀ v ∈ intLayer D dstar, ∀ a ≤ b, near (sqNorm (latVec cell v)) a diamSq = false) :
    ∀ (f d : ℕ) (rows : List (List K)), d ≤ dstar → dstar < d + f → rows.length = x.length → (∀ r ∈ rows, RowOk n b r) →
      nnLoopInt near motif cell x k diamSq f d rows = .error .value ∨
        ∃ out, nnLoopInt near motif cell x k diamSq f d rows = .ok out ∧ out.length = x.length ∧ ∀ r ∈ out, RowOk n b r
  | 0, d, rows, h1, h2, _, _ => by omega
  | f + 1, d, rows, h1, h2, hl, hs => by
    have hne : ∀ r ∈ rows, r ≠ [] := fun r hr h' => by
      have := (hs r hr).1
      rw [h'] at this
      simp at this
      omega
    have hr0 : rows ≠ [] := fun h => hx (List.length_eq_zero_iff.1 (by rw [← hl, h]; rfl))
    obtain ⟨a, hab, ha⟩ := maxLast_le hr0 fun r hr => ⟨hne r hr, (hs r hr).2.1⟩
    rw [nnLoopInt, maxLastE_eq hne, ha]
    simp only [bind, Except.bind]
    split_ifs with c1 c2
    · exact .inr ⟨rows, rfl, hl, hs⟩
    · exact .inr ⟨rows, rfl, hl, hs⟩
    · have hd : d ≠ dstar := by
        rintro rfl
        apply c1
        rw [List.isEmpty_iff, List.filter_eq_nil_iff]
        intro l hl
        obtain ⟨v, hv, rfl⟩ := List.mem_map.1 hl
        rw [hstar v hv a hab]
        simp
      rcases newRows_negative hk (cdistSq_ne hx) (cdistSq_length (x := x) (xb := List.filter (fun c => x.any fun p => decide (sqDist p c < a))
        (latticeToCloud motif (List.filter (fun l => near (sqNorm l) a diamSq) (List.map (latVec cell) (intLayer D d)))))) with h | ⟨new, h, hnl, hnew⟩
      · rw [h]
        exact .inl rfl
      · rw [h]
        simp only
        obtain ⟨rows', h', hl', hs'⟩ := mergeRows_ok (rows := rows) (rows_ := new) (by rw [hl, hnl]; simp [cdistSq]) hs (fun r hr => ⟨(hnew r hr).1, fun v hv => by
          obtain ⟨s, hs, hvs⟩ := (hnew r hr).2 v hv
          obtain ⟨p, _, rfl⟩ := List.mem_map.1 hs
          obtain ⟨q, _, rfl⟩ := List.mem_map.1 hvs
          exact Finset.sum_nonneg fun _ _ => sq_nonneg _⟩)
        rw [h']
        exact nnLoopInt_negative hk hx hn hstar f (d + 1) rows' (by omega) (by omega) (hl'.trans hl) hs'

end

/-! ### The search -/

theorem numLayers_zero {m : ℕ} (hm : 0 < m) : numLayers D m 0 = 2 := by
  rw [numLayers, batchLoop, if_neg (by omega)]
  rfl

theorem length_firstLayers (hD : 0 < D) : (layersUpTo D 2).length = 2 * D + 1 := by
  rw [length_layersUpTo_succ, layersUpTo_one_length hD]
  have hcard : (intLayer D 1).length = (Finset.univ.image fun i : Fin D × Bool => (Pi.single i.1 (if i.2 then 1 else -1) : Fin D → ℤ)).card := by
    rw [← List.toFinset_card_of_nodup (nodup_intLayer D 1)]
    congr 1
    ext v
    rw [List.mem_toFinset, mem_intLayer hD, Finset.mem_image]
    constructor
    · rintro ⟨h1, h2⟩
      have h1 : ∑ i, v i ^ 2 ≤ 1 := by simpa [normSq] using h1
      have h2 : (∃ i, v i ≠ 0) := by
        by_contra hc
        push Not at hc
        rcases h2 with h | h
        · omega
        · simp [normSq, hc] at h
      obtain ⟨i, hi⟩ := h2
      have hs := Finset.add_sum_erase Finset.univ (fun i => v i ^ 2) (Finset.mem_univ i)
      have hp : ∀ j ∈ Finset.univ.erase i, (0 : ℤ) ≤ v j ^ 2 := fun j _ => sq_nonneg _
      have hi1 : 1 ≤ v i ^ 2 := by
        have := sq_nonneg (v i)
        have := pow_ne_zero 2 hi
        omega
      have hz := (Finset.sum_eq_zero_iff_of_nonneg hp).1 (by
        have := Finset.sum_nonneg hp
        omega)
      have hvi : v i ^ 2 = 1 := by
        have := Finset.sum_nonneg hp
        omega
      refine ⟨(i, decide (0 < v i)), Finset.mem_univ _, ?_⟩
      funext j
      by_cases hj : j = i
      · subst hj
        rcases (by simpa using hvi : v j = 1 ∨ v j = -1) with h | h <;> simp [h]
      · rw [Pi.single_eq_of_ne hj]
        exact (pow_eq_zero_iff two_ne_zero).1 (hz j (by simp [hj])) |>.symm
    · rintro ⟨⟨i, b⟩, _, rfl⟩
      have : normSq (Pi.single i (if b then 1 else -1) : Fin D → ℤ) = 1 := by
        rw [normSq, Finset.sum_eq_single i]
        · cases b <;> simp
        · intro j _ hj
          simp [Pi.single_eq_of_ne hj]
        · simp
      rw [InShell, this]
      simp
  rw [hcard, Finset.card_image_of_injective]
  · simp [Finset.card_univ]
    ring
  · rintro ⟨i, b⟩ ⟨j, c⟩ h
    simp only at h
    have hij : i = j := by
      by_contra hij
      have := congrFun h i
      rw [Pi.single_eq_same, Pi.single_eq_of_ne hij] at this
      cases b <;> simp at this
    subst hij
    have := congrFun h i
    rw [Pi.single_eq_same, Pi.single_eq_same] at this
    cases b <;> cases c <;> simp at this ⊢

section

variable {motif x : List (Pt D ℝ)} {cell : Fin D → Pt D ℝ}

theorem nearestNeighborsSqInt_natural (hD : 0 < D) (hx : x ≠ []) (hm : motif ≠ []) {k : ℕ} (hk : 0 < k) (fuel : ℕ) :
    nearestNeighborsSqInt nearReal motif cell x (k : ℤ) fuel = nearestNeighborsSq nearReal motif cell x k fuel := by
  have hlen := le_length_cloud motif cell hD hm k
  rw [nearestNeighborsSqInt, nearestNeighborsSq, Int.toNat_natCast]
  simp only [bind, Except.bind]
  split
  · rfl
  · rw [cloudUpTo] at hlen
    rw [partitionRows_cases (cdistSq_ne hx) cdistSq_length, if_pos (by omega), sliceLength, if_pos (by omega), Int.toNat_natCast,
      min_eq_right hlen]
    simp only
    refine nnLoopInt_natural hk hx hk _ _ _ fun r hr => ?_
    obtain ⟨s, hs, rfl⟩ := List.mem_map.1 hr
    rw [length_kSmallest, cdistSq_length s hs]
    exact min_eq_left hlen

theorem nearestNeighborsInt_natural (hD : 0 < D) (hx : x ≠ []) (hm : motif ≠ []) {k : ℕ} (hk : 0 < k) (fuel : ℕ) :
    nearestNeighborsInt motif cell x (k : ℤ) fuel = nearestNeighbors motif cell x k fuel := by
  rw [nearestNeighborsInt, nearestNeighborsSqInt_natural hD hx hm hk, nearestNeighbors]

theorem nearestNeighborsSqInt_start (hD : 0 < D) (hx : x ≠ []) (hm : motif ≠ []) {k : ℤ} (hk : k ≤ 0) : ∃ dsq, ∀ fuel, nearestNeighborsSqInt nearReal motif cell x k fuel =
    if -((2 * D + 1) * motif.length : ℕ) ≤ k - 1 then nnLoopInt nearReal motif cell x k dsq fuel 2 (rowsUpTo motif cell x (sliceLength ((2 * D + 1) * motif.length) k) 2) else .error .value := by
  have hmpos : 0 < motif.length := List.length_pos_iff.mpr hm
  obtain ⟨dsq, h1, _⟩ := diam_spec motif x cell hD hx hm 0
  refine ⟨dsq, fun fuel => ?_⟩
  have hc : (latticeToCloud motif ((layersUpTo D 2).map (latVec cell))).length = (2 * D + 1) * motif.length := by
    rw [← length_firstLayers hD]
    exact length_cloudUpTo motif cell 2
  rw [numLayers_zero hmpos] at h1
  rw [nearestNeighborsSqInt, show k.toNat = 0 by omega, numLayers_zero hmpos]
  simp only [h1, bind, Except.bind]
  rw [partitionRows_cases (n := (2 * D + 1) * motif.length) (cdistSq_ne hx) (hc ▸ cdistSq_length)]
  by_cases h : -(((2 * D + 1) * motif.length : ℕ) : ℤ) ≤ k - 1
  · rw [if_pos h, if_pos ⟨h, by omega⟩]
    simp only [rowsUpTo, cdistSq, List.map_map]
    rfl
  · rw [if_neg h, if_neg fun h' => h h'.1]

theorem rowsUpTo_two_rowOk (hD : 0 < D) (hxm : ∀ p ∈ x, p ∈ motif) {n : ℕ} (hn : 0 < n) (hle : n ≤ (2 * D + 1) * motif.length) :
    ∃ b, ∀ r ∈ rowsUpTo motif cell x n 2, RowOk n b r := by
  have hlen : (cloudUpTo motif cell 2).length = (2 * D + 1) * motif.length := by rw [length_cloudUpTo, length_firstLayers hD]
  obtain ⟨b, hb⟩ : ∃ b, ∀ v ∈ (rowsUpTo motif cell x n 2).flatten, v ≤ b := by
    induction (rowsUpTo motif cell x n 2).flatten with
    | nil => exact ⟨0, by simp⟩
    | cons a l ih =>
      obtain ⟨b, hb⟩ := ih
      exact ⟨max a b, fun v hv => by
        rcases List.mem_cons.1 hv with rfl | hv
        · exact le_max_left _ _
        · exact (hb v hv).trans (le_max_right _ _)⟩
  refine ⟨b, fun r hr => ?_⟩
  have hb' : ∀ v ∈ r, v ≤ b := fun v hv => hb v (List.mem_flatten.2 ⟨r, hr, hv⟩)
  obtain ⟨p, hp, rfl⟩ := List.mem_map.1 hr
  refine ⟨by rw [length_kSmallest, List.length_map, hlen]; omega, hb', ?_⟩
  have h0 : (0 : ℝ) ∈ (cloudUpTo motif cell 2).map (sqDist p) := by
    refine List.mem_map.2 ⟨p, ?_, by simp [sqDist]⟩
    rw [cloudUpTo, latticeToCloud]
    refine List.mem_flatMap.2 ⟨latVec cell fun _ => 0, List.mem_map.2 ⟨_, ?_, rfl⟩, List.mem_map.2 ⟨p, hxm p hp, ?_⟩⟩
    · rw [layersUpTo]
      refine List.mem_flatMap.2 ⟨0, by simp, ?_⟩
      rw [mem_intLayer hD]
      simp [InShell, normSq]
    · funext i
      simp [latVec]
  have hsort := List.pairwise_insertionSort (· ≤ ·) ((cloudUpTo motif cell 2).map (sqDist p))
  have hmem := (List.mem_insertionSort (· ≤ ·)).2 h0
  rw [kSmallest]
  cases hl : ((cloudUpTo motif cell 2).map (sqDist p)).insertionSort (· ≤ ·) with
  | nil => rw [hl] at hmem; cases hmem
  | cons a l =>
    rw [hl] at hmem hsort
    refine ⟨a, by rw [List.getElem?_take_of_lt hn]; rfl, ?_⟩
    rcases List.mem_cons.1 hmem with h | h
    · exact h.ge
    · exact (List.pairwise_cons.1 hsort).1 _ h

theorem far_layer (hD : 0 < D) (hcell : NonSingular cell) (b dsq : ℝ) : ∃ dstar ≥ 2, ∀ v ∈ intLayer D dstar, ∀ a ≤ b, nearReal (sqNorm (latVec cell v)) a dsq = false := by
  obtain ⟨c, hc0, hc⟩ := exists_lower_bound hcell
  obtain ⟨e, he⟩ := exists_nat_ge ((√b + √dsq) ^ 2 / c)
  refine ⟨2 + e, by omega, fun n hn a hab => ?_⟩
  rw [mem_intLayer hD] at hn
  unfold nearReal
  rw [decide_eq_false_iff_not, not_lt]
  have hn2 : ((2 + e : ℕ) - 1 : ℝ) ^ 2 < (normSq n : ℝ) := by
    rcases hn.2 with h | h
    · omega
    · exact_mod_cast h
  have he0 : (0 : ℝ) ≤ e := Nat.cast_nonneg e
  have hbig : (e : ℝ) ≤ (normSq n : ℝ) := by
    push_cast at hn2
    nlinarith
  have hbd : (√a + √dsq) ^ 2 ≤ (√b + √dsq) ^ 2 := by
    have : √a ≤ √b := Real.sqrt_le_sqrt hab
    have h0 : 0 ≤ √a + √dsq := by positivity
    nlinarith
  calc (√a + √dsq) ^ 2 ≤ (√b + √dsq) ^ 2 := hbd
    _ = c * ((√b + √dsq) ^ 2 / c) := by field_simp
    _ ≤ c * (normSq n : ℝ) := mul_le_mul_of_nonneg_left (he.trans hbig) hc0.le
    _ ≤ sqNorm (latVec cell n) := hc n

/-- The search for 0 neighbours: there are no columns. -/
theorem nearestNeighborsInt_zero (hD : 0 < D) (hx : x ≠ []) (hm : motif ≠ []) (fuel : ℕ) : nearestNeighborsInt motif cell x 0 (fuel + 1) = .error .bounds := by
  have hmpos : 0 < motif.length := List.length_pos_iff.mpr hm
  obtain ⟨dsq, h⟩ := nearestNeighborsSqInt_start (cell := cell) hD hx hm (k := 0) le_rfl
  have : 1 ≤ (2 * D + 1) * motif.length := Nat.mul_pos (by omega) hmpos
  rw [nearestNeighborsInt, h, if_pos (by omega), nnLoopInt, maxLastE, if_pos]
  · rfl
  · obtain ⟨p, t, rfl⟩ := List.exists_cons_of_ne_nil hx
    simp [rowsUpTo, sliceLength, kSmallest]

/-- The search for a negative number of neighbours that is too large: there is no such position. -/
theorem nearestNeighborsInt_large (hD : 0 < D) (hx : x ≠ []) (hm : motif ≠ []) {k : ℤ} (hk : k ≤ -((2 * D + 1) * motif.length : ℕ)) (fuel : ℕ) :
    nearestNeighborsInt motif cell x k fuel = .error .value := by
  obtain ⟨dsq, h⟩ := nearestNeighborsSqInt_start (cell := cell) hD hx hm (k := k) (by omega)
  rw [nearestNeighborsInt, h, if_neg (by omega)]
  rfl

/-- The search for a negative number of neighbours ends with a ValueError or with rows of another length. -/
theorem nearestNeighborsInt_negative (hD : 0 < D) (hx : x ≠ []) (hxm : ∀ p ∈ x, p ∈ motif) (hcell : NonSingular cell) {k : ℤ} (hk : k < 0) : ∃ F, ∀ fuel ≥ F,
    nearestNeighborsInt motif cell x k fuel = .error .value ∨
      ∃ (n : ℕ) (rows : _), 0 < n ∧ (n : ℤ) = (2 * D + 1) * motif.length + k ∧ nearestNeighborsInt motif cell x k fuel = .ok rows ∧ rows.length = x.length ∧ ∀ r ∈ rows, r.length = n := by
  have hm : motif ≠ [] := by
    obtain ⟨p, hp⟩ := List.exists_mem_of_ne_nil x hx
    exact List.ne_nil_of_mem (hxm p hp)
  obtain ⟨dsq, h⟩ := nearestNeighborsSqInt_start (cell := cell) hD hx hm hk.le
  by_cases hc : -(((2 * D + 1) * motif.length : ℕ) : ℤ) ≤ k - 1
  · set n := sliceLength ((2 * D + 1) * motif.length) k with hn
    rw [sliceLength, if_neg (by omega)] at hn
    obtain ⟨b, hb⟩ := rowsUpTo_two_rowOk (cell := cell) hD hxm (n := n) (by omega) (by omega)
    obtain ⟨dstar, hd2, hstar⟩ := far_layer hD hcell b dsq
    refine ⟨dstar + 1, fun fuel hf => ?_⟩
    rw [nearestNeighborsInt, h, if_pos hc]
    rcases nnLoopInt_negative (motif := motif) (n := n) hk hx (by omega) hstar fuel 2 _ hd2 (by omega) (by simp [rowsUpTo]) hb with h' | ⟨out, h', hl, hr⟩
    · rw [h']
      exact .inl rfl
    · rw [h']
      refine .inr ⟨n, _, by omega, by
        have : (n : ℤ) = ((2 * D + 1) * motif.length : ℕ) + k := by omega
        rw [this]
        push_cast
        rfl, rfl, by simpa using hl, fun r hr' => ?_⟩
      obtain ⟨s, hs, rfl⟩ := List.mem_map.1 hr'
      simpa using (hr s hs).1
  · refine ⟨0, fun fuel _ => .inl ?_⟩
    rw [nearestNeighborsInt, h, if_neg hc]
    rfl

end

theorem AMDInt_eq {S : PeriodicSet D} {inds : List (Fin S.motif.length)} {mult : List ℕ} (h : S.Units inds mult) (k : ℤ) (fuel : ℕ) : AMDInt S k fuel = (do
    let dists ← nearestNeighborsInt S.motif S.cell (inds.map fun i => S.motif[i]) (k + 1) fuel
    averageColumnsExceptFirst ((dists.head?.getD []).length) dists (mult.map fun n : ℕ => (n : ℝ))) := by
  unfold AMDInt
  rw [asymPoints_units h]
  rfl

theorem PDDInt_eq {S : PeriodicSet D} {inds : List (Fin S.motif.length)} {mult : List ℕ} (h : S.Units inds mult) (k : ℤ) (lexsort collapse : Bool) (tol : ℝ) (fuel : ℕ) :
    PDDInt S k lexsort collapse tol fuel = (do
      let dists ← nearestNeighborsInt S.motif S.cell (inds.map fun i => S.motif[i]) (k + 1) fuel
      if mult.length ≠ dists.length then .error .bounds
      else if k + 1 < 0 then .error .value
      else .ok (lexsortRows lexsort (collapseRows ((dists.head?.getD []).length - 1) collapse tol (dists.map (·.drop 1)) (mult.map fun n : ℕ => (n : ℝ) / (S.motif.length : ℝ))))) := by
  unfold PDDInt
  rw [asymPoints_units h]
  simp only [bind, Except.bind, List.length_map]

theorem units_points {S : PeriodicSet D} {inds : List (Fin S.motif.length)} : ∀ p ∈ inds.map fun i => S.motif[i], p ∈ S.motif := by
  intro p hp
  obtain ⟨i, _, rfl⟩ := List.mem_map.1 hp
  exact List.getElem_mem _

theorem units_motif {S : PeriodicSet D} {inds : List (Fin S.motif.length)} (h : inds ≠ []) : S.motif ≠ [] := by
  obtain ⟨i, hi⟩ := List.exists_mem_of_ne_nil inds h
  exact List.length_pos_iff.1 (by have := i.2; omega)

theorem head_length {rows : List (List ℝ)} {n : ℕ} (h0 : rows ≠ []) (h : ∀ r ∈ rows, r.length = n) : (rows.head?.getD []).length = n := by
  obtain ⟨r, t, rfl⟩ := List.exists_cons_of_ne_nil h0
  simpa using h r (by simp)

end Amd
