import Verif.Model.IntegerN
import Verif.Proof.CompareFn
import Verif.Proof.Pairwise

/-! # Lemmas on `n_neighbors` as any integer -/

namespace Amd

theorem sliceTo_natural {α : Type*} (n : ℕ) (l : List α) : sliceTo (n : ℤ) l = l.take n := by
  rw [sliceTo, sliceLength, if_pos (by omega), Int.toNat_natCast]
  rcases Nat.le_total l.length n with h | h
  · rw [min_eq_left h, List.take_of_length_le h, List.take_length]
  · rw [min_eq_right h]

theorem sliceTo_negative {α : Type*} {n : ℤ} (hn : n < 0) (l : List α) : sliceTo n l = l.take (l.length + n).toNat := by
  rw [sliceTo, sliceLength, if_neg (by omega)]
  congr 1
  omega

theorem partIndex_natural (m n : ℕ) : partIndex m (n : ℤ) = if n < m then .ok n else .error .value := by
  rw [partIndex]
  by_cases h : n < m
  · rw [if_pos (by omega), if_pos h, Int.toNat_natCast]
  · rw [if_neg (by omega), if_neg (by omega), if_neg h]

theorem partIndex_negative {m : ℕ} {n : ℤ} (hn : n < 0) (hm : -(m : ℤ) ≤ n) : partIndex m n = .ok (m + n).toNat := by
  rw [partIndex, if_neg (by omega), if_pos ⟨hm, hn⟩]

theorem partIndex_error {m : ℕ} {n : ℤ} (hm : n < -(m : ℤ)) : partIndex m n = .error .value := by
  rw [partIndex, if_neg (by omega), if_neg (by omega)]

theorem mapE_same {α β ε : Type*} {f g : α → Except ε β} {l : List α} (h : ∀ a ∈ l, f a = g a) : mapE f l = mapE g l := by
  induction l with
  | nil => rfl
  | cons a l ih => rw [mapE, mapE, h a (by simp), ih fun b hb => h b (by simp [hb])]

/-- If a step fails and every failure is `e`, so is that of the loop. -/
theorem mapE_fails {α β ε : Type*} {f : α → Except ε β} {l : List α} {a : α} (ha : a ∈ l) {e : ε} (h : f a = .error e) (he : ∀ b ∈ l, ∀ e', f b = .error e' → e' = e) :
    mapE f l = .error e := by
  induction l with
  | nil => simp at ha
  | cons b l ih =>
    rw [mapE]
    cases hb : f b with
    | error e' => rw [he b (by simp) e' hb]
    | ok y =>
      have hal : a ∈ l := by
        rcases List.mem_cons.1 ha with rfl | h'
        · rw [h] at hb; cases hb
        · exact h'
      rw [ih hal fun c hc => he c (by simp [hc])]

theorem neighbors2DInt_natural (part : ℕ → List ℝ → List ℕ) (sort : List ℝ → List ℕ) (n : ℕ) (dm : List (List ℝ)) :
    neighbors2DInt part sort (n : ℤ) dm = neighbors2D part sort n dm := by
  rw [neighbors2DInt, neighbors2D]
  refine mapE_same fun row _ => ?_
  rw [partIndex_natural]
  split_ifs
  · rw [Except.map, sliceTo_natural]
  · rfl

theorem neighbors2DInt_negative {part : ℕ → List ℝ → List ℕ} (hp : PartContract part) (sort : List ℝ → List ℕ) {n : ℤ} (hn : n < 0) {c : ℕ} (hc : -(c : ℤ) ≤ n)
    {dm : List (List ℝ)} (h : ∀ row ∈ dm, row.length = c) : neighbors2DInt part sort n dm = neighbors2D part sort (c + n).toNat dm := by
  rw [neighbors2DInt, neighbors2D]
  refine mapE_same fun row hrow => ?_
  have hl := h row hrow
  rw [hl, partIndex_negative hn hc, if_pos (by omega), Except.map, sliceTo_negative hn]
  have : (part (c + n).toNat row).length = c := by
    rw [← hl]
    simpa using (hp (row.length + n).toNat row (by omega)).1.length_eq
  rw [this]

theorem sortNear_length {sort : List ℝ → List ℕ} (hs : SortContract sort) (row : List ℝ) (inds : List ℕ) :
    (sortNear sort row inds).inds.length = inds.length ∧ (sortNear sort row inds).dists.length = inds.length := by
  obtain ⟨h1, h2, -⟩ := sortNear_spec hs row inds
  exact ⟨h1.length_eq, by rw [h2, List.length_map, h1.length_eq]⟩

theorem neighbors2D_lengths {part : ℕ → List ℝ → List ℕ} (hp : PartContract part) {sort : List ℝ → List ℕ} (hs : SortContract sort) {n : ℕ} {dm : List (List ℝ)}
    {nn : List (NearRow ℝ)} (h : neighbors2D part sort n dm = .ok nn) : ∀ r ∈ nn, r.inds.length = n := by
  rw [neighbors2D, mapE_ok_iff] at h
  intro r hr
  induction h with
  | nil => simp at hr
  | cons ha _ ih =>
    rcases List.mem_cons.1 hr with rfl | hr
    · split_ifs at ha with hlt
      cases ha
      rw [(sortNear_length hs _ _).1, (part_take hp hlt).1]
    · exact ih hr

theorem columnCount_same {n : ℕ} {m : ℤ} {nn : List (NearRow ℝ)} (h : ∀ r ∈ nn, r.inds.length = n) (hne : nn = [] → m = n) : columnCount m nn = n := by
  cases nn with
  | nil => simp [columnCount, hne rfl]
  | cons r nn => simpa [columnCount] using h r (by simp)

/-- What is left of a row of `n + 1` different positions without one of them, cut to `n`. -/
theorem drop_self_length {T : List ℕ} {n : ℕ} (hT : T.length = n + 1) (hnd : T.Nodup) (i : ℕ) : ((T.filter fun j => j != i).take n).length = n := by
  have : n ≤ (T.filter fun j => j != i).length := by
    rw [← List.Nodup.erase_eq_filter hnd i]
    have := List.length_erase (a := i) (l := T)
    split_ifs at this <;> omega
  rw [List.length_take]
  omega

theorem indsRow_natural (part : ℕ → List ℝ → List ℕ) (n : ℕ) (r : List ℝ × ℕ) :
    indsRow part (n : ℤ) r = if n + 1 < r.1.length then .ok ((((part (n + 1) r.1).take (n + 1)).filter fun j => j != r.2).take n) else .error .value := by
  have h := partIndex_natural r.1.length (n + 1)
  push_cast at h
  rw [indsRow, h]
  split_ifs
  · have h2 := sliceTo_natural (n + 1) (part (n + 1) r.1)
    push_cast at h2
    rw [Except.map, h2, sliceTo_natural]
  · rfl

theorem neighbors1DInt_natural {part : ℕ → List ℝ → List ℕ} (hp : PartContract part) (sort : List ℝ → List ℕ) (n : ℕ) (v : List ℝ) :
    neighbors1DInt part sort (n : ℤ) v = neighbors1D part sort n v := by
  rw [neighbors1DInt, neighbors1D]
  cases hsq : squareform v with
  | error e => rfl
  | ok dm =>
    simp only
    by_cases hall : ∀ row ∈ dm, n + 1 < row.length
    · have hz : ∀ r ∈ dm.zipIdx, n + 1 < r.1.length := fun r hr => hall _ (List.fst_mem_of_mem_zipIdx hr)
      rw [mapE_ok (g := fun r : List ℝ × ℕ => (((part (n + 1) r.1).take (n + 1)).filter fun j => j != r.2).take n)
          fun r hr => by rw [indsRow_natural, if_pos (hz r hr)],
        mapE_ok (g := fun r : List ℝ × ℕ => sortNear sort r.1 ((((part (n + 1) r.1).take (n + 1)).filter fun j => j != r.2).take n))
          fun r hr => by rw [if_pos (hz r hr)]]
      have hlen : ∀ r ∈ dm.zipIdx, ((((part (n + 1) r.1).take (n + 1)).filter fun j => j != r.2).take n).length = n := fun r hr => by
        obtain ⟨a1, a2, -⟩ := part_take hp (hz r hr)
        exact drop_self_length a1 a2 r.2
      simp only
      rw [if_pos]
      · congr 1
        refine List.ext_getElem (by simp) fun i h1 h2 => ?_
        simp
      · rw [List.all_eq_true]
        intro l hl
        obtain ⟨r, hr, rfl⟩ := List.mem_map.1 hl
        rw [beq_iff_eq, hlen r hr]
        cases hdm : dm.zipIdx with
        | nil => rw [hdm] at hr; simp at hr
        | cons q qs =>
          have := hlen q (by simp [hdm])
          simp only [List.map_cons, List.head?_cons, Option.getD_some]
          exact this.symm
    · push Not at hall
      obtain ⟨row, hrow, hlt⟩ := hall
      obtain ⟨i, hi, rfl⟩ := List.mem_iff_getElem.1 hrow
      have hm : (dm[i], i) ∈ dm.zipIdx := by
        rw [List.mem_zipIdx_iff_getElem?]
        simp [hi]
      rw [mapE_fails hm (e := Err.value) (by rw [indsRow_natural, if_neg (Nat.not_lt.2 hlt)]) (fun b _ e' he' => by
          rw [indsRow_natural] at he'
          split_ifs at he'
          cases he'; rfl),
        mapE_fails hm (e := Err.value) (by rw [if_neg (Nat.not_lt.2 hlt)]) (fun b _ e' he' => by
          split_ifs at he'
          cases he'; rfl)]

theorem neighbors1D_lengths {part : ℕ → List ℝ → List ℕ} (hp : PartContract part) {sort : List ℝ → List ℕ} (hs : SortContract sort) {n : ℕ} {v : List ℝ}
    {nn : List (NearRow ℝ)} (h : neighbors1D part sort n v = .ok nn) : ∀ r ∈ nn, r.inds.length = n := by
  rw [neighbors1D] at h
  cases hsq : squareform v with
  | error e => rw [hsq] at h; cases h
  | ok dm =>
    rw [hsq] at h
    simp only at h
    rw [mapE_ok_iff] at h
    intro r hr
    generalize dm.zipIdx = z at h
    induction h with
    | nil => simp at hr
    | cons ha _ ih =>
      rcases List.mem_cons.1 hr with rfl | hr
      · split_ifs at ha with hlt
        cases ha
        obtain ⟨a1, a2, -⟩ := part_take hp hlt
        rw [(sortNear_length hs _ _).1, drop_self_length a1 a2]
      · exact ih hr

theorem kneighborsInt_natural (knn : List (List ℝ) → List ℝ → ℕ → NearRow ℝ) (n : ℕ) (xb xa : List (List ℝ)) :
    kneighborsInt knn (n : ℤ) xb xa = kneighbors knn n xb xa := by
  rw [kneighborsInt, kneighbors]
  by_cases h : n = 0 ∨ xb.length < n
  · rw [if_pos h, if_pos (by omega)]
  · rw [if_neg h, if_neg (by omega), Int.toNat_natCast]

theorem nearestItemsInt_natural (knn : List (List ℝ) → List ℝ → ℕ → NearRow ℝ) (n : ℕ) (xa : List (List ℝ)) (xb : Option (List (List ℝ))) :
    nearestItemsInt knn (n : ℤ) xa xb = nearestItems knn n xa xb := by
  cases xb with
  | some xb => rw [nearestItemsInt, nearestItems, kneighborsInt_natural]
  | none =>
    have h := kneighborsInt_natural knn (n + 1) xa xa
    push_cast at h
    rw [nearestItemsInt, nearestItems, h]
    cases kneighbors knn (n + 1) xa xa <;> rfl

/-- A table can be made of rows of the same length whose positions are positions of names. -/
theorem nearestFrame_shape {n : ℕ} {rows : List (NearRow ℝ)} {names names_ : List String} (hl : rows.length = names.length)
    (h : ∀ r ∈ rows, r.inds.length = n ∧ r.dists.length = n ∧ ∀ j ∈ r.inds, j < names_.length) :
    ∃ cols, nearestFrame n rows names names_ = .ok (.nearest names cols) ∧ cols.length = n := by
  have key : ∀ c ∈ List.range n, nearestColumn rows names_ c = .ok (rows.map (fun r => names_.getD (r.inds.getD c 0) ""), rows.map (fun r => r.dists.getD c 0)) := by
    intro c hc
    rw [List.mem_range] at hc
    rw [nearestColumn, mapE_ok (g := fun r : NearRow ℝ => names_.getD (r.inds.getD c 0) "") fun r hr => ?_]
    · rw [mapE_ok (g := fun r : NearRow ℝ => r.dists.getD c 0) fun r hr => ?_]
      · rfl
      · have := (h r hr).2.1
        rw [distAt, List.getElem?_eq_getElem (by omega), List.getD_eq_getElem _ _ (by omega)]
    · obtain ⟨h1, -, h3⟩ := h r hr
      have hj := h3 (r.inds[c]'(by omega)) (List.getElem_mem _)
      rw [nameAt, List.getElem?_eq_getElem (by omega), List.getD_eq_getElem r.inds _ (by omega)]
      simp only [Option.bind_some]
      rw [List.getElem?_eq_getElem hj, List.getD_eq_getElem _ _ hj]
  refine ⟨(List.range n).map fun c => (rows.map (fun r => names_.getD (r.inds.getD c 0) ""), rows.map (fun r => r.dists.getD c 0)), ?_, by simp⟩
  rw [nearestFrame, mapE_ok key]
  simp only
  rw [if_pos hl]

/-- The rows for a negative `n`, if nothing is left of them or the crystal itself is the only one at distance 0. -/
theorem indsRow_negative {part : ℕ → List ℝ → List ℕ} (hp : PartContract part) {n : ℤ} (hn : n < 0) {row : List ℝ} (hm : -(row.length : ℤ) - 1 ≤ n) {i : ℕ} (hi : i < row.length)
    (h0 : row.getD i 0 = 0) (hpos : n = -1 ∨ row.length + 2 * n + 1 ≤ 0 ∨ ∀ j < row.length, j ≠ i → 0 < row.getD j 0) :
    ∃ l, indsRow part n (row, i) = .ok l ∧ l.length = (if n = -1 then 0 else (row.length + 2 * n).toNat) ∧ ∀ j ∈ l, j < row.length := by
  by_cases h1 : n = -1
  · subst h1
    have e : partIndex row.length (-1 + 1) = .ok 0 := by
      have := partIndex_natural row.length 0
      rw [if_pos (by omega)] at this
      exact this
    refine ⟨[], ?_, by simp, by simp⟩
    rw [indsRow, e, Except.map]
    have := sliceTo_natural 0 (part 0 row)
    simp only [Nat.cast_zero, List.take_zero] at this
    rw [show (-1 : ℤ) + 1 = 0 from rfl, this]
    simp [sliceTo]
  · have hn1 : n + 1 < 0 := by omega
    have hlt : (row.length + (n + 1)).toNat < row.length := by omega
    obtain ⟨a1, a2, a3, a4⟩ := part_take hp hlt
    have hlen : (part (row.length + (n + 1)).toNat row).length = row.length := by simpa using (hp _ row hlt).1.length_eq
    refine ⟨sliceTo n (((part (row.length + (n + 1)).toNat row).take (row.length + (n + 1)).toNat).filter fun j => j != i), ?_, ?_, ?_⟩
    · rw [indsRow, partIndex_negative hn1 (by simp only; omega), Except.map, sliceTo_negative hn1, hlen]
    · rw [if_neg h1, sliceTo_negative hn, List.length_take]
      by_cases hp0 : (row.length + (n + 1)).toNat = 0
      · rw [hp0] at a1 ⊢
        simp only [List.take_zero, List.filter_nil, List.length_nil]
        omega
      by_cases hs : row.length + 2 * n + 1 ≤ 0
      · have := List.length_filter_le (fun j => j != i) ((part (row.length + (n + 1)).toNat row).take (row.length + (n + 1)).toNat)
        omega
      · have hmem : i ∈ (part (row.length + (n + 1)).toNat row).take (row.length + (n + 1)).toNat := by
          by_contra hni
          obtain ⟨x, hx⟩ := List.exists_mem_of_length_pos (l := (part (row.length + (n + 1)).toNat row).take (row.length + (n + 1)).toNat) (by omega)
          have := a4 i hi hni x hx
          rw [h0] at this
          have hpos' := (hpos.resolve_left h1).resolve_left hs
          exact absurd (hpos' x (a3 x hx) fun h => hni (h ▸ hx)) (not_lt.2 this)
        have := List.length_erase_of_mem hmem
        rw [List.Nodup.erase_eq_filter a2 i, a1] at this
        rw [this]
        omega
    · intro j hj
      rw [sliceTo] at hj
      exact a3 j (List.mem_of_mem_filter (List.take_subset _ _ hj))

theorem neighbors1DInt_negative {part : ℕ → List ℝ → List ℕ} {sort : List ℝ → List ℕ} (hp : PartContract part) (hs : SortContract sort) {n : ℤ} (hn : n < 0) {m : ℕ} (hm0 : 0 < m)
    (hm : -(m : ℤ) - 1 ≤ n) {d : ℕ → ℕ → ℝ} {v : List ℝ} (hv : IsCondensed m d v) (hd0 : n = -1 ∨ m + 2 * n + 1 ≤ 0 ∨ ∀ i j, i < j → j < m → 0 < d i j) :
    ∃ nn, neighbors1DInt part sort n v = .ok nn ∧ nn.length = m ∧ ∀ r ∈ nn, r.inds.length = (if n = -1 then 0 else (m + 2 * n).toNat) ∧
      r.dists.length = (if n = -1 then 0 else (m + 2 * n).toNat) ∧ ∀ j ∈ r.inds, j < m := by
  obtain ⟨M, hM, h1, h2, h3⟩ := squareform_condensed hm0 hv
  have row : ∀ r ∈ M.zipIdx, ∃ l, indsRow part n r = .ok l ∧ l.length = (if n = -1 then 0 else (m + 2 * n).toNat) ∧ ∀ j ∈ l, j < m := by
    rintro ⟨r, i⟩ hr
    rw [List.mem_zipIdx_iff_getElem?] at hr
    simp only at hr
    obtain ⟨hi, rfl⟩ := List.getElem?_eq_some_iff.1 hr
    have hl := h2 _ (List.getElem_mem hi)
    have hd : ∀ j < m, M[i].getD j 0 = if i = j then 0 else d (min i j) (max i j) := by
      intro j hj
      have := h3 i j (by omega) hj
      rw [List.getD_eq_getElem (n := i) _ _ hi] at this
      exact this
    obtain ⟨l, e1, e2, e3⟩ := indsRow_negative hp hn (row := M[i]) (by omega) (i := i) (by omega) (by rw [hd i (by omega), if_pos rfl])
      (hd0.imp_right fun h => h.imp (fun h => by omega) fun h j hj hji => by
        rw [hd j (by omega), if_neg (Ne.symm hji)]
        exact h _ _ (by omega) (by omega))
    rw [hl] at e2 e3
    exact ⟨l, e1, e2, e3⟩
  choose! f f1 f2 f3 using row
  refine ⟨List.zipWith (sortNear sort) M (M.zipIdx.map f), ?_, by simp [h1], ?_⟩
  · rw [neighbors1DInt, hM]
    simp only
    rw [mapE_ok f1]
    simp only
    rw [if_pos]
    rw [List.all_eq_true]
    intro l hl
    obtain ⟨r, hr, rfl⟩ := List.mem_map.1 hl
    rw [beq_iff_eq, f2 r hr]
    cases hz : M.zipIdx with
    | nil => rw [hz] at hr; simp at hr
    | cons q qs =>
      simp only [List.map_cons, List.head?_cons, Option.getD_some]
      exact (f2 q (by simp [hz])).symm
  · intro r hr
    obtain ⟨i, hi, rfl⟩ := List.mem_iff_getElem.1 hr
    have hiM : i < M.length := by simpa using hi
    have hz : (M[i], i) ∈ M.zipIdx := by
      rw [List.mem_zipIdx_iff_getElem?]
      simp [hiM]
    have e : (List.zipWith (sortNear sort) M (M.zipIdx.map f))[i] = sortNear sort M[i] (f (M[i], i)) := by simp
    rw [e]
    obtain ⟨b1, b2⟩ := sortNear_length hs M[i] (f (M[i], i))
    exact ⟨b1.trans (f2 _ hz), b2.trans (f2 _ hz), fun j hj => f3 _ hz j ((sortNear_spec hs M[i] (f (M[i], i))).1.mem_iff.1 hj)⟩

theorem neighbors1DInt_error {part : ℕ → List ℝ → List ℕ} {sort : List ℝ → List ℕ} {n : ℤ} {m : ℕ} (hm0 : 0 < m)
    (hm : n < -(m : ℤ) - 1) {d : ℕ → ℕ → ℝ} {v : List ℝ} (hv : IsCondensed m d v) : neighbors1DInt part sort n v = .error .value := by
  obtain ⟨M, hM, h1, h2, -⟩ := squareform_condensed hm0 hv
  rw [neighbors1DInt, hM]
  cases M with
  | nil => simp at h1; omega
  | cons r M =>
    simp only
    rw [List.zipIdx_cons, mapE, indsRow, partIndex_error (by rw [h2 r (by simp)]; omega)]
    rfl

theorem neighbors2DInt_error {part : ℕ → List ℝ → List ℕ} {sort : List ℝ → List ℕ} {n : ℤ} {c : ℕ} (hc : n < -(c : ℤ)) {dm : List (List ℝ)} (hne : dm ≠ [])
    (h : ∀ row ∈ dm, row.length = c) : neighbors2DInt part sort n dm = .error .value := by
  cases dm with
  | nil => exact absurd rfl hne
  | cons r M =>
    rw [neighbors2DInt, mapE, partIndex_error (by rw [h r (by simp)]; omega)]
    rfl

/-- `compareNearest` once the crystals are read. -/
theorem compareNearest_read {env : Env} {inp : Input} {args : CompareArgs} {n : ℤ} {kwargs : Kwargs} {fuel : ℕ} {cs : List Crystal}
    (hg : getCrystals env args.csdRefcodes (routeKwargs args.verbose kwargs) inp = .ok cs) :
    (upper args.by_ = "AMD" → compareNearest env inp none args n kwargs fuel = compareAmdInt env (routeKwargs args.verbose kwargs) cs none args.k n fuel ∧
      ∀ inp' cs', getCrystals env args.csdRefcodes (routeKwargs args.verbose kwargs) inp' = .ok cs' → compareNearest env inp (some inp') args n kwargs fuel =
        compareAmdInt env (routeKwargs args.verbose kwargs) cs (some cs') args.k n fuel) ∧
    (upper args.by_ = "PDD" → compareNearest env inp none args n kwargs fuel = comparePddInt env (routeKwargs args.verbose kwargs) cs none args.k n fuel ∧
      ∀ inp' cs', getCrystals env args.csdRefcodes (routeKwargs args.verbose kwargs) inp' = .ok cs' → compareNearest env inp (some inp') args n kwargs fuel =
        comparePddInt env (routeKwargs args.verbose kwargs) cs (some cs') args.k n fuel) := by
  refine ⟨fun hby => ⟨?_, fun inp' cs' hg' => ?_⟩, fun hby => ⟨?_, fun inp' cs' hg' => ?_⟩⟩
  · simp [compareNearest, hby, hg, bind, Except.bind]
  · simp [compareNearest, hby, hg, hg', bind, Except.bind, Except.map]
  · simp [compareNearest, hby, hg, bind, Except.bind]
  · simp [compareNearest, hby, hg, hg', bind, Except.bind, Except.map]

end Amd
