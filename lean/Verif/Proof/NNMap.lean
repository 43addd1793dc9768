import Verif.Proof.NNLoop

/-! Helper lemmas: `nearest_neighbors` commutes with maps that change squared distances by a strictly
increasing function (translations, orthogonal maps, scalings, the inclusion of integers in reals). -/

set_option linter.unusedSectionVars false

namespace Amd

variable {K K' : Type*} [CommRing K] [LinearOrder K] [CommRing K'] [LinearOrder K'] {D : ℕ}

theorem insertionSort_map (φ : K → K') (hφ : StrictMono φ) (l : List K) :
    (l.map φ).insertionSort (· ≤ ·) = (l.insertionSort (· ≤ ·)).map φ := by
  apply eq_of_perm_sorted
  · exact (List.perm_insertionSort _ _).trans ((List.perm_insertionSort _ _).map φ).symm
  · exact sorted_insertionSort' _
  · rw [List.pairwise_map]
    exact (sorted_insertionSort' l).imp fun h => hφ.monotone h

theorem kSmallest_map (φ : K → K') (hφ : StrictMono φ) (k : ℕ) (l : List K) :
    kSmallest k (l.map φ) = (kSmallest k l).map φ := by
  unfold kSmallest
  rw [insertionSort_map φ hφ, List.map_take]

theorem foldl_max_map (φ : K → K') (hφ : StrictMono φ) : ∀ (l : List K) (a : K),
    (l.map φ).foldl max (φ a) = φ (l.foldl max a)
  | [], _ => rfl
  | b :: l, a => by
    rw [List.map_cons, List.foldl_cons, List.foldl_cons, ← hφ.monotone.map_max, foldl_max_map φ hφ l]

theorem maxE_map (φ : K → K') (hφ : StrictMono φ) (l : List K) :
    maxE (l.map φ) = (maxE l).map φ := by
  cases l with
  | nil => rfl
  | cons a l => simp only [List.map_cons, maxE, foldl_max_map φ hφ]; rfl

theorem backScan_map (φ : K → K') (hφ : StrictMono φ) (l : List K) (a : K) : ∀ j,
    backScan (l.map φ) (φ a) j = backScan l a j
  | 0 => rfl
  | j + 1 => by
    unfold backScan
    rw [List.getElem?_map]
    cases l[j]? with
    | none => rfl
    | some v =>
      simp only [Option.map_some, hφ.le_iff_le]
      rw [backScan_map φ hφ l a j]

theorem mergeFill_map (φ : K → K') (hφ : StrictMono φ) (l l' : List K) : ∀ r dp dp_,
    mergeFill (l.map φ) (l'.map φ) r dp dp_ = (mergeFill l l' r dp dp_).map (·.map φ)
  | 0, _, _ => rfl
  | r + 1, dp, dp_ => by
    unfold mergeFill
    rw [List.getElem?_map, List.getElem?_map]
    cases l[dp]? with
    | none => rfl
    | some v =>
      cases l'[dp_]? with
      | none =>
        simp only [Option.map_some, Option.map_none]
        rw [mergeFill_map φ hφ l l' r, Option.map_map, Option.map_map]
        rfl
      | some w =>
        simp only [Option.map_some, hφ.le_iff_le]
        split_ifs
        · rw [mergeFill_map φ hφ l l' r, Option.map_map, Option.map_map]; rfl
        · rw [mergeFill_map φ hφ l l' r, Option.map_map, Option.map_map]; rfl

theorem mergeRow_map (φ : K → K') (hφ : StrictMono φ) (l l' : List K) :
    mergeRow (l.map φ) (l'.map φ) = (mergeRow l l').map (·.map φ) := by
  unfold mergeRow
  rw [List.getElem?_map]
  cases l'[0]? with
  | none => rfl
  | some w =>
    simp only [Option.map_some]
    rw [backScan_map φ hφ, List.length_map]
    cases backScan l w l.length with
    | none => rfl
    | some j =>
      simp only
      rw [mergeFill_map φ hφ]
      cases mergeFill l l' (l.length - j) j 0 with
      | none => rfl
      | some r => simp [Except.map]

theorem mergeRows_map_map (φ : K → K') (hφ : StrictMono φ) : ∀ (l l' : List (List K)),
    mergeRows (l.map (·.map φ)) (l'.map (·.map φ)) = (mergeRows l l').map (·.map (·.map φ))
  | [], _ => rfl
  | _ :: _, [] => rfl
  | a :: l, a' :: l' => by
    simp only [List.map_cons, mergeRows]
    rw [mergeRow_map φ hφ, mergeRows_map_map φ hφ l l']
    cases mergeRow a a' with
    | error e => rfl
    | ok r =>
      cases mergeRows l l' with
      | error e => rfl
      | ok r => rfl

theorem maxLast_map (φ : K → K') (hφ : StrictMono φ) (rows : List (List K)) :
    maxLast (rows.map (·.map φ)) = (maxLast rows).map φ := by
  unfold maxLast
  rw [← maxE_map φ hφ, List.map_flatMap, List.flatMap_map]
  congr 2
  funext r
  rw [List.getLast?_map]
  cases r.getLast? <;> rfl

/-- How two descriptions of a periodic set are related by a map `T` of points with linear part `L`. -/
structure NNSim (φ : K → K') (near : K → K → K → Bool) (near' : K' → K' → K' → Bool)
    (cell : Fin D → Pt D K) (cell' : Fin D → Pt D K') (T L : Pt D K → Pt D K') : Prop where
  mono : StrictMono φ
  lat : ∀ n, latVec cell' n = L (latVec cell n)
  add : ∀ p n, T (p + latVec cell n) = T p + L (latVec cell n)
  dist : ∀ p q, sqDist (T p) (T q) = φ (sqDist p q)
  norm : ∀ n, sqNorm (L (latVec cell n)) = φ (sqNorm (latVec cell n))
  near : ∀ l a b, near' (φ l) (φ a) (φ b) = near l a b

variable {φ : K → K'} {near : K → K → K → Bool} {near' : K' → K' → K' → Bool}
  {cell : Fin D → Pt D K} {cell' : Fin D → Pt D K'} {T L : Pt D K → Pt D K'}

theorem NNSim.cloud (h : NNSim φ near near' cell cell' T L) (motif : List (Pt D K))
    (ns : List (Fin D → ℤ)) :
    latticeToCloud (motif.map T) (ns.map (latVec cell')) =
      (latticeToCloud motif (ns.map (latVec cell))).map T := by
  unfold latticeToCloud
  rw [List.flatMap_map, List.flatMap_map, List.map_flatMap]
  congr 1
  funext n
  rw [List.map_map, List.map_map]
  apply List.map_congr_left
  intro p _
  simp only [Function.comp]
  rw [h.lat, h.add]

theorem NNSim.cdistSq (h : NNSim φ near near' cell cell' T L) (x c : List (Pt D K)) :
    cdistSq (x.map T) (c.map T) = (cdistSq x c).map (·.map φ) := by
  unfold Amd.cdistSq
  simp only [List.map_map]
  apply List.map_congr_left
  intro p _
  simp only [Function.comp, List.map_map]
  apply List.map_congr_left
  intro q _
  exact h.dist p q

theorem NNSim.filter_lat (h : NNSim φ near near' cell cell' T L) (ns : List (Fin D → ℤ)) (a b : K) :
    ((ns.map (latVec cell')).filter fun l => near' (sqNorm l) (φ a) (φ b)) =
      (ns.filter fun n => near (sqNorm (latVec cell n)) a b).map (latVec cell') := by
  rw [List.filter_map]
  congr 1
  apply List.filter_congr
  intro n _
  simp only [Function.comp]
  rw [h.lat, h.norm, h.near]

theorem filter_lat_self (ns : List (Fin D → ℤ)) (a b : K) :
    ((ns.map (latVec cell)).filter fun l => near (sqNorm l) a b) =
      (ns.filter fun n => near (sqNorm (latVec cell n)) a b).map (latVec cell) := by
  rw [List.filter_map]
  rfl

theorem NNSim.any (h : NNSim φ near near' cell cell' T L) (x : List (Pt D K)) (c : Pt D K) (a : K) :
    ((x.map T).any fun p => decide (sqDist p (T c) < φ a)) = x.any fun p => decide (sqDist p c < a) := by
  rw [List.any_map]
  congr 1
  funext p
  simp only [Function.comp, h.dist, h.mono.lt_iff_lt]

theorem NNSim.loop (h : NNSim φ near near' cell cell' T L) (motif x : List (Pt D K)) (k : ℕ) (diamSq : K) :
    ∀ (f d : ℕ) (rows : List (List K)),
    nnLoop near' (motif.map T) cell' (x.map T) k (φ diamSq) f d (rows.map (·.map φ)) =
      (nnLoop near motif cell x k diamSq f d rows).map (·.map (·.map φ))
  | 0, _, _ => rfl
  | f + 1, d, rows => by
    unfold nnLoop
    rw [maxLast_map φ h.mono]
    cases maxLast rows with
    | error e => rfl
    | ok a =>
      simp only [bind, Except.bind, Except.map]
      rw [h.filter_lat, filter_lat_self, List.isEmpty_map, List.isEmpty_map]
      split_ifs with h1 h2 h3 h3
      · rfl
      · rfl
      · exfalso
        apply h3
        rw [h.cloud, List.filter_map, List.isEmpty_map] at h2
        rw [← h2]
        congr 1
        apply List.filter_congr
        intro c _
        exact (h.any x c a).symm
      · exfalso
        apply h2
        rw [h.cloud, List.filter_map, List.isEmpty_map]
        rw [← h3]
        congr 1
        apply List.filter_congr
        intro c _
        exact h.any x c a
      · have e : (List.filter (fun c => (x.map T).any fun p => decide (sqDist p c < φ a))
              (latticeToCloud (motif.map T)
                ((List.filter (fun n => near (sqNorm (latVec cell n)) a diamSq) (intLayer D d)).map (latVec cell')))) =
            (List.filter (fun c => x.any fun p => decide (sqDist p c < a))
              (latticeToCloud motif
                ((List.filter (fun n => near (sqNorm (latVec cell n)) a diamSq) (intLayer D d)).map (latVec cell)))).map T := by
          rw [h.cloud, List.filter_map]
          congr 1
          apply List.filter_congr
          intro c _
          exact h.any x c a
        rw [e, h.cdistSq, List.map_map]
        have e2 : (Amd.cdistSq x
              (List.filter (fun c => x.any fun p => decide (sqDist p c < a))
                (latticeToCloud motif
                  ((List.filter (fun n => near (sqNorm (latVec cell n)) a diamSq) (intLayer D d)).map
                    (latVec cell))))).map (kSmallest k ∘ fun r => r.map φ) =
            ((Amd.cdistSq x
              (List.filter (fun c => x.any fun p => decide (sqDist p c < a))
                (latticeToCloud motif
                  ((List.filter (fun n => near (sqNorm (latVec cell n)) a diamSq) (intLayer D d)).map
                    (latVec cell))))).map (kSmallest k)).map (·.map φ) := by
          rw [List.map_map]
          apply List.map_congr_left
          intro r _
          exact kSmallest_map φ h.mono k r
        rw [e2, mergeRows_map_map φ h.mono]
        cases mergeRows rows (List.map (kSmallest k) (Amd.cdistSq x
              (List.filter (fun c => x.any fun p => decide (sqDist p c < a))
                (latticeToCloud motif
                  ((List.filter (fun n => near (sqNorm (latVec cell n)) a diamSq) (intLayer D d)).map
                    (latVec cell)))))) with
        | error e => rfl
        | ok rows' =>
          simp only [Except.map]
          exact h.loop motif x k diamSq f (d + 1) rows'

/-- The squared-distance part of `nearest_neighbors` commutes with such a map. -/
theorem NNSim.nearestNeighborsSq (h : NNSim φ near near' cell cell' T L) (motif x : List (Pt D K))
    (k fuel : ℕ) :
    nearestNeighborsSq near' (motif.map T) cell' (x.map T) k fuel =
      (nearestNeighborsSq near motif cell x k fuel).map (·.map (·.map φ)) := by
  unfold Amd.nearestNeighborsSq
  simp only [List.length_map]
  rw [h.cloud, h.cdistSq]
  have e1 : ((Amd.cdistSq x (latticeToCloud motif ((layersUpTo D (numLayers D motif.length k)).map
      (latVec cell)))).map (·.map φ)).flatMap (·.take motif.length) =
      ((Amd.cdistSq x (latticeToCloud motif ((layersUpTo D (numLayers D motif.length k)).map
      (latVec cell)))).flatMap (·.take motif.length)).map φ := by
    rw [List.flatMap_map, List.map_flatMap]
    congr 1
    funext r
    rw [List.map_take]
  rw [e1, maxE_map φ h.mono]
  cases maxE ((Amd.cdistSq x (latticeToCloud motif ((layersUpTo D (numLayers D motif.length k)).map
      (latVec cell)))).flatMap (·.take motif.length)) with
  | error e => rfl
  | ok dsq =>
    have e2 := h.loop motif x k dsq fuel (numLayers D motif.length k)
      ((Amd.cdistSq x (latticeToCloud motif ((layersUpTo D (numLayers D motif.length k)).map
      (latVec cell)))).map (kSmallest k))
    simp only [bind, Except.bind]
    refine Eq.trans ?_ e2
    simp only [Except.map]
    congr 1
    rw [List.map_map, List.map_map]
    apply List.map_congr_left
    intro r _
    exact kSmallest_map φ h.mono k r

end Amd
