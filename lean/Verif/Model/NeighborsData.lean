import Verif.Model.NearestNeighbors

/-!
# `nearest_neighbors_data`

Model of `nearest_neighbors_data` and `_merge_sorted_arrays_inds` in `/repo/src/amd/_nearest_neighbors.py`. The parallel
arrays `sqdists`, `inds` are held as one array of pairs.
-/

namespace Amd

variable {K : Type*} [CommRing K] [LinearOrder K] {D : ℕ}

/-- What numpy guarantees of `np.argpartition(row, k - 1)[:k]` followed by `np.argsort` and `take_along_axis`
(`_nearest_neighbors.py:170-174, 202-206`): `arg k row` lists the positions of the `k` smallest entries (all if there are
at most `k`) in increasing order of the entries. Which of several equal entries come first is not specified. -/
def ArgContract (arg : ℕ → List K → List ℕ) : Prop :=
  ∀ k row, (arg k row).Nodup ∧ (∀ i ∈ arg k row, i < row.length) ∧ (arg k row).length = min k row.length ∧
    ((arg k row).map fun i => row.getD i 0).Pairwise (· ≤ ·) ∧
    ∀ i ∈ arg k row, ∀ j < row.length, j ∉ arg k row → row.getD i 0 ≤ row.getD j 0

/-- Values and indices (shifted by `cloud_ind_offset`) selected from one row, `_nearest_neighbors.py:170-174,
202-209`. -/
def selectRow (arg : ℕ → List K → List ℕ) (k off : ℕ) (row : List K) : List (K × ℕ) :=
  (arg k row).map fun i => (row.getD i 0, i + off)

/-- The filling loop of `_merge_sorted_arrays_inds` on one row, `_nearest_neighbors.py:518-536`; compare `mergeFill`. -/
def mergeFillInds (a b : List (K × ℕ)) : ℕ → ℕ → ℕ → Option (List (K × ℕ))
  | 0, _, _ => some []
  | r + 1, dp, dp_ =>
    match a[dp]?, b[dp_]? with
    | some u, some v =>
      if u.1 ≤ v.1 then (mergeFillInds a b r (dp + 1) dp_).map (u :: ·)
      else (mergeFillInds a b r dp (dp_ + 1)).map (v :: ·)
    | some u, none => (mergeFillInds a b r (dp + 1) dp_).map (u :: ·)
    | none, _ => none

/-- `_merge_sorted_arrays_inds` on one row, `_nearest_neighbors.py:499-536`. -/
def mergeRowInds (a b : List (K × ℕ)) : Except Err (List (K × ℕ)) :=
  match b[0]? with
  | none => .error .bounds
  | some v =>
    match backScan (a.map (·.1)) v.1 a.length with
    | none => .error .bounds
    | some j =>
      match mergeFillInds a b (a.length - j) j 0 with
      | none => .error .bounds
      | some l => .ok (a.take j ++ l)

/-- `_merge_sorted_arrays_inds`, `_nearest_neighbors.py:483-538`. -/
def mergeRowsInds : List (List (K × ℕ)) → List (List (K × ℕ)) → Except Err (List (List (K × ℕ)))
  | [], _ => .ok []
  | _ :: _, [] => .error .bounds
  | r :: rs, r' :: rs' => do
    let a ← mergeRowInds r r'
    let b ← mergeRowsInds rs rs'
    .ok (a :: b)

/-- The `while True` loop of `nearest_neighbors_data`, `_nearest_neighbors.py:184-219`: state `cloud_ind_offset`,
`full_cloud` and the rows. Unlike in `nearest_neighbors`, columns which are not close are merged too, and the last cloud is
appended before the loop is left. -/
def nndLoop (near : K → K → K → Bool) (arg : ℕ → List K → List ℕ) (motif : List (Pt D K)) (cell : Fin D → Pt D K)
    (x : List (Pt D K)) (k : ℕ) (diamSq : K) : ℕ → ℕ → ℕ → List (Pt D K) → List (List (K × ℕ)) →
    Except Err (List (List (K × ℕ)) × List (Pt D K))
  | 0, _, _, _, _ => .error .fuel
  | f + 1, d, off, full, rows => do
    let maxSqd ← maxLast (rows.map fun r => r.map (·.1))
    let lattice := ((intLayer D d).map (latVec cell)).filter fun l => near (sqNorm l) maxSqd diamSq
    if lattice.isEmpty then .ok (rows, full)
    else
      let cloud := latticeToCloud motif lattice
      let full' := full ++ cloud
      if (cloud.any fun c => x.any fun p => decide (sqDist p c < maxSqd)) then do
        let rows' ← mergeRowsInds rows ((cdistSq x cloud).map (selectRow arg k off))
        nndLoop near arg motif cell x k diamSq f (d + 1) (off + cloud.length) full' rows'
      else .ok (rows, full')

/-- `nearest_neighbors_data(motif, cell, x, k)` without the final square root, `_nearest_neighbors.py:113-221`. -/
def nearestNeighborsDataSq (near : K → K → K → Bool) (arg : ℕ → List K → List ℕ) (motif : List (Pt D K))
    (cell : Fin D → Pt D K) (x : List (Pt D K)) (k fuel : ℕ) :
    Except Err (List (List (K × ℕ)) × List (Pt D K)) := do
  let m := motif.length
  let layers := numLayers D m k
  let cloud := latticeToCloud motif ((layersUpTo D layers).map (latVec cell))
  let sqdists := cdistSq x cloud
  let diamSq ← maxE (sqdists.flatMap (·.take m))
  nndLoop near arg motif cell x k diamSq fuel layers cloud.length cloud (sqdists.map (selectRow arg k 0))

/-- What `nearest_neighbors_data` returns. -/
structure NeighborData (D : ℕ) where
  dists : List (List ℝ)
  cloud : List (Pt D ℝ)
  inds : List (List ℕ)

/-- `nearest_neighbors_data(motif, cell, x, k)`, `_nearest_neighbors.py:113-221`. -/
noncomputable def nearestNeighborsData (arg : ℕ → List ℝ → List ℕ) (motif : List (Pt D ℝ)) (cell : Fin D → Pt D ℝ)
    (x : List (Pt D ℝ)) (k fuel : ℕ) : Except Err (NeighborData D) :=
  (nearestNeighborsDataSq nearReal arg motif cell x k fuel).map fun r =>
    { dists := r.1.map fun row => row.map fun v => Real.sqrt v.1
      cloud := r.2
      inds := r.1.map fun row => row.map (·.2) }

end Amd
