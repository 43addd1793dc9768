import Verif.Model.CompareFn

/-!
# `k` as any integer

The number of neighbours is a Python `int`. The other models take it as a natural number; here it may be negative, which no function checks.
-/

namespace Amd

variable {K : Type*} [CommRing K] [LinearOrder K] {D : ℕ}

/-- How many entries `row[:k]` has for a row of `n` entries: a negative `k` counts from the end. -/
def sliceLength (n : ℕ) (k : ℤ) : ℕ := if 0 ≤ k then min n k.toNat else n - (-k).toNat

/-- `partition(k - 1)`, `[:, :k]`, `sort()` on one row, `_nearest_neighbors.py:70-72, 100-103`. Contract of numpy: a negative position counts from the end, a
position outside of the row raises ValueError; entries before the position are not larger, those after it not smaller. So the slice has the smallest entries. -/
def partitionSlice (k : ℤ) (row : List K) : Except Err (List K) :=
  if -(row.length : ℤ) ≤ k - 1 ∧ k - 1 < row.length then .ok ((row.insertionSort (· ≤ ·)).take (sliceLength row.length k)) else .error .value

/-- `partitionSlice` on all rows; all rows have the same length. -/
def partitionRows (k : ℤ) : List (List K) → Except Err (List (List K))
  | [] => .ok []
  | r :: rs => do
    let a ← partitionSlice k r
    let b ← partitionRows k rs
    .ok (a :: b)

/-- `sqdists_` of one iteration, `_nearest_neighbors.py:98-103`. -/
def newRows (k : ℤ) (n : ℕ) (rows : List (List K)) : Except Err (List (List K)) :=
  if (n : ℤ) > k then partitionRows k rows else .ok (rows.map fun r => r.insertionSort (· ≤ ·))

/-- `sqdists[:, -1].max()`, `_nearest_neighbors.py:78, 107`: IndexError if there are no columns. -/
def maxLastE (rows : List (List K)) : Except Err K := if rows.any List.isEmpty then .error .bounds else maxLast rows

/-- The `while True` loop of `nearest_neighbors` as in `nnLoop`, for any integer `k`, `_nearest_neighbors.py:81-110`. -/
def nnLoopInt (near : K → K → K → Bool) (motif : List (Pt D K)) (cell : Fin D → Pt D K)
    (x : List (Pt D K)) (k : ℤ) (diamSq : K) : ℕ → ℕ → List (List K) → Except Err (List (List K))
  | 0, _, _ => .error .fuel
  | f + 1, d, rows => do
    let maxSqd ← maxLastE rows
    let lattice := ((intLayer D d).map (latVec cell)).filter fun l => near (sqNorm l) maxSqd diamSq
    if lattice.isEmpty then .ok rows
    else
      let cloud := latticeToCloud motif lattice
      let close := cloud.filter fun c => x.any fun p => decide (sqDist p c < maxSqd)
      if close.isEmpty then .ok rows
      else do
        let new ← newRows k close.length (cdistSq x close)
        let rows' ← mergeRows rows new
        nnLoopInt near motif cell x k diamSq f (d + 1) rows'

/-- `nearest_neighbors(motif, cell, x, k)` without the final square root, for any integer `k`, `_nearest_neighbors.py:61-110`. The first batch has as many layers for a
negative `k` as for 0, since `n_points * m <= k` (line 299) is false for both. -/
def nearestNeighborsSqInt (near : K → K → K → Bool) (motif : List (Pt D K)) (cell : Fin D → Pt D K)
    (x : List (Pt D K)) (k : ℤ) (fuel : ℕ) : Except Err (List (List K)) := do
  let m := motif.length
  let layers := numLayers D m k.toNat
  let cloud := latticeToCloud motif ((layersUpTo D layers).map (latVec cell))
  let sqdists := cdistSq x cloud
  let diamSq ← maxE (sqdists.flatMap (·.take m))
  let rows ← partitionRows k sqdists
  nnLoopInt near motif cell x k diamSq fuel layers rows

/-- `nearest_neighbors(motif, cell, x, k)` for any integer `k`, `_nearest_neighbors.py:26-110`. -/
noncomputable def nearestNeighborsInt (motif : List (Pt D ℝ)) (cell : Fin D → Pt D ℝ)
    (x : List (Pt D ℝ)) (k : ℤ) (fuel : ℕ) : Except Err (List (List ℝ)) :=
  (nearestNeighborsSqInt nearReal motif cell x k fuel).map fun rows => rows.map (·.map Real.sqrt)

/-- `AMD(pset, k)` for any integer `k`, `calculate.py:33-94`; `_average_columns_except_first` takes the number of columns from the array (line 453). -/
noncomputable def AMDInt (S : PeriodicSet D) (k : ℤ) (fuel : ℕ) : Except Err (List ℝ) := do
  let (x, mult) ← asymPoints S
  let dists ← nearestNeighborsInt S.motif S.cell x (k + 1) fuel
  averageColumnsExceptFirst ((dists.head?.getD []).length) dists (mult.map fun n : ℕ => (n : ℝ))

/-- `PDD(pset, k, lexsort, collapse, collapse_tol)` for any integer `k`, `calculate.py:97-214`; `np.empty(shape=(len(dists), k + 1))` (line 198) raises ValueError if `k + 1` is negative.
For `k = -1` the search raises before. -/
noncomputable def PDDInt (S : PeriodicSet D) (k : ℤ) (lexsort collapse : Bool) (tol : ℝ) (fuel : ℕ) : Except Err (List (PRow ℝ)) := do
  let (x, mult) ← asymPoints S
  let weights := mult.map fun n : ℕ => (n : ℝ) / (S.motif.length : ℝ)
  let dists ← nearestNeighborsInt S.motif S.cell x (k + 1) fuel
  if weights.length ≠ dists.length then .error .bounds
  else
    let rows := collapseRows ((dists.head?.getD []).length - 1) collapse tol (dists.map (·.drop 1)) weights
    if k + 1 < 0 then .error .value else .ok (lexsortRows lexsort rows)

/-- `compare` for any integer `k`, `compare.py:40-287`. For a negative `k` and `by='AMD'` the array for the AMDs cannot be made (`np.empty((len(names), k))`, line 244). For `by='PDD'` the
PDDs are computed (line 273); what would be done with them if there were any is not modelled, it is written as an empty matrix (`C101_compare` proves that this is not reached). -/
noncomputable def compareInt (env : Env) (crystals : Input) (crystals_ : Option Input) (args : CompareArgs) (k : ℤ) (kwargs : Kwargs) (fuel : ℕ) :
    Except CErr Frame :=
  if 0 ≤ k then compare env crystals crystals_ { args with k := k.toNat } kwargs fuel
  else
    let by_ := upper args.by_
    if by_ ≠ "AMD" ∧ by_ ≠ "PDD" then .error (.run .value)
    else do
      let r := routeKwargs args.verbose kwargs
      let cs ← getCrystals env args.csdRefcodes r crystals
      let _ ← match crystals_ with
        | none => .ok none
        | some inp => (getCrystals env args.csdRefcodes r inp).map some
      if by_ = "AMD" then .error (.run .value)
      else do
        let tol ← (argOf r.pdd "collapse_tol").toFloat
        let _ ← lift (mapE (fun c => PDDInt c.set k (argOf r.pdd "lexsort").truthy (argOf r.pdd "collapse").truthy tol fuel) cs)
        .ok (.matrix [] [] [])

end Amd
