import Verif.Model.Lattice
import Verif.Spec.Periodic
import Mathlib.Data.List.Sort

/-!
# `nearest_neighbors`

Model of `nearest_neighbors`, `_lattice_to_cloud`, `_cdist_sqeulcidean` and `_merge_sorted_arrays` in
`/repo/src/amd/_nearest_neighbors.py`.

The model is polymorphic in the ordered ring of coordinates `K` and in the test
`|l|² < (sqrt(max_sqd) + motif_diam)²` (`near`), the only place where square roots occur before the
final `np.sqrt`. Over `ℝ` it is the test of the code (`nearReal`); over `ℤ` there is an
equivalent computable one (`nearInt`).
-/

namespace Amd

/-- Ways a run can fail: fuel exhausted (modelling non-termination), an exception, a read outside an array. -/
inductive Err
  | fuel
  | value
  | bounds
  deriving DecidableEq, Repr

variable {K : Type*} [CommRing K] [LinearOrder K] {D : ℕ}

/-- One row of `lattice @ cell`: the integer combination of the cell vectors. -/
def latVec (cell : Fin D → Pt D K) (n : Fin D → ℤ) : Pt D K :=
  fun j => ∑ i, (n i : K) * cell i j

/-- `_lattice_to_cloud`, `_nearest_neighbors.py:410-421`. -/
def latticeToCloud (motif lattice : List (Pt D K)) : List (Pt D K) :=
  lattice.flatMap fun t => motif.map fun p => p + t

/-- `_cdist_sqeulcidean`, `_nearest_neighbors.py:425-435` (the inner loop over `d` is `sqDist`). -/
def cdistSq (xa xb : List (Pt D K)) : List (List K) :=
  xa.map fun p => xb.map fun q => sqDist p q

/-- `einsum('ij,ij->i', lattice, lattice)` on one lattice point, `_nearest_neighbors.py:86`. -/
def sqNorm (p : Pt D K) : K := ∑ j, p j ^ 2

/-- `partition(k - 1)`, `[:, :k]`, `sort()` on one row (`_nearest_neighbors.py:70-72, 99-103`): by numpy's contract
these give the `k` smallest entries in increasing order (all of them if there are at most `k`). -/
def kSmallest (k : ℕ) (row : List K) : List K := (row.insertionSort (· ≤ ·)).take k

/-- `.max()` of an array: raises for an empty array. -/
def maxE : List K → Except Err K
  | [] => .error .value
  | a :: l => .ok (l.foldl max a)

/-- The backward scan of `_merge_sorted_arrays` (`_nearest_neighbors.py:449-456`) on one row.
The argument counts the entries not yet inspected: the code's (negative) `j` is this number minus 1 minus `k`.
The result is the position of the first entry to be overwritten (`k` stands for the code's `j == 0`);
`none` is a read before the start of the row. -/
def backScan (dists : List K) (dist_ : K) : ℕ → Option ℕ
  | 0 => none
  | j + 1 =>
    match dists[j]? with
    | none => none
    | some v => if v ≤ dist_ then some (j + 1) else backScan dists dist_ j

/-- The filling loop of `_merge_sorted_arrays` (`_nearest_neighbors.py:463-478`) on one row: the values written to
`ret[i, j:]` with `r` positions left. `dp`, `dp_` are positions in `dists`, `dists_`; when `dists_` is
exhausted its next value is `inf` (lines 476-477). `none`: a read after the end of `dists` whose value is used. -/
def mergeFill (dists dists_ : List K) : ℕ → ℕ → ℕ → Option (List K)
  | 0, _, _ => some []
  | r + 1, dp, dp_ =>
    match dists[dp]?, dists_[dp_]? with
    | some dist, some dist_ =>
      if dist ≤ dist_ then (mergeFill dists dists_ r (dp + 1) dp_).map (dist :: ·)
      else (mergeFill dists dists_ r dp (dp_ + 1)).map (dist_ :: ·)
    | some dist, none => (mergeFill dists dists_ r (dp + 1) dp_).map (dist :: ·)
    | none, _ => none

/-- `_merge_sorted_arrays` on one row, `_nearest_neighbors.py:447-478`. -/
def mergeRow (dists dists_ : List K) : Except Err (List K) :=
  match dists_[0]? with
  | none => .error .bounds
  | some dist_ =>
    match backScan dists dist_ dists.length with
    | none => .error .bounds
    | some j =>
      match mergeFill dists dists_ (dists.length - j) j 0 with
      | none => .error .bounds
      | some l => .ok (dists.take j ++ l)

/-- `_merge_sorted_arrays`, `_nearest_neighbors.py:439-480`. -/
def mergeRows : List (List K) → List (List K) → Except Err (List (List K))
  | [], _ => .ok []
  | _ :: _, [] => .error .bounds
  | r :: rs, r' :: rs' => do
    let a ← mergeRow r r'
    let b ← mergeRows rs rs'
    .ok (a :: b)

/-- `sqdists[:, -1].max()`, `_nearest_neighbors.py:78, 107`. -/
def maxLast (rows : List (List K)) : Except Err K :=
  maxE (rows.flatMap fun r => r.getLast?.toList)

/-- The `while True` loop of `nearest_neighbors`, `_nearest_neighbors.py:81-110`. `near l maxSqd diamSq` is the
test `l < (sqrt(max_sqd) + motif_diam) ** 2`; `max_sqd` and `bound` are recomputed at the start of an
iteration instead of the end of the previous one. `d` is the position of the layer generator. Selecting
the columns `where_close` is written as selecting the corresponding cloud points. -/
def nnLoop (near : K → K → K → Bool) (motif : List (Pt D K)) (cell : Fin D → Pt D K)
    (x : List (Pt D K)) (k : ℕ) (diamSq : K) : ℕ → ℕ → List (List K) → Except Err (List (List K))
  | 0, _, _ => .error .fuel
  | f + 1, d, rows => do
    let maxSqd ← maxLast rows
    let lattice := ((intLayer D d).map (latVec cell)).filter fun l => near (sqNorm l) maxSqd diamSq
    if lattice.isEmpty then .ok rows
    else
      let cloud := latticeToCloud motif lattice
      let close := cloud.filter fun c => x.any fun p => decide (sqDist p c < maxSqd)
      if close.isEmpty then .ok rows
      else do
        let rows' ← mergeRows rows ((cdistSq x close).map (kSmallest k))
        nnLoop near motif cell x k diamSq f (d + 1) rows'

/-- `nearest_neighbors(motif, cell, x, k)` without the final square root, `_nearest_neighbors.py:61-110`. -/
def nearestNeighborsSq (near : K → K → K → Bool) (motif : List (Pt D K)) (cell : Fin D → Pt D K)
    (x : List (Pt D K)) (k fuel : ℕ) : Except Err (List (List K)) := do
  let m := motif.length
  let layers := numLayers D m k
  let cloud := latticeToCloud motif ((layersUpTo D layers).map (latVec cell))
  let sqdists := cdistSq x cloud
  let diamSq ← maxE (sqdists.flatMap (·.take m))
  nnLoop near motif cell x k diamSq fuel layers (sqdists.map (kSmallest k))

/-- The pruning test of the code: `bound = (np.sqrt(max_sqd) + motif_diam) ** 2` with
`motif_diam = np.sqrt(sqdists[:, :m].max())`, `_nearest_neighbors.py:69, 79, 86`. -/
noncomputable def nearReal (l maxSqd diamSq : ℝ) : Bool := decide (l < (√maxSqd + √diamSq) ^ 2)

/-- The same test without square roots, for integer coordinates (`nearInt_iff`):
`l < a + b + 2 sqrt(ab)`, where negative `a`, `b` (never reached) count as 0. -/
def nearInt (l a b : ℤ) : Bool :=
  decide (l < max a 0 + max b 0) || decide ((l - max a 0 - max b 0) ^ 2 < 4 * max a 0 * max b 0)

/-- `nearest_neighbors(motif, cell, x, k)`, `_nearest_neighbors.py:26-110`. -/
noncomputable def nearestNeighbors (motif : List (Pt D ℝ)) (cell : Fin D → Pt D ℝ)
    (x : List (Pt D ℝ)) (k fuel : ℕ) : Except Err (List (List ℝ)) :=
  (nearestNeighborsSq nearReal motif cell x k fuel).map fun rows => rows.map (·.map Real.sqrt)

/-- `generate_concentric_cloud(motif, cell)`, `_nearest_neighbors.py:595-620`: its `d`-th yield. -/
def concentricCloud (motif : List (Pt D K)) (cell : Fin D → Pt D K) (d : ℕ) : List (Pt D K) :=
  latticeToCloud motif ((intLayer D d).map (latVec cell))

end Amd
