import Verif.Model.Utils
import Verif.Model.Calculate

/-!
# `nearest_neighbors_minval` and `PDD_reconstructable`

Model of `/repo/src/amd/_nearest_neighbors.py:541-592` and `/repo/src/amd/calculate.py:344-379`.

As for `nearest_neighbors`, the loop is written for any ordered type `L` of distances, so that it can also be run on
squared integer distances (`Proof/Minval.lean`): `δ` is the distance, `nrm` the norm, `close n mx` the test
`n - max_cdist <= mx`, `ge v` the test `v >= min_val`.
-/

namespace Amd

section
variable {K L : Type*} [CommRing K] [LinearOrder L] [Zero L] {D : ℕ}

/-- `KDTree(cloud).query(motif, k=cloud.shape[0])`: for each motif point the distances to all points of the cloud in increasing
order. `_nearest_neighbors.py:565-567, 588-590`. -/
def queryAll (δ : Pt D K → Pt D K → L) (motif cloud : List (Pt D K)) : List (List L) :=
  motif.map fun p => (cloud.map (δ p)).insertionSort (· ≤ ·)

/-- `np.argwhere(np.all(dists >= min_val, axis=0))[0][0]`: the first column with all entries at least `min_val`; `none`
(IndexError) if there is none. `_nearest_neighbors.py:576, 592`. -/
def firstCol (ge : L → Bool) (dists : List (List L)) : Option ℕ :=
  (List.range (dists.headD []).length).find? fun c => dists.all fun r => ge (r.getD c 0)

/-- Lines 575-578: the condition to leave the loop at its start. -/
def minvalStable (ge : L → Bool) (prev cur : List (List L)) : Bool :=
  (cur.all fun r => r.getLast?.any ge) &&
    match firstCol ge cur with
    | none => false
    | some c => prev.map (·.take (c + 1)) == cur.map (·.take (c + 1))

/-- The `while True` loop, lines 573-590. `prev`, `cur` are `dists`, `dists_`. -/
def minvalLoop (δ : Pt D K → Pt D K → L) (nrm : Pt D K → L) (close : L → L → Bool) (ge : L → Bool)
    (motif : List (Pt D K)) (cell : Fin D → Pt D K) :
    ℕ → ℕ → List (Pt D K) → List (List L) → List (List L) → Except Err (List (List L) × List (List L))
  | 0, _, _, _, _ => .error .fuel
  | f + 1, d, cloud, prev, cur =>
    if minvalStable ge prev cur then .ok (prev, cur)
    else
      match (cur.flatMap fun r => r.getLast?.toList).max? with
      | none => .error .value
      | some mx =>
        let lattice := ((intLayer D d).map (latVec cell)).filter fun l => close (nrm l) mx
        if lattice.isEmpty then .ok (cur, cur)
        else
          let cloud' := cloud ++ latticeToCloud motif lattice
          minvalLoop δ nrm close ge motif cell f (d + 1) cloud' cur (queryAll δ motif cloud')

/-- `nearest_neighbors_minval(motif, cell, min_val)[0]`, lines 541-593. -/
def minvalRows (δ : Pt D K → Pt D K → L) (nrm : Pt D K → L) (close : L → L → Bool) (ge : L → Bool)
    (motif : List (Pt D K)) (cell : Fin D → Pt D K) (fuel : ℕ) : Except Err (List (List L)) :=
  let cloud := latticeToCloud motif ((layersUpTo D 3).map (latVec cell))
  let cur := queryAll δ motif cloud
  match minvalLoop δ nrm close ge motif cell fuel 3 cloud (cur.map fun r => r.map fun _ => (0 : L)) cur with
  | .error e => .error e
  | .ok (prev, cur) =>
    match firstCol ge prev with
    | none => .error .bounds
    | some k => .ok (cur.map fun r => (r.take (k + 1)).drop 1)

end

variable {D : ℕ}

/-- `np.amax(cdist(motif, motif))`, line 572. The motif is not empty. -/
noncomputable def maxCdist (motif : List (Pt D ℝ)) : ℝ :=
  (motif.flatMap fun p => motif.map fun q => eucl p q).foldl max 0

/-- `nearest_neighbors_minval(motif, cell, min_val)[0]` on real coordinates. -/
noncomputable def nearestNeighborsMinval (motif : List (Pt D ℝ)) (cell : Fin D → Pt D ℝ) (minVal : ℝ) (fuel : ℕ) :
    Except Err (List (List ℝ)) :=
  minvalRows eucl (fun l => √(sqNorm l)) (fun n mx => decide (n - maxCdist motif ≤ mx)) (fun v => decide (minVal ≤ v))
    motif cell fuel

/-- `PDD_reconstructable(pset, lexsort)`, `calculate.py:344-379`. The rows have no weights here. -/
noncomputable def pddReconstructable (S : PeriodicSet D) (lexsort : Bool) (fuel : ℕ) : Except Err (List (List ℝ)) :=
  if D ≠ 2 ∧ D ≠ 3 then .error .value
  else
    match diameter D S.cell with
    | .error _ => .error .value
    | .ok diam => do
      let pdd ← nearestNeighborsMinval S.motif S.cell (diam * 2) fuel
      .ok (if lexsort then pdd.insertionSort (fun a b => lexLe a b) else pdd)

end Amd
