import Verif.Model.IntegerK

/-!
# `n_neighbors` as any integer

`n_neighbors` of `compare` is a Python `int`. `compare` in `Model.CompareFn` takes it as a natural number; here it may be negative, which `compare.py` does not check.
-/

namespace Amd

variable {K : Type*} [Field K] [LinearOrder K]

/-- `l[:n]`: a negative `n` counts from the end. -/
def sliceTo {α : Type*} (n : ℤ) (l : List α) : List α := l.take (sliceLength l.length n)

/-- The position `kth` of `np.argpartition(row, kth)` for a row of `m` entries. Contract of numpy: a negative position counts from the end, a position outside
of the row raises ValueError. -/
def partIndex (m : ℕ) (kth : ℤ) : Except Err ℕ :=
  if 0 ≤ kth ∧ kth < m then .ok kth.toNat
  else if -(m : ℤ) ≤ kth ∧ kth < 0 then .ok (m + kth).toNat
  else .error .value

/-- `_neighbors_from_distance_matrix(n, dm)` for a matrix and any integer `n`, `compare.py:624-628, 644-647`. -/
def neighbors2DInt (part : ℕ → List K → List ℕ) (sort : List K → List ℕ) (n : ℤ) (dm : List (List K)) : Except Err (List (NearRow K)) :=
  mapE (fun row => (partIndex row.length n).map fun p => sortNear sort row (sliceTo n (part p row))) dm

/-- `inds_row`, `compare.py:633-634`, of row number `r.2`. -/
def indsRow (part : ℕ → List K → List ℕ) (n : ℤ) (r : List K × ℕ) : Except Err (List ℕ) :=
  (partIndex r.1.length (n + 1)).map fun p => sliceTo n ((sliceTo (n + 1) (part p r.1)).filter fun j => j != r.2)

/-- `_neighbors_from_distance_matrix(n, dm)` for a condensed matrix and any integer `n`, `compare.py:629-636, 644-647`. Contract of numpy: `np.array(inds, dtype=np.int64)` (line 636)
raises ValueError if the rows do not all have the same length. -/
def neighbors1DInt (part : ℕ → List K → List ℕ) (sort : List K → List ℕ) (n : ℤ) (cdm : List K) : Except Err (List (NearRow K)) :=
  match squareform cdm with
  | .error e => .error e
  | .ok dm =>
    match mapE (indsRow part n) dm.zipIdx with
    | .error e => .error e
    | .ok inds => if inds.all fun l => l.length == (inds.head?.getD []).length then .ok (List.zipWith (sortNear sort) dm inds) else .error .value

/-- `kneighbors` on all rows; scikit-learn raises ValueError unless `1 <= n <= len(XB)`. -/
def kneighborsInt (knn : List (List K) → List K → ℕ → NearRow K) (n : ℤ) (xb xa : List (List K)) : Except Err (List (NearRow K)) :=
  if n < 1 ∨ (xb.length : ℤ) < n then .error .value else .ok (xa.map fun x => knn xb x n.toNat)

/-- `_nearest_items(n_neighbors, XA, XB)` for any integer `n_neighbors`, `compare.py:650-698`. -/
def nearestItemsInt (knn : List (List K) → List K → ℕ → NearRow K) (n : ℤ) (xa : List (List K)) : Option (List (List K)) → Except Err (List (NearRow K))
  | some xb => kneighborsInt knn n xb xa
  | none => do
    let rows ← kneighborsInt knn (n + 1) xa xa
    mapE (withoutSelf n.toNat) rows.zipIdx

/-- `nn_dm.shape[-1]`, `compare.py:711`. The rows have the same length; there is a row for every crystal, so there is at least one (else the value is not used). -/
def columnCount (n : ℤ) (rows : List (NearRow ℝ)) : ℕ := (rows.head?.map fun r => r.inds.length).getD n.toNat

/-- `by == 'AMD'` with `n_neighbors` an integer, `compare.py:242-269`. -/
noncomputable def compareAmdInt (env : Env) (r : Routed) (cs : List Crystal) (cs_ : Option (List Crystal)) (k : ℕ) (n : ℤ) (fuel : ℕ) : Except CErr Frame := do
  let names := cs.map Crystal.name
  let amds ← lift (allAmds cs k fuel)
  match cs_ with
  | none =>
    let metric ← (argOf r.near "metric").toMetric
    let nn ← lift (nearestItemsInt (env.knn r.near metric) n amds none)
    nearestFrame n.toNat nn names names
  | some cs' =>
    let amds_ ← lift (allAmds cs' k fuel)
    let metric ← (argOf r.near "metric").toMetric
    let nn ← lift (nearestItemsInt (env.knn r.near metric) n amds (some amds_))
    nearestFrame n.toNat nn names (cs'.map Crystal.name)

/-- `by == 'PDD'` with `n_neighbors` an integer, `compare.py:271-287`. -/
noncomputable def comparePddInt (env : Env) (r : Routed) (cs : List Crystal) (cs_ : Option (List Crystal)) (k : ℕ) (n : ℤ) (fuel : ℕ) : Except CErr Frame := do
  let names := cs.map Crystal.name
  let pdds ← allPdds r cs k fuel
  match cs_ with
  | none =>
    let metric ← (argOf r.pdds "metric").toMetric
    let jobs ← (argOf r.pdds "n_jobs").toJobs
    let backend ← (argOf r.pdds "backend").toStr
    let cdm ← lift (pddPdist (metric.dist env.other) env.sched ⟨backend, jobs, (argOf r.pdds "verbose").truthy⟩ pdds fuel)
    let nn ← lift (neighbors1DInt env.part env.sort n cdm)
    nearestFrame (columnCount n nn) nn names names
  | some cs' =>
    let pdds_ ← allPdds r cs' k fuel
    let metric ← (argOf r.pdds "metric").toMetric
    let jobs ← (argOf r.pdds "n_jobs").toJobs
    let backend ← (argOf r.pdds "backend").toStr
    let dm ← lift (pddCdist (metric.dist env.other) env.sched ⟨backend, jobs, (argOf r.pdds "verbose").truthy⟩ pdds pdds_ fuel)
    let nn ← lift (neighbors2DInt env.part env.sort n dm)
    nearestFrame (columnCount n nn) nn names (cs'.map Crystal.name)

/-- `compare` with any integer for `n_neighbors`, `compare.py:40-287`; `args.nNeighbors` is not used. -/
noncomputable def compareNearest (env : Env) (crystals : Input) (crystals_ : Option Input) (args : CompareArgs) (n : ℤ) (kwargs : Kwargs) (fuel : ℕ) :
    Except CErr Frame :=
  let by_ := upper args.by_
  if by_ ≠ "AMD" ∧ by_ ≠ "PDD" then .error (.run .value)
  else do
    let r := routeKwargs args.verbose kwargs
    let cs ← getCrystals env args.csdRefcodes r crystals
    let cs_ ← match crystals_ with
      | none => .ok none
      | some inp => (getCrystals env args.csdRefcodes r inp).map some
    if by_ = "AMD" then compareAmdInt env r cs cs_ args.k n fuel
    else comparePddInt env r cs cs_ args.k n fuel

end Amd
