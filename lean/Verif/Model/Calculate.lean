import Verif.Model.NearestNeighbors

/-!
# AMD and PDD

Model of `AMD`, `PDD`, `PDD_to_AMD`, `AMD_finite`, `PDD_finite`, `_average_columns_except_first` and
`_collapse_into_groups` in `/repo/src/amd/calculate.py`.

Arrays are lists; a two-dimensional array is the list of its rows. Floating point numbers are elements of a
linearly ordered field (the reals for everything that involves square roots).
-/

namespace Amd

/-- `a[inds]` for an index list: `IndexError` (`bounds`) if one is out of range. -/
def takeInds {α : Type*} (a : List α) : List ℕ → Except Err (List α)
  | [] => .ok []
  | i :: is =>
    match a[i]? with
    | none => .error .bounds
    | some v => do
      let vs ← takeInds a is
      .ok (v :: vs)

section
variable {K : Type*} [Field K] [LinearOrder K]

/-- The double loop of `_average_columns_except_first` (`calculate.py:453-457`): add `weights[i]` times row `i`
without its first entry to `result`. Rows and weights are traversed together; a missing weight is a read out of
bounds. -/
def addRows : List (List K) → List K → List K → Except Err (List K)
  | [], _, result => .ok result
  | _ :: _, [], _ => .error .bounds
  | row :: rows, w :: ws, result =>
    addRows rows ws (List.zipWith (fun r d => r + d * w) result (row.drop 1))

/-- `_average_columns_except_first(dists, weights)`, `calculate.py:451-458`; `k` is `dists.shape[1]`. -/
def averageColumnsExceptFirst (k : ℕ) (dists : List (List K)) (weights : List K) : Except Err (List K) := do
  let result ← addRows dists weights (List.replicate (k - 1) 0)
  .ok (result.map (· / weights.sum))

/-- `pdist(dists, metric='chebyshev')` for two rows: the largest absolute difference (0 for empty rows). -/
def chebyshev (r s : List K) : K := (List.zipWith (fun a b => |a - b|) r s).foldr max 0

/-- The inner loop of `_collapse_into_groups`, `calculate.py:476-478`: `js` are the indices overlapping `i`. -/
def joinOverlapping (i : ℕ) : List ℕ → (ℕ → Option ℕ) → (ℕ → Option ℕ)
  | [], g => g
  | j :: js, g =>
    match g j with
    | some _ => joinOverlapping i js g
    | none => joinOverlapping i js (Function.update g j (g i))

/-- The outer loop of `_collapse_into_groups`, `calculate.py:471-478`: state (`group_nums`, `group`); `n` is the number
of rows, `is` the rows still to visit. -/
def assignGroups (n : ℕ) (overlap : ℕ → ℕ → Bool) : List ℕ → (ℕ → Option ℕ) × ℕ → (ℕ → Option ℕ) × ℕ
  | [], s => s
  | i :: is, (g, group) =>
    match g i with
    | some _ => assignGroups n overlap is (g, group)
    | none =>
      assignGroups n overlap is
        (joinOverlapping i ((List.range n).filter (overlap i)) (Function.update g i (some group)), group + 1)

/-- `groups[group_num].append(row_ind)` on an insertion-ordered `defaultdict(list)`, `calculate.py:482`. -/
def appendTo (num ind : ℕ) : List (ℕ × List ℕ) → List (ℕ × List ℕ)
  | [] => [(num, [ind])]
  | (a, l) :: rest => if a = num then (a, l ++ [ind]) :: rest else (a, l) :: appendTo num ind rest

/-- Body of the loop `calculate.py:481-482`. -/
def collectStep (g : ℕ → Option ℕ) (acc : List (ℕ × List ℕ)) (i : ℕ) : List (ℕ × List ℕ) :=
  match g i with
  | some num => appendTo num i acc
  | none => acc

/-- `_collapse_into_groups(overlapping)`, `calculate.py:461-485`, for `n` items; `overlap i j` is entry `(i, j)` of
`squareform(overlapping)`. `sorted(group_nums.items())` visits the keys, all the indices, in increasing order. -/
def collapseIntoGroups (n : ℕ) (overlap : ℕ → ℕ → Bool) : List (List ℕ) :=
  let g := (assignGroups n overlap (List.range n) (fun _ => none, 0)).1
  ((List.range n).foldl (collectStep g) []).map (·.2)

/-- A row of a PDD: weight, distances, and the indices in the corresponding entry of `groups`. The code holds the
three in parallel arrays. -/
structure PRow (K : Type*) where
  weight : K
  dists : List K
  group : List ℕ
  deriving DecidableEq

/-- `np.average(rows, axis=0)` for rows of length `k`. -/
def meanRows (k : ℕ) (rows : List (List K)) : List K :=
  (List.range k).map fun j => (rows.map fun r => r.getD j 0).sum / rows.length

/-- The entry `(i, j)` of `squareform(pdist(dists, metric='chebyshev') <= collapse_tol)`: the diagonal is False and the
matrix symmetric, entry `(i, j)` with `i < j` is computed from rows `i`, `j`. `calculate.py:191, 468`. -/
def overlapAt (tol : K) (dists : List (List K)) (i j : ℕ) : Bool :=
  i != j && decide (chebyshev (dists.getD (min i j) []) (dists.getD (max i j) []) ≤ tol)

/-- Lines 188-198 of `calculate.py`: weights, distances and groups after the optional collapse. -/
def collapseRows (k : ℕ) (collapse : Bool) (tol : K) (dists : List (List K)) (weights : List K) :
    List (PRow K) :=
  let n := dists.length
  let anyOverlap := (List.range n).any fun i => (List.range n).any fun j => overlapAt tol dists i j
  if collapse && anyOverlap then
    (collapseIntoGroups n (overlapAt tol dists)).map fun g =>
      { weight := (g.map fun i => weights.getD i 0).sum
        dists := meanRows k (g.map fun i => dists.getD i [])
        group := g }
  else
    (List.range n).map fun i =>
      { weight := weights.getD i 0, dists := dists.getD i [], group := [i] }

/-- Lexicographic comparison of rows, by columns from the first. -/
def lexLe : List K → List K → Bool
  | [], _ => true
  | _ :: _, [] => false
  | a :: as, b :: bs => decide (a < b) || (decide (a = b) && lexLe as bs)

/-- Lines 200-210 of `calculate.py`: `np.lexsort(np.rot90(dists))` is a stable sort whose first key is column 0, then
column 1, and so on. -/
def lexsortRows (lexsort : Bool) (rows : List (PRow K)) : List (PRow K) :=
  if lexsort then rows.insertionSort (fun a b => lexLe a.dists b.dists) else rows

/-- `PDD_to_AMD(pdd)`, `calculate.py:217-232`: `np.average` with weights raises `ZeroDivisionError` if the weights sum
to 0. `k + 1` is `pdd.shape[1]`. -/
def pddToAmd (k : ℕ) (pdd : List (PRow K)) : Except Err (List K) :=
  if (pdd.map (·.weight)).sum = 0 then .error .value
  else .ok ((List.range k).map fun j =>
    (pdd.map fun r => r.weight * r.dists.getD j 0).sum / (pdd.map (·.weight)).sum)

end

variable {D : ℕ}

/-- `asym_unit` and the multiplicities as used by `AMD` and `PDD` (`calculate.py:86-91, 178-184`): all motif points with
multiplicity 1 unless both arrays are there. -/
def asymPoints (S : PeriodicSet D) : Except Err (List (Pt D ℝ) × List ℕ) :=
  match S.asymUnit, S.multiplicities with
  | some inds, some mult => do
    let x ← takeInds S.motif inds
    .ok (x, mult)
  | _, _ => .ok (S.motif, List.replicate S.motif.length 1)

/-- `AMD(pset, k)`, `calculate.py:33-94`. -/
noncomputable def AMD (S : PeriodicSet D) (k fuel : ℕ) : Except Err (List ℝ) := do
  let (x, mult) ← asymPoints S
  let dists ← nearestNeighbors S.motif S.cell x (k + 1) fuel
  averageColumnsExceptFirst (k + 1) dists (mult.map fun n : ℕ => (n : ℝ))

/-- `PDD(pset, k, lexsort, collapse, collapse_tol, return_row_groups=True)`, `calculate.py:97-214`; without
`return_row_groups` the same rows are returned without the groups. Simplification: `asym_unit` and
`multiplicities` of different lengths are an error here, in the code only in some cases. -/
noncomputable def PDD (S : PeriodicSet D) (k : ℕ) (lexsort collapse : Bool) (tol : ℝ) (fuel : ℕ) :
    Except Err (List (PRow ℝ)) := do
  let (x, mult) ← asymPoints S
  let weights := mult.map fun n : ℕ => (n : ℝ) / (S.motif.length : ℝ)
  let dists ← nearestNeighbors S.motif S.cell x (k + 1) fuel
  if weights.length ≠ dists.length then .error .bounds
  else .ok (lexsortRows lexsort (collapseRows k collapse tol (dists.map (·.drop 1)) weights))

/-- `squareform(pdist(motif))`: zero diagonal, and the distance of points `i < j` at `(i, j)` and `(j, i)`. -/
noncomputable def distMatrix (motif : List (Pt D ℝ)) : List (List ℝ) :=
  (List.range motif.length).map fun i => (List.range motif.length).map fun j =>
    if i = j then 0 else eucl (motif.getD (min i j) 0) (motif.getD (max i j) 0)

/-- `np.sort(squareform(pdist(motif)), axis=-1)[:, 1:]`, `calculate.py:262, 314`. -/
noncomputable def finiteDists (motif : List (Pt D ℝ)) : List (List ℝ) :=
  (distMatrix motif).map fun r => (r.insertionSort (· ≤ ·)).drop 1

/-- `AMD_finite(motif)`, `calculate.py:235-263`; `pdist` raises for an empty motif. -/
noncomputable def AMDFinite (motif : List (Pt D ℝ)) : Except Err (List ℝ) :=
  if motif.length = 0 then .error .value
  else .ok (meanRows (motif.length - 1) (finiteDists motif))

/-- `PDD_finite(motif, lexsort, collapse, collapse_tol)`, `calculate.py:266-341`. -/
noncomputable def PDDFinite (motif : List (Pt D ℝ)) (lexsort collapse : Bool) (tol : ℝ) :
    Except Err (List (PRow ℝ)) :=
  if motif.length = 0 then .error .value
  else .ok (lexsortRows lexsort (collapseRows (motif.length - 1) collapse tol (finiteDists motif)
    (List.replicate motif.length (1 / (motif.length : ℝ)))))

end Amd
