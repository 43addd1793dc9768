import Verif.Model.Compare

/-!
# Distance matrices and nearest items

Model of `AMD_cdist`, `AMD_pdist`, `PDD_cdist`, `PDD_pdist`, `_neighbors_from_distance_matrix` and `_nearest_items` in
`/repo/src/amd/compare.py`.

scipy, numpy, joblib and sklearn are represented by what their documentation promises: `cdist`, `pdist` and `squareform` by definitions,
`np.argpartition`, `np.argsort`, `NearestNeighbors.kneighbors` and the scheduling of `joblib.Parallel` by parameters with a contract.
-/

namespace Amd

/-- `[f(a) for a in l]`, where the first exception leaves the loop. -/
def mapE {α β ε : Type*} (f : α → Except ε β) : List α → Except ε (List β)
  | [] => .ok []
  | a :: l =>
    match f a with
    | .error e => .error e
    | .ok b =>
      match mapE f l with
      | .error e => .error e
      | .ok bs => .ok (b :: bs)

/-- `for t in tasks: a[slot(t)] = task(t)`, where `none` is an entry not yet written. -/
def fillSlots {α β : Type*} (task : β → Except Err α) (slot : β → ℕ) : List β → List (Option α) → Except Err (List (Option α))
  | [], a => .ok a
  | t :: ts, a =>
    match task t with
    | .error e => .error e
    | .ok v => if slot t < a.length then fillSlots task slot ts (a.set (slot t) (some v)) else .error .bounds

/-- The same loop with a progress bar, of which the number of updates is kept. -/
def fillSlotsVerbose {α β : Type*} (task : β → Except Err α) (slot : β → ℕ) : List β → List (Option α) → ℕ →
    Except Err (List (Option α) × ℕ)
  | [], a, c => .ok (a, c)
  | t :: ts, a, c =>
    match task t with
    | .error e => .error e
    | .ok v => if slot t < a.length then fillSlotsVerbose task slot ts (a.set (slot t) (some v)) (c + 1) else .error .bounds

/-- The content of an array created by `np.empty`. An entry never written (an arbitrary number in the code) is an error. -/
def filled {α : Type*} : List (Option α) → Except Err (List α)
  | [] => .ok []
  | none :: _ => .error .bounds
  | some v :: l =>
    match filled l with
    | .error e => .error e
    | .ok vs => .ok (v :: vs)

/-- `a.reshape((n, m))`. -/
def reshape {α : Type*} (n m : ℕ) (a : List α) : Except Err (List (List α)) :=
  if a.length = n * m then .ok ((List.range n).map fun i => (a.drop (i * m)).take m) else .error .value

/-- `itertools.combinations(range(m), 2)`; also the order of the entries computed by `pdist`. -/
def combinations2 (m : ℕ) : List (ℕ × ℕ) := (List.range m).flatMap fun i => (List.range' (i + 1) (m - (i + 1))).map fun j => (i, j)

section
variable {K : Type*} [Field K] [LinearOrder K]

/-! ### AMDs -/

/-- The argument `metric`: a name or a function. -/
inductive MetricArg (K : Type*)
  | named (s : String)
  | fn (f : List K → List K → K)

/-- The distance scipy uses; `other` are its distances with other names. -/
def MetricArg.dist (other : String → List K → List K → K) : MetricArg K → List K → List K → K
  | .named s => if s = "chebyshev" then chebyshev else other s
  | .fn f => f

/-- `metric != 'chebyshev'`. -/
def MetricArg.notChebyshev : MetricArg K → Bool
  | .named s => s != "chebyshev"
  | .fn _ => true

/-- A collection of AMDs: an array with `cols` columns, or a Python list of one-dimensional arrays. -/
inductive Amds (K : Type*)
  | array (cols : ℕ) (rows : List (List K))
  | list (rows : List (List K))

/-- The AMDs; iterating over the collection gives these. -/
def Amds.rows : Amds K → List (List K)
  | .array _ rows => rows
  | .list rows => rows

/-- `amds[i:]`. -/
def Amds.drop (i : ℕ) : Amds K → Amds K
  | .array c rows => .array c (rows.drop i)
  | .list rows => .list (rows.drop i)

/-- `np.asarray`, as far as it has two dimensions (columns, rows); otherwise `cdist` and `pdist` raise ValueError. -/
def Amds.toArray : Amds K → Except Err (ℕ × List (List K))
  | .array c rows => .ok (c, rows)
  | .list [] => .error .value
  | .list (r :: rows) => if (r :: rows).all fun s => s.length == r.length then .ok (r.length, r :: rows) else .error .value

/-- `cdist(amds, amds_, metric)`. -/
def scipyCdist (δ : List K → List K → K) (a b : Amds K) : Except Err (List (List K)) :=
  match a.toArray, b.toArray with
  | .ok (c, ra), .ok (c', rb) => if c = c' then .ok (ra.map fun r => rb.map fun s => δ r s) else .error .value
  | _, _ => .error .value

/-- `pdist(amds, metric)`. -/
def scipyPdist (δ : List K → List K → K) (a : Amds K) : Except Err (List K) :=
  match a.toArray with
  | .ok (_, rows) => .ok ((combinations2 rows.length).map fun ij => δ (rows.getD ij.1 []) (rows.getD ij.2 []))
  | .error e => .error e

/-- `np.amax(np.abs(a - v), axis=-1)` for a collection `a` and an AMD `v`, with numpy's broadcasting. For an empty list, of shape `(0,)`,
either the subtraction or `amax` raises ValueError. -/
def maxAbsDiff (a : Amds K) (v : List K) : Except Err (List K) :=
  match a.toArray with
  | .error e => .error e
  | .ok (c, rows) =>
    if c = v.length then mapE (fun r => maxE (List.zipWith (fun x y => |x - y|) r v)) rows
    else if c = 1 then mapE (fun r => maxE (v.map fun y => |r.headD 0 - y|)) rows
    else if v.length = 1 then mapE (fun r => maxE (r.map fun x => |x - v.headD 0|)) rows
    else .error .value

/-- `AMD_cdist(amds, amds_, metric, low_memory)`, `compare.py:372-383`. Each row of the result in `low_memory` mode has `len(amds_)` entries by
construction, as the row of `dm` it is assigned to. -/
def amdCdist (other : String → List K → List K → K) (a b : Amds K) (metric : MetricArg K) (lowMemory : Bool) : Except Err (List (List K)) :=
  if lowMemory then
    if metric.notChebyshev then .error .value
    else mapE (fun v => maxAbsDiff b v) a.rows
  else scipyCdist (metric.dist other) a b

/-- `cdm[i:j] = v`: ValueError if the lengths differ. (A value of length 1 would be broadcast; it never is.) -/
def assignSlice {α : Type*} (a : List (Option α)) (i j : ℕ) (v : List α) : Except Err (List (Option α)) :=
  if v.length = min j a.length - i then .ok (a.take i ++ v.map some ++ a.drop (i + v.length)) else .error .value

/-- The loop of `AMD_pdist`, `compare.py:428-431`: `i` runs through the list, `ind` and `cdm` are the state. -/
def pdistLoop (a : Amds K) (m : ℕ) : List ℕ → ℕ → List (Option K) → Except Err (List (Option K))
  | [], _, cdm => .ok cdm
  | i :: is, ind, cdm =>
    let ind_ := ind + m - i - 1
    match maxAbsDiff (a.drop (i + 1)) (a.rows.getD i []) with
    | .error e => .error e
    | .ok v =>
      match assignSlice cdm ind ind_ v with
      | .error e => .error e
      | .ok cdm' => pdistLoop a m is ind_ cdm'

/-- `AMD_pdist(amds, metric, low_memory)`, `compare.py:419-435`. -/
def amdPdist (other : String → List K → List K → K) (a : Amds K) (metric : MetricArg K) (lowMemory : Bool) : Except Err (List K) :=
  if lowMemory then
    let m := a.rows.length
    if metric.notChebyshev then .error .value
    else
      (pdistLoop a m (List.range m) 0 (List.replicate (m * (m - 1) / 2) none)).bind filled
  else scipyPdist (metric.dist other) a

/-! ### PDDs -/

/-- Arguments of `PDD_cdist` and `PDD_pdist` about how to compute. -/
structure JobOpts where
  backend : String := "multiprocessing"
  nJobs : Option ℤ := none
  verbose : Bool := false

/-- joblib's freedom: the order in which the given number of tasks finish. -/
abbrev Scheduler := JobOpts → ℕ → List ℕ

/-- Contract of `joblib.Parallel`: every task is run once. -/
def Scheduler.Complete (sched : Scheduler) : Prop := ∀ opts n, (sched opts n).Perm (List.range n)

/-- `Parallel(...)(tasks)`: each task stores its result in the place of the task; an exception in a task is raised. -/
def parallel {α β : Type*} (sched : Scheduler) (opts : JobOpts) (task : β → Except Err α) (tasks : List β) : Except Err (List α) :=
  (fillSlots (fun t : ℕ => match tasks[t]? with
      | none => .error .bounds
      | some b => task b) id (sched opts tasks.length) (List.replicate tasks.length none)).bind filled

/-- The serial loops, `compare.py:497-512, 574-589`: `items` are the positions with what to compute. -/
def serial {α β : Type*} (verbose : Bool) (task : β → Except Err α) (slot : β → ℕ) (items : List β) (len : ℕ) : Except Err (List α) :=
  if verbose then
    (fillSlotsVerbose task slot items (List.replicate len none) 0).bind fun r => filled r.1
  else (fillSlots task slot items (List.replicate len none)).bind filled

/-- `EMD(pdds[i], pdds_[j])`, for any function `f` in place of `EMD`. -/
def pairTask {P : Type*} (f : P → P → Except Err K) (ps qs : List P) (ij : ℕ × ℕ) : Except Err K :=
  match ps[ij.1]?, qs[ij.2]? with
  | some p, some q => f p q
  | _, _ => .error .bounds

/-- `n_jobs is not None and n_jobs not in (0, 1)`, `compare.py:488`. -/
def cdistInParallel : Option ℤ → Bool
  | none => false
  | some n => n != 0 && n != 1

/-- `n_jobs is not None and n_jobs > 1`, `compare.py:564`. -/
def pdistInParallel : Option ℤ → Bool
  | none => false
  | some n => decide (1 < n)

/-- `PDD_cdist(pdds, pdds_, metric, backend, n_jobs, verbose)`, `compare.py:484-514`, for any function `f` in place of `EMD`. The array `dm` is
held row by row. -/
def pddCdistWith {P : Type*} (f : P → P → Except Err K) (sched : Scheduler) (opts : JobOpts) (ps qs : List P) : Except Err (List (List K)) :=
  if ps.isEmpty then .error .bounds
  else
    let pairs := (List.range ps.length).flatMap fun i => (List.range qs.length).map fun j => (i, j)
    let flat := if cdistInParallel opts.nJobs then parallel sched opts (pairTask f ps qs) pairs
      else serial opts.verbose (pairTask f ps qs) (fun ij => ij.1 * qs.length + ij.2) pairs (ps.length * qs.length)
    flat.bind (reshape ps.length qs.length)

/-- `PDD_pdist(pdds, metric, backend, n_jobs, verbose)`, `compare.py:560-591`, for any function `f` in place of `EMD`. -/
def pddPdistWith {P : Type*} (f : P → P → Except Err K) (sched : Scheduler) (opts : JobOpts) (ps : List P) : Except Err (List K) :=
  if ps.isEmpty then .error .bounds
  else if pdistInParallel opts.nJobs then parallel sched opts (pairTask f ps ps) (combinations2 ps.length)
  else
    let m := ps.length
    let inds := (List.range (m - 1)).flatMap fun i => (List.range' (i + 1) (m - (i + 1))).map fun j => (i, j)
    serial opts.verbose (fun r : (ℕ × ℕ) × ℕ => pairTask f ps ps r.1) (fun r => r.2) inds.zipIdx (m * (m - 1) / 2)

/-! ### Nearest items -/

/-- `squareform` of a condensed distance matrix: ValueError unless the length is a number `d * (d - 1) / 2`. -/
def squareform (v : List K) : Except Err (List (List K)) :=
  if v.length = 0 then .ok [[0]]
  else
    let d := Nat.sqrt (2 * v.length - 1) + 1
    if d * (d - 1) = 2 * v.length then
      .ok ((List.range d).map fun i => (List.range d).map fun j =>
        if i = j then 0 else v.getD (d * min i j + max i j - (min i j + 2) * (min i j + 1) / 2) 0)
    else .error .value

/-- Contract of `np.argpartition(row, kth)` for `kth < len(row)`: a permutation of the positions with the smallest `kth` entries before
position `kth`, the larger ones after it. -/
def PartContract (part : ℕ → List K → List ℕ) : Prop :=
  ∀ kth row, kth < row.length → (part kth row).Perm (List.range row.length) ∧
    (∀ a < kth, row.getD ((part kth row).getD a 0) 0 ≤ row.getD ((part kth row).getD kth 0) 0) ∧
    ∀ b < row.length, kth < b → row.getD ((part kth row).getD kth 0) 0 ≤ row.getD ((part kth row).getD b 0) 0

/-- Contract of `np.argsort`. -/
def SortContract (sort : List K → List ℕ) : Prop :=
  ∀ row, (sort row).Perm (List.range row.length) ∧ ((sort row).map fun i => row.getD i 0).Pairwise (· ≤ ·)

/-- A row of `nn_dm` and a row of `inds`. -/
structure NearRow (K : Type*) where
  dists : List K
  inds : List ℕ

/-- `compare.py:644-647` on one row. -/
def sortNear (sort : List K → List ℕ) (row : List K) (inds : List ℕ) : NearRow K :=
  let nn := inds.map fun j => row.getD j 0
  { dists := (sort nn).map fun t => nn.getD t 0, inds := (sort nn).map fun t => inds.getD t 0 }

/-- `_neighbors_from_distance_matrix(n, dm)` for a matrix, `compare.py:624-628, 644-647`. `np.argpartition` raises ValueError if `n` is not
an index of the row. -/
def neighbors2D (part : ℕ → List K → List ℕ) (sort : List K → List ℕ) (n : ℕ) (dm : List (List K)) : Except Err (List (NearRow K)) :=
  mapE (fun row => if n < row.length then .ok (sortNear sort row ((part n row).take n)) else .error .value) dm

/-- `_neighbors_from_distance_matrix(n, dm)` for a condensed matrix, `compare.py:629-636, 644-647`. -/
def neighbors1D (part : ℕ → List K → List ℕ) (sort : List K → List ℕ) (n : ℕ) (cdm : List K) : Except Err (List (NearRow K)) :=
  match squareform cdm with
  | .error e => .error e
  | .ok dm => mapE (fun r : List K × ℕ => if n + 1 < r.1.length then
      .ok (sortNear sort r.1 ((((part (n + 1) r.1).take (n + 1)).filter fun j => j != r.2).take n)) else .error .value) dm.zipIdx

/-- Contract of `NearestNeighbors(n_neighbors=n, ...).fit(XB).kneighbors(XA)` on one row `x` of `XA`, for the distance `δ`: the `n` nearest rows of
`XB` in order of distance. -/
def KnnContract (δ : List K → List K → K) (knn : List (List K) → List K → ℕ → NearRow K) : Prop :=
  ∀ xb x n, n ≤ xb.length → (knn xb x n).inds.length = n ∧ (knn xb x n).inds.Nodup ∧ (∀ j ∈ (knn xb x n).inds, j < xb.length) ∧
    (knn xb x n).dists = (knn xb x n).inds.map (fun j => δ x (xb.getD j [])) ∧ (knn xb x n).dists.Pairwise (· ≤ ·) ∧
    ∀ j < xb.length, j ∉ (knn xb x n).inds → ∀ i ∈ (knn xb x n).inds, δ x (xb.getD i []) ≤ δ x (xb.getD j [])

/-- `kneighbors` on all rows; ValueError unless `1 <= n <= len(XB)`. -/
def kneighbors (knn : List (List K) → List K → ℕ → NearRow K) (n : ℕ) (xb xa : List (List K)) : Except Err (List (NearRow K)) :=
  if n = 0 ∨ xb.length < n then .error .value else .ok (xa.map fun x => knn xb x n)

/-- The inner loop of `_nearest_items`, `compare.py:688-697`, on one row: skip the item itself, stop after `n` entries. The
arguments are the pairs still to visit and the pairs copied so far; writing more than `n` entries is an IndexError (only for `n = 0`). -/
def dropSelf (n i : ℕ) : List (K × ℕ) → List (K × ℕ) → Except Err (List (K × ℕ))
  | [], acc => .ok acc
  | (d, j) :: l, acc =>
    if i = j then dropSelf n i l acc
    else if acc.length < n then
      if acc.length + 1 = n then .ok (acc ++ [(d, j)]) else dropSelf n i l (acc ++ [(d, j)])
    else .error .bounds

/-- One row of the loop `compare.py:686-697`. Fewer than `n_neighbors` entries in a row would leave entries not written. -/
def withoutSelf (n : ℕ) (r : NearRow K × ℕ) : Except Err (NearRow K) :=
  match dropSelf n r.2 (r.1.dists.zip r.1.inds) [] with
  | .error e => .error e
  | .ok l => if l.length = n then .ok { dists := l.map (·.1), inds := l.map (·.2) } else .error .bounds

/-- `_nearest_items(n_neighbors, XA, XB)`, `compare.py:650-698`. -/
def nearestItems (knn : List (List K) → List K → ℕ → NearRow K) (n : ℕ) (xa : List (List K)) : Option (List (List K)) → Except Err (List (NearRow K))
  | some xb => kneighbors knn n xb xa
  | none =>
    match kneighbors knn (n + 1) xa xa with
    | .error e => .error e
    | .ok rows => mapE (withoutSelf n) rows.zipIdx

end

/-- `PDD_cdist`, `compare.py:438-514`. -/
noncomputable def pddCdist (δ : List ℝ → List ℝ → ℝ) (sched : Scheduler) (opts : JobOpts) (ps qs : List (List (PRow ℝ))) (fuel : ℕ) :
    Except Err (List (List ℝ)) := pddCdistWith (fun p q => (emd δ p q fuel).map (·.1)) sched opts ps qs

/-- `PDD_pdist`, `compare.py:517-591`. -/
noncomputable def pddPdist (δ : List ℝ → List ℝ → ℝ) (sched : Scheduler) (opts : JobOpts) (ps : List (List (PRow ℝ))) (fuel : ℕ) :
    Except Err (List ℝ) := pddPdistWith (fun p q => (emd δ p q fuel).map (·.1)) sched opts ps

end Amd
