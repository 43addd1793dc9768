import Verif.Model.Calculate

/-!
# The caches of lattice layers

Model of `memoized_generator`, `_integer_lattice_batches_cache` and of `nearest_neighbors`, `AMD`, `PDD` running on
top of them (`/repo/src/amd/_nearest_neighbors.py:224-317`), with the module-level state made explicit.

An iterator object is an entry of a heap: the dimension and how many layers it has yielded. `itertools.tee(it)` gives two
iterators at the position of `it` that advance independently; the code always keeps one in a cache in place of
`it` and returns the other, so the model keeps `it` and allocates a copy. The argument of `tee` is never used again. A lattice
array is the list of its rows, a row a list of integers.
-/

namespace Amd

/-- Module state: `iters`, the iterator objects (dims, position); `gen`, the cache of `memoized_generator`
(`_nearest_neighbors.py:310`); `batch`, `npoints`, the dictionaries `cache`, `npoints_cache` of `_integer_lattice_batches_cache`
(lines 231-232); a missing key of `npoints` is created with the empty list before it is read (lines 239-240). -/
structure CacheState where
  iters : List (ℕ × ℕ) := []
  gen : ℕ → Option ℕ := fun _ => none
  batch : ℕ × ℕ → Option (List (List ℤ) × ℕ) := fun _ => none
  npoints : ℕ → List ℕ := fun _ => []

/-- Layer `d` as an array with `dims` columns. -/
def layerRows (dims d : ℕ) : List (List ℤ) := (intLayer dims d).map List.ofFn

/-- `next(it)`. `none`: not an iterator (never happens). -/
def CacheState.next (s : CacheState) (it : ℕ) : Option (List (List ℤ) × CacheState) :=
  match s.iters[it]? with
  | none => none
  | some (dims, pos) => some (layerRows dims pos, { s with iters := s.iters.set it (dims, pos + 1) })

/-- `x, r = tee(x)`: the identifier of `r`. -/
def CacheState.tee (s : CacheState) (it : ℕ) : Option (ℕ × CacheState) :=
  match s.iters[it]? with
  | none => none
  | some e => some (s.iters.length, { s with iters := s.iters ++ [e] })

/-- `_integer_lattice_generator(dims)` through `memoized_generator`, `_nearest_neighbors.py:308-317`. -/
def CacheState.generator (s : CacheState) (dims : ℕ) : Option (ℕ × CacheState) :=
  match s.gen dims with
  | some it => s.tee it
  | none =>
    let it := s.iters.length
    CacheState.tee { s with iters := s.iters ++ [(dims, 0)], gen := Function.update s.gen dims (some it) } it

/-- The loop of `_integer_lattice_batches`, `_nearest_neighbors.py:300-304`: state `n_points` and `layers`. -/
def batchesLoop (m k it : ℕ) : ℕ → CacheState → ℕ → List (List (List ℤ)) → Option (List (List (List ℤ)) × CacheState)
  | 0, _, _, _ => none
  | f + 1, s, nPoints, layers =>
    if nPoints * m ≤ k then
      match s.next it with
      | none => none
      | some (layer, s') => batchesLoop m k it f s' (nPoints + layer.length) (layers ++ [layer])
    else
      match s.next it with
      | none => none
      | some (layer, s') => some (layers ++ [layer], s')

/-- The undecorated `_integer_lattice_batches(dims, m, k)`, `_nearest_neighbors.py:297-305`: layers, generator, state. Fuel
for the loop is `k + 1`; it never runs out for `m > 0`. -/
def CacheState.batchesFn (s : CacheState) (dims m k : ℕ) : Option (List (List (List ℤ)) × ℕ × CacheState) :=
  match s.generator dims with
  | none => none
  | some (it, s1) =>
    match s1.next it with
    | none => none
    | some (first, s2) =>
      match batchesLoop m k it (k + 1) s2 1 [first] with
      | none => none
      | some (layers, s3) => some (layers, it, s3)

/-- Lines 244-249: `n_layers` computed from the cached numbers of points. -/
def guessLayers (npoints : List ℕ) (m k : ℕ) : ℕ :=
  1 + (npoints.takeWhile fun n => decide (n * m ≤ k)).length + 1

/-- `itertools.accumulate`. -/
def accumulate (l : List ℕ) : List ℕ := (List.range l.length).map fun i => (l.take (i + 1)).sum

/-- `layers, generator = cache[(dims, n_layers)]; cache[...][1], ret_generator = tee(generator)`, lines 260-262. -/
def CacheState.fetch (s : CacheState) (key : ℕ × ℕ) : Option (List (List ℤ) × ℕ × CacheState) :=
  match s.batch key with
  | none => none
  | some (layers, it) =>
    match s.tee it with
    | none => none
    | some (r, s') => some (layers, r, s')

/-- `_integer_lattice_batches(dims, m, k)` through its cache, `_nearest_neighbors.py:234-262`. -/
def CacheState.batches (s : CacheState) (dims m k : ℕ) : Option (List (List ℤ) × ℕ × CacheState) :=
  let nLayers := guessLayers (s.npoints dims) m k
  match s.batch (dims, nLayers) with
  | some _ => s.fetch (dims, nLayers)
  | none =>
    match s.batchesFn dims m k with
    | none => none
    | some (layers, it, s1) =>
      let nLayers := layers.length
      let s2 := if (s1.npoints dims).length < nLayers then
          { s1 with npoints := Function.update s1.npoints dims (accumulate (layers.map (·.length))) }
        else s1
      let s3 := { s2 with batch := Function.update s2.batch (dims, nLayers) (some (layers.flatten, it)) }
      s3.fetch (dims, nLayers)

section
variable {K : Type*} [CommRing K] [LinearOrder K] {D : ℕ}

/-- `rows @ cell`. -/
def matMul (cell : Fin D → Pt D K) (rows : List (List ℤ)) : List (Pt D K) :=
  rows.map fun r => latVec cell fun i => r.getD i 0

/-- The loop of `nearest_neighbors` (`_nearest_neighbors.py:81-110`, see `nnLoop`), taking layers from iterator `it`. -/
def nnLoopS (near : K → K → K → Bool) (motif : List (Pt D K)) (cell : Fin D → Pt D K)
    (x : List (Pt D K)) (k : ℕ) (diamSq : K) (it : ℕ) :
    ℕ → CacheState → List (List K) → Except Err (List (List K)) × CacheState
  | 0, s, _ => (.error .fuel, s)
  | f + 1, s, rows =>
    match maxLast rows with
    | .error e => (.error e, s)
    | .ok maxSqd =>
      match s.next it with
      | none => (.error .bounds, s)
      | some (layer, s') =>
        let lattice := (matMul cell layer).filter fun l => near (sqNorm l) maxSqd diamSq
        if lattice.isEmpty then (.ok rows, s')
        else
          let cloud := latticeToCloud motif lattice
          let close := cloud.filter fun c => x.any fun p => decide (sqDist p c < maxSqd)
          if close.isEmpty then (.ok rows, s')
          else
            match mergeRows rows ((cdistSq x close).map (kSmallest k)) with
            | .error e => (.error e, s')
            | .ok rows' => nnLoopS near motif cell x k diamSq it f s' rows'

/-- `nearest_neighbors` without the square root, with the caches: `_nearest_neighbors.py:61-110`. -/
def nearestNeighborsSqS (near : K → K → K → Bool) (motif : List (Pt D K)) (cell : Fin D → Pt D K)
    (x : List (Pt D K)) (k fuel : ℕ) (s : CacheState) : Except Err (List (List K)) × CacheState :=
  match s.batches D motif.length k with
  | none => (.error .fuel, s)
  | some (intLattice, it, s') =>
    let cloud := latticeToCloud motif (matMul cell intLattice)
    let sqdists := cdistSq x cloud
    match maxE (sqdists.flatMap (·.take motif.length)) with
    | .error e => (.error e, s')
    | .ok diamSq => nnLoopS near motif cell x k diamSq it fuel s' (sqdists.map (kSmallest k))

end

variable {D : ℕ}

/-- `nearest_neighbors(motif, cell, x, k)` with the caches. -/
noncomputable def nearestNeighborsS (motif : List (Pt D ℝ)) (cell : Fin D → Pt D ℝ)
    (x : List (Pt D ℝ)) (k fuel : ℕ) (s : CacheState) : Except Err (List (List ℝ)) × CacheState :=
  let r := nearestNeighborsSqS nearReal motif cell x k fuel s
  (r.1.map fun rows => rows.map (·.map Real.sqrt), r.2)

/-- `AMD(pset, k)` with the caches, `calculate.py:33-94`. -/
noncomputable def amdS (S : PeriodicSet D) (k fuel : ℕ) (s : CacheState) : Except Err (List ℝ) × CacheState :=
  match asymPoints S with
  | .error e => (.error e, s)
  | .ok (x, mult) =>
    let r := nearestNeighborsS S.motif S.cell x (k + 1) fuel s
    (r.1.bind fun dists => averageColumnsExceptFirst (k + 1) dists (mult.map fun n : ℕ => (n : ℝ)), r.2)

/-- `PDD(pset, k, ...)` with the caches, `calculate.py:97-214`. -/
noncomputable def pddS (S : PeriodicSet D) (k : ℕ) (lexsort collapse : Bool) (tol : ℝ) (fuel : ℕ) (s : CacheState) :
    Except Err (List (PRow ℝ)) × CacheState :=
  match asymPoints S with
  | .error e => (.error e, s)
  | .ok (x, mult) =>
    let weights := mult.map fun n : ℕ => (n : ℝ) / (S.motif.length : ℝ)
    let r := nearestNeighborsS S.motif S.cell x (k + 1) fuel s
    (r.1.bind fun dists => if weights.length ≠ dists.length then .error .bounds
      else .ok (lexsortRows lexsort (collapseRows k collapse tol (dists.map (·.drop 1)) weights)), r.2)

/-- States of the module that can be reached, with the iterators handed out so far, by any sequence of: calls of
`_integer_lattice_batches` (from `nearest_neighbors` or `nearest_neighbors_data`); calls of `_integer_lattice_generator` (from
`nearest_neighbors_minval` or `generate_concentric_cloud`); and advancing, in any order and by any amount, the iterators that
those calls returned. (With no motif points, `m = 0`, the code does not return.) -/
inductive CacheReachable : CacheState → List ℕ → Prop
  | init : CacheReachable {} []
  | batches {s handed dims m k layers it s'} : CacheReachable s handed → 0 < dims → 0 < m →
      s.batches dims m k = some (layers, it, s') → CacheReachable s' (it :: handed)
  | generator {s handed dims it s'} : CacheReachable s handed → 0 < dims →
      s.generator dims = some (it, s') → CacheReachable s' (it :: handed)
  | next {s handed it layer s'} : CacheReachable s handed → it ∈ handed →
      s.next it = some (layer, s') → CacheReachable s' handed

end Amd
