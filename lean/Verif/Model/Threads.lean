import Verif.Model.Cache

/-!
# Iterator objects and threads

A finer model of `memoized_generator` and `_integer_lattice_batches_cache` (`/repo/src/amd/_nearest_neighbors.py:224-317`) than `Model/Cache.lean`: generator objects, the objects made by
`itertools.tee` with their shared buffers, and each read or write of a dictionary are separate steps, as they are for the interpreter. Several threads may take these steps in any order.
-/

namespace Amd

/-- A generator object made by `_integer_lattice_generator(dims)`: how many layers it has yielded, and whether it is running (between a call of `next` and the following `yield`). -/
structure GenObj where
  dims : ℕ
  pos : ℕ
  running : Bool
  deriving DecidableEq

/-- A reference to an iterator: a generator object or an object made by `tee`. -/
inductive IterRef
  | gen (i : ℕ)
  | tee (i : ℕ)
  deriving DecidableEq

/-- The objects and the module state. `gens`: generator objects. `bufs`: the data shared by the objects of one `tee`: the generator and the layers taken from it so far (CPython keeps a linked list of which
the part no longer needed is freed). `tees`: objects made by `tee`: buffer and position. `gen`: `cache` of `memoized_generator` (`_nearest_neighbors.py:310`).
`batch`, `npoints`: `cache`, `npoints_cache` of `_integer_lattice_batches_cache` (lines 231-232). -/
structure Heap where
  gens : List GenObj := []
  bufs : List (ℕ × List (List (List ℤ))) := []
  tees : List (ℕ × ℕ) := []
  gen : ℕ → Option IterRef := fun _ => none
  batch : ℕ × ℕ → Option (List (List ℤ) × IterRef) := fun _ => none
  npoints : ℕ → Option (List ℕ) := fun _ => none

/-- Why a call does not return. `reentered`: `RuntimeError` of `tee` or `ValueError` of the generator, when an iterator is advanced while the generator is running. `missing`: a key or object
that is not there. `fuel`: only in the model. -/
inductive Stop
  | reentered
  | missing
  | fuel
  deriving DecidableEq

/-- What is left to do for a thread: it has returned or raised, or its next step changes the heap to `f h` and goes on with `k h`, where `h` is the heap before the step. -/
inductive Prog (α : Type) : Type
  | ret (a : α)
  | raise (e : Stop)
  | act (f : Heap → Heap) (k : Heap → Prog α)

variable {α β : Type}

/-- One after the other. -/
def Prog.bind : Prog α → (α → Prog β) → Prog β
  | .ret a, c => c a
  | .raise e, _ => .raise e
  | .act f k, c => .act f fun h => (k h).bind c

/-- One step that reads. -/
def readP (g : Heap → α) : Prog α := .act id fun h => .ret (g h)

/-- One step that writes. -/
def writeP (f : Heap → Heap) : Prog Unit := .act f fun _ => .ret ()

/-- `tee(r)` of CPython: of an object made by `tee`, the object itself and a copy that shares its buffer; of a generator, two objects with a new buffer. -/
def Heap.teed (h : Heap) : IterRef → Heap
  | .gen g => { h with bufs := h.bufs ++ [(g, [])], tees := h.tees ++ [(h.bufs.length, 0), (h.bufs.length, 0)] }
  | .tee t => { h with tees := h.tees ++ h.tees[t]?.toList }

/-- The two results of `tee(r)`. The second is always an object made by `tee`. -/
def Heap.teeResult (h : Heap) : IterRef → IterRef × ℕ
  | .gen _ => (.tee h.tees.length, h.tees.length + 1)
  | .tee t => (.tee t, h.tees.length)

/-- `tee(r)`: one step. -/
def teeP (r : IterRef) : Prog (IterRef × ℕ) := .act (fun h => h.teed r) fun h => .ret (h.teeResult r)

/-- What `next` meets: a layer in the buffer, a generator that is running already, a generator that has to be run, or no object. -/
inductive Peek
  | buffered (rows : List (List ℤ))
  | busy
  | idle (dims pos : ℕ)
  | nothing

/-- What `next` of object `t` meets. -/
def Heap.peekTee (h : Heap) (t : ℕ) : Peek :=
  match h.tees[t]? with
  | none => .nothing
  | some (b, p) =>
    match h.bufs[b]? with
    | none => .nothing
    | some (g, buf) =>
      match buf[p]? with
      | some rows => .buffered rows
      | none =>
        match h.gens[g]? with
        | none => .nothing
        | some o => if o.running then .busy else .idle o.dims o.pos

/-- The first step of `next`: take the layer from the buffer, or start the generator. -/
def Heap.begins (h : Heap) (t : ℕ) : Heap :=
  match h.tees[t]? with
  | none => h
  | some (b, p) =>
    match h.bufs[b]? with
    | none => h
    | some (g, buf) =>
      match buf[p]? with
      | some _ => { h with tees := h.tees.set t (b, p + 1) }
      | none =>
        match h.gens[g]? with
        | none => h
        | some o => if o.running then h else { h with gens := h.gens.set g { o with running := true } }

/-- The second step of `next`, if the generator was started: it yields, the layer is put into the buffer. -/
def Heap.finishes (h : Heap) (t : ℕ) : Heap :=
  match h.tees[t]? with
  | none => h
  | some (b, p) =>
    match h.bufs[b]? with
    | none => h
    | some (g, buf) =>
      match h.gens[g]? with
      | none => h
      | some o => { h with gens := h.gens.set g ⟨o.dims, o.pos + 1, false⟩, bufs := h.bufs.set b (g, buf ++ [layerRows o.dims o.pos]), tees := h.tees.set t (b, p + 1) }

/-- `next(t)`. The code of the generator (lines 339-362) has no other effects, so that it is enough to know when it starts and when it yields. -/
def nextP (t : ℕ) : Prog (List (List ℤ)) :=
  .act (fun h => h.begins t) fun h =>
    match h.peekTee t with
    | .buffered rows => .ret rows
    | .busy => .raise .reentered
    | .idle dims pos => .act (fun h => h.finishes t) fun _ => .ret (layerRows dims pos)
    | .nothing => .raise .missing

/-- `cache[args] = generator_function(*args)`, line 314. -/
def Heap.newGen (h : Heap) (dims : ℕ) : Heap := { h with gens := h.gens ++ [⟨dims, 0, false⟩], gen := Function.update h.gen dims (some (.gen h.gens.length)) }

/-- `cache[args] = r`, line 315. -/
def Heap.setGen (h : Heap) (dims : ℕ) (r : IterRef) : Heap := { h with gen := Function.update h.gen dims (some r) }

/-- `npoints_cache[dims] = l`, lines 240 and 257. -/
def Heap.setNpoints (h : Heap) (dims : ℕ) (l : List ℕ) : Heap := { h with npoints := Function.update h.npoints dims (some l) }

/-- `cache[key] = [rows, r]`, line 258. -/
def Heap.setBatch (h : Heap) (key : ℕ × ℕ) (rows : List (List ℤ)) (r : IterRef) : Heap := { h with batch := Function.update h.batch key (some (rows, r)) }

/-- `cache[key][1] = r`, line 261. -/
def Heap.setIter (h : Heap) (key : ℕ × ℕ) (r : IterRef) : Heap := { h with batch := Function.update h.batch key ((h.batch key).map fun v => (v.1, r)) }

/-- `_integer_lattice_generator(dims)` through `memoized_generator`, `_nearest_neighbors.py:308-317`. -/
def generatorP (dims : ℕ) : Prog ℕ :=
  (readP fun h => h.gen dims).bind fun c =>
  (match c with | none => writeP fun h => h.newGen dims | some _ => .ret ()).bind fun _ =>
  (readP fun h => h.gen dims).bind fun c =>
  match c with
  | none => .raise .missing
  | some r => (teeP r).bind fun ab => (writeP fun h => h.setGen dims ab.1).bind fun _ => .ret ab.2

/-- The loop of `_integer_lattice_batches` and the layer after it, `_nearest_neighbors.py:300-304`. -/
def batchesLoopP (m k t : ℕ) : ℕ → ℕ → List (List (List ℤ)) → Prog (List (List (List ℤ)))
  | 0, _, _ => .raise .fuel
  | f + 1, nPoints, layers =>
    if nPoints * m ≤ k then (nextP t).bind fun layer => batchesLoopP m k t f (nPoints + layer.length) (layers ++ [layer])
    else (nextP t).bind fun layer => .ret (layers ++ [layer])

/-- The undecorated `_integer_lattice_batches(dims, m, k)`, `_nearest_neighbors.py:297-305`. -/
def batchesFnP (dims m k : ℕ) : Prog (List (List (List ℤ)) × ℕ) :=
  (generatorP dims).bind fun t => (nextP t).bind fun first => (batchesLoopP m k t (k + 1) 1 [first]).bind fun layers => .ret (layers, t)

/-- Lines 252-258: compute layers and put them into the caches; the number of layers. -/
def fillP (dims m k : ℕ) : Prog ℕ :=
  (batchesFnP dims m k).bind fun lt =>
  (readP fun h => h.npoints dims).bind fun np =>
  (if (np.getD []).length < lt.1.length then writeP fun h => h.setNpoints dims (accumulate (lt.1.map (·.length))) else .ret ()).bind fun _ =>
  (writeP fun h => h.setBatch (dims, lt.1.length) lt.1.flatten (.tee lt.2)).bind fun _ => .ret lt.1.length

/-- Lines 260-262. -/
def fetchP (dims n : ℕ) : Prog (List (List ℤ) × ℕ) :=
  (readP fun h => h.batch (dims, n)).bind fun c =>
  match c with
  | none => .raise .missing
  | some v => (teeP v.2).bind fun ab => (writeP fun h => h.setIter (dims, n) ab.1).bind fun _ => .ret (v.1, ab.2)

/-- `_integer_lattice_batches(dims, m, k)` through its cache, `_nearest_neighbors.py:234-262`. -/
def batchesP (dims m k : ℕ) : Prog (List (List ℤ) × ℕ) :=
  (readP fun h => h.npoints dims).bind fun np =>
  (match np with | none => writeP fun h => h.setNpoints dims [] | some _ => .ret ()).bind fun _ =>
  (readP fun h => h.npoints dims).bind fun np =>
  (readP fun h => h.batch (dims, guessLayers (np.getD []) m k)).bind fun c =>
  (match c with | none => fillP dims m k | some _ => .ret (guessLayers (np.getD []) m k)).bind fun n => fetchP dims n

variable {D : ℕ}

/-- The loop of `nearest_neighbors`, `_nearest_neighbors.py:81-110` (see `nnLoop`), taking layers from object `t`. Only `next` touches what threads share. -/
noncomputable def nnLoopP (motif : List (Pt D ℝ)) (cell : Fin D → Pt D ℝ) (x : List (Pt D ℝ)) (k : ℕ) (diamSq : ℝ) (t : ℕ) :
    ℕ → List (List ℝ) → Prog (Except Err (List (List ℝ)))
  | 0, _ => .ret (.error .fuel)
  | f + 1, rows =>
    match maxLast rows with
    | .error e => .ret (.error e)
    | .ok maxSqd => (nextP t).bind fun layer =>
      if ((matMul cell layer).filter fun l => nearReal (sqNorm l) maxSqd diamSq).isEmpty then .ret (.ok rows)
      else if ((latticeToCloud motif ((matMul cell layer).filter fun l => nearReal (sqNorm l) maxSqd diamSq)).filter fun c => x.any fun p => decide (sqDist p c < maxSqd)).isEmpty then
        .ret (.ok rows)
      else
        match mergeRows rows ((cdistSq x ((latticeToCloud motif ((matMul cell layer).filter fun l => nearReal (sqNorm l) maxSqd diamSq)).filter fun c =>
            x.any fun p => decide (sqDist p c < maxSqd))).map (kSmallest k)) with
        | .error e => .ret (.error e)
        | .ok rows' => nnLoopP motif cell x k diamSq t f rows'

/-- `nearest_neighbors(motif, cell, x, k)`, `_nearest_neighbors.py:61-112`. -/
noncomputable def nearestNeighborsP (motif : List (Pt D ℝ)) (cell : Fin D → Pt D ℝ) (x : List (Pt D ℝ)) (k fuel : ℕ) : Prog (Except Err (List (List ℝ))) :=
  (batchesP D motif.length k).bind fun lt =>
    match maxE ((cdistSq x (latticeToCloud motif (matMul cell lt.1))).flatMap (·.take motif.length)) with
    | .error e => .ret (.error e)
    | .ok diamSq => (nnLoopP motif cell x k diamSq lt.2 fuel ((cdistSq x (latticeToCloud motif (matMul cell lt.1))).map (kSmallest k))).bind fun r =>
        .ret (r.map fun rows => rows.map (·.map Real.sqrt))

/-- `AMD(pset, k)`, `calculate.py:33-94`. -/
noncomputable def amdP (S : PeriodicSet D) (k fuel : ℕ) : Prog (Except Err (List ℝ)) :=
  match asymPoints S with
  | .error e => .ret (.error e)
  | .ok (x, mult) => (nearestNeighborsP S.motif S.cell x (k + 1) fuel).bind fun r =>
      .ret (r.bind fun dists => averageColumnsExceptFirst (k + 1) dists (mult.map fun n : ℕ => (n : ℝ)))

/-- `PDD(pset, k, ...)`, `calculate.py:97-214`. -/
noncomputable def pddP (S : PeriodicSet D) (k : ℕ) (lexsort collapse : Bool) (tol : ℝ) (fuel : ℕ) : Prog (Except Err (List (PRow ℝ))) :=
  match asymPoints S with
  | .error e => .ret (.error e)
  | .ok (x, mult) => (nearestNeighborsP S.motif S.cell x (k + 1) fuel).bind fun r =>
      .ret (r.bind fun dists => if (mult.map fun n : ℕ => (n : ℝ) / (S.motif.length : ℝ)).length ≠ dists.length then .error .bounds
        else .ok (lexsortRows lexsort (collapseRows k collapse tol (dists.map (·.drop 1)) (mult.map fun n : ℕ => (n : ℝ) / (S.motif.length : ℝ)))))

/-- A call by the user. -/
inductive Call
  | amd (D : ℕ) (S : PeriodicSet D) (k fuel : ℕ)
  | pdd (D : ℕ) (S : PeriodicSet D) (k : ℕ) (lexsort collapse : Bool) (tol : ℝ) (fuel : ℕ)

/-- What a call returns (an exception of the computation is a value here). -/
inductive Returned
  | amd (r : Except Err (List ℝ))
  | pdd (r : Except Err (List (PRow ℝ)))

/-- The call is about points in space of at least one dimension, and there is a point. (With no motif points the code does not return.) -/
def Call.Proper : Call → Prop
  | .amd D S _ _ => 0 < D ∧ S.motif ≠ []
  | .pdd D S _ _ _ _ _ => 0 < D ∧ S.motif ≠ []

/-- The steps of a call. -/
noncomputable def Call.prog : Call → Prog Returned
  | .amd _ S k fuel => (amdP S k fuel).bind fun r => .ret (.amd r)
  | .pdd _ S k lexsort collapse tol fuel => (pddP S k lexsort collapse tol fuel).bind fun r => .ret (.pdd r)

/-- One thread alone: what it returns (`none` if it raises) and the heap it leaves. -/
def Prog.run : Prog α → Heap → Option α × Heap
  | .ret a, h => (some a, h)
  | .raise _, h => (none, h)
  | .act f k, h => (k h).run (f h)

/-- The threads and what they share. -/
structure Threads where
  heap : Heap
  threads : List (Prog Returned)

/-- Some thread takes a step. -/
inductive Threads.Step : Threads → Threads → Prop
  | step (c : Threads) (i : ℕ) (f : Heap → Heap) (k : Heap → Prog Returned) (h : c.threads[i]? = some (.act f k)) : Threads.Step c ⟨f c.heap, c.threads.set i (k c.heap)⟩

/-- Threads take steps, in any order. -/
inductive Threads.Runs (c : Threads) : Threads → Prop
  | refl : Threads.Runs c c
  | tail {d e : Threads} : Threads.Runs c d → Threads.Step d e → Threads.Runs c e

/-- What the module state and the iterators handed out to the user can be after calls one after the other: calls of `AMD` and `PDD` that return, calls of
`_integer_lattice_generator` (from `nearest_neighbors_minval` or `generate_concentric_cloud`), and advancing the iterators that these returned. `made` lists the calls of
`AMD` and `PDD`. -/
inductive CallsMade : Heap → List ℕ → List Call → Prop
  | init : CallsMade {} [] []
  | call {h h' : Heap} {handed : List ℕ} {made : List Call} {r : Returned} (c : Call) : CallsMade h handed made → c.Proper → c.prog.run h = (some r, h') → CallsMade h' handed (c :: made)
  | generator {h h' : Heap} {handed : List ℕ} {made : List Call} {dims t : ℕ} : CallsMade h handed made → (generatorP dims).run h = (some t, h') → CallsMade h' (t :: handed) made
  | next {h h' : Heap} {handed : List ℕ} {made : List Call} {t : ℕ} {rows : List (List ℤ)} : CallsMade h handed made → t ∈ handed → (nextP t).run h = (some rows, h') →
      CallsMade h' handed made

end Amd
