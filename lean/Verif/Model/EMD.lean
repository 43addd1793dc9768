import Verif.Model.Utils
import Mathlib.Data.Nat.Sqrt
import Mathlib.Algebra.Order.Floor.Defs
import Mathlib.Algebra.BigOperators.Group.List.Basic

/-!
# The network simplex behind `EMD`

Model of `/repo/src/amd/_emd.py`.

Representation. Arrays are functions on slots. The root of the spanning tree is node `-1` in the code; here it is `n`, the slot that
Python and numba give to index `-1` in the arrays of length `n + 1` (`parent`, `size`, `next_node`, `last_node`, `prev_node`). The
arrays `edge` and `potentials` have length `n` only, so that index `-1` means slot `n - 1` there (`Net.slot`). The value `-2`
("none") of `parent` and `edge` is `none`; using it as an index or edge is `.error .bounds`. `while` loops have fuel; `.error .fuel`
stands for a loop that does not end. Integers are unbounded (the code has `int64`).
-/

namespace Amd

/-- The first element of `b :: l` with the smallest value of `r`. The loops of `_emd.py:234-243` and `348-356`. -/
def firstMin {α : Type*} (r : α → ℤ) : α → List α → α
  | b, [] => b
  | b, x :: l => if r x < r b then firstMin r x l else firstMin r b l

/-- The constant data set up by `network_simplex`, `_emd.py:62-125`: demands, tails, heads, costs and capacities of edges. -/
structure Net where
  ns : ℕ
  nt : ℕ
  dem : ℕ → ℤ
  tail : ℕ → ℕ
  head : ℕ → ℕ
  cost : ℕ → ℤ
  cap : ℕ → ℤ

namespace Net

/-- Number of nodes without the root, line 63. -/
def n (N : Net) : ℕ := N.ns + N.nt

/-- Number of edges between sources and sinks, line 64. -/
def e (N : Net) : ℕ := N.ns * N.nt

/-- `np.ceil(np.sqrt(e))`, line 65. -/
def B (N : Net) : ℕ := Nat.sqrt N.e + if Nat.sqrt N.e * Nat.sqrt N.e < N.e then 1 else 0

/-- Index of a node in the arrays `edge` and `potentials` of length `n`. -/
def slot (N : Net) (v : ℕ) : ℕ := if v = N.n then N.n - 1 else v

end Net

/-- The arrays changed by the pivot loop, lines 127-151. -/
structure NState where
  flow : ℕ → ℤ
  pot : ℕ → ℤ
  parent : ℕ → Option ℕ
  size : ℕ → ℤ
  next : ℕ → ℕ
  prev : ℕ → ℕ
  last : ℕ → ℕ
  edge : ℕ → Option ℕ

/-- `a[i] = v`. -/
@[noinline] def put {α : Type*} (a : ℕ → α) (i : ℕ) (v : α) : ℕ → α := fun j => if j = i then v else a j

variable (N : Net)

/-- `_reduced_cost`, lines 202-208. -/
def redCost (st : NState) (i : ℕ) : ℤ :=
  let c := N.cost i - st.pot (N.slot (N.tail i)) + st.pot (N.slot (N.head i))
  if st.flow i = 0 then c else -c

/-- The next block of edges, lines 222-232. -/
def blockInds (f : ℕ) : List ℕ :=
  if f + N.B ≤ N.e then List.range' f N.B else List.range' f (N.e - f) ++ List.range (f + N.B - N.e)

/-- The new value of `f`, lines 223, 227 and 235. -/
def blockNext (f : ℕ) : ℕ := if f + N.B ≤ N.e then f + N.B else f + N.B - N.e

/-- `_find_entering_edges`, lines 211-261, with `m` blocks left to look at: edge `i`, its end points `p`, `q` in the direction of the
flow change, and the new `f`; `none` if there is no entering edge. -/
def findEntering (st : NState) : ℕ → ℕ → Option (ℕ × ℕ × ℕ × ℕ)
  | 0, _ => none
  | m + 1, f =>
    let i := firstMin (redCost N st) ((blockInds N f).headD 0) (blockInds N f).tail
    if 0 ≤ redCost N st i then findEntering st m (blockNext N f)
    else if st.flow i = 0 then some (i, N.tail i, N.head i, blockNext N f)
    else some (i, N.head i, N.tail i, blockNext N f)

/-- `parent[v]`, to be used as a node. -/
def parentE (st : NState) (v : ℕ) : Except Err ℕ :=
  match st.parent v with
  | none => .error .bounds
  | some u => .ok u

/-- `edge[v]`, to be used as an edge. -/
def edgeE (st : NState) (v : ℕ) : Except Err ℕ :=
  match st.edge (N.slot v) with
  | none => .error .bounds
  | some k => .ok k

/-- `_find_apex`, lines 264-287. One round of this recursion is one assignment of the nested `while` loops, whose conditions exclude
each other. -/
def findApex (st : NState) : ℕ → ℕ → ℕ → Except Err ℕ
  | 0, _, _ => .error .fuel
  | f + 1, p, q =>
    if st.size p < st.size q then do
      let p' ← parentE st p
      findApex st f p' q
    else if st.size q < st.size p then do
      let q' ← parentE st q
      findApex st f p q'
    else if p ≠ q then do
      let p' ← parentE st p
      let q' ← parentE st q
      findApex st f p' q'
    else .ok p

/-- `_trace_path`, lines 290-304. -/
def tracePath (st : NState) : ℕ → ℕ → ℕ → Except Err (List ℕ × List ℕ)
  | 0, _, _ => .error .fuel
  | f + 1, p, w =>
    if p = w then .ok ([p], [])
    else do
      let k ← edgeE N st p
      let u ← parentE st p
      let r ← tracePath st f u w
      .ok (p :: r.1, k :: r.2)

/-- Fuel for the loops inside a pivot. -/
def innerFuel : ℕ := 2 * N.n + 3

/-- `_find_cycle`, lines 307-339: nodes and edges of the cycle, from the apex. -/
def findCycle (st : NState) (i p q : ℕ) : Except Err (List ℕ × List ℕ) := do
  let w ← findApex st (innerFuel N) p q
  let c ← tracePath N st (innerFuel N) p w
  let r ← tracePath N st (innerFuel N) q w
  .ok (c.1.reverse ++ r.1.dropLast, c.2.reverse ++ (if c.2.getLast? = some i then [] else [i]) ++ r.2)

/-- Residual capacity of edge `k` when traversed from node `s`, lines 167, 349, 353. -/
def resCap (st : NState) (k s : ℕ) : ℤ := if N.tail k = s then N.cap k - st.flow k else st.flow k

/-- `_find_leaving_edge`, lines 342-359: edge, and its end points in the direction of the cycle. `cyc` lists edges and nodes. -/
def findLeaving (st : NState) (cyc : List (ℕ × ℕ)) : ℕ × ℕ × ℕ :=
  let js := firstMin (fun c : ℕ × ℕ => resCap N st c.1 c.2) (cyc.headD (0, 0)) cyc.tail
  (js.1, js.2, if N.tail js.1 = js.2 then N.head js.1 else N.tail js.1)

/-- "Augment flows", lines 169-174. -/
def augment (r : ℤ) : List (ℕ × ℕ) → NState → NState
  | [], st => st
  | (k, p) :: l, st => augment r l { st with flow := put st.flow k (if N.tail k = p then st.flow k + r else st.flow k - r) }

/-- The loop of `_remove_edge`, lines 381-385. -/
def shrinkLoop (sizeT : ℤ) (lastT prevT : ℕ) : ℕ → Option ℕ → NState → Except Err NState
  | _, none, st => .ok st
  | 0, some _, _ => .error .fuel
  | f + 1, some s, st =>
    shrinkLoop sizeT lastT prevT f (st.parent s)
      { st with size := put st.size s (st.size s - sizeT), last := if st.last s = lastT then put st.last s prevT else st.last }

/-- `_remove_edge`, lines 362-385. -/
def removeEdge (s t : ℕ) (st : NState) : Except Err NState :=
  let sizeT := st.size t
  let prevT := st.prev t
  let lastT := st.last t
  let nextLastT := st.next lastT
  let next := put (put st.next prevT nextLastT) lastT t
  let prev := put (put st.prev nextLastT prevT) t lastT
  shrinkLoop sizeT lastT prevT (innerFuel N) (some s)
    { st with parent := put st.parent t none, edge := put st.edge (N.slot t) none, next := next, prev := prev }

/-- The list of ancestors of `q` from the root of its tree down to `q`, lines 392-396. -/
def ancestors (st : NState) : ℕ → Option ℕ → List ℕ → Except Err (List ℕ)
  | _, none, acc => .ok acc
  | 0, some _, _ => .error .fuel
  | f + 1, some q, acc => ancestors st f (st.parent q) (q :: acc)

/-- One round of the loop of `_make_root`, lines 398-427. -/
def rotate (p q : ℕ) (st : NState) : NState :=
  let sizeP := st.size p
  let lastP := st.last p
  let prevQ := st.prev q
  let lastQ := st.last q
  let nextLastQ := st.next lastQ
  let parent := put (put st.parent p (some q)) q none
  let edge := put (put st.edge (N.slot p) (st.edge (N.slot q))) (N.slot q) none
  let size := put st.size p (sizeP - st.size q)
  let size := put size q sizeP
  let next := put (put st.next prevQ nextLastQ) lastQ q
  let prev := put (put st.prev nextLastQ prevQ) q lastQ
  let last := if lastP = lastQ then put st.last p prevQ else st.last
  let lastP := if lastP = lastQ then prevQ else lastP
  let prev := put prev p lastQ
  let next := put (put next lastQ p) lastP q
  let prev := put prev q lastP
  let last := put last q lastP
  { st with parent := parent, edge := edge, size := size, next := next, prev := prev, last := last }

/-- The loop of `_make_root` over consecutive ancestors. -/
def rotateAll : List ℕ → NState → NState
  | p :: q :: l, st => rotateAll (q :: l) (rotate N p q st)
  | _, st => st

/-- `_make_root`, lines 388-427. -/
def makeRoot (q : ℕ) (st : NState) : Except Err NState := do
  let a ← ancestors st (innerFuel N) (some q) []
  .ok (rotateAll N a st)

/-- The loop of `_add_edge`, lines 449-453. -/
def growLoop (sizeQ : ℤ) (lastP lastQ : ℕ) : ℕ → Option ℕ → NState → Except Err NState
  | _, none, st => .ok st
  | 0, some _, _ => .error .fuel
  | f + 1, some p, st =>
    growLoop sizeQ lastP lastQ f (st.parent p)
      { st with size := put st.size p (st.size p + sizeQ), last := if st.last p = lastP then put st.last p lastQ else st.last }

/-- `_add_edge`, lines 430-453. -/
def addEdge (i p q : ℕ) (st : NState) : Except Err NState :=
  let lastP := st.last p
  let nextLastP := st.next lastP
  let sizeQ := st.size q
  let lastQ := st.last q
  let next := put (put st.next lastP q) lastQ nextLastP
  let prev := put (put st.prev q lastP) nextLastP lastQ
  growLoop sizeQ lastP lastQ (innerFuel N) (some p)
    { st with parent := put st.parent q (some p), edge := put st.edge (N.slot q) (some i), next := next, prev := prev }

/-- The loop of `_update_potentials`, lines 469-472. -/
def potLoop (d : ℤ) (l : ℕ) (next : ℕ → ℕ) : ℕ → ℕ → (ℕ → ℤ) → Except Err (ℕ → ℤ)
  | 0, _, _ => .error .fuel
  | f + 1, q, pot =>
    if q = l then .ok pot
    else potLoop d l next f (next q) (put pot (N.slot (next q)) (pot (N.slot (next q)) + d))

/-- `_update_potentials`, lines 456-472. -/
def updatePotentials (i p q : ℕ) (st : NState) : Except Err NState := do
  let d := if q = N.head i then st.pot (N.slot p) - N.cost i - st.pot (N.slot q) else st.pot (N.slot p) + N.cost i - st.pot (N.slot q)
  let pot ← potLoop N d (st.last q) st.next (innerFuel N) q (put st.pot (N.slot q) (st.pot (N.slot q) + d))
  .ok { st with pot := pot }

/-- Whether `j` comes before `i` in the list of edges of the cycle, lines 182-188. -/
def leavesFirst (i j : ℕ) : List ℕ → Bool
  | [] => false
  | v :: l => if v = j then true else if v = i then false else leavesFirst i j l

/-- One round of the pivot loop after an entering edge is found, lines 163-193. -/
def pivot (i p q : ℕ) (st : NState) : Except Err NState := do
  let c ← findCycle N st i p q
  let cyc := c.2.zip c.1
  let lv := findLeaving N st cyc
  let j := lv.1
  let st := augment N (resCap N st j lv.2.1) cyc st
  if i = j then .ok st
  else do
    let s := if st.parent lv.2.2 ≠ some lv.2.1 then lv.2.2 else lv.2.1
    let t := if st.parent lv.2.2 ≠ some lv.2.1 then lv.2.1 else lv.2.2
    let p' := if leavesFirst i j c.2 then q else p
    let q' := if leavesFirst i j c.2 then p else q
    let st ← removeEdge N s t st
    let st ← makeRoot N q' st
    let st ← addEdge N i p' q' st
    updatePotentials N i p' q' st

/-- The pivot loop, lines 153-193. -/
def pivotLoop : ℕ → ℕ → NState → Except Err NState
  | 0, _, _ => .error .fuel
  | fuel + 1, f, st =>
    match findEntering N st ((N.e + N.B - 1) / N.B) f with
    | none => .ok st
    | some (i, p, q, f') =>
      match pivot N i p q st with
      | .error err => .error err
      | .ok st' => pivotLoop fuel f' st'

/-! ### Setting up -/

/-- `np.argmax`: the first index of the largest entry. -/
def argmax (l : List ℤ) : ℕ := firstMin (fun i => -l.getD i 0) 0 (List.range' 1 (l.length - 1))

/-- Add `d` to the largest entry, lines 74, 76. -/
def bumpMax (l : List ℤ) (d : ℤ) : List ℤ := l.set (argmax l) (l.getD (argmax l) 0 + d)

/-- Sources and sinks with equal sums, lines 71-76. -/
def balance (s t : List ℤ) : List ℤ × List ℤ :=
  let d := t.sum - s.sum
  if 0 < d then (bumpMax s d, t) else if d < 0 then (s, bumpMax t (-d)) else (s, t)

/-- The number 100_000_000 by which weights and costs are multiplied, line 66. -/
def fpMul : ℤ := 100000000

/-- Largest element of a list that is not empty, `np.amax`. -/
def maxZ (l : List ℤ) : ℤ := l.foldl max (l.headD 0)

/-- `faux_inf`, lines 111-117. -/
def fauxInf (s t costs caps : List ℤ) : ℤ := 3 * max (max (max costs.sum caps.sum) (maxZ s)) (maxZ t)

/-- The arrays of nodes and edges, lines 78-125; `s`, `t` are the balanced integer weights, `costs`, `caps` the raveled matrices. -/
def mkNet (s t costs caps : List ℤ) : Net :=
  let ns := s.length
  let nt := t.length
  let e := ns * nt
  let n := ns + nt
  let dem := fun v => if v < ns then -s.getD v 0 else t.getD (v - ns) 0
  { ns := ns, nt := nt, dem := dem,
    tail := fun k => if k < e then k / nt else if 0 < dem (k - e) then n else k - e,
    head := fun k => if k < e then ns + k % nt else if 0 < dem (k - e) then n else k - e,
    cost := fun k => if k < e then costs.getD k 0 else fauxInf s t costs caps,
    cap := fun k => if k < e then caps.getD k 0 else fpMul }

/-- The arrays before the first pivot, lines 127-151. -/
def initState (s t costs caps : List ℤ) : NState :=
  let N := mkNet s t costs caps
  let M := fauxInf s t costs caps
  { flow := fun k => if k < N.e then 0 else if k < N.e + N.ns then s.getD (k - N.e) 0 else t.getD (k - N.e - N.ns) 0,
    pot := fun v => if N.dem v ≤ 0 then M else -M,
    parent := fun v => if v = N.n then none else some N.n,
    size := fun v => if v = N.n then N.n + 1 else 1,
    next := fun v => if v = N.n then 0 else v + 1,
    prev := fun v => if v = 0 then N.n else v - 1,
    last := fun v => if v = N.n then N.n - 1 else v,
    edge := fun v => some (N.e + v) }

/-- `network_simplex` on integers: the flows of the edges between sources and sinks, row by row. Without sources or sinks `np.amax`
raises ValueError (lines 115, 116). -/
def simplexInt (s t costs caps : List ℤ) (fuel : ℕ) : Except Err (List ℤ) :=
  if s = [] ∨ t = [] then .error .value
  else do
    let st := balance s t
    let N := mkNet st.1 st.2 costs caps
    let r ← pivotLoop N fuel 0 (initState st.1 st.2 costs caps)
    .ok ((List.range N.e).map r.flow)

/-- `(x * fp_multiplier).astype(np.int64)`, lines 69, 70, 101 and 106: truncation towards 0. -/
noncomputable def fpInt (x : ℝ) : ℤ := if 0 ≤ x then ⌊x * 100000000⌋ else ⌈x * 100000000⌉

/-- `network_simplex(source_demands, sink_demands, network_costs)`, `_emd.py:22-199`, with the cost matrix as a list of rows. Returns
the distance and the transport plan as a list of rows (`reshape`, line 199). -/
noncomputable def networkSimplex (s t : List ℝ) (costs : List (List ℝ)) (fuel : ℕ) : Except Err (ℝ × List (List ℝ)) := do
  let ci := costs.flatten.map fpInt
  let caps := s.flatMap fun a => t.map fun b => fpInt (min a b)
  let fl ← simplexInt (s.map fpInt) (t.map fpInt) ci caps fuel
  let plan := fl.map fun x : ℤ => (x : ℝ) / 100000000
  .ok ((List.zipWith (fun x c : ℝ => x * c) plan (ci.map fun x : ℤ => (x : ℝ) / 100000000)).sum,
    (List.range s.length).map fun u => (List.range t.length).map fun v => plan.getD (u * t.length + v) 0)

end Amd
