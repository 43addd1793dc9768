import Verif.Model.RoundingEmd

/-!
# `EMD` with integers of the machine

Model of `/repo/src/amd/_emd.py` with numbers of type `int64`, which wrap around: the definitions of `Verif.Model.EMD` with `add64`, `sub64`, `neg64` and `mul64` wherever the code adds,
subtracts, negates or multiplies elements of the arrays. Node and edge numbers, which are positions in arrays, are natural numbers. Functions that only compare or copy numbers
(`_find_apex`, `_trace_path`, `_find_cycle`, `np.argmax`) are those of `Verif.Model.EMD`.
-/

namespace Amd

/-- The number of type `int64` that agrees with `x` modulo `2^64`. -/
def i64 (x : ℤ) : ℤ := Int.bmod x (2 ^ 64)

/-- `a + b` on `int64`. -/
def add64 (a b : ℤ) : ℤ := i64 (a + b)

/-- `a - b` on `int64`. -/
def sub64 (a b : ℤ) : ℤ := i64 (a - b)

/-- `-a` on `int64`. -/
def neg64 (a : ℤ) : ℤ := i64 (-a)

/-- `a * b` on `int64`. -/
def mul64 (a b : ℤ) : ℤ := i64 (a * b)

/-- `np.sum` of an `int64` array, `_emd.py:71, 113, 114`. -/
def sum64 (l : List ℤ) : ℤ := l.foldl add64 0

variable (N : Net)

/-- `_reduced_cost`, `_emd.py:202-208`. -/
def redCost64 (st : NState) (i : ℕ) : ℤ :=
  let c := add64 (sub64 (N.cost i) (st.pot (N.slot (N.tail i)))) (st.pot (N.slot (N.head i)))
  if st.flow i = 0 then c else neg64 c

/-- `_find_entering_edges`, `_emd.py:211-261`, with `m` blocks left to look at. -/
def findEntering64 (st : NState) : ℕ → ℕ → Option (ℕ × ℕ × ℕ × ℕ)
  | 0, _ => none
  | m + 1, f =>
    let i := firstMin (redCost64 N st) ((blockInds N f).headD 0) (blockInds N f).tail
    if 0 ≤ redCost64 N st i then findEntering64 st m (blockNext N f)
    else if st.flow i = 0 then some (i, N.tail i, N.head i, blockNext N f)
    else some (i, N.head i, N.tail i, blockNext N f)

/-- Residual capacity, `_emd.py:167, 349, 353`. -/
def resCap64 (st : NState) (k s : ℕ) : ℤ := if N.tail k = s then sub64 (N.cap k) (st.flow k) else st.flow k

/-- `_find_leaving_edge`, `_emd.py:342-359`. -/
def findLeaving64 (st : NState) (cyc : List (ℕ × ℕ)) : ℕ × ℕ × ℕ :=
  let js := firstMin (fun c : ℕ × ℕ => resCap64 N st c.1 c.2) (cyc.headD (0, 0)) cyc.tail
  (js.1, js.2, if N.tail js.1 = js.2 then N.head js.1 else N.tail js.1)

/-- "Augment flows", `_emd.py:169-174`. -/
def augment64 (r : ℤ) : List (ℕ × ℕ) → NState → NState
  | [], st => st
  | (k, p) :: l, st => augment64 r l { st with flow := put st.flow k (if N.tail k = p then add64 (st.flow k) r else sub64 (st.flow k) r) }

/-- The loop of `_remove_edge`, `_emd.py:381-385`. -/
def shrinkLoop64 (sizeT : ℤ) (lastT prevT : ℕ) : ℕ → Option ℕ → NState → Except Err NState
  | _, none, st => .ok st
  | 0, some _, _ => .error .fuel
  | f + 1, some s, st =>
    shrinkLoop64 sizeT lastT prevT f (st.parent s)
      { st with size := put st.size s (sub64 (st.size s) sizeT), last := if st.last s = lastT then put st.last s prevT else st.last }

/-- `_remove_edge`, `_emd.py:362-385`. -/
def removeEdge64 (s t : ℕ) (st : NState) : Except Err NState :=
  let sizeT := st.size t
  let prevT := st.prev t
  let lastT := st.last t
  let nextLastT := st.next lastT
  let next := put (put st.next prevT nextLastT) lastT t
  let prev := put (put st.prev nextLastT prevT) t lastT
  shrinkLoop64 sizeT lastT prevT (innerFuel N) (some s)
    { st with parent := put st.parent t none, edge := put st.edge (N.slot t) none, next := next, prev := prev }

/-- One round of the loop of `_make_root`, `_emd.py:398-427`. -/
def rotate64 (p q : ℕ) (st : NState) : NState :=
  let sizeP := st.size p
  let lastP := st.last p
  let prevQ := st.prev q
  let lastQ := st.last q
  let nextLastQ := st.next lastQ
  let parent := put (put st.parent p (some q)) q none
  let edge := put (put st.edge (N.slot p) (st.edge (N.slot q))) (N.slot q) none
  let size := put st.size p (sub64 sizeP (st.size q))
  let size := put size q sizeP
  let next := put (put st.next prevQ nextLastQ) lastQ q
  let prev := put (put st.prev nextLastQ prevQ) q lastQ
  let last := if lastP = lastQ then put st.last p prevQ else st.last
  let lastP := if lastP = lastQ then prevQ else lastP
  let prev := put prev p lastQ
  let next := put (put next lastQ p) lastP q
  let prev := put prev q lastP
  let last := put last q lastP
  { st with parent := parent, edge := edge, size := size, next := next, prev := prev, last := last }

/-- The loop of `_make_root` over consecutive ancestors, `_emd.py:398-427`. -/
def rotateAll64 : List ℕ → NState → NState
  | p :: q :: l, st => rotateAll64 (q :: l) (rotate64 N p q st)
  | _, st => st

/-- `_make_root`, `_emd.py:388-427`. -/
def makeRoot64 (q : ℕ) (st : NState) : Except Err NState := do
  let a ← ancestors st (innerFuel N) (some q) []
  .ok (rotateAll64 N a st)

/-- The loop of `_add_edge`, `_emd.py:449-453`. -/
def growLoop64 (sizeQ : ℤ) (lastP lastQ : ℕ) : ℕ → Option ℕ → NState → Except Err NState
  | _, none, st => .ok st
  | 0, some _, _ => .error .fuel
  | f + 1, some p, st =>
    growLoop64 sizeQ lastP lastQ f (st.parent p)
      { st with size := put st.size p (add64 (st.size p) sizeQ), last := if st.last p = lastP then put st.last p lastQ else st.last }

/-- `_add_edge`, `_emd.py:430-453`. -/
def addEdge64 (i p q : ℕ) (st : NState) : Except Err NState :=
  let lastP := st.last p
  let nextLastP := st.next lastP
  let sizeQ := st.size q
  let lastQ := st.last q
  let next := put (put st.next lastP q) lastQ nextLastP
  let prev := put (put st.prev q lastP) nextLastP lastQ
  growLoop64 sizeQ lastP lastQ (innerFuel N) (some p)
    { st with parent := put st.parent q (some p), edge := put st.edge (N.slot q) (some i), next := next, prev := prev }

/-- The loop of `_update_potentials`, `_emd.py:469-472`. -/
def potLoop64 (d : ℤ) (l : ℕ) (next : ℕ → ℕ) : ℕ → ℕ → (ℕ → ℤ) → Except Err (ℕ → ℤ)
  | 0, _, _ => .error .fuel
  | f + 1, q, pot =>
    if q = l then .ok pot
    else potLoop64 d l next f (next q) (put pot (N.slot (next q)) (add64 (pot (N.slot (next q))) d))

/-- `_update_potentials`, `_emd.py:456-472`. -/
def updatePotentials64 (i p q : ℕ) (st : NState) : Except Err NState := do
  let d := if q = N.head i then sub64 (sub64 (st.pot (N.slot p)) (N.cost i)) (st.pot (N.slot q))
    else sub64 (add64 (st.pot (N.slot p)) (N.cost i)) (st.pot (N.slot q))
  let pot ← potLoop64 N d (st.last q) st.next (innerFuel N) q (put st.pot (N.slot q) (add64 (st.pot (N.slot q)) d))
  .ok { st with pot := pot }

/-- One round of the pivot loop after an entering edge is found, `_emd.py:163-193`. -/
def pivot64 (i p q : ℕ) (st : NState) : Except Err NState := do
  let c ← findCycle N st i p q
  let cyc := c.2.zip c.1
  let lv := findLeaving64 N st cyc
  let j := lv.1
  let st := augment64 N (resCap64 N st j lv.2.1) cyc st
  if i = j then .ok st
  else do
    let s := if st.parent lv.2.2 ≠ some lv.2.1 then lv.2.2 else lv.2.1
    let t := if st.parent lv.2.2 ≠ some lv.2.1 then lv.2.1 else lv.2.2
    let p' := if leavesFirst i j c.2 then q else p
    let q' := if leavesFirst i j c.2 then p else q
    let st ← removeEdge64 N s t st
    let st ← makeRoot64 N q' st
    let st ← addEdge64 N i p' q' st
    updatePotentials64 N i p' q' st

/-- The pivot loop, `_emd.py:153-193`. -/
def pivotLoop64 : ℕ → ℕ → NState → Except Err NState
  | 0, _, _ => .error .fuel
  | fuel + 1, f, st =>
    match findEntering64 N st ((N.e + N.B - 1) / N.B) f with
    | none => .ok st
    | some (i, p, q, f') =>
      match pivot64 N i p q st with
      | .error err => .error err
      | .ok st' => pivotLoop64 fuel f' st'

/-! ### Setting up -/

/-- Add `d` to the largest entry, `_emd.py:74`. -/
def bumpMax64 (l : List ℤ) (d : ℤ) : List ℤ := l.set (argmax l) (add64 (l.getD (argmax l) 0) d)

/-- Subtract `d` from the largest entry, `_emd.py:76`. -/
def dropMax64 (l : List ℤ) (d : ℤ) : List ℤ := l.set (argmax l) (sub64 (l.getD (argmax l) 0) d)

/-- Sources and sinks with equal sums, `_emd.py:71-76`. -/
def balance64 (s t : List ℤ) : List ℤ × List ℤ :=
  let d := sub64 (sum64 t) (sum64 s)
  if 0 < d then (bumpMax64 s d, t) else if d < 0 then (s, dropMax64 t d) else (s, t)

/-- `faux_inf`, `_emd.py:111-117`. -/
def fauxInf64 (s t costs caps : List ℤ) : ℤ := mul64 3 (max (max (max (sum64 costs) (sum64 caps)) (maxZ s)) (maxZ t))

/-- The arrays of nodes and edges, `_emd.py:78-125`; as `mkNet`. -/
def mkNet64 (s t costs caps : List ℤ) : Net :=
  let ns := s.length
  let nt := t.length
  let e := ns * nt
  let n := ns + nt
  let dem := fun v => if v < ns then neg64 (s.getD v 0) else t.getD (v - ns) 0
  { ns := ns, nt := nt, dem := dem,
    tail := fun k => if k < e then k / nt else if 0 < dem (k - e) then n else k - e,
    head := fun k => if k < e then ns + k % nt else if 0 < dem (k - e) then n else k - e,
    cost := fun k => if k < e then costs.getD k 0 else fauxInf64 s t costs caps,
    cap := fun k => if k < e then caps.getD k 0 else fpMul }

/-- The arrays before the first pivot, `_emd.py:127-151`. -/
def initState64 (s t costs caps : List ℤ) : NState :=
  let N := mkNet64 s t costs caps
  let M := fauxInf64 s t costs caps
  { flow := fun k => if k < N.e then 0 else if k < N.e + N.ns then s.getD (k - N.e) 0 else t.getD (k - N.e - N.ns) 0,
    pot := fun v => if N.dem v ≤ 0 then M else neg64 M,
    parent := fun v => if v = N.n then none else some N.n,
    size := fun v => if v = N.n then N.n + 1 else 1,
    next := fun v => if v = N.n then 0 else v + 1,
    prev := fun v => if v = 0 then N.n else v - 1,
    last := fun v => if v = N.n then N.n - 1 else v,
    edge := fun v => some (N.e + v) }

/-- `network_simplex` on `int64`: the flows of the edges between sources and sinks, row by row; as `simplexInt`. -/
def simplexInt64 (s t costs caps : List ℤ) (fuel : ℕ) : Except Err (List ℤ) :=
  if s = [] ∨ t = [] then .error .value
  else do
    let st := balance64 s t
    let N := mkNet64 st.1 st.2 costs caps
    let r ← pivotLoop64 N fuel 0 (initState64 st.1 st.2 costs caps)
    .ok ((List.range N.e).map r.flow)

/-- `.astype(np.int64)`, `_emd.py:69, 70, 101, 106`: truncation towards 0. Outside the range of `int64` the result depends on the platform; `bad` says what it is. -/
noncomputable def toInt64 (bad : ℝ → ℤ) (x : ℝ) : ℤ :=
  let y : ℤ := if 0 ≤ x then ⌊x⌋ else ⌈x⌉
  if -2 ^ 63 ≤ y ∧ y < 2 ^ 63 then y else i64 (bad x)

/-- `network_simplex(source_demands, sink_demands, network_costs)`, `_emd.py:22-199`, with exact real numbers and with `int64`; as `networkSimplex`. -/
noncomputable def networkSimplex64 (bad : ℝ → ℤ) (s t : List ℝ) (costs : List (List ℝ)) (fuel : ℕ) : Except Err (ℝ × List (List ℝ)) := do
  let ci := costs.flatten.map fun x => toInt64 bad (x * 100000000)
  let caps := s.flatMap fun a => t.map fun b => toInt64 bad (min a b * 100000000)
  let x ← simplexInt64 (s.map fun x => toInt64 bad (x * 100000000)) (t.map fun x => toInt64 bad (x * 100000000)) ci caps fuel
  let plan := x.map fun x : ℤ => (x : ℝ) / 100000000
  .ok ((List.zipWith (fun x c : ℝ => x * c) plan (ci.map fun x : ℤ => (x : ℝ) / 100000000)).sum,
    (List.range s.length).map fun u => (List.range t.length).map fun v => plan.getD (u * t.length + v) 0)

/-- `EMD(pdd, pdd_, metric, return_transport=True)`, `compare.py:290-333`, with exact real numbers and with `int64`; as `emd`. -/
noncomputable def emd64 (bad : ℝ → ℤ) (metric : List ℝ → List ℝ → ℝ) (p q : List (PRow ℝ)) (fuel : ℕ) : Except Err (ℝ × List (List ℝ)) :=
  if p.any fun r => q.any fun r' => r.dists.length != r'.dists.length then .error .value
  else networkSimplex64 bad (p.map fun r => r.weight) (q.map fun r => r.weight) (p.map fun r => q.map fun r' => metric r.dists r'.dists) fuel

/-- `network_simplex(source_demands, sink_demands, network_costs)`, `_emd.py:22-199`, with rounded operations and with `int64`; as `networkSimplexR`. -/
noncomputable def networkSimplexR64 (fl : ℝ → ℝ) (bad : ℝ → ℤ) (dot : List (ℝ × ℝ) → ℝ) (s t : List ℝ) (costs : List (List ℝ)) (fuel : ℕ) : Except Err (ℝ × List (List ℝ)) := do
  let ci := costs.flatten.map fun x => toInt64 bad (fl (x * 100000000))
  let caps := s.flatMap fun a => t.map fun b => toInt64 bad (fl (min a b * 100000000))
  let x ← simplexInt64 (s.map fun x => toInt64 bad (fl (x * 100000000))) (t.map fun x => toInt64 bad (fl (x * 100000000))) ci caps fuel
  let plan := x.map fun x : ℤ => fl ((x : ℝ) / 100000000)
  .ok (dot (List.zip plan (ci.map fun x : ℤ => fl ((x : ℝ) / 100000000))),
    (List.range s.length).map fun u => (List.range t.length).map fun v => plan.getD (u * t.length + v) 0)

/-- `EMD(pdd, pdd_, return_transport=True)`, `compare.py:290-333`, with rounded operations and with `int64`; as `emdR`. -/
noncomputable def emdR64 (fl : ℝ → ℝ) (bad : ℝ → ℤ) (dot : List (ℝ × ℝ) → ℝ) (p q : List (PRow ℝ)) (fuel : ℕ) : Except Err (ℝ × List (List ℝ)) :=
  if p.any fun r => q.any fun r' => r.dists.length != r'.dists.length then .error .value
  else networkSimplexR64 fl bad dot (p.map fun r => r.weight) (q.map fun r => r.weight) (p.map fun r => q.map fun r' => chebyshevR fl r.dists r'.dists) fuel

end Amd
