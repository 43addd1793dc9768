import Mathlib.Data.Fin.Tuple.Basic
import Mathlib.Algebra.BigOperators.Fin

/-!
# Integer lattice layers

Model of `_integer_lattice_generator`, `_reflect_positive_integer_lattice` and
`_integer_lattice_batches` in `/repo/src/amd/_nearest_neighbors.py`.

Lattice points with `dims` coordinates are functions `Fin dims → ℤ`; the code stores the same integers
as float64 (exact for all reachable sizes).
-/

namespace Amd

/-- `itertools.product(range(d + 1), repeat=n)`, in itertools order.
Models the iteration of `_nearest_neighbors.py:351`. -/
def productRange (d : ℕ) : (n : ℕ) → List (Fin n → ℕ)
  | 0 => [Fin.elim0]
  | n + 1 => (List.range (d + 1)).flatMap fun a => (productRange d n).map (Fin.cons a)

/-- The dictionary `ymax` (`_nearest_neighbors.py:346`): a missing key is created with value 0 before it is
read (lines 352-353), so the dictionary is a total function with default 0. -/
abbrev YMax (n : ℕ) := (Fin n → ℕ) → ℕ

/-- Body of the `for xy in product(...)` loop, `_nearest_neighbors.py:352-357`. The state is
(`ymax`, `positive_int_lattice`, `batch`). -/
def passStep {n : ℕ} (d : ℕ) (s : YMax n × List (Fin (n + 1) → ℕ) × Bool) (xy : Fin n → ℕ) :
    YMax n × List (Fin (n + 1) → ℕ) × Bool :=
  if ∑ i, xy i ^ 2 + s.1 xy ^ 2 ≤ d ^ 2 then
    (Function.update s.1 xy (s.1 xy + 1), s.2.1 ++ [Fin.snoc (α := fun _ => ℕ) xy (s.1 xy)], true)
  else s

/-- One run of the `for` loop with `batch = False` before it, `_nearest_neighbors.py:350-357`. -/
def pass {n : ℕ} (d : ℕ) (y : YMax n) (acc : List (Fin (n + 1) → ℕ)) :
    YMax n × List (Fin (n + 1) → ℕ) × Bool :=
  (productRange d n).foldl (passStep d) (y, acc, false)

/-- The inner `while True`, `_nearest_neighbors.py:349-359`; `none` means the fuel ran out. -/
def passes {n : ℕ} (d : ℕ) : ℕ → YMax n → List (Fin (n + 1) → ℕ) →
    Option (YMax n × List (Fin (n + 1) → ℕ))
  | 0, _, _ => none
  | f + 1, y, acc =>
    let r := pass d y acc
    if r.2.2 then passes d f r.1 r.2.1 else some (r.1, r.2.1)

/-- The outer `while True`, `_nearest_neighbors.py:347-362`: (`ymax` after yield number `d`,
the positive points of yield number `d`). Inner loop fuel `d + 2`; `genState_spec` shows it
never runs out. -/
def genState (n : ℕ) : ℕ → Option (YMax n × List (Fin (n + 1) → ℕ))
  | 0 => passes 0 2 (fun _ => 0) []
  | d + 1 => (genState n d).bind fun s => passes (d + 1) (d + 3) s.1 []

/-- Lines 387-396 of `_nearest_neighbors.py`: find the rightmost position `i` whose entry is not yet
`i + dims - n_reflections` (`lim` is that bound for the head of the list), increment it and restart
the following positions consecutively; `none` when every position is at its bound (the `else: break`).
The right-to-left scan is written as structural recursion. -/
def nextAxes : ℕ → List ℕ → Option (List ℕ)
  | _, [] => none
  | lim, a :: as =>
    match nextAxes (lim + 1) as with
    | some as' => some (a :: as')
    | none => if a = lim then none else some (List.range' (a + 1) (as.length + 1))

/-- The `while True` of `_nearest_neighbors.py:386-401`, listing the successive values of `axes`
beginning with the current one; `none` means the fuel ran out. -/
def axesFrom (lim : ℕ) : ℕ → List ℕ → Option (List (List ℕ))
  | 0, _ => none
  | f + 1, axes =>
    match nextAxes lim axes with
    | none => some [axes]
    | some axes' => (axesFrom lim f axes').map (axes :: ·)

/-- All values of `axes` for one `n_reflections = r`, `_nearest_neighbors.py:380,386-396`.
`axesList_spec` shows the fuel is enough. -/
def axesList (dims r : ℕ) : List (List ℕ) :=
  (axesFrom (dims - r) (2 ^ dims + 1) (List.range r)).getD []

/-- `off_axes` (lines 381, 398): no coordinate on the given axes is zero. -/
def offAxes {D : ℕ} (axes : List ℕ) (v : Fin D → ℕ) : Bool :=
  decide (∀ i : Fin D, (i : ℕ) ∈ axes → v i ≠ 0)

/-- `int_lattice[:, axes] *= -1` (lines 383, 400) on one point. -/
def reflectOn {D : ℕ} (axes : List ℕ) (v : Fin D → ℕ) : Fin D → ℤ :=
  fun i => if (i : ℕ) ∈ axes then -(v i : ℤ) else (v i : ℤ)

/-- `_reflect_positive_integer_lattice`, `_nearest_neighbors.py:366-406`. -/
def reflectPositive {D : ℕ} (pos : List (Fin D → ℕ)) : List (Fin D → ℤ) :=
  pos.map (fun v i => (v i : ℤ)) ++
    (List.range' 1 D).flatMap fun r =>
      (axesList D r).flatMap fun axes => (pos.filter (offAxes axes)).map (reflectOn axes)

/-- `_integer_lattice_generator(dims)`, `_nearest_neighbors.py:321-362`: its `d`-th yield.
`dims = 0` raises in the code (`repeat=-1`); it is modelled by no points and excluded in theorems. -/
def intLayer : (D : ℕ) → ℕ → List (Fin D → ℤ)
  | 0, _ => []
  | 1, 0 => [fun _ => 0]
  | 1, d + 1 => [fun _ => -((d : ℤ) + 1), fun _ => (d : ℤ) + 1]
  | n + 2, d => reflectPositive (((genState (n + 1) d).map (·.2)).getD [])

/-- The loop of `_integer_lattice_batches` (`_nearest_neighbors.py:297-304`) as the number of layers
taken: state `t` (layers taken so far) and `n_points`. `none`: fuel ran out. -/
def batchLoop (D m k : ℕ) : ℕ → ℕ → ℕ → Option ℕ
  | 0, _, _ => none
  | f + 1, t, nPoints =>
    if nPoints * m ≤ k then batchLoop D m k f (t + 1) (nPoints + (intLayer D t).length)
    else some (t + 1)

/-- `len(layers)` for `_integer_lattice_batches(dims, m, k)`, `_nearest_neighbors.py:268-305`: one layer, then
layers while `n_points * m <= k`, then one more. For `m = 0` the code loops forever; the model
then gives 0 and theorems assume `m > 0` (`batchLoop_spec`). -/
def numLayers (D m k : ℕ) : ℕ := (batchLoop D m k (k + 1) 1 1).getD 0

/-- The first `t` layers concatenated (`np.concatenate(layers)`, `_nearest_neighbors.py:258`). -/
def layersUpTo (D t : ℕ) : List (Fin D → ℤ) := (List.range t).flatMap (intLayer D)

end Amd
