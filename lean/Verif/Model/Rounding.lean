import Verif.Model.Calculate

/-!
# `nearest_neighbors` with rounded arithmetic

Model of `nearest_neighbors` in `/repo/src/amd/_nearest_neighbors.py:26-110` as the machine runs it. The numbers that the machine computes are parameters: the
order of operations is not fixed (`fastmath=True`, matrix products), so that they are not determined by the inputs alone. Everything else - which numbers are
computed, which are compared, selected, sorted, merged, and when the search ends - is as in `Verif.Model.NearestNeighbors`, and `nearestNeighborsR_exact` shows
that exact numbers give that model.
-/

namespace Amd

variable {m D : ℕ}

/-- The numbers computed in one call: squared lengths of lattice vectors (`_nearest_neighbors.py:86`), squared distances of query point `i` and points of the
cloud (lines 65, 68, 91, 92), the bound `(np.sqrt(max_sqd) + motif_diam) ** 2` from `max_sqd` and the square of `motif_diam` (lines 69, 79, 108), and square
roots (line 110). Each entry is computed once in a call, so that the values are functions of the site. -/
structure Computed (m D : ℕ) where
  norm : (Fin D → ℤ) → ℝ
  cost : ℕ → Site m D → ℝ
  bound : ℝ → ℝ → ℝ
  root : ℝ → ℝ

/-- The points of `_lattice_to_cloud` as sites, `_nearest_neighbors.py:410-421`. -/
def latticeSites (m : ℕ) {D : ℕ} (l : List (Fin D → ℤ)) : List (Site m D) := l.flatMap fun n => (List.finRange m).map fun i => (i, n)

/-- The loop, `_nearest_neighbors.py:81-110`, with `nx` query points; as `nnLoop`. -/
noncomputable def nnLoopR (C : Computed m D) (nx k : ℕ) (diamSq : ℝ) : ℕ → ℕ → List (List ℝ) → Except Err (List (List ℝ))
  | 0, _, _ => .error .fuel
  | f + 1, d, rows => do
    let maxSqd ← maxLast rows
    let lattice := (intLayer D d).filter fun n => decide (C.norm n < C.bound maxSqd diamSq)
    if lattice.isEmpty then .ok rows
    else
      let close := (latticeSites m lattice).filter fun s => (List.range nx).any fun i => decide (C.cost i s < maxSqd)
      if close.isEmpty then .ok rows
      else do
        let rows' ← mergeRows rows ((List.range nx).map fun i => kSmallest k (close.map (C.cost i)))
        nnLoopR C nx k diamSq f (d + 1) rows'

/-- `nearest_neighbors(motif, cell, x, k)` for a motif of `m` points and `nx` query points, `_nearest_neighbors.py:61-110`; as `nearestNeighborsSq`, and the
square roots. -/
noncomputable def nearestNeighborsR (C : Computed m D) (nx k fuel : ℕ) : Except Err (List (List ℝ)) := do
  let layers := numLayers D m k
  let sqdists := (List.range nx).map fun i => (latticeSites m (layersUpTo D layers)).map (C.cost i)
  let diamSq ← maxE (sqdists.flatMap (·.take m))
  let rows ← nnLoopR C nx k diamSq fuel layers (sqdists.map (kSmallest k))
  .ok (rows.map (·.map C.root))

/-- The numbers computed without rounding. -/
noncomputable def exactly (motif : List (Pt D ℝ)) (cell : Fin D → Pt D ℝ) (x : List (Pt D ℝ)) : Computed motif.length D where
  norm n := sqNorm (latVec cell n)
  cost i s := sqDist (x.getD i 0) (sitePos motif cell s)
  bound a b := (√a + √b) ^ 2
  root := Real.sqrt

/-- A sum of products as the machine may evaluate it, `fl` being the rounding of one operation: products are rounded before they are added or with the sum (fused
multiply-add), and the terms are added in any order and grouping. This covers `@`, `einsum` and the loops that are compiled with `fastmath=True`. Adding a term to
the initial 0 is exact and left out. -/
inductive DotR (fl : ℝ → ℝ) : List (ℝ × ℝ) → ℝ → Prop
  | term (x y : ℝ) : DotR fl [(x, y)] (fl (x * y))
  | fma (x y : ℝ) {l : List (ℝ × ℝ)} {v : ℝ} : DotR fl l v → DotR fl ((x, y) :: l) (fl (x * y + v))
  | add {l l' : List (ℝ × ℝ)} {v v' : ℝ} : DotR fl l v → DotR fl l' v' → DotR fl (l ++ l') (fl (v + v'))
  | perm {l l' : List (ℝ × ℝ)} {v : ℝ} : l.Perm l' → DotR fl l v → DotR fl l' v

/-- The numbers `C` may be computed by `nearest_neighbors(motif, cell, motif[inds], k)` with rounded operations: lattice points `int_lattice @ cell`
(`_nearest_neighbors.py:65, 84`), their squared lengths (line 86), `motif + translation` (line 419), sums of squared differences of coordinates (lines 430-434),
`np.sqrt` and the bound (lines 69, 79, 108, 110). -/
def FloatCall (fl : ℝ → ℝ) (motif : List (Pt D ℝ)) (cell : Fin D → Pt D ℝ) (inds : List (Fin motif.length)) (C : Computed motif.length D) : Prop :=
  ∃ lat : (Fin D → ℤ) → Pt D ℝ,
    (∀ n j, DotR fl (List.ofFn fun i => ((n i : ℝ), cell i j)) (lat n j)) ∧
    (∀ n, DotR fl (List.ofFn fun j => (lat n j, lat n j)) (C.norm n)) ∧
    (∀ i (h : i < inds.length) s, DotR fl (List.ofFn fun j =>
      (fl (motif[inds[i]] j - fl (motif[s.1] j + lat s.2 j)), fl (motif[inds[i]] j - fl (motif[s.1] j + lat s.2 j)))) (C.cost i s)) ∧
    (∀ a b, C.bound a b = fl (fl (fl √a + fl √b) ^ 2)) ∧
    ∀ a, C.root a = fl √a

/-- The means may be computed by `_average_columns_except_first` (`calculate.py:451-458`) with rounded operations: products with the weights, their sum and a
division. The sum of the multiplicities is a sum of integers and exact. -/
def FloatMean (fl : ℝ → ℝ) (mean : List ℕ → List ℝ → ℝ) : Prop :=
  ∀ (mult : List ℕ) (column : List ℝ), mult.length = column.length → mult ≠ [] →
    ∃ v, DotR fl (List.zipWith (fun (n : ℕ) d => (d, (n : ℝ))) mult column) v ∧ mean mult column = fl (v / (mult.map fun n : ℕ => (n : ℝ)).sum)

/-- `AMD(pset, k)`, `calculate.py:33-94`, with computed numbers; `mean weights column` is the mean that `_average_columns_except_first` (lines 451-458) computes
for one column. -/
noncomputable def AMDR (S : PeriodicSet D) (C : Computed S.motif.length D) (mean : List ℕ → List ℝ → ℝ) (k fuel : ℕ) : Except Err (List ℝ) := do
  let (x, mult) ← asymPoints S
  let dists ← nearestNeighborsR C x.length (k + 1) fuel
  .ok ((List.range k).map fun j => mean mult (dists.map (·.getD (j + 1) 0)))

/-- `PDD(pset, k, lexsort, collapse=False)`, `calculate.py:97-214`, with computed numbers; `quot` is the computed quotient of a multiplicity and the number of
motif points (lines 181, 184). -/
noncomputable def PDDR (S : PeriodicSet D) (C : Computed S.motif.length D) (quot : ℕ → ℕ → ℝ) (k : ℕ) (lexsort : Bool) (fuel : ℕ) :
    Except Err (List (PRow ℝ)) := do
  let (x, mult) ← asymPoints S
  let weights := mult.map fun n : ℕ => quot n S.motif.length
  let dists ← nearestNeighborsR C x.length (k + 1) fuel
  if weights.length ≠ dists.length then .error .bounds
  else .ok (lexsortRows lexsort (collapseRows k false 0 (dists.map (·.drop 1)) weights))

end Amd
