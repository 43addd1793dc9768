import Verif.Model.Rounding
import Verif.Model.Compare

/-!
# `EMD` with rounded arithmetic

Model of `EMD` in `/repo/src/amd/compare.py:290-333` and `network_simplex` in `/repo/src/amd/_emd.py:22-199` as the machine runs them. The pivots work on integers, so that rounding
occurs only when weights and costs are turned into integers, in the distances of rows, and in the final quotients and products.
-/

namespace Amd

/-- `(x * fp_multiplier).astype(np.int64)`, `_emd.py:69, 70, 101, 105-108`, with a rounded product; truncation towards 0. -/
noncomputable def fpIntR (fl : ℝ → ℝ) (x : ℝ) : ℤ := if 0 ≤ fl (x * 100000000) then ⌊fl (x * 100000000)⌋ else ⌈fl (x * 100000000)⌉

/-- `dot` may be the dot product of `_emd.py:197` with rounded operations, in any order. -/
def FloatDot (fl : ℝ → ℝ) (dot : List (ℝ × ℝ) → ℝ) : Prop := ∀ l, l ≠ [] → DotR fl l (dot l)

/-- `network_simplex(source_demands, sink_demands, network_costs)`, `_emd.py:22-199`, with rounded operations; as `networkSimplex`. -/
noncomputable def networkSimplexR (fl : ℝ → ℝ) (dot : List (ℝ × ℝ) → ℝ) (s t : List ℝ) (costs : List (List ℝ)) (fuel : ℕ) : Except Err (ℝ × List (List ℝ)) := do
  let ci := costs.flatten.map (fpIntR fl)
  let caps := s.flatMap fun a => t.map fun b => fpIntR fl (min a b)
  let x ← simplexInt (s.map (fpIntR fl)) (t.map (fpIntR fl)) ci caps fuel
  let plan := x.map fun x : ℤ => fl ((x : ℝ) / 100000000)
  .ok (dot (List.zip plan (ci.map fun x : ℤ => fl ((x : ℝ) / 100000000))),
    (List.range s.length).map fun u => (List.range t.length).map fun v => plan.getD (u * t.length + v) 0)

/-- `cdist(pdd[:, 1:], pdd_[:, 1:], metric='chebyshev')` for one pair of rows, `compare.py:328`, with rounded differences. -/
noncomputable def chebyshevR (fl : ℝ → ℝ) (r s : List ℝ) : ℝ := (List.zipWith (fun a b => |fl (a - b)|) r s).foldr max 0

/-- `EMD(pdd, pdd_, return_transport=True)`, `compare.py:290-333`, with rounded operations; as `emd` with the default metric. -/
noncomputable def emdR (fl : ℝ → ℝ) (dot : List (ℝ × ℝ) → ℝ) (p q : List (PRow ℝ)) (fuel : ℕ) : Except Err (ℝ × List (List ℝ)) :=
  if p.any fun r => q.any fun r' => r.dists.length != r'.dists.length then .error .value
  else networkSimplexR fl dot (p.map fun r => r.weight) (q.map fun r => r.weight) (p.map fun r => q.map fun r' => chebyshevR fl r.dists r'.dists) fuel

/-- A sum as the machine may evaluate it: in any order and grouping. -/
inductive SumR (fl : ℝ → ℝ) : List ℝ → ℝ → Prop
  | one (x : ℝ) : SumR fl [x] x
  | add {l l' : List ℝ} {v v' : ℝ} : SumR fl l v → SumR fl l' v' → SumR fl (l ++ l') (fl (v + v'))
  | perm {l l' : List ℝ} {v : ℝ} : l.Perm l' → SumR fl l v → SumR fl l' v

/-- `total` may be `np.sum` with rounded operations. -/
def FloatSum (fl : ℝ → ℝ) (total : List ℝ → ℝ) : Prop := ∀ l, l ≠ [] → SumR fl l (total l)

/-- As `overlapAt`, `calculate.py:191`, with rounded differences. -/
noncomputable def overlapAtR (fl : ℝ → ℝ) (tol : ℝ) (dists : List (List ℝ)) (i j : ℕ) : Bool :=
  i != j && decide (chebyshevR fl (dists.getD (min i j) []) (dists.getD (max i j) []) ≤ tol)

/-- Lines 188-198 of `calculate.py` with rounded operations; as `collapseRows`. `np.average` without weights is a sum and a division. -/
noncomputable def collapseRowsR (fl : ℝ → ℝ) (total : List ℝ → ℝ) (k : ℕ) (collapse : Bool) (tol : ℝ) (dists : List (List ℝ)) (weights : List ℝ) : List (PRow ℝ) :=
  let n := dists.length
  let anyOverlap := (List.range n).any fun i => (List.range n).any fun j => overlapAtR fl tol dists i j
  if collapse && anyOverlap then
    (collapseIntoGroups n (overlapAtR fl tol dists)).map fun g =>
      { weight := total (g.map fun i => weights.getD i 0)
        dists := (List.range k).map fun j => fl (total (g.map fun i => (dists.getD i []).getD j 0) / (g.length : ℝ))
        group := g }
  else
    (List.range n).map fun i => { weight := weights.getD i 0, dists := dists.getD i [], group := [i] }

/-- `PDD(pset, k, lexsort, collapse, collapse_tol)`, `calculate.py:97-214`, with rounded operations; as `PDDR`, and with collapsing. -/
noncomputable def pddR (fl : ℝ → ℝ) (total : List ℝ → ℝ) {D : ℕ} (S : PeriodicSet D) (C : Computed S.motif.length D) (k : ℕ) (lexsort collapse : Bool) (tol : ℝ) (fuel : ℕ) :
    Except Err (List (PRow ℝ)) := do
  let (x, mult) ← asymPoints S
  let weights := mult.map fun n : ℕ => fl ((n : ℝ) / (S.motif.length : ℝ))
  let dists ← nearestNeighborsR C x.length (k + 1) fuel
  if weights.length ≠ dists.length then .error .bounds
  else .ok (lexsortRows lexsort (collapseRowsR fl total k collapse tol (dists.map (·.drop 1)) weights))

end Amd
