import Verif.Model.Calculate

/-!
# `collapse_tol` as any float

`collapse_tol` is a Python `float`. `PDD` in `Model.Calculate` takes it as a real number; here it may also be `inf`, `-inf` or `nan`.
-/

namespace Amd

/-- A Python `float` that is passed as `collapse_tol`. -/
inductive Tolerance
  | num (t : ℝ)
  | inf
  | negInf
  | nan

open Classical in
/-- `x <= collapse_tol` for a finite `x`, `calculate.py:191`; comparisons with `nan` are False. -/
noncomputable def Tolerance.within : Tolerance → ℝ → Bool
  | .num t, x => decide (x ≤ t)
  | .inf, _ => true
  | .negInf, _ => false
  | .nan, _ => false

/-- As `overlapAt`, `calculate.py:191, 468`. -/
noncomputable def overlapTol (tol : Tolerance) (dists : List (List ℝ)) (i j : ℕ) : Bool :=
  i != j && tol.within (chebyshev (dists.getD (min i j) []) (dists.getD (max i j) []))

/-- As `collapseRows`, `calculate.py:188-198`. -/
noncomputable def collapseRowsTol (k : ℕ) (collapse : Bool) (tol : Tolerance) (dists : List (List ℝ)) (weights : List ℝ) : List (PRow ℝ) :=
  let n := dists.length
  let anyOverlap := (List.range n).any fun i => (List.range n).any fun j => overlapTol tol dists i j
  if collapse && anyOverlap then
    (collapseIntoGroups n (overlapTol tol dists)).map fun g =>
      { weight := (g.map fun i => weights.getD i 0).sum
        dists := meanRows k (g.map fun i => dists.getD i [])
        group := g }
  else
    (List.range n).map fun i => { weight := weights.getD i 0, dists := dists.getD i [], group := [i] }

/-- `PDD(pset, k, lexsort, collapse, collapse_tol)` for any float `collapse_tol`, `calculate.py:97-214`; as `PDD`. -/
noncomputable def PDDTol {D : ℕ} (S : PeriodicSet D) (k : ℕ) (lexsort collapse : Bool) (tol : Tolerance) (fuel : ℕ) : Except Err (List (PRow ℝ)) := do
  let (x, mult) ← asymPoints S
  let weights := mult.map fun n : ℕ => (n : ℝ) / (S.motif.length : ℝ)
  let dists ← nearestNeighbors S.motif S.cell x (k + 1) fuel
  if weights.length ≠ dists.length then .error .bounds
  else .ok (lexsortRows lexsort (collapseRowsTol k collapse tol (dists.map (·.drop 1)) weights))

end Amd
