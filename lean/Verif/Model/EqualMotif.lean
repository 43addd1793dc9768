import Verif.Model.Pairwise
import Mathlib.LinearAlgebra.Matrix.NonsingularInverse
import Mathlib.Algebra.Order.Floor.Ring

/-!
# `PeriodicSet._equal_cell_and_motif`

Model of `/repo/src/amd/periodicset.py:110-134`, with exact arithmetic.
-/

namespace Amd

variable {D : ℕ}

/-- `np.isclose(a, b)` with the default tolerances, for finite numbers. -/
noncomputable def isClose (a b : ℝ) : Bool := open Classical in decide (|a - b| ≤ 1 / 100000000 + 1 / 100000 * |b|)

/-- `np.allclose(cell, other.cell)`. -/
noncomputable def allClose (c c' : Fin D → Pt D ℝ) : Bool := (List.finRange D).all fun i => (List.finRange D).all fun j => isClose (c i j) (c' i j)

/-- `np.mod(motif @ cell_inv, 1)`, `periodicset.py:123-125`. -/
noncomputable def fracCoords (cell : Fin D → Pt D ℝ) (motif : List (Pt D ℝ)) : List (Pt D ℝ) :=
  motif.map fun p j => Int.fract (Matrix.vecMul p (Matrix.of cell)⁻¹ j)

/-- `np.amax(l)` for a list of non-negative numbers (ValueError for an empty list). -/
noncomputable def amaxNonneg : List ℝ → Except Err ℝ
  | [] => .error .value
  | x :: l => .ok (l.foldl max x)

/-- `np.amin(l)` (ValueError for an empty list). -/
noncomputable def amin : List ℝ → Except Err ℝ
  | [] => .error .value
  | x :: l => .ok (l.foldl min x)

/-- Entries of `diffs`, `periodicset.py:126-128`: `x` is a row of `fm1`, `y` of `fm2`. -/
noncomputable def pbcDiff (y x : Pt D ℝ) : Except Err ℝ := amaxNonneg (List.ofFn fun j => min |y j - x j| |(|y j - x j| - 1)|)

/-- `PeriodicSet._equal_cell_and_motif(self, other)`, `periodicset.py:110-134`. Both sets have the same dimension. `np.linalg.inv` raises LinAlgError,
a ValueError, for a singular matrix. -/
noncomputable def equalCellAndMotif (S T : PeriodicSet D) : Except Err Bool :=
  if S.motif.length ≠ T.motif.length ∨ allClose S.cell T.cell = false then .ok false
  else if open Classical in (Matrix.of S.cell).det = 0 then .error .value
  else
    let fm1 := fracCoords S.cell S.motif
    let fm2 := fracCoords S.cell T.motif
    (mapE (fun y => mapE (fun x => pbcDiff y x) fm1) fm2).bind fun diffs =>
      (mapE (fun i => amin (diffs.map fun row => row.getD i 0)) (List.range fm1.length)).bind fun min0 =>
        (mapE amin diffs).map fun min1 =>
          (List.zipWith (fun a b => open Classical in decide (a ≤ 1 / 100000000) || decide (b ≤ 1 / 100000000)) min0 min1).all id

end Amd
