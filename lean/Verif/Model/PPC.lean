import Verif.Model.NearestNeighbors
import Mathlib.LinearAlgebra.Matrix.Determinant.Basic
import Mathlib.Analysis.SpecialFunctions.Pow.Real
import Mathlib.Analysis.SpecialFunctions.Trigonometric.Basic

/-!
# Point packing coefficient

Model of `PPC` and `AMD_estimate`, `/repo/src/amd/calculate.py:382-448`.
-/

namespace Amd

/-- `sphere_vol`, `calculate.py:418-423`. -/
noncomputable def sphereVol (n : ℕ) : ℝ :=
  let t := n / 2
  if n % 2 = 0 then Real.pi ^ t / (t.factorial : ℝ)
  else 2 * (t.factorial : ℝ) * (4 * Real.pi) ^ t / (n.factorial : ℝ)

/-- `np.linalg.det(cell)`. -/
noncomputable def cellDet {D : ℕ} (cell : Fin D → Pt D ℝ) : ℝ := (Matrix.of cell).det

/-- `PPC(pset)`, `calculate.py:382-424`. For an empty motif or `n = 0` the code divides by zero; the model is only
meaningful for non-empty motifs in positive dimension. -/
noncomputable def PPC {D : ℕ} (S : PeriodicSet D) : ℝ :=
  (|cellDet S.cell| / ((S.motif.length : ℝ) * sphereVol D)) ^ (1 / (D : ℝ))

/-- `AMD_estimate(pset, k)`, `calculate.py:427-448`. -/
noncomputable def amdEstimate {D : ℕ} (S : PeriodicSet D) (k : ℕ) : List ℝ :=
  (List.range k).map fun i => PPC S * ((i + 1 : ℕ) : ℝ) ^ (1 / (D : ℝ))

end Amd
