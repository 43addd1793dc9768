import Verif.Model.NearestNeighbors
import Mathlib.Analysis.SpecialFunctions.Trigonometric.Inverse
import Mathlib.Data.Fin.VecNotation

/-!
# Cell parameters and cells

Model of `/repo/src/amd/utils.py`. Degrees are real numbers; `np.cos`, `np.sin`, `np.arccos`, `np.sqrt` are the real
functions. A division by zero raises (numba's default error model): `.error .zeroDiv`.
-/

namespace Amd

/-- Exceptions of the functions in this file. -/
inductive UErr
  | value
  | zeroDiv
  | runtime
  | exhausted  -- not an exception: the supplied stream of random numbers is used up
  deriving DecidableEq, Repr

/-- `diameter(cell)`, `utils.py:21-54`. -/
noncomputable def diameter : (D : ℕ) → (Fin D → Pt D ℝ) → Except UErr ℝ
  | 1, cell => .ok (cell 0 0)
  | 2, cell => .ok √(max (sqNorm (cell 0 + cell 1)) (sqNorm (cell 0 - cell 1)))
  | 3, cell => .ok √(max (max (max (sqNorm (cell 0 + cell 1 + cell 2)) (sqNorm (cell 0 + cell 1 - cell 2)))
      (sqNorm (cell 0 - cell 1 + cell 2))) (sqNorm (-cell 0 + cell 1 + cell 2)))
  | _, _ => .error .value

/-- `np.deg2rad`. -/
noncomputable def deg2rad (x : ℝ) : ℝ := x * (Real.pi / 180)

/-- `np.rad2deg`. -/
noncomputable def rad2deg (x : ℝ) : ℝ := x * (180 / Real.pi)

/-- `eps = 2 * np.spacing(90)`, `utils.py:77`: twice the gap between doubles at 90. -/
noncomputable def angleEps : ℝ := 2 * 2 ^ (-46 : ℤ)

/-- `cos_alpha` etc., `utils.py:79-81`. -/
noncomputable def snapCos (al : ℝ) : ℝ := if |(|al| - 90)| < angleEps then 0 else Real.cos (deg2rad al)

/-- `sin_gamma`, `utils.py:83-88`. -/
noncomputable def snapSin (ga : ℝ) : ℝ :=
  if |ga - 90| < angleEps then 1 else if |ga + 90| < angleEps then -1 else Real.sin (deg2rad ga)

/-- Six cell parameters in the order of the code. -/
structure Cellpar where
  (a b c al be ga : ℝ)

/-- `cellpar_to_cell(cellpar)`, `utils.py:57-102`. -/
noncomputable def cellparToCell (p : Cellpar) : Except UErr (Fin 3 → Pt 3 ℝ) :=
  let cosAlpha := snapCos p.al
  let cosBeta := snapCos p.be
  let cosGamma := snapCos p.ga
  let sinGamma := snapSin p.ga
  if sinGamma = 0 then .error .zeroDiv
  else
    let cy := (cosAlpha - cosBeta * cosGamma) / sinGamma
    let czSqr := 1 - cosBeta ^ 2 - cy ^ 2
    if czSqr < 0 then .error .value
    else .ok ![![p.a, 0, 0], ![p.b * cosGamma, p.b * sinGamma, 0], ![p.c * cosBeta, p.c * cy, p.c * √czSqr]]

/-- `cellpar_to_cell_2D(cellpar)`, `utils.py:105-129`. -/
noncomputable def cellparToCell2D (a b alpha : ℝ) : Fin 2 → Pt 2 ℝ :=
  ![![a, 0], ![b * Real.cos (deg2rad alpha), b * Real.sin (deg2rad alpha)]]

/-- `np.linalg.norm`. -/
noncomputable def vnorm {D : ℕ} (v : Pt D ℝ) : ℝ := √(sqNorm v)

/-- `np.dot`. -/
def vdot {D : ℕ} (v w : Pt D ℝ) : ℝ := ∑ j, v j * w j

/-- `rad2deg(arccos(dot(v, w) / (lv * lw)))` with the division checked, e.g. `utils.py:155-157`. (Over the reals the
argument of `arccos` is always between -1 and 1.) -/
noncomputable def angleOf {D : ℕ} (v w : Pt D ℝ) : Except UErr ℝ :=
  if vnorm v * vnorm w = 0 then .error .zeroDiv
  else .ok (rad2deg (Real.arccos (vdot v w / (vnorm v * vnorm w))))

/-- `cell_to_cellpar(cell)`, `utils.py:132-164`. -/
noncomputable def cellToCellpar (cell : Fin 3 → Pt 3 ℝ) : Except UErr Cellpar := do
  let al ← angleOf (cell 1) (cell 2)
  let be ← angleOf (cell 0) (cell 2)
  let ga ← angleOf (cell 0) (cell 1)
  .ok ⟨vnorm (cell 0), vnorm (cell 1), vnorm (cell 2), al, be, ga⟩

/-- `cell_to_cellpar_2D(cell)`, `utils.py:167-191`. -/
noncomputable def cellToCellpar2D (cell : Fin 2 → Pt 2 ℝ) : Except UErr (ℝ × ℝ × ℝ) := do
  let al ← angleOf (cell 0) (cell 1)
  .ok (vnorm (cell 0), vnorm (cell 1), al)

/-- `np.random.uniform(low, high)` from a draw `u` in `[0, 1)`. -/
noncomputable def uniform (low high u : ℝ) : ℝ := low + (high - low) * u

/-- `random_cell(length_bounds, angle_bounds, dims=3)`, `utils.py:205-215`, on a stream of draws: the loop repeats after a
`RuntimeError`; any other exception leaves the function. -/
noncomputable def randomCell3 (ll lu al au : ℝ) : List ℝ → Except UErr (Fin 3 → Pt 3 ℝ)
  | u1 :: u2 :: u3 :: v1 :: v2 :: v3 :: draws =>
    match cellparToCell ⟨uniform ll lu u1, uniform ll lu u2, uniform ll lu u3,
      uniform al au v1, uniform al au v2, uniform al au v3⟩ with
    | .ok cell => .ok cell
    | .error e => if e = .runtime then randomCell3 ll lu al au draws else .error e
  | _ => .error .exhausted

/-- `random_cell(length_bounds, angle_bounds, dims=2)`, `utils.py:216-219`. -/
noncomputable def randomCell2 (ll lu al au : ℝ) : List ℝ → Except UErr (Fin 2 → Pt 2 ℝ)
  | u1 :: u2 :: v :: _ => .ok (cellparToCell2D (uniform ll lu u1) (uniform ll lu u2) (uniform al au v))
  | _ => .error .exhausted

end Amd
