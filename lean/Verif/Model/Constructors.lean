import Verif.Model.Utils

/-!
# Constructors of periodic sets

Model of the static methods of `PeriodicSet`, `/repo/src/amd/periodicset.py:136-182`.
-/

namespace Amd

/-- Exceptions of the static methods. -/
inductive CtorErr
  | notImplemented
  | util (e : UErr)
  deriving DecidableEq, Repr

/-- `PeriodicSet.cubic(scale, dims)`, `periodicset.py:136-139`: one point at the origin, the identity matrix times `scale`. -/
noncomputable def cubic (scale : ℝ) (D : ℕ) : PeriodicSet D :=
  { motif := [0], cell := fun i j => (if i = j then 1 else 0) * scale }

/-- `PeriodicSet.hexagonal(scale, dims)`, `periodicset.py:141-157`. -/
noncomputable def hexagonal (scale : ℝ) : (D : ℕ) → Except CtorErr (PeriodicSet D)
  | 3 => match cellparToCell ⟨scale, scale, scale, 90, 90, 120⟩ with
    | .ok cell => .ok { motif := [0], cell := cell }
    | .error e => .error (.util e)
  | 2 => .ok { motif := [0], cell := cellparToCell2D scale scale 60 }
  | _ => .error .notImplemented

/-- `frac_motif = np.random.uniform(size=(n_points, dims))`, `periodicset.py:181`, filled row by row from a stream of draws. -/
def fracMotif (D : ℕ) : ℕ → List ℝ → Except CtorErr (List (Pt D ℝ))
  | 0, _ => .ok []
  | n + 1, draws =>
    if draws.length < D then .error (.util .exhausted)
    else match fracMotif D n (draws.drop D) with
      | .ok rows => .ok ((fun j => draws.getD j 0) :: rows)
      | .error e => .error e

/-- `frac @ cell` for one row. -/
def rowTimes {D : ℕ} (cell : Fin D → Pt D ℝ) (f : Pt D ℝ) : Pt D ℝ := fun j => ∑ i, f i * cell i j

/-- `PeriodicSet._random(n_points, length_bounds, angle_bounds, dims)`, `periodicset.py:159-182`. Simplification: the numbers drawn for the
cell and those drawn for the motif are two streams. -/
noncomputable def randomSet (n : ℕ) (ll lu al au : ℝ) (cellDraws draws : List ℝ) : (D : ℕ) → Except CtorErr (PeriodicSet D)
  | 3 => match randomCell3 ll lu al au cellDraws with
    | .ok cell => (fracMotif 3 n draws).map fun fm => { motif := fm.map (rowTimes cell), cell := cell }
    | .error e => .error (.util e)
  | 2 => match randomCell2 ll lu al au cellDraws with
    | .ok cell => (fracMotif 2 n draws).map fun fm => { motif := fm.map (rowTimes cell), cell := cell }
    | .error e => .error (.util e)
  | _ => .error .notImplemented

end Amd
