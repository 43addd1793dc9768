import Verif.Spec.Pairs
import Verif.Spec.NearestTable

/-! Tables of nearest neighbours and matrices of distances. -/

namespace Amd

/-- The crystals that may be listed in row `i`: all `m` crystals of the second collection, or, if there is only one collection, all others. -/
def Candidate (inp' : Option Input) (m i j : ℕ) : Prop := j < m ∧ (inp' = none → j ≠ i)

/-- The column `DIST (c + 1)` of a table of nearest neighbours. -/
def Frame.distColumn : Frame → ℕ → Option (List ℝ)
  | .nearest _ cols, c => (cols[c]?).map (·.2)
  | .matrix _ _ _, _ => none

end Amd
