import Verif.Model.EMD
import Verif.Model.Calculate

/-!
# Comparing invariants

Model of `/repo/src/amd/compare.py`.
-/

namespace Amd

/-- `EMD(pdd, pdd_, metric, return_transport=True)`, `compare.py:290-333`. `metric` is the distance of rows passed to `cdist`, which raises
ValueError if the PDDs have a different number of columns (line 328). Without `return_transport` only the first component is returned. -/
noncomputable def emd (metric : List ℝ → List ℝ → ℝ) (p q : List (PRow ℝ)) (fuel : ℕ) : Except Err (ℝ × List (List ℝ)) :=
  if p.any fun r => q.any fun r' => r.dists.length != r'.dists.length then .error .value
  else networkSimplex (p.map fun r => r.weight) (q.map fun r => r.weight) (p.map fun r => q.map fun r' => metric r.dists r'.dists) fuel

end Amd
