import Verif.Spec.Transport
import Verif.Model.Pairwise

/-!
# Metrics other than the default

Distances of AMDs, and of rows of PDDs, that can be chosen by `metric`.
-/

namespace Amd

/-- The Euclidean distance of two lists of the same length. -/
noncomputable def euclidean (r s : List ℝ) : ℝ := √(List.zipWith (fun a b => (a - b) ^ 2) r s).sum

/-- The sum of the differences of two lists of the same length. -/
noncomputable def cityblock (r s : List ℝ) : ℝ := (List.zipWith (fun a b => |a - b|) r s).sum

/-- Contract of scipy: these names stand for these distances. -/
structure ScipyNames (other : String → List ℝ → List ℝ → ℝ) : Prop where
  euclidean : other "euclidean" = euclidean
  cityblock : other "cityblock" = cityblock

/-- A distance of lists with `k` entries that is at most `L` times the largest difference of entries. -/
structure TameMetric (k : ℕ) (L : ℝ) (δ : List ℝ → List ℝ → ℝ) : Prop extends RowMetric k δ where
  const : 0 ≤ L
  bound : ∀ r s, r.length = k → s.length = k → δ r s ≤ L * chebyshev r s

end Amd
