import Verif.Spec.Metrics

/-! Metrics that bound each other. -/

namespace Amd

/-- For lists with `k` entries the distance `d` is at most `L` times the distance `d'`. -/
structure BoundedBy (k : ℕ) (L : ℝ) (d d' : List ℝ → List ℝ → ℝ) : Prop where
  const : 0 ≤ L
  bound : ∀ r s, r.length = k → s.length = k → d r s ≤ L * d' r s

end Amd
