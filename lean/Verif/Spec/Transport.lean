import Verif.Model.Calculate
import Mathlib.Data.Real.Basic
import Mathlib.Algebra.Order.Archimedean.Real.Basic
import Mathlib.Algebra.BigOperators.Fin

/-! Specification: transport plans between weighted points and the Wasserstein (Earth mover's) distance. -/

namespace Amd

section
variable {ι κ : Type*} [Fintype ι] [Fintype κ]

/-- `g i j` is the weight moved from `i` to `j`: nothing negative, everything from `i` is moved, `j` receives its weight. -/
structure IsPlan (a : ι → ℝ) (b : κ → ℝ) (g : ι → κ → ℝ) : Prop where
  nonneg : ∀ i j, 0 ≤ g i j
  rows : ∀ i, ∑ j, g i j = a i
  cols : ∀ j, ∑ i, g i j = b j

/-- Work needed for a plan, if moving a unit from `i` to `j` costs `c i j`. -/
def planCost (c g : ι → κ → ℝ) : ℝ := ∑ i, ∑ j, g i j * c i j

/-- The Wasserstein distance: the least cost of a plan. -/
noncomputable def wasserstein (a : ι → ℝ) (b : κ → ℝ) (c : ι → κ → ℝ) : ℝ := sInf {x | ∃ g, IsPlan a b g ∧ x = planCost c g}

end

/-- A PDD with `k` columns of distances: weights of at least `1e-8` that sum to 1. -/
structure WeightedRows (k : ℕ) (p : List (PRow ℝ)) : Prop where
  nonempty : p ≠ []
  width : ∀ r ∈ p, r.dists.length = k
  weights : ∀ r ∈ p, 1 / 100000000 ≤ r.weight
  total : (p.map fun r => r.weight).sum = 1

/-- A distance of rows with `k` entries. -/
structure RowMetric (k : ℕ) (δ : List ℝ → List ℝ → ℝ) : Prop where
  nonneg : ∀ r s, r.length = k → s.length = k → 0 ≤ δ r s
  self : ∀ r, r.length = k → δ r r = 0
  symm : ∀ r s, r.length = k → s.length = k → δ r s = δ s r
  triangle : ∀ r s t, r.length = k → s.length = k → t.length = k → δ r t ≤ δ r s + δ s t

/-- The exact Earth mover's distance of two PDDs. -/
noncomputable def exactEmd (δ : List ℝ → List ℝ → ℝ) (p q : List (PRow ℝ)) : ℝ :=
  wasserstein (fun i : Fin p.length => p[i].weight) (fun j : Fin q.length => q[j].weight) fun i j => δ p[i].dists q[j].dists

/-- Error of working with multiples of `1e-8`, for PDDs of at most `n` rows at distance at most `C`. -/
noncomputable def emdTol (n : ℕ) (C : ℝ) : ℝ := (1 + 7 * n * C) / 100000000

/-- The weight of the rows of a PDD with distances `x`. -/
noncomputable def weightAt (p : List (PRow ℝ)) (x : List ℝ) : ℝ := open Classical in ((p.filter fun r => r.dists = x).map fun r => r.weight).sum

end Amd
