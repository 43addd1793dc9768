import Verif.Spec.Metrics
import Verif.Spec.AllSitesCompare
import Verif.Props.Compare

/-! What the matrices of different calls of `compare` have to do with each other. -/

namespace Amd

/-- Entries of a matrix of distances, up to `slack`: zeros on the diagonal, nothing negative, symmetric, and the way over a third crystal is not shorter. -/
structure IsDistanceTable (n : ℕ) (slack : ℝ) (f : ℕ → ℕ → ℝ) : Prop where
  self : ∀ i < n, f i i = 0
  nonneg : ∀ i < n, ∀ j < n, 0 ≤ f i j
  symm : ∀ i < n, ∀ j < n, f i j = f j i
  triangle : ∀ i < n, ∀ j < n, ∀ l < n, f i l ≤ f i j + f j l + slack

/-- The PDD that `compare` finds for the crystal has at most `n` rows and no distance over `C`. -/
def PddWithin (kwargs : Kwargs) (tol : ℝ) (k n : ℕ) (C : ℝ) (c : Crystal) : Prop :=
  ∀ fuel p, pddOf kwargs tol c k fuel = .ok p → p.length ≤ n ∧ ∀ r ∈ p, ∀ x ∈ r.dists, x ≤ C

/-- A distance of lists that does not grow if the ends of the lists are dropped. -/
def Shrinks (d : List ℝ → List ℝ → ℝ) : Prop := ∀ k r s, r.length = s.length → d (r.take k) (s.take k) ≤ d r s

/-- The weighted rows with only the first `k` distances. -/
def firstColumns (k : ℕ) (p : List (PRow ℝ)) : List (PRow ℝ) := p.map fun r => { r with dists := r.dists.take k }

end Amd
