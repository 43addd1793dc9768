import Verif.Spec.Periodic
import Mathlib.Algebra.BigOperators.Group.Finset.Basic

/-!
# Specification of the expansion of an asymmetric unit

Fractional coordinates; the lattice is the set of integer vectors.
-/

namespace Amd

variable {D : ℕ}

/-- Two sites are equal modulo the lattice, up to `tol` in each coordinate. -/
def SameSite (tol : ℝ) (p q : Pt D ℝ) : Prop := ∀ j, ∃ n : ℤ, |p j - q j - n| ≤ tol

/-- The point of the unit cell that `R p + t` is a lattice translate of. -/
def IsImage (R : Fin D → Fin D → ℝ) (t : Fin D → ℝ) (p q : Pt D ℝ) : Prop :=
  ∀ i, 0 ≤ q i ∧ q i < 1 ∧ ∃ n : ℤ, (∑ j, R i j * p j) + t i = q i + n

/-- `asym` and `mult` describe the orbits of a motif, `orbit` being the orbit number of each point: orbit `m` consists of the `mult[m]` points from the
point number `asym[m]` on; the orbits are different, and each point is in one of them. -/
structure Orbits (orbit asym mult : List ℕ) : Prop where
  length : asym.length = mult.length
  pos : ∀ c ∈ mult, 0 < c
  sum : mult.sum = orbit.length
  block : ∀ m (h : m < asym.length) (h' : m < mult.length), asym[m] + mult[m] ≤ orbit.length ∧
    ∀ t (ht : t < orbit.length) (ha : asym[m] < orbit.length), (asym[m] ≤ t ∧ t < asym[m] + mult[m]) ↔ orbit[t] = orbit[asym[m]]
  starts : asym.Pairwise (· < ·)
  cover : ∀ t < orbit.length, ∃ m, ∃ (h : m < asym.length) (h' : m < mult.length), asym[m] ≤ t ∧ t < asym[m] + mult[m]

end Amd
