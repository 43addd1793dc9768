import Verif.Model.CompareFn

/-! # Crystals that are moved, turned, mirrored, scaled or listed in another order -/

namespace Amd

/-- `m` is `c` after a linear map that multiplies all lengths by `s`, applied to motif and cell, and a shift. With `s = 1` these are the rigid motions, with or without a reflection. -/
def Crystal.Moved (s : ℝ) (c m : Crystal) : Prop :=
  ∃ (name : String) (R : Pt c.dim ℝ →ₗ[ℝ] Pt c.dim ℝ) (v : Pt c.dim ℝ), (∀ p, ∑ j, R p j ^ 2 = s ^ 2 * ∑ j, p j ^ 2) ∧ m = ⟨name, c.dim, c.set.image R v⟩

/-- `m` is `c` with its motif listed in another order; neither has an asymmetric unit. -/
def Crystal.Reordered (c m : Crystal) : Prop :=
  ∃ (name : String) (motif : List (Pt c.dim ℝ)), 0 < c.dim ∧ c.set.motif ≠ [] ∧ c.set.motif.Perm motif ∧ c.set = { motif := c.set.motif, cell := c.set.cell } ∧
    m = ⟨name, c.dim, { motif := motif, cell := c.set.cell }⟩

/-- Multiplying both lists by a positive number multiplies the distance. -/
def Homogeneous (k : ℕ) (d : List ℝ → List ℝ → ℝ) : Prop :=
  ∀ s : ℝ, 0 < s → ∀ r t : List ℝ, r.length = k → t.length = k → d (r.map fun x => s * x) (t.map fun x => s * x) = s * d r t

end Amd
