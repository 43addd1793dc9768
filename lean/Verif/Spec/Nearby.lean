import Verif.Spec.Periodic
import Verif.Spec.Cells

/-! Specification: periodic sets that are almost the same. -/

namespace Amd

variable {D : ℕ}

/-- The points of `S` and of `S'` can be paired off so that no distance between two points of `S` differs by more than `δ` from the distance of their partners. -/
def AlmostIsometric (δ : ℝ) (S S' : PeriodicSet D) : Prop :=
  ∃ f : Pt D ℝ → Pt D ℝ, Set.BijOn f (periodicPoints S.motif S.cell) (periodicPoints S'.motif S'.cell) ∧
    ∀ p ∈ periodicPoints S.motif S.cell, ∀ q ∈ periodicPoints S.motif S.cell, |eucl (f p) (f q) - eucl p q| ≤ δ

/-- `S'` is `S` after a map `T` that preserves distances and a displacement of each point by at most `ε` (every point by itself, not only periodically): the bottleneck distance of
the two sets, up to isometry, is at most `ε`. -/
def Displaced (ε : ℝ) (S S' : PeriodicSet D) : Prop :=
  ∃ T f : Pt D ℝ → Pt D ℝ, (∀ p q, eucl (T p) (T q) = eucl p q) ∧ Set.BijOn f (periodicPoints S.motif S.cell) (periodicPoints S'.motif S'.cell) ∧
    ∀ p ∈ periodicPoints S.motif S.cell, eucl (T p) (f p) ≤ ε

end Amd
