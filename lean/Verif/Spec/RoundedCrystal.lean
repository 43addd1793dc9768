import Verif.Spec.Described
import Verif.Spec.Rounded

/-!
# Specification: descriptions of crystals with rounded coordinates

No readers, files or packages are involved.
-/

namespace Amd

/-- `c` is the description of the ideal crystal `c₀` with rounded numbers: coordinates of sites and translations of operations are right up to `δ`. -/
structure Described.Rounds (δ : ℝ) (c c₀ : Described) : Prop where
  name : c.name = c₀.name
  cell : c.cell = c₀.cell
  ops : RoundedOps δ c.ops c₀.ops
  sites : RoundedSites δ c.sites c₀.sites

/-- What is rounded is a crystal, numbers are rounded by at most `1 / 8000` (four digits are enough), the matrices have entries between -1 and 1, and no two different points of the
ideal crystal are within the tolerance of the readers, nor, when rounded, can come to be. -/
structure Described.ProperRounded (δ : ℝ) (c : Described) : Prop where
  nonneg : 0 ≤ δ
  small : δ ≤ 1 / 8000
  proper : c.Proper
  entries : UnitEntries c.ops
  apart : ExactSites (1 / 1000 + 8 * δ) c.ops c.sites

/-- How much distances between points of the crystal may change by rounding. -/
noncomputable def Described.roundError (δ : ℝ) (c : Described) : ℝ := 8 * δ * (c.cell.a + c.cell.b + c.cell.c)

end Amd
