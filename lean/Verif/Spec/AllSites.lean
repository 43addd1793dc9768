import Verif.Spec.SpaceGroup
import Verif.Spec.Periodic
import Verif.Spec.Cells
import Verif.Model.Calculate

/-!
# Specification: sets that list the orbit of every site

With `disorder='all_sites'` sites may overlap, so that a point may be listed once for each of several sites.
-/

namespace Amd

/-- A site, its atomic number, and the points of the motif that are listed for it. -/
structure SiteOrbit where
  site : Pt 3 ℝ
  number : ℕ
  points : List (Pt 3 ℝ)

/-- Each point has the atomic number of its site. -/
def orbitTypes (orbits : List SiteOrbit) : List ℕ := orbits.flatMap fun x => List.replicate x.points.length x.number

/-- The set lists, one after the other, the orbits of the sites: the points listed for a site, repeated by the cell, are all images of the site, each once; the asymmetric
unit has the first point of each orbit and the multiplicities are the sizes of the orbits. All points are in one cell. -/
structure ListsOrbits (G : Set (FracOp 3)) (orbits : List SiteOrbit) (S : PeriodicSet 3) : Prop where
  motif : S.motif = orbits.flatMap SiteOrbit.points
  mult : S.multiplicities = some (orbits.map fun x => x.points.length)
  asym : S.asymUnit = some ((List.range orbits.length).map fun i => ((orbits.take i).map fun x => x.points.length).sum)
  nonempty : ∀ x ∈ orbits, x.points ≠ []
  once : ∀ x ∈ orbits, Function.Injective (sitePos x.points S.cell)
  orbit : ∀ x ∈ orbits, periodicPoints x.points S.cell = crystalPoints S.cell G {x.site}
  inside : FitsInCell S.motif S.cell

end Amd
