import Verif.Spec.Invariants
import Verif.Spec.Transport
import Verif.Model.Rounding

/-! Specification: accuracy of computed numbers. `Computed` is the type of what the machine computes in a call (`Verif.Model.Rounding`). -/

namespace Amd

variable {D : ℕ}

/-- The length of the lattice vector with integer coordinates `n`. -/
noncomputable def latLength (cell : Fin D → Pt D ℝ) (n : Fin D → ℤ) : ℝ := √(∑ j, (∑ i, (n i : ℝ) * cell i j) ^ 2)

/-- The numbers computed in a call for the motif points `inds` are accurate to the relative precision `ε`. Coordinates of points are added and subtracted before
distances are computed, so that the error of a distance is relative to the distance plus the size `M` of the motif. The computed distance of a point to itself is 0. -/
structure Accurate {motif : List (Pt D ℝ)} (C : Computed motif.length D) (cell : Fin D → Pt D ℝ) (inds : List (Fin motif.length)) (ε M : ℝ) : Prop where
  self : ∀ i (h : i < inds.length), C.cost i (inds[i], 0) = 0
  nonneg : ∀ i < inds.length, ∀ s, 0 ≤ C.cost i s
  dist : ∀ i (h : i < inds.length) s, |√(C.cost i s) - eucl motif[inds[i]] (sitePos motif cell s)| ≤ ε * (eucl motif[inds[i]] (sitePos motif cell s) + M)
  norm : ∀ n, |√(C.norm n) - latLength cell n| ≤ ε * latLength cell n
  norm_nonneg : ∀ n, 0 ≤ C.norm n
  bound : ∀ a b, 0 ≤ a → 0 ≤ b → |√(C.bound a b) - (√a + √b)| ≤ ε * (√a + √b)
  bound_nonneg : ∀ a b, 0 ≤ a → 0 ≤ b → 0 ≤ C.bound a b
  root : ∀ a, 0 ≤ a → |C.root a - √a| ≤ ε * √a

/-- The weighted mean of a column. -/
noncomputable def weightedMean (mult : List ℕ) (column : List ℝ) : ℝ :=
  (List.zipWith (fun (n : ℕ) d => (n : ℝ) * d) mult column).sum / (mult.map fun n : ℕ => (n : ℝ)).sum

/-- The lattice vectors of the cell are sums of products with little cancellation: their lengths are at least `1 / κ` of those of the sums of absolute values. -/
def CancelsBy (cell : Fin D → Pt D ℝ) (κ : ℝ) : Prop :=
  0 ≤ κ ∧ ∀ n : Fin D → ℤ, √(∑ j, (∑ i, |(n i : ℝ) * cell i j|) ^ 2) ≤ κ * latLength cell n

/-- `M` bounds the distances of motif points to each other and to the origin. -/
def SizeAtMost (motif : List (Pt D ℝ)) (M : ℝ) : Prop := (∀ p ∈ motif, ∀ q ∈ motif, eucl p q ≤ M) ∧ ∀ p ∈ motif, eucl p 0 ≤ M

/-- The rounding `fl` has relative errors at most `u` and does not change the coordinates of the motif (which are floating point numbers already). -/
structure IsRounding (fl : ℝ → ℝ) (u : ℝ) (motif : List (Pt D ℝ)) : Prop where
  nonneg : 0 ≤ u
  le_one : u ≤ 1
  error : ∀ x, |fl x - x| ≤ u * |x|
  motif : ∀ p ∈ motif, ∀ j, fl (p j) = p j

/-- The precision reached by rounded operations with relative errors `u` in `D` dimensions: about `(D + 2 + D κ) u`. -/
noncomputable def precision (D : ℕ) (u κ : ℝ) : ℝ := (1 + u) ^ (D + 2) * (1 + ((1 + u) ^ D - 1) * κ) - 1

/-- Error of `EMD` for PDDs of at most `N` rows, `n` pairs of rows and true distances of rows of at most `L`, if each distance of rows that is computed from the
PDDs may be wrong by `E`: the errors of the costs (the second is that of `emdTol`) and of the products and sums. -/
noncomputable def emdRounding (u : ℝ) (N n : ℕ) (L E : ℝ) : ℝ :=
  ((1 + u) ^ 2 * (L + E) - L) + emdTol N ((1 + u) ^ 2 * (L + E)) + ((1 + u) ^ (n + 2) - 1) * ((1 + u) ^ 2 * (L + E))

/-- A row of a computed PDD represents the row `R`: the distances differ by at most `E`, and the weight is turned into a positive integer `W` so that the weight
of `R` is between `W` and `W + 1` units of `1e-8`. -/
structure Represents (fl : ℝ → ℝ) (k : ℕ) (E : ℝ) (R r : PRow ℝ) : Prop where
  width : r.dists.length = k
  dists : ∀ j < k, |r.dists.getD j 0 - R.dists.getD j 0| ≤ E
  weight : 0 ≤ r.weight
  units : ∃ W : ℕ, 0 < W ∧ (W : ℝ) ≤ fl (r.weight * 100000000) ∧ fl (r.weight * 100000000) < W + 1 ∧
    (W : ℝ) ≤ R.weight * 100000000 ∧ R.weight * 100000000 ≤ W + 1

/-- `P` is the PDD of the periodic set, without collapsing: one row of true distances for each point of the asymmetric unit, weighted by multiplicity. -/
def TruePDD (S : PeriodicSet D) (inds : List (Fin S.motif.length)) (mult : List ℕ) (k : ℕ) (P : List (PRow ℝ)) : Prop :=
  List.Forall₂ (fun (v : Fin S.motif.length × ℕ) (row : PRow ℝ) => row.weight = (v.2 : ℝ) / S.motif.length ∧ IsNeighbourRow S.motif S.cell v.1 k row.dists) (inds.zip mult) P

/-- Error of the distances in a computed PDD: that of neighbour distances (see C81), for distances up to `B`, and that of averages of at most `n` rows. -/
noncomputable def pddError (n : ℕ) (u ε M B : ℝ) : ℝ := 7 * ε * (B + M) + ((1 + u) ^ (n + 1) - 1) * (B + 7 * ε * (B + M))

/-- How far rows are moved at most if rows are merged whose computed distance is at most `tol`. -/
noncomputable def mergeError (u tol ε M B : ℝ) : ℝ := 2 * ((1 + 2 * u) * tol + 2 * (7 * ε * (B + M)))

/-- A periodic set that can be handled with the rounding `fl`: a non-singular cell, an asymmetric unit whose multiplicities add up to the number of motif points,
the conditions of C81, and a motif small enough for the weights to be resolved in units of `1e-8` (for double precision about 9000 points). -/
structure Workable (S : PeriodicSet D) (inds : List (Fin S.motif.length)) (mult : List ℕ) (fl : ℝ → ℝ) (u κ M : ℝ) : Prop where
  cell : NonSingular S.cell
  units : S.Units inds mult
  nonempty : inds ≠ []
  pos : ∀ n ∈ mult, 0 < n
  sum : mult.sum = S.motif.length
  rounding : IsRounding fl u S.motif
  cancels : CancelsBy S.cell κ
  size : SizeAtMost S.motif M
  precise : precision D u κ ≤ 1 / 16
  few : S.motif.length ≤ 50000000
  resolved : 100000000 * ((1 + u) ^ (S.motif.length + 2) - 1) * S.motif.length < 1

end Amd
