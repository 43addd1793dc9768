import Verif.Model.CifText
import Verif.Spec.Periodic
import Mathlib.Algebra.Order.Floor.Ring
import Mathlib.Algebra.Order.Archimedean.Real.Basic

/-!
# Expanding the asymmetric unit

Model of `_expand_asym_unit`, `_expand_sites`, `_reduce_expanded_sites`, `_reduce_expanded_equiv_sites` and `_unique_sites`,
`/repo/src/amd/io.py:1527-1660`, and of the end of `periodicset_from_gemmi_block`, `io.py:686-706`, which the other converters share.

Fractional coordinates are real numbers instead of doubles; `np.mod(x, 1)` is the fractional part.
-/

namespace Amd

open Classical in
/-- The test of `_unique_sites` (`io.py:1654-1657`) and `_reduce_expanded_equiv_sites` (`io.py:1626-1628`): in each coordinate the two sites differ by at
most `tol`, or by 1 up to `tol`. -/
noncomputable def siteClose {D : ℕ} (tol : ℝ) (p q : Pt D ℝ) : Bool := decide (∀ j, |p j - q j| ≤ tol ∨ |(|p j - q j| - 1)| ≤ tol)

variable {D : ℕ}

/-- `_unique_sites` for the sites after those in `pre`: a site is unique if no earlier site is close to it, `io.py:1652-1659`. -/
noncomputable def uniqueFrom (tol : ℝ) (pre : List (Pt D ℝ)) : List (Pt D ℝ) → List Bool
  | [] => []
  | p :: ps => (!(pre.any fun q => siteClose tol q p)) :: uniqueFrom tol (pre ++ [p]) ps

/-- `_unique_sites(asym_unit, tol)`, `io.py:1645-1660`. -/
noncomputable def uniqueSites (tol : ℝ) (l : List (Pt D ℝ)) : List Bool := uniqueFrom tol [] l

/-- `array[mask]`. -/
def selectMask {α : Type} : List α → List Bool → List α
  | a :: as, b :: bs => if b then a :: selectMask as bs else selectMask as bs
  | _, _ => []

/-- A symmetry operation in fractional coordinates. -/
structure AffineOp (D : ℕ) where
  rot : Fin D → Fin D → ℝ
  trans : Fin D → ℝ

/-- `np.mod(np.dot(rotation, p) + translation, 1)`. -/
noncomputable def AffineOp.apply (o : AffineOp D) (p : Pt D ℝ) : Pt D ℝ := fun i => Int.fract ((∑ j, o.rot i j * p j) + o.trans i)

/-- `_expand_sites`, `io.py:1551-1569`. -/
noncomputable def expandSites (asym : List (Pt D ℝ)) (ops : List (AffineOp D)) : List (List (Pt D ℝ)) := asym.map fun p => ops.map fun o => o.apply p

/-- `_reduce_expanded_sites` from site `i` on, `io.py:1572-1603`: the unique images of each site and the number of the site. (The code fills arrays of
the right size slice by slice.) -/
noncomputable def reduceFrom (tol : ℝ) (i : ℕ) : List (List (Pt D ℝ)) → List (Pt D ℝ) × List ℕ
  | [] => ([], [])
  | sites :: rest =>
    let u := selectMask sites (uniqueSites tol sites)
    let r := reduceFrom tol (i + 1) rest
    (u ++ r.1, List.replicate u.length i ++ r.2)

/-- The position of the first true entry, `np.argmax(mask)`. -/
def argmaxBool (l : List Bool) : ℕ := l.findIdx id

/-- The inner loop of `_reduce_expanded_equiv_sites`, `io.py:1624-1637`: the points of site `i` that are not close to a point of the motif, and the
warnings for the others. -/
noncomputable def newPoints (tol : ℝ) (motif : List (Pt D ℝ)) (invs : List ℕ) (i : ℕ) : List (Pt D ℝ) → List (Pt D ℝ) × List Warning
  | [] => ([], [])
  | p :: ps =>
    let mask := motif.map fun q => siteClose tol p q
    let r := newPoints tol motif invs i ps
    if mask.any id then
      (r.1, ⟨"UserWarning", "has equivalent sites at positions " ++ toString (invs.getD (argmaxBool mask) 0) ++ ", " ++ toString i⟩ :: r.2)
    else (p :: r.1, r.2)

/-- The outer loop of `_reduce_expanded_equiv_sites`, `io.py:1619-1640`. -/
noncomputable def reduceEquivLoop (tol : ℝ) (motif : List (Pt D ℝ)) (invs : List ℕ) (i : ℕ) : List (List (Pt D ℝ)) → List (Pt D ℝ) × List ℕ × List Warning
  | [] => (motif, invs, [])
  | sites :: rest =>
    let r := newPoints tol motif invs i (selectMask sites (uniqueSites tol sites))
    let q := reduceEquivLoop tol (motif ++ r.1) (invs ++ List.replicate r.1.length i) (i + 1) rest
    (q.1, q.2.1, r.2 ++ q.2.2)

/-- `_reduce_expanded_equiv_sites`, `io.py:1606-1642`. (For no sites the code raises IndexError; the callers have checked that there are sites.) -/
noncomputable def reduceEquiv (tol : ℝ) : List (List (Pt D ℝ)) → List (Pt D ℝ) × List ℕ × List Warning
  | [] => ([], [], [])
  | sites :: rest =>
    let u := selectMask sites (uniqueSites tol sites)
    reduceEquivLoop tol u (List.replicate u.length 0) 1 rest

/-- `_expand_asym_unit`, `io.py:1527-1548`: the motif in fractional coordinates, for each point the number of its site, warnings. -/
noncomputable def expandAsymUnit (asym : List (Pt D ℝ)) (ops : List (AffineOp D)) (tol : ℝ) (uniquify : Bool) : List (Pt D ℝ) × List ℕ × List Warning :=
  let expanded := expandSites asym ops
  let r := reduceFrom tol 0 expanded
  if uniquify && !(uniqueSites tol r.1).all id then reduceEquiv tol expanded else (r.1, r.2, [])

/-- `np.unique(invs, return_counts=True)[1]`, `io.py:688`: how often each value occurs, in increasing order of the values. -/
def uniqueCounts (l : List ℕ) : List ℕ := ((l.mergeSort).dedup).map fun x => l.count x

/-- `asym_inds[1:] = np.cumsum(wyc_muls)[:-1]` with a zero in front, `io.py:689-690`. -/
def asymInds (muls : List ℕ) : List ℕ := (muls.scanl (· + ·) 0).dropLast

/-- A `PeriodicSet` with all its attributes, `periodicset.py:17-108`. -/
structure ReadSet where
  name : String
  set : PeriodicSet 3
  types : List ℕ

/-- `np.matmul(frac_motif, cell)`, `io.py:692`. -/
noncomputable def toCartesian (cell : Fin D → Pt D ℝ) (p : Pt D ℝ) : Pt D ℝ := fun j => ∑ i, p i * cell i j

/-- The end of the converters, `io.py:686-706`. -/
noncomputable def assemble (name : String) (cell : Fin 3 → Pt 3 ℝ) (motif : List (Pt 3 ℝ)) (invs : List ℕ) (asymTypes : List ℕ) : ReadSet :=
  { name := name
    set := { motif := motif.map (toCartesian cell), cell := cell, asymUnit := some (asymInds (uniqueCounts invs)), multiplicities := some (uniqueCounts invs) }
    types := invs.map fun i => asymTypes.getD i 0 }

end Amd
