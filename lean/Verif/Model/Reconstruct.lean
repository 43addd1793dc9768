import Verif.Model.Minval
import Verif.Model.Utils
import Mathlib.LinearAlgebra.Matrix.NonsingularInverse
import Mathlib.Data.List.Sort

/-!
# Reconstruction of a motif

Model of `/repo/src/amd/reconstruct.py`. Real numbers instead of doubles. The order in which the k-d tree
lists points and the contents of uninitialised memory are parameters.
-/

namespace Amd

/-- The exceptions: `value` ValueError, `index` IndexError, `runtime` RuntimeError, `linalg` LinAlgError; `fuel` stands for a loop that has not ended. -/
inductive RecErr
  | value
  | index
  | runtime
  | linalg
  | fuel
  deriving DecidableEq, Repr

/-! ### Sphere intersections -/

/-- `_bilaterate`, `reconstruct.py:210-239`. -/
noncomputable def bilaterate (p1 p2 : Pt 2 ℝ) (r1 r2 absVal prec : ℝ) : Option (Pt 2 ℝ) :=
  let d := √((p2 0 - p1 0) ^ 2 + (p2 1 - p1 1) ^ 2)
  let v : Pt 2 ℝ := fun j => (p2 j - p1 j) / d
  if d > r1 + r2 then none
  else if d < |r1 - r2| then none
  else if d = 0 ∧ r1 = r2 then none
  else
    let a := (r1 ^ 2 - r2 ^ 2 + d ^ 2) / (2 * d)
    let h := √(r1 ^ 2 - a ^ 2)
    let x2 := p1 0 + a * v 0
    let y2 := p1 1 + a * v 1
    let x3 := x2 + h * v 1
    let y3 := y2 - h * v 0
    let x4 := x2 - h * v 1
    let y4 := y2 + h * v 0
    if |√(x3 ^ 2 + y3 ^ 2) - absVal| < prec then some ![x3, y3]
    else if |√(x4 ^ 2 + y4 ^ 2) - absVal| < prec then some ![x4, y4]
    else none

/-- `np.cross`. -/
def cross (u v : Pt 3 ℝ) : Pt 3 ℝ := ![u 1 * v 2 - u 2 * v 1, u 2 * v 0 - u 0 * v 2, u 0 * v 1 - u 1 * v 0]

/-- The second half of `_trilaterate`, in the frame `ex`, `ey`, `ex × ey` at `p1`, `reconstruct.py:267-284`. -/
noncomputable def triPoints (p1 ex ey : Pt 3 ℝ) (d i j r1 r2 r3 absVal prec : ℝ) : Option (Pt 3 ℝ) :=
  let x := (r1 * r1 - r2 * r2 + d * d) / (2 * d)
  let y := (r1 * r1 - r3 * r3 - 2 * i * x + i * i + j * j) / (2 * j)
  let temp4 := r1 * r1 - x * x - y * y
  if temp4 < 0 then none
  else
    let ez := cross ex ey
    let z := √temp4
    let a : Pt 3 ℝ := fun t => p1 t + x * ex t + y * ey t + z * ez t
    let b : Pt 3 ℝ := fun t => p1 t + x * ex t + y * ey t - z * ez t
    if |vnorm a - absVal| < prec then some a
    else if |vnorm b - absVal| < prec then some b
    else none

/-- The checks of `_trilaterate` that let it give up at once, `reconstruct.py:246-257`. -/
noncomputable def triTooFar (p1 p2 p3 : Pt 3 ℝ) (r1 r2 r3 absVal prec : ℝ) : Bool :=
  decide (vnorm p1 > absVal + r1 - prec) || decide (vnorm p2 > absVal + r2 - prec) || decide (vnorm p3 > absVal + r3 - prec) ||
    decide (vnorm (p1 - p2) > r1 + r2 - prec) || decide (vnorm (p1 - p3) > r1 + r3 - prec) || decide (vnorm (p2 - p3) > r2 + r3 - prec)

/-- `_trilaterate`, `reconstruct.py:242-284`. For centres on a line the code computes NaNs and returns None, or divides by zero if two centres are equal;
it is only called with linearly independent centres. -/
noncomputable def trilaterate (p1 p2 p3 : Pt 3 ℝ) (r1 r2 r3 absVal prec : ℝ) : Option (Pt 3 ℝ) :=
  if triTooFar p1 p2 p3 r1 r2 r3 absVal prec then none
  else
    let temp1 := p2 - p1
    let d := vnorm temp1
    let ex : Pt 3 ℝ := fun j => temp1 j / d
    let temp2 := p3 - p1
    let i := vdot ex temp2
    let temp3 : Pt 3 ℝ := fun j => temp2 j - i * ex j
    if d = 0 ∨ vnorm temp3 = 0 then none
    else
      let ey : Pt 3 ℝ := fun j => temp3 j / vnorm temp3
      let j := vdot ey temp2
      triPoints p1 ex ey d i j r1 r2 r3 absVal prec

/-! ### Distances -/

/-- `_unique_within_tol` for the values after those in `pre`: a value is kept if no earlier one is within `prec`, `reconstruct.py:287-289`. -/
noncomputable def uniqueTolFrom (prec : ℝ) (pre : List ℝ) : List ℝ → List ℝ
  | [] => []
  | x :: xs => if pre.any fun y => decide (|y - x| < prec) then uniqueTolFrom prec (pre ++ [x]) xs else x :: uniqueTolFrom prec (pre ++ [x]) xs

/-- `_unique_within_tol(arr, prec)`. -/
noncomputable def uniqueWithinTol (l : List ℝ) (prec : ℝ) : List ℝ := uniqueTolFrom prec [] l

/-- `_remove_vals(vec, vals_to_remove, prec)`, `reconstruct.py:292-294`. -/
noncomputable def removeVals (vec vals : List ℝ) (prec : ℝ) : List ℝ := vec.filter fun x => !(vals.any fun y => decide (|x - y| < prec))

/-- `_shared_vals(v1, v2, prec)`, `reconstruct.py:297-299`: a value for each pair of values that are within `prec`. -/
noncomputable def sharedVals (v1 v2 : List ℝ) (prec : ℝ) : List ℝ := v1.flatMap fun x => (v2.filter fun y => decide (|x - y| < prec)).map fun _ => x

/-! ### Choices -/

/-- `itertools.combinations(l, n)`. -/
def combinations {α : Type} : ℕ → List α → List (List α)
  | 0, _ => [[]]
  | _ + 1, [] => []
  | n + 1, a :: l => (combinations n l).map (a :: ·) ++ combinations (n + 1) l

/-- Each element and the others. -/
def picks {α : Type} : List α → List (α × List α)
  | [] => []
  | a :: l => (a, l) :: (picks l).map fun x => (x.1, a :: x.2)

/-- `itertools.permutations(l, n)`. -/
def permutationsOf {α : Type} : ℕ → List α → List (List α)
  | 0, _ => [[]]
  | n + 1, l => (picks l).flatMap fun x => (permutationsOf n x.2).map (x.1 :: ·)

variable {D : ℕ}

/-- The determinant of the matrix with the given rows, if there are `D` of them. -/
noncomputable def detRows (vecs : List (Pt D ℝ)) : ℝ := (Matrix.of fun i j : Fin D => (vecs.getD i 0) j).det

/-- `bases`, `reconstruct.py:86-91`. -/
noncomputable def basesOf (nnSet : List (Pt D ℝ)) (prec : ℝ) : List (List (Pt D ℝ)) :=
  (combinations D nnSet).flatMap fun vecs => if |detRows vecs| > prec then permutationsOf D vecs else []

/-- `sphere_intersect_func(*basis, *distances, abs, prec)`. -/
noncomputable def sphereIntersect : (D : ℕ) → List (Pt D ℝ) → List ℝ → ℝ → ℝ → Option (Pt D ℝ)
  | 2, [p1, p2], [r1, r2], absVal, prec => bilaterate p1 p2 r1 r2 absVal prec
  | 3, [p1, p2, p3], [r1, r2, r3], absVal, prec => trilaterate p1 p2 p3 r1 r2 r3 absVal prec
  | _, _, _, _, _ => none

/-- The check that a point is in the Voronoi domain, `reconstruct.py:129-130, 150-151`. -/
noncomputable def inVoronoi (cloud : List (Pt D ℝ)) (absQ prec : ℝ) (p : Pt D ℝ) : Bool := cloud.all fun c => decide (vnorm (c - p) - absQ + prec > 0)

/-- `_find_second_point`, `reconstruct.py:119-131`; `none` inside is None. -/
noncomputable def findSecondPoint (shared : List ℝ) (bases : List (List (Pt D ℝ))) (cloud : List (Pt D ℝ)) (prec : ℝ) : Except RecErr (Option (Pt D ℝ)) :=
  match shared with
  | [] => .error .index
  | absQ :: rest =>
    .ok ((combinations D rest).findSome? fun dists => bases.findSome? fun basis =>
      (sphereIntersect D basis dists absQ prec).bind fun p => if inVoronoi cloud absQ prec p then some p else none)

/-- `_find_further_point`, `reconstruct.py:134-156`. -/
noncomputable def findFurtherPoint (shared1 shared2 : List ℝ) (bases : List (List (Pt D ℝ))) (cloud : List (Pt D ℝ)) (q : Pt D ℝ) (prec : ℝ) :
    Except RecErr (Option (Pt D ℝ)) :=
  match shared1 with
  | [] => .error .index
  | absQ :: rest =>
    .ok ((combinations D rest).findSome? fun dists => bases.findSome? fun basis =>
      (sphereIntersect D basis dists absQ prec).bind fun p =>
        if inVoronoi cloud absQ prec p && shared2.any fun x => decide (|x - vnorm (q - p)| < prec) then some p else none)

/-! ### The main function -/

/-- The lattice vectors of the layers from number `n` on, while a layer has a vector of length at most `diam`, `reconstruct.py:64-70`. -/
noncomputable def latticeCloud (cell : Fin D → Pt D ℝ) (diam : ℝ) : ℕ → ℕ → Option (List (Pt D ℝ))
  | 0, _ => none
  | fuel + 1, n =>
    let layer := (intLayer D n).map (latVec cell)
    if layer.any fun p => decide (vnorm p ≤ diam) then (latticeCloud cell diam fuel (n + 1)).map (layer ++ ·) else some []

/-- `np.mod(p @ np.linalg.inv(cell), 1) @ cell` for one point, `reconstruct.py:115`. -/
noncomputable def reduceToCell (cell : Fin D → Pt D ℝ) (p : Pt D ℝ) : Pt D ℝ :=
  let frac := Matrix.vecMul p (Matrix.of cell)⁻¹
  fun j => ∑ i, Int.fract (frac i) * cell i j

/-- The loop over the rows from the third on, `reconstruct.py:101-112`. -/
noncomputable def furtherPoints (lattice row1 row2 : List ℝ) (bases : List (List (Pt D ℝ))) (cloud : List (Pt D ℝ)) (q : Pt D ℝ) (prec : ℝ) :
    List (List ℝ) → Except RecErr (List (Pt D ℝ))
  | [] => .ok []
  | row :: rows => do
    let reduced := removeVals row lattice prec
    let shared1 := uniqueWithinTol (sharedVals row1 reduced prec) prec
    let shared2 := uniqueWithinTol (sharedVals row2 reduced prec) prec
    match ← findFurtherPoint shared1 shared2 bases cloud q prec with
    | none => .error .runtime
    | some p => do
      let ps ← furtherPoints lattice row1 row2 bases cloud q prec rows
      .ok (p :: ps)

/-- `product((-1, 0, 1), repeat=D)`. -/
def signCoeffs : (D : ℕ) → List (Fin D → ℤ)
  | 0 => [Fin.elim0]
  | D + 1 => [-1, 0, 1].flatMap fun a => (signCoeffs D).map fun v => Fin.cons a v

/-- The halves of the sums of cell vectors, `reconstruct.py:163-170`. -/
noncomputable def halfVecs (cell : Fin D → Pt D ℝ) : List (Pt D ℝ) :=
  ((signCoeffs D).filter fun c => decide (c ≠ 0)).map fun c j => latVec cell c j / 2

/-- The distances from `tree.query(vecs, k=5)`. -/
noncomputable def neighborDists (cloud vecs : List (Pt D ℝ)) : List (List ℝ) :=
  vecs.map fun v => ((cloud.map (eucl v)).insertionSort (· ≤ ·)).take 5

/-- `np.allclose(dists, dists_, atol=0, rtol=1e-12)` for matrices of the same shape; `none` is a matrix with a NaN. -/
noncomputable def distsClose : Option (List (List ℝ)) → Option (List (List ℝ)) → Bool
  | some a, some b => (a.zip b).all fun r => (r.1.zip r.2).all fun x => decide (|x.1 - x.2| ≤ 1 / 10 ^ 12 * |x.2|)
  | _, _ => false

/-- The loop of `_neighbor_set`, `reconstruct.py:179-185`: `n` is the number of the next layer. Returns the last cloud. -/
noncomputable def neighborLoop (cell : Fin D → Pt D ℝ) (vecs : List (Pt D ℝ)) :
    ℕ → ℕ → List (Pt D ℝ) → Option (List (List ℝ)) → Option (List (List ℝ)) → Option (List (Pt D ℝ))
  | 0, _, _, _, _ => none
  | fuel + 1, n, cloud, dists, dists' =>
    if distsClose dists dists' then some cloud
    else
      let cloud' := cloud ++ (intLayer D n).map (latVec cell) ++ (intLayer D (n + 1)).map (latVec cell)
      neighborLoop cell vecs fuel (n + 2) cloud' dists' (some (neighborDists cloud' vecs))

/-- `_neighbor_set(cell, prec)`, `reconstruct.py:159-207`. `memory` is what `np.empty_like` finds; `order cloud v` are the indices of the points of `cloud` by
distance from `v`. In line 204 the vector `halves_norms` is subtracted from each row, so it is indexed by the column. -/
noncomputable def neighborSet (memory : Option (List (List ℝ))) (order : List (Pt D ℝ) → Pt D ℝ → List ℕ) (cell : Fin D → Pt D ℝ) (prec : ℝ) (fuel : ℕ) :
    Option (List (Pt D ℝ)) :=
  let vecs := halfVecs cell
  let cloud := (layersUpTo D 2).map (latVec cell)
  (neighborLoop cell vecs fuel 2 cloud (some (neighborDists cloud vecs)) memory).map fun cloud =>
    let found := vecs.flatMap fun v => ((order cloud v).take 5).drop 1
    let inds := (List.range cloud.length).filter fun i => decide (i ≠ 0) && found.contains i
    let neighbors := inds.map fun i => cloud.getD i 0
    neighbors.filter fun v => neighbors.all fun w => decide (eucl (fun j => v j / 2) w - vnorm w / 2 + prec ≥ 0)

/-- `reconstruct(pdd, cell)`, `reconstruct.py:21-116`. -/
noncomputable def reconstruct (memory : Option (List (List ℝ))) (order : List (Pt D ℝ) → Pt D ℝ → List ℕ) (pdd : List (List ℝ)) (cell : Fin D → Pt D ℝ)
    (fuel : ℕ) : Except RecErr (List (Pt D ℝ)) :=
  let prec : ℝ := 1 / 10 ^ 10
  if D ≠ 2 ∧ D ≠ 3 then .error .value
  else
    match diameter D cell with
    | .error _ => .error .value
    | .ok diam =>
      if pdd.length = 1 then .ok [0]
      else
        match latticeCloud cell diam fuel 1, neighborSet memory order cell prec fuel with
        | none, _ => .error .fuel
        | some [], _ => .error .value
        | some _, none => .error .fuel
        | some cloud, some nnSet =>
          let lattice := uniqueWithinTol ((cloud.map vnorm).filter fun x => decide (x ≤ diam)) prec
          match pdd with
          | row1 :: row2 :: rows => do
            let reduced1 := removeVals row1 lattice prec
            let reduced2 := removeVals row2 lattice prec
            let shared := uniqueWithinTol (sharedVals reduced1 reduced2 prec) prec
            let bases := basesOf nnSet prec
            match ← findSecondPoint shared bases cloud prec with
            | none => .error .runtime
            | some q =>
              if rows = [] then .ok [0, q]
              else do
                let ps ← furtherPoints lattice reduced1 reduced2 bases cloud q prec rows
                if (Matrix.of cell).det = 0 then .error .linalg
                else .ok (([0, q] ++ ps).map (reduceToCell cell))
          | _ => .error .index

end Amd
