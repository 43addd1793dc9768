import Verif.Model.CompareFn
import Verif.Spec.Pairwise

/-! Specification of tables of nearest items. -/

namespace Amd

/-- The table of nearest items: the rows are labelled `names`; column `ID c+1` has the name and column `DIST c+1` the distance of the
item `c` of a list of `n` nearest items. `cand i j` says that item `j` may be listed for row `i`. -/
def IsNearestTable (n : ℕ) (names names_ : List String) (cand : ℕ → ℕ → Prop) (d : ℕ → ℕ → ℝ) (f : Frame) : Prop :=
  ∃ (cols : List (List String × List ℝ)) (idx : ℕ → List ℕ), f = .nearest names cols ∧ cols.length = n ∧
    (∀ i < names.length, AreNearest n (cand i) (d i) (idx i)) ∧
    ∀ c < n, cols[c]? = some ((List.range names.length).map (fun i => names_.getD ((idx i).getD c 0) ""),
      (List.range names.length).map (fun i => d i ((idx i).getD c 0)))

/-- The entry of row `i` in column `DIST 1` is `x`. -/
def FirstDist (f : Frame) (i : ℕ) (x : ℝ) : Prop :=
  ∃ names cols col, f = .nearest names cols ∧ cols[0]? = some col ∧ col.2[i]? = some x

end Amd
