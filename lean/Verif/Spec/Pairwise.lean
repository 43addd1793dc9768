import Mathlib.Data.List.Basic
import Mathlib.Data.Real.Basic

/-! Specification: distance matrices and nearest items. Nothing here refers to the model of the code. -/

namespace Amd

/-- Position of the pair `i < j` in the condensed distance matrix of `m` items, as documented for `scipy.spatial.distance.squareform`. -/
def condIdx (m i j : ℕ) : ℕ := m * i + j - (i + 2) * (i + 1) / 2

/-- `v` is the condensed distance matrix of `m` items with distances `d`. -/
def IsCondensed {K : Type*} [Zero K] (m : ℕ) (d : ℕ → ℕ → K) (v : List K) : Prop :=
  v.length = m * (m - 1) / 2 ∧ ∀ i j, i < j → j < m → v.getD (condIdx m i j) 0 = d i j

/-- `M` is a matrix with `m` rows and `n` columns and entries `d i j`. -/
def IsMatrix {K : Type*} [Zero K] (m n : ℕ) (d : ℕ → ℕ → K) (M : List (List K)) : Prop :=
  M.length = m ∧ (∀ r ∈ M, r.length = n) ∧ ∀ i j, i < m → j < n → (M.getD i []).getD j 0 = d i j

/-- `idx` lists `n` items nearest by `d` among the items satisfying `cand`: distinct, in order of distance, and no other item is nearer than
a listed one. -/
def AreNearest {K : Type*} [LE K] (n : ℕ) (cand : ℕ → Prop) (d : ℕ → K) (idx : List ℕ) : Prop :=
  idx.length = n ∧ idx.Nodup ∧ (∀ j ∈ idx, cand j) ∧ (idx.map d).Pairwise (· ≤ ·) ∧ ∀ j, cand j → j ∉ idx → ∀ i ∈ idx, d i ≤ d j

end Amd
