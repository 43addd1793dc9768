import Mathlib.Data.List.Basic
import Mathlib.Data.List.Range

/-! Specification of grouping rows. -/

namespace Amd

/-- `groups` arranges the indices below `n` by leaders: every index is in exactly one group; a group is listed in increasing
order; its first index, the leader, overlaps all the others in it; groups are ordered by leader; and an index is never in a later group
than one whose leader it overlaps. This determines the groups. -/
structure IsLeaderGrouping (n : ℕ) (overlap : ℕ → ℕ → Bool) (groups : List (List ℕ)) : Prop where
  perm : groups.flatten.Perm (List.range n)
  nonempty : ∀ G ∈ groups, G ≠ []
  sorted : ∀ G ∈ groups, G.Pairwise (· < ·)
  within : ∀ G ∈ groups, ∀ l ∈ G.head?, ∀ j ∈ G.drop 1, overlap l j = true
  first : groups.Pairwise fun G H => ∀ l ∈ G.head?, ∀ j ∈ H, l < j ∧ overlap l j = false

end Amd
