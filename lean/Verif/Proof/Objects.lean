import Verif.Model.Objects
import Verif.Proof.GemmiBlock
import Verif.Proof.Crystal
import Verif.Spec.Objects

/-! Lemmas about the object converters. -/

set_option linter.unusedSectionVars false

namespace Amd

theorem indicesOf_cons (b : Bool) (l : List Bool) : indicesOf (b :: l) = (if b then [0] else []) ++ (indicesOf l).map (· + 1) := by
  simp only [indicesOf, List.zipIdx_cons, zero_add]
  rw [List.zipIdx_succ]
  cases b <;> simp [List.filter_map, List.map_map, Function.comp_def]

theorem popAll_succ {α : Type} (a : α) : ∀ (inds : List ℕ) (l : List α), popAll (a :: l) (inds.map (· + 1)) = a :: popAll l inds
  | [], _ => rfl
  | i :: inds, l => by
    simp only [List.map_cons, popAll, List.foldl_cons, List.eraseIdx_cons_succ]
    exact popAll_succ a inds _

theorem popAll_append {α : Type} (l : List α) (i j : List ℕ) : popAll l (i ++ j) = popAll (popAll l i) j := by simp [popAll]

/-- Removing the marked entries from the last to the first is a filter. -/
theorem popAll_indicesOf {α : Type} (p : α → Bool) : ∀ l : List α, popAll l (indicesOf (l.map p)).reverse = l.filter fun x => !p x
  | [] => rfl
  | a :: l => by
    rw [List.map_cons, indicesOf_cons, List.reverse_append, ← List.map_reverse, popAll_append, popAll_succ, popAll_indicesOf p l]
    cases h : p a <;> simp [popAll, h]

theorem deleteAt_indicesOf {α : Type} (p : α → Bool) (l : List α) : deleteAt l (indicesOf (l.map p)) = l.filter fun x => !p x := by
  have h := deleteAt_filter (f := id) (p := p) (inds := indicesOf (l.map p)) l 0 fun i x hx => by
    rw [zero_add, mem_indicesOf]
    exact ⟨fun ⟨y, hy, h⟩ => by rw [hx] at hy; rw [Option.some.inj hy]; exact h, fun h => ⟨x, hx, h⟩⟩
  simpa [deleteAt] using h

end Amd
