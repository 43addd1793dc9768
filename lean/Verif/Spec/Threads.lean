import Verif.Model.Threads

/-!
# Specification: calls from several threads

What a call returns when it is the only one, and what calls have in common.
-/

namespace Amd

/-- What the call returns in a fresh process (`AMD` and `PDD` without module state). -/
noncomputable def Call.alone : Call → Returned
  | .amd _ S k fuel => .amd (AMD S k fuel)
  | .pdd _ S k lexsort collapse tol fuel => .pdd (PDD S k lexsort collapse tol fuel)

/-- The call returns an array and does not raise. -/
def Returned.IsArray : Returned → Prop
  | .amd r => ∃ a, r = .ok a
  | .pdd r => ∃ p, r = .ok p

/-- The dimension, the number of motif points and `k`. -/
def Call.size : Call → ℕ × ℕ × ℕ
  | .amd D S k _ => (D, S.motif.length, k)
  | .pdd D S k _ _ _ _ => (D, S.motif.length, k)

end Amd
