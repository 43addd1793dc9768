import Verif.Model.Reader

/-! Specification: extensions of file names. `lower` is lower case for ASCII letters. -/

namespace Amd

/-- The file `name` has the extension `ext`, in upper or lower case, and something before it. -/
def HasExtension (name ext : String) : Prop :=
  ∃ stem e : List Char, stem ≠ [] ∧ name.toList = stem ++ '.' :: e ∧ '.' ∉ e ∧ lower (String.ofList e) = ext

end Amd
