import Verif.Spec.CommandLine
import Verif.Model.Tolerance

/-!
# Command lines with `nan` or infinity as `--collapse_tol`
-/

namespace Amd

/-- The texts of floats that are not numbers, in lower or upper case. -/
inductive SpecialFloat : String → Tolerance → Prop
  | nan (sign : Sign) (w : List Char) (h : w.map Char.toLower = ['n', 'a', 'n']) : SpecialFloat (String.ofList (sign.text ++ w)) .nan
  | inf (sign : Sign) (w : List Char) (hs : sign ≠ .minus) (h : w.map Char.toLower = ['i', 'n', 'f'] ∨ w.map Char.toLower = ['i', 'n', 'f', 'i', 'n', 'i', 't', 'y']) :
      SpecialFloat (String.ofList (sign.text ++ w)) .inf
  | negInf (w : List Char) (h : w.map Char.toLower = ['i', 'n', 'f'] ∨ w.map Char.toLower = ['i', 'n', 'f', 'i', 'n', 'i', 't', 'y']) :
      SpecialFloat (String.ofList ('-' :: w)) .negInf

/-- The arguments are these options, in order; `Sum.inr` stands for a tolerance that is not a number. -/
inductive OptionsTol : List (Setting ⊕ Tolerance) → List String → Prop
  | nil : OptionsTol [] []
  | plain {s : Setting} {v : Option String} {l l' : List String} {ss : List (Setting ⊕ Tolerance)} (ht : s.Text v) (hs : Spelling s.long s.short v l) (h : OptionsTol ss l') :
      OptionsTol (.inl s :: ss) (l ++ l')
  | tol {t : Tolerance} {v : String} {l l' : List String} {ss : List (Setting ⊕ Tolerance)} (ht : SpecialFloat v t) (hs : Spelling "--collapse_tol" none (some v) l) (h : OptionsTol ss l') :
      OptionsTol (.inr t :: ss) (l ++ l')

/-- As `Written`. -/
def WrittenTol (settings : List (Setting ⊕ Tolerance)) (paths argv : List String) : Prop :=
  (∃ (s s' : List (Setting ⊕ Tolerance)) (l l' : List String), settings = s ++ s' ∧ OptionsTol s l ∧ OptionsTol s' l' ∧ (∀ p ∈ paths, Operand p) ∧ paths ≠ [] ∧ argv = l ++ paths ++ l') ∨
  ∃ l ps qs : List String, OptionsTol settings l ∧ (∀ p ∈ ps, Operand p) ∧ paths = ps ++ qs ∧ paths ≠ [] ∧ argv = l ++ ps ++ "--" :: qs

/-- The options other than special tolerances. -/
def plainSettings (settings : List (Setting ⊕ Tolerance)) : List Setting := settings.filterMap Sum.getLeft?

/-- The tolerance after an option. -/
noncomputable def nextTolerance (t : Tolerance) : Setting ⊕ Tolerance → Tolerance
  | .inr u => u
  | .inl (.collapseTol x) => .num x
  | _ => t

/-- The tolerance: the last one that is given, or `1e-4`. -/
noncomputable def lastTolerance (settings : List (Setting ⊕ Tolerance)) : Tolerance := settings.foldl nextTolerance (.num (1 / 10000))

end Amd
