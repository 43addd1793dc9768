import Verif.Model.CliParse
import Verif.Model.CompareTol

/-!
# The command with any float as `--collapse_tol`

`cliRun` in `Model.CliParse` models the command for tolerances that are numbers; here `nan`, `inf` and `-inf` are possible as well.
-/

namespace Amd

/-- The value of `type=float` as the argument `collapse_tol`, `cli.py:93-97`. -/
noncomputable def PyFloat.tolerance : PyFloat → Tolerance
  | .num q => .num q
  | .nan => .nan
  | .inf false => .inf
  | .inf true => .negInf

/-- `kwargs['collapse_tol']`, `cli.py:127`. -/
noncomputable def CliNamespace.tolerance (ns : CliNamespace) : Except CliErr Tolerance :=
  match ns.lookup "collapse_tol" with
  | some (.float x) => .ok x.tolerance
  | _ => .error .unmodelled

/-- `compare(..., collapse_tol=tol)` for any integer `k`; for a negative `k` the tolerance is not used (`C101_compare`), and `compareInt` says what happens. -/
noncomputable def compareIntTol (env : Env) (crystals : Input) (crystals_ : Option Input) (args : CompareArgs) (k : ℤ) (tol : Tolerance) (kwargs : Kwargs) (fuel : ℕ) :
    Except CErr Frame :=
  if 0 ≤ k then compareTol env crystals crystals_ { args with k := k.toNat } tol kwargs fuel else compareInt env crystals crystals_ args k kwargs fuel

/-- `main()` after parsing, `cli.py:126-160`, as `cliMainInt`. -/
noncomputable def cliMainTol (env : Env) (formats : String → Bool) (a : CliArgs) (k : ℤ) (tol : Tolerance) (fuel : ℕ) : Except CErr CliOutput := do
  let df ← match a.paths with
    | [p] => compareIntTol env (.one (.str p)) none a.named k tol a.kwargs fuel
    | [p, q] => compareIntTol env (.one (.str p)) (some (.one (.str q))) a.named k tol a.kwargs fuel
    | _ => .error (.run .value)
  if formats a.format then .ok { frame := df, path := a.outputInt k, format := a.format } else .error (.run .value)

/-- `main()` with `sys.argv[1:] = argv`, `cli.py:10-160`, as `cliRun`. The record of the other options has a place for a number as the tolerance, which is not used; it is 0 here. -/
noncomputable def cliRunTol (env : Env) (formats : String → Bool) (argv : List String) (fuel : ℕ) : Except CliErr CliOutput := do
  let (paths, ns) ← parseArgs argv
  let tol ← ns.tolerance
  let a ← cliArgs paths (("collapse_tol", .float (.num 0)) :: ns)
  let k ← ns.int "k"
  match cliMainTol env formats a k tol fuel with
  | .ok x => .ok x
  | .error e => .error (.raised e)

end Amd
