import Verif.Model.Tolerance
import Verif.Model.CompareFn

/-!
# `compare` with any float as `collapse_tol`

`compare` in `Model.CompareFn` takes `collapse_tol` from the keyword arguments as a real number; here it is a separate argument and may also be `inf`, `-inf` or `nan`. No other function that
`compare` calls has a parameter of this name, so nothing else changes.
-/

namespace Amd

/-- `PDD(s, k, **pdd_kwargs)` for all crystals, `compare.py:273, 280`; as `allPdds`. -/
noncomputable def allPddsTol (r : Routed) (tol : Tolerance) (cs : List Crystal) (k fuel : ℕ) : Except CErr (List (List (PRow ℝ))) :=
  lift (mapE (fun c => PDDTol c.set k (argOf r.pdd "lexsort").truthy (argOf r.pdd "collapse").truthy tol fuel) cs)

/-- `by == 'PDD'`, `compare.py:271-287`; as `comparePdd`. -/
noncomputable def comparePddTol (env : Env) (r : Routed) (tol : Tolerance) (cs : List Crystal) (cs_ : Option (List Crystal)) (k : ℕ) (n : Option ℕ) (fuel : ℕ) :
    Except CErr Frame := do
  let names := cs.map Crystal.name
  let pdds ← allPddsTol r tol cs k fuel
  match cs_ with
  | none =>
    let metric ← (argOf r.pdds "metric").toMetric
    let jobs ← (argOf r.pdds "n_jobs").toJobs
    let backend ← (argOf r.pdds "backend").toStr
    let cdm ← lift (pddPdist (metric.dist env.other) env.sched ⟨backend, jobs, (argOf r.pdds "verbose").truthy⟩ pdds fuel)
    match n with
    | none =>
      let dm ← lift (squareform cdm)
      matrixFrame names names dm
    | some n =>
      let nn ← lift (neighbors1D env.part env.sort n cdm)
      nearestFrame n nn names names
  | some cs' =>
    let pdds_ ← allPddsTol r tol cs' k fuel
    let metric ← (argOf r.pdds "metric").toMetric
    let jobs ← (argOf r.pdds "n_jobs").toJobs
    let backend ← (argOf r.pdds "backend").toStr
    let dm ← lift (pddCdist (metric.dist env.other) env.sched ⟨backend, jobs, (argOf r.pdds "verbose").truthy⟩ pdds pdds_ fuel)
    match n with
    | none => matrixFrame names (cs'.map Crystal.name) dm
    | some n =>
      let nn ← lift (neighbors2D env.part env.sort n dm)
      nearestFrame n nn names (cs'.map Crystal.name)

/-- `compare(crystals, crystals_, by, k, n_neighbors, csd_refcodes, verbose, collapse_tol=tol, **kwargs)`, `compare.py:40-287`; as `compare`. A value of `collapse_tol` in `kwargs` is not used. -/
noncomputable def compareTol (env : Env) (crystals : Input) (crystals_ : Option Input) (args : CompareArgs) (tol : Tolerance) (kwargs : Kwargs) (fuel : ℕ) :
    Except CErr Frame :=
  let by_ := upper args.by_
  if by_ ≠ "AMD" ∧ by_ ≠ "PDD" then .error (.run .value)
  else do
    let r := routeKwargs args.verbose kwargs
    let cs ← getCrystals env args.csdRefcodes r crystals
    let cs_ ← match crystals_ with
      | none => .ok none
      | some inp => (getCrystals env args.csdRefcodes r inp).map some
    if by_ = "AMD" then compareAmd env r cs cs_ args.k args.nNeighbors fuel
    else comparePddTol env r tol cs cs_ args.k args.nNeighbors fuel

end Amd
