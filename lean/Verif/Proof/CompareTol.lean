import Verif.Model.CompareTol
import Verif.Proof.CompareFn
import Verif.Proof.Tolerance
import Verif.Props.Tolerance

/-! # Lemmas on `compare` with any float as the collapse tolerance -/

namespace Amd

/-- Keyword arguments with another value for the way of collapsing are routed to the same places. -/
theorem routeKwargs_collapse (verbose : Bool) (kwargs : Kwargs) (v : PyVal) : routeKwargs verbose (("collapse", v) :: kwargs) =
    { routeKwargs verbose kwargs with pdd := (routeKwargs verbose (("collapse", v) :: kwargs)).pdd } := rfl

theorem routeKwargs_tol (verbose : Bool) (kwargs : Kwargs) (v : PyVal) : routeKwargs verbose (("collapse_tol", v) :: kwargs) =
    { routeKwargs verbose kwargs with pdd := (routeKwargs verbose (("collapse_tol", v) :: kwargs)).pdd } := rfl

theorem comparePddTol_eq {env : Env} {r r' : Routed} {tol : Tolerance} {cs : List Crystal} {k fuel : ℕ} (hr : r'.pdds = r.pdds) (h : allPddsTol r tol cs k fuel = allPdds r' cs k fuel) (n : Option ℕ) :
    comparePddTol env r tol cs none k n fuel = comparePdd env r' cs none k n fuel ∧
    ∀ cs', allPddsTol r tol cs' k fuel = allPdds r' cs' k fuel → comparePddTol env r tol cs (some cs') k n fuel = comparePdd env r' cs (some cs') k n fuel := by
  refine ⟨?_, fun cs' h' => ?_⟩
  · unfold comparePddTol comparePdd
    rw [h, hr]
    rfl
  · unfold comparePddTol comparePdd
    rw [h, hr]
    simp only [h']
    cases n <;> rfl

/-- `compareTol` is `compare` if all PDDs agree. -/
theorem compareTol_eq {env : Env} {inp : Input} {inp' : Option Input} {args : CompareArgs} {tol : Tolerance} {kwargs kwargs' : Kwargs} {fuel : ℕ}
    (hr : routeKwargs args.verbose kwargs' = { routeKwargs args.verbose kwargs with pdd := (routeKwargs args.verbose kwargs').pdd })
    (h : ∀ i ∈ inp :: inp'.toList, ∀ cs, getCrystals env args.csdRefcodes (routeKwargs args.verbose kwargs) i = .ok cs →
      allPddsTol (routeKwargs args.verbose kwargs) tol cs args.k fuel = allPdds (routeKwargs args.verbose kwargs') cs args.k fuel) :
    compareTol env inp inp' args tol kwargs fuel = compare env inp inp' args kwargs' fuel := by
  have e1 : ∀ i, getCrystals env args.csdRefcodes (routeKwargs args.verbose kwargs') i = getCrystals env args.csdRefcodes (routeKwargs args.verbose kwargs) i := fun i => by rw [hr]; rfl
  have e2 : (routeKwargs args.verbose kwargs').pdds = (routeKwargs args.verbose kwargs).pdds := by rw [hr]
  have e3 : ∀ cs cs_, compareAmd env (routeKwargs args.verbose kwargs') cs cs_ args.k args.nNeighbors fuel = compareAmd env (routeKwargs args.verbose kwargs) cs cs_ args.k args.nNeighbors fuel := by
    intro cs cs_
    rw [hr]
    rfl
  unfold compareTol compare
  by_cases hby : upper args.by_ ≠ "AMD" ∧ upper args.by_ ≠ "PDD"
  · simp only [if_pos hby]
  simp only [if_neg hby, e1, e3]
  cases hg : getCrystals env args.csdRefcodes (routeKwargs args.verbose kwargs) inp with
  | error e => rfl
  | ok cs =>
    have h1 := comparePddTol_eq (env := env) e2 (h inp (by simp) cs hg) args.nNeighbors
    cases inp' with
    | none => simp only [bind, Except.bind, h1.1]
    | some jnp =>
      cases hg' : getCrystals env args.csdRefcodes (routeKwargs args.verbose kwargs) jnp with
      | error e => simp only [bind, Except.bind, Except.map, hg']
      | ok cs' => simp only [bind, Except.bind, Except.map, hg', h1.2 cs' (h jnp (by simp) cs' hg')]

end Amd
