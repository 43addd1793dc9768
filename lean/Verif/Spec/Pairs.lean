import Verif.Model.CompareFn

/-! Which crystals the rows and columns of the result of `compare` are for. -/

namespace Amd

/-- The first argument stands for the crystals `cs`. The second stands for `cs'`, or is not given and then the crystals of the first are compared with each other. -/
def Collections (env : Env) (args : CompareArgs) (kwargs : Kwargs) (inp : Input) (inp' : Option Input) (cs cs' : List Crystal) : Prop :=
  getCrystals env args.csdRefcodes (routeKwargs args.verbose kwargs) inp = .ok cs ∧
    match inp' with
    | none => cs' = cs
    | some i => getCrystals env args.csdRefcodes (routeKwargs args.verbose kwargs) i = .ok cs'

/-- The same periodic set, perhaps with another name, and perhaps turned or reflected by `R` and moved by `v`. -/
def SameSet (c c' : Crystal) : Prop :=
  ∃ (R : Pt c.dim ℝ →ₗ[ℝ] Pt c.dim ℝ) (v : Pt c.dim ℝ), (∀ p, ∑ j, R p j ^ 2 = ∑ j, p j ^ 2) ∧
    c' = ⟨c'.name, c.dim, { c.set with motif := c.set.motif.map fun x => R x + v, cell := fun i => R (c.set.cell i) }⟩

/-- Item `i` of one list and item `j` of another are the same periodic set. -/
def SameAt (cs : List Crystal) (i : ℕ) (ds : List Crystal) (j : ℕ) : Prop := ∃ c d, cs[i]? = some c ∧ ds[j]? = some d ∧ SameSet c d

/-- Two tables agree, up to `t`, wherever they are about the same two periodic sets, in either order. -/
def PairsAgree (t : ℝ) (cs cs' : List Crystal) (f : ℕ → ℕ → ℝ) (ds ds' : List Crystal) (g : ℕ → ℕ → ℝ) : Prop :=
  ∀ i j i' j', (SameAt cs i ds i' ∧ SameAt cs' j ds' j' ∨ SameAt cs i ds' j' ∧ SameAt cs' j ds i') → |f i j - g i' j'| ≤ t

end Amd
