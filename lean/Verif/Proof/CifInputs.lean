import Verif.Proof.CifCompare

/-! The inputs of `compare` given by paths or refcodes. -/

namespace Amd

open Classical

variable {B : CifBackends} {asString : String → String} {o : ReadOptions} {w : World} {env : Env} {kwargs : Kwargs} {args : CompareArgs}
  {inp inp' : Input} {ds : List Described} {cs : List Crystal}

/-- `compare` reads paths with the model of `CifReader` and refcodes with that of `CSDReader`, warnings are not turned into exceptions, and the options of the readers are
`o`, where `disorder` is not `'all_sites'`. -/
structure ReadsInputs (env : Env) (B : CifBackends) (w : World) (kwargs : Kwargs) (o : ReadOptions) : Prop where
  cifReader : env.cifReader = cifReader B w
  csdReader : env.csdReader = csdReader B w
  quiet : ∀ x, w.action x ≠ .error
  options : ReaderOptions kwargs o
  disorder : o.Distinct

theorem IsStrings.eq {l : List String} (h : IsStrings inp l) (csd : Bool) (r : Routed) : getCrystals env csd r inp = getCrystals env csd r (.many (l.map .str)) := by
  cases h <;> rfl

theorem allStrings_str (l : List String) : allStrings (l.map .str) = some l := by
  induction l with
  | nil => rfl
  | cons s l ih => rw [List.map_cons, allStrings, ih]; rfl

theorem paths_unwrap {δ : Type} {proper : δ → Prop} {reads : δ → Crystal → Prop} {kw : Kwargs} {paths : List String} {f : String → List (Option δ)}
    (hf : ∀ p ∈ paths, (∀ c ∈ (f p).reduceOption, proper c) → ∃ cs, env.cifReader kw p = .ok cs ∧ List.Forall₂ reads (f p).reduceOption cs)
    (hp : ∀ c ∈ (paths.flatMap f).reduceOption, proper c) :
    ∃ cs, unwrapPsets env kw (paths.map .str) = .ok cs ∧ List.Forall₂ reads (paths.flatMap f).reduceOption cs := by
  induction paths with
  | nil => exact ⟨[], rfl, .nil⟩
  | cons p l ih =>
    rw [List.flatMap_cons, List.reduceOption_append] at hp ⊢
    obtain ⟨cs, h1, h2⟩ := ih (fun q hq => hf q (by simp [hq])) fun c hc => hp c (List.mem_append_right _ hc)
    obtain ⟨cs', h1', h2'⟩ := hf p (by simp) fun c hc => hp c (List.mem_append_left _ hc)
    refine ⟨cs' ++ cs, ?_, List.rel_append h2' h2⟩
    rw [List.map_cons, unwrapPsets, h1', h1]

/-- Paths are read one after the other. -/
theorem paths_crystals {δ : Type} {proper : δ → Prop} {reads : δ → Crystal → Prop} {r : Routed} {paths : List String} {f : String → List (Option δ)} (hs : IsStrings inp paths)
    (hf : ∀ p ∈ paths, (∀ c ∈ (f p).reduceOption, proper c) → ∃ cs, env.cifReader r.cif p = .ok cs ∧ List.Forall₂ reads (f p).reduceOption cs)
    (hp : ∀ c ∈ (paths.flatMap f).reduceOption, proper c) :
    ∃ cs, List.Forall₂ reads (paths.flatMap f).reduceOption cs ∧ (cs ≠ [] → getCrystals env false r inp = .ok cs) ∧
      (cs = [] → getCrystals env false r inp = .error (.run .value)) := by
  obtain ⟨cs, h1, h2⟩ := paths_unwrap hf hp
  refine ⟨cs, h2, fun hne => ?_, fun h0 => ?_⟩
  · rw [hs.eq, getCrystals, if_neg (by simp), Input.items, h1]
    cases cs with
    | nil => exact absurd rfl hne
    | cons _ _ => rfl
  · rw [hs.eq, getCrystals, if_neg (by simp), Input.items, h1, h0]

/-- Refcodes are read together. -/
theorem refcodes_crystals {δ : Type} {reads : δ → Crystal → Prop} {r : Routed} {given : List String} {ds : List δ} (hs : IsStrings inp given)
    (hf : ∃ cs, env.csdReader r.csd given = .ok cs ∧ List.Forall₂ reads ds cs) :
    ∃ cs, List.Forall₂ reads ds cs ∧ (cs ≠ [] → getCrystals env true r inp = .ok cs) ∧ (cs = [] → getCrystals env true r inp = .error (.run .value)) := by
  obtain ⟨cs, h1, h2⟩ := hf
  have hu : unwrapRefcodes env r.csd (given.map .str) = .ok cs := by
    rw [unwrapRefcodes, allStrings_str]
    simp only [h1]
  refine ⟨cs, h2, fun hne => ?_, fun h0 => ?_⟩
  · rw [hs.eq, getCrystals, if_pos rfl, Input.items, hu]
    cases cs with
    | nil => exact absurd rfl hne
    | cons _ _ => rfl
  · rw [hs.eq, getCrystals, if_pos rfl, Input.items, hu, h0]

theorem input_unwrap (h : ReadsInputs env B w kwargs o) (hi : InputHolds B asString o inp ds args.csdRefcodes) (hp : ∀ c ∈ ds, c.Proper) :
    ∃ cs, List.Forall₂ Reads ds cs ∧ (cs ≠ [] → getCrystals env args.csdRefcodes (routeKwargs args.verbose kwargs) inp = .ok cs) ∧
      (cs = [] → getCrystals env args.csdRefcodes (routeKwargs args.verbose kwargs) inp = .error (.run .value)) := by
  generalize args.csdRefcodes = csd at hi
  cases hi with
  | paths paths f hs hf hc =>
    subst hc
    refine paths_crystals hs (fun p hm hp => ?_) hp
    rw [h.cifReader]
    exact reader_reads (h.options.cif args.verbose) h.disorder h.quiet (hf p hm) hp
  | refcodes given rs hs hf hc =>
    subst hc
    refine refcodes_crystals hs ?_
    rw [h.csdReader]
    exact csdReader_reads (h.options.csd args.verbose) h.disorder h.quiet hf hp

end Amd
