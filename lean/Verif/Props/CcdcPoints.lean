import Verif.Props.CcdcSelect

/-!
# ccdc Crystal objects, the points of the set: C76, and lemmas for C77 (`Props/CcdcWritten.lean`)
-/

namespace Amd

variable {env : CcdcEnv} {crystal c' : CcdcCrystal} {rh heaviest : Bool} {d : String} {ws : List Warning} {s : FullSet}

/-- The positions of the atoms that have one. -/
def atomCoords (l : List CcdcAtom) : List (Pt 3 ℝ) := l.filterMap CcdcAtom.coords

/-! ### Helpers -/

theorem mapM_coords : ∀ (l : List CcdcAtom) (P : List (Pt 3 ℝ)), l.mapM CcdcAtom.coords = some P ↔ l.map CcdcAtom.coords = P.map some
  | [], P => by
    rcases P with _ | ⟨p, P⟩
    · simp
    · simp
  | a :: l, P => by
    rw [List.mapM_cons]
    cases ha : a.coords with
    | none => rcases P with _ | ⟨p, P⟩ <;> simp [ha]
    | some q =>
      cases hl : l.mapM CcdcAtom.coords with
      | none =>
        rcases P with _ | ⟨p, P⟩
        · simp
        · have := mapM_coords l P
          rw [hl] at this
          simp only [List.map_cons, ha, List.cons.injEq, ← this]
          simp
      | some R =>
        rcases P with _ | ⟨p, P⟩
        · simp
        · have := mapM_coords l P
          rw [hl] at this
          simp only [List.map_cons, ha, List.cons.injEq, ← this, Option.some.injEq]
          simp

theorem coords_filterMap {l : List CcdcAtom} {P : List (Pt 3 ℝ)} (h : l.map CcdcAtom.coords = P.map some) : atomCoords l = P := by
  have : atomCoords l = (l.map CcdcAtom.coords).filterMap id := by rw [List.filterMap_map]; rfl
  rw [this, h, List.filterMap_map]
  simp

theorem isCentre_iff {l : List CcdcAtom} {P : List (Pt 3 ℝ)} (h : l.map CcdcAtom.coords = P.map some) (hne : P ≠ []) (p : Pt 3 ℝ) : IsCentre l p ↔ p = centreOf P := by
  have h0 : (P.length : ℝ) ≠ 0 := by simpa using hne
  constructor
  · rintro ⟨Q, hQ, -, hp⟩
    have : Q = P := by rw [← coords_filterMap hQ, coords_filterMap h]
    subst this
    funext i
    rw [centreOf, eq_div_iff h0, hp i]
  · rintro rfl
    exact ⟨P, h, hne, fun i => by rw [centreOf, div_mul_cancel₀ _ h0]⟩

/-- Sites in the unit cell that are equal if they are close are not lost. -/
theorem kept_of_exact {P : List (Pt 3 ℝ)} (hc : ∀ p ∈ P, ∀ i, 0 ≤ p i ∧ p i < 1) (hx : ∀ p ∈ P, ∀ q ∈ P, SameSite eqSiteTol p q → p = q) {p : Pt 3 ℝ} :
    p ∈ kept eqSiteTol P ↔ p ∈ P := by
  refine ⟨fun h => (kept_sublist _).subset h, fun hp => ?_⟩
  obtain ⟨m, hm, hr⟩ := kept_chain' (tol := eqSiteTol) hp
  have : p = m := by
    clear hm
    induction hr with
    | refl => rfl
    | tail _ h2 ih =>
      obtain ⟨ha, hb, hab⟩ := h2
      rw [ih, hx _ ha _ hb ((siteClose_iff_sameSite eqSiteTol_lt (hc _ ha) (hc _ hb)).1 hab)]
  exact this ▸ hm

theorem kept_distinct {P : List (Pt 3 ℝ)} (hc : ∀ p ∈ P, ∀ i, 0 ≤ p i ∧ p i < 1) : Distinct (kept eqSiteTol P) := by
  refine (kept_apart (tol := eqSiteTol) P).imp_of_mem fun {p q} hp hq h e => ?_
  have hp := hc p ((kept_sublist P).subset hp)
  have hq := hc q ((kept_sublist P).subset hq)
  rw [IntEq.eq_of_cell e hp hq, siteClose_refl eqSiteTol_nonneg] at h
  cases h

theorem ccdc_ok {centres : Bool} (h : ccdcConvert env crystal rh d heaviest centres = (c', ws, .ok s)) :
    ∃ molecule cell, (ccdcSelect env crystal rh d heaviest).2 = .ok molecule ∧ c' = env.setMolecule crystal molecule ∧ ccdcCell c' = .ok cell ∧
      if centres then ∃ pts, molecularCentres (env.packing c') eqSiteTol = .ok pts ∧ s = { name := some c'.identifier, set := { motif := pts.map (toCartesian cell), cell := cell } }
      else ∃ asym, (env.asymAtoms c').mapM CcdcAtom.coords = some asym ∧ asym ≠ [] ∧ ∃ ws' r,
        finishSites c'.identifier cell d ccdcOverlapText (asym.map fractPt) ((env.asymAtoms c').map CcdcAtom.number) (ccdcSymmetry c') = (ws', .ok r) ∧
        s = { name := some r.name, set := r.set, types := some r.types } := by
  rw [ccdcConvert] at h
  simp only at h
  split at h
  · cases h
  · rename_i molecule hm
    split at h
    · cases h
    · rename_i cell hcell
      split at h
      · rename_i hcen
        split at h
        · cases h
        · rename_i pts hp
          simp only [Prod.mk.injEq, Except.ok.injEq] at h
          obtain ⟨rfl, -, rfl⟩ := h
          exact ⟨molecule, cell, hm, rfl, hcell, by rw [if_pos hcen]; exact ⟨pts, hp, rfl⟩⟩
      · rename_i hcen
        split at h
        · cases h
        · rename_i asym ha
          split at h
          · cases h
          · rename_i hne
            simp only [Prod.mk.injEq] at h
            obtain ⟨rfl, -, h⟩ := h
            refine ⟨molecule, cell, hm, rfl, hcell, ?_⟩
            rw [if_neg hcen]
            refine ⟨asym, ha, by simpa using hne, ?_⟩
            generalize finishSites _ _ _ _ _ _ _ = r at h ⊢
            rcases r with ⟨w, _ | r⟩
            · cases h
            · exact ⟨w, r, rfl, (Except.ok.inj h).symm⟩

theorem finishSites_ok {name : String} {cell : Fin 3 → Pt 3 ℝ} {d w : String} {asym : List (Pt 3 ℝ)} {types : List ℕ} {sym : Conversion (List (AffineOp 3))}
    {ws : List Warning} {r : ReadSet} (h : finishSites name cell d w asym types sym = (ws, .ok r)) :
    ∃ ops, sym.2 = .ok ops ∧ r.name = name ∧
      r.set = expandedSet cell (if d = "all_sites" then asym else kept eqSiteTol asym) ops (decide (d ≠ "all_sites")) ∧
      r.types = (expandAsymUnit (if d = "all_sites" then asym else kept eqSiteTol asym) ops eqSiteTol (decide (d ≠ "all_sites"))).2.1.map
        fun i => (if d = "all_sites" then types else selectMask types (uniqueSites eqSiteTol asym)).getD i 0 := by
  rw [finishSites] at h
  cases hops : sym.2 with
  | error e =>
    rw [hops] at h
    cases h
  | ok ops =>
    rw [hops] at h
    refine ⟨ops, rfl, ?_⟩
    by_cases hd : d = "all_sites"
    · simp only [hd, ne_eq, not_true_eq_false, if_false, if_true] at h ⊢
      split at h
      · cases h
      · simp only [Prod.mk.injEq, Except.ok.injEq] at h
        obtain ⟨-, rfl⟩ := h
        exact ⟨rfl, rfl, rfl⟩
    · simp only [hd, ne_eq, not_false_eq_true, if_false, if_true, select_uniqueSites] at h ⊢
      split at h
      · cases h
      · simp only [Prod.mk.injEq, Except.ok.injEq] at h
        obtain ⟨-, rfl⟩ := h
        exact ⟨rfl, rfl, rfl⟩

theorem select_pairs : ∀ (P : List (Pt 3 ℝ)) (T : List ℕ) (m : List Bool), P.length = T.length → ∀ i (h : i < (selectMask P m).length),
    ∃ j, ∃ (h1 : j < P.length) (h2 : j < T.length), (selectMask P m)[i] = P[j] ∧ (selectMask T m).getD i 0 = T[j]
  | [], [], _, _, i, h => by simp [selectMask] at h
  | p :: P, t :: T, [], _, i, h => by simp [selectMask] at h
  | p :: P, t :: T, b :: m, hl, i, h => by
    have hl' : P.length = T.length := by simpa using hl
    cases b with
    | false =>
      simp only [selectMask, Bool.false_eq_true, if_false] at h ⊢
      obtain ⟨j, h1, h2, e1, e2⟩ := select_pairs P T m hl' i h
      exact ⟨j + 1, by simp; omega, by simp; omega, by simpa using e1, by simpa using e2⟩
    | true =>
      simp only [selectMask, if_true] at h ⊢
      rcases i with _ | i
      · exact ⟨0, by simp, by simp, by simp, by simp⟩
      · obtain ⟨j, h1, h2, e1, e2⟩ := select_pairs P T m hl' i (by simpa using h)
        exact ⟨j + 1, by simp; omega, by simp; omega, by simpa using e1, by simpa using e2⟩
  | [], _ :: _, _, hl, _, _ => by simp at hl
  | _ :: _, [], _, hl, _, _ => by simp at hl

/-! ### C76 -/

/-- **C76** With `molecular_centres`, the points of the set are the geometric centres of the molecules whose centre is in the cell, as listed by ccdc, and no point
is listed twice. Centres that are not equal modulo the lattice are not within the tolerance 0.001 of each other. -/
theorem C76_centres (h : ccdcConvert env crystal rh d heaviest true = (c', ws, .ok s))
    (hx : ∀ l ∈ env.packing c', ∀ l' ∈ env.packing c', ∀ p p', IsCentre l p → IsCentre l' p' → SameSite (1 / 1000) p p' → ∃ n : Fin 3 → ℤ, ∀ i, p i = p' i + n i) :
    ccdcCell c' = .ok s.set.cell ∧ s.name = some c'.identifier ∧ periodicPoints s.set.motif s.set.cell = centrePoints s.set.cell (env.packing c') ∧
      (NonSingular s.set.cell → Function.Injective (sitePos s.set.motif s.set.cell)) := by
  obtain ⟨molecule, cell, -, -, hcell, hh⟩ := ccdc_ok h
  rw [if_pos rfl] at hh
  obtain ⟨pts, hp, rfl⟩ := hh
  refine ⟨hcell, rfl, ?_⟩
  simp only
  rw [molecularCentres] at hp
  split at hp
  · cases hp
  · rename_i Ps hPs
    split at hp
    · cases hp
    · rename_i hne
      push Not at hne
      have hpts := (Except.ok.inj hp).symm
      rw [select_uniqueSites] at hpts
      have hC : (Ps.map fun l : List (Pt 3 ℝ) => (fun i => Int.fract (centreOf l i) : Pt 3 ℝ)) = Ps.map fun l => fractPt (centreOf l) := rfl
      rw [hC] at hpts
      have hF : List.Forall₂ (fun l P => l.map CcdcAtom.coords = P.map some) (env.packing c') Ps := by
        revert hPs
        generalize env.packing c' = cs
        clear hne hpts hC hp
        intro hPs
        induction cs generalizing Ps with
        | nil => simp at hPs; subst hPs; exact List.Forall₂.nil
        | cons l cs ih =>
          rw [List.mapM_cons] at hPs
          cases h1 : l.mapM CcdcAtom.coords with
          | none => rw [h1] at hPs; cases hPs
          | some P =>
            cases h2 : cs.mapM (fun c => c.mapM CcdcAtom.coords) with
            | none => rw [h1, h2] at hPs; cases hPs
            | some Qs =>
              rw [h1, h2] at hPs
              cases hPs
              exact List.Forall₂.cons ((mapM_coords _ _).1 h1) (ih _ h2)
      have hl : ∀ P ∈ Ps, ∃ l ∈ env.packing c', l.map CcdcAtom.coords = P.map some := by
        intro P hP
        obtain ⟨i, hi, rfl⟩ := List.mem_iff_getElem.1 hP
        have hi' : i < (env.packing c').length := by rw [hF.length_eq]; exact hi
        exact ⟨_, List.getElem_mem hi', hF.get hi' hi⟩
      have hr : ∀ l ∈ env.packing c', ∃ P ∈ Ps, l.map CcdcAtom.coords = P.map some := by
        intro l hl
        obtain ⟨i, hi, rfl⟩ := List.mem_iff_getElem.1 hl
        have hi' : i < Ps.length := by rw [← hF.length_eq]; exact hi
        exact ⟨_, List.getElem_mem hi', hF.get hi hi'⟩
      have hnil : ∀ P ∈ Ps, P ≠ [] := fun P hP e => hne.2 (e ▸ hP)
      have hcell1 : ∀ p ∈ Ps.map fun l => fractPt (centreOf l), ∀ i, 0 ≤ p i ∧ p i < 1 := by
        intro p hp
        obtain ⟨P, -, rfl⟩ := List.mem_map.1 hp
        exact fractPt_cell _
      have hex : ∀ p ∈ Ps.map (fun l => fractPt (centreOf l)), ∀ q ∈ Ps.map (fun l => fractPt (centreOf l)), SameSite eqSiteTol p q → p = q := by
        intro p hp q hq hs
        obtain ⟨P, hP, rfl⟩ := List.mem_map.1 hp
        obtain ⟨Q, hQ, rfl⟩ := List.mem_map.1 hq
        obtain ⟨l, hl1, hl2⟩ := hl P hP
        obtain ⟨l', hl1', hl2'⟩ := hl Q hQ
        refine IntEq.eq_of_cell ?_ (fractPt_cell _) (fractPt_cell _)
        have h1 := fractPt_intEq (centreOf P)
        have h2 := fractPt_intEq (centreOf Q)
        refine h1.symm.trans (IntEq.trans (hx l hl1 l' hl1' _ _ ((isCentre_iff hl2 (hnil P hP) _).2 rfl) ((isCentre_iff hl2' (hnil Q hQ) _).2 rfl) ?_) h2)
        intro j
        obtain ⟨n, hn⟩ := hs j
        obtain ⟨n1, e1⟩ := h1
        obtain ⟨n2, e2⟩ := h2
        refine ⟨n + n1 j - n2 j, ?_⟩
        rw [e1 j, e2 j]
        push_cast
        rw [eqSiteTol] at hn
        convert hn using 2
        ring
      have hmotif : pts.map (toCartesian cell) = pts.map (cartesian cell) := rfl
      rw [hmotif]
      constructor
      · rw [positions_points]
        ext q
        constructor
        · rintro ⟨p, hp, n, rfl⟩
          rw [hpts, kept_of_exact hcell1 hex] at hp
          obtain ⟨P, hP, rfl⟩ := List.mem_map.1 hp
          obtain ⟨l, hl1, hl2⟩ := hl P hP
          obtain ⟨m, hm⟩ := fractPt_intEq (centreOf P)
          refine ⟨l, hl1, _, (isCentre_iff hl2 (hnil P hP) _).2 rfl, fun i => n i - m i, ?_⟩
          congr 1
          funext i
          rw [hm i]
          push_cast
          ring
        · rintro ⟨l, hl1, p, hp, n, rfl⟩
          obtain ⟨P, hP, hl2⟩ := hr l hl1
          obtain rfl := (isCentre_iff hl2 (hnil P hP) _).1 hp
          obtain ⟨m, hm⟩ := fractPt_intEq (centreOf P)
          refine ⟨fractPt (centreOf P), ?_, fun i => n i + m i, ?_⟩
          · rw [hpts, kept_of_exact hcell1 hex]
            exact List.mem_map.2 ⟨P, hP, rfl⟩
          · congr 1
            funext i
            rw [hm i]
            push_cast
            ring
      · intro hns
        refine positions_injective hns ?_
        rw [hpts]
        exact kept_distinct hcell1

/-! ### Towards C77 -/

theorem ccdc_shape (h : ccdcConvert env crystal rh d heaviest false = (c', ws, .ok s)) {ops : List (AffineOp 3)} (hops : (ccdcSymmetry c').2 = .ok ops) :
    ∃ asym cell, (env.asymAtoms c').map CcdcAtom.coords = asym.map some ∧ asym ≠ [] ∧ ccdcCell c' = .ok cell ∧
      s.set = expandedSet cell (if d = "all_sites" then asym.map fractPt else kept eqSiteTol (asym.map fractPt)) ops (decide (d ≠ "all_sites")) ∧
      s.types = some ((expandAsymUnit (if d = "all_sites" then asym.map fractPt else kept eqSiteTol (asym.map fractPt)) ops eqSiteTol (decide (d ≠ "all_sites"))).2.1.map
        fun i => (if d = "all_sites" then (env.asymAtoms c').map CcdcAtom.number
          else selectMask ((env.asymAtoms c').map CcdcAtom.number) (uniqueSites eqSiteTol (asym.map fractPt))).getD i 0) := by
  obtain ⟨molecule, cell, -, -, hcell, hh⟩ := ccdc_ok h
  rw [if_neg (by simp)] at hh
  obtain ⟨asym, ha, hne, ws', r, hf, rfl⟩ := hh
  obtain ⟨ops', ho, -, hset, htyp⟩ := finishSites_ok hf
  rw [hops] at ho
  obtain rfl := Except.ok.inj ho
  exact ⟨asym, cell, (mapM_coords _ _).1 ha, hne, hcell, hset, by rw [← htyp]⟩

theorem opPoint_intEq {cell : Fin 3 → Pt 3 ℝ} {G : Set (FracOp 3)} (hG : IsSpaceGroup cell G) {g : FracOp 3} (hg : g ∈ G) {p q : Pt 3 ℝ} (h : IntEq p q) :
    IntEq (opPoint g p) (opPoint g q) := by
  obtain ⟨n, hn⟩ := h
  choose m hm using hG.lattice g hg
  refine ⟨fun i => ∑ j, m i j * n j, fun i => ?_⟩
  simp only [opPoint, hn, mul_add, Finset.sum_add_distrib, hm]
  push_cast
  ring

theorem crystal_fract {cell : Fin 3 → Pt 3 ℝ} {G : Set (FracOp 3)} (hG : IsSpaceGroup cell G) (asym : List (Pt 3 ℝ)) :
    crystalPoints cell G {p | p ∈ asym.map fractPt} = crystalPoints cell G {p | p ∈ asym} := by
  ext q
  constructor
  · rintro ⟨p, hp, g, hg, n, rfl⟩
    obtain ⟨p, hp', rfl⟩ := List.mem_map.1 hp
    obtain ⟨m, hm⟩ := opPoint_intEq hG hg (fractPt_intEq p)
    refine ⟨p, hp', g, hg, fun i => n i - m i, ?_⟩
    congr 1
    funext i
    rw [hm i]
    push_cast
    ring
  · rintro ⟨p, hp, g, hg, n, rfl⟩
    obtain ⟨m, hm⟩ := opPoint_intEq hG hg (fractPt_intEq p)
    refine ⟨fractPt p, List.mem_map_of_mem hp, g, hg, fun i => n i + m i, ?_⟩
    congr 1
    funext i
    rw [hm i]
    push_cast
    ring

theorem exact_fract {cell : Fin 3 → Pt 3 ℝ} {G : Set (FracOp 3)} (hG : IsSpaceGroup cell G) {asym : List (Pt 3 ℝ)} (hx : ExactSites (1 / 1000) G {p | p ∈ asym}) :
    ExactSites eqSiteTol G {p | p ∈ asym.map fractPt} := by
  intro p hp q hq g hg h hh hc i
  obtain ⟨p, hp', rfl⟩ := List.mem_map.1 hp
  obtain ⟨q, hq', rfl⟩ := List.mem_map.1 hq
  obtain ⟨m, hm⟩ := opPoint_intEq hG hg (fractPt_intEq p)
  obtain ⟨k, hk⟩ := opPoint_intEq hG hh (fractPt_intEq q)
  obtain ⟨n, hn⟩ := hx p hp' q hq' g hg h hh (fun j => by
    obtain ⟨n, hn⟩ := hc j
    refine ⟨n + m j - k j, ?_⟩
    rw [hm j, hk j]
    push_cast
    rw [eqSiteTol] at hn
    convert hn using 2
    ring) i
  refine ⟨n - m i + k i, ?_⟩
  rw [hm i, hk i] at hn
  push_cast
  linarith

theorem used_exact {cell : Fin 3 → Pt 3 ℝ} {G : Set (FracOp 3)} (hG : IsSpaceGroup cell G) {asym : List (Pt 3 ℝ)} (hx : ExactSites (1 / 1000) G {p | p ∈ asym}) :
    {p | p ∈ (if d = "all_sites" then asym.map fractPt else kept eqSiteTol (asym.map fractPt))} = {p | p ∈ asym.map fractPt} := by
  split
  · rfl
  · refine kept_exact hG eqSiteTol_lt (fun p hp => ?_) (exact_fract hG hx)
    obtain ⟨q, -, rfl⟩ := List.mem_map.1 hp
    exact fractPt_cell q

/-- The points of the set are the images of the atoms of the asymmetric unit under the symmetry operations, and their lattice translates. The operations
form a space group of the cell, and different images of atoms are not within the tolerance 0.001 of each other. -/
theorem ccdc_points (h : ccdcConvert env crystal rh d heaviest false = (c', ws, .ok s)) {ops : List (AffineOp 3)} (hops : (ccdcSymmetry c').2 = .ok ops)
    (hG : IsSpaceGroup s.set.cell (opSet ops)) (hx : ExactSites (1 / 1000) (opSet ops) {p | p ∈ atomCoords (env.asymAtoms c')}) :
    ccdcCell c' = .ok s.set.cell ∧ periodicPoints s.set.motif s.set.cell = crystalPoints s.set.cell (opSet ops) {p | p ∈ atomCoords (env.asymAtoms c')} := by
  obtain ⟨asym, cell, ha, hne, hcell, hs, -⟩ := ccdc_shape h hops
  rw [coords_filterMap ha] at hx ⊢
  rw [hs] at hG ⊢
  have hG : IsSpaceGroup cell (opSet ops) := hG
  refine ⟨hcell, ?_⟩
  have hu := used_exact (d := d) hG hx
  refine (expandedSet_points (by rw [hu]; exact exact_fract hG hx)).trans ?_
  rw [hu]
  exact crystal_fract hG asym

/-- No point is listed twice and the asymmetric unit and multiplicities are those of symmetries of the crystal, except with `disorder='all_sites'`. -/
theorem ccdc_description (h : ccdcConvert env crystal rh d heaviest false = (c', ws, .ok s)) (hd : d ≠ "all_sites") {ops : List (AffineOp 3)}
    (hops : (ccdcSymmetry c').2 = .ok ops) (hcell : NonSingular s.set.cell) (hG : IsSpaceGroup s.set.cell (opSet ops))
    (hx : ExactSites (1 / 1000) (opSet ops) {p | p ∈ atomCoords (env.asymAtoms c')}) :
    (∃ inds mult, IsDescription s.set inds mult) ∧ FitsInCell s.set.motif s.set.cell := by
  obtain ⟨asym, cell, ha, hne, -, hs, -⟩ := ccdc_shape h hops
  rw [coords_filterMap ha] at hx
  rw [hs] at hG hcell ⊢
  have hG : IsSpaceGroup cell (opSet ops) := hG
  have hu := used_exact (d := d) hG hx
  have hx' : ExactSites eqSiteTol (opSet ops) {p | p ∈ (if d = "all_sites" then asym.map fractPt else kept eqSiteTol (asym.map fractPt))} := by
    rw [hu]; exact exact_fract hG hx
  refine ⟨?_, expandedSet_fits hx'⟩
  rw [decide_eq_true hd]
  refine expandedSet_description hcell hG hx' ?_
  rw [if_neg hd]
  exact kept_ne_nil (by simpa using hne)

theorem used_pairs (d : String) {atoms : List CcdcAtom} {asym : List (Pt 3 ℝ)} (hl : asym.length = atoms.length) {A : List (Pt 3 ℝ)} {T : List ℕ}
    (hA : A = if d = "all_sites" then asym.map fractPt else kept eqSiteTol (asym.map fractPt))
    (hT : T = if d = "all_sites" then atoms.map CcdcAtom.number else selectMask (atoms.map CcdcAtom.number) (uniqueSites eqSiteTol (asym.map fractPt)))
    (t : ℕ) (ht : t < A.length) : ∃ j, ∃ (h1 : j < asym.length) (h2 : j < atoms.length), A[t] = fractPt asym[j] ∧ T.getD t 0 = atoms[j].number := by
  by_cases hd : d = "all_sites"
  · rw [if_pos hd] at hA hT
    subst hA hT
    have ht : t < asym.length := by simpa using ht
    refine ⟨t, ht, by omega, by simp, ?_⟩
    rw [List.getD_eq_getElem _ _ (by simp; omega), List.getElem_map]
  · rw [if_neg hd] at hA hT
    rw [← select_uniqueSites] at hA
    subst hA hT
    obtain ⟨j, j1, j2, e1, e2⟩ := select_pairs (asym.map fractPt) (atoms.map CcdcAtom.number) (uniqueSites eqSiteTol (asym.map fractPt)) (by simp [hl]) t ht
    simp only [List.length_map] at j1 j2
    exact ⟨j, j1, j2, by rw [e1, List.getElem_map], by rw [e2, List.getElem_map]⟩

/-- The types of the set: the i-th is the atomic number of an atom of the asymmetric unit that a symmetry operation maps to the i-th point of the motif. -/
theorem ccdc_types (h : ccdcConvert env crystal rh d heaviest false = (c', ws, .ok s)) {ops : List (AffineOp 3)} (hops : (ccdcSymmetry c').2 = .ok ops)
    (hG : IsSpaceGroup s.set.cell (opSet ops)) :
    ∃ types, s.types = some types ∧ types.length = s.set.motif.length ∧ ∀ i (h1 : i < types.length) (h2 : i < s.set.motif.length),
      ∃ a ∈ env.asymAtoms c', a.number = types[i] ∧ ∃ p, a.coords = some p ∧ s.set.motif[i] ∈ crystalPoints s.set.cell (opSet ops) {p} := by
  obtain ⟨asym, cell, ha, -, -, hs, ht⟩ := ccdc_shape h hops
  have hcs : s.set.cell = cell := by rw [hs]; rfl
  rw [hcs] at hG ⊢
  have hl : asym.length = (env.asymAtoms c').length := by simpa using (congrArg List.length ha).symm
  have hpair := used_pairs d hl rfl rfl
  revert hs ht hpair
  generalize (if d = "all_sites" then asym.map fractPt else kept eqSiteTol (asym.map fractPt)) = A
  generalize (if d = "all_sites" then (env.asymAtoms c').map CcdcAtom.number
    else selectMask ((env.asymAtoms c').map CcdcAtom.number) (uniqueSites eqSiteTol (asym.map fractPt))) = T
  generalize decide (d ≠ "all_sites") = u
  intro hs ht hpair
  have hms : s.set.motif = (expandAsymUnit A ops eqSiteTol u).1.map (cartesian cell) := by rw [hs]; rfl
  obtain ⟨i1, i2⟩ := C44_images A ops eqSiteTol u
  refine ⟨_, ht, by rw [hms, List.length_map, List.length_map, i1], fun i h1 h2 => ?_⟩
  have h1' : i < (expandAsymUnit A ops eqSiteTol u).2.1.length := by simpa using h1
  obtain ⟨hi, o, ho, him⟩ := i2 i (by rw [← i1]; exact h1') h1'
  obtain ⟨j, j1, j2, e1, e2⟩ := hpair _ hi
  refine ⟨(env.asymAtoms c')[j], List.getElem_mem j2, by rw [List.getElem_map, e2], asym[j], ?_, ?_⟩
  · have := List.getElem_of_eq ha (i := j) (by simpa using j2)
    simpa using this
  · have hG1 : ((o.rot, o.trans) : FracOp 3) ∈ opSet ops := ⟨o, ho, rfl⟩
    rw [e1] at him
    obtain ⟨-, n, hn⟩ := isImage_intEq.1 him
    obtain ⟨m, hm⟩ := opPoint_intEq hG hG1 (fractPt_intEq asym[j])
    refine ⟨_, rfl, _, hG1, fun i => - m i - n i, ?_⟩
    simp only [hms, List.getElem_map]
    congr 1
    funext k
    rw [hm k, hn k]
    push_cast
    ring

/-! ### Examples and a counterexample -/

/-- A package in which there is one molecule, and the asymmetric unit consists of all atoms. -/
def wholeEnv : CcdcEnv := ⟨fun c m => { c with molecule := m }, fun m => [m], fun c => c.molecule, fun c => [c.molecule]⟩

/-- Oxygen and hydrogen, half a cell vector apart. -/
noncomputable def hydroxide : CcdcCrystal := cubeCrystal [plainAtom "O" 8 16 (quarter 0), plainAtom "H" 1 1 (quarter 2)]

theorem hydroxide_centre (p : Pt 3 ℝ) : IsCentre hydroxide.molecule p ↔ p = quarter 1 := by
  rw [isCentre_iff (P := [quarter 0, quarter 2]) (by simp [hydroxide, cubeCrystal, plainAtom]) (by simp)]
  have : centreOf [quarter 0, quarter 2] = quarter 1 := by
    funext i
    fin_cases i <;> simp [centreOf, quarter]
    norm_num
  rw [this]

theorem hydroxide_select : ccdcSelect wholeEnv hydroxide false "all_sites" false = ([], .ok hydroxide.molecule) := by
  simp [ccdcSelect, hydroxide, cubeCrystal, plainAtom]

theorem hydroxide_cell : ccdcCell hydroxide = .ok cubeCell := cubeCrystal_cell _ _

theorem hydroxide_converts : ∃ s, ccdcConvert wholeEnv hydroxide false "all_sites" false true = (hydroxide, [], .ok s) := by
  have hs : wholeEnv.setMolecule hydroxide hydroxide.molecule = hydroxide := rfl
  have hm : ∃ pts, molecularCentres (wholeEnv.packing hydroxide) eqSiteTol = .ok pts := by
    have h1 : (wholeEnv.packing hydroxide).mapM (fun c => c.mapM CcdcAtom.coords) = some [[quarter 0, quarter 2]] := rfl
    simp only [molecularCentres, h1]
    rw [if_neg (by simp)]
    exact ⟨_, rfl⟩
  obtain ⟨pts, hp⟩ := hm
  simp only [ccdcConvert, hydroxide_select, hs, hydroxide_cell, hp, if_true]
  exact ⟨_, rfl⟩

/-- The hypotheses of C76 are met by this crystal. -/
example : ∃ s, ccdcConvert wholeEnv hydroxide false "all_sites" false true = (hydroxide, [], .ok s) ∧
    ∀ l ∈ wholeEnv.packing hydroxide, ∀ l' ∈ wholeEnv.packing hydroxide, ∀ p p', IsCentre l p → IsCentre l' p' → SameSite (1 / 1000) p p' →
      ∃ n : Fin 3 → ℤ, ∀ i, p i = p' i + n i := by
  obtain ⟨s, h⟩ := hydroxide_converts
  refine ⟨s, h, ?_⟩
  simp only [wholeEnv, List.mem_singleton]
  rintro l rfl l' rfl p p' hp hp' -
  rw [hydroxide_centre] at hp hp'
  subst hp hp'
  exact ⟨0, fun i => by simp⟩

/-- **C76** is false for centres of mass, which the documentation promises: the points are geometric centres. -/
theorem C76_false : ∃ (env : CcdcEnv) (crystal : CcdcCrystal) (s : FullSet) (l : List CcdcAtom) (p : Pt 3 ℝ),
    ccdcConvert env crystal false "all_sites" false true = (crystal, [], .ok s) ∧ env.packing crystal = [l] ∧ IsCentreOfMass l p ∧
    cartesian s.set.cell p ∉ periodicPoints s.set.motif s.set.cell := by
  obtain ⟨s, h⟩ := hydroxide_converts
  have h1 : ∀ l ∈ wholeEnv.packing hydroxide, ∀ l' ∈ wholeEnv.packing hydroxide, ∀ p p', IsCentre l p → IsCentre l' p' → SameSite (1 / 1000) p p' →
      ∃ n : Fin 3 → ℤ, ∀ i, p i = p' i + n i := by
    simp only [wholeEnv, List.mem_singleton]
    rintro l rfl l' rfl p p' hp hp' -
    rw [hydroxide_centre] at hp hp'
    subst hp hp'
    exact ⟨0, fun i => by simp⟩
  obtain ⟨hc, -, hp, -⟩ := C76_centres h h1
  rw [hydroxide_cell] at hc
  have hc := Except.ok.inj hc
  refine ⟨wholeEnv, hydroxide, s, hydroxide.molecule, ![1 / 34, 0, 0], h, rfl, ⟨[(16, quarter 0), (1, quarter 2)], by simp [hydroxide, cubeCrystal, plainAtom], by norm_num, ?_⟩, ?_⟩
  · intro i
    fin_cases i <;> simp [quarter]
    norm_num
  · rw [hp]
    rintro ⟨l, hl, p, hp, n, e⟩
    have hl : l = hydroxide.molecule := by simpa [wholeEnv] using hl
    subst hl
    rw [hydroxide_centre] at hp
    subst hp
    rw [← hc] at e
    have e0 := congrFun (cartesian_injective (cell := cubeCell) cube_cell e) 0
    simp only [quarter, Matrix.cons_val_zero] at e0
    have e2 : ((68 * n 0 : ℤ) : ℝ) = ((-15 : ℤ) : ℝ) := by push_cast at e0 ⊢; linarith
    have e3 : 68 * n 0 = -15 := by exact_mod_cast e2
    omega

theorem half_parse : parseOps ["x,y,z", "x+1/2,y,z"] = .ok halfOps := by
  have h1 : (match parseSitesym "x,y,z" with
    | .ok o => decide ((∀ i j, o.rot i j = if i = j then 1 else 0) ∧ ∀ i, o.trans i = ![0, 0, 0] i) | .error _ => false) = true := by decide +kernel
  have h2 : (match parseSitesym "x+1/2,y,z" with
    | .ok o => decide ((∀ i j, o.rot i j = if i = j then 1 else 0) ∧ ∀ i, o.trans i = ![1 / 2, 0, 0] i) | .error _ => false) = true := by decide +kernel
  split at h1
  · rename_i o ho
    split at h2
    · rename_i o' ho'
      rw [decide_eq_true_iff] at h1 h2
      have e1 : o.affine = shiftOp 0 := by
        rw [SymOp.affine, shiftOp, AffineOp.mk.injEq]
        refine ⟨funext fun i => funext fun j => ?_, funext fun i => ?_⟩
        · rw [h1.1 i j]; split <;> simp
        · rw [h1.2 i]; fin_cases i <;> simp
      have e2 : o'.affine = shiftOp (1 / 2) := by
        rw [SymOp.affine, shiftOp, AffineOp.mk.injEq]
        refine ⟨funext fun i => funext fun j => ?_, funext fun i => ?_⟩
        · rw [h2.1 i j]; split <;> simp
        · rw [h2.2 i]; fin_cases i <;> simp
      rw [parseOps, List.mapM_cons, List.mapM_cons, ho, ho']
      simp only [List.mapM_nil, bind, Except.bind, pure, Except.pure, Except.map, List.map_cons, List.map_nil, e1, e2, halfOps]
    · cases h2
  · cases h1

/-- Sodium and chlorine, with a translation by half a cell vector as symmetry. -/
noncomputable def halfSalt : CcdcCrystal :=
  { cubeCrystal [plainAtom "Na" 11 23 (quarter 0), plainAtom "Cl" 17 35 (quarter 1)] with symmetryOperators := ["x,y,z", "x+1/2,y,z"] }

/-- Four points, by converting the salt. -/
theorem halfSalt_converts : ∃ s, ccdcConvert wholeEnv halfSalt false "skip" false false = (halfSalt, [], .ok s) ∧ (ccdcSymmetry halfSalt).2 = .ok halfOps ∧ NonSingular s.set.cell ∧
    IsSpaceGroup s.set.cell (opSet halfOps) ∧ ExactSites (1 / 1000) (opSet halfOps) {p | p ∈ atomCoords (wholeEnv.asymAtoms halfSalt)} ∧ HalfDominant s.set.cell ∧
    s.types = some [11, 11, 17, 17] ∧ s.set.motif.length = 4 := by
  have hsel : ccdcSelect wholeEnv halfSalt false "skip" false = ([], .ok halfSalt.molecule) := by
    have h1 : halfSalt.disorderedMolecule.any CcdcAtom.disordered = false := by
      simp [halfSalt, cubeCrystal, plainAtom, CcdcAtom.disordered, hasDisorder, PyFloat.ltOne]
    rw [ccdcSelect, if_neg (by rw [h1]; simp [halfSalt, cubeCrystal])]
    simp [halfSalt, cubeCrystal, plainAtom]
  have hs : wholeEnv.setMolecule halfSalt halfSalt.molecule = halfSalt := rfl
  have hcell : ccdcCell halfSalt = .ok cubeCell := by
    have : halfSalt.cellpar.mapM id = some [1, 1, 1, 90, 90, 90] := rfl
    simp only [ccdcCell, this]
    exact cube_numbers
  have ha : (wholeEnv.asymAtoms halfSalt).mapM CcdcAtom.coords = some [quarter 0, quarter 1] := rfl
  have hf : [quarter 0, quarter 1].map fractPt = [quarter 0, quarter 1] := by
    have f0 : fractPt (quarter 0) = quarter 0 := by
      funext i; fin_cases i <;> simp [fractPt, quarter]
    have f1 : fractPt (quarter 1) = quarter 1 := by
      funext i
      fin_cases i
      · simp only [fractPt, quarter]
        rw [Int.fract_eq_self.2]
        norm_num
      · simp [fractPt, quarter]
      · simp [fractPt, quarter]
    simp [f0, f1]
  have hu : uniqueSites eqSiteTol [quarter 0, quarter 1] = [true, true] := by
    simp [uniqueSites, uniqueFrom, quarter_close (k := 0) (l := 1) (by decide)]
  have hsym : ccdcSymmetry halfSalt = ([], .ok halfOps) := by
    rw [ccdcSymmetry, if_neg (by simp [halfSalt]), show halfSalt.symmetryOperators = ["x,y,z", "x+1/2,y,z"] from rfl, half_parse]
  have hn : (wholeEnv.asymAtoms halfSalt).map CcdcAtom.number = [11, 17] := rfl
  have hfin : finishSites halfSalt.identifier cubeCell "skip" ccdcOverlapText [quarter 0, quarter 1] [11, 17] ([], .ok halfOps) =
      ([], .ok (assemble halfSalt.identifier cubeCell [quarter 0, quarter 2, quarter 1, quarter 3] [0, 0, 1, 1] [11, 17])) := by
    simp [finishSites, hu, selectMask, half_expand]
  have hcv : ccdcConvert wholeEnv halfSalt false "skip" false false = (halfSalt, [], .ok
      { name := some halfSalt.identifier, set := (assemble halfSalt.identifier cubeCell [quarter 0, quarter 2, quarter 1, quarter 3] [0, 0, 1, 1] [11, 17]).set,
        types := some [11, 11, 17, 17] }) := by
    simp only [ccdcConvert, hsel, hs, hcell, ha, hf, hn, hsym, hfin]
    rfl
  refine ⟨_, hcv, by rw [hsym], cube_cell, halfOps_group _, quarter_exact ?_, cube_dominant, rfl, rfl⟩
  rintro p hp
  have : p ∈ [quarter 0, quarter 1] := hp
  simp only [List.mem_cons, List.not_mem_nil, or_false] at this
  rcases this with rfl | rfl
  · exact ⟨0, rfl⟩
  · exact ⟨1, rfl⟩

end Amd
