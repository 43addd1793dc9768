import Verif.Proof.ReconstructSound

/-! Helper lemmas: the loops of `reconstruct` come to an end. -/

set_option linter.unusedSectionVars false

namespace Amd

variable {D : ℕ} {cell : Fin D → Pt D ℝ}

theorem far_layers (hD : 0 < D) (h : NonSingular cell) (ps : List (Pt D ℝ)) (B : ℝ) :
    ∃ d₁, ∀ d, d₁ ≤ d → ∀ v ∈ intLayer D d, ∀ p ∈ ps, B < eucl p (latVec cell v) := by
  obtain ⟨d₁, hd⟩ := exists_farFrom hD h (0 :: ps) B
  refine ⟨d₁, fun d hdd v hv p hp => ?_⟩
  refine hd d hdd _ ?_ p (List.mem_cons_of_mem _ hp)
  refine List.mem_flatMap.2 ⟨latVec cell v, List.mem_map_of_mem hv, List.mem_map.2 ⟨0, List.mem_cons_self, zero_add _⟩⟩

theorem latticeCloud_terminates {diam : ℝ} : ∀ (k n : ℕ), (∀ v ∈ intLayer D (n + k), diam < vnorm (latVec cell v)) →
    ∃ cloud, latticeCloud cell diam (k + 1) n = some cloud
  | 0, n, h => by
    refine ⟨[], ?_⟩
    rw [latticeCloud, if_neg]
    rw [List.any_eq_true]
    rintro ⟨x, hx, hx'⟩
    obtain ⟨v, hv, rfl⟩ := List.mem_map.1 hx
    exact absurd (h v hv) (not_lt.2 (by simpa using hx'))
  | k + 1, n, h => by
    obtain ⟨cloud, hc⟩ := latticeCloud_terminates k (n + 1) (by rw [add_assoc, add_comm 1 k]; exact h)
    rw [latticeCloud]
    split_ifs
    · exact ⟨_, by rw [hc]; rfl⟩
    · exact ⟨_, rfl⟩

theorem latticeCloud_mono {diam : ℝ} : ∀ (f g n : ℕ) (cloud : List (Pt D ℝ)), f ≤ g → latticeCloud cell diam f n = some cloud →
    latticeCloud cell diam g n = some cloud
  | 0, _, _, _, _, h => by cases h
  | f + 1, 0, _, _, hfg, _ => by omega
  | f + 1, g + 1, n, cloud, hfg, h => by
    rw [latticeCloud] at h ⊢
    split_ifs at h ⊢ with hc
    · obtain ⟨r, hr, rfl⟩ := Option.map_eq_some_iff.1 h
      rw [latticeCloud_mono f g (n + 1) r (by omega) hr]
      rfl
    · exact h

/-- The fifth distances are at most `B`. -/
def FiveNear (vecs : List (Pt D ℝ)) (B : ℝ) (cloud : List (Pt D ℝ)) : Prop :=
  5 ≤ cloud.length ∧ ∀ v ∈ vecs, ((cloud.map (eucl v)).insertionSort (· ≤ ·)).getD 4 0 ≤ B

theorem FiveNear.append {vecs cloud : List (Pt D ℝ)} {B : ℝ} (h : FiveNear vecs B cloud) (new : List (Pt D ℝ)) : FiveNear vecs B (cloud ++ new) := by
  refine ⟨by rw [List.length_append]; have := h.1; omega, fun v hv => ?_⟩
  rw [List.map_append]
  exact (sort_append_le (by rw [List.length_map]; have := h.1; omega)).trans (h.2 v hv)

theorem exists_fiveNear {cloud : List (Pt D ℝ)} (h : 5 ≤ cloud.length) : ∀ vecs : List (Pt D ℝ), ∃ B, FiveNear vecs B cloud
  | [] => ⟨0, h, fun v hv => (by cases hv)⟩
  | v :: vecs => by
    obtain ⟨B, _, hB⟩ := exists_fiveNear h vecs
    refine ⟨max B (((cloud.map (eucl v)).insertionSort (· ≤ ·)).getD 4 0), h, fun w hw => ?_⟩
    rcases List.mem_cons.1 hw with rfl | hw
    · exact le_max_right _ _
    · exact (hB w hw).trans (le_max_left _ _)

/-- Adding far points does not change the first five distances. -/
theorem neighborDists_append {cloud new vecs : List (Pt D ℝ)} {B : ℝ} (hB : FiveNear vecs B cloud)
    (hnew : ∀ p ∈ vecs, ∀ c ∈ new, B < eucl p c) : neighborDists (cloud ++ new) vecs = neighborDists cloud vecs := by
  apply List.map_congr_left
  intro v hv
  rw [List.map_append]
  refine sort_append_take (T := B) (c := 4) ?_ (by rw [List.length_map]; have := hB.1; omega) (hB.2 v hv)
  intro a ha
  obtain ⟨c, hc, rfl⟩ := List.mem_map.1 ha
  exact hnew v hv c hc

theorem zip_self_all {α : Type} {p : α × α → Bool} (h : ∀ a, p (a, a) = true) : ∀ l : List α, (l.zip l).all p = true
  | [] => rfl
  | a :: l => by rw [List.zip_cons_cons, List.all_cons, h, zip_self_all h l]; rfl

theorem distsClose_self (a : List (List ℝ)) : distsClose (some a) (some a) = true := by
  rw [distsClose]
  refine zip_self_all (fun r => zip_self_all (fun x => ?_) r) a
  rw [decide_eq_true_iff, sub_self, abs_zero]
  positivity

variable {vecs : List (Pt D ℝ)} {B : ℝ} {d₁ : ℕ}

theorem neighborLoop_last (hfar : ∀ d, d₁ ≤ d → ∀ v ∈ intLayer D d, ∀ p ∈ vecs, B < eucl p (latVec cell v)) {n : ℕ} (hn : d₁ ≤ n) {cloud : List (Pt D ℝ)}
    (hc : FiveNear vecs B cloud) (a b : Option (List (List ℝ))) : ∃ out, neighborLoop cell vecs 3 n cloud a b = some out := by
  rw [neighborLoop]
  split_ifs with h1
  · exact ⟨_, rfl⟩
  rw [neighborLoop]
  split_ifs with h2
  · exact ⟨_, rfl⟩
  rw [neighborLoop, if_pos]
  · exact ⟨_, rfl⟩
  rw [List.append_assoc (cloud ++ _ ++ _)]
  rw [neighborDists_append ((hc.append _).append _)]
  · exact distsClose_self _
  · intro p hp c hc'
    rcases List.mem_append.1 hc' with hc' | hc' <;> obtain ⟨v, hv, rfl⟩ := List.mem_map.1 hc'
    · exact hfar (n + 2) (by omega) v hv p hp
    · exact hfar (n + 2 + 1) (by omega) v hv p hp

theorem neighborLoop_terminates (hfar : ∀ d, d₁ ≤ d → ∀ v ∈ intLayer D d, ∀ p ∈ vecs, B < eucl p (latVec cell v)) :
    ∀ (k n : ℕ), d₁ ≤ n + 2 * k → ∀ (cloud : List (Pt D ℝ)), FiveNear vecs B cloud → ∀ a b : Option (List (List ℝ)),
      ∃ out, neighborLoop cell vecs (k + 3) n cloud a b = some out
  | 0, n, hn, cloud, hc, a, b => neighborLoop_last hfar hn hc a b
  | k + 1, n, hn, cloud, hc, a, b => by
    rw [neighborLoop]
    split_ifs with h1
    · exact ⟨_, rfl⟩
    exact neighborLoop_terminates hfar k (n + 2) (by omega) _ ((hc.append _).append _) _ _

theorem neighborLoop_mono : ∀ (f g n : ℕ) (cloud : List (Pt D ℝ)) (a b : Option (List (List ℝ))) (out : List (Pt D ℝ)), f ≤ g →
    neighborLoop cell vecs f n cloud a b = some out → neighborLoop cell vecs g n cloud a b = some out
  | 0, _, _, _, _, _, _, _, h => by cases h
  | f + 1, 0, _, _, _, _, _, hfg, _ => by omega
  | f + 1, g + 1, n, cloud, a, b, out, hfg, h => by
    rw [neighborLoop] at h ⊢
    split_ifs at h ⊢ with hc
    · exact h
    · exact neighborLoop_mono f g _ _ _ _ _ (by omega) h

theorem length_layersUpTo_two (hD : D = 2 ∨ D = 3) : 5 ≤ (layersUpTo D 2).length := by
  rcases hD with rfl | rfl
  · decide +kernel
  · decide +kernel

/-- Both loops end. -/
theorem reconstruct_loops (hD : D = 2 ∨ D = 3) (h : NonSingular cell) (diam prec : ℝ) (memory : Option (List (List ℝ)))
    (order : List (Pt D ℝ) → Pt D ℝ → List ℕ) :
    ∃ f₀, ∀ fuel, f₀ ≤ fuel → (∃ cloud, latticeCloud cell diam fuel 1 = some cloud) ∧ ∃ nn, neighborSet memory order cell prec fuel = some nn := by
  have hD0 : 0 < D := by omega
  obtain ⟨d₁, h1⟩ := far_layers hD0 h [0] diam
  obtain ⟨c, hc⟩ := latticeCloud_terminates (cell := cell) (diam := diam) d₁ 1 (fun v hv => by
    have := h1 (1 + d₁) (by omega) v hv 0 (by simp)
    rwa [eucl_zero] at this)
  obtain ⟨B, hB⟩ := exists_fiveNear (cloud := (layersUpTo D 2).map (latVec cell)) (by rw [List.length_map]; exact length_layersUpTo_two hD) (halfVecs cell)
  obtain ⟨d₂, h2⟩ := far_layers hD0 h (halfVecs cell) B
  obtain ⟨out, ho⟩ := neighborLoop_terminates h2 d₂ 2 (by omega) _ hB (some (neighborDists ((layersUpTo D 2).map (latVec cell)) (halfVecs cell))) memory
  refine ⟨max (d₁ + 1) (d₂ + 3), fun fuel hf => ⟨⟨c, latticeCloud_mono _ _ _ _ ((le_max_left _ _).trans hf) hc⟩, ?_⟩⟩
  rw [neighborSet]
  rw [neighborLoop_mono _ _ _ _ _ _ _ ((le_max_right _ _).trans hf) ho]
  exact ⟨_, rfl⟩

theorem findSecondPoint_no_fuel {shared : List ℝ} {bases : List (List (Pt D ℝ))} {cloud : List (Pt D ℝ)} {prec : ℝ} :
    findSecondPoint shared bases cloud prec ≠ .error .fuel := by
  unfold findSecondPoint
  split <;> simp

theorem findFurtherPoint_no_fuel {shared1 shared2 : List ℝ} {bases : List (List (Pt D ℝ))} {cloud : List (Pt D ℝ)} {q : Pt D ℝ} {prec : ℝ} :
    findFurtherPoint shared1 shared2 bases cloud q prec ≠ .error .fuel := by
  unfold findFurtherPoint
  split <;> simp

theorem furtherPoints_no_fuel {lat row1 row2 : List ℝ} {bases : List (List (Pt D ℝ))} {cloud : List (Pt D ℝ)} {q : Pt D ℝ} {prec : ℝ} :
    ∀ rows : List (List ℝ), furtherPoints lat row1 row2 bases cloud q prec rows ≠ .error .fuel
  | [] => by rw [furtherPoints]; simp
  | row :: rows => by
    rw [furtherPoints]
    cases hf : findFurtherPoint (uniqueWithinTol (sharedVals row1 (removeVals row lat prec) prec) prec)
      (uniqueWithinTol (sharedVals row2 (removeVals row lat prec) prec) prec) bases cloud q prec with
    | error e =>
      have := findFurtherPoint_no_fuel (shared1 := uniqueWithinTol (sharedVals row1 (removeVals row lat prec) prec) prec)
        (shared2 := uniqueWithinTol (sharedVals row2 (removeVals row lat prec) prec) prec) (bases := bases) (cloud := cloud) (q := q) (prec := prec)
      rw [hf] at this
      intro h
      exact this (congrArg Except.error (Except.error.inj h))
    | ok o =>
      cases o with
      | none => intro h; cases h
      | some p =>
        simp only [bind, Except.bind]
        have := furtherPoints_no_fuel (lat := lat) (row1 := row1) (row2 := row2) (bases := bases) (cloud := cloud) (q := q) (prec := prec) rows
        cases hr : furtherPoints lat row1 row2 bases cloud q prec rows with
        | error e => rw [hr] at this; exact this
        | ok ps => intro h; cases h

theorem reconstruct_no_fuel {memory : Option (List (List ℝ))} {order : List (Pt D ℝ) → Pt D ℝ → List ℕ} {pdd : List (List ℝ)} {fuel : ℕ} {diam : ℝ}
    (hdiam : diameter D cell = .ok diam) {cloud nn : List (Pt D ℝ)} (hcloud : latticeCloud cell diam fuel 1 = some cloud)
    (hnn : neighborSet memory order cell (1 / 10 ^ 10) fuel = some nn) : reconstruct memory order pdd cell fuel ≠ .error .fuel := by
  intro h
  rw [reconstruct] at h
  dsimp only at h
  by_cases hD : D ≠ 2 ∧ D ≠ 3
  · rw [if_pos hD] at h; cases h
  rw [if_neg hD, hdiam] at h
  dsimp only at h
  by_cases h1 : pdd.length = 1
  · rw [if_pos h1] at h; cases h
  rw [if_neg h1, hcloud, hnn] at h
  cases cloud with
  | nil => cases h
  | cons c cs =>
    dsimp only at h
    split at h
    · rename_i row1 row2 rows
      generalize uniqueWithinTol (((c :: cs).map vnorm).filter fun x => decide (x ≤ diam)) (1 / 10 ^ 10) = lat at h
      generalize hf : findSecondPoint (uniqueWithinTol (sharedVals (removeVals row1 lat (1 / 10 ^ 10)) (removeVals row2 lat (1 / 10 ^ 10))
        (1 / 10 ^ 10)) (1 / 10 ^ 10)) (basesOf nn (1 / 10 ^ 10)) (c :: cs) (1 / 10 ^ 10) = f at h
      cases f with
      | error e =>
        rw [show e = RecErr.fuel from Except.error.inj h] at hf
        exact findSecondPoint_no_fuel hf
      | ok o =>
        cases o with
        | none => cases h
        | some q =>
          simp only [bind, Except.bind] at h
          by_cases h2 : rows = []
          · rw [if_pos h2] at h; cases h
          · rw [if_neg h2] at h
            generalize hg : furtherPoints lat (removeVals row1 lat (1 / 10 ^ 10)) (removeVals row2 lat (1 / 10 ^ 10)) (basesOf nn (1 / 10 ^ 10)) (c :: cs) q
              (1 / 10 ^ 10) rows = g at h
            cases g with
            | error e =>
              rw [show e = RecErr.fuel from Except.error.inj h] at hg
              exact furtherPoints_no_fuel _ hg
            | ok ps =>
              dsimp only at h
              split_ifs at h
              cases h
    · cases h

end Amd
