import Verif.Model.EmdInt64
import Verif.Proof.NetSummary

/-!
# The network simplex does not notice that integers wrap around
-/

set_option linter.unusedSectionVars false

namespace Amd

open Finset

/-- The number fits into `int64`. -/
def Fits64 (x : ℤ) : Prop := -2 ^ 63 ≤ x ∧ x < 2 ^ 63

theorem i64_of_fits {x : ℤ} (h : Fits64 x) : i64 x = x := by
  unfold Fits64 at h
  unfold i64
  rw [Int.bmod_eq_emod]
  split_ifs <;> omega

theorem fits_i64 (x : ℤ) : Fits64 (i64 x) := by
  unfold Fits64 i64
  rw [Int.bmod_eq_emod]
  split_ifs <;> omega

@[simp] theorem i64_i64 (x : ℤ) : i64 (i64 x) = i64 x := i64_of_fits (fits_i64 x)

theorem add64_i64 (a b : ℤ) : add64 (i64 a) (i64 b) = i64 (a + b) := by simp [add64, i64]

theorem sub64_i64 (a b : ℤ) : sub64 (i64 a) (i64 b) = i64 (a - b) := by simp [sub64, i64]

theorem neg64_i64 (a : ℤ) : neg64 (i64 a) = i64 (-a) := by
  have := sub64_i64 0 a
  simp only [sub64, zero_sub] at this
  rw [← this]
  simp [neg64, i64]

/-- The arrays of `int64` that represent a state. -/
def wrapSt (st : NState) : NState := { st with flow := fun k => i64 (st.flow k), pot := fun v => i64 (st.pot v), size := fun v => i64 (st.size v) }

theorem wrap_put (a : ℕ → ℤ) (i : ℕ) (v : ℤ) : (fun j => i64 (put a i v j)) = put (fun j => i64 (a j)) i (i64 v) := by
  funext j
  unfold put
  split_ifs <;> rfl

section
variable {N : Net}

theorem augment64_wrap (r : ℤ) : ∀ (l : List (ℕ × ℕ)) (st : NState), augment64 N (i64 r) l (wrapSt st) = wrapSt (augment N r l st) := by
  intro l
  induction l with
  | nil => intro st; rfl
  | cons c l ih =>
    intro st
    obtain ⟨k, p⟩ := c
    rw [augment64, augment, ← ih]
    congr 1
    simp only [wrapSt, wrap_put]
    congr 2
    split_ifs
    · exact add64_i64 _ _
    · exact sub64_i64 _ _

theorem shrinkLoop64_wrap (sizeT : ℤ) (lastT prevT : ℕ) : ∀ (f : ℕ) (s : Option ℕ) (st : NState),
    shrinkLoop64 (i64 sizeT) lastT prevT f s (wrapSt st) = (shrinkLoop sizeT lastT prevT f s st).map wrapSt := by
  intro f
  induction f with
  | zero => intro s st; cases s <;> rfl
  | succ f ih =>
    intro s st
    cases s with
    | none => rfl
    | some s =>
      rw [shrinkLoop64, shrinkLoop, ← ih]
      congr 1
      simp only [wrapSt, wrap_put, sub64_i64]
      rfl

theorem removeEdge64_wrap (s t : ℕ) (st : NState) : removeEdge64 N s t (wrapSt st) = (removeEdge N s t st).map wrapSt := by
  unfold removeEdge64 removeEdge
  rw [← shrinkLoop64_wrap]
  rfl

theorem rotate64_wrap (p q : ℕ) (st : NState) : rotate64 N p q (wrapSt st) = wrapSt (rotate N p q st) := by
  unfold rotate64 rotate
  simp only [wrapSt, wrap_put, sub64_i64]
  rfl

theorem rotateAll64_wrap : ∀ (l : List ℕ) (st : NState), rotateAll64 N l (wrapSt st) = wrapSt (rotateAll N l st) := by
  intro l
  induction l with
  | nil => intro st; rfl
  | cons p l ih =>
    intro st
    cases l with
    | nil => rfl
    | cons q l => rw [rotateAll64, rotateAll, rotate64_wrap, ih]

theorem ancestors_wrap (st : NState) : ∀ (f : ℕ) (q : Option ℕ) (acc : List ℕ), ancestors (wrapSt st) f q acc = ancestors st f q acc := by
  intro f
  induction f with
  | zero => intro q acc; cases q <;> rfl
  | succ f ih =>
    intro q acc
    cases q with
    | none => rfl
    | some q => rw [ancestors, ancestors, ← ih]; rfl

theorem makeRoot64_wrap (q : ℕ) (st : NState) : makeRoot64 N q (wrapSt st) = (makeRoot N q st).map wrapSt := by
  unfold makeRoot64 makeRoot
  rw [ancestors_wrap]
  cases ancestors st (innerFuel N) (some q) [] with
  | error e => rfl
  | ok a => simp only [bind, Except.bind, Except.map, rotateAll64_wrap]

theorem growLoop64_wrap (sizeQ : ℤ) (lastP lastQ : ℕ) : ∀ (f : ℕ) (s : Option ℕ) (st : NState),
    growLoop64 (i64 sizeQ) lastP lastQ f s (wrapSt st) = (growLoop sizeQ lastP lastQ f s st).map wrapSt := by
  intro f
  induction f with
  | zero => intro s st; cases s <;> rfl
  | succ f ih =>
    intro s st
    cases s with
    | none => rfl
    | some s =>
      rw [growLoop64, growLoop, ← ih]
      congr 1
      simp only [wrapSt, wrap_put, add64_i64]
      rfl

theorem addEdge64_wrap (i p q : ℕ) (st : NState) : addEdge64 N i p q (wrapSt st) = (addEdge N i p q st).map wrapSt := by
  unfold addEdge64 addEdge
  rw [← growLoop64_wrap]
  rfl

theorem potLoop64_wrap (d : ℤ) (l : ℕ) (next : ℕ → ℕ) : ∀ (f q : ℕ) (pot : ℕ → ℤ),
    potLoop64 N (i64 d) l next f q (fun v => i64 (pot v)) = (potLoop N d l next f q pot).map fun a v => i64 (a v) := by
  intro f
  induction f with
  | zero => intro q pot; rfl
  | succ f ih =>
    intro q pot
    rw [potLoop64, potLoop]
    split_ifs
    · rfl
    · rw [← ih, wrap_put, add64_i64]

theorem updatePotentials64_wrap (i p q : ℕ) (st : NState) (hc : Fits64 (N.cost i)) :
    updatePotentials64 N i p q (wrapSt st) = (updatePotentials N i p q st).map wrapSt := by
  unfold updatePotentials64 updatePotentials
  have e : ∀ st' : NState, (if q = N.head i then sub64 (sub64 ((wrapSt st').pot (N.slot p)) (N.cost i)) ((wrapSt st').pot (N.slot q))
    else sub64 (add64 ((wrapSt st').pot (N.slot p)) (N.cost i)) ((wrapSt st').pot (N.slot q))) =
      i64 (if q = N.head i then st'.pot (N.slot p) - N.cost i - st'.pot (N.slot q) else st'.pot (N.slot p) + N.cost i - st'.pot (N.slot q)) := by
    intro st'
    have h1 := i64_of_fits hc
    split_ifs
    · simp only [wrapSt]
      conv_lhs => rw [← h1]
      rw [sub64_i64, sub64_i64]
    · simp only [wrapSt]
      conv_lhs => rw [← h1]
      rw [add64_i64, sub64_i64]
  rw [e]
  generalize (if q = N.head i then st.pot (N.slot p) - N.cost i - st.pot (N.slot q) else st.pot (N.slot p) + N.cost i - st.pot (N.slot q)) = d
  have e2 : put (wrapSt st).pot (N.slot q) (add64 ((wrapSt st).pot (N.slot q)) (i64 d)) = fun v => i64 (put st.pot (N.slot q) (st.pot (N.slot q) + d) v) := by
    rw [wrap_put]
    simp only [wrapSt, add64_i64]
  dsimp only
  rw [e2]
  have e3 : (wrapSt st).last q = st.last q := rfl
  have e4 : (wrapSt st).next = st.next := rfl
  rw [e3, e4, potLoop64_wrap]
  cases potLoop N d (st.last q) st.next (innerFuel N) q (put st.pot (N.slot q) (st.pot (N.slot q) + d)) with
  | error e => rfl
  | ok a => rfl

/-- The tree and the potentials are changed in the same way. -/
theorem change64_wrap (i s t p q : ℕ) (hc : Fits64 (N.cost i)) (st : NState) :
    (removeEdge64 N s t (wrapSt st) >>= fun a => makeRoot64 N q a >>= fun a => addEdge64 N i p q a >>= fun a => updatePotentials64 N i p q a) =
      (removeEdge N s t st >>= fun a => makeRoot N q a >>= fun a => addEdge N i p q a >>= fun a => updatePotentials N i p q a).map wrapSt := by
  simp only [bind, Except.bind]
  rw [removeEdge64_wrap]
  cases removeEdge N s t st with
  | error e => rfl
  | ok st2 =>
    simp only [Except.map]
    rw [makeRoot64_wrap]
    cases makeRoot N q st2 with
    | error e => rfl
    | ok st3 =>
      simp only [Except.map]
      rw [addEdge64_wrap]
      cases addEdge N i p q st3 with
      | error e => rfl
      | ok st4 =>
        simp only [Except.map]
        rw [updatePotentials64_wrap _ _ _ _ hc]
        rfl

/-! ### Comparisons -/

theorem firstMin_congr {α : Type*} {r r' : α → ℤ} : ∀ (l : List α) (b : α), r b = r' b → (∀ x ∈ l, r x = r' x) → firstMin r b l = firstMin r' b l := by
  intro l
  induction l with
  | nil => intro b _ _; rfl
  | cons x l ih =>
    intro b hb h
    rw [firstMin, firstMin, h x (by simp), hb]
    rw [ih x (h x (by simp)) fun y hy => h y (by simp [hy]), ih b hb fun y hy => h y (by simp [hy])]

theorem findApex_wrap {st : NState} {V : ℕ → Prop} (hsz : ∀ v, V v → Fits64 (st.size v)) (hpar : ∀ v u, V v → st.parent v = some u → V u) :
    ∀ (f p q : ℕ), V p → V q → findApex (wrapSt st) f p q = findApex st f p q := by
  intro f
  induction f with
  | zero => intro p q _ _; rfl
  | succ f ih =>
    intro p q hp hq
    have e1 : (wrapSt st).size p = st.size p := i64_of_fits (hsz p hp)
    have e2 : (wrapSt st).size q = st.size q := i64_of_fits (hsz q hq)
    have e3 : ∀ v, parentE (wrapSt st) v = parentE st v := fun v => rfl
    have e4 : ∀ v u, V v → parentE st v = .ok u → V u := by
      intro v u hv h
      unfold parentE at h
      split at h
      · cases h
      · rename_i w hw
        cases h
        exact hpar v _ hv hw
    rw [findApex, findApex, e1, e2, e3, e3]
    cases h1 : parentE st p with
    | error e =>
      cases h2 : parentE st q with
      | error e' => simp only [bind, Except.bind]
      | ok q' =>
        simp only [bind, Except.bind]
        rw [ih p q' hp (e4 q q' hq h2)]
    | ok p' =>
      cases h2 : parentE st q with
      | error e' =>
        simp only [bind, Except.bind]
        rw [ih p' q (e4 p p' hp h1) hq]
      | ok q' =>
        simp only [bind, Except.bind]
        rw [ih p' q (e4 p p' hp h1) hq, ih p q' hp (e4 q q' hq h2), ih p' q' (e4 p p' hp h1) (e4 q q' hq h2)]

theorem tracePath_wrap (st : NState) : ∀ (f p w : ℕ), tracePath N (wrapSt st) f p w = tracePath N st f p w := by
  intro f
  induction f with
  | zero => intro p w; rfl
  | succ f ih =>
    intro p w
    rw [tracePath, tracePath]
    have e1 : edgeE N (wrapSt st) p = edgeE N st p := rfl
    have e2 : parentE (wrapSt st) p = parentE st p := rfl
    rw [e1, e2]
    simp only [ih]

end

/-! ### States that satisfy the invariant -/

section
variable {N : Net} {M C : ℤ} {st : NState} {L : List ℕ} {path : ℕ → List ℕ}

/-- Numbers small enough for `int64`. -/
structure Small (N : Net) (M C : ℤ) : Prop where
  pot : 2 * M + 3 * costSum N < 2 ^ 63
  cap : ∀ k < N.e, N.cap k < 2 ^ 63
  root : C < 2 ^ 63
  nodes : (N.n : ℤ) + 1 < 2 ^ 63

theorem cap_fits (hN : NetOK N M C) (hS : Small N M C) {k : ℕ} (hk : k < N.e + N.n) : N.cap k < 2 ^ 63 := by
  by_cases hr : k < N.e
  · exact hS.cap k hr
  · obtain ⟨v, hv, rfl⟩ := NetOK.art_form N hk hr
    rw [hN.cap_art v hv]
    exact hS.root

theorem flow_fits (hN : NetOK N M C) (I : Inv N st L path) (hS : Small N M C) {k : ℕ} (hk : k < N.e + N.n) : Fits64 (st.flow k) := by
  have h1 := I.flow k hk
  have h2 := cap_fits hN hS hk
  unfold Fits64
  omega

theorem pot_le (hN : NetOK N M C) (I : Inv N st L path) {v : ℕ} (hv : v < N.n) : |st.pot v| ≤ M + costSum N := by
  have := pi_bound hN I hv
  rwa [piOf_of_lt hv] at this

theorem redCost64_eq (hN : NetOK N M C) (I : Inv N st L path) (hS : Small N M C) {k : ℕ} (hk : k < N.e) : redCost64 N (wrapSt st) k = redCost N st k := by
  obtain ⟨h1, h2, -⟩ := hN.real_lt hk
  rw [NetOK.hd_real hk] at h2
  have s1 : N.slot (N.tail k) = N.tail k := by unfold Net.slot; rw [if_neg (by omega)]
  have s2 : N.slot (N.head k) = N.head k := by unfold Net.slot; rw [if_neg (by omega)]
  have p1 := abs_le.1 (pot_le hN I h1)
  have p2 := abs_le.1 (pot_le hN I h2)
  have c0 := hN.cost_nonneg k hk
  have c1 := cost_le_sum hN hk
  have hM := hN.M_pos
  have hb := hS.pot
  have hfc : Fits64 (N.cost k) := by unfold Fits64; omega
  have hfl := flow_fits hN I hS (k := k) (by omega)
  unfold redCost64 redCost
  rw [s1, s2]
  have e : add64 (sub64 (N.cost k) ((wrapSt st).pot (N.tail k))) ((wrapSt st).pot (N.head k)) = N.cost k - st.pot (N.tail k) + st.pot (N.head k) := by
    simp only [wrapSt]
    conv_lhs => rw [← i64_of_fits hfc]
    rw [sub64_i64, add64_i64, i64_of_fits]
    unfold Fits64
    omega
  have ef : (wrapSt st).flow k = st.flow k := i64_of_fits hfl
  rw [e, ef]
  dsimp only
  split_ifs
  · rfl
  · unfold neg64
    rw [i64_of_fits]
    unfold Fits64
    omega

theorem findEntering64_eq (hN : NetOK N M C) (I : Inv N st L path) (hS : Small N M C) : ∀ (m f : ℕ), f ≤ N.e →
    findEntering64 N (wrapSt st) m f = findEntering N st m f := by
  have he := e_pos hN
  intro m
  induction m with
  | zero => intro f _; rfl
  | succ m ih =>
    intro f hf
    have hb := block_min st he hf
    have hne := blockInds_ne he hf
    have em : firstMin (redCost64 N (wrapSt st)) ((blockInds N f).headD 0) (blockInds N f).tail = firstMin (redCost N st) ((blockInds N f).headD 0) (blockInds N f).tail := by
      apply firstMin_congr
      · apply redCost64_eq hN I hS
        apply mem_blockInds he hf
        obtain ⟨b, l, hbl⟩ := List.exists_cons_of_ne_nil hne
        rw [hbl]
        simp
      · intro x hx
        exact redCost64_eq hN I hS (mem_blockInds he hf (List.mem_of_mem_tail hx))
    have hk := mem_blockInds he hf hb.1
    rw [findEntering64, findEntering, em]
    generalize firstMin (redCost N st) ((blockInds N f).headD 0) (blockInds N f).tail = k at hk
    have ef : (wrapSt st).flow k = st.flow k := i64_of_fits (flow_fits hN I hS (by omega))
    rw [redCost64_eq hN I hS hk, ih _ (blockNext_le he hf), ef]

theorem findCycle_wrap (I : Inv N st L path) (hS : Small N M C) {i p q : ℕ} (hp : p ≤ N.n) (hq : q ≤ N.n) :
    findCycle N (wrapSt st) i p q = findCycle N st i p q := by
  unfold findCycle
  rw [findApex_wrap (st := st) (V := fun v => v ≤ N.n) ?_ ?_ _ _ _ hp hq]
  · simp only [tracePath_wrap]
  · intro v hv
    have h1 := I.rep.size v ((I.nodes v).2 hv)
    have h2 : (desc L path v).length ≤ L.length := List.length_filter_le _ _
    have h3 := I.length_le
    have h4 := hS.nodes
    unfold Fits64
    omega
  · intro v u hv hu
    by_cases h : v = N.n
    · subst h
      rw [I.rep.rootParent] at hu
      cases hu
    · exact (I.parent_path (by omega) hu).1

theorem resCap64_wrap (hN : NetOK N M C) (I : Inv N st L path) (hS : Small N M C) {k : ℕ} (hk : k < N.e + N.n) (s : ℕ) : resCap64 N (wrapSt st) k s = resCap N st k s := by
  have ef : (wrapSt st).flow k = st.flow k := i64_of_fits (flow_fits hN I hS hk)
  unfold resCap64 resCap
  rw [ef]
  split_ifs
  · unfold sub64
    rw [i64_of_fits]
    have h1 := I.flow k hk
    have h2 := cap_fits hN hS hk
    unfold Fits64
    omega
  · rfl

theorem resCap_fits (hN : NetOK N M C) (I : Inv N st L path) (hS : Small N M C) {k : ℕ} (hk : k < N.e + N.n) (s : ℕ) : Fits64 (resCap N st k s) := by
  rw [← resCap64_wrap hN I hS hk]
  unfold resCap64
  split_ifs
  · exact fits_i64 _
  · exact fits_i64 _

theorem pivot64_wrap (hN : NetOK N M C) (I : Inv N st L path) (hS : Small N M C) {i p q : ℕ} (E : Ent N st i p q) :
    pivot64 N i p q (wrapSt st) = (pivot N i p q st).map wrapSt := by
  obtain ⟨hp, hq, hpq, hji, htree, hres, hrc, -⟩ := E.facts hN I
  obtain ⟨cy, w, Yp, Yq, hfc, bp, bq, d1, d2, hedges, hzip⟩ := findCycle_eq I hp.le hq.le htree
  have hlt : ∀ c ∈ cy.2.zip cy.1, c.1 < N.e + N.n := by
    intro c hc
    rw [hzip] at hc
    rcases mem_cycList.1 hc with ⟨c, hc', rfl⟩ | rfl | ⟨c, hc', rfl⟩
    · exact (I.edgeOf_spec (bp.lt I hc')).2.2.1
    · have := E.lt; dsimp only; omega
    · exact (I.edgeOf_spec (bq.lt I hc')).2.2.1
  have hne : cy.2.zip cy.1 ≠ [] := by rw [hzip]; simp
  have hmem : firstMin (fun c : ℕ × ℕ => resCap N st c.1 c.2) ((cy.2.zip cy.1).headD (0, 0)) (cy.2.zip cy.1).tail ∈ cy.2.zip cy.1 := by
    obtain ⟨b, l, hbl⟩ := List.exists_cons_of_ne_nil hne
    rw [hbl]
    simp only [List.headD_cons, List.tail_cons]
    obtain ⟨X, Y, h1, -, -⟩ := firstMin_spec (fun c : ℕ × ℕ => resCap N st c.1 c.2) l b
    have h2 : firstMin (fun c : ℕ × ℕ => resCap N st c.1 c.2) b l ∈ X ++ firstMin (fun c : ℕ × ℕ => resCap N st c.1 c.2) b l :: Y := by simp
    rwa [← h1] at h2
  have hfl : findLeaving64 N (wrapSt st) (cy.2.zip cy.1) = findLeaving N st (cy.2.zip cy.1) := by
    unfold findLeaving64 findLeaving
    rw [firstMin_congr (r' := fun c : ℕ × ℕ => resCap N st c.1 c.2)]
    · obtain ⟨b, l, hbl⟩ := List.exists_cons_of_ne_nil hne
      have := hlt b (by rw [hbl]; simp)
      rw [hbl]
      exact resCap64_wrap hN I hS this _
    · intro x hx
      exact resCap64_wrap hN I hS (hlt x (List.mem_of_mem_tail hx)) _
  have hj : (findLeaving N st (cy.2.zip cy.1)).1 < N.e + N.n := hlt _ hmem
  have hcost : Fits64 (N.cost i) := by
    have c0 := hN.cost_nonneg i E.lt
    have c1 := cost_le_sum hN E.lt
    have hM := hN.M_pos
    have hb := hS.pot
    unfold Fits64
    omega
  unfold pivot64 pivot
  rw [findCycle_wrap I hS hp.le hq.le, hfc]
  simp only [bind, Except.bind]
  rw [hfl]
  generalize findLeaving N st (cy.2.zip cy.1) = lv at *
  rw [resCap64_wrap hN I hS hj, ← i64_of_fits (resCap_fits hN I hS hj lv.2.1), augment64_wrap, i64_of_fits (resCap_fits hN I hS hj lv.2.1)]
  generalize augment N (resCap N st lv.1 lv.2.1) (cy.2.zip cy.1) st = st1
  have ep : (wrapSt st1).parent = st1.parent := rfl
  rw [ep]
  by_cases hij : i = lv.1
  · rw [if_pos hij, if_pos hij]
    rfl
  · rw [if_neg hij, if_neg hij]
    exact change64_wrap _ _ _ _ _ hcost st1

theorem pivotLoop64_wrap (hN : NetOK N M C) (hS : Small N M C) : ∀ (fuel f : ℕ) (st : NState) (L : List ℕ) (path : ℕ → List ℕ), Inv N st L path → f ≤ N.e →
    pivotLoop64 N fuel f (wrapSt st) = (pivotLoop N fuel f st).map wrapSt ∧ ∀ r, pivotLoop N fuel f st = .ok r → ∃ L' path', Inv N r L' path' := by
  have he := e_pos hN
  intro fuel
  induction fuel with
  | zero => intro f st L path _ _; exact ⟨rfl, fun r h => by simp [pivotLoop] at h⟩
  | succ fuel ih =>
    intro f st L path I hf
    rw [pivotLoop64, pivotLoop, findEntering64_eq hN I hS _ _ hf]
    cases hfe : findEntering N st ((N.e + N.B - 1) / N.B) f with
    | none => exact ⟨rfl, fun r h => by cases h; exact ⟨L, path, I⟩⟩
    | some x =>
      obtain ⟨i, p, q, f'⟩ := x
      obtain ⟨E, hf'⟩ := findEntering_some he _ f hf hfe
      obtain ⟨st1, L1, path1, hp, I1, -⟩ := pivot_step hN I E
      have h64 := pivot64_wrap hN I hS E
      rw [hp] at h64
      simp only [Except.map] at h64
      simp only [hp, h64]
      exact ih f' st1 L1 path1 I1 hf'

end

/-! ### Setting up -/

theorem sum64_eq (l : List ℤ) : sum64 l = i64 l.sum := by
  have : ∀ (l : List ℤ) (a : ℤ), l.foldl add64 (i64 a) = i64 (a + l.sum) := by
    intro l
    induction l with
    | nil => intro a; simp
    | cons x l ih =>
      intro a
      have e : add64 (i64 a) x = i64 (a + x) := by simp [add64, i64]
      rw [List.foldl_cons, e, ih, List.sum_cons, add_assoc]
  have h := this l 0
  rw [zero_add] at h
  exact h

theorem sum64_fits {l : List ℤ} (h : Fits64 l.sum) : sum64 l = l.sum := by rw [sum64_eq, i64_of_fits h]

theorem length_le_sum {l : List ℤ} (h : ∀ x ∈ l, 0 < x) : (l.length : ℤ) ≤ l.sum := by
  induction l with
  | nil => simp
  | cons a l ih =>
    have h1 := ih fun x hx => h x (by simp [hx])
    have h2 := h a (by simp)
    simp only [List.length_cons, List.sum_cons]
    push_cast
    omega

theorem mem_le_sum {l : List ℤ} (h : ∀ x ∈ l, 0 ≤ x) {x : ℤ} (hx : x ∈ l) : x ≤ l.sum := List.single_le_sum h x hx

theorem maxZ_le {l : List ℤ} {K : ℤ} (hne : l ≠ []) (h : ∀ x ∈ l, x ≤ K) : maxZ l ≤ K := by
  have : ∀ (l : List ℤ) (a : ℤ), a ≤ K → (∀ x ∈ l, x ≤ K) → l.foldl max a ≤ K := by
    intro l
    induction l with
    | nil => intro a ha _; exact ha
    | cons x l ih => intro a ha h; exact ih _ (max_le ha (h x (by simp))) fun y hy => h y (by simp [hy])
  unfold maxZ
  apply this
  · obtain ⟨b, l', rfl⟩ := List.exists_cons_of_ne_nil hne
    exact h _ (by simp)
  · exact h

theorem balance64_eq {s t : List ℤ} (hs : s ≠ []) (ht : t ≠ []) (h1 : ∀ x ∈ s, 0 < x) (h2 : ∀ x ∈ t, 0 < x) (hs' : s.sum ≤ fpMul) (ht' : t.sum ≤ fpMul) :
    balance64 s t = balance s t := by
  have s0 : 0 ≤ s.sum := List.sum_nonneg fun x hx => (h1 x hx).le
  have t0 : 0 ≤ t.sum := List.sum_nonneg fun x hx => (h2 x hx).le
  unfold fpMul at hs' ht'
  have e : sub64 (sum64 t) (sum64 s) = t.sum - s.sum := by
    rw [sum64_eq, sum64_eq, sub64_i64, i64_of_fits]
    unfold Fits64
    omega
  have b1 : ∀ {l : List ℤ}, l ≠ [] → (∀ x ∈ l, 0 < x) → l.sum ≤ 100000000 → ∀ d : ℤ, 0 ≤ d → d ≤ 100000000 → bumpMax64 l d = bumpMax l d ∧ dropMax64 l (-d) = bumpMax l d := by
    intro l hl hp hsum d hd hd'
    have hm : l.getD (argmax l) 0 ∈ l := getD_mem_of_lt (argmax_lt hl).1
    have p1 := hp _ hm
    have p2 := mem_le_sum (fun x hx => (hp x hx).le) hm
    unfold bumpMax64 bumpMax dropMax64 add64 sub64
    have ef : Fits64 (l.getD (argmax l) 0 + d) := by unfold Fits64; omega
    rw [i64_of_fits ef, sub_neg_eq_add, i64_of_fits ef]
    exact ⟨rfl, rfl⟩
  unfold balance64 balance
  rw [e]
  dsimp only
  split_ifs with c1 c2
  · rw [(b1 hs h1 hs' _ c1.le (by omega)).1]
  · have := (b1 ht h2 ht' (-(t.sum - s.sum)) (by omega) (by omega)).2
    rw [neg_neg] at this
    rw [this]
  · rfl

/-- Sums of costs and capacities that are small enough. -/
structure SmallSums (costs caps : List ℤ) : Prop where
  costs : costs.sum ≤ 10 ^ 18
  caps : caps.sum ≤ 10 ^ 18

section
variable {s t costs caps : List ℤ}

theorem fauxInf_le (h : GoodInput s t costs caps) (hK : SmallSums costs caps) : fauxInf s t costs caps ≤ 3 * 10 ^ 18 := by
  have h1 := hK.costs
  have h2 := hK.caps
  have h3 : maxZ s ≤ 10 ^ 18 := maxZ_le h.s_ne fun x hx => by
    have := mem_le_sum (fun x hx => (h.s_pos x hx).le) hx
    have := h.small
    rw [← h.sums] at this
    unfold fpMul at this
    omega
  have h4 : maxZ t ≤ 10 ^ 18 := maxZ_le h.t_ne fun x hx => by
    have := mem_le_sum (fun x hx => (h.t_pos x hx).le) hx
    have := h.small
    unfold fpMul at this
    omega
  unfold fauxInf
  have : max (max (max costs.sum caps.sum) (maxZ s)) (maxZ t) ≤ 10 ^ 18 := max_le (max_le (max_le h1 h2) h3) h4
  omega

theorem fauxInf64_eq (h : GoodInput s t costs caps) (hK : SmallSums costs caps) : fauxInf64 s t costs caps = fauxInf s t costs caps := by
  have h1 := hK.costs
  have h2 := hK.caps
  have c0 : 0 ≤ costs.sum := List.sum_nonneg h.costs_nonneg
  have c1 : 0 ≤ caps.sum := List.sum_nonneg fun x hx => (h.caps_pos x hx).le
  have hM := (mkNet_ok h).M_pos
  have hM' := fauxInf_le h hK
  unfold fauxInf64 mul64
  rw [sum64_fits (by unfold Fits64; omega), sum64_fits (by unfold Fits64; omega)]
  unfold fauxInf at *
  rw [i64_of_fits]
  unfold Fits64
  omega

theorem mkNet64_eq (h : GoodInput s t costs caps) (hK : SmallSums costs caps) : mkNet64 s t costs caps = mkNet s t costs caps := by
  have e : ∀ v, v < s.length → neg64 (s.getD v 0) = -s.getD v 0 := by
    intro v hv
    have hm : s.getD v 0 ∈ s := getD_mem_of_lt hv
    have p1 := h.s_pos _ hm
    have p2 := mem_le_sum (fun x hx => (h.s_pos x hx).le) hm
    have p3 := h.small
    rw [← h.sums] at p3
    unfold fpMul at p3
    unfold neg64
    rw [i64_of_fits]
    unfold Fits64
    omega
  have ed : (fun v => if v < s.length then neg64 (s.getD v 0) else t.getD (v - s.length) 0) = fun v => if v < s.length then -s.getD v 0 else t.getD (v - s.length) 0 := by
    funext v
    split_ifs with hv
    · exact e v hv
    · rfl
  have ed' : ∀ v, (if v < s.length then neg64 (s.getD v 0) else t.getD (v - s.length) 0) = if v < s.length then -s.getD v 0 else t.getD (v - s.length) 0 := congrFun ed
  unfold mkNet64 mkNet
  simp only [ed', fauxInf64_eq h hK]

theorem small_of_sums (h : GoodInput s t costs caps) (hK : SmallSums costs caps) : Small (mkNet s t costs caps) (fauxInf s t costs caps) fpMul := by
  have hM' := fauxInf_le h hK
  have h1 := hK.costs
  have h2 := hK.caps
  refine ⟨?_, ?_, by unfold fpMul; norm_num, ?_⟩
  · rw [costSum_mkNet h]
    omega
  · intro k hk
    have hk' : k < caps.length := by rw [h.caps_len]; exact hk
    have e : (mkNet s t costs caps).cap k = caps.getD k 0 := by
      unfold mkNet
      simp only
      rw [if_pos (by exact hk)]
    rw [e]
    have := mem_le_sum (fun x hx => (h.caps_pos x hx).le) (getD_mem_of_lt hk')
    omega
  · rw [mkNet_n]
    have a1 := length_le_sum h.s_pos
    have a2 := length_le_sum h.t_pos
    have a3 := h.small
    have a4 := h.sums
    unfold fpMul at a3
    push_cast
    omega

theorem initState64_eq (h : GoodInput s t costs caps) (hK : SmallSums costs caps) : initState64 s t costs caps = initState s t costs caps := by
  have hM := (mkNet_ok h).M_pos
  have hM' := fauxInf_le h hK
  have e : neg64 (fauxInf s t costs caps) = -fauxInf s t costs caps := by
    unfold neg64
    rw [i64_of_fits]
    unfold Fits64
    omega
  unfold initState64 initState
  simp only [mkNet64_eq h hK, fauxInf64_eq h hK, e]

theorem wrapSt_init (h : GoodInput s t costs caps) (hK : SmallSums costs caps) : wrapSt (initState s t costs caps) = initState s t costs caps := by
  have hM := (mkNet_ok h).M_pos
  have hM' := fauxInf_le h hK
  have hS := small_of_sums h hK
  have hn := hS.nodes
  have ht : ∀ k, Fits64 (t.getD k 0) := by
    intro k
    by_cases hk : k < t.length
    · have hm : t.getD k 0 ∈ t := getD_mem_of_lt hk
      have p1 := h.t_pos _ hm
      have p2 := mem_le_sum (fun x hx => (h.t_pos x hx).le) hm
      have p3 := h.small
      unfold fpMul at p3
      unfold Fits64
      omega
    · rw [List.getD_eq_default _ _ (by omega)]
      unfold Fits64
      omega
  have hs : ∀ k, Fits64 (s.getD k 0) := by
    intro k
    by_cases hk : k < s.length
    · have hm : s.getD k 0 ∈ s := getD_mem_of_lt hk
      have p1 := h.s_pos _ hm
      have p2 := mem_le_sum (fun x hx => (h.s_pos x hx).le) hm
      have p3 := h.small
      rw [← h.sums] at p3
      unfold fpMul at p3
      unfold Fits64
      omega
    · rw [List.getD_eq_default _ _ (by omega)]
      unfold Fits64
      omega
  have ef : (fun k => i64 ((initState s t costs caps).flow k)) = (initState s t costs caps).flow := by
    funext k
    apply i64_of_fits
    unfold initState
    simp only
    split_ifs
    · unfold Fits64; omega
    · exact hs _
    · exact ht _
  have epo : (fun k => i64 ((initState s t costs caps).pot k)) = (initState s t costs caps).pot := by
    funext k
    apply i64_of_fits
    unfold initState
    simp only
    unfold Fits64
    split_ifs <;> omega
  have esz : (fun k => i64 ((initState s t costs caps).size k)) = (initState s t costs caps).size := by
    funext k
    apply i64_of_fits
    unfold initState
    simp only
    unfold Fits64
    split_ifs <;> omega
  unfold wrapSt
  rw [ef, epo, esz]

end

/-- `network_simplex` on `int64` returns what it returns on unbounded integers. -/
theorem simplexInt64_eq {s t costs caps : List ℤ} (hs : s ≠ []) (ht : t ≠ []) (h1 : ∀ x ∈ s, 0 < x) (h2 : ∀ x ∈ t, 0 < x) (hs' : s.sum ≤ fpMul) (ht' : t.sum ≤ fpMul)
    (hcl : costs.length = s.length * t.length) (hc : ∀ x ∈ costs, 0 ≤ x) (hkl : caps.length = s.length * t.length) (hk : ∀ x ∈ caps, 0 < x) (hK : SmallSums costs caps) (fuel : ℕ) :
    simplexInt64 s t costs caps fuel = simplexInt s t costs caps fuel := by
  obtain ⟨l1, l2⟩ := balance_length s t
  obtain ⟨b1, b2⟩ := balance_sum hs ht
  obtain ⟨p1, p2⟩ := balance_pos hs ht h1 h2
  have hgood : GoodInput (balance s t).1 (balance s t).2 costs caps := by
    refine ⟨?_, ?_, p1, p2, by rw [b1, b2], by rw [b2]; exact max_le hs' ht', by rw [hcl, l1, l2], by rw [hkl, l1, l2], hc, hk⟩
    · rw [← List.length_pos_iff, l1]; exact List.length_pos_iff.2 hs
    · rw [← List.length_pos_iff, l2]; exact List.length_pos_iff.2 ht
  have hN := mkNet_ok hgood
  have hS := small_of_sums hgood hK
  obtain ⟨e, hinv⟩ := pivotLoop64_wrap hN hS fuel 0 _ _ _ (init_inv hgood) (by omega)
  rw [wrapSt_init hgood hK] at e
  unfold simplexInt64 simplexInt
  rw [balance64_eq hs ht h1 h2 hs' ht']
  dsimp only
  rw [mkNet64_eq hgood hK, initState64_eq hgood hK]
  split_ifs
  · rfl
  · simp only [bind, Except.bind]
    rw [e]
    cases hr : pivotLoop (mkNet (balance s t).1 (balance s t).2 costs caps) fuel 0 (initState (balance s t).1 (balance s t).2 costs caps) with
    | error er => rfl
    | ok r =>
      obtain ⟨L, path, I⟩ := hinv r hr
      simp only [Except.map]
      congr 1
      apply List.map_congr_left
      intro k hk
      have hk := List.mem_range.1 hk
      exact i64_of_fits (flow_fits hN I hS (by omega))

end Amd
