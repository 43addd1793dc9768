import Verif.Spec.Moved
import Verif.Proof.Equivariance
import Verif.Proof.MetricOrder
import Verif.Props.Invariance

/-! # Lemmas about moved crystals -/

namespace Amd

variable {s : ℝ} {c m : Crystal}

theorem Crystal.Moved.amd (h : c.Moved s m) (hs : 0 < s) (k fuel : ℕ) : AMD m.set k fuel = (AMD c.set k fuel).map fun a => a.map fun t : ℝ => s * t := by
  obtain ⟨name, R, v, hR, rfl⟩ := h
  exact AMD_image c.set R v s hs hR k fuel

theorem Crystal.Moved.pdd (h : c.Moved s m) (hs : 0 < s) (k : ℕ) (lexsort collapse : Bool) (tol : ℝ) (fuel : ℕ) :
    PDD m.set k lexsort collapse (s * tol) fuel = (PDD c.set k lexsort collapse tol fuel).map fun a => a.map (PRow.scale s) := by
  obtain ⟨name, R, v, hR, rfl⟩ := h
  exact PDD_image c.set R v s hs hR k lexsort collapse tol fuel

theorem Crystal.Moved.amd_one (h : c.Moved 1 m) (k fuel : ℕ) : AMD m.set k fuel = AMD c.set k fuel := by
  rw [h.amd one_pos]
  cases AMD c.set k fuel with
  | error e => rfl
  | ok a => simp [Except.map]

theorem Crystal.Moved.pdd_one (h : c.Moved 1 m) (k : ℕ) (lexsort collapse : Bool) (tol : ℝ) (fuel : ℕ) : PDD m.set k lexsort collapse tol fuel = PDD c.set k lexsort collapse tol fuel := by
  have := h.pdd one_pos k lexsort collapse tol fuel
  rw [one_mul] at this
  rw [this]
  cases PDD c.set k lexsort collapse tol fuel with
  | error e => rfl
  | ok a =>
    have e : (PRow.scale (1 : ℝ)) = id := by
      funext r
      simp [PRow.scale]
    simp [Except.map, e]

theorem Crystal.Moved.valid (h : c.Moved s m) (hs : 0 < s) (hv : c.Valid) : m.Valid := by
  obtain ⟨name, R, v, hR, rfl⟩ := h
  obtain ⟨hD, hn, hl, inds, mult, hu, hne, hpos, hsum⟩ := hv
  have len : (c.set.image R v).motif.length = c.set.motif.length := List.length_map _
  refine ⟨hD, ?_, len.trans_le hl, inds.map (Fin.cast len.symm), mult, ?_, by simpa using hne, hpos, hsum.trans len.symm⟩
  · refine LinearIndependent.map' hn R (LinearMap.ker_eq_bot'.2 fun p hp => ?_)
    have := hR p
    rw [hp] at this
    have z : ∑ j, p j ^ 2 = 0 := by
      have s2 : s ^ 2 ≠ 0 := by positivity
      simpa [s2] using this.symm
    funext j
    have := (Finset.sum_eq_zero_iff_of_nonneg fun j _ => sq_nonneg (p j)).1 z j (Finset.mem_univ _)
    simpa using this
  · rcases hu with ⟨h1, h2, h3⟩ | ⟨h1, rfl, rfl⟩
    · refine Or.inl ⟨?_, h2, by simpa using h3⟩
      rw [List.map_map]
      exact h1
    · refine Or.inr ⟨h1, ?_, ?_⟩
      · apply List.ext_getElem
        · simp [len]
        · intro i _ _
          simp
      · show List.replicate _ _ = _
        rw [len]

/-! ### `compare` sees names and invariants only -/

theorem mapE_forall₂ {α β ε : Type} {f g : α → Except ε β} {l l' : List α} (h : List.Forall₂ (fun a b => f a = g b) l l') : mapE f l = mapE g l' := by
  induction h with
  | nil => rfl
  | cons h _ ih => simp only [mapE, h, ih]

theorem compareAmd_congr {env : Env} {r : Routed} {cs ms : List Crystal} {k fuel : ℕ} (hn : ms.map Crystal.name = cs.map Crystal.name)
    (h : allAmds ms k fuel = allAmds cs k fuel) (n : Option ℕ) : compareAmd env r ms none k n fuel = compareAmd env r cs none k n fuel ∧
    ∀ cs' ms' : List Crystal, ms'.map Crystal.name = cs'.map Crystal.name → allAmds ms' k fuel = allAmds cs' k fuel →
      compareAmd env r ms (some ms') k n fuel = compareAmd env r cs (some cs') k n fuel := by
  refine ⟨?_, fun cs' ms' hn' h' => ?_⟩
  · cases n <;> simp only [compareAmd, hn, h]
  · cases n <;> simp only [compareAmd, hn, h, hn', h']

theorem comparePdd_congr {env : Env} {r : Routed} {cs ms : List Crystal} {k fuel : ℕ} (hn : ms.map Crystal.name = cs.map Crystal.name)
    (h : allPdds r ms k fuel = allPdds r cs k fuel) (n : Option ℕ) : comparePdd env r ms none k n fuel = comparePdd env r cs none k n fuel ∧
    ∀ cs' ms' : List Crystal, ms'.map Crystal.name = cs'.map Crystal.name → allPdds r ms' k fuel = allPdds r cs' k fuel →
      comparePdd env r ms (some ms') k n fuel = comparePdd env r cs (some cs') k n fuel := by
  refine ⟨?_, fun cs' ms' hn' h' => ?_⟩
  · cases n <;> simp only [comparePdd, hn, h]
  · cases n <;> simp only [comparePdd, hn, h, hn', h']

/-! ### Transport of scaled rows -/

theorem WeightedRows.scale {k : ℕ} {p : List (PRow ℝ)} (h : WeightedRows k p) (s : ℝ) : WeightedRows k (p.map (PRow.scale s)) := by
  refine ⟨by simpa using h.nonempty, ?_, ?_, ?_⟩
  · intro r hr
    obtain ⟨t, ht, rfl⟩ := List.mem_map.1 hr
    simpa [PRow.scale] using h.width t ht
  · intro r hr
    obtain ⟨t, ht, rfl⟩ := List.mem_map.1 hr
    exact h.weights t ht
  · rw [List.map_map]
    exact h.total

theorem exactEmd_scale {d : List ℝ → List ℝ → ℝ} {k : ℕ} (h0 : ∀ r s, r.length = k → s.length = k → 0 ≤ d r s) (hh : Homogeneous k d) (hs : 0 < s) {p q : List (PRow ℝ)}
    (hp : WeightedRows k p) (hq : WeightedRows k q) : exactEmd d (p.map (PRow.scale s)) (q.map (PRow.scale s)) = s * exactEmd d p q := by
  have n0 : ∀ r t : List ℝ, r.length = k → t.length = k → 0 ≤ s * d r t := fun r t hr ht => mul_nonneg hs.le (h0 r t hr ht)
  have w : ∀ {p : List (PRow ℝ)}, WeightedRows k p → ∀ i (h : i < p.length), p[i].dists.length = k := fun hp i h => hp.width _ (List.getElem_mem h)
  have up : exactEmd d (p.map (PRow.scale s)) (q.map (PRow.scale s)) ≤ exactEmd (fun r t => s * d r t) p q := by
    refine exactEmd_le hp hq (by simp) (by simp) (fun i h => by simp [PRow.scale]) (fun i h => by simp [PRow.scale]) (fun i h j h' => ?_) (fun i h j h' => ?_)
    · simp only [List.getElem_map, PRow.scale]
      rw [hh s hs _ _ (w hp i h) (w hq j h')]
      exact n0 _ _ (w hp i h) (w hq j h')
    · simp only [List.getElem_map, PRow.scale]
      rw [hh s hs _ _ (w hp i h) (w hq j h')]
  have down : exactEmd (fun r t => s * d r t) p q ≤ exactEmd d (p.map (PRow.scale s)) (q.map (PRow.scale s)) := by
    refine exactEmd_le (hp.scale s) (hq.scale s) (by simp) (by simp) (fun i h => by simp [PRow.scale]) (fun i h => by simp [PRow.scale]) (fun i h j h' => ?_) (fun i h j h' => ?_)
    · exact n0 _ _ (w hp i (by simpa using h)) (w hq j (by simpa using h'))
    · simp only [List.getElem_map, PRow.scale]
      rw [hh s hs _ _ (w hp i (by simpa using h)) (w hq j (by simpa using h'))]
  have b1 := exactEmd_bounded (d := fun r t => s * d r t) (d' := d) (L := s) ⟨hs.le, fun r t hr ht => le_rfl⟩ n0 hp hq
  have b2 := exactEmd_bounded (d := d) (d' := fun r t => s * d r t) (L := s⁻¹) ⟨by positivity, fun r t hr ht => by rw [inv_mul_cancel_left₀ hs.ne']⟩ h0 hp hq
  have b3 : s * exactEmd d p q ≤ exactEmd (fun r t => s * d r t) p q := by
    have := mul_le_mul_of_nonneg_left b2 hs.le
    rwa [mul_inv_cancel_left₀ hs.ne'] at this
  linarith

end Amd
