import Verif.Spec.ReadFirst
import Verif.Proof.Pairs

/-! Lemmas about keywords and inputs. -/

namespace Amd

theorem getCrystals_ne_nil {env : Env} {csd : Bool} {r : Routed} {inp : Input} {cs : List Crystal} (h : getCrystals env csd r inp = .ok cs) : cs ≠ [] := by
  rintro rfl
  rw [getCrystals] at h
  split at h <;> cases h

theorem getCrystals_asSets {env : Env} {r : Routed} {cs : List Crystal} (hne : cs ≠ []) : getCrystals env false r (asSets cs) = .ok cs := by
  have key : ∀ l : List Crystal, unwrapPsets env r.cif (l.map .pset) = .ok l := by
    intro l
    induction l with
    | nil => rfl
    | cons c l ih => rw [List.map_cons, unwrapPsets, ih]
  rw [asSets, getCrystals, if_neg (by simp), Input.items, key]
  cases cs with
  | nil => exact absurd rfl hne
  | cons c l => rfl

theorem lookup_withoutReading {key : String} (h : key ∉ readingKeys) (kwargs : Kwargs) : (withoutReading kwargs).lookup key = kwargs.lookup key := by
  induction kwargs with
  | nil => rfl
  | cons p l ih =>
    obtain ⟨k, v⟩ := p
    rw [withoutReading, List.filter_cons]
    by_cases hk : k ∈ readingKeys
    · have hne : key ≠ k := fun e => h (e ▸ hk)
      rw [if_neg (by simpa using hk), List.lookup_cons, beq_eq_false_iff_ne.2 hne]
      exact ih
    · rw [if_pos (by simpa using hk), List.lookup_cons, List.lookup_cons]
      cases key == k
      · exact ih
      · rfl

theorem overrideKw_withoutReading {d : Kwargs} (h : ∀ p ∈ d, p.1 ∉ readingKeys) (kwargs : Kwargs) : overrideKw (withoutReading kwargs) d = overrideKw kwargs d := by
  refine List.map_congr_left fun p hp => ?_
  rw [lookup_withoutReading (h p hp)]

theorem keys_default {sig : Signature} {keys : List String} (hk : sig.map Prod.fst = keys) (h : ∀ key ∈ keys, key ∉ readingKeys) : ∀ p ∈ defaultKwargs sig, p.1 ∉ readingKeys := by
  intro p hp
  obtain ⟨q, hq, e⟩ := List.mem_filterMap.1 hp
  obtain ⟨v, -, rfl⟩ := Option.map_eq_some_iff.1 e
  exact h _ (hk ▸ List.mem_map_of_mem hq)

theorem keys_pop {d : Kwargs} (key : String) (h : ∀ p ∈ d, p.1 ∉ readingKeys) : ∀ p ∈ popKw key d, p.1 ∉ readingKeys := fun p hp => h p (List.mem_filter.1 hp).1

theorem keys_set {d : Kwargs} (key : String) (v : PyVal) (h : ∀ p ∈ d, p.1 ∉ readingKeys) : ∀ p ∈ setKw key v d, p.1 ∉ readingKeys := by
  intro p hp
  obtain ⟨q, hq, rfl⟩ := List.mem_map.1 hp
  by_cases e : q.1 = key
  · rw [if_pos e]
    exact e ▸ h q hq
  · rw [if_neg e]
    exact h q hq

theorem routeKwargs_withoutReading (verbose : Bool) (kwargs : Kwargs) :
    (routeKwargs verbose (withoutReading kwargs)).pdd = (routeKwargs verbose kwargs).pdd ∧ (routeKwargs verbose (withoutReading kwargs)).amds = (routeKwargs verbose kwargs).amds ∧
      (routeKwargs verbose (withoutReading kwargs)).pdds = (routeKwargs verbose kwargs).pdds ∧ (routeKwargs verbose (withoutReading kwargs)).near = (routeKwargs verbose kwargs).near := by
  have h1 := keys_default (sig := sigPDD) (keys := ["pset", "k", "lexsort", "collapse", "collapse_tol", "return_row_groups"]) rfl (by decide +kernel)
  have h2 := keys_default (sig := sigAMDpdist) (keys := ["amds", "metric", "low_memory", "kwargs"]) rfl (by decide +kernel)
  have h3 := keys_default (sig := sigPDDpdist) (keys := ["pdds", "metric", "backend", "n_jobs", "verbose", "kwargs"]) rfl (by decide +kernel)
  have h4 := keys_default (sig := sigNearestItems) (keys := ["n_neighbors", "XA", "XB", "algorithm", "leaf_size", "metric", "n_jobs", "kwargs"]) rfl (by decide +kernel)
  have e1 := overrideKw_withoutReading (keys_pop "return_row_groups" h1) kwargs
  have e2 := overrideKw_withoutReading h2 kwargs
  have e3 := overrideKw_withoutReading (keys_set "verbose" (.bool verbose) h3) kwargs
  have e4 := overrideKw_withoutReading (keys_pop "XB" h4) kwargs
  simp only [routeKwargs]
  rw [e1, e2, e3, e4]
  exact ⟨rfl, rfl, rfl, rfl⟩

theorem IsMatrix.ext {m n : ℕ} {f : ℕ → ℕ → ℝ} {M N : List (List ℝ)} (h : IsMatrix m n f M) (h' : IsMatrix m n f N) : M = N := by
  obtain ⟨h1, h2, h3⟩ := h
  obtain ⟨g1, g2, g3⟩ := h'
  refine List.ext_getElem (by omega) fun i hi hi' => ?_
  have li := h2 _ (List.getElem_mem hi)
  have li' := g2 _ (List.getElem_mem hi')
  refine List.ext_getElem (by omega) fun j hj hj' => ?_
  have a := h3 i j (by omega) (by omega)
  have b := g3 i j (by omega) (by omega)
  rw [List.getD_eq_getElem _ _ hi, List.getD_eq_getElem _ _ hj] at a
  rw [List.getD_eq_getElem _ _ hi', List.getD_eq_getElem _ _ hj'] at b
  rw [a, b]

theorem same_entries {cs : List Crystal} {f g : ℕ → ℕ → ℝ} (h : PairsAgree 0 cs cs f cs cs g) (i j : ℕ) (hi : i < cs.length) (hj : j < cs.length) : f i j = g i j := by
  have s : ∀ i < cs.length, SameAt cs i cs i := fun i hi => ⟨_, _, List.getElem?_eq_getElem hi, List.getElem?_eq_getElem hi, SameSet.refl _⟩
  exact sub_eq_zero.1 (abs_nonpos_iff.1 (h i j i j (Or.inl ⟨s i hi, s j hj⟩)))

end Amd
