import Verif.Model.Lattice
import Mathlib.Data.List.Nodup
import Mathlib.Algebra.Order.BigOperators.Group.Finset
import Mathlib.Tactic.Linarith
import Mathlib.Tactic.Ring

/-! Helper lemmas: the positive part of the lattice generator. -/

namespace Amd

theorem mem_productRange (d : ℕ) : ∀ (n : ℕ) (xy : Fin n → ℕ),
    xy ∈ productRange d n ↔ ∀ i, xy i ≤ d
  | 0, xy => by
    simp only [productRange, List.mem_singleton]
    exact ⟨fun _ i => i.elim0, fun _ => by funext i; exact i.elim0⟩
  | n + 1, xy => by
    simp only [productRange, List.mem_flatMap, List.mem_range, List.mem_map]
    constructor
    · rintro ⟨a, ha, v, hv, rfl⟩ i
      rw [mem_productRange d n] at hv
      refine Fin.cases ?_ ?_ i
      · simpa using Nat.lt_succ_iff.mp ha
      · intro j; simpa using hv j
    · intro h
      refine ⟨xy 0, Nat.lt_succ_iff.mpr (h 0), Fin.tail xy, ?_, Fin.cons_self_tail xy⟩
      rw [mem_productRange d n]
      exact fun i => h i.succ

theorem nodup_productRange (d : ℕ) : ∀ n : ℕ, (productRange d n).Nodup
  | 0 => by simp [productRange]
  | n + 1 => by
    simp only [productRange]
    rw [List.nodup_flatMap]
    refine ⟨fun a _ => (nodup_productRange d n).map (Fin.cons_right_injective (α := fun _ => ℕ) a), ?_⟩
    refine (List.nodup_range (n := d + 1)).imp ?_
    intro a b hab
    simp only [Function.onFun, List.Disjoint, List.mem_map]
    rintro v ⟨x, _, rfl⟩ ⟨y, _, h⟩
    have := congrFun h 0
    simp at this
    exact hab this.symm

/-- What one `for` loop over a duplicate-free list of keys does. -/
theorem foldl_passStep {n : ℕ} (d : ℕ) : ∀ (l : List (Fin n → ℕ)) (y : YMax n)
    (acc : List (Fin (n + 1) → ℕ)) (b : Bool), l.Nodup →
    l.foldl (passStep d) (y, acc, b) =
      (fun xy => if xy ∈ l ∧ ∑ i, xy i ^ 2 + y xy ^ 2 ≤ d ^ 2 then y xy + 1 else y xy,
       acc ++ (l.filter fun xy => ∑ i, xy i ^ 2 + y xy ^ 2 ≤ d ^ 2).map
         (fun xy => Fin.snoc (α := fun _ => ℕ) xy (y xy)),
       b || l.any fun xy => ∑ i, xy i ^ 2 + y xy ^ 2 ≤ d ^ 2)
  | [], y, acc, b, _ => by simp
  | x :: l, y, acc, b, hn => by
    rw [List.nodup_cons] at hn
    rw [List.foldl_cons]
    by_cases hx : ∑ i, x i ^ 2 + y x ^ 2 ≤ d ^ 2
    · have h1 : passStep d (y, acc, b) x =
        (Function.update y x (y x + 1), acc ++ [Fin.snoc (α := fun _ => ℕ) x (y x)], true) := by
        simp [passStep, hx]
      rw [h1, foldl_passStep d l _ _ _ hn.2]
      have hupd : ∀ z ∈ l, Function.update y x (y x + 1) z = y z := by
        intro z hz
        rw [Function.update_of_ne]
        rintro rfl
        exact hn.1 hz
      refine Prod.ext ?_ (Prod.ext ?_ ?_)
      · funext z
        by_cases hz : z = x
        · subst hz
          simp [hn.1, hx]
        · simp [hz]
      · simp only [List.filter_cons, hx, decide_true, if_true, List.map_cons, List.append_assoc,
          List.singleton_append]
        congr 2
        have e1 : l.filter (fun xy => ∑ i, xy i ^ 2 + (Function.update y x (y x + 1)) xy ^ 2 ≤ d ^ 2)
            = l.filter (fun xy => ∑ i, xy i ^ 2 + y xy ^ 2 ≤ d ^ 2) := by
          apply List.filter_congr
          intro z hz
          rw [hupd z hz]
        rw [e1]
        apply List.map_congr_left
        intro z hz
        rw [hupd z (List.mem_of_mem_filter hz)]
      · simp [hx]
    · have h1 : passStep d (y, acc, b) x = (y, acc, b) := by
        simp [passStep, hx]
      rw [h1, foldl_passStep d l _ _ _ hn.2]
      refine Prod.ext ?_ (Prod.ext ?_ ?_)
      · funext z
        by_cases hz : z = x
        · subst hz
          simp [hn.1, hx]
        · simp [hz]
      · simp [hx]
      · simp [hx]

theorem mem_box_of_le {n : ℕ} {d t : ℕ} {xy : Fin n → ℕ} (h : ∑ i, xy i ^ 2 + t ^ 2 ≤ d ^ 2) :
    xy ∈ productRange d n := by
  rw [mem_productRange]
  intro i
  have h1 : xy i ^ 2 ≤ ∑ j, xy j ^ 2 :=
    Finset.single_le_sum (f := fun j => xy j ^ 2) (fun _ _ => Nat.zero_le _) (Finset.mem_univ i)
  have h2 : xy i ^ 2 ≤ d ^ 2 := by omega
  exact (Nat.pow_le_pow_iff_left (by norm_num)).mp h2

theorem sum_sq_snoc {n : ℕ} (v : Fin (n + 1) → ℕ) :
    ∑ i, v i ^ 2 = ∑ i, (Fin.init v) i ^ 2 + v (Fin.last n) ^ 2 := by
  rw [Fin.sum_univ_castSucc]; rfl

/-- The closed form of `pass`. -/
theorem pass_eq {n : ℕ} (d : ℕ) (y : YMax n) (acc : List (Fin (n + 1) → ℕ)) :
    pass d y acc =
      (fun xy => if ∑ i, xy i ^ 2 + y xy ^ 2 ≤ d ^ 2 then y xy + 1 else y xy,
       acc ++ ((productRange d n).filter fun xy => ∑ i, xy i ^ 2 + y xy ^ 2 ≤ d ^ 2).map
         (fun xy => Fin.snoc (α := fun _ => ℕ) xy (y xy)),
       (productRange d n).any fun xy => ∑ i, xy i ^ 2 + y xy ^ 2 ≤ d ^ 2) := by
  rw [pass, foldl_passStep d _ _ _ _ (nodup_productRange d n)]
  refine Prod.ext ?_ (Prod.ext rfl ?_)
  · funext z
    by_cases hz : ∑ i, z i ^ 2 + y z ^ 2 ≤ d ^ 2
    · simp [hz, mem_box_of_le hz]
    · simp [hz]
  · simp

theorem le_of_cond {n : ℕ} {d t : ℕ} {xy : Fin n → ℕ} (h : ∑ i, xy i ^ 2 + t ^ 2 ≤ d ^ 2) :
    t ≤ d := by
  have h2 : t ^ 2 ≤ d ^ 2 := by omega
  exact (Nat.pow_le_pow_iff_left (by norm_num)).mp h2

theorem passes_spec {n : ℕ} (d : ℕ) : ∀ (f : ℕ) (y : YMax n) (acc : List (Fin (n + 1) → ℕ)),
    0 < f → (∀ xy : Fin n → ℕ, ∑ i, xy i ^ 2 + y xy ^ 2 ≤ d ^ 2 → d + 2 ≤ f + y xy) →
    ∃ (y' : YMax n) (L : List (Fin (n + 1) → ℕ)), passes d f y acc = some (y', acc ++ L) ∧
      L.Nodup ∧
      (∀ v, v ∈ L ↔ ∑ i, v i ^ 2 ≤ d ^ 2 ∧ y (Fin.init v) ≤ v (Fin.last n)) ∧
      (∀ xy t, t < y' xy ↔ t < y xy ∨ ∑ i, xy i ^ 2 + t ^ 2 ≤ d ^ 2)
  | 0, _, _, hf, _ => absurd hf (by simp)
  | f + 1, y, acc, _, hfuel => by
    have hmono : ∀ (xy : Fin n → ℕ) (s t : ℕ), s ≤ t → ∑ i, xy i ^ 2 + t ^ 2 ≤ d ^ 2 →
        ∑ i, xy i ^ 2 + s ^ 2 ≤ d ^ 2 := by
      intro xy s t hst h
      have := Nat.pow_le_pow_left hst 2
      omega
    rw [passes, pass_eq]
    by_cases hany : ∃ xy : Fin n → ℕ, ∑ i, xy i ^ 2 + y xy ^ 2 ≤ d ^ 2
    · have hb : ((productRange d n).any fun xy => ∑ i, xy i ^ 2 + y xy ^ 2 ≤ d ^ 2) = true := by
        obtain ⟨xy, h⟩ := hany
        rw [List.any_eq_true]
        exact ⟨xy, mem_box_of_le h, by simpa using h⟩
      simp only [hb, if_true]
      have hf0 : 0 < f := by
        obtain ⟨xy, h⟩ := hany
        have h1 := hfuel xy h
        have h2 := le_of_cond h
        omega
      obtain ⟨y', L, h1, h2, h3, h4⟩ := passes_spec d f
        (fun xy => if ∑ i, xy i ^ 2 + y xy ^ 2 ≤ d ^ 2 then y xy + 1 else y xy)
        (acc ++ ((productRange d n).filter fun xy => ∑ i, xy i ^ 2 + y xy ^ 2 ≤ d ^ 2).map
         (fun xy => Fin.snoc (α := fun _ => ℕ) xy (y xy))) hf0 (by
          intro xy h
          by_cases hc : ∑ i, xy i ^ 2 + y xy ^ 2 ≤ d ^ 2
          · have := hfuel xy hc
            simp only [hc, if_true]
            omega
          · simp only [hc, if_false] at h)
      refine ⟨y', ((productRange d n).filter fun xy => ∑ i, xy i ^ 2 + y xy ^ 2 ≤ d ^ 2).map
         (fun xy => Fin.snoc (α := fun _ => ℕ) xy (y xy)) ++ L, ?_, ?_, ?_, ?_⟩
      · rw [h1, List.append_assoc]
      · rw [List.nodup_append]
        refine ⟨?_, h2, ?_⟩
        · apply List.Nodup.map_on _ ((nodup_productRange d n).filter _)
          intro a _ b _ hab
          have := congrArg (Fin.init (α := fun _ => ℕ)) hab
          simpa using this
        · intro a ha b hb' hab
          subst hab
          rw [List.mem_map] at ha
          obtain ⟨xy, hxy, rfl⟩ := ha
          rw [List.mem_filter] at hxy
          have hc : ∑ i, xy i ^ 2 + y xy ^ 2 ≤ d ^ 2 := by simpa using hxy.2
          have := ((h3 _).mp hb').2
          simp [hc] at this
      · intro v
        rw [List.mem_append, h3, List.mem_map]
        constructor
        · rintro (⟨xy, hxy, rfl⟩ | ⟨hv, hle⟩)
          · rw [List.mem_filter] at hxy
            have hc : ∑ i, xy i ^ 2 + y xy ^ 2 ≤ d ^ 2 := by simpa using hxy.2
            refine ⟨?_, ?_⟩
            · rw [sum_sq_snoc]; simpa using hc
            · simp
          · refine ⟨hv, ?_⟩
            split_ifs at hle <;> omega
        · rintro ⟨hv, hle⟩
          rw [sum_sq_snoc] at hv
          have hc := hmono _ _ _ hle hv
          rcases Nat.eq_or_lt_of_le hle with he | hlt
          · left
            refine ⟨Fin.init v, ?_, ?_⟩
            · rw [List.mem_filter]
              exact ⟨mem_box_of_le hc, by simpa using hc⟩
            · rw [he]; exact Fin.snoc_init_self v
          · right
            refine ⟨by rw [sum_sq_snoc]; exact hv, ?_⟩
            simp only [hc, if_true]; exact hlt
      · intro xy t
        rw [h4]
        by_cases hc : ∑ i, xy i ^ 2 + y xy ^ 2 ≤ d ^ 2
        · simp only [hc, if_true]
          constructor
          · rintro (h | h)
            · rcases Nat.lt_succ_iff_lt_or_eq.mp h with h | h
              · exact Or.inl h
              · subst h; exact Or.inr hc
            · exact Or.inr h
          · rintro (h | h)
            · left; omega
            · exact Or.inr h
        · simp only [hc, if_false]
    · have hb : ((productRange d n).any fun xy => ∑ i, xy i ^ 2 + y xy ^ 2 ≤ d ^ 2) = false := by
        rw [List.any_eq_false]
        intro xy _ h
        exact hany ⟨xy, by simpa using h⟩
      have hfil : ((productRange d n).filter fun xy => ∑ i, xy i ^ 2 + y xy ^ 2 ≤ d ^ 2) = [] := by
        rw [List.filter_eq_nil_iff]
        intro xy _ h
        exact hany ⟨xy, by simpa using h⟩
      simp only [hb, hfil]
      refine ⟨fun xy => if ∑ i, xy i ^ 2 + y xy ^ 2 ≤ d ^ 2 then y xy + 1 else y xy, [], by simp,
        List.nodup_nil, ?_, ?_⟩
      · intro v
        simp only [List.not_mem_nil, false_iff, not_and]
        intro hv hle
        rw [sum_sq_snoc] at hv
        exact hany ⟨_, hmono _ _ _ hle hv⟩
      · intro xy t
        have hc : ¬ ∑ i, xy i ^ 2 + y xy ^ 2 ≤ d ^ 2 := fun h => hany ⟨xy, h⟩
        simp only [hc, if_false]
        constructor
        · exact Or.inl
        · rintro (h | h)
          · exact h
          · by_contra hlt
            exact hany ⟨xy, hmono _ _ _ (not_lt.mp hlt) h⟩

/-- The generator's positive points at every `d`. -/
theorem genState_spec (n : ℕ) : ∀ d : ℕ, ∃ (y : YMax n) (L : List (Fin (n + 1) → ℕ)),
    genState n d = some (y, L) ∧ L.Nodup ∧
    (∀ v, v ∈ L ↔ ∑ i, v i ^ 2 ≤ d ^ 2 ∧ (d = 0 ∨ (d - 1) ^ 2 < ∑ i, v i ^ 2)) ∧
    (∀ xy t, t < y xy ↔ ∑ i, xy i ^ 2 + t ^ 2 ≤ d ^ 2)
  | 0 => by
    obtain ⟨y', L, h1, h2, h3, h4⟩ := passes_spec (n := n) 0 2 (fun _ => 0) [] (by norm_num)
      (by intro xy _; simp)
    refine ⟨y', L, ?_, h2, ?_, ?_⟩
    · rw [genState, h1]; simp
    · intro v; rw [h3]; simp
    · intro xy t; rw [h4]; simp
  | d + 1 => by
    obtain ⟨y, L, h1, h2, h3, h4⟩ := genState_spec n d
    obtain ⟨y', L', h1', h2', h3', h4'⟩ := passes_spec (n := n) (d + 1) (d + 3) y [] (by omega)
      (by intro xy h; omega)
    refine ⟨y', L', ?_, h2', ?_, ?_⟩
    · rw [genState, h1]; simpa using h1'
    · intro v
      rw [h3', Nat.add_sub_cancel]
      refine and_congr_right fun _ => ?_
      have := h4 (Fin.init v) (v (Fin.last n))
      rw [← sum_sq_snoc] at this
      constructor
      · intro h; right
        by_contra hc
        exact absurd (this.mpr (not_lt.mp hc)) (not_lt.mpr h)
      · rintro (h | h)
        · omega
        · by_contra hc
          exact absurd (this.mp (not_le.mp hc)) (not_le.mpr h)
    · intro xy t
      rw [h4', h4]
      constructor
      · rintro (h | h)
        · have : d ^ 2 ≤ (d + 1) ^ 2 := Nat.pow_le_pow_left (by omega) 2
          omega
        · exact h
      · exact Or.inr

end Amd
