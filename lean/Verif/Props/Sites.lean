import Verif.Proof.Sites
import Mathlib.Data.List.GetD
import Mathlib.Tactic.NormNum

/-!
# Expanding an asymmetric unit: C44, C45
-/

namespace Amd

variable {D : ℕ} {tol : ℝ}

/-- The images of the sites under the operations, each in the unit cell. -/
def IsImageOf (asym : List (Pt D ℝ)) (ops : List (AffineOp D)) (q : Pt D ℝ) : Prop := ∃ p ∈ asym, ∃ o ∈ ops, IsImage o.rot o.trans p q

/-! ### C44 -/

/-- **C44** Each point of the motif is the image, under one of the operations, of the site it is attributed to. -/
theorem C44_images (asym : List (Pt D ℝ)) (ops : List (AffineOp D)) (tol : ℝ) (u : Bool) :
    (expandAsymUnit asym ops tol u).2.1.length = (expandAsymUnit asym ops tol u).1.length ∧
    ∀ t (h : t < (expandAsymUnit asym ops tol u).1.length) (h' : t < (expandAsymUnit asym ops tol u).2.1.length),
      ∃ hi : (expandAsymUnit asym ops tol u).2.1[t] < asym.length, ∃ o ∈ ops,
        IsImage o.rot o.trans asym[(expandAsymUnit asym ops tol u).2.1[t]] (expandAsymUnit asym ops tol u).1[t] := by
  have hr := expand_reduction asym ops tol u
  refine ⟨hr.length, fun t h h' => ?_⟩
  have hm : ((expandAsymUnit asym ops tol u).1[t], (expandAsymUnit asym ops tol u).2.1[t]) ∈ (expandAsymUnit asym ops tol u).1.zip (expandAsymUnit asym ops tol u).2.1 := by
    rw [← List.getElem_zip (h := by simp [h, h'])]
    exact List.getElem_mem _
  obtain ⟨sites, hs, hp⟩ := hr.image _ hm
  obtain ⟨hi, rfl⟩ := mem_expandSites.1 hs
  obtain ⟨o, ho, e⟩ := List.mem_map.1 hp
  exact ⟨hi, o, ho, isImage_iff.2 e.symm⟩

theorem motif_image {asym : List (Pt D ℝ)} {ops : List (AffineOp D)} {u : Bool} {p : Pt D ℝ} (h : p ∈ (expandAsymUnit asym ops tol u).1) : IsImageOf asym ops p := by
  obtain ⟨t, ht, rfl⟩ := List.mem_iff_getElem.1 h
  obtain ⟨hl, hi⟩ := C44_images asym ops tol u
  obtain ⟨hi', o, ho, hx⟩ := hi t ht (by rw [hl]; exact ht)
  exact ⟨_, List.getElem_mem hi', o, ho, hx⟩

theorem image_cell {asym : List (Pt D ℝ)} {ops : List (AffineOp D)} {p : Pt D ℝ} (h : IsImageOf asym ops p) (j : Fin D) : 0 ≤ p j ∧ p j < 1 := by
  obtain ⟨_, _, o, _, hx⟩ := h
  exact ⟨(hx j).1, (hx j).2.1⟩

/-- **C44** Among the images of one site in the motif, no two are equal within `tol` modulo the lattice. -/
theorem C44_orbit (h1 : tol < 1) (asym : List (Pt D ℝ)) (ops : List (AffineOp D)) (u : Bool) :
    ((expandAsymUnit asym ops tol u).1.zip (expandAsymUnit asym ops tol u).2.1).Pairwise fun x y => x.2 = y.2 → ¬ SameSite tol x.1 y.1 := by
  have hr := expand_reduction asym ops tol u
  refine List.Pairwise.imp_of_mem (fun hx hy h e => ?_) hr.orbit
  rename_i x y
  have hx' := image_cell (motif_image (List.of_mem_zip (a := x.1) (b := x.2) hx).1)
  have hy' := image_cell (motif_image (List.of_mem_zip (a := y.1) (b := y.2) hy).1)
  rw [← siteClose_iff_sameSite h1 hx' hy', h e]
  simp

/-- **C44** When uniquifying, no two points of the motif are equal within `tol` modulo the lattice. -/
theorem C44_distinct (h1 : tol < 1) (asym : List (Pt D ℝ)) (ops : List (AffineOp D)) :
    (expandAsymUnit asym ops tol true).1.Pairwise fun p q => ¬ SameSite tol p q := by
  refine List.Pairwise.imp_of_mem (fun hx hy h => ?_) (expand_apart asym ops tol)
  rw [← siteClose_iff_sameSite h1 (image_cell (motif_image hx)) (image_cell (motif_image hy)), h]
  simp

/-- **C44** Each image of a site is linked to a point of the motif by a chain of images, each equal to the next within `tol` modulo the lattice. -/
theorem C44_chain (h0 : 0 ≤ tol) (h1 : tol < 1) (asym : List (Pt D ℝ)) (ops : List (AffineOp D)) (u : Bool) {p : Pt D ℝ} (hp : IsImageOf asym ops p) :
    ∃ q ∈ (expandAsymUnit asym ops tol u).1, Relation.ReflTransGen (fun a b => IsImageOf asym ops a ∧ IsImageOf asym ops b ∧ SameSite tol a b) p q := by
  obtain ⟨a, ha, o, ho, hi⟩ := hp
  have hs : (ops.map fun o => o.apply a) ∈ expandSites asym ops := List.mem_map.2 ⟨a, ha, rfl⟩
  have hpm : p ∈ ops.map fun o => o.apply a := List.mem_map.2 ⟨o, ho, (isImage_iff.1 hi).symm⟩
  have him : ∀ x ∈ ops.map fun o => o.apply a, IsImageOf asym ops x := fun x hx => by
    obtain ⟨o, ho, rfl⟩ := List.mem_map.1 hx
    exact ⟨a, ha, o, ho, isImage_iff.2 rfl⟩
  obtain ⟨m, hm, hr⟩ := kept_chain' (tol := tol) hpm
  obtain ⟨q, hq, hc⟩ := expand_cover h0 asym ops u hs hm
  have hmi := him m ((kept_sublist _).subset hm)
  refine ⟨q, hq, Relation.ReflTransGen.tail (Relation.ReflTransGen.mono (fun x y hxy => ?_) _ _ hr)
    ⟨hmi, motif_image hq, (siteClose_iff_sameSite h1 (image_cell hmi) (image_cell (motif_image hq))).1 hc⟩⟩
  exact ⟨him x hxy.1, him y hxy.2.1, (siteClose_iff_sameSite h1 (image_cell (him x hxy.1)) (image_cell (him y hxy.2.1))).1 hxy.2.2⟩

/-- **C44** If equality within `tol` is transitive on the images then each image has an equivalent in the motif. -/
theorem C44_cover_partial (h0 : 0 ≤ tol) (h1 : tol < 1) (asym : List (Pt D ℝ)) (ops : List (AffineOp D)) (u : Bool)
    (ht : ∀ a b c, IsImageOf asym ops a → IsImageOf asym ops b → IsImageOf asym ops c → SameSite tol a b → SameSite tol b c → SameSite tol a c)
    {p : Pt D ℝ} (hp : IsImageOf asym ops p) : ∃ q ∈ (expandAsymUnit asym ops tol u).1, SameSite tol p q := by
  obtain ⟨q, hq, hr⟩ := C44_chain h0 h1 asym ops u hp
  refine ⟨q, hq, ?_⟩
  clear hq
  induction hr with
  | refl => intro j; exact ⟨0, by simpa using h0⟩
  | tail _ h2 ih => exact ht _ _ _ hp h2.1 h2.2.1 ih h2.2.2

/-- The translation by `x` along the first axis. -/
def shift (x : ℝ) : AffineOp 3 := ⟨fun i j => if i = j then 1 else 0, ![x, 0, 0]⟩

theorem shift_image (x : ℝ) (h : 0 ≤ x ∧ x < 1) : (shift x).apply (fun _ => 0) = ![x, 0, 0] := by
  refine (isImage_iff.1 fun i => ?_).symm
  fin_cases i <;> simp [shift, h] <;> exact ⟨0, by simp⟩

/-- **C44 does not hold** as stated: three operations that move a site by 0, 0.00075 and 0.0015 along an axis. With the tolerance 0.001 of the readers,
the second image is equal to the first and the third to the second; only the first is kept, and the third has no equivalent. -/
theorem C44_false : ∃ p, IsImageOf [fun _ => 0] [shift 0, shift (3 / 4000), shift (6 / 4000)] p ∧
    ∀ u, ∀ q ∈ (expandAsymUnit [fun _ => 0] [shift 0, shift (3 / 4000), shift (6 / 4000)] (1 / 1000) u).1, ¬ SameSite (1 / 1000) p q := by
  have i0 := shift_image 0 (by norm_num)
  have i1 := shift_image (3 / 4000) (by norm_num)
  have i2 := shift_image (6 / 4000) (by norm_num)
  have c1 : siteClose (1 / 1000) (![0, 0, 0] : Pt 3 ℝ) ![3 / 4000, 0, 0] = true := by
    rw [siteClose_iff]; intro j; left
    fin_cases j <;> norm_num
  have c2 : siteClose (1 / 1000) (![3 / 4000, 0, 0] : Pt 3 ℝ) ![6 / 4000, 0, 0] = true := by
    rw [siteClose_iff]; intro j; left
    fin_cases j <;> norm_num
  have hm : reduceFrom (1 / 1000) 0 (expandSites [fun _ => 0] [shift 0, shift (3 / 4000), shift (6 / 4000)]) = ([![0, 0, 0]], [0]) := by
    rw [expandSites, List.map_singleton, List.map_cons, List.map_cons, List.map_singleton, i0, i1, i2]
    rw [reduceFrom, select_uniqueSites, reduceFrom]
    have : kept (1 / 1000) [(![0, 0, 0] : Pt 3 ℝ), ![3 / 4000, 0, 0], ![6 / 4000, 0, 0]] = [![0, 0, 0]] := by
      simp only [kept, keptFrom, List.nil_append, List.any_nil, List.any_cons, List.cons_append, c1, c2]
      simp
    rw [this]
    rfl
  refine ⟨![6 / 4000, 0, 0], ⟨_, List.mem_singleton_self _, shift (6 / 4000), by simp, isImage_iff.2 i2.symm⟩, fun u q hq => ?_⟩
  have hq' : q = ![0, 0, 0] := by
    rw [expandAsymUnit] at hq
    simp only [hm] at hq
    have : (uniqueSites (1 / 1000) [(![0, 0, 0] : Pt 3 ℝ)]).all id = true := by simp [uniqueSites, uniqueFrom]
    rw [this] at hq
    simpa using hq
  subst hq'
  intro h
  obtain ⟨n, hn⟩ := h 0
  simp only [Matrix.cons_val_zero, sub_zero] at hn
  rw [abs_le] at hn
  have h1 : n < 1 := by
    have : (n : ℝ) < 1 := by linarith [hn.1]
    exact_mod_cast this
  have h2 : 0 < n := by
    have : (0 : ℝ) < n := by linarith [hn.2]
    exact_mod_cast this
  omega

/-! ### C45 -/

/-- **C45** The asymmetric unit and the multiplicities in a set produced by a reader: multiplicities are positive and sum to the number of points of the
motif; the orbit number `m` (images of the same site) consists of the points from `asym_unit[m]` to `asym_unit[m] + multiplicities[m] - 1`. -/
theorem C45_orbits (name : String) (cell : Fin 3 → Pt 3 ℝ) (types : List ℕ) (asym : List (Pt 3 ℝ)) (ops : List (AffineOp 3)) (tol : ℝ) (u : Bool) :
    ∃ a m, (assemble name cell (expandAsymUnit asym ops tol u).1 (expandAsymUnit asym ops tol u).2.1 types).set.asymUnit = some a ∧
      (assemble name cell (expandAsymUnit asym ops tol u).1 (expandAsymUnit asym ops tol u).2.1 types).set.multiplicities = some m ∧
      (expandAsymUnit asym ops tol u).2.1.length =
        (assemble name cell (expandAsymUnit asym ops tol u).1 (expandAsymUnit asym ops tol u).2.1 types).set.motif.length ∧
      Orbits (expandAsymUnit asym ops tol u).2.1 a m := by
  have hr := expand_reduction asym ops tol u
  exact ⟨_, _, rfl, rfl, by rw [hr.length]; simp [assemble], orbits_of_sorted _ _ le_rfl hr.sorted⟩

/-- **C45** There is one type for each point of the motif, the type of the site it is an image of. -/
theorem C45_types (name : String) (cell : Fin 3 → Pt 3 ℝ) (types : List ℕ) (asym : List (Pt 3 ℝ)) (ht : types.length = asym.length)
    (ops : List (AffineOp 3)) (tol : ℝ) (u : Bool) (s : ReadSet)
    (hs : s = assemble name cell (expandAsymUnit asym ops tol u).1 (expandAsymUnit asym ops tol u).2.1 types) :
    s.types.length = s.set.motif.length ∧ ∀ t (h : t < s.types.length) (h' : t < s.set.motif.length), ∃ i, ∃ hi : i < asym.length, ∃ o ∈ ops, ∃ q,
      IsImage o.rot o.trans asym[i] q ∧ s.set.motif[t] = (fun j => ∑ l, q l * cell l j) ∧ s.types[t] = types[i] := by
  subst hs
  obtain ⟨hl, hi⟩ := C44_images asym ops tol u
  refine ⟨by simp [assemble, hl], fun t h h' => ?_⟩
  have h1 : t < (expandAsymUnit asym ops tol u).1.length := by simpa [assemble] using h'
  have h2 : t < (expandAsymUnit asym ops tol u).2.1.length := by simpa [assemble] using h
  obtain ⟨hi', o, ho, hx⟩ := hi t h1 h2
  refine ⟨_, hi', o, ho, _, hx, ?_, ?_⟩
  · simp only [assemble, List.getElem_map]
    rfl
  · simp only [assemble, List.getElem_map]
    rw [List.getD_eq_getElem _ _ (by omega)]

/-- **C45** If the images of different sites are different, or nothing is uniquified, then there is one orbit for each site, in order, and `asym_unit[m]` is
the image of site `m` under the first operation. -/
theorem C45_every_site (name : String) (cell : Fin 3 → Pt 3 ℝ) (types : List ℕ) (asym : List (Pt 3 ℝ)) (ops : List (AffineOp 3)) (hops : ops ≠ [])
    (h1 : tol < 1) (u : Bool)
    (hu : u = false ∨ ∀ i j (hi : i < asym.length) (hj : j < asym.length), i ≠ j → ∀ o ∈ ops, ∀ o' ∈ ops, ∀ p q,
      IsImage o.rot o.trans asym[i] p → IsImage o'.rot o'.trans asym[j] q → ¬ SameSite tol p q)
    (s : ReadSet) (hs : s = assemble name cell (expandAsymUnit asym ops tol u).1 (expandAsymUnit asym ops tol u).2.1 types) :
    ∃ a m, s.set.asymUnit = some a ∧ s.set.multiplicities = some m ∧ a.length = asym.length ∧ m.length = asym.length ∧
      ∀ i (hi : i < asym.length) (hi' : i < a.length), (expandAsymUnit asym ops tol u).2.1[a[i]]? = some i ∧
        ∃ q, IsImage (ops.head hops).rot (ops.head hops).trans asym[i] q ∧ s.set.motif[a[i]]? = some (fun j => ∑ l, q l * cell l j) := by
  subst hs
  have hfast : expandAsymUnit asym ops tol u = ((reduceFrom tol 0 (expandSites asym ops)).1, (reduceFrom tol 0 (expandSites asym ops)).2, []) := by
    rw [expandAsymUnit, if_neg]
    rcases hu with rfl | hu
    · simp
    · have : (uniqueSites tol (reduceFrom tol 0 (expandSites asym ops)).1).all id = true := by
        rw [uniqueSites, uniqueFrom_all_iff]
        refine ⟨fun p _ q hq => (by cases hq), ?_⟩
        have hr := reduceFrom_reduction (tol := tol) (expandSites asym ops)
        have e : (reduceFrom tol 0 (expandSites asym ops)).1 =
            ((reduceFrom tol 0 (expandSites asym ops)).1.zip (reduceFrom tol 0 (expandSites asym ops)).2).map Prod.fst := by
          rw [List.map_fst_zip]; exact hr.length.ge
        rw [e, List.pairwise_map]
        refine List.Pairwise.imp_of_mem (fun {x y} hx hy h => ?_) hr.orbit
        by_cases hxy : x.2 = y.2
        · exact h hxy
        · obtain ⟨s1, e1, m1⟩ := hr.image x hx
          obtain ⟨s2, e2, m2⟩ := hr.image y hy
          obtain ⟨l1, rfl⟩ := mem_expandSites.1 e1
          obtain ⟨l2, rfl⟩ := mem_expandSites.1 e2
          obtain ⟨o, ho, e1⟩ := List.mem_map.1 m1
          obtain ⟨o', ho', e2⟩ := List.mem_map.1 m2
          have i1 := isImage_iff.2 e1.symm
          have i2 := isImage_iff.2 e2.symm
          have := hu _ _ l1 l2 hxy o ho o' ho' _ _ i1 i2
          rw [← siteClose_iff_sameSite h1 (fun j => ⟨(i1 j).1, (i1 j).2.1⟩) (fun j => ⟨(i2 j).1, (i2 j).2.1⟩)] at this
          simpa using this
      simp [this]
  rw [hfast]
  have hne : ∀ t ∈ expandSites asym ops, t ≠ [] := by
    intro t ht
    obtain ⟨p, -, rfl⟩ := List.mem_map.1 ht
    simpa using hops
  obtain ⟨h2, h3⟩ := reduceFrom_orbits (tol := tol) 0 (expandSites asym ops) hne
  have hlen : (uniqueCounts (reduceFrom tol 0 (expandSites asym ops)).2).length = asym.length := by rw [h2]; simp [expandSites]
  have hsort := (reduceFrom_reduction (tol := tol) (expandSites asym ops)).sorted
  have hla := (orbits_of_sorted _ _ le_rfl hsort).length
  refine ⟨_, _, rfl, rfl, by rw [hla, hlen], hlen, fun i hi hi' => ?_⟩
  obtain ⟨a, e1, e2, e3⟩ := h3 i (by simpa [expandSites] using hi)
  rw [List.getElem?_eq_getElem hi', Option.some.injEq] at e1
  rw [e1, Nat.zero_add] at *
  refine ⟨e2, _, isImage_iff.2 rfl, ?_⟩
  simp only [assemble, List.getElem?_map, e3]
  obtain ⟨o, ops', rfl⟩ := List.exists_cons_of_ne_nil hops
  simp [expandSites]
  rfl

/-- The images of the origin under two translations are different, so equality is transitive on them and the motif contains both. -/
example : ∃ q ∈ (expandAsymUnit [fun _ => 0] [shift 0, shift (1 / 2)] (1 / 1000) true).1, SameSite (1 / 1000) ![1 / 2, 0, 0] q := by
  have i0 := shift_image 0 (by norm_num)
  have i1 := shift_image (1 / 2) (by norm_num)
  have hi : ∀ a, IsImageOf [fun _ => 0] [shift 0, shift (1 / 2)] a → a = ![0, 0, 0] ∨ a = ![1 / 2, 0, 0] := by
    rintro a ⟨p, hp, o, ho, hx⟩
    rw [isImage_iff] at hx
    simp only [List.mem_cons, List.not_mem_nil, or_false] at hp ho
    subst hp
    rcases ho with rfl | rfl
    · exact Or.inl (hx.trans i0)
    · exact Or.inr (hx.trans i1)
  refine C44_cover_partial (by norm_num) (by norm_num) _ _ true ?_ ⟨_, List.mem_singleton_self _, shift (1 / 2), by simp, isImage_iff.2 i1.symm⟩
  have hn : ∀ x : ℝ, x = 1 / 2 ∨ x = - (1 / 2) → ¬ ∃ n : ℤ, |x - n| ≤ 1 / 1000 := by
    rintro x hx ⟨n, hn⟩
    rw [abs_le] at hn
    rcases hx with rfl | rfl
    · have h1 : (n : ℝ) < 1 := by linarith [hn.1]
      have h2 : (0 : ℝ) < n := by linarith [hn.2]
      have h1' : n < 1 := by exact_mod_cast h1
      have h2' : 0 < n := by exact_mod_cast h2
      omega
    · have h1 : (n : ℝ) < 0 := by linarith [hn.1]
      have h2 : (-1 : ℝ) < n := by linarith [hn.2]
      have h1' : n < 0 := by exact_mod_cast h1
      have h2' : -1 < n := by exact_mod_cast h2
      omega
  intro a b c ha hb hc hab hbc
  rcases hi a ha with rfl | rfl <;> rcases hi b hb with rfl | rfl <;> rcases hi c hc with rfl | rfl <;> first | exact hab | exact hbc | skip
  · exact absurd (hab 0) (hn _ (by norm_num))
  · exact absurd (hab 0) (hn _ (by norm_num))

/-- Two sites, each with two images: two orbits of two points. -/
example (name : String) (cell : Fin 3 → Pt 3 ℝ) (s : ReadSet)
    (hs : s = assemble name cell (expandAsymUnit [fun _ => 0, fun _ => 1 / 4] [shift 0, shift (1 / 2)] (1 / 1000) false).1
      (expandAsymUnit [fun _ => 0, fun _ => 1 / 4] [shift 0, shift (1 / 2)] (1 / 1000) false).2.1 [6, 8]) :
    ∃ a m, s.set.asymUnit = some a ∧ s.set.multiplicities = some m ∧ a.length = 2 ∧ m.length = 2 := by
  obtain ⟨a, m, h1, h2, h3, h4, -⟩ := C45_every_site (tol := 1 / 1000) name cell [6, 8] [fun _ => 0, fun _ => 1 / 4] [shift 0, shift (1 / 2)] (by simp)
    (by norm_num) false (Or.inl rfl) s hs
  exact ⟨a, m, h1, h2, h3, h4⟩

/-- Three points in an orbit of one and an orbit of two. -/
example : Orbits [0, 3, 3] (asymInds (uniqueCounts [0, 3, 3])) [1, 2] := by
  have h : uniqueCounts [0, 3, 3] = [1, 2] := by
    rw [uniqueCounts_sorted (by simp)]
    rfl
  have := orbits_of_sorted 3 [0, 3, 3] (by simp) (by simp)
  rwa [h] at this ⊢

end Amd
