import Verif.Props.Threads
import Verif.Props.Estimate

/-! # AMD and PDD from several threads: examples and the race (C99) -/

namespace Amd

variable {α β : Type}

/-- A thread takes steps alone. -/
inductive Prog.Takes : Prog α → Heap → Prog α → Heap → Prop
  | refl (p : Prog α) (h : Heap) : Prog.Takes p h p h
  | step {f : Heap → Heap} {k : Heap → Prog α} {h : Heap} {p' : Prog α} {h' : Heap} : Prog.Takes (k h) (f h) p' h' → Prog.Takes (.act f k) h p' h'

theorem Prog.Takes.bind {p p' : Prog α} {h h' : Heap} (ht : Prog.Takes p h p' h') (c : α → Prog β) : Prog.Takes (p.bind c) h (p'.bind c) h' := by
  induction ht with
  | refl p h => exact .refl _ _
  | step _ ih => exact .step ih

theorem Prog.Takes.runs {p p' : Prog Returned} {h h' : Heap} (ht : Prog.Takes p h p' h') {c : Threads} {ts : List (Prog Returned)} {i : ℕ} (hr : c.Runs ⟨h, ts⟩) (hi : ts[i]? = some p) :
    c.Runs ⟨h', ts.set i p'⟩ := by
  induction ht generalizing ts with
  | refl p h =>
    obtain ⟨hlt, rfl⟩ := List.getElem?_eq_some_iff.1 hi
    rw [List.set_getElem_self]
    exact hr
  | @step f k h p' h' _ ih =>
    have hlt : i < ts.length := (List.getElem?_eq_some_iff.1 hi).1
    have := ih (ts := ts.set i (k h)) (hr.tail (.step ⟨h, ts⟩ i f k hi)) (List.getElem?_set_self hlt)
    rwa [List.set_set] at this

theorem Prog.run_takes {p : Prog α} {h h' : Heap} {a : α} (e : p.run h = (some a, h')) : Prog.Takes p h (.ret a) h' := by
  induction p generalizing h with
  | ret b =>
    obtain ⟨e1, rfl⟩ := Prod.mk.inj e
    obtain rfl := Option.some.inj e1
    exact .refl _ _
  | raise e' => cases (Prod.mk.inj e).1
  | act f k ih => exact .step (ih h e)

/-- At most `n` steps. -/
def Prog.steps : ℕ → Prog α → Heap → Prog α × Heap
  | 0, p, h => (p, h)
  | _ + 1, .ret a, h => (.ret a, h)
  | _ + 1, .raise e, h => (.raise e, h)
  | n + 1, .act f k, h => (k h).steps n (f h)

theorem Prog.steps_takes : ∀ (n : ℕ) (p : Prog α) (h : Heap), Prog.Takes p h (p.steps n h).1 (p.steps n h).2
  | 0, p, h => .refl p h
  | _ + 1, .ret _, h => .refl _ h
  | _ + 1, .raise _, h => .refl _ h
  | n + 1, .act f k, h => .step (Prog.steps_takes n (k h) (f h))

/-! ### The race -/

/-- The first thread has read the generator it has put into the cache, and has not called `tee` yet. -/
def race₁ : Prog (List (List ℤ) × ℕ) × Heap := (batchesP 1 1 3).steps 7 {}

/-- The second thread has got the same generator, and has taken the first layer from it. -/
def race₂ : Prog (List (List ℤ) × ℕ) × Heap := (batchesP 1 1 3).steps 9 race₁.2

/-- The first thread goes on. -/
def race₃ : Option (List (List ℤ) × ℕ) × Heap := race₁.1.run race₂.2

theorem race₃_result : race₃.1 = some ([[-1], [1], [-2], [2], [-3], [3], [-4], [4]], 4) := by decide +kernel

theorem race₃_next : ((nextP 4).run race₃.2).1 = some [[-5], [5]] := by decide +kernel

theorem Prog.bind_assoc {γ : Type} (p : Prog α) (c : α → Prog β) (d : β → Prog γ) : (p.bind c).bind d = p.bind fun a => (c a).bind d := by
  induction p with
  | ret a => rfl
  | raise e => rfl
  | act f k ih => exact congrArg (Prog.act f) (funext ih)

/-- What `nearest_neighbors` does after the layers have come. -/
noncomputable def afterBatches {D : ℕ} (motif : List (Pt D ℝ)) (cell : Fin D → Pt D ℝ) (x : List (Pt D ℝ)) (k fuel : ℕ) (lt : List (List ℤ) × ℕ) : Prog (Except Err (List (List ℝ))) :=
  match maxE ((cdistSq x (latticeToCloud motif (matMul cell lt.1))).flatMap (·.take motif.length)) with
  | .error e => .ret (.error e)
  | .ok diamSq => (nnLoopP motif cell x k diamSq lt.2 fuel ((cdistSq x (latticeToCloud motif (matMul cell lt.1))).map (kSmallest k))).bind fun r =>
      .ret (r.map fun rows => rows.map (·.map Real.sqrt))

theorem nearestNeighborsP_eq {D : ℕ} (motif : List (Pt D ℝ)) (cell : Fin D → Pt D ℝ) (x : List (Pt D ℝ)) (k fuel : ℕ) :
    nearestNeighborsP motif cell x k fuel = (batchesP D motif.length k).bind (afterBatches motif cell x k fuel) := rfl

/-- What `AMD` does after the layers have come. -/
noncomputable def amdAfterBatches (fuel : ℕ) (lt : List (List ℤ) × ℕ) : Prog Returned :=
  (afterBatches evenNumbers.motif evenNumbers.cell evenNumbers.motif 3 fuel lt).bind fun r =>
    .ret (.amd (r.bind fun dists => averageColumnsExceptFirst 3 dists ((List.replicate 1 1).map fun n : ℕ => (n : ℝ))))

theorem amd_prog (fuel : ℕ) : (Call.amd 1 evenNumbers 2 fuel).prog = (batchesP 1 1 3).bind (amdAfterBatches fuel) := by
  show (((batchesP 1 1 3).bind (afterBatches evenNumbers.motif evenNumbers.cell evenNumbers.motif 3 fuel)).bind _).bind _ = _
  rw [Prog.bind_assoc, Prog.bind_assoc]
  rfl

theorem race_distances : cdistSq evenNumbers.motif (latticeToCloud evenNumbers.motif (matMul evenNumbers.cell [[-1], [1], [-2], [2], [-3], [3], [-4], [4]])) =
    [[4, 4, 16, 16, 36, 36, 64, 64]] := by
  have e := (nnSim_cast (D := 1) ![![2]]).cdistSq [![0]] (latticeToCloud [![0]] (([![-1], ![1], ![-2], ![2], ![-3], ![3], ![-4], ![4]] : List (Fin 1 → ℤ)).map (latVec ![![2]])))
  rw [← (nnSim_cast (D := 1) ![![2]]).cloud, ← matMul_layerRows] at e
  have e2 : cdistSq (K := ℤ) [![0]] (latticeToCloud [![0]] (([![-1], ![1], ![-2], ![2], ![-3], ![3], ![-4], ![4]] : List (Fin 1 → ℤ)).map (latVec ![![2]]))) =
      [[4, 4, 16, 16, 36, 36, 64, 64]] := by decide
  rw [e2] at e
  refine Eq.trans e ?_
  norm_num

theorem race_sorted : kSmallest 3 ([4, 4, 16, 16, 36, 36, 64, 64] : List ℝ) = [4, 4, 16] := by
  have e := kSmallest_map (fun a : ℤ => (a : ℝ)) Int.cast_strictMono 3 [4, 4, 16, 16, 36, 36, 64, 64]
  have e2 : kSmallest 3 ([4, 4, 16, 16, 36, 36, 64, 64] : List ℤ) = [4, 4, 16] := by decide
  rw [e2] at e
  simpa using e

theorem race_far : ((matMul evenNumbers.cell [[-5], [5]]).filter fun l => nearReal (sqNorm l) (16 : ℝ) 4) = [] := by
  have e := (nnSim_cast (D := 1) ![![2]]).filter_lat [![-5], ![5]] 16 4
  rw [← matMul_layerRows] at e
  have e2 : ([![-5], ![5]] : List (Fin 1 → ℤ)).filter (fun n => nearInt (sqNorm (latVec (K := ℤ) ![![2]] n)) 16 4) = [] := by decide
  rw [e2] at e
  exact_mod_cast e

theorem sqrt_sixteen : √(16 : ℝ) = 4 := by
  rw [show (16 : ℝ) = 4 ^ 2 by norm_num]; exact Real.sqrt_sq (by norm_num)

theorem race_end (fuel : ℕ) : ((amdAfterBatches (fuel + 1) ([[-1], [1], [-2], [2], [-3], [3], [-4], [4]], 4)).run race₃.2).1 = some (.amd (.ok [2, 4])) := by
  have hn : ∃ h', (nextP 4).run race₃.2 = (some [[-5], [5]], h') := ⟨_, Prod.ext race₃_next rfl⟩
  obtain ⟨h', hn⟩ := hn
  unfold amdAfterBatches afterBatches
  simp only [race_distances]
  have e1 : maxE (([[4, 4, 16, 16, 36, 36, 64, 64]] : List (List ℝ)).flatMap (·.take evenNumbers.motif.length)) = .ok 4 := by simp [evenNumbers, maxE]
  have e2 : maxLast ([[4, 4, 16]] : List (List ℝ)) = .ok 16 := by simp [maxLast, maxE]
  rw [e1]
  simp only [List.map_cons, List.map_nil, race_sorted]
  rw [Prog.run_bind, Prog.run_bind, nnLoopP, e2]
  simp only
  rw [run_next hn, race_far]
  simp only [List.isEmpty_nil, if_true, Prog.run, Except.map, Except.bind]
  simp [averageColumnsExceptFirst, addRows, bind, Except.bind, sqrt_four, sqrt_sixteen]

theorem evenNumbers_amd_two {fuel : ℕ} (hf : 20 ≤ fuel) : AMD evenNumbers 2 fuel = .ok [2, 2] := by
  have h : nearestNeighborsSq (K := ℤ) nearInt [![0]] ![![2]] [![0]] 3 20 = .ok [[0, 4, 4]] := by decide
  have h2 := nearestNeighbors_cast _ _ _ _ _ h
  have e : ([[0, 4, 4]] : List (List ℤ)).map (fun r => r.map fun a : ℤ => √(a : ℝ)) = [[0, 2, 2]] := by simp [sqrt_four]
  rw [e] at h2
  have h3 : nearestNeighbors evenNumbers.motif evenNumbers.cell evenNumbers.motif 3 fuel = .ok [[0, 2, 2]] := nearestNeighbors_fuel hf h2
  have hu : evenNumbers.asymUnit = none := rfl
  simp only [AMD, asymPoints, hu, bind, Except.bind, h3]
  simp [averageColumnsExceptFirst, addRows, bind, Except.bind, evenNumbers]

/-- **C99** is false if nothing is in the caches when the threads start: both may get the same new generator before either has called `tee` on it. Two threads ask for the AMD of the even
numbers (2, 2); the second takes the first layer of lattice points from the generator, and the first thread returns (2, 4). -/
theorem C99_false : ∃ c : Call, c.Proper ∧ c.alone = .amd (.ok [2, 2]) ∧ ∃ s, Threads.Runs ⟨{}, [c.prog, c.prog]⟩ s ∧ s.threads[0]? = some (.ret (.amd (.ok [2, 4]))) := by
  refine ⟨.amd 1 evenNumbers 2 20, ⟨Nat.one_pos, by simp [evenNumbers]⟩, by rw [Call.alone, evenNumbers_amd_two (le_refl _)], ?_⟩
  rw [amd_prog]
  have t1 : Prog.Takes (batchesP 1 1 3) {} race₁.1 race₁.2 := Prog.steps_takes 7 _ _
  have t2 : Prog.Takes (batchesP 1 1 3) race₁.2 race₂.1 race₂.2 := Prog.steps_takes 9 _ _
  have t3 : Prog.Takes (race₁.1.bind (amdAfterBatches 20)) race₂.2 (.ret (.amd (.ok [2, 4])))
      ((amdAfterBatches 20 ([[-1], [1], [-2], [2], [-3], [3], [-4], [4]], 4)).run race₃.2).2 := by
    refine Prog.run_takes ?_
    rw [run_next (show race₁.1.run race₂.2 = (some ([[-1], [1], [-2], [2], [-3], [3], [-4], [4]], 4), race₃.2) from Prod.ext race₃_result rfl)]
    exact Prod.ext (race_end 19) rfl
  exact ⟨_, ((t3.runs ((t2.bind _).runs (i := 1) ((t1.bind _).runs (i := 0) .refl rfl) rfl) (i := 0) rfl)), rfl⟩

/-- The two threads can also make each other raise: the first advances the generator while the second is running it. -/
theorem C99_raises : ∃ c : Call, c.Proper ∧ c.alone = .amd (.ok [2, 2]) ∧ ∃ s, Threads.Runs ⟨{}, [c.prog, c.prog]⟩ s ∧ s.threads[0]? = some (.raise .reentered) := by
  refine ⟨.amd 1 evenNumbers 2 20, ⟨Nat.one_pos, by simp [evenNumbers]⟩, by rw [Call.alone, evenNumbers_amd_two (le_refl _)], ?_⟩
  rw [amd_prog]
  have t1 : Prog.Takes (batchesP 1 1 3) {} race₁.1 race₁.2 := Prog.steps_takes 7 _ _
  have t2 : Prog.Takes (batchesP 1 1 3) race₁.2 _ _ := Prog.steps_takes 8 _ _
  have t3 : Prog.Takes race₁.1 ((batchesP 1 1 3).steps 8 race₁.2).2 _ _ := Prog.steps_takes 3 _ _
  have e : (race₁.1.steps 3 ((batchesP 1 1 3).steps 8 race₁.2).2).1 = .raise .reentered := rfl
  rw [e] at t3
  exact ⟨_, (((t3.bind _).runs ((t2.bind _).runs (i := 1) ((t1.bind _).runs (i := 0) .refl rfl) rfl) (i := 0) rfl)), rfl⟩

/-! ### The hypotheses are met -/

/-- After one call of `AMD`, threads may call `AMD` and `PDD` with that `k`, for other sets with one motif point as well. -/
example : ∃ (h : Heap) (handed : List ℕ) (made calls : List Call), CallsMade h handed made ∧ (∀ c ∈ calls, c.Proper ∧ (c ∈ made ∨ ∃ c' ∈ made, c'.alone.IsArray ∧ c'.size = c.size)) ∧
    ∃ s, Threads.Runs ⟨h, calls.map Call.prog⟩ s ∧ s.threads[0]? = some (.ret (.amd (.ok [2, 2]))) ∧ (∃ c ∈ calls, c ∉ made) ∧ calls.length = 3 := by
  have hp : (Call.amd 1 evenNumbers 2 20).Proper := ⟨Nat.one_pos, by simp [evenNumbers]⟩
  have hp' : (Call.pdd 1 evenNumbers 2 true true 0 20).Proper := ⟨Nat.one_pos, by simp [evenNumbers]⟩
  have ha : (Call.amd 1 evenNumbers 2 20).alone = .amd (.ok [2, 2]) := by rw [Call.alone, evenNumbers_amd_two (le_refl _)]
  obtain ⟨h, e, hg, -⟩ := call_run hp good_empty
  obtain ⟨h', e', -⟩ := call_run hp hg
  have hmade : CallsMade h [] [.amd 1 evenNumbers 2 20] := .call _ .init hp e
  refine ⟨h, [], _, [.amd 1 evenNumbers 2 20, .pdd 1 evenNumbers 2 true true 0 20, .amd 1 evenNumbers 2 20], hmade, ?_, ?_⟩
  · intro c hc
    simp only [List.mem_cons, List.not_mem_nil, or_false] at hc
    rcases hc with rfl | rfl | rfl
    · exact ⟨hp, .inl (by simp)⟩
    · exact ⟨hp', .inr ⟨_, List.mem_singleton.2 rfl, by rw [ha]; exact ⟨_, rfl⟩, rfl⟩⟩
    · exact ⟨hp, .inl (by simp)⟩
  · refine ⟨_, (Prog.run_takes e').runs (i := 0) .refl rfl, by rw [ha]; rfl, ⟨_, List.mem_cons_of_mem _ (List.mem_cons_self ..), by simp⟩, rfl⟩

end Amd
