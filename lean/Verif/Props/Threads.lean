import Verif.Proof.ThreadsSafe
import Verif.Spec.Threads

/-! # AMD and PDD from several threads: C99 -/

namespace Amd

/-- What a call leaves behind. -/
def Call.ReadyIn (h : Heap) : Call → Prop
  | .amd _ S k fuel => Ready h S k fuel
  | .pdd _ S k _ _ _ fuel => Ready h S k fuel

theorem Call.ReadyIn.later {h h' : Heap} {c : Call} (hr : c.ReadyIn h) (hl : Later h h') : c.ReadyIn h' := by
  cases c with
  | amd D S k fuel => exact Ready.later hr hl
  | pdd D S k lexsort collapse tol fuel => exact Ready.later hr hl

theorem call_run {c : Call} (hc : c.Proper) {h : Heap} (hg : Good h) : ∃ h', c.prog.run h = (some c.alone, h') ∧ Good h' ∧ Later h h' ∧ c.ReadyIn h' := by
  cases c with
  | amd D S k fuel =>
    obtain ⟨h', h1, h2, h3, h4⟩ := amd_run hc.1 hc.2 k fuel hg
    exact ⟨h', by rw [Call.prog, run_next h1]; rfl, h2, h3, h4⟩
  | pdd D S k lexsort collapse tol fuel =>
    obtain ⟨h', h1, h2, h3, h4⟩ := pdd_run hc.1 hc.2 k lexsort collapse tol fuel hg
    exact ⟨h', by rw [Call.prog, run_next h1]; rfl, h2, h3, h4⟩

theorem CallsMade.good {h : Heap} {handed : List ℕ} {made : List Call} (hm : CallsMade h handed made) :
    Good h ∧ (∀ t ∈ handed, FreeTee h t ∧ ∃ d p, TeeAt h t d p) ∧ ∀ c ∈ made, c.Proper ∧ c.ReadyIn h := by
  have keep : ∀ {h h' : Heap} {handed : List ℕ} {made : List Call}, Later h h' → (∀ t ∈ handed, FreeTee h t ∧ ∃ d p, TeeAt h t d p) → (∀ c ∈ made, c.Proper ∧ c.ReadyIn h) →
      (∀ t ∈ handed, FreeTee h' t ∧ ∃ d p, TeeAt h' t d p) ∧ ∀ c ∈ made, c.Proper ∧ c.ReadyIn h' := by
    intro h h' handed made hl h1 h2
    refine ⟨?_, fun c hc => ⟨(h2 c hc).1, (h2 c hc).2.later hl⟩⟩
    intro t ht
    obtain ⟨hf, d, p, ha⟩ := h1 t ht
    obtain ⟨hf', p', ha'⟩ := hl.free t d p hf ha
    exact ⟨hf', d, p', ha'⟩
  induction hm with
  | init => exact ⟨good_empty, by simp, by simp⟩
  | call c _ hc hr ih =>
    obtain ⟨h', h1, h2, h3, h4⟩ := call_run hc ih.1
    rw [h1] at hr
    obtain ⟨-, rfl⟩ := Prod.mk.inj hr
    obtain ⟨k1, k2⟩ := keep h3 ih.2.1 ih.2.2
    refine ⟨h2, k1, ?_⟩
    intro c' hc'
    rcases List.mem_cons.1 hc' with rfl | hc'
    · exact ⟨hc, h4⟩
    · exact k2 c' hc'
  | @generator h h' handed made dims t _ hr ih =>
    obtain ⟨t', h'', h1, h2, h3, h4, h5, -⟩ := generator_run ih.1 dims
    rw [h1] at hr
    obtain ⟨e1, rfl⟩ := Prod.mk.inj hr
    obtain rfl := Option.some.inj e1
    obtain ⟨k1, k2⟩ := keep h3 ih.2.1 ih.2.2
    refine ⟨h2, ?_, k2⟩
    intro u hu
    rcases List.mem_cons.1 hu with rfl | hu
    · exact ⟨h4, _, _, h5⟩
    · exact k1 u hu
  | next _ ht hr ih =>
    obtain ⟨hf, d, p, ha⟩ := ih.2.1 _ ht
    obtain ⟨h'', h1, h2, h3, -⟩ := next_good ih.1 hf ha
    rw [h1] at hr
    obtain ⟨-, rfl⟩ := Prod.mk.inj hr
    obtain ⟨k1, k2⟩ := keep h3 ih.2.1 ih.2.2
    exact ⟨h2, k1, k2⟩

/-- **C99** One call after the other, whatever was called before: each returns what it would return in a fresh process. (This is C11 for the finer model with
generator objects and the objects of `tee`.) -/
theorem C99_sequential {h : Heap} {handed : List ℕ} {made : List Call} (hm : CallsMade h handed made) {c : Call} (hc : c.Proper) : (c.prog.run h).1 = some c.alone := by
  obtain ⟨h', h1, -⟩ := call_run hc hm.good.1
  rw [h1]

/-- The key of the cache depends on the size only. -/
theorem served {h : Heap} {c c' : Call} (hr : c'.ReadyIn h) (ha : c'.alone.IsArray) (hs : c'.size = c.size) : h.batch (c.size.1, numLayers c.size.1 c.size.2.1 (c.size.2.2 + 1)) ≠ none := by
  rw [← hs]
  have key : ∀ {D : ℕ} {S : PeriodicSet D} {k fuel : ℕ}, Ready h S k fuel → (∃ xm, asymPoints S = .ok xm) → h.batch (D, numLayers D S.motif.length (k + 1)) ≠ none := by
    rintro D S k fuel hr ⟨xm, e⟩
    unfold Ready at hr
    rw [e] at hr
    exact hr.1
  cases c' with
  | amd D S k fuel =>
    refine key hr ?_
    obtain ⟨a, e⟩ := ha
    unfold AMD at e
    cases hx : asymPoints S with
    | error e' => rw [hx] at e; cases e
    | ok xm => exact ⟨xm, hx⟩
  | pdd D S k lexsort collapse tol fuel =>
    refine key hr ?_
    obtain ⟨a, e⟩ := ha
    unfold PDD at e
    cases hx : asymPoints S with
    | error e' => rw [hx] at e; cases e
    | ok xm => exact ⟨xm, hx⟩

theorem ready_served {D : ℕ} {h : Heap} {S : PeriodicSet D} {k fuel : ℕ} (hr : Ready h S k fuel) :
    ∀ xm, asymPoints S = .ok xm → h.batch (D, numLayers D S.motif.length (k + 1)) ≠ none := by
  intro xm e
  unfold Ready at hr
  rw [e] at hr
  exact hr.1

/-- A call can be made from a thread once a call of that size has been made. -/
theorem safe_call {h : Heap} {handed : List ℕ} {made : List Call} (hm : CallsMade h handed made) {c : Call} (hp : c.Proper)
    (hw : c ∈ made ∨ ∃ c' ∈ made, c'.alone.IsArray ∧ c'.size = c.size) : Safe h (c ∉ made) (fun r _ => r = c.alone) .nothing c.prog := by
  obtain ⟨hg, -, hr⟩ := hm.good
  have hA : c ∉ made ∨ c.ReadyIn h := by
    by_cases hc : c ∈ made
    · exact .inr (hr c hc).2
    · exact .inl hc
  cases c with
  | amd D S k fuel =>
    refine safe_bind (safe_amd hg hp.1 hp.2 k fuel ?_ hA) ?_
    · rcases hw with hc | ⟨c', h1, h2, h3⟩
      · exact ready_served (hr _ hc).2
      · exact fun _ _ => served (hr c' h1).2 h2 h3
    · rintro r c rfl
      rfl
  | pdd D S k lexsort collapse tol fuel =>
    refine safe_bind (safe_pdd hg hp.1 hp.2 k lexsort collapse tol fuel ?_ hA) ?_
    · rcases hw with hc | ⟨c', h1, h2, h3⟩
      · exact ready_served (hr _ hc).2
      · exact fun _ _ => served (hr c' h1).2 h2 h3
    · rintro r c rfl
      rfl

theorem threads_safe {h : Heap} {handed : List ℕ} {made calls : List Call} (hm : CallsMade h handed made)
    (hw : ∀ c ∈ calls, c.Proper ∧ (c ∈ made ∨ ∃ c' ∈ made, c'.alone.IsArray ∧ c'.size = c.size)) :
    AllSafe h (fun i => ∀ c, calls[i]? = some c → c ∉ made) (fun i r => ∀ c, calls[i]? = some c → r = c.alone) ⟨h, calls.map Call.prog⟩ := by
  refine ⟨⟨⟨rfl, rfl, rfl⟩, hm.good.1.objects, le_refl _, fun _ _ _ _ ha => ha, fun _ o ho => ⟨o, ho, rfl, le_refl _⟩⟩, fun _ => .nothing, ?_, fun _ _ _ _ _ => ⟨fun _ e => (by cases e), fun _ e => (by cases e)⟩⟩
  intro i p hp
  simp only [List.getElem?_map, Option.map_eq_some_iff] at hp
  obtain ⟨c, hc, rfl⟩ := hp
  obtain ⟨h1, h2⟩ := hw c (List.mem_of_getElem? hc)
  refine ⟨trivial, ?_⟩
  have hs := safe_call hm h1 h2
  simp only [hc, Option.some.injEq, forall_eq']
  exact hs

/-- **C99, partial** Several threads, in any interleaving of their steps: suppose that before they start, calls were made one after the other, and for each thread's call a call with
the same dimension, number of motif points and `k` was among them. Then a thread that returns, returns what it would return in a fresh process; and a thread that raises, raises because
two threads advance the same generator. Missing: threads that start with nothing in the caches (`C99_false`). -/
theorem C99_warm_partial {h : Heap} {handed : List ℕ} {made calls : List Call} (hm : CallsMade h handed made)
    (hw : ∀ c ∈ calls, c.Proper ∧ (c ∈ made ∨ ∃ c' ∈ made, c'.alone.IsArray ∧ c'.size = c.size)) {s : Threads} (hs : Threads.Runs ⟨h, calls.map Call.prog⟩ s) {i : ℕ} {c : Call}
    (hc : calls[i]? = some c) : (∀ r, s.threads[i]? = some (.ret r) → r = c.alone) ∧ ∀ e, s.threads[i]? = some (.raise e) → e = .reentered := by
  obtain ⟨-, claims, h1, -⟩ := (threads_safe hm hw).runs hs
  exact ⟨fun r hr => (h1 i _ hr).2 c hc, fun e he => (h1 i _ he).2.1⟩

/-- **C99, partial** In the same situation: a thread whose call (the same periodic set, the same arguments) was made before does not raise, whatever the others do. -/
theorem C99_repeated_partial {h : Heap} {handed : List ℕ} {made calls : List Call} (hm : CallsMade h handed made)
    (hw : ∀ c ∈ calls, c.Proper ∧ (c ∈ made ∨ ∃ c' ∈ made, c'.alone.IsArray ∧ c'.size = c.size)) {s : Threads} (hs : Threads.Runs ⟨h, calls.map Call.prog⟩ s) {i : ℕ} {c : Call}
    (hc : calls[i]? = some c) (hmade : c ∈ made) (e : Stop) : s.threads[i]? ≠ some (.raise e) := by
  obtain ⟨-, claims, h1, -⟩ := (threads_safe hm hw).runs hs
  intro he
  exact (h1 i _ he).2.2 c hc hmade

end Amd
