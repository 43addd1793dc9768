import Verif.Props.CommandLine
import Verif.Props.CifCompareExample

/-!
# Examples of command lines
-/

namespace Amd

open Classical

theorem abbreviates_long {long : String} (h : ∃ l ∈ longNames, l = long) : Abbreviates long long := by
  obtain ⟨l, hl, rfl⟩ := h
  have : ∀ l ∈ longNames, 2 < l.toList.length ∧ l.toList <+: l.toList ∧ ∀ l' ∈ longNames, l.toList <+: l'.toList → l' = l := by decide +kernel
  exact this l hl

theorem writes_50 : WritesInt "50" 50 := ⟨.none, [5, 0], by simp, by decide +kernel, by decide +kernel⟩

/-- The options of `amd --remove_h a.cif b.cif -k50 --by=AMD`. -/
def exampleSettings (b : String) : List Setting := [.removeHydrogens, .k 50, .by_ b]

/-- `amd --remove_h a.cif b.cif -k50 --by=AMD` means what one expects. -/
theorem example_line {b : String} (hb : b ∈ ["AMD", "PDD"]) : CommandLine (exampleSettings b) ["a.cif", "b.cif"] ["--remove_h", "a.cif", "b.cif", "-k50", "--by" ++ "=" ++ b] := by
  refine ⟨.inl ⟨[.removeHydrogens], [.k 50, .by_ b], ["--remove_h"], ["-k50", "--by" ++ "=" ++ b], rfl, ?_, ?_, ?_, by simp, rfl⟩, by simp [settingsK, exampleSettings]⟩
  · exact .cons (s := .removeHydrogens) (v := none) rfl (.flag "--remove_h" ⟨by decide +kernel, by decide +kernel, by decide +kernel⟩) .nil
  · have e : "-k50" = "-k" ++ "50" := by decide +kernel
    rw [e]
    refine .cons (s := .k 50) (v := some "50") ⟨_, rfl, writes_50⟩ (.shortJoined "-k" "50" rfl (by decide) (by decide +kernel) (by decide)) ?_
    exact .cons (s := .by_ b) (v := some b) ⟨rfl, hb⟩ (.joined "--by" b (abbreviates_long ⟨_, by decide, rfl⟩) (by rintro rfl; simp at hb)) .nil
  · intro p hp
    refine Or.inl ?_
    revert p
    decide +kernel

theorem example_runs (b : String) : RunsWith cifEnv exampleBackends ⟨[], []⟩ (settingsArgs (exampleSettings b) ["a.cif", "b.cif"]) :=
  ⟨rfl, rfl, (fun x hx => (by cases hx)), Or.inl rfl⟩

/-- It writes a matrix with a zero to `a.cif-b.cif...csv`. -/
example : ∃ F, ∀ fuel ≥ F, cliRun cifEnv (fun f => f == "csv") ["--remove_h", "a.cif", "b.cif", "-k50", "--by=AMD"] fuel =
    .ok { frame := .matrix ["screw"] ["image"] [[0]], path := (settingsArgs (exampleSettings "AMD") ["a.cif", "b.cif"]).output, format := "csv" } := by
  obtain ⟨M, f, F, hM, h1, h2⟩ := C95_amd_two_partial (formats := fun f => f == "csv") (example_line (b := "AMD") (by simp)) rfl (example_runs _) rfl (by norm_num [settingsArgs, exampleSettings, Setting.apply]) rfl rfl
    (holds_a (reader := "gemmi") (by simp)) (holds_b (reader := "gemmi") (by simp)) (by simpa using screw_proper) (by simpa using image_proper) (by simp) (by simp)
  have h0 := (h2 0 0 (by simp) (by simp) (screw_shaped rfl _) (screw_shaped rfl _)).2 screw_same
  have hM0 : M = [[0]] := by
    obtain ⟨m1, m2, m3⟩ := hM
    have m3 := m3 0 0 (by simp) (by simp)
    obtain ⟨r, rfl⟩ := List.length_eq_one_iff.1 m1
    obtain ⟨x, rfl⟩ := List.length_eq_one_iff.1 (m2 r (by simp))
    rw [h0] at m3
    simp at m3
    rw [m3]
  refine ⟨F, fun fuel hf => ?_⟩
  have := h1 fuel hf
  rw [hM0] at this
  exact this

/-- By PDD the hypotheses hold as well. -/
example : ∃ (M : List (List ℝ)) (F : ℕ), ∀ fuel ≥ F, cliRun cifEnv (fun f => f == "csv") ["--remove_h", "a.cif", "b.cif", "-k50", "--by=PDD"] fuel =
    .ok { frame := .matrix ["screw"] ["image"] M, path := (settingsArgs (exampleSettings "PDD") ["a.cif", "b.cif"]).output, format := "csv" } := by
  obtain ⟨M, f, F, hM, h1, h2⟩ := C95_pdd_two_partial (formats := fun f => f == "csv") (example_line (b := "PDD") (by simp)) rfl (example_runs _) exampleEnv_sound.sched rfl
    (by norm_num [settingsArgs, exampleSettings, Setting.apply]) rfl rfl
    (holds_a (reader := "gemmi") (by simp)) (holds_b (reader := "gemmi") (by simp)) (by simpa using screw_proper) (by simpa using image_proper) (by simp) (by simp)
  exact ⟨M, F, h1⟩

/-- `amd a.cif --remove_hydrogens`, with one path. -/
theorem line_one : CommandLine [.removeHydrogens] ["a.cif"] ["a.cif", "--remove_hydrogens"] :=
  ⟨.inl ⟨[], [.removeHydrogens], [], ["--remove_hydrogens"], rfl, .nil,
    .cons (s := .removeHydrogens) (v := none) (l' := []) rfl (.flag "--remove_hydrogens" (abbreviates_long ⟨_, by decide, rfl⟩)) .nil,
    (by intro p hp; rw [List.mem_singleton.1 hp]; exact Or.inl (by decide +kernel)), by simp, rfl⟩, by decide⟩

/-- It writes the matrix of one crystal. -/
example : ∃ (M : List (List ℝ)) (F : ℕ), ∀ fuel ≥ F, cliRun cifEnv (fun f => f == "csv") ["a.cif", "--remove_hydrogens"] fuel =
    .ok { frame := .matrix ["screw"] ["screw"] M, path := (settingsArgs [.removeHydrogens] ["a.cif"]).output, format := "csv" } := by
  obtain ⟨M, f, F, hM, h1, h2⟩ := C95_amd_partial (formats := fun f => f == "csv") line_one rfl (B := exampleBackends) (w := ⟨[], []⟩) (env := cifEnv)
    ⟨rfl, rfl, (fun x hx => (by cases hx)), Or.inl rfl⟩ rfl (by norm_num [settingsArgs, Setting.apply]) rfl rfl
    (holds_a (reader := "gemmi") (by simp)) (by simpa using screw_proper) (by simp)
  exact ⟨M, F, h1⟩

/-- `amd a.cif --k 50 b.cif` exits. -/
example (env : Env) (formats : String → Bool) (fuel : ℕ) : cliRun env formats ["a.cif", "--k", "50", "b.cif"] fuel = .error .exit := by
  have h : Options [.k 50] (["--k", "50"] ++ []) := .cons (s := .k 50) (v := some "50") ⟨_, rfl, writes_50⟩ (.separate "--k" "50" (abbreviates_long ⟨_, by decide, rfl⟩) (Or.inl (by decide +kernel))) .nil
  have o : ∀ p ∈ ["a.cif", "b.cif"], Operand p := by
    intro p hp
    refine Or.inl ?_
    revert p
    decide +kernel
  exact C95_separated .nil h .nil (ps := ["a.cif"]) (ps' := ["b.cif"]) (by simpa using o "a.cif" (by simp)) (by simpa using o "b.cif" (by simp)) (by simp) (by simp) (by simp)

/-- `--n_neighbors 3`, the name of the parameter of `compare`, is not an option of the command. -/
example (env : Env) (formats : String → Bool) (fuel : ℕ) : cliRun env formats ["a.cif", "--n_neighbors", "3"] fuel = .error .exit :=
  C95_unknown_partial (s := "--n_neighbors") (l := ["a.cif"]) (r := ["3"])
    ⟨"--n_neighbors".toList, by decide +kernel, by decide +kernel, by decide +kernel, by decide +kernel, Or.inl rfl, by decide +kernel⟩ (by decide) (by decide +kernel)

/-- The same with `--` behind it. -/
example (env : Env) (formats : String → Bool) (fuel : ℕ) : cliRun env formats ["a.cif", "--n_neighbors", "--", "3"] fuel = .error .exit :=
  C95_unknown_partial (s := "--n_neighbors") (l := ["a.cif"]) (r := ["--", "3"])
    ⟨"--n_neighbors".toList, by decide +kernel, by decide +kernel, by decide +kernel, by decide +kernel, Or.inl rfl, by decide +kernel⟩ (by decide) (by decide +kernel)

/-- `amd --verbose a.cif -- -b.cif`: a path may begin with a dash behind `--`. -/
example : CommandLine [.verbose] ["a.cif", "-b.cif"] ["--verbose", "a.cif", "--", "-b.cif"] :=
  ⟨.inr ⟨["--verbose"], ["a.cif"], ["-b.cif"], .cons (s := .verbose) (v := none) (l' := []) rfl (.flag "--verbose" (abbreviates_long ⟨_, by decide, rfl⟩)) .nil,
    (by intro p hp; rw [List.mem_singleton.1 hp]; exact Or.inl (by decide +kernel)), rfl, by simp, rfl⟩, by decide⟩

/-- `amd a.cif --verbose -- b.cif` exits. -/
example (env : Env) (formats : String → Bool) (fuel : ℕ) : cliRun env formats ["a.cif", "--verbose", "--", "b.cif"] fuel = .error .exit :=
  (C95_separator (l := []) (ps := ["a.cif"]) (l' := ["--verbose"]) (qs := ["b.cif"]) .nil
    (.cons (s := .verbose) (v := none) (l' := []) rfl (.flag "--verbose" (abbreviates_long ⟨_, by decide, rfl⟩)) .nil)
    (by intro p hp; rw [List.mem_singleton.1 hp]; exact Or.inl (by decide +kernel)) (by simp) (by simp)).1

/-- `amd data.cif -k -5` raises an exception; the file can be read. -/
example : ∃ (e : CErr) (F : ℕ), ∀ fuel ≥ F, cliRun exampleEnv (fun f => f == "csv") ["data.cif", "-k", "-5"] fuel = .error (.raised e) := by
  have hw : Written [.k (-5)] ["data.cif"] ["data.cif", "-k", "-5"] :=
    .inl ⟨[], [.k (-5)], [], ["-k", "-5"], rfl, .nil, .cons (s := .k (-5)) (v := some "-5") (l' := []) ⟨_, rfl, .minus, [5], by simp, by decide +kernel, by decide +kernel⟩
      (.shortSeparate "-k" "-5" rfl (Or.inr ⟨[5], by simp, by decide +kernel⟩)) .nil, (by intro p hp; rw [List.mem_singleton.1 hp]; exact Or.inl (by decide +kernel)), by simp, rfl⟩
  refine C95_negative hw (by decide) rfl ?_
  intro p hp cs hc
  rw [List.mem_singleton.1 hp] at hc
  have : cs = exampleCrystals := by
    have e := example_inputs (routeKwargs (settingsArgs [.k (-5)] ["data.cif"]).verbose (settingsArgs [.k (-5)] ["data.cif"]).kwargs)
    exact (Except.ok.inj (e.symm.trans hc)).symm
  subst this
  exact exampleCrystals_valid

/-- `--by pdd` is refused: the choices are in upper case. -/
example (env : Env) (formats : String → Bool) (fuel : ℕ) : cliRun env formats ["a.cif", "--by", "pdd", "--k", "3"] fuel = .error .exit :=
  C95_refused (l := []) (ps := ["a.cif"]) (bad := ["--by", "pdd"]) (rest := ["--k", "3"]) .nil
    (by intro p hp; rw [List.mem_singleton.1 hp]; exact Or.inl (by decide +kernel)) (Or.inl ⟨rfl, by decide⟩)
    (.separate "--by" "pdd" (abbreviates_long ⟨_, by decide, rfl⟩) (Or.inl (by decide +kernel)))

/-- `--k 3.5` is refused. -/
example : Refused "--k" "3.5" := Or.inr (Or.inr (Or.inr ⟨by decide, '.', by decide +kernel, by decide +kernel⟩))

end Amd
