import Verif.Props.CliTol
import Verif.Props.CommandLineExample

/-! # Examples for C112 -/

namespace Amd

open Classical

theorem paths_operands : ∀ p ∈ ["a.cif", "b.cif"], Operand p := by
  intro p hp
  refine Or.inl ?_
  revert p
  decide +kernel

/-- `amd --remove_h --collapse_tol=-Inf a.cif b.cif --by=PDD`. -/
theorem tol_line : WrittenTol [.inl .removeHydrogens, .inr .negInf, .inl (.by_ "PDD")] ["a.cif", "b.cif"] ["--remove_h", "--collapse_tol=-Inf", "a.cif", "b.cif", "--by=PDD"] := by
  refine .inl ⟨[.inl .removeHydrogens, .inr .negInf], [.inl (.by_ "PDD")], ["--remove_h"] ++ (["--collapse_tol" ++ "=" ++ "-Inf"] ++ []), ["--by" ++ "=" ++ "PDD"] ++ [], rfl, ?_, ?_, paths_operands,
    by simp, by decide +kernel⟩
  · refine .plain (s := .removeHydrogens) (v := none) rfl (.flag "--remove_h" ⟨by decide +kernel, by decide +kernel, by decide +kernel⟩) ?_
    refine .tol (v := "-Inf") ?_ (.joined "--collapse_tol" "-Inf" (abbreviates_long ⟨_, by decide, rfl⟩) (by decide)) .nil
    have := SpecialFloat.negInf ['I', 'n', 'f'] (Or.inl (by decide))
    rwa [show String.ofList ['-', 'I', 'n', 'f'] = "-Inf" by decide +kernel] at this
  · exact .plain (s := .by_ "PDD") (v := some "PDD") ⟨rfl, by simp⟩ (.joined "--by" "PDD" (abbreviates_long ⟨_, by decide, rfl⟩) (by decide)) .nil

/-- C112_pdd_two_partial: the command writes a matrix. -/
example : ∃ (M : List (List ℝ)) (F : ℕ), ∀ fuel ≥ F, cliRunTol cifEnv (fun f => f == "csv") ["--remove_h", "--collapse_tol=-Inf", "a.cif", "b.cif", "--by=PDD"] fuel =
    .ok { frame := .matrix ["screw"] ["image"] M, path := (settingsArgs [.removeHydrogens, .by_ "PDD"] ["a.cif", "b.cif"]).output, format := "csv" } := by
  obtain ⟨M, f, F, hM, h1, h2⟩ := C112_pdd_two_partial (formats := fun f => f == "csv") tol_line (by decide) rfl (Or.inr rfl) (B := exampleBackends) (w := ⟨[], []⟩) (env := cifEnv)
    ⟨rfl, rfl, (fun x hx => (by cases hx)), Or.inl rfl⟩ exampleEnv_sound.sched rfl rfl rfl
    (holds_a (reader := "gemmi") (by simp)) (holds_b (reader := "gemmi") (by simp)) (by simpa using screw_proper) (by simpa using image_proper) (by simp) (by simp)
  exact ⟨M, F, h1⟩

/-- `amd a.cif --remove_hydrogens --by=PDD --collapse_tol infinity --collapse_tol nan`. -/
theorem nan_line : WrittenTol [.inl .removeHydrogens, .inl (.by_ "PDD"), .inr .inf, .inr .nan] ["a.cif"]
    ["a.cif", "--remove_hydrogens", "--by=PDD", "--collapse_tol", "infinity", "--collapse_tol", "nan"] := by
  refine .inl ⟨[], [.inl .removeHydrogens, .inl (.by_ "PDD"), .inr .inf, .inr .nan], [],
    ["--remove_hydrogens"] ++ (["--by" ++ "=" ++ "PDD"] ++ (["--collapse_tol", "infinity"] ++ (["--collapse_tol", "nan"] ++ []))), rfl, .nil, ?_,
    (fun p hp => paths_operands p (by rw [List.mem_singleton.1 hp]; simp)), by simp, by decide +kernel⟩
  refine .plain (s := .removeHydrogens) (v := none) rfl (.flag "--remove_hydrogens" (abbreviates_long ⟨_, by decide, rfl⟩)) ?_
  refine .plain (s := .by_ "PDD") (v := some "PDD") ⟨rfl, by simp⟩ (.joined "--by" "PDD" (abbreviates_long ⟨_, by decide, rfl⟩) (by decide)) ?_
  refine .tol (v := "infinity") ?_ (.separate "--collapse_tol" "infinity" (abbreviates_long ⟨_, by decide, rfl⟩) (Or.inl (by decide +kernel))) ?_
  · have := SpecialFloat.inf .none "infinity".toList (by simp) (Or.inr (by decide +kernel))
    rwa [show String.ofList (Sign.none.text ++ "infinity".toList) = "infinity" by decide +kernel] at this
  refine .tol (v := "nan") ?_ (.separate "--collapse_tol" "nan" (abbreviates_long ⟨_, by decide, rfl⟩) (Or.inl (by decide +kernel))) .nil
  have := SpecialFloat.nan .none "nan".toList (by decide +kernel)
  rwa [show String.ofList (Sign.none.text ++ "nan".toList) = "nan" by decide +kernel] at this

/-- C112_pdd_partial: the last tolerance counts. -/
example : ∃ (M : List (List ℝ)) (F : ℕ), ∀ fuel ≥ F, cliRunTol cifEnv (fun f => f == "csv")
      ["a.cif", "--remove_hydrogens", "--by=PDD", "--collapse_tol", "infinity", "--collapse_tol", "nan"] fuel =
    .ok { frame := .matrix ["screw"] ["screw"] M, path := (settingsArgs [.removeHydrogens, .by_ "PDD"] ["a.cif"]).output, format := "csv" } := by
  obtain ⟨M, f, F, hM, h1, h2⟩ := C112_pdd_partial (formats := fun f => f == "csv") nan_line (by decide) rfl (Or.inl rfl) (B := exampleBackends) (w := ⟨[], []⟩) (env := cifEnv)
    ⟨rfl, rfl, (fun x hx => (by cases hx)), Or.inl rfl⟩ exampleEnv_sound.sched rfl rfl rfl
    (holds_a (reader := "gemmi") (by simp)) (by simpa using screw_proper) (by simp)
  exact ⟨M, F, h1⟩

/-- C112_number: the example of C95. -/
example : ∃ (M : List (List ℝ)) (F : ℕ), ∀ fuel ≥ F, cliRunTol cifEnv (fun f => f == "csv") ["a.cif", "--remove_hydrogens"] fuel =
    .ok { frame := .matrix ["screw"] ["screw"] M, path := (settingsArgs [.removeHydrogens] ["a.cif"]).output, format := "csv" } := by
  obtain ⟨M, f, F, hM, h1, h2⟩ := C95_amd_partial (formats := fun f => f == "csv") line_one rfl (B := exampleBackends) (w := ⟨[], []⟩) (env := cifEnv)
    ⟨rfl, rfl, (fun x hx => (by cases hx)), Or.inl rfl⟩ rfl (by norm_num [settingsArgs, Setting.apply]) rfl rfl
    (holds_a (reader := "gemmi") (by simp)) (by simpa using screw_proper) (by simp)
  exact ⟨M, F, fun fuel hf => by rw [C112_number (by rw [h1 fuel hf]; simp)]; exact h1 fuel hf⟩

/-- C112_negative: `amd data.cif --collapse_tol nan -k -5`. -/
example : ∃ (e : CErr) (F : ℕ), ∀ fuel ≥ F, cliRunTol exampleEnv (fun f => f == "csv") ["data.cif", "--collapse_tol", "nan", "-k", "-5"] fuel = .error (.raised e) := by
  have hn : SpecialFloat "nan" .nan := by
    have := SpecialFloat.nan .none "nan".toList (by decide +kernel)
    rwa [show String.ofList (Sign.none.text ++ "nan".toList) = "nan" by decide +kernel] at this
  have hw : WrittenTol [.inr .nan, .inl (.k (-5))] ["data.cif"] ["data.cif", "--collapse_tol", "nan", "-k", "-5"] :=
    .inl ⟨[], [.inr .nan, .inl (.k (-5))], [], ["--collapse_tol", "nan"] ++ (["-k", "-5"] ++ []), rfl, .nil,
      .tol hn (.separate "--collapse_tol" "nan" (abbreviates_long ⟨_, by decide, rfl⟩) (Or.inl (by decide +kernel)))
        (.plain (s := .k (-5)) (v := some "-5") ⟨_, rfl, .minus, [5], by simp, by decide +kernel, by decide +kernel⟩ (.shortSeparate "-k" "-5" rfl (Or.inr ⟨[5], by simp, by decide +kernel⟩)) .nil),
      (by intro p hp; rw [List.mem_singleton.1 hp]; exact Or.inl (by decide +kernel)), by simp, rfl⟩
  refine C112_negative hw (by decide) rfl ?_
  intro p hp cs hc
  rw [List.mem_singleton.1 hp] at hc
  have : cs = exampleCrystals := by
    have e := example_inputs (routeKwargs (settingsArgs [.k (-5)] ["data.cif"]).verbose (settingsArgs [.k (-5)] ["data.cif"]).kwargs)
    exact (Except.ok.inj (e.symm.trans hc)).symm
  subst this
  exact exampleCrystals_valid

end Amd
