import Verif.Props.Settings
import Verif.Props.SolverCases

/-!
# Cases for C107

The network of the cases of C56: it has a group with factors changing in time, and a licence.
-/

namespace Verif.Settings.Cases

open Verif.Settings
open Verif.Solver (caseM)

/-- All solvers are there. -/
def all (_ : Solver) : Bool := true

/-- Four threads. -/
def four : Dict := [("parallel", .bool true), ("threads", .int 4)]

theorem four_fits : Fits .clp four := by
  intro p hp
  simp only [four, List.mem_cons, List.not_mem_nil, or_false] at hp
  rcases hp with rfl | rfl
  · exact .inr (.inl ⟨rfl, true, rfl⟩)
  · exact .inl ⟨rfl, 4, .int 4 (by decide)⟩

/-- The case: Clp runs with four threads, from Python and from the command line. -/
example : (∃ r d', runPy all "clp" four caseM = (.ok r, d')) ∧ runPy all "clp" four caseM = (.ok ⟨.clp, .pool 4⟩, []) ∧
    runCli .clp 4 false caseM = .ok ⟨.clp, .pool 4⟩ :=
  ⟨(C107_python all "clp" four caseM (by decide) (by decide)).2
    ⟨.clp, .clp, rfl, four_fits, .inr Verif.Solver.caseM_exclusivity⟩, by decide +kernel, by decide +kernel⟩

/-- Cbc cannot do factors that change in time; from the command line it can be told to try. -/
example : ¬ Takes .cbc caseM ∧ runCli .cbc 1 false caseM = .error .missingFeatures ∧ runCli .cbc 1 true caseM = .ok ⟨.cbc, .caller⟩ ∧
    runPy all "cbc" [] caseM = (.error .missingFeatures, []) := by
  refine ⟨?_, by decide +kernel, by decide +kernel, by decide +kernel⟩
  intro h
  have := (C107_cli .cbc 1 false caseM).1.2 (.inr h)
  obtain ⟨r, hr⟩ := this
  have e : runCli .cbc 1 false caseM = .error .missingFeatures := by decide +kernel
  rw [e] at hr
  cases hr

/-- **C107, refuted for a second run with the same dictionary.** The first run takes the entries out of the dictionary of the caller; the
second, given the same dictionary, is not parallel. -/
theorem C107_again_refuted : ∃ built name d M r r' d' d'', (d.map Prod.fst).Nodup ∧ runPy built name d M = (.ok r, d') ∧
    runPy built name d' M = (.ok r', d'') ∧ r' ≠ r :=
  ⟨all, "clp", four, caseM, ⟨.clp, .pool 4⟩, ⟨.clp, .caller⟩, [], [], by decide, by decide +kernel, by decide +kernel, by decide⟩

/-- **C107, refuted for requirements to be ignored.** What the command line can tell Cbc, Clp and HiGHS, Python cannot. -/
theorem C107_ignore_refuted : ∃ s name M r, Named name s ∧ runCli s 1 true M = .ok r ∧
    (runPy (fun _ => true) name [("ignore_feature_requirements", .bool true)] M).1 = .error .unknownArguments :=
  ⟨.cbc, "cbc", caseM, ⟨.cbc, .caller⟩, .cbc, by decide +kernel, by decide +kernel⟩

/-- **C107, refuted for threads alone.** Four threads asked for from the command line are four; in Python they are none without
`parallel`. -/
theorem C107_threads_refuted : ∃ s name M, Named name s ∧ runCli s 4 false M = .ok ⟨s, .pool 4⟩ ∧
    runPy (fun _ => true) name [("threads", .int 4)] M = (.ok ⟨s, .caller⟩, []) :=
  ⟨.clp, "clp", caseM, .clp, by decide +kernel, by decide +kernel⟩

/-- **C107, refuted for runs of several networks.** The command `run-multi` takes a number of threads and does not use it. -/
theorem C107_multi_refuted : ∃ s M, runCli s 4 false M = .ok ⟨s, .pool 4⟩ ∧ runMultiCli s 4 M = .ok ⟨s, .caller⟩ :=
  ⟨.clp, caseM, by decide +kernel, by decide +kernel⟩

/-- A network without groups and licences. -/
def plainM : Verif.Solver.Model := { caseM with aggs := [], vs := [] }

/-- **C107, refuted for OpenCL.** Whatever arguments are given, they are not looked at. -/
theorem C107_opencl_refuted : ∃ name d M r, ¬ Fits .clIpmF64 d ∧ runPy (fun _ => true) name d M = (.ok r, d) := by
  refine ⟨"clipm-f64", [("thraeds", .other "many")], plainM, ⟨.clIpmF64, .pool 1⟩, ?_, by decide +kernel⟩
  intro h
  rcases h _ (List.mem_singleton.2 rfl) with ⟨h, -⟩ | ⟨h, -⟩ | ⟨h, -⟩
  · simp at h
  · simp at h
  · cases h

/-- A dictionary is changed by a failing run, too. -/
example : runPy all "highs" [("threads", .int 2), ("parallel", .int 1)] caseM = (.error .wrongType, [("parallel", .int 1)]) := by
  decide +kernel

end Verif.Settings.Cases
