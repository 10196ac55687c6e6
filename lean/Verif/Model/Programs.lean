import Mathlib.Data.List.Basic

/-!
Model of the programs: solvers/main.cpp, include/solvers/solver_runner.hpp and solvers/Electrostatic2D3V/Electrostatic2D3V.cpp. What the phases do is external; a phase
returns or throws.
-/

namespace Verif.Model.Programs

/-- What a phase throws. Failed assertions of NESO and errors of Nektar++ are `std::runtime_error`. solvers/main.cpp:16-24. -/
inductive Thrown
  | runtimeError
  | string
  | other
  deriving DecidableEq

/-- The phases, in any order. solver_runner.hpp:31-73. -/
inductive Phase
  | session | mesh | driver | system | run | timings | finalise | sessionFinalise
  deriving DecidableEq

/-- The end of a program: a value returned by `main`, or `std::terminate` because of an exception that is not caught. solvers/main.cpp:11-30. -/
inductive End
  | returned (code : Int)
  | terminated
  deriving DecidableEq

/-- Phases one after the other, up to the first that throws. The result is the phases that were started and what was thrown. solver_runner.hpp:31-73. -/
def runPhases (phase : Phase → Option Thrown) : List Phase → List Phase × Option Thrown
  | [] => ([], none)
  | x :: rest =>
    match phase x with
    | some e => ([x], some e)
    | none => let r := runPhases phase rest; (x :: r.1, r.2)

/-- The phases of `run_solver`, solver_runner.hpp:31-41 and 61-73. -/
def solverPhases : List Phase := [.session, .mesh, .driver, .run, .sessionFinalise]

/-- What a run of a program shows: how it ends, the phases that were started, whether a message was written by the program itself, and whether `MPI_Finalize` was called by it. solvers/main.cpp:11-30. -/
structure Run where
  ended : End
  phases : List Phase
  message : Bool
  mpiFinalised : Bool
  deriving DecidableEq

/-- `main` of the solvers, solvers/main.cpp:11-30. `initOk` and `finaliseOk` say whether `MPI_Init_thread` and `MPI_Finalize` return `MPI_SUCCESS`. -/
def solverMain (initOk finaliseOk : Bool) (phase : Phase → Option Thrown) : Run :=
  if initOk then
    let r := runPhases phase solverPhases
    match r.2 with
    | some _ => ⟨.terminated, r.1, false, false⟩
    | none => if finaliseOk then ⟨.returned 0, r.1, false, true⟩ else ⟨.returned (-1), r.1, true, true⟩
  else ⟨.returned (-1), [], true, false⟩

/-- The phases of Electrostatic2D3V.cpp:25-51. -/
def electrostaticPhases (verbose : Bool) : List Phase :=
  [.session, .mesh, .driver, .system, .run] ++ (if verbose then [.timings] else []) ++ [.finalise, .sessionFinalise]

/-- `main` of Electrostatic2D3V.cpp:19-59. -/
def electrostaticMain (verbose : Bool) (phase : Phase → Option Thrown) : Run :=
  let r := runPhases phase (electrostaticPhases verbose)
  match r.2 with
  | none => ⟨.returned 0, r.1, false, false⟩
  | some .runtimeError => ⟨.returned 1, r.1, false, false⟩
  | some .string => ⟨.returned 0, r.1, true, false⟩
  | some .other => ⟨.terminated, r.1, false, false⟩

end Verif.Model.Programs
