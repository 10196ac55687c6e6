import Verif.Model.LineInit
import Verif.Model.ParallelPic

/-!
Model of `LineFieldEvaluations`, `/repo/solvers/Electrostatic2D3V/Diagnostics/LineFieldEvaluations.hpp`, on all ranks: probes at the points of a grid, which are moved to the ranks and cells that contain them,
and a trajectory of the values of the potential, or of its derivatives, at the probes.

`FieldEvaluate` gives the value or the gradient in the element of the cell at the reference position (`ParallelPic.Elements`, properties C78-C80); `mean` is `FieldMean::get_mean` (property C67). `H5Part` of
NESO-Particles writes the properties of the particles of all ranks to the group of a step.
-/

namespace Verif.Model.LineField
open Verif.Model.ParallelStep Verif.Model.ParallelPic Verif.Model.LineInit Verif.Model.MapChain Verif.Model.CoarseLookup

variable {n : ℕ} {K : Type} [Field K] {J U : Type}

/-- The properties of a probe except the position: INDEX and FIELD_EVALUATION. LineFieldEvaluations.hpp:74-78. -/
structure Probe (K : Type) where
  i : ℤ
  j : ℤ
  eval : List K

/-- The position of a probe, LineFieldEvaluations.hpp:142-167. The coordinates that do not exist are 0. -/
def gridPoint (origin extent : ℕ → K) (nx ny : ℤ) (px py : ℕ) : ℕ → K := fun d =>
  let hx := extent 0 / (nx : K)
  let hy := extent 1 / (ny : K)
  if d = 0 then origin 0 + 1 / 2 * hx + (px : K) * hx
  else if d = 1 then origin 1 + 1 / 2 * hy + (py : K) * hy
  else 0

/-- The number of components of FIELD_EVALUATION, in two dimensions: LineFieldEvaluations.hpp:72. -/
def ncomp (derivative : Bool) : ℕ := if derivative then 2 else 1

/-- The probes that rank 0 creates, LineFieldEvaluations.hpp:138-175. The branch for two lines (98-137) is never taken. -/
def probes (origin extent : ℕ → K) (derivative : Bool) (nx ny : ℤ) : List (Probe K × Particle K) :=
  (List.range nx.toNat).flatMap fun (px : ℕ) => (List.range ny.toNat).map fun (py : ℕ) =>
    (⟨(px : ℤ), (py : ℤ), List.replicate (ncomp derivative) 0⟩, ⟨gridPoint origin extent nx ny px py, 0, 0, []⟩)

/-- What the file has for one probe: INDEX, position and FIELD_EVALUATION. LineFieldEvaluations.hpp:191-193. -/
structure Record (K : Type) where
  index : ℤ × ℤ
  pos : ℕ → K
  eval : List K

/-- A step of the file: its number and what each rank writes. LineFieldEvaluations.hpp:219. -/
structure Frame (n : ℕ) (K : Type) where
  step : ℤ
  records : Fin n → List (Record K)

/-- The members of the class, on all ranks, and the file. LineFieldEvaluations.hpp:31-42. -/
structure Line (n : ℕ) (K : Type) where
  step : ℤ
  derivative : Bool
  meanShift : Bool
  group : State n (Probe K) K
  file : List (Frame n K)

/-- The constructor, LineFieldEvaluations.hpp:58-198. `none`: an assertion fails, the number of probes is not an `int`, or a probe is found in no element. -/
def construct (W : World n K) (origin extent : ℕ → K) (nx ny : ℤ) (derivative meanShift : Bool) : Option (Line n K) :=
  if 0 ≤ nx ∧ 0 ≤ ny ∧ nx * ny < 2147483648 then
    (forRanks fun r => addLocal (List.replicate (W.ranks r).translation.mapToNektar.length []) (if r.val = 0 then probes origin extent derivative nx ny else [])).bind fun S0 =>
    (transfer id W.target W.ranks S0).map fun S => ⟨0, derivative, meanShift, S, []⟩
  else none

/-- `evaluate` of the field or of its derivatives, LineFieldEvaluations.hpp:91-92, 208. -/
def evaluate (W : World n K) (E : Elements K J U) (derivative : Bool) (u : U) (S : State n (Probe K) K) : State n (Probe K) K := fun r =>
  (S r).mapIdx fun i c => c.map fun a =>
    let g := gid (W.ranks r) i
    ({ a.1 with eval := if derivative then [(E.gradient u g a.2.ref).1, (E.gradient u g a.2.ref).2] else [E.value u g a.2.ref] }, a.2)

/-- The particle loop that subtracts the mean, LineFieldEvaluations.hpp:210-217. -/
def shift (mean : K) (S : State n (Probe K) K) : State n (Probe K) K := fun r => particleLoop (fun a => ({ a.1 with eval := a.1.eval.modify 0 (· - mean) }, a.2)) (S r)

/-- The properties that are written, LineFieldEvaluations.hpp:191-193, 219. -/
def records (S : State n (Probe K) K) : Fin n → List (Record K) := fun r => (S r).flatten.map fun a => ⟨(a.1.i, a.1.j), a.2.pos, a.1.eval⟩

/-- `write`, LineFieldEvaluations.hpp:202-221. `u` is the field at the time of the call. -/
def write (W : World n K) (E : Elements K J U) (mean : U → K) (L : Line n K) (stepIn : ℤ) (u : U) : Line n K :=
  let step := if stepIn > -1 then stepIn else L.step
  let S := evaluate W E L.derivative u L.group
  let S := if L.meanShift then shift (mean u) S else S
  { L with step := step + 1, group := S, file := L.file ++ [⟨step, records S⟩] }

/-- Calls of `write` one after the other, with the field at the time of each call. LineFieldEvaluations.hpp:202-221. -/
def writes (W : World n K) (E : Elements K J U) (mean : U → K) (L : Line n K) (calls : List (ℤ × U)) : Line n K := calls.foldl (fun L c => write W E mean L c.1 c.2) L

/-- The two objects of the solvers: the value less the mean, and the derivatives. ElectrostaticTwoStream2D3V.hpp:228-236, ElectrostaticElectronBernsteinWaves2D3V.hpp:195-203. -/
def solverLine (W : World n K) (origin extent : ℕ → K) (nx ny : ℤ) (deriv : Bool) : Option (Line n K) := construct W origin extent nx ny deriv (!deriv)

end Verif.Model.LineField
