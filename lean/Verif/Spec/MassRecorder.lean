import Verif.Model.MassRecorder

/-!
The lines that the mass file should have.
-/

namespace Verif.Spec.MassRecorder
open Verif.Model.MassRecorder

variable {K : Type} [Field K] [LinearOrder K]

/-- The mass of all particles of all ranks. -/
def massOfParticles (e : Env K) : K := e.weights.flatten.sum

/-- The mass of the fluid in SI units. -/
def massOfFluid (e : Env K) : K := e.integral * e.nToSI

/-- The line of step `k`, if `added` is the mass that was added and `initial` the mass of the fluid at the begin. -/
def lineOf (initial added : K) (k : ℕ) (e : Env K) : Line K :=
  ⟨k, |added + initial - (massOfParticles e + massOfFluid e)| / |added + initial|, massOfParticles e, massOfFluid e⟩

/-- The counters of the ranks are consistent with `total` added particles: in DriftReduced each rank counts all particles, in SimpleSOL its own ones. -/
def CountsTotal (v : Variant) (e : Env K) (total : ℕ) : Prop :=
  match v with
  | .dr => e.added ≠ [] ∧ ∀ n ∈ e.added, n = total
  | .sol => e.added.sum = total

end Verif.Spec.MassRecorder
