import Verif.Model.InitialParticles

/-! Specification for C101: what may be expected of the random numbers, and what the initial particles have to satisfy. -/

namespace Verif.Spec.InitialParticles
open Verif.Model.InitialParticles

/-- The documented ranges of the random numbers: uniform numbers and Sobol numbers lie in [0,1), `uniform_within_extents` lies in
the extents, the inverse error function exists exactly on the open interval (-1,1). -/
structure EnvOk (env : Env) : Prop where
  u01 : ∀ r, 0 ≤ (env.u01 r).1 ∧ (env.u01 r).1 < 1
  sobol : ∀ s k, 0 ≤ env.sobol s k ∧ env.sobol s k < 1
  uniform : ∀ N ext r d k, k < N → 0 < ext d → 0 ≤ (env.uniformExtents N ext r).1 d k ∧ (env.uniformExtents N ext r).1 d k < ext d
  erfInv : ∀ x, (env.erfInv x).isSome ↔ -1 < x ∧ x < 1

/-- The position lies in the box `[origin, origin + extent)`. -/
def InDomain (i : Input) (p : Fin 2 → ℝ) : Prop := ∀ d, i.origin d ≤ p d ∧ p d < i.origin d + i.extent d

/-- The velocity, charge and mass which belong to a key, for particles at `p`. `vz` is the value the storage had before. -/
def Species (env : Env) (i : Input) (key : ℤ) (p : Fin 2 → ℝ) (v : Fin 3 → ℝ) (q m : ℝ) : Prop :=
  match key with
  | 0 => ∃ v0, i.initialVelocity = some v0 ∧ v = ![v0, 0, env.vz] ∧ q = i.charge ∧ m = i.mass
  | 1 => ∃ v0, i.initialVelocity = some v0 ∧ q = i.charge ∧ m = i.mass ∧
      -- the lower stream moves forwards, the upper one backwards; each is a band of width 1/100
      ((v = ![v0, 0, env.vz] ∧ |p 1 - (i.origin 1 + i.extent 1 / 4)| ≤ 1 / 200) ∨
       (v = ![-v0, 0, env.vz] ∧ |p 1 - (i.origin 1 + 3 * i.extent 1 / 4)| ≤ 1 / 200))
  | 2 => ∃ v0, i.initialVelocity = some v0 ∧ (v = ![v0, 0, env.vz] ∨ v = ![-v0, 0, env.vz]) ∧ q = i.charge ∧ m = i.mass
  | 3 => ∃ v0, i.initialVelocity = some v0 ∧
      ((v = ![0, 0, env.vz] ∧ q = i.charge ∧ m = 10 ^ 6 * i.mass) ∨ (v = ![v0, 0, env.vz] ∧ q = -i.charge ∧ m = i.mass))
  | 4 => ∃ vth, i.thermalVelocity = some vth ∧ q = i.charge ∧ m = i.mass ∧
      ((∃ x y z, v = ![vth * x, vth * y, vth * z] ∧ ∀ w ∈ [x, y, z], ∃ u, 0 < u ∧ u < 1 ∧ env.erfInv (2 * u - 1) = some w) ∨
       (v 0 = 0 ∧ v 1 ^ 2 + v 2 ^ 2 = (4 * vth ^ 2) ^ 2))
  | 5 => ∃ v0, i.initialVelocity = some v0 ∧ v 0 = v0 ∧ 1 ≤ v 1 ∧ v 1 < 2 ∧ v 2 = 0 ∧ q = i.charge ∧ m = i.mass
  | _ => False

/-- All particles, rank by rank. -/
def onAllRanks {size : ℕ} {α : Type*} (l : Fin size → List α) : List α := (List.ofFn l).flatten

end Verif.Spec.InitialParticles
