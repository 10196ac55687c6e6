import Mathlib.Data.Real.Basic

/-!
Model of the kernels of `velocity_verlet_1` and `velocity_verlet_2`, `/repo/solvers/Electrostatic2D3V/ParticleSystems/ChargedParticles.hpp`, in floating point arithmetic, for one of the two coordinates (the kernels treat
both in the same way and independently): each operation is followed by a rounding `rnd`, except for products which the compiler fuses with the sum they are part of. The boundary condition after the move is that of C95 and not
repeated here. Overflow, infinities and NaN are not modelled.
-/

namespace Verif.Model.FloatVerlet

/-- Time step, `particle_E_coefficient`, charge and mass of the particle. ChargedParticles.hpp:580-589. -/
structure Params where
  dt : ℝ
  eCoefficient : ℝ
  q : ℝ
  m : ℝ

/-- `dht_inverse_particle_mass`, ChargedParticles.hpp:581, 587-589 and 617, 623-625. -/
noncomputable def halfKickF (rnd : ℝ → ℝ) (prm : Params) : ℝ :=
  let k_dht := rnd (prm.dt * (1 / 2))
  rnd (rnd (rnd (prm.eCoefficient * k_dht) * prm.q) / prm.m)

/-- `V -= E * dht_inverse_particle_mass`, ChargedParticles.hpp:590-591, 626-627. -/
noncomputable def kickF (rnd : ℝ → ℝ) (fused : Bool) (h e v : ℝ) : ℝ := rnd (v - if fused then e * h else rnd (e * h))

/-- `P += k_dt * V`, ChargedParticles.hpp:593-594. -/
noncomputable def moveF (rnd : ℝ → ℝ) (fused : Bool) (dt v x : ℝ) : ℝ := rnd (x + if fused then dt * v else rnd (dt * v))

/-- One step: `velocity_verlet_1`, the computation of the field and `velocity_verlet_2`, ElectrostaticTwoStream2D3V.hpp:257-260, ChargedParticles.hpp:586-595, 622-628. `e` and `e'` are the values of the property `E` of the
particle before the step and after the move; the state is position and velocity. -/
noncomputable def stepF (rnd : ℝ → ℝ) (c : ℕ → Bool) (prm : Params) (e e' : ℝ) (s : ℝ × ℝ) : ℝ × ℝ :=
  let h := halfKickF rnd prm
  let v := kickF rnd (c 0) h e s.2
  let x := moveF rnd (c 1) prm.dt v s.1
  (x, kickF rnd (c 2) h e' v)

/-- The main loop, ElectrostaticTwoStream2D3V.hpp:255-260: the list holds the values of `E` before the first step and after each move. -/
noncomputable def runF (rnd : ℝ → ℝ) (c : ℕ → Bool) (prm : Params) : List ℝ → ℝ × ℝ → ℝ × ℝ
  | e :: e' :: es, s => runF rnd c prm (e' :: es) (stepF rnd c prm e e' s)
  | _, s => s

end Verif.Model.FloatVerlet
