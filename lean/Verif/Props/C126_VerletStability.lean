import Verif.Props.C66_Verlet
import Mathlib.Tactic.Positivity
import Mathlib.Tactic.LinearCombination
import Mathlib.Analysis.SpecialFunctions.Trigonometric.Inverse

/-!
# C126: oscillations and the limit of the time step

A charged particle that is displaced from its place of rest in a plasma oscillates around it (with the plasma frequency, if it is one of a cold plasma). Users rely on such oscillations keeping their amplitude over as many
steps as they run, if the time step is below two divided by the frequency, and should know that above this limit the simulation breaks down.
-/

namespace Verif.Props.C126
open Verif.Model Verif.Model.Electrostatic Verif.Props.C27 Verif.Props.C66

variable {ι : Type*}

/-! ### Specification -/

/-- The two directions of the plane. -/
inductive Axis where
  | x
  | y

/-- A component of a vector of the plane. -/
def Axis.of (k : Axis) (a : ℝ × ℝ) : ℝ := match k with
  | .x => a.1
  | .y => a.2

/-- The velocity of a particle in a direction. -/
def Axis.velocity (k : Axis) (p : Particle) : ℝ := match k with
  | .x => p.v0
  | .y => p.v1

/-- The gradient of the potential at particle `i` is proportional to its displacement from `centre`, with the curvature `curvature` of the potential; the other particles and the other direction do not matter. -/
def Restoring (field : (ι → (ℝ × ℝ) × ℝ) → ι → ℝ × ℝ) (i : ι) (k : Axis) (curvature centre : ℝ) : Prop := ∀ s, k.of (field s i) = curvature * (k.of (s i).1 - centre)

/-- The square of the frequency: the acceleration at a displacement `d` is `- frequencySq d`. -/
noncomputable def frequencySq (prm : Params) (p : Particle) (curvature : ℝ) : ℝ := prm.eCoefficient * p.q / p.m * curvature

/-- The energy of an oscillator, per mass, for displacement `d` and velocity `v`. -/
noncomputable def energy (w2 d v : ℝ) : ℝ := (v ^ 2 + w2 * d ^ 2) / 2

/-- Where a particle gets in a step before the periodic boundary condition. -/
noncomputable def target (prm : Params) (k : Axis) (p : Particle) : ℝ := k.of p.pos + prm.dt * (k.velocity p - prm.dt / 2 * (prm.eCoefficient * p.q / p.m * k.of p.e))

/-- It does not cross the boundary of the domain in this step. -/
def Stays (prm : Params) (k : Axis) (p : Particle) : Prop := InDomain (k.of prm.origin) (k.of prm.extent) (target prm k p)

/-! ### One step -/

theorem step_axis (prm : Params) (field : (ι → (ℝ × ℝ) × ℝ) → ι → ℝ × ℝ) (ps : ι → Particle) (i : ι) (k : Axis) :
    k.of (step prm field ps i).pos = Periodic.wrap (k.of prm.origin) (k.of prm.extent) (target prm k (ps i)) ∧
    k.velocity (step prm field ps i) = k.velocity (ps i) - prm.dt / 2 * (prm.eCoefficient * (ps i).q / (ps i).m * (k.of (ps i).e + k.of (step prm field ps i).e)) ∧
    (step prm field ps i).q = (ps i).q ∧ (step prm field ps i).m = (ps i).m := by
  obtain ⟨f1, f2, f3, -, f5, f6, -⟩ := step_eq prm field ps i
  have h : prm.eCoefficient * prm.dt * (ps i).q / (2 * (ps i).m) = prm.dt / 2 * (prm.eCoefficient * (ps i).q / (ps i).m) := by
    rw [div_mul_div_comm]
    ring
  rw [h] at f1 f2 f3
  refine ⟨?_, ?_, f5, f6⟩
  · rw [f1]
    cases k
    · simp only [Axis.of, periodic, target, Axis.velocity, mul_assoc]
    · simp only [Axis.of, periodic, target, Axis.velocity, mul_assoc]
  · cases k
    · simp only [Axis.of, Axis.velocity]; rw [f2, mul_assoc]
    · simp only [Axis.of, Axis.velocity]; rw [f3, mul_assoc]

theorem wrap_id {origin extent p : ℝ} (he : 0 < extent) (hp : InDomain origin extent p) : Periodic.wrap origin extent p = p :=
  in_domain_unique he hp (wrap_in_domain_partial he p (Or.inr hp.1)) (wrap_same_modulo _ _ _)

/-- What holds in all steps. -/
structure Follows (prm : Params) (k : Axis) (w2 centre : ℝ) (curvature : ℝ) (p : Particle) : Prop where
  grad : k.of p.e = curvature * (k.of p.pos - centre)
  freq : frequencySq prm p curvature = w2

theorem Follows.force {prm : Params} {k : Axis} {w2 centre curvature : ℝ} {p : Particle} (h : Follows prm k w2 centre curvature p) :
    prm.eCoefficient * p.q / p.m * k.of p.e = w2 * (k.of p.pos - centre) := by
  rw [h.grad, ← h.freq, frequencySq]
  ring

theorem Follows.target_eq {prm : Params} {k : Axis} {w2 centre curvature : ℝ} {p : Particle} (h : Follows prm k w2 centre curvature p) :
    target prm k p = k.of p.pos + prm.dt * (k.velocity p - prm.dt / 2 * (w2 * (k.of p.pos - centre))) := by
  rw [target, h.force]

theorem follows_step {prm : Params} {field : (ι → (ℝ × ℝ) × ℝ) → ι → ℝ × ℝ} {ps : ι → Particle} {i : ι} {k : Axis} {curvature centre w2 : ℝ} (hr : Restoring field i k curvature centre)
    (h : Follows prm k w2 centre curvature (ps i)) : Follows prm k w2 centre curvature (step prm field ps i) := by
  obtain ⟨-, -, hq, hm⟩ := step_axis prm field ps i k
  refine ⟨?_, ?_⟩
  · rw [step_consistent prm field ps i, hr]
    rfl
  · rw [← h.freq, frequencySq, frequencySq, hq, hm]

theorem follows_steps {prm : Params} {field : (ι → (ℝ × ℝ) × ℝ) → ι → ℝ × ℝ} {ps : ι → Particle} {i : ι} {k : Axis} {curvature centre : ℝ} (hr : Restoring field i k curvature centre)
    (hc : Consistent field ps) (n : ℕ) : Follows prm k (frequencySq prm (ps i) curvature) centre curvature (steps prm field n ps i) := by
  induction n with
  | zero => exact ⟨by rw [steps, hc i, hr]; rfl, rfl⟩
  | succ n ih => rw [steps_succ']; exact follows_step hr ih

/-- A step that does not cross the boundary. -/
theorem stays_step {prm : Params} {field : (ι → (ℝ × ℝ) × ℝ) → ι → ℝ × ℝ} {ps : ι → Particle} {i : ι} {k : Axis} {curvature centre w2 : ℝ} (hr : Restoring field i k curvature centre)
    (h : Follows prm k w2 centre curvature (ps i)) (he : 0 < k.of prm.extent) (hs : Stays prm k (ps i)) :
    k.of (step prm field ps i).pos = target prm k (ps i) ∧
    k.velocity (step prm field ps i) = k.velocity (ps i) - prm.dt / 2 * w2 * ((k.of (ps i).pos - centre) + (target prm k (ps i) - centre)) := by
  obtain ⟨f1, f2, f3, f4⟩ := step_axis prm field ps i k
  rw [wrap_id he hs] at f1
  refine ⟨f1, ?_⟩
  have h' := (follows_step hr h).force
  rw [f3, f4, f1] at h'
  rw [f2, mul_add, h', h.force]
  ring

/-! ### Below the limit -/

/-- The computed oscillation has this constant of motion. -/
noncomputable def invariant (dt w2 d v : ℝ) : ℝ := v ^ 2 + w2 * (1 - w2 * dt ^ 2 / 4) * d ^ 2

theorem invariant_step {dt w2 d v d' v' : ℝ} (hd : d' = d + dt * (v - dt / 2 * (w2 * d))) (hv : v' = v - dt / 2 * w2 * (d + d')) : invariant dt w2 d' v' = invariant dt w2 d v := by
  subst hd
  subst hv
  unfold invariant
  ring

/-- **Oscillations stay bounded**: if the time step is below two over the frequency and the domain contains the interval of the amplitude `R` around the centre, the particle stays within it and does not cross the boundary, for
any number of steps, and the constant of motion has the same value after all of them. -/
theorem bounded (prm : Params) (field : (ι → (ℝ × ℝ) × ℝ) → ι → ℝ × ℝ) (ps : ι → Particle) (i : ι) (k : Axis) (curvature centre R : ℝ) (hr : Restoring field i k curvature centre) (hc : Consistent field ps)
    (h0 : 0 < frequencySq prm (ps i) curvature) (h4 : frequencySq prm (ps i) curvature * prm.dt ^ 2 < 4)
    (hl : k.of prm.origin ≤ centre - R) (hu : centre + R < k.of prm.origin + k.of prm.extent) (hR : 0 ≤ R)
    (hs : invariant prm.dt (frequencySq prm (ps i) curvature) (k.of (ps i).pos - centre) (k.velocity (ps i)) ≤ invariant prm.dt (frequencySq prm (ps i) curvature) R 0) (n : ℕ) :
    |k.of (steps prm field n ps i).pos - centre| ≤ R ∧ Stays prm k (steps prm field n ps i) ∧
    invariant prm.dt (frequencySq prm (ps i) curvature) (k.of (steps prm field n ps i).pos - centre) (k.velocity (steps prm field n ps i)) =
      invariant prm.dt (frequencySq prm (ps i) curvature) (k.of (ps i).pos - centre) (k.velocity (ps i)) := by
  generalize hw : frequencySq prm (ps i) curvature = w2 at *
  have he : 0 < k.of prm.extent := by linarith
  have hO : 0 < w2 * (1 - w2 * prm.dt ^ 2 / 4) := mul_pos h0 (by linarith)
  have amp : ∀ d v : ℝ, invariant prm.dt w2 d v ≤ invariant prm.dt w2 R 0 → |d| ≤ R := by
    intro d v h
    unfold invariant at h
    have h1 : w2 * (1 - w2 * prm.dt ^ 2 / 4) * d ^ 2 ≤ w2 * (1 - w2 * prm.dt ^ 2 / 4) * R ^ 2 := by nlinarith [sq_nonneg v]
    exact abs_le_of_sq_le_sq (le_of_mul_le_mul_left h1 hO) hR
  have stay : ∀ p, Follows prm k w2 centre curvature p → invariant prm.dt w2 (k.of p.pos - centre) (k.velocity p) ≤ invariant prm.dt w2 R 0 → Stays prm k p := by
    intro p hp h
    have e := invariant_step (dt := prm.dt) (w2 := w2) (d := k.of p.pos - centre) (v := k.velocity p) (d' := target prm k p - centre) (by rw [hp.target_eq]; ring) rfl
    have := abs_le.1 (amp _ _ (e.le.trans h))
    exact ⟨by linarith, by linarith⟩
  have F : ∀ n, Follows prm k w2 centre curvature (steps prm field n ps i) := fun n => hw ▸ follows_steps hr hc n
  have I : ∀ n, invariant prm.dt w2 (k.of (steps prm field n ps i).pos - centre) (k.velocity (steps prm field n ps i)) = invariant prm.dt w2 (k.of (ps i).pos - centre) (k.velocity (ps i)) := by
    intro n
    induction n with
    | zero => rfl
    | succ n ih =>
      rw [steps_succ', ← ih]
      obtain ⟨g1, g2⟩ := stays_step hr (F n) he (stay _ (F n) (ih.le.trans hs))
      refine invariant_step ?_ ?_
      · rw [g1, (F n).target_eq]; ring
      · rw [g2, g1]
  exact ⟨amp _ _ ((I n).le.trans hs), stay _ (F n) ((I n).le.trans hs), I n⟩

/-- **The energy does not drift**: it stays below the initial one by the factor `1 / (1 - (frequency dt / 2)^2)`, and above it by the inverse of this factor, for any number of steps. -/
theorem energy_bounded (prm : Params) (field : (ι → (ℝ × ℝ) × ℝ) → ι → ℝ × ℝ) (ps : ι → Particle) (i : ι) (k : Axis) (curvature centre R : ℝ) (hr : Restoring field i k curvature centre) (hc : Consistent field ps)
    (h0 : 0 < frequencySq prm (ps i) curvature) (h4 : frequencySq prm (ps i) curvature * prm.dt ^ 2 < 4)
    (hl : k.of prm.origin ≤ centre - R) (hu : centre + R < k.of prm.origin + k.of prm.extent) (hR : 0 ≤ R)
    (hs : invariant prm.dt (frequencySq prm (ps i) curvature) (k.of (ps i).pos - centre) (k.velocity (ps i)) ≤ invariant prm.dt (frequencySq prm (ps i) curvature) R 0) (n : ℕ) :
    let w2 := frequencySq prm (ps i) curvature
    let before := energy w2 (k.of (ps i).pos - centre) (k.velocity (ps i))
    let after := energy w2 (k.of (steps prm field n ps i).pos - centre) (k.velocity (steps prm field n ps i))
    (1 - w2 * prm.dt ^ 2 / 4) * after ≤ before ∧ (1 - w2 * prm.dt ^ 2 / 4) * before ≤ after := by
  have h := (bounded prm field ps i k curvature centre R hr hc h0 h4 hl hu hR hs n).2.2
  intro w2 before after
  have hd : 0 ≤ w2 * prm.dt ^ 2 / 4 := by positivity
  have key : ∀ d v : ℝ, (1 - w2 * prm.dt ^ 2 / 4) * energy w2 d v ≤ invariant prm.dt w2 d v / 2 ∧ invariant prm.dt w2 d v / 2 ≤ energy w2 d v := by
    intro d v
    have a := mul_nonneg hd (sq_nonneg v)
    have b := mul_nonneg hd (mul_nonneg h0.le (sq_nonneg d))
    unfold invariant energy
    constructor <;> nlinarith
  have k1 := key (k.of (ps i).pos - centre) (k.velocity (ps i))
  have k2 := key (k.of (steps prm field n ps i).pos - centre) (k.velocity (steps prm field n ps i))
  exact ⟨by linarith [k1.2, k2.1], by linarith [k1.1, k2.2]⟩

/-- The angle by which the computed oscillation advances in a step: `2 arcsin (frequency dt / 2)` instead of `frequency dt`. -/
noncomputable def phase (w2 dt : ℝ) : ℝ := 2 * Real.arcsin (Real.sqrt w2 * dt / 2)

theorem phase_cos_sin {w2 dt : ℝ} (h0 : 0 < w2) (hdt : 0 < dt) (h4 : w2 * dt ^ 2 < 4) :
    Real.cos (phase w2 dt) = 1 - w2 * dt ^ 2 / 2 ∧ Real.sin (phase w2 dt) = dt * Real.sqrt (w2 * (1 - w2 * dt ^ 2 / 4)) := by
  have hs : Real.sqrt w2 * dt / 2 < 1 := by
    have : (Real.sqrt w2 * dt / 2) ^ 2 < 1 ^ 2 := by rw [div_pow, mul_pow, Real.sq_sqrt h0.le]; linarith
    exact lt_of_pow_lt_pow_left₀ 2 (by norm_num) this
  have hp : 0 ≤ Real.sqrt w2 * dt / 2 := by positivity
  have e1 : Real.sin (Real.arcsin (Real.sqrt w2 * dt / 2)) = Real.sqrt w2 * dt / 2 := Real.sin_arcsin (by linarith) hs.le
  have e2 : Real.cos (Real.arcsin (Real.sqrt w2 * dt / 2)) = Real.sqrt (1 - w2 * dt ^ 2 / 4) := by
    rw [Real.cos_arcsin, div_pow, mul_pow, Real.sq_sqrt h0.le]
    norm_num
  have hd : 0 ≤ 1 - w2 * dt ^ 2 / 4 := by linarith
  refine ⟨?_, ?_⟩
  · rw [phase, Real.cos_two_mul, e2, Real.sq_sqrt hd]
    ring
  · rw [phase, Real.sin_two_mul, e1, e2, Real.sqrt_mul h0.le]
    ring

/-- **The computed oscillation is a harmonic one**: after `n` steps the particle is where an exact harmonic oscillation is that advances by `2 arcsin (frequency dt / 2)` in each step: no damping, no growth, only a phase error. -/
theorem harmonic (prm : Params) (field : (ι → (ℝ × ℝ) × ℝ) → ι → ℝ × ℝ) (ps : ι → Particle) (i : ι) (k : Axis) (curvature centre R : ℝ) (hr : Restoring field i k curvature centre) (hc : Consistent field ps)
    (hdt : 0 < prm.dt) (h0 : 0 < frequencySq prm (ps i) curvature) (h4 : frequencySq prm (ps i) curvature * prm.dt ^ 2 < 4)
    (hl : k.of prm.origin ≤ centre - R) (hu : centre + R < k.of prm.origin + k.of prm.extent) (hR : 0 ≤ R)
    (hs : invariant prm.dt (frequencySq prm (ps i) curvature) (k.of (ps i).pos - centre) (k.velocity (ps i)) ≤ invariant prm.dt (frequencySq prm (ps i) curvature) R 0) (n : ℕ) :
    let w2 := frequencySq prm (ps i) curvature
    let w := Real.sqrt (w2 * (1 - w2 * prm.dt ^ 2 / 4))
    k.of (steps prm field n ps i).pos - centre = (k.of (ps i).pos - centre) * Real.cos (n * phase w2 prm.dt) + k.velocity (ps i) / w * Real.sin (n * phase w2 prm.dt) ∧
    k.velocity (steps prm field n ps i) = k.velocity (ps i) * Real.cos (n * phase w2 prm.dt) - w * (k.of (ps i).pos - centre) * Real.sin (n * phase w2 prm.dt) := by
  have B := bounded prm field ps i k curvature centre R hr hc h0 h4 hl hu hR hs
  have F := follows_steps (prm := prm) hr hc
  intro w2 w
  have he : 0 < k.of prm.extent := by linarith
  have hO : 0 < w2 * (1 - w2 * prm.dt ^ 2 / 4) := mul_pos h0 (by linarith)
  have hw : 0 < w := Real.sqrt_pos.2 hO
  have hww : w * w = w2 * (1 - w2 * prm.dt ^ 2 / 4) := Real.mul_self_sqrt hO.le
  obtain ⟨hcos, hsin⟩ := phase_cos_sin h0 hdt h4
  change Real.cos (phase w2 prm.dt) = 1 - w2 * prm.dt ^ 2 / 2 at hcos
  change Real.sin (phase w2 prm.dt) = prm.dt * w at hsin
  induction n with
  | zero => simp [steps]
  | succ n ih =>
    obtain ⟨ih1, ih2⟩ := ih
    obtain ⟨g1, g2⟩ := stays_step hr (F n) he (B n).2.1
    rw [(F n).target_eq] at g1 g2
    change k.of (step prm field (steps prm field n ps) i).pos = _ + prm.dt * (_ - prm.dt / 2 * (w2 * _)) at g1
    change k.velocity (step prm field (steps prm field n ps) i) = _ - prm.dt / 2 * w2 * (_ + (_ + prm.dt * (_ - prm.dt / 2 * (w2 * _)) - centre)) at g2
    rw [steps_succ', g1, g2]
    push_cast
    rw [add_mul, one_mul, Real.cos_add, Real.sin_add, hcos, hsin]
    generalize k.of (steps prm field n ps i).pos = X at *
    generalize k.velocity (steps prm field n ps i) = V at *
    obtain ⟨D, rfl⟩ : ∃ D, X = D + centre := ⟨X - centre, by ring⟩
    simp only [add_sub_cancel_right] at ih1 ⊢
    generalize Real.cos (n * phase w2 prm.dt) = C at *
    generalize Real.sin (n * phase w2 prm.dt) = S at *
    generalize k.velocity (ps i) = v at *
    generalize k.of (ps i).pos - centre = d at *
    have hv : v / w * w = v := div_mul_cancel₀ v hw.ne'
    constructor
    · rw [ih1, ih2]
      linear_combination -(prm.dt * C) * hv
    · rw [ih1, ih2]
      linear_combination (prm.dt * d * C) * hww + (prm.dt * S * (v / w)) * hww - prm.dt * w * S * hv

/-! ### From the limit on -/

/-- **From the limit on the simulation breaks down**: if the time step is at least two over the frequency, a particle that starts at its place of rest with any speed crosses the boundary of the domain after at most as many steps
as it would need without the field. -/
theorem unbounded (prm : Params) (field : (ι → (ℝ × ℝ) × ℝ) → ι → ℝ × ℝ) (ps : ι → Particle) (i : ι) (k : Axis) (curvature centre : ℝ) (hr : Restoring field i k curvature centre) (hc : Consistent field ps)
    (h4 : 4 ≤ frequencySq prm (ps i) curvature * prm.dt ^ 2) (hx : k.of (ps i).pos = centre) (hin : InDomain (k.of prm.origin) (k.of prm.extent) centre)
    (N : ℕ) (hN : k.of prm.extent ≤ N * |prm.dt * k.velocity (ps i)|) : ∃ n < N, ¬ Stays prm k (steps prm field n ps i) := by
  by_contra hno
  have S : ∀ n < N, Stays prm k (steps prm field n ps i) := fun n hn => by
    by_contra h
    exact hno ⟨n, hn, h⟩
  generalize hw : frequencySq prm (ps i) curvature = w2 at *
  have he : 0 < k.of prm.extent := by have := hin.1; have := hin.2; linarith
  have F : ∀ n, Follows prm k w2 centre curvature (steps prm field n ps i) := fun n => hw ▸ follows_steps hr hc n
  have D : ∀ n, n < N → k.of (steps prm field (n + 1) ps i).pos = target prm k (steps prm field n ps i) ∧
      k.velocity (steps prm field (n + 1) ps i) =
        k.velocity (steps prm field n ps i) - prm.dt / 2 * w2 * ((k.of (steps prm field n ps i).pos - centre) + (k.of (steps prm field (n + 1) ps i).pos - centre)) := by
    intro n hn
    rw [steps_succ']
    obtain ⟨g1, g2⟩ := stays_step hr (F n) he (S n hn)
    exact ⟨g1, by rw [g2, g1]⟩
  -- the recursion of the displacements
  have first : 0 < N → k.of (steps prm field 1 ps i).pos - centre = prm.dt * k.velocity (ps i) := by
    intro h
    rw [(D 0 h).1, (F 0).target_eq]
    simp only [steps, hx]
    ring
  have rec2 : ∀ n, n + 1 < N → k.of (steps prm field (n + 2) ps i).pos - centre =
      (2 - w2 * prm.dt ^ 2) * (k.of (steps prm field (n + 1) ps i).pos - centre) - (k.of (steps prm field n ps i).pos - centre) := by
    intro n hn
    have e1 := (D (n + 1) hn).1
    rw [(F (n + 1)).target_eq, (D n (by omega)).2] at e1
    have e0 := (D n (by omega)).1
    rw [(F n).target_eq] at e0
    rw [e1]
    linear_combination -e0
  have grow : ∀ n, n < N → |k.of (steps prm field n ps i).pos - centre| + |prm.dt * k.velocity (ps i)| ≤ |k.of (steps prm field (n + 1) ps i).pos - centre| := by
    intro n
    induction n with
    | zero =>
      intro h
      rw [first h]
      simp [steps, hx]
    | succ n ih =>
      intro h
      have ih' := ih (by omega)
      rw [show n + 1 + 1 = n + 2 by rfl, rec2 n h]
      have t := abs_sub_abs_le_abs_sub ((2 - w2 * prm.dt ^ 2) * (k.of (steps prm field (n + 1) ps i).pos - centre)) (k.of (steps prm field n ps i).pos - centre)
      rw [abs_mul] at t
      have t2 : (2 : ℝ) ≤ |2 - w2 * prm.dt ^ 2| := by rw [abs_sub_comm]; exact le_trans (by linarith) (le_abs_self _)
      have t3 := mul_le_mul_of_nonneg_right t2 (abs_nonneg (k.of (steps prm field (n + 1) ps i).pos - centre))
      linarith
  have far : ∀ n, n ≤ N → n * |prm.dt * k.velocity (ps i)| ≤ |k.of (steps prm field n ps i).pos - centre| := by
    intro n
    induction n with
    | zero => intro _; simp
    | succ n ih =>
      intro h
      have := ih (by omega)
      have := grow n (by omega)
      push_cast
      linarith
  have hN0 : 0 < N := by
    rcases Nat.eq_zero_or_pos N with h | h
    · subst h; simp at hN; linarith
    · exact h
  have last := far N le_rfl
  obtain ⟨M, rfl⟩ : ∃ M, N = M + 1 := ⟨N - 1, by omega⟩
  have st := S M (by omega)
  unfold Stays at st
  rw [← (D M (by omega)).1] at st
  have : |k.of (steps prm field (M + 1) ps i).pos - centre| < k.of prm.extent := by
    rw [abs_lt]
    have h1 := hin.1; have h2 := hin.2; have h3 := st.1; have h4 := st.2
    constructor <;> linarith
  linarith

/-! ### The hypotheses are met -/

/-- Two electrons in a domain of length 4, each displaced from its own place of rest: frequency 1. -/
noncomputable def coldField : (Bool → (ℝ × ℝ) × ℝ) → Bool → ℝ × ℝ := fun s j => (-((s j).1.1 - if j then 1 else 3), 0)

noncomputable def coldState : Bool → Particle := fun j => ⟨((if j then 1 else 3) + 1 / 2, 2), 0, 0, 0, -1, 1, (-(1 / 2), 0)⟩

/-- A state at rest, moving. -/
noncomputable def movingState (v : ℝ) : Bool → Particle := fun j => ⟨(if j then 1 else 3, 2), v, 0, 0, -1, 1, (0, 0)⟩

/-- With time step one the oscillation keeps its amplitude over any number of steps. -/
example (n : ℕ) : |(steps ⟨1, 1, (0, 0), (4, 4)⟩ coldField n coldState true).pos.1 - 1| ≤ 1 / 2 := by
  have hf : frequencySq ⟨1, 1, (0, 0), (4, 4)⟩ (coldState true) (-1) = 1 := by norm_num [frequencySq, coldState]
  refine (bounded ⟨1, 1, (0, 0), (4, 4)⟩ coldField coldState true .x (-1) 1 (1 / 2) ?_ ?_ ?_ ?_ ?_ ?_ ?_ ?_ n).1
  · intro s; simp [Axis.of, coldField]
  · intro j; cases j <;> simp [coldField, coldState, seen]
  · rw [hf]; norm_num
  · rw [hf]; norm_num
  · norm_num [Axis.of]
  · norm_num [Axis.of]
  · norm_num
  · rw [hf]; norm_num [invariant, Axis.of, Axis.velocity, coldState]

/-- With time step two a particle with the speed 1/1000 leaves the domain in at most 2000 steps. -/
example : ∃ n < 2000, ¬ Stays ⟨2, 1, (0, 0), (4, 4)⟩ .x (steps ⟨2, 1, (0, 0), (4, 4)⟩ coldField n (movingState (1 / 1000)) true) := by
  have hf : frequencySq ⟨2, 1, (0, 0), (4, 4)⟩ (movingState (1 / 1000) true) (-1) = 1 := by norm_num [frequencySq, movingState]
  refine unbounded ⟨2, 1, (0, 0), (4, 4)⟩ coldField (movingState (1 / 1000)) true .x (-1) 1 ?_ ?_ ?_ ?_ ?_ 2000 ?_
  · intro s; simp [Axis.of, coldField]
  · intro j; cases j <;> simp [coldField, movingState, seen]
  · rw [hf]; norm_num
  · simp [Axis.of, movingState]
  · norm_num [Axis.of, InDomain]
  · norm_num [Axis.of, Axis.velocity, movingState]

end Verif.Props.C126
