import Verif.Lemmas.Barry

/-!
# C62: one call of the ionisation kernels

The neutral particles of the SimpleSOL and DriftReduced solvers lose weight to the plasma. Users rely on the weight being
moved, not created or destroyed, on weights that never become negative, and on exhausted particles being removed.
-/

namespace Verif.Props.C62
open Verif.Model.Ionisation Verif.Lemmas.Barry

/-- The rate coefficient of the literature: `6.7e7 * a * q / T^(3/2) * (E1(E/T)/(E/T) + b e^c E1(E/T + c)/(E/T + c))`
in `cm^3/s`, converted to `m^3/s`, with the constants of hydrogen. `E1` is the exponential integral. -/
noncomputable def lotzRate (E1 : ℝ → ℝ) (T : ℝ) : ℝ :=
  (67 * 10 ^ 6 * (4 / 10 ^ 14) / T ^ (3 / 2 : ℝ) *
    (E1 (13.6 / T) / (13.6 / T) + 0.6 * Real.exp 0.56 / (13.6 / T + 0.56) * E1 (13.6 / T + 0.56))) / 10 ^ 6

/-- The approximation of the exponential integral is positive for every positive argument: its logarithm never sees an
argument below one. -/
theorem expint_positive (x : ℝ) (hx : 0 < x) : 0 < expintBarry x := expintBarry_pos x hx

/-- The approximation of Barry et al. (J. Hydrology 227, 2000) for the exponential integral, with `G = exp(-γ)`. -/
theorem expint_formula (x : ℝ) : ∃ G b hInf q h : ℝ, G = Real.exp (-0.5772156649015329) ∧
    b = Real.sqrt (2 * (1 - G) / (G * (2 - G))) ∧
    hInf = (1 - G) * (G ^ 2 - 6 * G + 12) / (3 * G * (2 - G) ^ 2 * b) ∧ q = 20 / 47 * x ^ Real.sqrt (31 / 26) ∧
    h = 1 / (1 + x * Real.sqrt x) + hInf * q / (1 + q) ∧
    expintBarry x = Real.exp (-x) / (G + (1 - G) * Real.exp (-x / (1 - G))) *
      Real.log (1 + G / x - (1 - G) / (h + b * x) ^ 2) := by
  refine ⟨barryG, barryB, barryHInf, barryQ x, barryH x, ?_, ?_, ?_, rfl, rfl, ?_⟩
  · rw [barryG, gammaEM]; norm_num
  · rw [barryB, div_div]
  · rw [barryHInf]; congr 1 <;> ring
  · rw [expintBarry, barryLogArg, neg_div]; congr 3; ring

/-- The rate is the formula of the literature (with the approximated exponential integral) for every positive
temperature; it is not finite for a non-positive temperature. -/
theorem rate_formula (T : ℝ) : ionRate T = if 0 < T then some (lotzRate expintBarry T) else none := by
  unfold ionRate
  by_cases hT : 0 < T
  · rw [if_neg (not_le.mpr hT), if_pos hT]
    have hp : T ^ (3 / 2 : ℝ) = T * Real.sqrt T := by
      rw [Real.sqrt_eq_rpow, show (3 / 2 : ℝ) = 1 + 1 / 2 by norm_num, Real.rpow_add hT, Real.rpow_one]
    have hs : Real.sqrt T ≠ 0 := (Real.sqrt_pos.mpr hT).ne'
    simp only [lotzRate, hp, Option.some.injEq]
    norm_num
    ring
  · rw [if_pos (not_lt.mp hT), if_neg hT]

/-- "Note that the rate will be a positive number" (comment of the kernels): it is, for every temperature for which
it is defined. -/
theorem rate_positive (T r : ℝ) (h : ionRate T = some r) : 0 < r := by
  rw [rate_formula] at h
  split_ifs at h with hT
  simp only [Option.some.injEq] at h
  rw [← h]
  unfold lotzRate
  have h1 : 0 < 13.6 / T := by positivity
  have h2 := expintBarry_pos _ h1
  have h3 : (0 : ℝ) < 13.6 / T + 0.56 := by positivity
  have h4 := expintBarry_pos _ h3
  have h5 : 0 < T ^ (3 / 2 : ℝ) := Real.rpow_pos_of_pos hT _
  positivity

/-! ### The change of the weight -/

/-- What a user expects of the ionisation of one particle in a time step `dt`: `before` and `after` the call, with
the rate coefficient and the plasma density in SI units. -/
structure Ionised (prm : Params) (rate dt nSI : ℝ) (before after : Particle) : Prop where
  /-- The new weight is the explicit Euler step of `w' = - rate * n * w`, cut off at zero. -/
  weight : after.weight = max 0 (before.weight - rate * nSI * (dt * prm.tToSI) * before.weight)
  /-- The weight the particle lost appears in the fluid during the step. -/
  conserved : after.weight + dt * (prm.nToSI * after.sourceDensity) = before.weight
  /-- The particle is marked for removal iff nothing of it remains. -/
  marked : after.id = removeKey ↔ before.id = removeKey ∨ after.weight = 0
  /-- Otherwise its identity is kept. -/
  kept : after.id ≠ removeKey → after.id = before.id
  position : after.pos = before.pos
  velocity : after.vel = before.vel

/-- The key for removal is -1, the value used by the removal of marked particles. -/
theorem removed_id {prm : Params} {rate dt nSI : ℝ} {p p' : Particle} (h : Ionised prm rate dt nSI p p') :
    p'.id = -1 ↔ p.id = -1 ∨ p'.weight = 0 := h.marked

theorem weightChange_spec (rate dtSI nSI : ℝ) (id : ℤ) (w : ℝ) :
    (weightChange rate dtSI nSI id w).2.2 = max 0 (w - rate * nSI * dtSI * w) ∧
    (weightChange rate dtSI nSI id w).2.2 = w + (weightChange rate dtSI nSI id w).2.1 ∧
    ((weightChange rate dtSI nSI id w).1 = removeKey ↔ id = removeKey ∨ (weightChange rate dtSI nSI id w).2.2 = 0) ∧
    ((weightChange rate dtSI nSI id w).1 ≠ removeKey → (weightChange rate dtSI nSI id w).1 = id) := by
  unfold weightChange
  have e : w + -rate * w * dtSI * nSI = w - rate * nSI * dtSI * w := by ring
  simp only
  split_ifs with h
  · rw [e] at h
    refine ⟨?_, rfl, by simp, by simp⟩
    rw [max_eq_left h]; ring
  · rw [e] at h
    push Not at h
    refine ⟨?_, rfl, ?_, by simp⟩
    · rw [max_eq_right h.le, e]
    · rw [e]; simp [h.ne']

/-- Every call of the SimpleSOL kernel, for all particles, plasma values and time steps. -/
theorem sol_ionised (prm : Params) (dt nSI TeV : ℝ) (p p' : Particle) (hdt : dt ≠ 0) (hn : prm.nToSI ≠ 0)
    (h : ioniseSOL prm dt nSI TeV p = some p') :
    ∃ rate, ionRate TeV = some rate ∧ Ionised prm rate dt nSI p p' := by
  unfold ioniseSOL at h
  split at h
  · simp at h
  · rename_i rate hr
    refine ⟨rate, hr, ?_⟩
    obtain ⟨h1, h2, h3, h4⟩ := weightChange_spec rate (dt * prm.tToSI) nSI p.id p.weight
    simp only [Option.some.injEq] at h
    subst h
    refine ⟨h1, ?_, h3, h4, rfl, rfl⟩
    simp only
    rw [h2]
    field_simp
    ring

/-- Every call of the DriftReduced kernel. -/
theorem dr_ionised (prm : Params) (dt nSI TeV : ℝ) (p p' : Particle) (hdt : dt ≠ 0) (hn : prm.nToSI ≠ 0)
    (h : ioniseDR prm TeV dt nSI p = some p') :
    ∃ rate, ionRate TeV = some rate ∧ Ionised prm rate dt nSI p p' := by
  unfold ioniseDR at h
  split at h
  · simp at h
  · rename_i rate hr
    refine ⟨rate, hr, ?_⟩
    obtain ⟨h1, h2, h3, h4⟩ := weightChange_spec rate (dt * prm.tToSI) nSI p.id p.weight
    simp only [Option.some.injEq] at h
    subst h
    refine ⟨h1, ?_, h3, h4, rfl, rfl⟩
    simp only
    rw [h2]
    field_simp
    ring

/-- The kernels have a finite result exactly for positive temperatures. -/
theorem finite_iff (prm : Params) (dt nSI TeV : ℝ) (p : Particle) :
    ((ioniseSOL prm dt nSI TeV p).isSome ↔ 0 < TeV) ∧ ((ioniseDR prm TeV dt nSI p).isSome ↔ 0 < TeV) := by
  unfold ioniseSOL ioniseDR
  rw [rate_formula]
  by_cases hT : 0 < TeV
  · simp [hT]
  · simp [hT]

/-- Weights stay between zero and their old value in a plasma of non-negative density. -/
theorem weight_range {prm : Params} {rate dt nSI : ℝ} {p p' : Particle} (h : Ionised prm rate dt nSI p p')
    (hr : 0 < rate) (hdt : 0 ≤ dt * prm.tToSI) (hn : 0 ≤ nSI) (hw : 0 ≤ p.weight) :
    0 ≤ p'.weight ∧ p'.weight ≤ p.weight := by
  rw [h.weight]
  refine ⟨le_max_left _ _, max_le hw ?_⟩
  have : 0 ≤ rate * nSI * (dt * prm.tToSI) * p.weight := by positivity
  linarith

/-- Finding: where the density field is negative (an undershoot of the polynomial field), particles gain weight and
the fluid source is negative, for every particle, rate and step. -/
theorem negative_density_grows {prm : Params} {rate dt nSI : ℝ} {p p' : Particle}
    (h : Ionised prm rate dt nSI p p') (hr : 0 < rate) (hdt : 0 < dt) (ht : 0 < prm.tToSI) (hN : 0 < prm.nToSI)
    (hn : nSI < 0) (hw : 0 < p.weight) : p.weight < p'.weight ∧ p'.sourceDensity < 0 := by
  have h1 : p.weight < p'.weight := by
    rw [h.weight]
    apply lt_max_of_lt_right
    have : 0 < rate * (dt * prm.tToSI) * p.weight := by positivity
    nlinarith
  refine ⟨h1, ?_⟩
  have hc := h.conserved
  have : dt * (prm.nToSI * p'.sourceDensity) < 0 := by linarith
  have h2 : prm.nToSI * p'.sourceDensity < 0 := by
    by_contra hcon
    push Not at hcon
    have := mul_nonneg hdt.le hcon
    linarith
  by_contra hcon
  push Not at hcon
  have := mul_nonneg hN.le hcon
  linarith

/-- A particle is exhausted exactly when the step is longer than the ionisation time `1 / (rate n)`. -/
theorem exhausted_iff {prm : Params} {rate dt nSI : ℝ} {p p' : Particle} (h : Ionised prm rate dt nSI p p')
    (hw : 0 < p.weight) : p'.weight = 0 ↔ 1 ≤ rate * nSI * (dt * prm.tToSI) := by
  rw [h.weight, max_eq_left_iff]
  constructor <;> intro h1 <;> nlinarith

/-- Momentum and energy sources of the SimpleSOL kernel: along the axis `(cos θ, sin θ)` the fluid receives the momentum
and the kinetic energy (of the motion along the axis) of the ionised weight, orthogonally to it nothing. -/
theorem sol_momentum_energy (prm : Params) (dt nSI TeV : ℝ) (p p' : Particle)
    (h : ioniseSOL prm dt nSI TeV p = some p') :
    let c := Real.cos prm.theta
    let s := Real.sin prm.theta
    let along := p.vel.1 * c + p.vel.2 * s
    p'.sourceMomentum.1 * c + p'.sourceMomentum.2 * s = p'.sourceDensity * along ∧
    p'.sourceMomentum.2 * c - p'.sourceMomentum.1 * s = 0 ∧
    p'.sourceEnergy = p'.sourceDensity * along ^ 2 / 2 := by
  unfold ioniseSOL at h
  split at h
  · simp at h
  · simp only [Option.some.injEq] at h
    subst h
    have hcs := Real.sin_sq_add_cos_sq prm.theta
    refine ⟨?_, ?_, ?_⟩
    · simp only
      generalize -(weightChange _ (dt * prm.tToSI) nSI p.id p.weight).2.1 * (1 / prm.nToSI) / dt = sd
      linear_combination (sd * (p.vel.1 * Real.cos prm.theta + p.vel.2 * Real.sin prm.theta)) * hcs
    · simp only
      ring
    · simp only
      ring

/-! ### A concrete case -/

/-- A particle of weight 2 at 10 eV: the kernel has a result, which is an `Ionised` particle, with a positive rate. -/
example : ∃ p', ioniseSOL ⟨1, 1, 0⟩ 1 1 10 ⟨(0, 0), (1, 2), 3, 2, 0, (0, 0), 0⟩ = some p' ∧
    ∃ r, 0 < r ∧ Ionised ⟨1, 1, 0⟩ r 1 1 ⟨(0, 0), (1, 2), 3, 2, 0, (0, 0), 0⟩ p' := by
  have h := (finite_iff ⟨1, 1, 0⟩ 1 1 10 ⟨(0, 0), (1, 2), 3, 2, 0, (0, 0), 0⟩).1.mpr (by norm_num)
  obtain ⟨p', hp⟩ := Option.isSome_iff_exists.mp h
  obtain ⟨r, hr, hi⟩ := sol_ionised _ _ _ _ _ _ one_ne_zero one_ne_zero hp
  exact ⟨p', hp, r, rate_positive _ _ hr, hi⟩

/-- A half ionised particle of the rate `1/2` keeps its identity, an exhausted one is marked. -/
example : weightChange (1 / 2) 1 1 3 2 = (3, -1, 1) ∧ weightChange 1 1 1 3 2 = (removeKey, -2, 0) := by
  constructor <;> norm_num [weightChange]

end Verif.Props.C62
