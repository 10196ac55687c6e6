import Verif.Props.C126_VerletStability

/-!
# C129: uniform motion and uniform acceleration

A particle without charge, or in a field that is constant over the positions it visits, moves in a straight line or on a parabola. Users rely on the trajectories being these, across the periodic boundaries, for any time step.
-/

namespace Verif.Props.C129
open Verif.Model Verif.Model.Electrostatic Verif.Props.C27 Verif.Props.C66 Verif.Props.C126

variable {ι : Type*}

/-! ### Specification -/

/-- The acceleration at the gradient `g`. -/
noncomputable def acceleration (prm : Params) (p : Particle) (g : ℝ) : ℝ := -(prm.eCoefficient * p.q / p.m * g)

/-- The position at time `t` of a uniformly accelerated motion. -/
noncomputable def parabola (x v a t : ℝ) : ℝ := x + v * t + a * t ^ 2 / 2

/-! ### Trajectories -/

/-- **Uniform acceleration is exact**: if the field at the particle is the same after every step (whatever the other particles do), position and velocity after `n` steps are those of the uniformly accelerated motion, the position up
to periods of the domain. -/
theorem uniform_partial (prm : Params) (field : (ι → (ℝ × ℝ) × ℝ) → ι → ℝ × ℝ) (ps : ι → Particle) (i : ι) (k : Axis) (g : ℝ) (n : ℕ) (hg : ∀ l ≤ n, k.of (steps prm field l ps i).e = g) :
    SameModulo (k.of prm.extent) (parabola (k.of (ps i).pos) (k.velocity (ps i)) (acceleration prm (ps i) g) (n * prm.dt)) (k.of (steps prm field n ps i).pos) ∧
    k.velocity (steps prm field n ps i) = k.velocity (ps i) + acceleration prm (ps i) g * (n * prm.dt) := by
  have key : ∀ l ≤ n, (steps prm field l ps i).q = (ps i).q ∧ (steps prm field l ps i).m = (ps i).m ∧
      SameModulo (k.of prm.extent) (parabola (k.of (ps i).pos) (k.velocity (ps i)) (acceleration prm (ps i) g) (l * prm.dt)) (k.of (steps prm field l ps i).pos) ∧
      k.velocity (steps prm field l ps i) = k.velocity (ps i) + acceleration prm (ps i) g * (l * prm.dt) := by
    intro l
    induction l with
    | zero =>
      intro _
      refine ⟨rfl, rfl, ⟨0, ?_⟩, ?_⟩
      · simp [steps, parabola]
      · simp [steps]
    | succ l ih =>
      intro hl
      obtain ⟨hq, hm, ⟨z, hz⟩, hv⟩ := ih (by omega)
      obtain ⟨f1, f2, f3, f4⟩ := step_axis prm field (steps prm field l ps) i k
      have e1 := hg l (by omega)
      have e2 := hg (l + 1) hl
      rw [steps_succ'] at e2 ⊢
      refine ⟨f3.trans hq, f4.trans hm, ?_, ?_⟩
      · obtain ⟨z', hz'⟩ := wrap_same_modulo (k.of prm.origin) (k.of prm.extent) (target prm k (steps prm field l ps i))
        refine ⟨z + z', ?_⟩
        rw [f1, hz', target, hz, hv, hq, hm, e1]
        unfold parabola acceleration
        push_cast
        ring
      · rw [f2, hv, hq, hm, e1, e2]
        unfold acceleration
        push_cast
        ring
  exact (key n le_rfl).2.2

/-- **Particles without charge move uniformly in every field**, whatever the other particles do. -/
theorem neutral (prm : Params) (field : (ι → (ℝ × ℝ) × ℝ) → ι → ℝ × ℝ) (ps : ι → Particle) (i : ι) (k : Axis) (h0 : (ps i).q = 0) (n : ℕ) :
    SameModulo (k.of prm.extent) (k.of (ps i).pos + k.velocity (ps i) * (n * prm.dt)) (k.of (steps prm field n ps i).pos) ∧ k.velocity (steps prm field n ps i) = k.velocity (ps i) := by
  induction n with
  | zero => exact ⟨⟨0, by simp [steps]⟩, rfl⟩
  | succ n ih =>
    obtain ⟨⟨z, hz⟩, hv⟩ := ih
    have hq : ∀ n, (steps prm field n ps i).q = 0 := by
      intro n
      induction n with
      | zero => exact h0
      | succ n ih => rw [steps_succ']; exact (step_axis prm field _ i k).2.2.1.trans ih
    obtain ⟨f1, f2, f3, f4⟩ := step_axis prm field (steps prm field n ps) i k
    rw [steps_succ']
    refine ⟨?_, ?_⟩
    · obtain ⟨z', hz'⟩ := wrap_same_modulo (k.of prm.origin) (k.of prm.extent) (target prm k (steps prm field n ps i))
      refine ⟨z + z', ?_⟩
      rw [f1, hz', target, hz, hv, hq]
      push_cast
      ring
    · rw [f2, hv, hq]
      ring

/-- From the state that the programs start with (stored field zero) the first kick is missing: the velocity lags behind that of the uniformly accelerated motion by
`a dt / 2` for ever, and the position by this times the time. -/
theorem start_lags (prm : Params) (ps : ι → Particle) (i : ι) (k : Axis) (g : ℝ × ℝ) (n : ℕ) :
    let field : (ι → (ℝ × ℝ) × ℝ) → ι → ℝ × ℝ := fun _ _ => g
    let a := acceleration prm (ps i) (k.of g)
    k.velocity (steps prm field (n + 1) (initial ps) i) = k.velocity (ps i) + a * ((n + 1) * prm.dt) - a * prm.dt / 2 ∧
    SameModulo (k.of prm.extent) (parabola (k.of (ps i).pos) (k.velocity (ps i)) a ((n + 1) * prm.dt) - a * prm.dt / 2 * ((n + 1) * prm.dt))
      (k.of (steps prm field (n + 1) (initial ps) i).pos) := by
  intro field a
  obtain ⟨f1, f2, f3, f4⟩ := step_axis prm field (initial ps) i k
  have hz : k.of (initial ps i).e = 0 := by cases k <;> rfl
  have he : k.of (step prm field (initial ps) i).e = k.of g := by rw [step_consistent prm field (initial ps) i]
  have hs : ∀ l ≤ n, k.of (steps prm field l (step prm field (initial ps)) i).e = k.of g := by
    intro l _
    cases l with
    | zero => exact he
    | succ l => rw [steps_succ', step_consistent prm field _ i]
  obtain ⟨⟨z, u1⟩, u2⟩ := uniform_partial prm field (step prm field (initial ps)) i k (k.of g) n hs
  have hA : acceleration prm (step prm field (initial ps) i) (k.of g) = a := by
    unfold acceleration
    rw [f3, f4]
    rfl
  rw [hA] at u1 u2
  have hv : k.velocity (step prm field (initial ps) i) = k.velocity (ps i) + a * prm.dt / 2 := by
    rw [f2, hz, he, show k.velocity (initial ps i) = k.velocity (ps i) by cases k <;> rfl]
    change k.velocity (ps i) - prm.dt / 2 * (prm.eCoefficient * (ps i).q / (ps i).m * (0 + k.of g)) = k.velocity (ps i) + acceleration prm (ps i) (k.of g) * prm.dt / 2
    unfold acceleration
    ring
  obtain ⟨z', hz'⟩ := wrap_same_modulo (k.of prm.origin) (k.of prm.extent) (target prm k (initial ps i))
  have hx : k.of (step prm field (initial ps) i).pos = k.of (ps i).pos + prm.dt * k.velocity (ps i) + z' * k.of prm.extent := by
    rw [f1, hz', target, hz, show k.velocity (initial ps i) = k.velocity (ps i) by cases k <;> rfl, show (initial ps i).pos = (ps i).pos from rfl]
    ring
  refine ⟨?_, z + z', ?_⟩
  · rw [steps, u2, hv]
    ring
  · rw [steps, u1, hv, hx]
    unfold parabola
    push_cast
    ring

/-! ### The hypotheses are met -/

/-- An electron in a constant field, which crosses the boundary of the domain again and again. -/
example (n : ℕ) : ∃ z : ℤ, (steps ⟨1 / 10, 1, (0, 0), (4, 4)⟩ (fun _ _ => (1, 0)) n (fun _ : Unit => (⟨(1, 1), 3, 0, 0, -1, 1, (1, 0)⟩ : Particle)) ()).pos.1 = 1 + 3 * (n * (1 / 10)) + 1 * (n * (1 / 10)) ^ 2 / 2 + z * 4 := by
  obtain ⟨z, h⟩ := (uniform_partial ⟨1 / 10, 1, (0, 0), (4, 4)⟩ (fun _ _ => (1, 0)) (fun _ : Unit => (⟨(1, 1), 3, 0, 0, -1, 1, (1, 0)⟩ : Particle)) () .x 1 n (by
    intro l _
    cases l with
    | zero => rfl
    | succ l => rw [steps_succ', step_consistent _ _ _ ()]; rfl)).1
  refine ⟨z, h.trans ?_⟩
  norm_num [parabola, acceleration, Axis.of, Axis.velocity]

end Verif.Props.C129
