import Verif.Props.C126_VerletStability
import Mathlib.MeasureTheory.Measure.Lebesgue.Basic
import Mathlib.MeasureTheory.Group.Measure

/-!
# C130: volumes in phase space

The exact motion of the particles preserves volumes in phase space (Liouville's theorem), so the density in phase space is carried along and particles do not gather spuriously. Users of a symplectic integrator rely on the computed
motion having this property too, for any number of interacting particles and any field.
-/

namespace Verif.Props.C130
open Verif.Model Verif.Model.Electrostatic Verif.Props.C27 Verif.Props.C66 Verif.Props.C126 MeasureTheory

variable {ι : Type*}

/-! ### Specification -/

/-- The phase space: positions (not reduced to the periodic domain) and velocities in the plane of all particles. -/
abbrev Phase (ι : Type*) := (ι → ℝ × ℝ) × (ι → ℝ × ℝ)

/-- The field of the particles at positions `x`: they are where the periodic boundary condition puts them. -/
noncomputable def fieldAt (prm : Params) (field : (ι → (ℝ × ℝ) × ℝ) → ι → ℝ × ℝ) (q : ι → ℝ) (x : ι → ℝ × ℝ) : ι → ℝ × ℝ := field fun j => (periodic prm (x j), q j)

/-- The state of the program for a point of phase space: charges, masses and third velocities are given, and the stored field is that of the positions. -/
noncomputable def state (prm : Params) (field : (ι → (ℝ × ℝ) × ℝ) → ι → ℝ × ℝ) (q m w : ι → ℝ) (z : Phase ι) : ι → Particle := fun i =>
  ⟨periodic prm (z.1 i), (z.2 i).1, (z.2 i).2, w i, q i, m i, fieldAt prm field q z.1 i⟩

/-- The accelerations. -/
noncomputable def accelerations (prm : Params) (field : (ι → (ℝ × ℝ) × ℝ) → ι → ℝ × ℝ) (q m : ι → ℝ) (x : ι → ℝ × ℝ) : ι → ℝ × ℝ := fun i =>
  (-(prm.eCoefficient * q i / m i * (fieldAt prm field q x i).1), -(prm.eCoefficient * q i / m i * (fieldAt prm field q x i).2))

/-- A step in phase space. -/
noncomputable def flow (prm : Params) (field : (ι → (ℝ × ℝ) × ℝ) → ι → ℝ × ℝ) (q m : ι → ℝ) (z : Phase ι) : Phase ι :=
  let half := z.2 + (prm.dt / 2) • accelerations prm field q m z.1
  let x := z.1 + prm.dt • half
  (x, half + (prm.dt / 2) • accelerations prm field q m x)

/-! ### The program follows the flow -/

theorem wrap_wrap {origin extent : ℝ} (he : 1 ≤ extent) (p d : ℝ) : Periodic.wrap origin extent (Periodic.wrap origin extent p + d) = Periodic.wrap origin extent (p + d) := by
  have h0 : 0 < extent := by linarith
  obtain ⟨a, ha⟩ := wrap_same_modulo origin extent p
  obtain ⟨b, hb⟩ := wrap_same_modulo origin extent (Periodic.wrap origin extent p + d)
  obtain ⟨c, hc⟩ := wrap_same_modulo origin extent (p + d)
  refine in_domain_unique h0 (wrap_in_domain_partial h0 _ (Or.inl he)) (wrap_in_domain_partial h0 _ (Or.inl he)) ⟨a + b - c, ?_⟩
  rw [hb, hc, ha]
  push_cast
  ring

theorem follows (prm : Params) (field : (ι → (ℝ × ℝ) × ℝ) → ι → ℝ × ℝ) (q m w : ι → ℝ) (h1 : 1 ≤ prm.extent.1) (h2 : 1 ≤ prm.extent.2) (z : Phase ι) :
    step prm field (state prm field q m w z) = state prm field q m w (flow prm field q m z) := by
  have pos : ∀ i, (step prm field (state prm field q m w z) i).pos = periodic prm ((flow prm field q m z).1 i) := by
    intro i
    have a := (step_axis prm field (state prm field q m w z) i .x).1
    have b := (step_axis prm field (state prm field q m w z) i .y).1
    simp only [Axis.of, target, Axis.velocity, state, periodic] at a b
    rw [wrap_wrap h1] at a
    rw [wrap_wrap h2] at b
    apply Prod.ext
    · rw [a]
      simp only [periodic, flow, accelerations, Pi.add_apply, Pi.smul_apply, Prod.fst_add, Prod.smul_fst, smul_eq_mul]
      congr 1
      ring
    · rw [b]
      simp only [periodic, flow, accelerations, Pi.add_apply, Pi.smul_apply, Prod.snd_add, Prod.smul_snd, smul_eq_mul]
      congr 1
      ring
  have e : ∀ i, (step prm field (state prm field q m w z) i).e = fieldAt prm field q (flow prm field q m z).1 i := by
    intro i
    rw [step_consistent prm field _ i, fieldAt]
    congr 1
    funext j
    exact Prod.ext (pos j) rfl
  funext i
  obtain ⟨-, a, -, -⟩ := step_axis prm field (state prm field q m w z) i .x
  obtain ⟨-, b, -, -⟩ := step_axis prm field (state prm field q m w z) i .y
  simp only [Axis.of, Axis.velocity, e i] at a b
  apply Particle.ext
  · exact pos i
  · rw [a]
    simp only [state, flow, accelerations, Pi.add_apply, Pi.smul_apply, Prod.fst_add, Prod.smul_fst, smul_eq_mul]
    ring
  · rw [b]
    simp only [state, flow, accelerations, Pi.add_apply, Pi.smul_apply, Prod.snd_add, Prod.smul_snd, smul_eq_mul]
    ring
  · rfl
  · rfl
  · rfl
  · exact e i

/-- **The program computes the flow**: after `n` steps it is in the state of the point to which the flow takes the initial one. -/
theorem program (prm : Params) (field : (ι → (ℝ × ℝ) × ℝ) → ι → ℝ × ℝ) (q m w : ι → ℝ) (h1 : 1 ≤ prm.extent.1) (h2 : 1 ≤ prm.extent.2) (n : ℕ) (z : Phase ι) :
    steps prm field n (state prm field q m w z) = state prm field q m w ((flow prm field q m)^[n] z) := by
  induction n generalizing z with
  | zero => rfl
  | succ n ih => rw [steps, follows prm field q m w h1 h2, ih, Function.iterate_succ_apply]

/-! ### Volumes -/

theorem plane_invariant : (volume : Measure (ℝ × ℝ)).IsAddLeftInvariant := by
  rw [Measure.volume_eq_prod]
  infer_instance

theorem kick_preserves [Fintype ι] (F : (ι → ℝ × ℝ) → ι → ℝ × ℝ) (hF : Measurable F) : MeasurePreserving (fun z : Phase ι => (z.1, z.2 + F z.1)) volume volume := by
  have := plane_invariant
  have hl : (volume : Measure (ι → ℝ × ℝ)).IsAddLeftInvariant := Pi.isAddLeftInvariant_volume
  refine MeasurePreserving.skew_product (f := id) (g := fun x v => v + F x) (MeasurePreserving.id _) ?_ ?_
  · exact measurable_snd.add (hF.comp measurable_fst)
  · exact Filter.Eventually.of_forall fun x => (measurePreserving_add_right volume (F x)).map_eq

theorem drift_preserves [Fintype ι] (dt : ℝ) : MeasurePreserving (fun z : Phase ι => (z.1 + dt • z.2, z.2)) volume volume := by
  have a : MeasurePreserving (fun z : Phase ι => (z.1, z.2 + dt • z.1)) volume volume := kick_preserves (fun v => dt • v) (measurable_id.const_smul dt)
  have s : MeasurePreserving (Prod.swap : Phase ι → Phase ι) volume volume := Measure.measurePreserving_swap
  exact s.comp (a.comp s)

/-- **Volumes are preserved**: `n` steps preserve volumes in phase space, for any number of particles that interact by any measurable field, charges, masses, time steps and numbers of steps. -/
theorem volume_preserved [Fintype ι] (prm : Params) (field : (ι → (ℝ × ℝ) × ℝ) → ι → ℝ × ℝ) (q m : ι → ℝ) (hF : Measurable (fieldAt prm field q)) (n : ℕ) :
    MeasurePreserving (flow prm field q m)^[n] volume volume := by
  have hA : Measurable (accelerations prm field q m) := by
    refine measurable_pi_lambda _ fun i => ?_
    have h := (measurable_pi_apply i).comp hF
    exact ((measurable_fst.comp h).const_mul _).neg.prodMk ((measurable_snd.comp h).const_mul _).neg
  have k := kick_preserves (fun x => (prm.dt / 2) • accelerations prm field q m x) (hA.const_smul (prm.dt / 2))
  exact (k.comp ((drift_preserves prm.dt).comp k)).iterate n

/-! ### The hypotheses are met -/

/-- A hundred particles in a constant field. -/
example (n : ℕ) (A : Set (Phase (Fin 100))) (hA : MeasurableSet A) :
    volume ((flow ⟨1 / 10, 1, (0, 0), (4, 4)⟩ (fun _ _ => (1, 0)) (fun _ => -1) (fun _ => 1))^[n] ⁻¹' A) = volume A :=
  (volume_preserved ⟨1 / 10, 1, (0, 0), (4, 4)⟩ (fun _ _ => (1, 0)) (fun _ : Fin 100 => -1) (fun _ => 1) measurable_const n).measure_preimage hA.nullMeasurableSet

end Verif.Props.C130
