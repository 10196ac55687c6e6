import Verif.Props.C51_Boris
import Verif.Props.C128_Integrators
import Verif.Props.C130_Liouville
import Mathlib.LinearAlgebra.Matrix.Determinant.Basic

/-!
# C131: volumes in phase space with the Boris integrator

The Boris integrator is not symplectic; its use over many gyrations rests on its preserving volumes in phase space. This is shown here for the program, with all particles interacting through the potential.
-/

namespace Verif.Props.C131
open Verif.Model Verif.Model.Electrostatic Verif.Model.PicLoop Verif.Props.C27 Verif.Props.C130 MeasureTheory

variable {ι U V : Type}

/-! ### Specification -/

/-- The phase space: positions in the plane (not reduced to the periodic domain) and velocities in space of all particles. -/
abbrev Phase3 (ι : Type) := (ι → ℝ × ℝ) × (ι → Fin 3 → ℝ)

/-- The particles of the program are at the point `z` of phase space; their stored field does not matter, it is set anew in each step. -/
def At (prm : Params) (q m : ι → ℝ) (z : Phase3 ι) (ps : ι → Particle) : Prop := ∀ i,
  (ps i).pos = periodic prm (z.1 i) ∧ (ps i).v0 = z.2 i 0 ∧ (ps i).v1 = z.2 i 1 ∧ (ps i).v2 = z.2 i 2 ∧ (ps i).q = q i ∧ (ps i).m = m i

/-- The gradient of the potential of the particles at positions `x`, at the `i`-th of them. -/
noncomputable def gradientAt (prm : Params) (potential : (ι → (ℝ × ℝ) × ℝ) → U) (gradient : U → ℝ × ℝ → ℝ × ℝ) (q : ι → ℝ) (x : ι → ℝ × ℝ) (i : ι) : ℝ × ℝ :=
  gradient (potential fun j => (periodic prm (x j), q j)) (periodic prm (x i))

/-- The rotation by the scaled magnetic field `t`. -/
noncomputable def rotation (t : Fin 3 → ℝ) : Matrix (Fin 3) (Fin 3) ℝ :=
  let r := 2 / (1 + (t 0 * t 0 + t 1 * t 1 + t 2 * t 2))
  !![1 - r * (t 1 * t 1 + t 2 * t 2), r * (t 0 * t 1 + t 2), r * (t 0 * t 2 - t 1);
     r * (t 0 * t 1 - t 2), 1 - r * (t 0 * t 0 + t 2 * t 2), r * (t 1 * t 2 + t 0);
     r * (t 0 * t 2 + t 1), r * (t 1 * t 2 - t 0), 1 - r * (t 0 * t 0 + t 1 * t 1)]

/-- The factor of the half step. -/
noncomputable def half (prm : Params) (q m : ι → ℝ) (i : ι) : ℝ := q i / m i * (prm.dt / 2)

/-- The half of the electric acceleration. -/
noncomputable def kick (prm : Params) (q m : ι → ℝ) (i : ι) (g : ℝ × ℝ) : Fin 3 → ℝ := ![half prm q m i * -(prm.eCoefficient * g.1), half prm q m i * -(prm.eCoefficient * g.2), 0]

/-- The new velocities. -/
noncomputable def push (prm : Params) (b : ℝ × ℝ × ℝ) (q m : ι → ℝ) (G : ι → ℝ × ℝ) (v : ι → Fin 3 → ℝ) : ι → Fin 3 → ℝ := fun i =>
  (rotation ![half prm q m i * b.1, half prm q m i * b.2.1, half prm q m i * b.2.2]).mulVec (v i + kick prm q m i (G i)) + kick prm q m i (G i)

/-- A step in phase space. -/
noncomputable def flow3 (prm : Params) (b : ℝ × ℝ × ℝ) (potential : (ι → (ℝ × ℝ) × ℝ) → U) (gradient : U → ℝ × ℝ → ℝ × ℝ) (q m : ι → ℝ) (z : Phase3 ι) : Phase3 ι :=
  let v := push prm b q m (gradientAt prm potential gradient q z.1) z.2
  (fun i => ((z.1 i).1 + prm.dt * v i 0, (z.1 i).2 + prm.dt * v i 1), v)

/-! ### The program follows the flow -/

theorem rotation_apply (t v : Fin 3 → ℝ) :
    (rotation t).mulVec v = ![(C51.rot ⟨t 0, t 1, t 2⟩ ⟨v 0, v 1, v 2⟩).x, (C51.rot ⟨t 0, t 1, t 2⟩ ⟨v 0, v 1, v 2⟩).y, (C51.rot ⟨t 0, t 1, t 2⟩ ⟨v 0, v 1, v 2⟩).z] := by
  funext j
  simp only [C51.rot, Spec.V3.add, Spec.V3.smul, Spec.V3.cross, Spec.V3.dot, rotation, Matrix.mulVec, dotProduct, Fin.sum_univ_three]
  generalize 2 / (1 + (t 0 * t 0 + t 1 * t 1 + t 2 * t 2)) = r
  fin_cases j <;> simp only [Matrix.of_apply, Matrix.cons_val, Fin.zero_eta, Fin.mk_one, Fin.reduceFinMk] <;> ring

theorem follows (prm : Params) (b : ℝ × ℝ × ℝ) (potential : (ι → (ℝ × ℝ) × ℝ) → U) (gradient : U → ℝ × ℝ → ℝ × ℝ) (fe : U → V) (ke : (ι → Particle) → V) (pe : (ι → Particle) → U → V)
    (q m : ι → ℝ) (hm : ∀ i, m i ≠ 0) (h1 : 1 ≤ prm.extent.1) (h2 : 1 ≤ prm.extent.2) (z : Phase3 ι) (s : St (ι → Particle) U V) (h : At prm q m z s.p) :
    At prm q m (flow3 prm b potential gradient q m z) (advance (borisOps prm b potential gradient fe ke pe) s).p := by
  intro i
  obtain ⟨a1, a2, a3, a4, a5, a6⟩ := h i
  have hs : seen s.p = fun j => (periodic prm (z.1 j), q j) := by
    funext j
    obtain ⟨c1, -, -, -, c5, -⟩ := h j
    simp only [seen, c1, c5]
  have hp : (advance (borisOps prm b potential gradient fe ke pe) s).p i = boris2P prm b { s.p i with e := gradientAt prm potential gradient q z.1 i } := by
    change boris2P prm b { s.p i with e := gradient (potential (seen s.p)) (s.p i).pos } = _
    rw [hs, a1]
    rfl
  obtain ⟨g, hg⟩ : ∃ g, g = gradientAt prm potential gradient q z.1 := ⟨_, rfl⟩
  rw [hp, ← hg]
  have hmi : (s.p i).m ≠ 0 := by rw [a6]; exact hm i
  have k : ∀ j : Fin 3, (push prm b q m g z.2 i) j = ![
      (C51.rot (Spec.V3.smul (q i / m i * (prm.dt / 2)) ⟨b.1, b.2.1, b.2.2⟩) (Spec.V3.add ⟨z.2 i 0, z.2 i 1, z.2 i 2⟩ (Spec.V3.smul (q i / m i * (prm.dt / 2)) ⟨-(prm.eCoefficient * (g i).1), -(prm.eCoefficient * (g i).2), 0⟩))).x + half prm q m i * -(prm.eCoefficient * (g i).1),
      (C51.rot (Spec.V3.smul (q i / m i * (prm.dt / 2)) ⟨b.1, b.2.1, b.2.2⟩) (Spec.V3.add ⟨z.2 i 0, z.2 i 1, z.2 i 2⟩ (Spec.V3.smul (q i / m i * (prm.dt / 2)) ⟨-(prm.eCoefficient * (g i).1), -(prm.eCoefficient * (g i).2), 0⟩))).y + half prm q m i * -(prm.eCoefficient * (g i).2),
      (C51.rot (Spec.V3.smul (q i / m i * (prm.dt / 2)) ⟨b.1, b.2.1, b.2.2⟩) (Spec.V3.add ⟨z.2 i 0, z.2 i 1, z.2 i 2⟩ (Spec.V3.smul (q i / m i * (prm.dt / 2)) ⟨-(prm.eCoefficient * (g i).1), -(prm.eCoefficient * (g i).2), 0⟩))).z] j := by
    intro j
    rw [push, rotation_apply]
    fin_cases j <;>
      simp only [kick, half, Spec.V3.smul, Spec.V3.add, Pi.add_apply, Matrix.cons_val, Fin.zero_eta, Fin.mk_one, Fin.reduceFinMk, mul_zero, add_zero]
  have k0 := k 0
  have k1 := k 1
  have k2 := k 2
  simp only [Matrix.cons_val] at k0 k1 k2
  have e := C51.boris2_eq (⟨prm.dt, b.1, b.2.1, b.2.2, prm.eCoefficient⟩ : Boris.Params ℝ) ⟨(s.p i).pos.1, (s.p i).pos.2, ⟨(s.p i).v0, (s.p i).v1, (s.p i).v2⟩, (s.p i).m, (s.p i).q, (g i).1, (g i).2⟩ hmi
  simp only [C51.eField, C51.bField, a2, a3, a4, a5, a6, Spec.V3.add, Spec.V3.smul, add_zero, mul_zero] at e
  simp only [Spec.V3.add, Spec.V3.smul, add_zero, mul_zero, half] at k0 k1 k2
  simp only [flow3, ← hg]
  simp only [boris2P, a2, a3, a4, a5, a6, e, k0, k1, k2, and_true]
  simp only [a1, periodic, wrap_wrap h1, wrap_wrap h2]

/-- **The program computes the flow**: after `n` time steps of the main loop the particles are at the point to which the flow takes the initial one. -/
theorem program (prm : Params) (b : ℝ × ℝ × ℝ) (potential : (ι → (ℝ × ℝ) × ℝ) → U) (gradient : U → ℝ × ℝ → ℝ × ℝ) (fe : U → V) (ke : (ι → Particle) → V) (pe : (ι → Particle) → U → V)
    (q m : ι → ℝ) (hm : ∀ i, m i ≠ 0) (h1 : 1 ≤ prm.extent.1) (h2 : 1 ≤ prm.extent.2) (z : Phase3 ι) (s : St (ι → Particle) U V) (h : At prm q m z s.p) (n : ℕ) :
    At prm q m ((flow3 prm b potential gradient q m)^[n] z) ((advance (borisOps prm b potential gradient fe ke pe))^[n] s).p := by
  induction n with
  | zero => exact h
  | succ n ih =>
    rw [Function.iterate_succ_apply', Function.iterate_succ_apply']
    exact follows prm b potential gradient fe ke pe q m hm h1 h2 _ _ ih

/-! ### Volumes -/

theorem rotation_det (t : Fin 3 → ℝ) : (rotation t).det = 1 := by
  have h : 1 + (t 0 * t 0 + t 1 * t 1 + t 2 * t 2) ≠ 0 := by have := mul_self_nonneg (t 0); have := mul_self_nonneg (t 1); have := mul_self_nonneg (t 2); positivity
  rw [rotation, Matrix.det_fin_three]
  simp only [Matrix.of_apply, Matrix.cons_val]
  field_simp
  ring

theorem rotation_preserves (t : Fin 3 → ℝ) : MeasurePreserving (fun v : Fin 3 → ℝ => (rotation t).mulVec v) volume volume := by
  have h : MeasurePreserving (Matrix.toLin' (rotation t)) volume volume := by
    refine ⟨(Matrix.toLin' (rotation t)).continuous_of_finiteDimensional.measurable, ?_⟩
    rw [Real.map_matrix_volume_pi_eq_smul_volume_pi (by rw [rotation_det]; exact one_ne_zero), rotation_det]
    simp
  exact h

theorem push_preserves [Fintype ι] (prm : Params) (b : ℝ × ℝ × ℝ) (q m : ι → ℝ) (G : ι → ℝ × ℝ) : MeasurePreserving (push prm b q m G) volume volume := by
  refine volume_preserving_pi (f := fun i v => (rotation ![half prm q m i * b.1, half prm q m i * b.2.1, half prm q m i * b.2.2]).mulVec (v + kick prm q m i (G i)) + kick prm q m i (G i)) fun i => ?_
  exact (measurePreserving_add_right volume _).comp ((rotation_preserves _).comp (measurePreserving_add_right volume _))

theorem kick_measurable (prm : Params) (q m : ι → ℝ) (i : ι) : Measurable (kick prm q m i) := by
  refine measurable_pi_lambda _ fun j => ?_
  unfold kick
  fin_cases j
  · exact (measurable_fst.const_mul _).neg.const_mul _
  · exact (measurable_snd.const_mul _).neg.const_mul _
  · exact measurable_const

/-- **Volumes are preserved** by any number of steps of the Boris integrator in phase space, for any number of particles that interact by any potential with measurable gradient, in any magnetic field, for all charges, masses and
time steps. -/
theorem volume_preserved [Fintype ι] (prm : Params) (b : ℝ × ℝ × ℝ) (potential : (ι → (ℝ × ℝ) × ℝ) → U) (gradient : U → ℝ × ℝ → ℝ × ℝ) (q m : ι → ℝ)
    (hG : Measurable (gradientAt prm potential gradient q)) (n : ℕ) : MeasurePreserving (flow3 prm b potential gradient q m)^[n] volume volume := by
  have p : MeasurePreserving (fun z : Phase3 ι => (z.1, push prm b q m (gradientAt prm potential gradient q z.1) z.2)) volume volume := by
    refine MeasurePreserving.skew_product (f := id) (g := fun x v => push prm b q m (gradientAt prm potential gradient q x) v) (MeasurePreserving.id _) ?_ (Filter.Eventually.of_forall fun x => (push_preserves prm b q m _).map_eq)
    refine measurable_pi_lambda _ fun i => ?_
    have k : Measurable fun z : Phase3 ι => kick prm q m i (gradientAt prm potential gradient q z.1 i) :=
      (kick_measurable prm q m i).comp ((measurable_pi_apply i).comp (hG.comp measurable_fst))
    have v : Measurable fun z : Phase3 ι => z.2 i := (measurable_pi_apply i).comp measurable_snd
    exact ((rotation_preserves _).measurable.comp (v.add k)).add k
  have d : MeasurePreserving (fun y : (ι → Fin 3 → ℝ) × (ι → ℝ × ℝ) => (y.1, fun i => ((y.2 i).1 + prm.dt * y.1 i 0, (y.2 i).2 + prm.dt * y.1 i 1))) volume volume := by
    have hp := plane_invariant
    have hl : (volume : Measure (ι → ℝ × ℝ)).IsAddLeftInvariant := Pi.isAddLeftInvariant_volume
    refine MeasurePreserving.skew_product (f := id) (g := fun (v : ι → Fin 3 → ℝ) x => x + fun i => (prm.dt * v i 0, prm.dt * v i 1)) (MeasurePreserving.id _) ?_
      (Filter.Eventually.of_forall fun v => (measurePreserving_add_right volume _).map_eq)
    refine measurable_snd.add (measurable_pi_lambda _ fun i => ?_)
    have v : ∀ j : Fin 3, Measurable fun z : (ι → Fin 3 → ℝ) × (ι → ℝ × ℝ) => z.1 i j := fun j => (measurable_pi_apply j).comp ((measurable_pi_apply i).comp measurable_fst)
    exact ((v 0).const_mul _).prodMk ((v 1).const_mul _)
  have s1 : MeasurePreserving (Prod.swap : Phase3 ι → (ι → Fin 3 → ℝ) × (ι → ℝ × ℝ)) volume volume := Measure.measurePreserving_swap
  have s2 : MeasurePreserving (Prod.swap : (ι → Fin 3 → ℝ) × (ι → ℝ × ℝ) → Phase3 ι) volume volume := Measure.measurePreserving_swap
  exact (s2.comp (d.comp (s1.comp p))).iterate n

/-! ### The hypotheses are met -/

/-- A hundred particles in the potential of a linear field and a magnetic field across the plane. -/
example (n : ℕ) (A : Set (Phase3 (Fin 100))) (hA : MeasurableSet A) :
    volume ((flow3 ⟨1 / 10, 1, (0, 0), (4, 4)⟩ (0, 0, 2) (fun _ => ()) (fun _ _ => (1, 0)) (fun _ => -1) (fun _ => 1))^[n] ⁻¹' A) = volume A :=
  (volume_preserved ⟨1 / 10, 1, (0, 0), (4, 4)⟩ (0, 0, 2) (fun _ => ()) (fun _ _ => (1, 0)) (fun _ : Fin 100 => -1) (fun _ => 1) measurable_const n).measure_preimage hA.nullMeasurableSet

/-- A particle of the program at a point of phase space. -/
example : At ⟨1 / 10, 1, (0, 0), (4, 4)⟩ (fun _ : Unit => -1) (fun _ => 1) (fun _ => (1, 2), fun _ => ![3, 4, 5])
    (fun _ => ⟨periodic ⟨1 / 10, 1, (0, 0), (4, 4)⟩ (1, 2), 3, 4, 5, -1, 1, (0, 0)⟩) := fun _ => ⟨rfl, rfl, rfl, rfl, rfl, rfl⟩

end Verif.Props.C131
