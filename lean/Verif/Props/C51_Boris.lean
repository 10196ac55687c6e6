import Verif.Model.Boris
import Mathlib.Tactic.FieldSimp
import Mathlib.Tactic.Ring
import Mathlib.Tactic.Linarith
import Mathlib.Tactic.LinearCombination
import Mathlib.Tactic.Positivity
import Mathlib.Tactic.NormNum

namespace Verif.Props.C51
open Verif.Model.Boris Verif.Spec

variable {K : Type*} [Field K] [LinearOrder K] [IsStrictOrderedRing K]

/-- The electric field acting on a particle: minus the gradient of the potential, scaled. -/
def eField (prm : Params K) (pt : Particle K) : V3 K :=
  ⟨-(prm.eCoefficient * pt.e0), -(prm.eCoefficient * pt.e1), 0⟩

/-- The magnetic field. -/
def bField (prm : Params K) : V3 K := ⟨prm.b0, prm.b1, prm.b2⟩

/-- The rotation done by the kernel for the scaled field `t`. -/
def rot (t v : V3 K) : V3 K :=
  V3.add v (V3.smul (2 / (1 + V3.dot t t)) (V3.cross (V3.add v (V3.cross v t)) t))

theorem boris2_eq (prm : Params K) (pt : Particle K) (hm : pt.m ≠ 0) :
    boris2 prm pt = some { pt with
      v := V3.add (rot (V3.smul (pt.q / pt.m * (prm.dt / 2)) (bField prm))
          (V3.add pt.v (V3.smul (pt.q / pt.m * (prm.dt / 2)) (eField prm pt))))
          (V3.smul (pt.q / pt.m * (prm.dt / 2)) (eField prm pt))
      p0 := pt.p0 + prm.dt * (V3.add (rot (V3.smul (pt.q / pt.m * (prm.dt / 2)) (bField prm))
          (V3.add pt.v (V3.smul (pt.q / pt.m * (prm.dt / 2)) (eField prm pt))))
          (V3.smul (pt.q / pt.m * (prm.dt / 2)) (eField prm pt))).x
      p1 := pt.p1 + prm.dt * (V3.add (rot (V3.smul (pt.q / pt.m * (prm.dt / 2)) (bField prm))
          (V3.add pt.v (V3.smul (pt.q / pt.m * (prm.dt / 2)) (eField prm pt))))
          (V3.smul (pt.q / pt.m * (prm.dt / 2)) (eField prm pt))).y } := by
  unfold boris2
  rw [if_neg hm]
  simp only [Option.some.injEq, Particle.mk.injEq, V3.add, V3.smul, V3.cross, V3.dot, rot, eField, bField,
    crossProduct3D, and_true]
  have hT : prm.dt * (1 / 2) = prm.dt / 2 := by ring
  rw [hT]
  generalize pt.q / pt.m * (prm.dt / 2) = s
  have hcomm : prm.b0 * s * (prm.b0 * s) + prm.b1 * s * (prm.b1 * s) + prm.b2 * s * (prm.b2 * s) =
      s * prm.b0 * (s * prm.b0) + s * prm.b1 * (s * prm.b1) + s * prm.b2 * (s * prm.b2) := by ring
  rw [hcomm]
  generalize 2 / (1 + (s * prm.b0 * (s * prm.b0) + s * prm.b1 * (s * prm.b1) + s * prm.b2 * (s * prm.b2))) = r
  refine ⟨?_, ?_, ?_⟩
  · ring
  · ring
  · congr 1 <;> ring

theorem dot_self_nonneg (t : V3 K) : 0 ≤ V3.dot t t := by
  unfold V3.dot
  have := mul_self_nonneg t.x; have := mul_self_nonneg t.y; have := mul_self_nonneg t.z
  linarith

theorem rot_spec (t v : V3 K) :
    V3.sub (rot t v) v = V3.cross (V3.add (rot t v) v) t := by
  have h : 1 + V3.dot t t ≠ 0 := by have := dot_self_nonneg t; positivity
  obtain ⟨a, b, c⟩ := t
  obtain ⟨x, y, z⟩ := v
  simp only [V3.dot] at h
  have hr : (2 / (1 + (a * a + b * b + c * c))) * (1 + (a * a + b * b + c * c)) = 2 := by field_simp
  simp only [rot, V3.sub, V3.add, V3.smul, V3.cross, V3.dot, V3.mk.injEq]
  generalize 2 / (1 + (a * a + b * b + c * c)) = r at hr
  refine ⟨?_, ?_, ?_⟩
  · linear_combination (y * c - z * b) * hr
  · linear_combination (z * a - x * c) * hr
  · linear_combination (x * b - y * a) * hr

theorem rot_dot (t v : V3 K) : V3.dot (rot t v) (rot t v) = V3.dot v v := by
  have h := rot_spec t v
  generalize rot t v = w at h
  obtain ⟨a, b, c⟩ := t
  obtain ⟨x, y, z⟩ := v
  obtain ⟨p, q, r⟩ := w
  simp only [V3.sub, V3.add, V3.cross, V3.mk.injEq, V3.dot] at h ⊢
  obtain ⟨h1, h2, h3⟩ := h
  linear_combination (p + x) * h1 + (q + y) * h2 + (r + z) * h3

theorem rot_parallel (t v : V3 K) : V3.dot (rot t v) t = V3.dot v t := by
  have h := rot_spec t v
  generalize rot t v = w at h
  obtain ⟨a, b, c⟩ := t
  obtain ⟨x, y, z⟩ := v
  obtain ⟨p, q, r⟩ := w
  simp only [V3.sub, V3.add, V3.cross, V3.mk.injEq, V3.dot] at h ⊢
  obtain ⟨h1, h2, h3⟩ := h
  linear_combination a * h1 + b * h2 + c * h3

/-- **C51 (scheme).** For every particle with non-zero mass, every field and time step, `boris_2` produces the
velocity which solves the implicit centred (Boris) equation
`V' - V = dt * q/m * (E + (V' + V)/2 × B)`, moves the position with the new velocity
`P' = P + dt * V'`, and changes nothing else. -/
theorem boris_solves_implicit_equation (prm : Params K) (pt : Particle K) (hm : pt.m ≠ 0) :
    ∃ pt', boris2 prm pt = some pt' ∧
      V3.sub pt'.v pt.v = V3.smul (prm.dt * (pt.q / pt.m))
        (V3.add (eField prm pt) (V3.cross (V3.smul (1 / 2) (V3.add pt'.v pt.v)) (bField prm))) ∧
      pt'.p0 = pt.p0 + prm.dt * pt'.v.x ∧ pt'.p1 = pt.p1 + prm.dt * pt'.v.y ∧
      pt'.m = pt.m ∧ pt'.q = pt.q ∧ pt'.e0 = pt.e0 ∧ pt'.e1 = pt.e1 := by
  refine ⟨_, boris2_eq prm pt hm, ?_, rfl, rfl, rfl, rfl, rfl, rfl⟩
  simp only
  have h := rot_spec (V3.smul (pt.q / pt.m * (prm.dt / 2)) (bField prm))
    (V3.add pt.v (V3.smul (pt.q / pt.m * (prm.dt / 2)) (eField prm pt)))
  revert h
  generalize rot (V3.smul (pt.q / pt.m * (prm.dt / 2)) (bField prm))
    (V3.add pt.v (V3.smul (pt.q / pt.m * (prm.dt / 2)) (eField prm pt))) = w
  intro h
  generalize pt.q / pt.m = s at *
  generalize pt.v = v at *
  obtain ⟨x, y, z⟩ := v
  obtain ⟨p, q, r⟩ := w
  simp only [V3.sub, V3.add, V3.cross, V3.smul, V3.mk.injEq, bField, eField] at h ⊢
  obtain ⟨h1, h2, h3⟩ := h
  refine ⟨?_, ?_, ?_⟩
  · linear_combination h1
  · linear_combination h2
  · linear_combination h3

/-- The implicit equation has at most one solution, so it determines the result. -/
theorem implicit_equation_unique (s : K) (e b v w w' : V3 K)
    (h : V3.sub w v = V3.smul s (V3.add e (V3.cross (V3.smul (1 / 2) (V3.add w v)) b)))
    (h' : V3.sub w' v = V3.smul s (V3.add e (V3.cross (V3.smul (1 / 2) (V3.add w' v)) b))) : w = w' := by
  obtain ⟨e1, e2, e3⟩ := e
  obtain ⟨a, b, c⟩ := b
  obtain ⟨x, y, z⟩ := v
  obtain ⟨p, q, r⟩ := w
  obtain ⟨p', q', r'⟩ := w'
  simp only [V3.sub, V3.add, V3.cross, V3.smul, V3.mk.injEq] at h h' ⊢
  obtain ⟨h1, h2, h3⟩ := h
  obtain ⟨k1, k2, k3⟩ := h'
  have g1 : p - p' = s * ((1/2) * ((q - q') * c - (r - r') * b)) := by linear_combination h1 - k1
  have g2 : q - q' = s * ((1/2) * ((r - r') * a - (p - p') * c)) := by linear_combination h2 - k2
  have g3 : r - r' = s * ((1/2) * ((p - p') * b - (q - q') * a)) := by linear_combination h3 - k3
  have hs : (p - p') * (p - p') + (q - q') * (q - q') + (r - r') * (r - r') = 0 := by
    linear_combination (p - p') * g1 + (q - q') * g2 + (r - r') * g3
  have n1 := mul_self_nonneg (p - p')
  have n2 := mul_self_nonneg (q - q')
  have n3 := mul_self_nonneg (r - r')
  refine ⟨sub_eq_zero.1 (mul_self_eq_zero.1 ?_), sub_eq_zero.1 (mul_self_eq_zero.1 ?_),
    sub_eq_zero.1 (mul_self_eq_zero.1 ?_)⟩ <;> linarith

/-- **C51 (energy).** With no electric field, any number of steps keeps the speed and the velocity component
along the magnetic field. -/
theorem boris_conserves_energy (prm : Params K) (pt : Particle K) (hm : pt.m ≠ 0) (n : ℕ) :
    ∃ pt', borisSteps prm (fun _ => (0, 0)) n pt = some pt' ∧ pt'.m = pt.m ∧
      V3.dot pt'.v pt'.v = V3.dot pt.v pt.v ∧ V3.dot pt'.v (bField prm) = V3.dot pt.v (bField prm) := by
  induction n with
  | zero => exact ⟨pt, rfl, rfl, rfl, rfl⟩
  | succ n ih =>
    obtain ⟨p1, h1, hm1, h2, h3⟩ := ih
    simp only [borisSteps, h1, Option.bind_some]
    set q : Particle K := { p1 with e0 := 0, e1 := 0 } with hq
    have hqm : q.m ≠ 0 := by rw [hq]; simpa [hm1] using hm
    obtain ⟨p2, e2, heq, -, -, hm2, -, -, -⟩ := boris_solves_implicit_equation prm q hqm
    refine ⟨p2, e2, by rw [hm2]; exact hm1, ?_, ?_⟩
    · rw [← h2]
      have hv : q.v = p1.v := rfl
      rw [hv] at heq
      generalize prm.dt * (q.q / q.m) = s at heq
      generalize p1.v = v at *
      generalize p2.v = w at *
      obtain ⟨x, y, z⟩ := v
      obtain ⟨p, q', r⟩ := w
      simp only [V3.sub, V3.add, V3.cross, V3.smul, V3.mk.injEq, bField, eField, V3.dot, hq, mul_zero,
        neg_zero] at heq ⊢
      obtain ⟨k1, k2, k3⟩ := heq
      linear_combination (p + x) * k1 + (q' + y) * k2 + (r + z) * k3
    · rw [← h3]
      have hv : q.v = p1.v := rfl
      rw [hv] at heq
      generalize prm.dt * (q.q / q.m) = s at heq
      generalize p1.v = v at *
      generalize p2.v = w at *
      obtain ⟨x, y, z⟩ := v
      obtain ⟨p, q', r⟩ := w
      simp only [V3.sub, V3.add, V3.cross, V3.smul, V3.mk.injEq, bField, eField, V3.dot, hq, mul_zero,
        neg_zero] at heq ⊢
      obtain ⟨k1, k2, k3⟩ := heq
      linear_combination prm.b0 * k1 + prm.b1 * k2 + prm.b2 * k3

/-- **C51 (reversibility).** A step with `dt` followed by a step with `-dt` in the same field restores
the velocity exactly. -/
theorem boris_reversible (prm : Params K) (pt p1 p2 : Particle K) (hm : pt.m ≠ 0)
    (h1 : boris2 prm pt = some p1) (h2 : boris2 { prm with dt := -prm.dt } p1 = some p2) :
    p2.v = pt.v := by
  obtain ⟨q1, e1, k1, -, -, hm1, hq1, he0, he1⟩ := boris_solves_implicit_equation prm pt hm
  obtain rfl : q1 = p1 := by rw [h1] at e1; exact (Option.some.inj e1).symm
  obtain ⟨q2, e2, k2, -, -, -, -, -, -⟩ :=
    boris_solves_implicit_equation { prm with dt := -prm.dt } q1 (by rw [hm1]; exact hm)
  obtain rfl : q2 = p2 := by rw [h2] at e2; exact (Option.some.inj e2).symm
  refine implicit_equation_unique (-prm.dt * (pt.q / pt.m)) (eField prm pt) (bField prm) q1.v _ _ ?_ ?_
  · rw [hm1, hq1] at k2
    have : eField { prm with dt := -prm.dt } q1 = eField prm pt := by simp [eField, he0, he1]
    rw [this] at k2
    exact k2
  · generalize pt.q / pt.m = s at k1 ⊢
    generalize pt.v = v at *
    generalize q1.v = w at *
    generalize eField prm pt = e at *
    generalize bField prm = b at *
    obtain ⟨x, y, z⟩ := v
    obtain ⟨p, q', r⟩ := w
    simp only [V3.sub, V3.add, V3.cross, V3.smul, V3.mk.injEq] at k1 ⊢
    obtain ⟨k1, k2, k3⟩ := k1
    exact ⟨by linear_combination -k1, by linear_combination -k2, by linear_combination -k3⟩

/-- Non-vacuity. -/
example : ∃ pt' : Particle ℚ, boris2 ⟨1, 0, 0, 2, 1⟩ ⟨0, 0, ⟨1, 0, 3⟩, 1, 1, 0, 0⟩ = some pt' ∧
    pt'.v = ⟨0, -1, 3⟩ ∧ pt'.p1 = -1 := by
  refine ⟨_, by unfold boris2; rw [if_neg (by norm_num)], ?_, ?_⟩ <;>
    norm_num [crossProduct3D]

end Verif.Props.C51
