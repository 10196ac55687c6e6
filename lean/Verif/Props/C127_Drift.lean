import Verif.Props.C51_Boris
import Mathlib.Data.Real.Basic
import Mathlib.Tactic.FieldSimp
import Mathlib.Tactic.LinearCombination

/-!
# C127: gyration and drift

In constant fields a charged particle gyrates around a centre that moves with the drift velocity `E × B / B^2`. The electrostatic solver is used for waves of magnetised plasmas (electron Bernstein waves), whose users rely on gyration
and drift being right over as many steps as they run, for whatever time step.
-/

namespace Verif.Props.C127
open Verif.Model.Boris Verif.Spec Verif.Props.C51

/-! ### Specification -/

/-- The electric field, for the gradient `g` of the potential. -/
def electric (prm : Params ℝ) (g : ℝ × ℝ) : V3 ℝ := ⟨-(prm.eCoefficient * g.1), -(prm.eCoefficient * g.2), 0⟩

/-- The magnetic field. -/
def magnetic (prm : Params ℝ) : V3 ℝ := ⟨prm.b0, prm.b1, prm.b2⟩

/-- The drift velocity `E × B / B^2`. -/
noncomputable def drift (prm : Params ℝ) (g : ℝ × ℝ) : V3 ℝ := V3.smul (1 / V3.dot (magnetic prm) (magnetic prm)) (V3.cross (electric prm g) (magnetic prm))

/-- The velocity relative to the drift. -/
noncomputable def relative (prm : Params ℝ) (g : ℝ × ℝ) (v : V3 ℝ) : V3 ℝ := V3.sub v (drift prm g)

/-! ### The implicit equation -/

theorem step_equation (prm : Params ℝ) (g : ℝ × ℝ) (pt : Particle ℝ) (hm : pt.m ≠ 0) :
    ∃ pt', boris2 prm { pt with e0 := g.1, e1 := g.2 } = some pt' ∧
      V3.sub pt'.v pt.v = V3.smul (prm.dt * (pt.q / pt.m)) (V3.add (electric prm g) (V3.cross (V3.smul (1 / 2) (V3.add pt'.v pt.v)) (magnetic prm))) ∧
      pt'.p0 = pt.p0 + prm.dt * pt'.v.x ∧ pt'.p1 = pt.p1 + prm.dt * pt'.v.y ∧ pt'.m = pt.m ∧ pt'.q = pt.q := by
  obtain ⟨p2, e2, heq, h0, h1, hm2, hq2, -, -⟩ := boris_solves_implicit_equation prm { pt with e0 := g.1, e1 := g.2 } hm
  refine ⟨p2, e2, ?_, h0, h1, hm2, hq2⟩
  rw [heq]
  simp only [eField, bField, electric, magnetic, V3.smul, V3.add, V3.cross, V3.mk.injEq]

/-! ### Velocities in any constant fields -/

/-- **Velocities**: along the magnetic field the particle is accelerated by the electric field as in the exact motion; across it, the velocity relative to the drift keeps its magnitude, over any number of steps of any size. -/
theorem velocity (prm : Params ℝ) (g : ℝ × ℝ) (pt : Particle ℝ) (hm : pt.m ≠ 0) (hB : V3.dot (magnetic prm) (magnetic prm) ≠ 0) (n : ℕ) :
    ∃ pt', borisSteps prm (fun _ => g) n pt = some pt' ∧ pt'.m = pt.m ∧ pt'.q = pt.q ∧
      V3.dot pt'.v (magnetic prm) = V3.dot pt.v (magnetic prm) + n * prm.dt * (pt.q / pt.m) * V3.dot (electric prm g) (magnetic prm) ∧
      V3.dot (V3.cross (relative prm g pt'.v) (magnetic prm)) (V3.cross (relative prm g pt'.v) (magnetic prm)) =
        V3.dot (V3.cross (relative prm g pt.v) (magnetic prm)) (V3.cross (relative prm g pt.v) (magnetic prm)) := by
  induction n with
  | zero => exact ⟨pt, rfl, rfl, rfl, by simp, rfl⟩
  | succ n ih =>
    obtain ⟨p1, h1, hm1, hq1, h2, h3⟩ := ih
    obtain ⟨p2, e2, heq, -, -, hm2, hq2⟩ := step_equation prm g p1 (by rw [hm1]; exact hm)
    refine ⟨p2, by simp only [borisSteps, h1, Option.bind_some]; exact e2, hm2.trans hm1, hq2.trans hq1, ?_, ?_⟩
    · rw [hm1, hq1] at heq
      push_cast
      rw [show (↑n + 1 : ℝ) * prm.dt * (pt.q / pt.m) * V3.dot (electric prm g) (magnetic prm) =
        n * prm.dt * (pt.q / pt.m) * V3.dot (electric prm g) (magnetic prm) + prm.dt * (pt.q / pt.m) * V3.dot (electric prm g) (magnetic prm) by ring, ← add_assoc, ← h2]
      generalize prm.dt * (pt.q / pt.m) = s at heq
      generalize electric prm g = E at heq
      generalize magnetic prm = B at heq
      generalize p1.v = v at heq
      generalize p2.v = w at heq
      obtain ⟨a, b, c⟩ := B
      obtain ⟨x, y, z⟩ := v
      obtain ⟨p, q, r⟩ := w
      obtain ⟨l, m, k⟩ := E
      simp only [V3.sub, V3.add, V3.cross, V3.smul, V3.mk.injEq, V3.dot] at heq ⊢
      obtain ⟨k1, k2, k3⟩ := heq
      linear_combination a * k1 + b * k2 + c * k3
    · rw [← h3]
      generalize prm.dt * (p1.q / p1.m) = s at heq
      unfold relative drift
      generalize electric prm g = E at heq
      generalize magnetic prm = B at heq hB
      generalize p1.v = v at heq
      generalize p2.v = w at heq
      obtain ⟨a, b, c⟩ := B
      obtain ⟨x, y, z⟩ := v
      obtain ⟨p, q, r⟩ := w
      obtain ⟨l, m, k⟩ := E
      simp only [V3.sub, V3.add, V3.cross, V3.smul, V3.mk.injEq, V3.dot] at heq hB ⊢
      obtain ⟨k1, k2, k3⟩ := heq
      have hi : 1 / (a * a + b * b + c * c) * (a * a + b * b + c * c) = 1 := one_div_mul_cancel hB
      generalize 1 / (a * a + b * b + c * c) = i at hi
      -- the drift
      obtain ⟨d1, hd1⟩ : ∃ d, d = i * (m * c - k * b) := ⟨_, rfl⟩
      obtain ⟨d2, hd2⟩ : ∃ d, d = i * (k * a - l * c) := ⟨_, rfl⟩
      obtain ⟨d3, hd3⟩ : ∃ d, d = i * (l * b - m * a) := ⟨_, rfl⟩
      rw [← hd1, ← hd2, ← hd3]
      -- the electric field across the magnetic field is balanced
      have b1 : (m + d3 * a - d1 * c) * c - (k + d1 * b - d2 * a) * b = 0 := by rw [hd1, hd2, hd3]; linear_combination -(m * c - k * b) * hi
      have b2 : (k + d1 * b - d2 * a) * a - (l + d2 * c - d3 * b) * c = 0 := by rw [hd1, hd2, hd3]; linear_combination -(k * a - l * c) * hi
      have b3 : (l + d2 * c - d3 * b) * b - (m + d3 * a - d1 * c) * a = 0 := by rw [hd1, hd2, hd3]; linear_combination -(l * b - m * a) * hi
      clear hd1 hd2 hd3 hi hB
      obtain ⟨u1, rfl⟩ : ∃ u, x = u + d1 := ⟨x - d1, by ring⟩
      obtain ⟨u2, rfl⟩ : ∃ u, y = u + d2 := ⟨y - d2, by ring⟩
      obtain ⟨u3, rfl⟩ : ∃ u, z = u + d3 := ⟨z - d3, by ring⟩
      obtain ⟨w1, rfl⟩ : ∃ u, p = u + d1 := ⟨p - d1, by ring⟩
      obtain ⟨w2, rfl⟩ : ∃ u, q = u + d2 := ⟨q - d2, by ring⟩
      obtain ⟨w3, rfl⟩ : ∃ u, r = u + d3 := ⟨r - d3, by ring⟩
      simp only [add_sub_cancel_right] at k1 k2 k3 ⊢
      have c1 : (w2 - u2) * c - (w3 - u3) * b = s / 2 * (((w3 + u3) * a - (w1 + u1) * c) * c - ((w1 + u1) * b - (w2 + u2) * a) * b) := by
        linear_combination c * k2 - b * k3 + s * b1
      have c2 : (w3 - u3) * a - (w1 - u1) * c = s / 2 * (((w1 + u1) * b - (w2 + u2) * a) * a - ((w2 + u2) * c - (w3 + u3) * b) * c) := by
        linear_combination a * k3 - c * k1 + s * b2
      have c3 : (w1 - u1) * b - (w2 - u2) * a = s / 2 * (((w2 + u2) * c - (w3 + u3) * b) * b - ((w3 + u3) * a - (w1 + u1) * c) * a) := by
        linear_combination b * k1 - a * k2 + s * b3
      linear_combination ((w2 + u2) * c - (w3 + u3) * b) * c1 + ((w3 + u3) * a - (w1 + u1) * c) * c2 + ((w1 + u1) * b - (w2 + u2) * a) * c3

/-! ### Positions in a magnetic field across the plane -/

/-- **Gyration and drift**: in a magnetic field across the plane of the simulation and a constant electric field there is a centre that moves with exactly the drift velocity `(E_y / B, -E_x / B)`, and the distance of the particle
from it is the same after every step: that of the exact motion, `m |v - drift| / (q B)`, but for the half step `dt / 2 |v - drift|` by which positions and velocities are apart. This holds for any number of steps of any size. -/
theorem gyration (prm : Params ℝ) (g : ℝ × ℝ) (pt : Particle ℝ) (hm : pt.m ≠ 0) (hq : pt.q ≠ 0) (h0 : prm.b0 = 0) (h1 : prm.b1 = 0) (hB : prm.b2 ≠ 0) :
    ∃ centre : ℝ × ℝ, ∀ n : ℕ, ∃ pt', borisSteps prm (fun _ => g) n pt = some pt' ∧
      (pt'.p0 - (centre.1 + n * prm.dt * ((electric prm g).y / prm.b2))) ^ 2 + (pt'.p1 - (centre.2 - n * prm.dt * ((electric prm g).x / prm.b2))) ^ 2 =
        ((pt.m / (pt.q * prm.b2)) ^ 2 + (prm.dt / 2) ^ 2) * ((pt.v.x - (electric prm g).y / prm.b2) ^ 2 + (pt.v.y + (electric prm g).x / prm.b2) ^ 2) ∧
      pt'.v.z = pt.v.z := by
  obtain ⟨dx, hdx⟩ : ∃ d, d = (electric prm g).y / prm.b2 := ⟨_, rfl⟩
  obtain ⟨dy, hdy⟩ : ∃ d, d = -((electric prm g).x / prm.b2) := ⟨_, rfl⟩
  have key : ∀ n : ℕ, ∃ pt', borisSteps prm (fun _ => g) n pt = some pt' ∧ pt'.m = pt.m ∧ pt'.q = pt.q ∧
      pt'.p0 + pt.m / (pt.q * prm.b2) * (pt'.v.y - dy) - prm.dt / 2 * (pt'.v.x - dx) = pt.p0 + pt.m / (pt.q * prm.b2) * (pt.v.y - dy) - prm.dt / 2 * (pt.v.x - dx) + n * prm.dt * dx ∧
      pt'.p1 - pt.m / (pt.q * prm.b2) * (pt'.v.x - dx) - prm.dt / 2 * (pt'.v.y - dy) = pt.p1 - pt.m / (pt.q * prm.b2) * (pt.v.x - dx) - prm.dt / 2 * (pt.v.y - dy) + n * prm.dt * dy ∧
      (pt'.v.x - dx) ^ 2 + (pt'.v.y - dy) ^ 2 = (pt.v.x - dx) ^ 2 + (pt.v.y - dy) ^ 2 ∧ pt'.v.z = pt.v.z := by
    intro n
    induction n with
    | zero => exact ⟨pt, rfl, rfl, rfl, by simp, by simp, rfl, rfl⟩
    | succ n ih =>
      obtain ⟨p1, e1, hm1, hq1, i1, i2, i3, i4⟩ := ih
      obtain ⟨p2, e2, heq, x2, y2, hm2, hq2⟩ := step_equation prm g p1 (by rw [hm1]; exact hm)
      rw [hm1, hq1] at heq
      have hex : (electric prm g).y = dx * prm.b2 := by rw [hdx]; field_simp
      have hey : (electric prm g).x = -(dy * prm.b2) := by rw [hdy]; field_simp
      have hez : (electric prm g).z = 0 := rfl
      simp only [V3.sub, V3.add, V3.cross, V3.smul, V3.mk.injEq, magnetic, h0, h1, hex, hey, hez] at heq
      obtain ⟨k1, k2, k3⟩ := heq
      have hs : pt.m / (pt.q * prm.b2) * (prm.dt * (pt.q / pt.m)) * prm.b2 = prm.dt := by field_simp
      refine ⟨p2, by simp only [borisSteps, e1, Option.bind_some]; exact e2, hm2.trans hm1, hq2.trans hq1, ?_, ?_, ?_, ?_⟩
      · push_cast
        rw [x2]
        linear_combination i1 + pt.m / (pt.q * prm.b2) * k2 + ((dx : ℝ) - 1 / 2 * (p2.v.x + p1.v.x)) * hs
      · push_cast
        rw [y2]
        linear_combination i2 - pt.m / (pt.q * prm.b2) * k1 + ((dy : ℝ) - 1 / 2 * (p2.v.y + p1.v.y)) * hs
      · rw [← i3]
        linear_combination (p2.v.x + p1.v.x - 2 * dx) * k1 + (p2.v.y + p1.v.y - 2 * dy) * k2
      · rw [← i4]
        linear_combination k3
  refine ⟨(pt.p0 + pt.m / (pt.q * prm.b2) * (pt.v.y - dy) - prm.dt / 2 * (pt.v.x - dx), pt.p1 - pt.m / (pt.q * prm.b2) * (pt.v.x - dx) - prm.dt / 2 * (pt.v.y - dy)), fun n => ?_⟩
  obtain ⟨p1, e1, -, -, i1, i2, i3, i4⟩ := key n
  refine ⟨p1, e1, ?_, i4⟩
  rw [← hdx, show ∀ a b : ℝ, a - b * ((electric prm g).x / prm.b2) = a + b * dy by intro a b; rw [hdy]; ring, show pt.v.y + (electric prm g).x / prm.b2 = pt.v.y - dy by rw [hdy]; ring]
  dsimp only
  rw [← i1, ← i2, ← i3]
  ring

/-- **The drift is exact**: a particle that moves with the drift velocity is not deflected, for any number of steps of any size. -/
theorem drifting (prm : Params ℝ) (g : ℝ × ℝ) (pt : Particle ℝ) (hm : pt.m ≠ 0) (hq : pt.q ≠ 0) (h0 : prm.b0 = 0) (h1 : prm.b1 = 0) (hB : prm.b2 ≠ 0)
    (hx : pt.v.x = (electric prm g).y / prm.b2) (hy : pt.v.y = -((electric prm g).x / prm.b2)) (n : ℕ) :
    ∃ pt', borisSteps prm (fun _ => g) n pt = some pt' ∧ pt'.p0 = pt.p0 + n * prm.dt * pt.v.x ∧ pt'.p1 = pt.p1 + n * prm.dt * pt.v.y := by
  obtain ⟨c, hc⟩ := gyration prm g pt hm hq h0 h1 hB
  have zero : ∀ n : ℕ, ∃ pt', borisSteps prm (fun _ => g) n pt = some pt' ∧ pt'.p0 = c.1 + n * prm.dt * pt.v.x ∧ pt'.p1 = c.2 + n * prm.dt * pt.v.y := by
    intro n
    obtain ⟨p, hp, h, -⟩ := hc n
    refine ⟨p, hp, ?_⟩
    rw [← hx, show c.2 - n * prm.dt * ((electric prm g).x / prm.b2) = c.2 + n * prm.dt * pt.v.y by rw [hy]; ring, show pt.v.y + (electric prm g).x / prm.b2 = 0 by rw [hy]; ring] at h
    have h' : (p.p0 - (c.1 + n * prm.dt * pt.v.x)) ^ 2 + (p.p1 - (c.2 + n * prm.dt * pt.v.y)) ^ 2 = 0 := by rw [h]; ring
    have a := sq_nonneg (p.p0 - (c.1 + n * prm.dt * pt.v.x))
    have b := sq_nonneg (p.p1 - (c.2 + n * prm.dt * pt.v.y))
    have e1 := pow_eq_zero_iff (two_ne_zero) |>.1 (le_antisymm (by linarith) a)
    have e2 := pow_eq_zero_iff (two_ne_zero) |>.1 (le_antisymm (by linarith) b)
    exact ⟨by linarith, by linarith⟩
  obtain ⟨p0, e0, z1, z2⟩ := zero 0
  obtain rfl : pt = p0 := by simpa [borisSteps] using e0
  obtain ⟨p, e, y1, y2⟩ := zero n
  simp at z1 z2
  exact ⟨p, e, by rw [y1, ← z1], by rw [y2, ← z2]⟩

/-! ### The hypotheses are met -/

/-- A field along `y` and a magnetic field of 2: the drift is along `x`, and after a million steps of size 3 (half a turn would take less) the particle is within its radius of the centre. -/
example : ∃ c : ℝ × ℝ, ∃ pt', borisSteps (⟨3, 0, 0, 2, 1⟩ : Params ℝ) (fun _ => (0, -4)) 1000000 ⟨0, 0, ⟨5, 0, 1⟩, 1, -1, 0, 0⟩ = some pt' ∧
    (pt'.p0 - (c.1 + 6000000)) ^ 2 + (pt'.p1 - c.2) ^ 2 = 45 / 2 := by
  obtain ⟨c, hc⟩ := gyration ⟨3, 0, 0, 2, 1⟩ (0, -4) ⟨0, 0, ⟨5, 0, 1⟩, 1, -1, 0, 0⟩ one_ne_zero (by norm_num) rfl rfl two_ne_zero
  obtain ⟨p, hp, h, -⟩ := hc 1000000
  refine ⟨c, p, hp, ?_⟩
  norm_num [electric] at h
  exact h

end Verif.Props.C127
