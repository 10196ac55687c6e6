import Verif.Lemmas.FloatBoris
import Verif.Lemmas.FloatBary
import Verif.Lemmas.RoundingModes
import Verif.Props.C51_Boris

/-!
# C106: the Boris push in floating point arithmetic

The particles of the Electrostatic2D3V solver are moved by very many Boris steps. Users rely on the velocities following the Boris scheme, and on a magnetic field not heating or cooling
the particles, whatever the rounding mode, whatever operations the compiler fuses and however strong the field is.
-/

namespace Verif.Props.C106
open Verif.Model Verif.Model.FloatBoris Verif.Spec Verif.Spec.Rounding Verif.Spec.FloatBary Verif.Lemmas.Rounding Verif.Lemmas.FloatBary Verif.Lemmas.FloatBoris

variable {rnd : ℝ → ℝ}

/-- The rounding unit of `double` in the directed modes. -/
noncomputable def unit : ℝ := (2 : ℝ) ^ (-52 : ℤ)

/-- The magnitude of a vector. -/
noncomputable def norm (v : V3 ℝ) : ℝ := Real.sqrt (V3.dot v v)

/-- The velocity and the change by the electric field in a step: errors are relative to this. -/
noncomputable def scale (prm : Boris.Params ℝ) (pt : Boris.Particle ℝ) : ℝ :=
  norm pt.v + 2 * (|pt.q / pt.m * (prm.dt / 2) * prm.eCoefficient| * norm ⟨pt.e0, pt.e1, 0⟩)

/-- The sizes: what is computed is zero or far from underflow, and the rotation is far from overflow. -/
structure Sizes (prm : Boris.Params ℝ) (pt : Boris.Particle ℝ) : Prop where
  mass : pt.m ≠ 0
  step : (2 : ℝ) ^ (-1000 : ℤ) ≤ |prm.dt / 2|
  ratio : pt.q = 0 ∨ (2 : ℝ) ^ (-1000 : ℤ) ≤ |pt.q / pt.m|
  scaling : pt.q = 0 ∨ (2 : ℝ) ^ (-1000 : ℤ) ≤ |pt.q / pt.m * (prm.dt / 2)|
  field0 : pt.q = 0 ∨ prm.b0 = 0 ∨ (2 : ℝ) ^ (-1000 : ℤ) ≤ |prm.b0 * (pt.q / pt.m * (prm.dt / 2))|
  field1 : pt.q = 0 ∨ prm.b1 = 0 ∨ (2 : ℝ) ^ (-1000 : ℤ) ≤ |prm.b1 * (pt.q / pt.m * (prm.dt / 2))|
  field2 : pt.q = 0 ∨ prm.b2 = 0 ∨ (2 : ℝ) ^ (-1000 : ℤ) ≤ |prm.b2 * (pt.q / pt.m * (prm.dt / 2))|
  angle0 : |prm.b0 * (pt.q / pt.m * (prm.dt / 2))| ≤ 2 ^ 400
  angle1 : |prm.b1 * (pt.q / pt.m * (prm.dt / 2))| ≤ 2 ^ 400
  angle2 : |prm.b2 * (pt.q / pt.m * (prm.dt / 2))| ≤ 2 ^ 400
  speed : (2 : ℝ) ^ (-900 : ℤ) ≤ scale prm pt
  coefficient : |prm.eCoefficient| ≤ 2 ^ 100

theorem unit_pos : 0 < unit := two_pos _
theorem unit_le : unit ≤ 1 / 1000000 := by unfold unit; norm_num
theorem unit_eq : (2 : ℝ) ^ (1 - ((53 : ℕ) : ℤ)) = unit := by unfold unit; norm_num

theorem err (R : DoubleRounding rnd) (x : ℝ) : |rnd x - x| ≤ unit * |x| + (2 : ℝ) ^ (-1074 : ℤ) := by
  have := error R (by norm_num) x
  rwa [unit_eq] at this

/-- Far from underflow the errors are relative. -/
theorem err_rel (R : DoubleRounding rnd) {x : ℝ} (h : x = 0 ∨ (2 : ℝ) ^ (-1001 : ℤ) ≤ |x|) : |rnd x - x| ≤ unit * |x| := by
  rcases h with h | h
  · rw [h, rnd_zero R]; simp
  · have := error_rel R (by norm_num) (x := x) (lt_of_lt_of_le ?_ h)
    · rwa [unit_eq] at this
    · rw [show (2 : ℝ) ^ 53 = 2 ^ (53 : ℤ) by norm_cast, ← zpow_add₀ (by norm_num : (2 : ℝ) ≠ 0)]
      exact zpow_lt_zpow_right₀ (by norm_num) (by norm_num)

theorem half_pow : (2 : ℝ) ^ (-1001 : ℤ) = 2 ^ (-1000 : ℤ) / 2 := by
  rw [show (-1001 : ℤ) = -1000 - 1 by norm_num, zpow_sub₀ (by norm_num : (2 : ℝ) ≠ 0)]; norm_num

theorem half_abs {a b e : ℝ} (h : |a - b| ≤ e * |b|) (he : e ≤ 1 / 4) : |b| / 2 ≤ |a| := by
  have h1 : |b| ≤ |a| + |a - b| := by
    have : b = a - (a - b) := by ring
    calc |b| = |a - (a - b)| := by rw [← this]
      _ ≤ |a| + |a - b| := abs_sub _ _
  nlinarith [abs_nonneg b]

/-- The computed `scaling_t` has a relative error of at most four units. -/
theorem scaling_rel (R : DoubleRounding rnd) {prm : Boris.Params ℝ} {pt : Boris.Particle ℝ} (S : Sizes prm pt) :
    |scalingF rnd prm.dt pt.q pt.m - pt.q / pt.m * (prm.dt / 2)| ≤ 4 * unit * |pt.q / pt.m * (prm.dt / 2)| := by
  have hu := unit_pos
  have hul := unit_le
  have hh := half_pow
  have hp := two_pos (-1000)
  unfold scalingF
  rw [show prm.dt * (1 / 2) = prm.dt / 2 by ring]
  by_cases hq : pt.q = 0
  · rw [hq]; simp [rnd_zero R]
  have h1 := err_rel R (x := pt.q / pt.m) (Or.inr (by have := S.ratio.resolve_left hq; linarith))
  have h2 := err_rel R (x := prm.dt / 2) (Or.inr (by have := S.step; linarith))
  have h3 := S.scaling.resolve_left hq
  set a := pt.q / pt.m
  set b := prm.dt / 2
  have h4 := mul_err h1 h2 le_rfl le_rfl
  have h5 : |a| * (unit * |b|) + |b| * (unit * |a|) + unit * |a| * (unit * |b|) = (2 * unit + unit * unit) * |a * b| := by rw [abs_mul]; ring
  rw [h5] at h4
  have h6 := half_abs h4 (by nlinarith)
  have h7 := err_rel R (x := rnd a * rnd b) (Or.inr (by linarith))
  have h8 : |rnd a * rnd b| ≤ |a * b| * (1 + (2 * unit + unit * unit)) := by
    have : rnd a * rnd b = a * b + (rnd a * rnd b - a * b) := by ring
    rw [this]
    refine (abs_add_le _ _).trans ?_
    linarith
  have h9 : rnd (rnd a * rnd b) - a * b = (rnd (rnd a * rnd b) - rnd a * rnd b) + (rnd a * rnd b - a * b) := by ring
  rw [h9]
  refine (abs_add_le _ _).trans ?_
  have h10 : unit * |rnd a * rnd b| ≤ unit * (|a * b| * (1 + (2 * unit + unit * unit))) := mul_le_mul_of_nonneg_left h8 hu.le
  have h11 : unit * (1 + (2 * unit + unit * unit)) + (2 * unit + unit * unit) ≤ 4 * unit := by nlinarith
  have := mul_le_mul_of_nonneg_right h11 (abs_nonneg (a * b))
  linarith

/-- A computed component of the scaled field is the one of a field with a relative error of one unit. -/
theorem field_rel (R : DoubleRounding rnd) {b sc s : ℝ} (hs : |sc - s| ≤ 4 * unit * |s|) (h : s = 0 ∨ b = 0 ∨ (2 : ℝ) ^ (-1000 : ℤ) ≤ |b * s|) :
    ∃ b', |b' - b| ≤ unit * |b| ∧ rnd (b * sc) = b' * sc ∧ |rnd (b * sc)| ≤ 2 * |b * s| := by
  have hu := unit_pos
  have hul := unit_le
  have hh := half_pow
  have hp := two_pos (-1000)
  by_cases hs0 : sc = 0
  · refine ⟨b, by simp; positivity, ?_, ?_⟩
    · rw [hs0, mul_zero, rnd_zero R]
    · rw [hs0, mul_zero, rnd_zero R, abs_zero]; positivity
  have hrel : |rnd (b * sc) - b * sc| ≤ unit * |b * sc| := by
    apply err_rel R
    rcases h with h | h | h
    · exfalso; rw [h, abs_zero, mul_zero, sub_zero] at hs
      exact hs0 (abs_eq_zero.mp (le_antisymm hs (abs_nonneg _)))
    · left; rw [h, zero_mul]
    · right
      have h1 := half_abs hs (by linarith)
      rw [abs_mul] at h ⊢
      have := mul_le_mul_of_nonneg_left h1 (abs_nonneg b)
      linarith
  refine ⟨rnd (b * sc) / sc, ?_, by field_simp, ?_⟩
  · have : rnd (b * sc) / sc - b = (rnd (b * sc) - b * sc) / sc := by field_simp
    rw [this, abs_div, div_le_iff₀ (abs_pos.mpr hs0)]
    rw [abs_mul] at hrel
    linarith
  · have h1 : |rnd (b * sc)| ≤ (1 + unit) * |b * sc| := by
      have : rnd (b * sc) = b * sc + (rnd (b * sc) - b * sc) := by ring
      rw [this]; refine (abs_add_le _ _).trans ?_; linarith
    have h2 : |sc| ≤ (1 + 4 * unit) * |s| := by
      have : sc = s + (sc - s) := by ring
      rw [this]; refine (abs_add_le _ _).trans ?_; linarith
    rw [abs_mul] at h1 ⊢
    have h3 : |b| * |sc| ≤ |b| * ((1 + 4 * unit) * |s|) := mul_le_mul_of_nonneg_left h2 (abs_nonneg _)
    have h4 : (1 + unit) * (|b| * |sc|) ≤ (1 + unit) * (|b| * ((1 + 4 * unit) * |s|)) := mul_le_mul_of_nonneg_left h3 (by linarith)
    have h5 : (1 + unit) * (1 + 4 * unit) ≤ 2 := by nlinarith
    have h6 := mul_le_mul_of_nonneg_right h5 (mul_nonneg (abs_nonneg b) (abs_nonneg s))
    linarith

theorem comp_le (v : V3 ℝ) : Le v (norm v) := by
  have h : 0 ≤ V3.dot v v := by unfold V3.dot; nlinarith [mul_self_nonneg v.x, mul_self_nonneg v.y, mul_self_nonneg v.z]
  exact comp_sq_le (Real.sqrt_nonneg _) (Real.sq_sqrt h)

theorem sq_bound {x y M : ℝ} (h1 : |x| ≤ 2 * y) (h2 : y ≤ M) : x * x ≤ 4 * (M * M) := by
  have h3 : |x| ≤ 2 * M := by linarith
  have h4 := mul_le_mul h3 h3 (abs_nonneg _) ((abs_nonneg _).trans h3)
  rw [abs_mul_abs_self] at h4
  linarith

theorem dot_bound {x y z M : ℝ} (hM : 1 ≤ M) (h1 : x * x ≤ 4 * (M * M)) (h2 : y * y ≤ 4 * (M * M)) (h3 : z * z ≤ 4 * (M * M)) :
    1 + V3.dot (⟨x, y, z⟩ : V3 ℝ) ⟨x, y, z⟩ ≤ 16 * (M * M) := by
  unfold V3.dot; dsimp only
  nlinarith

/-- The exact step of C51 in terms of the scaled field and the change by the electric field. -/
theorem exact_step (prm : Boris.Params ℝ) (pt : Boris.Particle ℝ) (hm : pt.m ≠ 0) : ∃ pt', Boris.boris2 prm pt = some pt' ∧
    pt'.v = exactVel ⟨prm.b0 * (pt.q / pt.m * (prm.dt / 2)), prm.b1 * (pt.q / pt.m * (prm.dt / 2)), prm.b2 * (pt.q / pt.m * (prm.dt / 2))⟩
      ⟨-pt.e0 * (pt.q / pt.m * (prm.dt / 2)) * prm.eCoefficient, -pt.e1 * (pt.q / pt.m * (prm.dt / 2)) * prm.eCoefficient, 0⟩ pt.v := by
  refine ⟨_, C51.boris2_eq prm pt hm, ?_⟩
  dsimp only
  generalize pt.q / pt.m * (prm.dt / 2) = s
  have hd : V3.dot (V3.smul s (C51.bField prm)) (V3.smul s (C51.bField prm)) = V3.dot ⟨prm.b0 * s, prm.b1 * s, prm.b2 * s⟩ ⟨prm.b0 * s, prm.b1 * s, prm.b2 * s⟩ := by
    simp only [V3.dot, V3.smul, C51.bField]; ring
  unfold exactVel rotT C51.rot
  rw [hd]
  generalize 2 / (1 + V3.dot (⟨prm.b0 * s, prm.b1 * s, prm.b2 * s⟩ : V3 ℝ) ⟨prm.b0 * s, prm.b1 * s, prm.b2 * s⟩) = r
  simp only [V3.add, V3.cross, V3.smul, C51.bField, C51.eField, V3.mk.injEq]
  refine ⟨?_, ?_, ?_⟩ <;> ring

theorem boris2F_eq (c : ℕ → Bool) (prm : Boris.Params ℝ) (pt : Boris.Particle ℝ) (hm : pt.m ≠ 0) :
    boris2F rnd c prm pt = some { pt with
      v := velocityF rnd c (fieldF rnd prm (scalingF rnd prm.dt pt.q pt.m)) (scalingF rnd prm.dt pt.q pt.m) prm.eCoefficient pt.e0 pt.e1 pt.v
      p0 := rnd (pt.p0 + prodF rnd (c 19) prm.dt (velocityF rnd c (fieldF rnd prm (scalingF rnd prm.dt pt.q pt.m)) (scalingF rnd prm.dt pt.q pt.m) prm.eCoefficient pt.e0 pt.e1 pt.v).x)
      p1 := rnd (pt.p1 + prodF rnd (c 20) prm.dt (velocityF rnd c (fieldF rnd prm (scalingF rnd prm.dt pt.q pt.m)) (scalingF rnd prm.dt pt.q pt.m) prm.eCoefficient pt.e0 pt.e1 pt.v).y) } := by
  unfold boris2F; rw [if_neg hm]

/-- The computed velocity is, up to `400` rounding units of the scale, the one of an exact Boris step for a charge and a magnetic field that differ from the given ones by a few rounding units.
The bound does not depend on the strength of the field. Nothing else of the particle changes but the position, which moves with the computed velocity. -/
theorem step_error (R : DoubleRounding rnd) (c : ℕ → Bool) {prm : Boris.Params ℝ} {pt : Boris.Particle ℝ} (S : Sizes prm pt) :
    ∃ pt', boris2F rnd c prm pt = some pt' ∧ pt'.m = pt.m ∧ pt'.q = pt.q ∧ pt'.e0 = pt.e0 ∧ pt'.e1 = pt.e1 ∧
      ∃ q b0 b1 b2 pt'', |q - pt.q| ≤ 4 * unit * |pt.q| ∧ |b0 - prm.b0| ≤ unit * |prm.b0| ∧ |b1 - prm.b1| ≤ unit * |prm.b1| ∧ |b2 - prm.b2| ≤ unit * |prm.b2| ∧
        Boris.boris2 { prm with b0 := b0, b1 := b1, b2 := b2 } { pt with q := q } = some pt'' ∧
        |pt'.v.x - pt''.v.x| ≤ 400 * unit * scale prm pt ∧ |pt'.v.y - pt''.v.y| ≤ 400 * unit * scale prm pt ∧ |pt'.v.z - pt''.v.z| ≤ 400 * unit * scale prm pt := by
  have hu := unit_pos
  have hul := unit_le
  have hm := S.mass
  have hsc := scaling_rel R S
  set sc := scalingF rnd prm.dt pt.q pt.m with hscdef
  set s := pt.q / pt.m * (prm.dt / 2) with hs
  have hs0 : pt.q = 0 → s = 0 := fun h => by rw [hs, h]; simp
  obtain ⟨b0, hb0, ht0, hl0⟩ := field_rel R hsc (S.field0.imp_left hs0)
  obtain ⟨b1, hb1, ht1, hl1⟩ := field_rel R hsc (S.field1.imp_left hs0)
  obtain ⟨b2, hb2, ht2, hl2⟩ := field_rel R hsc (S.field2.imp_left hs0)
  have hdt : prm.dt ≠ 0 := by
    intro h
    have := S.step
    rw [h] at this; simp at this
    exact absurd this (not_le.mpr (by positivity))
  have hq' : sc * pt.m * 2 / prm.dt / pt.m * (prm.dt / 2) = sc := by field_simp
  refine ⟨_, boris2F_eq c prm pt hm, rfl, rfl, rfl, rfl, sc * pt.m * 2 / prm.dt, b0, b1, b2, ?_⟩
  obtain ⟨pt'', e1, e2⟩ := exact_step { prm with b0 := b0, b1 := b1, b2 := b2 } { pt with q := sc * pt.m * 2 / prm.dt } hm
  refine ⟨pt'', ?_, hb0, hb1, hb2, e1, ?_⟩
  · have h1 : sc * pt.m * 2 / prm.dt - pt.q = (sc - s) * (pt.m * 2 / prm.dt) := by rw [hs]; field_simp
    have h2 : pt.q = s * (pt.m * 2 / prm.dt) := by rw [hs]; field_simp
    rw [h1, abs_mul]
    conv_rhs => rw [h2, abs_mul]
    have := mul_le_mul_of_nonneg_right hsc (abs_nonneg (pt.m * 2 / prm.dt))
    linarith
  · dsimp only at e2 ⊢
    rw [hq'] at e2
    have hfield : fieldF rnd prm sc = ⟨b0 * sc, b1 * sc, b2 * sc⟩ := by unfold fieldF; rw [ht0, ht1, ht2]
    rw [← hscdef, hfield, e2]
    rw [ht0] at hl0; rw [ht1] at hl1; rw [ht2] at hl2
    have hη := two_pos (-1074)
    have hW := S.speed
    have hscl : |sc| ≤ 2 * |s| := by
      have : sc = s + (sc - s) := by ring
      rw [this]; refine (abs_add_le _ _).trans ?_
      nlinarith [abs_nonneg s]
    have hkick : ∀ e, |e| ≤ norm ⟨pt.e0, pt.e1, 0⟩ → |-e * sc * prm.eCoefficient| ≤ 2 * (|s * prm.eCoefficient| * norm ⟨pt.e0, pt.e1, 0⟩) := by
      intro e he
      rw [abs_mul, abs_mul, abs_neg, abs_mul]
      have h1 := mul_le_mul he hscl (abs_nonneg _) ((abs_nonneg _).trans he)
      have h2 := mul_le_mul_of_nonneg_right h1 (abs_nonneg prm.eCoefficient)
      linarith
    have hE := comp_le ⟨pt.e0, pt.e1, 0⟩
    have hV := comp_le pt.v
    have hk0 := hkick _ hE.1
    have hk1 := hkick _ hE.2.1
    have hVn : 0 ≤ norm pt.v := Real.sqrt_nonneg _
    have hKn : 0 ≤ 2 * (|s * prm.eCoefficient| * norm ⟨pt.e0, pt.e1, 0⟩) := (abs_nonneg _).trans hk0
    have hscale : scale prm pt = norm pt.v + 2 * (|s * prm.eCoefficient| * norm ⟨pt.e0, pt.e1, 0⟩) := rfl
    have hpow : (2 : ℝ) ^ (-1074 : ℤ) * 2 ^ 100 ≤ unit * 2 ^ (-900 : ℤ) := by
      unfold unit
      rw [← zpow_natCast, ← zpow_add₀ (by norm_num : (2 : ℝ) ≠ 0), ← zpow_add₀ (by norm_num : (2 : ℝ) ≠ 0)]
      exact zpow_le_zpow_right₀ (by norm_num) (by norm_num)
    have hpow2 : unit * (2 : ℝ) ^ (-900 : ℤ) ≤ unit * scale prm pt := mul_le_mul_of_nonneg_left hW hu.le
    have key := velocity_err (rnd := rnd) (u := unit) (η := 2 ^ (-1074 : ℤ)) (err R) hu.le (by linarith) hη.le c (t := ⟨b0 * sc, b1 * sc, b2 * sc⟩) (v := pt.v) (sc := sc) (coef := prm.eCoefficient)
      (e0 := pt.e0) (e1 := pt.e1) (W := scale prm pt) ?_ ?_ ?_ (by linarith) (by linarith) ?_ ?_ (by linarith [hV.2.2])
    · refine ⟨key.1.trans ?_, key.2.1.trans ?_, key.2.2.trans ?_⟩ <;> linarith
    · have a0 := sq_bound hl0 S.angle0
      have a1 := sq_bound hl1 S.angle1
      have a2 := sq_bound hl2 S.angle2
      refine (mul_le_mul_of_nonneg_left (dot_bound (one_le_pow₀ one_le_two) a0 a1 a2) hη.le).trans ?_
      unfold unit
      rw [← pow_add, show (16 : ℝ) = 2 ^ (4 : ℤ) by norm_num, ← zpow_natCast, ← zpow_add₀ (by norm_num : (2 : ℝ) ≠ 0), ← zpow_add₀ (by norm_num : (2 : ℝ) ≠ 0)]
      exact zpow_le_zpow_right₀ (by norm_num) (by norm_num)
    · have : (1 : ℝ) ≤ 2 ^ 100 := one_le_pow₀ one_le_two
      have := mul_le_mul_of_nonneg_left this hη.le
      linarith
    · have := mul_le_mul_of_nonneg_left S.coefficient hη.le
      linarith
    · exact (abs_add_le _ _).trans (by linarith [hV.1])
    · exact (abs_add_le _ _).trans (by linarith [hV.2.1])

/-- The position moves with the new velocity: the error is one unit of the old and a few units of the distance. -/
theorem position_error (R : DoubleRounding rnd) (c : ℕ → Bool) {prm : Boris.Params ℝ} {pt pt' : Boris.Particle ℝ} (h : boris2F rnd c prm pt = some pt') :
    |pt'.p0 - (pt.p0 + prm.dt * pt'.v.x)| ≤ unit * |pt.p0| + 3 * unit * |prm.dt * pt'.v.x| + 3 * 2 ^ (-1074 : ℤ) ∧
      |pt'.p1 - (pt.p1 + prm.dt * pt'.v.y)| ≤ unit * |pt.p1| + 3 * unit * |prm.dt * pt'.v.y| + 3 * 2 ^ (-1074 : ℤ) := by
  have hu := unit_pos
  have hul := unit_le
  have hη := two_pos (-1074)
  have hm : pt.m ≠ 0 := by
    intro hm; unfold boris2F at h; rw [if_pos hm] at h; exact absurd h (by simp)
  rw [boris2F_eq c prm pt hm] at h
  have key : ∀ (b : Bool) (x y : ℝ), |rnd (x + prodF rnd b prm.dt y) - (x + prm.dt * y)| ≤ unit * |x| + 3 * unit * |prm.dt * y| + 3 * 2 ^ (-1074 : ℤ) := by
    intro b x y
    have h1 : |prodF rnd b prm.dt y - prm.dt * y| ≤ unit * |prm.dt * y| + 2 ^ (-1074 : ℤ) := by
      unfold prodF; split_ifs
      · rw [sub_self, abs_zero]; positivity
      · exact err R _
    have h2 := add_err (err R) hu.le (x := x) (x' := x) (ex := 0) (by simp) h1 (abs_add_le x (prm.dt * y))
    refine h2.trans ?_
    have h3 : unit * (unit * |prm.dt * y|) ≤ unit * |prm.dt * y| := by
      have := mul_le_mul_of_nonneg_right (by linarith : unit ≤ 1) (mul_nonneg hu.le (abs_nonneg (prm.dt * y))); linarith
    have h4 : unit * (2 : ℝ) ^ (-1074 : ℤ) ≤ 2 ^ (-1074 : ℤ) := by
      have := mul_le_mul_of_nonneg_right (by linarith : unit ≤ 1) hη.le; linarith
    linarith
  obtain rfl := Option.some.inj h
  exact ⟨key _ _ _, key _ _ _⟩

/-! ### A magnetic field does not heat or cool -/

theorem norm_sq (v : V3 ℝ) : norm v ^ 2 = V3.dot v v :=
  Real.sq_sqrt (by unfold V3.dot; nlinarith [mul_self_nonneg v.x, mul_self_nonneg v.y, mul_self_nonneg v.z])

theorem norm_nonneg (v : V3 ℝ) : 0 ≤ norm v := Real.sqrt_nonneg _

/-- The triangle inequality for vectors with components within `e`. -/
theorem norm_diff {a b : V3 ℝ} {e : ℝ} (h : Within a b e) : norm a ≤ norm b + 7 / 4 * e := by
  have he : 0 ≤ e := (abs_nonneg _).trans h.1
  have hb := norm_nonneg b
  refine Real.sqrt_le_iff.mpr ⟨by positivity, ?_⟩
  have hb2 := norm_sq b
  have hsq : ∀ d, |d| ≤ e → d * d ≤ e * e := fun d hd => by
    have := mul_le_mul hd hd (abs_nonneg _) he
    rwa [abs_mul_abs_self] at this
  have s1 := hsq _ h.1
  have s2 := hsq _ h.2.1
  have s3 := hsq _ h.2.2
  -- the scalar product of the difference with b
  set d0 := a.x - b.x
  set d1 := a.y - b.y
  set d2 := a.z - b.z
  have ha : V3.dot a a = V3.dot b b + 2 * (d0 * b.x + d1 * b.y + d2 * b.z) + (d0 * d0 + d1 * d1 + d2 * d2) := by
    simp only [V3.dot, d0, d1, d2]; ring
  have cs : (d0 * b.x + d1 * b.y + d2 * b.z) ^ 2 ≤ (d0 * d0 + d1 * d1 + d2 * d2) * V3.dot b b := by
    unfold V3.dot
    nlinarith [sq_nonneg (d0 * b.y - d1 * b.x), sq_nonneg (d0 * b.z - d2 * b.x), sq_nonneg (d1 * b.z - d2 * b.y)]
  have cs2 : d0 * b.x + d1 * b.y + d2 * b.z ≤ 7 / 4 * e * norm b := by
    refine le_of_sq_le_sq' ?_ (by positivity)
    refine cs.trans ?_
    rw [mul_pow, hb2]
    refine mul_le_mul_of_nonneg_right ?_ (by rw [← hb2]; positivity)
    nlinarith
  rw [ha, ← hb2]
  nlinarith
where
  le_of_sq_le_sq' {x y : ℝ} (h : x ^ 2 ≤ y ^ 2) (hy : 0 ≤ y) : x ≤ y := (abs_le_of_sq_le_sq' h hy).2

/-- Without an electric field one step changes the speed by at most `700` rounding units, for every magnetic field and step size. -/
theorem speed_step (R : DoubleRounding rnd) (c : ℕ → Bool) {prm : Boris.Params ℝ} {pt : Boris.Particle ℝ} (S : Sizes prm pt) (h0 : pt.e0 = 0) (h1 : pt.e1 = 0) :
    ∃ pt', boris2F rnd c prm pt = some pt' ∧ pt'.m = pt.m ∧ pt'.q = pt.q ∧ |norm pt'.v - norm pt.v| ≤ 700 * unit * norm pt.v := by
  obtain ⟨pt', e1, e2, e3, -, -, q, b0, b1, b2, pt'', -, -, -, -, f1, f2, f3, f4⟩ := step_error R c S
  refine ⟨pt', e1, e2, e3, ?_⟩
  have hscale : scale prm pt = norm pt.v := by
    unfold scale
    have : norm (⟨pt.e0, pt.e1, 0⟩ : V3 ℝ) = 0 := by rw [h0, h1]; simp [norm, V3.dot]
    rw [this]; ring
  rw [hscale] at f2 f3 f4
  have hex := C51.boris_conserves_energy { prm with b0 := b0, b1 := b1, b2 := b2 } { pt with q := q } S.mass 1
  obtain ⟨p3, g1, -, g2, -⟩ := hex
  have g3 : p3 = pt'' := by
    simp only [Boris.borisSteps, Option.bind_some] at g1
    have : ({ ({ pt with q := q } : Boris.Particle ℝ) with e0 := 0, e1 := 0 } : Boris.Particle ℝ) = { pt with q := q } := by
      cases pt; simp only at h0 h1; subst h0; subst h1; rfl
    rw [this] at g1
    rw [f1] at g1
    exact (Option.some.inj g1).symm
  have hn : norm pt''.v = norm pt.v := by unfold norm; rw [← g3, g2]
  have k1 := norm_diff (a := pt'.v) (b := pt''.v) ⟨f2, f3, f4⟩
  have k2 := norm_diff (a := pt''.v) (b := pt'.v) (e := 400 * unit * norm pt.v) ⟨by rwa [abs_sub_comm], by rwa [abs_sub_comm], by rwa [abs_sub_comm]⟩
  rw [hn] at k1 k2
  rw [abs_le]
  constructor <;> linarith

/-- Without an electric field the speed stays within `(1 ± 700 units) ^ n` of the initial speed for any number `n` of steps (while it is far from underflow). -/
theorem speed_steps (R : DoubleRounding rnd) (c : ℕ → Bool) {prm : Boris.Params ℝ} {pt : Boris.Particle ℝ} (S : Sizes prm pt) (n : ℕ)
    (hn : (2 : ℝ) ^ (-900 : ℤ) ≤ (1 - 700 * unit) ^ n * norm pt.v) :
    ∃ pt', borisStepsF rnd c prm (fun _ => (0, 0)) n pt = some pt' ∧ (1 - 700 * unit) ^ n * norm pt.v ≤ norm pt'.v ∧ norm pt'.v ≤ (1 + 700 * unit) ^ n * norm pt.v := by
  have hu := unit_pos
  have hul := unit_le
  have hfac0 : 0 ≤ 1 - 700 * unit := by linarith
  have hfac1 : 1 - 700 * unit ≤ 1 := by linarith
  suffices H : ∃ pt', borisStepsF rnd c prm (fun _ => (0, 0)) n pt = some pt' ∧ pt'.m = pt.m ∧ pt'.q = pt.q ∧
      (1 - 700 * unit) ^ n * norm pt.v ≤ norm pt'.v ∧ norm pt'.v ≤ (1 + 700 * unit) ^ n * norm pt.v by
    obtain ⟨p, h1, -, -, h2, h3⟩ := H
    exact ⟨p, h1, h2, h3⟩
  induction n with
  | zero => exact ⟨pt, rfl, rfl, rfl, by simp, by simp⟩
  | succ n ih =>
    have hpos : 0 ≤ (1 - 700 * unit) ^ n * norm pt.v := mul_nonneg (pow_nonneg hfac0 n) (norm_nonneg _)
    have hn' : (2 : ℝ) ^ (-900 : ℤ) ≤ (1 - 700 * unit) ^ n * norm pt.v := by
      refine hn.trans ?_
      rw [pow_succ]
      nlinarith
    obtain ⟨p, i1, i2, i3, i4, i5⟩ := ih hn'
    set p' : Boris.Particle ℝ := { p with e0 := 0, e1 := 0 } with hp'
    have hsc : scale prm p' = norm p.v := by
      unfold scale
      have : norm (⟨p'.e0, p'.e1, 0⟩ : V3 ℝ) = 0 := by simp [hp', norm, V3.dot]
      rw [this]; simp [hp']
    have S' : Sizes prm p' := by
      have hq : p'.q = pt.q := i3
      have hm : p'.m = pt.m := i2
      refine ⟨hm ▸ S.mass, S.step, ?_, ?_, ?_, ?_, ?_, ?_, ?_, ?_, ?_, S.coefficient⟩
      · rw [hq, hm]; exact S.ratio
      · rw [hq, hm]; exact S.scaling
      · rw [hq, hm]; exact S.field0
      · rw [hq, hm]; exact S.field1
      · rw [hq, hm]; exact S.field2
      · rw [hq, hm]; exact S.angle0
      · rw [hq, hm]; exact S.angle1
      · rw [hq, hm]; exact S.angle2
      · rw [hsc]; exact hn'.trans i4
    obtain ⟨r, j1, j2, j3, j4⟩ := speed_step R c S' rfl rfl
    have hv : p'.v = p.v := rfl
    rw [hv] at j4
    refine ⟨r, ?_, j2.trans i2, j3.trans i3, ?_, ?_⟩
    · simp only [borisStepsF, i1, Option.bind_some]
      exact j1
    · have := (abs_le.mp j4).1
      have h1 : (1 - 700 * unit) * ((1 - 700 * unit) ^ n * norm pt.v) ≤ (1 - 700 * unit) * norm p.v := mul_le_mul_of_nonneg_left i4 hfac0
      rw [pow_succ]; linarith
    · have := (abs_le.mp j4).2
      have h1 : (1 + 700 * unit) * norm p.v ≤ (1 + 700 * unit) * ((1 + 700 * unit) ^ n * norm pt.v) := mul_le_mul_of_nonneg_left i5 (by linarith)
      rw [pow_succ]; linarith

/-- For up to `3 * 10 ^ 12` steps the relative change of the speed is at most `1400` units per step: about one part in three thousand for a billion steps. -/
theorem speed_drift (R : DoubleRounding rnd) (c : ℕ → Bool) {prm : Boris.Params ℝ} {pt : Boris.Particle ℝ} (S : Sizes prm pt) (n : ℕ) (hn : 700 * n * unit ≤ 1 / 2)
    (hv : (2 : ℝ) ^ (-899 : ℤ) ≤ norm pt.v) :
    ∃ pt', borisStepsF rnd c prm (fun _ => (0, 0)) n pt = some pt' ∧ |norm pt'.v - norm pt.v| ≤ 1400 * n * unit * norm pt.v := by
  have hu := unit_pos
  have hul := unit_le
  have hN := norm_nonneg pt.v
  have hb := one_add_mul_le_pow (a := -(700 * unit)) (by linarith) n
  rw [← sub_eq_add_neg] at hb
  have h9 : (2 : ℝ) ^ (-899 : ℤ) = 2 * 2 ^ (-900 : ℤ) := by
    rw [show (-899 : ℤ) = 1 + -900 by norm_num, zpow_add₀ (by norm_num : (2 : ℝ) ≠ 0)]; norm_num
  have hlow : (1 - 700 * n * unit) * norm pt.v ≤ (1 - 700 * unit) ^ n * norm pt.v := mul_le_mul_of_nonneg_right (by linarith) hN
  have hhalf : 1 / 2 * norm pt.v ≤ (1 - 700 * n * unit) * norm pt.v := mul_le_mul_of_nonneg_right (by linarith) hN
  obtain ⟨p, h1, h2, h3⟩ := speed_steps R c S n (by rw [h9] at hv; linarith)
  refine ⟨p, h1, ?_⟩
  have hup : (1 + 700 * unit) ^ n ≤ 1 + 2 * (700 * n * unit) := by
    have e1 : (1 + 700 * unit) ^ n ≤ Real.exp (700 * unit) ^ n := by
      refine pow_le_pow_left₀ (by linarith) ?_ n
      have := Real.add_one_le_exp (700 * unit); linarith
    rw [← Real.exp_nat_mul] at e1
    have e2 := exp_le_two (s := n * (700 * unit)) (by positivity) (by linarith)
    linarith
  have hup' := mul_le_mul_of_nonneg_right hup hN
  have hnn : 0 ≤ 700 * n * unit * norm pt.v := by positivity
  rw [abs_le]
  constructor <;> linarith

/-- A particle without charge keeps its velocity exactly if it is a `double`, for every field. -/
theorem neutral_unchanged (R : DoubleRounding rnd) (c : ℕ → Bool) (prm : Boris.Params ℝ) (pt : Boris.Particle ℝ) (hm : pt.m ≠ 0) (hq : pt.q = 0)
    (hx : Double pt.v.x) (hy : Double pt.v.y) (hz : Double pt.v.z) : ∃ pt', boris2F rnd c prm pt = some pt' ∧ pt'.v = pt.v := by
  refine ⟨_, boris2F_eq c prm pt hm, ?_⟩
  have hr := rnd_zero R
  have hsc : scalingF rnd prm.dt pt.q pt.m = 0 := by unfold scalingF; rw [hq]; simp [hr]
  have hf : fieldF rnd prm 0 = ⟨0, 0, 0⟩ := by unfold fieldF; simp [hr]
  have hp0 : ∀ b x, prodF rnd b x 0 = 0 := by intro b x; unfold prodF; simp [hr]
  have hp0' : ∀ b x, prodF rnd b 0 x = 0 := by intro b x; unfold prodF; simp [hr]
  have hk : ∀ b e k, kickF rnd b e 0 k = 0 := by intro b e k; unfold kickF; rw [mul_zero, hr, hp0']
  have hs : scaledF rnd c ⟨0, 0, 0⟩ = ⟨0, 0, 0⟩ := by unfold scaledF; simp [hp0, hr]
  have hcr : ∀ i a, crossF rnd c i a ⟨0, 0, 0⟩ = ⟨0, 0, 0⟩ := by intro i a; unfold crossF; simp [hp0, hr]
  dsimp only
  rw [hsc, hf]
  unfold velocityF
  dsimp only
  rw [hs, hk, hk, hk, hk, hcr]
  simp only [addF, add_zero, zero_add, R.exact _ hx, R.exact _ hy, R.exact _ hz]

/-! ### The hypotheses can be met -/

/-- A particle in a strong field. -/
noncomputable def examplePrm : Boris.Params ℝ := ⟨1, 3, 0, 4, 1⟩

noncomputable def examplePt : Boris.Particle ℝ := ⟨0, 0, ⟨3, 0, 4⟩, 1, -1, 0, 0⟩

theorem example_norm : norm examplePt.v = 5 := by
  unfold norm examplePt V3.dot
  rw [show (3 : ℝ) * 3 + 0 * 0 + 4 * 4 = 5 ^ 2 by norm_num]
  exact Real.sqrt_sq (by norm_num)

example : Sizes examplePrm examplePt ∧ (2 : ℝ) ^ (-900 : ℤ) ≤ (1 - 700 * unit) ^ 1000 * norm examplePt.v := by
  have hle : (2 : ℝ) ^ (-1000 : ℤ) ≤ 1 / 2 := by
    rw [show (1 / 2 : ℝ) = 2 ^ (-1 : ℤ) by norm_num]; exact zpow_le_zpow_right₀ (by norm_num) (by norm_num)
  have hle9 : (2 : ℝ) ^ (-900 : ℤ) ≤ 1 / 2 := by
    rw [show (1 / 2 : ℝ) = 2 ^ (-1 : ℤ) by norm_num]; exact zpow_le_zpow_right₀ (by norm_num) (by norm_num)
  have h8 : (8 : ℝ) ≤ 2 ^ 400 := by
    rw [show (8 : ℝ) = 2 ^ 3 by norm_num]; exact pow_le_pow_right₀ (by norm_num) (by norm_num)
  have hscale : scale examplePrm examplePt = 5 := by
    unfold scale
    have : norm (⟨examplePt.e0, examplePt.e1, 0⟩ : V3 ℝ) = 0 := by simp [examplePt, norm, V3.dot]
    rw [this, example_norm]; ring
  refine ⟨⟨by norm_num [examplePt], ?_, Or.inr ?_, Or.inr ?_, Or.inr (Or.inr ?_), Or.inr (Or.inl rfl), Or.inr (Or.inr ?_), ?_, ?_, ?_, ?_, ?_⟩, ?_⟩
  · simp only [examplePrm, examplePt]; rw [abs_of_pos (by norm_num)]; exact hle
  · have : |examplePt.q / examplePt.m| = 1 := by norm_num [examplePt]
    rw [this]; exact hle.trans (by norm_num)
  · have : |examplePt.q / examplePt.m * (examplePrm.dt / 2)| = 1 / 2 := by norm_num [examplePt, examplePrm]
    rw [this]; exact hle
  · have : |examplePrm.b0 * (examplePt.q / examplePt.m * (examplePrm.dt / 2))| = 3 / 2 := by norm_num [examplePt, examplePrm, abs_mul]
    rw [this]; exact hle.trans (by norm_num)
  · have : |examplePrm.b2 * (examplePt.q / examplePt.m * (examplePrm.dt / 2))| = 2 := by norm_num [examplePt, examplePrm, abs_mul]
    rw [this]; exact hle.trans (by norm_num)
  · have : |examplePrm.b0 * (examplePt.q / examplePt.m * (examplePrm.dt / 2))| = 3 / 2 := by norm_num [examplePt, examplePrm, abs_mul]
    rw [this]; exact le_trans (by norm_num) h8
  · have : |examplePrm.b1 * (examplePt.q / examplePt.m * (examplePrm.dt / 2))| = 0 := by norm_num [examplePt, examplePrm, abs_mul]
    rw [this]; exact le_trans (by norm_num) h8
  · have : |examplePrm.b2 * (examplePt.q / examplePt.m * (examplePrm.dt / 2))| = 2 := by norm_num [examplePt, examplePrm, abs_mul]
    rw [this]; exact le_trans (by norm_num) h8
  · rw [hscale]; linarith
  · simp only [examplePrm]; rw [abs_one]; exact one_le_pow₀ one_le_two
  · rw [example_norm]
    have hu := unit_pos
    have hul : unit ≤ 1 / 10 ^ 15 := by unfold unit; norm_num
    have hb := one_add_mul_le_pow (a := -(700 * unit)) (by linarith) 1000
    have h2 : (1 : ℝ) / 2 ≤ (1 + -(700 * unit)) ^ 1000 := by
      refine le_trans ?_ hb
      norm_num at hul ⊢
      linarith
    rw [← sub_eq_add_neg] at h2
    generalize (1 - 700 * unit) ^ 1000 = x at h2 ⊢
    linarith

end Verif.Props.C106
