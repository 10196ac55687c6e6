import Verif.Model.HWParams
import Mathlib.Tactic.Linarith
import Mathlib.Tactic.FieldSimp
import Mathlib.Tactic.Positivity
import Mathlib.Tactic.NormNum
import Mathlib.Tactic.Ring

/-!
C104: the coefficients of the Hasegawa-Wakatani systems. Which parameters are used and needed; the values agree with the physical definitions; finding: the drift
scale is wrong by the square root of the field strength.
-/

namespace Verif.Props.C104
open Verif.Model.HWParams

/-! ### Specification -/

/-- Sound speed for a temperature in electron volts: `c_s ^ 2 = e T / m`. -/
noncomputable def soundSpeed (T mi : ℝ) : ℝ := Real.sqrt (e * T / mi)

/-- Gyrofrequency `e B / m`. -/
noncomputable def gyroFrequency (B mi : ℝ) : ℝ := e * B / mi

/-- Hybrid Larmor radius: sound speed over gyrofrequency. -/
noncomputable def larmorRadius (T B mi : ℝ) : ℝ := soundSpeed T mi / gyroFrequency B mi

/-! ### Which parameters count -/

/-- **C104, direct.** Given coefficients are used as they are, whatever else the session defines, and no other parameter is needed. -/
theorem direct (s : Session) (B a k : ℝ) (ha : s "HW_alpha" = some a) (hk : s "HW_kappa" = some k) :
    load3 s B = some (a, k) ∧ load2 s = some (a, k) := by
  simp [load3, load2, alpha3, kappa3, ha, hk]

/-- Without `HW_alpha`, both frequencies give their ratio, whatever the physical parameters are. -/
theorem frequencies (s : Session) (B oce nu : ℝ) (ha : s "HW_alpha" = none) (h1 : s "HW_omega_ce" = some oce) (h2 : s "HW_nu_ei" = some nu) :
    alpha3 s B = some (oce / nu) := by
  simp [alpha3, ha, h1, h2]

/-- One frequency alone is ignored: the value does not depend on it. -/
theorem one_frequency_ignored (s : Session) (B x : ℝ) (ha : s "HW_alpha" = none) (h : s "HW_omega_ce" = none) :
    alpha3 (fun n => if n = "HW_nu_ei" then some x else s n) B = alpha3 s B := by
  simp [alpha3, ha, h, Session.orDefault]

theorem other_frequency_ignored (s : Session) (B x : ℝ) (ha : s "HW_alpha" = none) (h : s "HW_nu_ei" = none) :
    alpha3 (fun n => if n = "HW_omega_ce" then some x else s n) B = alpha3 s B := by
  simp [alpha3, ha, h, Session.orDefault]

/-- **C104, errors.** The set up fails exactly if a parameter is missing: for alpha one of `HW_alpha`, the two frequencies, or `n0`, `T0` and `Z`; for kappa
`HW_kappa` or `lambda_n`, `n0` and `T0`. The 2D system needs both coefficients. -/
theorem fails_iff (s : Session) (B : ℝ) :
    (alpha3 s B = none ↔ s "HW_alpha" = none ∧ (s "HW_omega_ce" = none ∨ s "HW_nu_ei" = none) ∧ (s "n0" = none ∨ s "T0" = none ∨ s "Z" = none)) ∧
    (kappa3 s B = none ↔ s "HW_kappa" = none ∧ (s "lambda_n" = none ∨ s "n0" = none ∨ s "T0" = none)) ∧
    (load3 s B = none ↔ alpha3 s B = none ∨ kappa3 s B = none) ∧ (load2 s = none ↔ s "HW_alpha" = none ∨ s "HW_kappa" = none) := by
  refine ⟨?_, ?_, ?_, ?_⟩
  · unfold alpha3
    cases s "HW_alpha" <;> cases s "HW_omega_ce" <;> cases s "HW_nu_ei" <;> cases s "n0" <;> cases s "T0" <;> cases s "Z" <;> simp
  · unfold kappa3
    cases s "HW_kappa" <;> cases s "lambda_n" <;> cases s "n0" <;> cases s "T0" <;> simp
  · unfold load3
    cases alpha3 s B <;> cases kappa3 s B <;> simp
  · unfold load2
    cases s "HW_alpha" <;> cases s "HW_kappa" <;> simp

/-! ### Values -/

/-- A session with physical parameters only. -/
structure Physical (s : Session) (n0 T0 Z lam mi : ℝ) : Prop where
  alpha : s "HW_alpha" = none
  kappa : s "HW_kappa" = none
  freq : s "HW_omega_ce" = none ∨ s "HW_nu_ei" = none
  n0 : s "n0" = some n0
  T0 : s "T0" = some T0
  Z : s "Z" = some Z
  lam : s "lambda_n" = some lam
  mi : s "mi" = some mi ∨ s "mi" = none ∧ mi = 2 * 1.67e-27

theorem e_pos : 0 < e := by norm_num [e]

theorem Physical.mi_eq {s : Session} {n0 T0 Z lam mi : ℝ} (h : Physical s n0 T0 Z lam mi) : s.orDefault "mi" (2 * mProton) = mi := by
  unfold Session.orDefault mProton
  rcases h.mi with h' | ⟨h', h''⟩
  · rw [h']; rfl
  · rw [h', h'']; rfl

/-- **C104, adiabaticity.** From the physical parameters, alpha is the temperature over charge, density, resistivity and gyrofrequency. -/
theorem alpha_physical {s : Session} {n0 T0 Z lam mi : ℝ} (h : Physical s n0 T0 Z lam mi) (B : ℝ) :
    alpha3 s B = some (T0 / (n0 * e * eta n0 T0 Z * gyroFrequency B mi)) := by
  have hm := h.mi_eq
  unfold alpha3
  rw [h.alpha]
  have e1 : T0 / n0 / e / eta n0 T0 Z / omegaCi B mi = T0 / (n0 * e * eta n0 T0 Z * gyroFrequency B mi) := by
    simp only [div_div]; rfl
  rcases h.freq with hf | hf
  · rw [hf]
    simp only [h.n0, h.T0, h.Z, hm, Option.bind_eq_bind, Option.bind_some, Option.pure_def, e1]
  · rw [hf]
    cases s "HW_omega_ce" <;> simp only [h.n0, h.T0, h.Z, hm, Option.bind_eq_bind, Option.bind_some, Option.pure_def, e1]

/-- **C104, sign of alpha.** For positive parameters alpha damps (is positive) exactly if the Coulomb logarithm is positive, that is for densities below
`exp 62 * T0 ^ 2`. -/
theorem alpha_pos_iff {s : Session} {n0 T0 Z lam mi : ℝ} (h : Physical s n0 T0 Z lam mi) {B : ℝ} (hB : 0 < B) (hn : 0 < n0) (hT : 0 < T0) (hZ : 0 < Z)
    (hmi : 0 < mi) (a : ℝ) (ha : alpha3 s B = some a) : 0 < a ↔ n0 < Real.exp 62 * T0 ^ 2 := by
  rw [alpha_physical h B, Option.some.injEq] at ha
  have he := e_pos
  have hg : 0 < gyroFrequency B mi := by unfold gyroFrequency; positivity
  have hTp : 0 < T0 ^ (1.5 : ℝ) := Real.rpow_pos_of_pos hT _
  have h1 : 0 < a ↔ 0 < logLambda n0 T0 := by
    rw [← ha]
    constructor
    · intro hpos
      by_contra hl
      push Not at hl
      have : eta n0 T0 Z ≤ 0 := by
        unfold eta
        apply div_nonpos_of_nonpos_of_nonneg _ hTp.le
        apply mul_nonpos_of_nonneg_of_nonpos _ hl
        have : (0 : ℝ) < 5.2e-5 := by norm_num
        positivity
      have : n0 * e * eta n0 T0 Z * gyroFrequency B mi ≤ 0 :=
        mul_nonpos_of_nonpos_of_nonneg (mul_nonpos_of_nonneg_of_nonpos (by positivity) this) hg.le
      exact absurd hpos (not_lt.mpr (div_nonpos_of_nonneg_of_nonpos hT.le this))
    · intro hl
      have : 0 < eta n0 T0 Z := by
        unfold eta
        have : (0 : ℝ) < 5.2e-5 := by norm_num
        positivity
      positivity
  rw [h1]
  have hlog : Real.log (Real.exp 62 * T0 ^ 2) = 62 + 2 * Real.log T0 := by
    rw [Real.log_mul (Real.exp_pos _).ne' (by positivity), Real.log_exp, Real.log_pow]
    norm_num
  rw [← Real.log_lt_log_iff hn (by positivity), hlog]
  unfold logLambda
  constructor <;> intro h <;> linarith

/-- The two temperatures and masses of a Larmor radius: its square is `m T / (e B ^ 2)`. -/
theorem larmor_eq {T0 B mi : ℝ} (hT : 0 < T0) (hB : 0 < B) (hmi : 0 < mi) : larmorRadius T0 B mi = Real.sqrt (mi * T0 / e) / B := by
  have he := e_pos
  unfold larmorRadius soundSpeed gyroFrequency
  have h1 : Real.sqrt (mi * T0 / e) = mi / e * Real.sqrt (e * T0 / mi) := by
    rw [show mi * T0 / e = (mi / e) ^ 2 * (e * T0 / mi) from by field_simp, Real.sqrt_mul (by positivity), Real.sqrt_sq (by positivity)]
  rw [h1]
  field_simp

/-- The value of kappa from physical parameters: the square root of the field strength times Larmor radius over density scale length. -/
theorem kappa_value {s : Session} {n0 T0 Z lam mi : ℝ} (h : Physical s n0 T0 Z lam mi) {B : ℝ} (hB : 0 < B) (hT : 0 < T0) (hmi : 0 < mi) :
    kappa3 s B = some (Real.sqrt B * (larmorRadius T0 B mi / lam)) := by
  have he := e_pos
  have hm : s.orDefault "mi" (2 * 1.67e-27) = mi := h.mi_eq
  unfold kappa3
  rw [h.kappa]
  simp only [h.n0, h.T0, h.lam, hm, Option.bind_eq_bind, Option.bind_some, Option.pure_def, Option.some.injEq]
  rw [larmor_eq hT hB hmi, Real.sqrt_div (by positivity)]
  have hs : Real.sqrt B ≠ 0 := (Real.sqrt_pos.mpr hB).ne'
  have hq : Real.sqrt B * Real.sqrt B = B := Real.mul_self_sqrt hB.le
  rw [show Real.sqrt B * (Real.sqrt (mi * T0 / e) / B / lam) = Real.sqrt (mi * T0 / e) * (Real.sqrt B / B) / lam from by ring]
  congr 1
  rw [div_eq_mul_inv]
  congr 1
  rw [eq_div_iff hB.ne', inv_mul_eq_iff_eq_mul₀ hs]
  exact hq.symm

/-- **C104, drift scale (partial).** Kappa is the Larmor radius over the density scale length exactly if the magnetic field has strength one. -/
theorem kappa_partial {s : Session} {n0 T0 Z lam mi : ℝ} (h : Physical s n0 T0 Z lam mi) {B : ℝ} (hB : 0 < B) (hT : 0 < T0) (hmi : 0 < mi)
    (hl : lam ≠ 0) : kappa3 s B = some (larmorRadius T0 B mi / lam) ↔ B = 1 := by
  rw [kappa_value h hB hT hmi, Option.some.injEq]
  have he := e_pos
  have hr : larmorRadius T0 B mi ≠ 0 := by
    rw [larmor_eq hT hB hmi]
    have : 0 < Real.sqrt (mi * T0 / e) := Real.sqrt_pos.mpr (by positivity)
    positivity
  have hne : larmorRadius T0 B mi / lam ≠ 0 := div_ne_zero hr hl
  constructor
  · intro h
    have h1 : Real.sqrt B = 1 := mul_right_cancel₀ hne (by rw [h, one_mul])
    have := Real.mul_self_sqrt hB.le
    rw [h1] at this
    linarith
  · rintro rfl
    rw [Real.sqrt_one, one_mul]

/-- The full statement, false of the code: with the default field strength 0.1 (DriftReducedSystem.cpp:326) kappa is not the Larmor radius over the scale length. -/
theorem kappa_default_field {s : Session} {n0 T0 Z lam mi : ℝ} (h : Physical s n0 T0 Z lam mi) (hT : 0 < T0) (hmi : 0 < mi) (hl : lam ≠ 0) :
    kappa3 s 0.1 ≠ some (larmorRadius T0 0.1 mi / lam) := by
  rw [Ne, kappa_partial h (by norm_num) hT hmi hl]
  norm_num

/-- A session with physical parameters. -/
noncomputable def sample : Session := fun n =>
  if n = "n0" then some 1e18 else if n = "T0" then some 20 else if n = "Z" then some 1 else if n = "lambda_n" then some 0.1 else none

theorem sample_physical : Physical sample 1e18 20 1 0.1 (2 * 1.67e-27) where
  alpha := by simp [sample]
  kappa := by simp [sample]
  freq := by simp [sample]
  n0 := by simp [sample]
  T0 := by simp [sample]
  Z := by simp [sample]
  lam := by simp [sample]
  mi := by simp [sample]

example : kappa3 sample 0.1 ≠ some (larmorRadius 20 0.1 (2 * 1.67e-27) / 0.1) :=
  kappa_default_field sample_physical (by norm_num) (by norm_num) (by norm_num)

example : ∃ a, alpha3 sample 0.1 = some a ∧ 0 < a := by
  refine ⟨_, alpha_physical sample_physical 0.1, ?_⟩
  refine (alpha_pos_iff sample_physical (B := 0.1) (by norm_num) (by norm_num) (by norm_num) (by norm_num) (by norm_num) _
    (alpha_physical sample_physical 0.1)).mpr ?_
  have h2 : (2 : ℝ) ≤ Real.exp 1 := by have := Real.add_one_le_exp (1 : ℝ); linarith
  have h62 : Real.exp 62 = Real.exp 1 ^ 62 := by rw [← Real.exp_nat_mul]; norm_num
  have : (2 : ℝ) ^ 62 ≤ Real.exp 62 := by rw [h62]; exact pow_le_pow_left₀ (by norm_num) h2 62
  calc (1e18 : ℝ) < 2 ^ 62 * 20 ^ 2 := by norm_num
    _ ≤ Real.exp 62 * 20 ^ 2 := mul_le_mul_of_nonneg_right this (by norm_num)

end Verif.Props.C104
