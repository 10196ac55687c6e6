import Verif.Model.FloatIonisation
import Verif.Lemmas.FloatBary
import Verif.Lemmas.RoundingModes

/-!
# C105: ionisation in floating point arithmetic

The neutral particles of the SimpleSOL and DriftReduced solvers lose weight to the plasma in each of very many time steps. Users rely on weights that never become negative, on
exhausted particles being removed, and on the plasma receiving what the particles lose, whatever the rounding mode and whatever operations the compiler fuses.
-/

namespace Verif.Props.C105
open Verif.Model Verif.Model.FloatIonisation Verif.Model.FloatKernels Verif.Spec.Rounding Verif.Spec.FloatBary Verif.Lemmas.Rounding Verif.Lemmas.FloatBary

variable {rnd : ℝ → ℝ}

/-- The rounding unit of `double` in the directed modes. -/
noncomputable def unit : ℝ := (2 : ℝ) ^ (-52 : ℤ)

/-- The smallest positive `double`. -/
noncomputable def tiny : ℝ := (2 : ℝ) ^ (-1074 : ℤ)

theorem unit_pos : 0 < unit := two_pos _
theorem tiny_pos : 0 < tiny := two_pos _
theorem unit_le : unit ≤ 1 / 1000 := by unfold unit; norm_num
theorem unit_eq : (2 : ℝ) ^ (1 - ((53 : ℕ) : ℤ)) = unit := by unfold unit; norm_num

theorem err (R : DoubleRounding rnd) (x : ℝ) : |rnd x - x| ≤ unit * |x| + tiny := by
  have := error R (by norm_num) x
  rwa [unit_eq] at this

theorem err_add (R : DoubleRounding rnd) {x y : ℝ} (hx : Double x) (hy : Double y) : |rnd (x + y) - (x + y)| ≤ unit * |x + y| := by
  have := error_add R (by norm_num) hx hy
  rwa [unit_eq] at this

/-- A sum of floating point numbers is rounded to a positive number iff it is positive. -/
theorem rnd_add_pos (R : DoubleRounding rnd) {x y : ℝ} (hx : Double x) (hy : Double y) : 0 < rnd (x + y) ↔ 0 < x + y := by
  constructor
  · intro h
    by_contra h0
    exact absurd (rnd_nonpos R (not_lt.mp h0)) (not_le.mpr h)
  · intro h
    have h1 := err_add R hx hy
    rw [abs_of_pos h] at h1
    have h2 := abs_le.mp h1
    have := unit_le
    nlinarith [h2.1]

/-! ### The sum of the weight and its change -/

theorem mulAdd_float (R : DoubleRounding rnd) (c : Bool) (x y w : ℝ) : Double (mulAdd rnd c x y w) := by
  unfold mulAdd; split_ifs <;> exact R.float _

/-- The sum is not positive if the exact product is at most minus the weight, contracted or not. -/
theorem mulAdd_nonneg (R : DoubleRounding rnd) (c d : Bool) {x y w : ℝ} (hw : Double w) (h : 0 < mulAdd rnd c x y w) : 0 ≤ mulAdd rnd d x y w := by
  have key : -w < x * y := by
    by_contra hc
    push Not at hc
    have h1 : rnd (x * y) ≤ -w := rnd_le R (float_neg hw) hc
    unfold mulAdd at h
    split_ifs at h
    · exact absurd (rnd_nonpos R (by linarith : x * y + w ≤ 0)) (not_le.mpr h)
    · exact absurd (rnd_nonpos R (by linarith : rnd (x * y) + w ≤ 0)) (not_le.mpr h)
  have h1 : -w ≤ rnd (x * y) := le_rnd R (float_neg hw) key.le
  unfold mulAdd
  split_ifs
  · exact rnd_nonneg R (by linarith)
  · exact rnd_nonneg R (by linarith)

theorem mulAdd_le (R : DoubleRounding rnd) (d : Bool) {x y w : ℝ} (hw : Double w) (h : x * y ≤ 0) : mulAdd rnd d x y w ≤ w := by
  have h1 := rnd_nonpos R h
  unfold mulAdd
  split_ifs <;> exact rnd_le R hw (by linarith)

theorem deltaPart_nonpos (R : DoubleRounding rnd) {rate w d : ℝ} (hr : 0 ≤ rate) (hw : 0 ≤ w) (hd : 0 ≤ d) : deltaPart rnd rate w d ≤ 0 :=
  rnd_nonpos R (mul_nonpos_of_nonpos_of_nonneg (rnd_nonpos R (by nlinarith)) hd)

/-! ### The weight -/

/-- The sizes in a call: non negative rate, density and step, and conversion factors of which the reciprocal is not subnormal. -/
structure Physical (prm : Params) (rate n : ℝ) : Prop where
  dt_pos : 0 < prm.dt
  t_nonneg : 0 ≤ prm.tToSI
  n_ge : 1 ≤ prm.nToSI
  n_le : prm.nToSI ≤ 2 ^ 1000
  rate_nonneg : 0 ≤ rate
  density_nonneg : 0 ≤ n

theorem ionise_weight (sol : Bool) (c : Contract) (prm : Params) (rate n : ℝ) (q : Ionisation.Particle) :
    (ionise rnd sol c prm rate n q).weight = (weightF rnd c rate (dtSI rnd prm) (densitySI rnd prm n) q.id q.weight).2.2 := by
  unfold ionise; split_ifs <;> rfl

theorem ionise_id (sol : Bool) (c : Contract) (prm : Params) (rate n : ℝ) (q : Ionisation.Particle) :
    (ionise rnd sol c prm rate n q).id = (weightF rnd c rate (dtSI rnd prm) (densitySI rnd prm n) q.id q.weight).1 := by
  unfold ionise; split_ifs <;> rfl

theorem ionise_source (sol : Bool) (c : Contract) (prm : Params) (rate n : ℝ) (q : Ionisation.Particle) :
    (ionise rnd sol c prm rate n q).sourceDensity = sourceF rnd prm (weightF rnd c rate (dtSI rnd prm) (densitySI rnd prm n) q.id q.weight).2.1 := by
  unfold ionise; split_ifs <;> rfl

theorem weight_double (R : DoubleRounding rnd) (c : Contract) (rate d n : ℝ) (id : ℤ) (w : ℝ) : Double (weightF rnd c rate d n id w).2.2 := by
  unfold weightF; dsimp only; split_ifs
  · exact R.float _
  · exact mulAdd_float R _ _ _ _

/-- The weight stays a non negative `double`, for every rate, step size and density, of whatever sign, in every rounding mode and with every contraction. -/
theorem weight_nonneg (R : DoubleRounding rnd) (sol : Bool) (c : Contract) (prm : Params) (rate n : ℝ) (q : Ionisation.Particle) (hw : Double q.weight) :
    0 ≤ (ionise rnd sol c prm rate n q).weight ∧ Double (ionise rnd sol c prm rate n q).weight := by
  rw [ionise_weight]
  refine ⟨?_, weight_double R _ _ _ _ _ _⟩
  unfold weightF; dsimp only
  split_ifs with h
  · dsimp only; rw [add_neg_cancel]; exact (rnd_zero R).ge
  · exact mulAdd_nonneg R _ _ hw (not_le.mp h)

/-- The weight never grows while the rate and the density are not negative. -/
theorem weight_nonincreasing (R : DoubleRounding rnd) (sol : Bool) (c : Contract) {prm : Params} {rate n : ℝ} (P : Physical prm rate n) (q : Ionisation.Particle) (hw : Double q.weight)
    (h0 : 0 ≤ q.weight) : (ionise rnd sol c prm rate n q).weight ≤ q.weight := by
  rw [ionise_weight]
  unfold weightF; dsimp only
  split_ifs with h
  · dsimp only; rw [add_neg_cancel, rnd_zero R]; exact h0
  · exact mulAdd_le R _ hw (mul_nonpos_of_nonpos_of_nonneg (deltaPart_nonpos R P.rate_nonneg h0 (rnd_nonneg R (mul_nonneg P.dt_pos.le P.t_nonneg)))
      (rnd_nonneg R (mul_nonneg P.density_nonneg (by linarith [P.n_ge]))))

/-- Particles are marked for removal exactly when no weight is left, if the compiler treats the sum of the test and the sum of the update in the same way. -/
theorem marked_iff (R : DoubleRounding rnd) (sol : Bool) (c : Contract) (hc : c.test = c.update) (prm : Params) (rate n : ℝ) (q : Ionisation.Particle) :
    (ionise rnd sol c prm rate n q).id = Ionisation.removeKey ↔ q.id = Ionisation.removeKey ∨ (ionise rnd sol c prm rate n q).weight = 0 := by
  rw [ionise_weight, ionise_id]
  unfold weightF; dsimp only
  split_ifs with h
  · dsimp only; rw [add_neg_cancel, rnd_zero R]; simp
  · dsimp only; rw [← hc]
    constructor
    · exact Or.inl
    · rintro (h1 | h1)
      · exact h1
      · exact absurd h1.le h

/-- However the compiler treats the sums, a particle that is newly marked has no weight left, and an unmarked particle keeps its identity. -/
theorem marked_partial (R : DoubleRounding rnd) (sol : Bool) (c : Contract) (prm : Params) (rate n : ℝ) (q : Ionisation.Particle) :
    ((ionise rnd sol c prm rate n q).id = q.id ∨ (ionise rnd sol c prm rate n q).id = Ionisation.removeKey) ∧
      (q.id ≠ Ionisation.removeKey → (ionise rnd sol c prm rate n q).id = Ionisation.removeKey → (ionise rnd sol c prm rate n q).weight = 0) := by
  rw [ionise_weight, ionise_id]
  unfold weightF; dsimp only
  split_ifs with h
  · dsimp only; rw [add_neg_cancel, rnd_zero R]; simp
  · exact ⟨Or.inl rfl, fun h1 h2 => absurd h2 h1⟩

/-- A particle without weight is marked, whatever the compiler does: an unmarked particle without weight survives for one call at most. -/
theorem zero_marked (R : DoubleRounding rnd) (sol : Bool) (c : Contract) (prm : Params) (rate n : ℝ) (q : Ionisation.Particle) (h : q.weight = 0) :
    (ionise rnd sol c prm rate n q).id = Ionisation.removeKey ∧ (ionise rnd sol c prm rate n q).weight = 0 := by
  have h1 : deltaPart rnd rate 0 (dtSI rnd prm) = 0 := by unfold deltaPart; simp [rnd_zero R]
  have h2 : ∀ b y, mulAdd rnd b 0 y 0 = 0 := by intro b y; unfold mulAdd; simp [rnd_zero R]
  rw [ionise_weight, ionise_id, h]
  unfold weightF; dsimp only
  rw [h1, h2, if_pos le_rfl]
  simp [rnd_zero R]

/-! ### The sources -/

/-- The change of the weight: `deltaweight` lies between minus the weight and zero, and the new weight is the old one plus `deltaweight` up to rounding. -/
theorem delta_range (R : DoubleRounding rnd) (c : Contract) {rate d n w : ℝ} (id : ℤ) (hr : 0 ≤ rate) (hd : 0 ≤ d) (hn : 0 ≤ n) (hw : Double w) (h0 : 0 ≤ w) :
    -w ≤ (weightF rnd c rate d n id w).2.1 ∧ (weightF rnd c rate d n id w).2.1 ≤ 0 ∧
      |(weightF rnd c rate d n id w).2.2 - (w + (weightF rnd c rate d n id w).2.1)| ≤ 2 * unit * w + 2 * tiny := by
  have hu := unit_pos
  have ht := tiny_pos
  have hx : deltaPart rnd rate w d * n ≤ 0 := mul_nonpos_of_nonpos_of_nonneg (deltaPart_nonpos R hr h0 hd) hn
  unfold weightF; dsimp only
  split_ifs with h
  · dsimp only; rw [add_neg_cancel, rnd_zero R]
    refine ⟨le_rfl, by linarith, ?_⟩
    simp only [sub_zero, abs_zero]; positivity
  · dsimp only
    set y := deltaPart rnd rate w d * n with hy
    have key : -w < y := by
      by_contra hc
      push Not at hc
      have h1 : rnd y ≤ -w := rnd_le R (float_neg hw) hc
      apply h
      unfold mulAdd
      rw [← hy]
      split_ifs
      · exact rnd_nonpos R (by linarith)
      · exact rnd_nonpos R (by linarith)
    have h1 : -w ≤ rnd y := le_rnd R (float_neg hw) key.le
    have h2 := rnd_nonpos R hx
    refine ⟨h1, h2, ?_⟩
    unfold mulAdd
    rw [← hy]
    split_ifs
    · have e1 := abs_le.mp (err R (y + w))
      have e2 := abs_le.mp (err R y)
      rw [abs_of_nonneg (by linarith : 0 ≤ y + w)] at e1
      rw [abs_of_nonpos hx] at e2
      rw [abs_le]
      constructor <;> nlinarith
    · have e1 := err_add R (R.float y) hw
      rw [abs_of_nonneg (by linarith : 0 ≤ rnd y + w)] at e1
      rw [add_comm w]
      refine e1.trans ?_
      nlinarith

theorem nScale_error (R : DoubleRounding rnd) {prm : Params} (h1 : 1 ≤ prm.nToSI) (h2 : prm.nToSI ≤ 2 ^ 1000) : |prm.nToSI * nScale rnd prm - 1| ≤ unit := by
  have hN : 0 < prm.nToSI := by linarith
  have hlow : (2 : ℝ) ^ 53 * (2 : ℝ) ^ (-1074 : ℤ) < |1 / prm.nToSI| := by
    rw [abs_of_pos (by positivity)]
    refine lt_of_lt_of_le ?_ (one_div_le_one_div_of_le hN h2)
    rw [show (2 : ℝ) ^ 53 = 2 ^ (53 : ℤ) by norm_cast, ← zpow_add₀ (by norm_num : (2 : ℝ) ≠ 0), one_div, ← zpow_natCast, ← zpow_neg]
    exact zpow_lt_zpow_right₀ (by norm_num) (by norm_num)
  have := error_rel R (by norm_num) hlow
  rw [unit_eq, abs_of_pos (by positivity : 0 < 1 / prm.nToSI)] at this
  have h3 : prm.nToSI * nScale rnd prm - 1 = prm.nToSI * (rnd (1 / prm.nToSI) - 1 / prm.nToSI) := by
    unfold nScale; field_simp
  rw [h3, abs_mul, abs_of_pos hN]
  calc prm.nToSI * |rnd (1 / prm.nToSI) - 1 / prm.nToSI| ≤ prm.nToSI * (unit * (1 / prm.nToSI)) := mul_le_mul_of_nonneg_left this hN.le
    _ = unit := by field_simp

/-- What the fluid receives for a weight change of `-a`. -/
theorem source_error (R : DoubleRounding rnd) {prm : Params} (h1 : 1 ≤ prm.nToSI) (h2 : prm.nToSI ≤ 2 ^ 1000) (hdt : 0 < prm.dt) {a : ℝ} (ha : 0 ≤ a) :
    |prm.dt * (prm.nToSI * sourceF rnd prm (-a)) - a| ≤ 4 * unit * a + prm.nToSI * (prm.dt + 2) * tiny := by
  have hu := unit_pos
  have hul := unit_le
  have ht := tiny_pos
  have hN : 0 < prm.nToSI := by linarith
  have hk := abs_le.mp (nScale_error R h1 h2)
  unfold sourceF
  rw [neg_neg]
  set N := prm.nToSI
  set dt := prm.dt
  set k := nScale rnd prm
  have hk0 : 0 ≤ k := rnd_nonneg R (by positivity)
  have hak : 0 ≤ a * k := mul_nonneg ha hk0
  set s1 := rnd (a * k)
  have e1 := err R (a * k)
  rw [abs_of_nonneg hak] at e1
  have hs1 : 0 ≤ s1 := rnd_nonneg R hak
  have e2 := err R (s1 / dt)
  rw [abs_of_nonneg (div_nonneg hs1 hdt.le)] at e2
  have e3 : |dt * rnd (s1 / dt) - s1| ≤ unit * s1 + dt * tiny := by
    have : dt * rnd (s1 / dt) - s1 = dt * (rnd (s1 / dt) - s1 / dt) := by field_simp
    rw [this, abs_mul, abs_of_pos hdt]
    calc dt * |rnd (s1 / dt) - s1 / dt| ≤ dt * (unit * (s1 / dt) + tiny) := mul_le_mul_of_nonneg_left e2 hdt.le
      _ = unit * s1 + dt * tiny := by field_simp
  have hid : dt * (N * rnd (s1 / dt)) - a = N * (dt * rnd (s1 / dt) - s1) + N * (s1 - a * k) + a * (N * k - 1) := by ring
  rw [hid]
  refine (abs_add_three _ _ _).trans ?_
  rw [abs_mul, abs_mul, abs_mul, abs_of_pos hN, abs_of_nonneg ha]
  have t1 : N * |dt * rnd (s1 / dt) - s1| ≤ N * (unit * s1 + dt * tiny) := mul_le_mul_of_nonneg_left e3 hN.le
  have t2 : N * |s1 - a * k| ≤ N * (unit * (a * k) + tiny) := mul_le_mul_of_nonneg_left e1 hN.le
  have t3 : a * |N * k - 1| ≤ a * unit := mul_le_mul_of_nonneg_left (abs_le.mpr hk) ha
  have hs1' : s1 ≤ (1 + unit) * (a * k) + tiny := by have := (abs_le.mp e1).2; linarith
  have t4 : N * (unit * s1) ≤ N * (unit * ((1 + unit) * (a * k) + tiny)) := by gcongr
  have hNk : N * (a * k) ≤ a * (1 + unit) := by nlinarith [hk.2]
  have t5 : N * (unit * ((1 + unit) * (a * k) + tiny)) ≤ unit * (1 + unit) * (a * (1 + unit)) + unit * (N * tiny) := by
    have : unit * (1 + unit) * (N * (a * k)) ≤ unit * (1 + unit) * (a * (1 + unit)) := by gcongr
    linarith
  have t6 : N * (unit * (a * k)) ≤ unit * (a * (1 + unit)) := by
    have : unit * (N * (a * k)) ≤ unit * (a * (1 + unit)) := by gcongr
    linarith
  have hNt : 0 < N * tiny := by positivity
  have hua : 0 ≤ unit * a := by positivity
  have t7 : unit * (N * tiny) ≤ N * tiny := by nlinarith
  have t8 : unit * (1 + unit) * (a * (1 + unit)) + unit * (a * (1 + unit)) + a * unit ≤ 4 * unit * a := by
    have : unit * (1 + unit) * (a * (1 + unit)) = unit * a * (1 + unit) ^ 2 := by ring
    have h9 : (1 + unit) ^ 2 ≤ 3 / 2 := by nlinarith
    have h10 : unit * a * (1 + unit) ^ 2 ≤ unit * a * (3 / 2) := mul_le_mul_of_nonneg_left h9 hua
    have h11 : unit * a * unit ≤ unit * a * (1 / 2) := mul_le_mul_of_nonneg_left (by linarith) hua
    nlinarith
  linarith

/-- The plasma receives what the particle loses, up to the rounding of a step. -/
theorem balance (R : DoubleRounding rnd) (sol : Bool) (c : Contract) {prm : Params} {rate n : ℝ} (P : Physical prm rate n) (q : Ionisation.Particle) (hw : Double q.weight) (h0 : 0 ≤ q.weight) :
    |(ionise rnd sol c prm rate n q).weight + prm.dt * (prm.nToSI * (ionise rnd sol c prm rate n q).sourceDensity) - q.weight| ≤
      6 * unit * q.weight + prm.nToSI * (prm.dt + 4) * tiny := by
  rw [ionise_weight, ionise_source]
  have hN := P.n_ge
  obtain ⟨d1, d2, d3⟩ := delta_range R c (d := dtSI rnd prm) (n := densitySI rnd prm n) q.id P.rate_nonneg (rnd_nonneg R (mul_nonneg P.dt_pos.le P.t_nonneg) : 0 ≤ dtSI rnd prm)
    (rnd_nonneg R (mul_nonneg P.density_nonneg (by linarith)) : 0 ≤ densitySI rnd prm n) hw h0
  generalize weightF rnd c rate (dtSI rnd prm) (densitySI rnd prm n) q.id q.weight = r at d1 d2 d3
  have hs := source_error R P.n_ge P.n_le P.dt_pos (a := -r.2.1) (by linarith)
  rw [neg_neg] at hs
  have hu := unit_pos
  have ht := tiny_pos
  have hNt : tiny ≤ prm.nToSI * tiny := by nlinarith
  have : 4 * unit * -r.2.1 ≤ 4 * unit * q.weight := mul_le_mul_of_nonneg_left (by linarith) (by positivity)
  have e1 := abs_le.mp d3
  have e2 := abs_le.mp hs
  rw [abs_le]
  constructor <;> linarith

/-- The sources of density and energy are not negative. -/
theorem sources_nonneg (R : DoubleRounding rnd) (c : Contract) {prm : Params} {rate n : ℝ} (P : Physical prm rate n) (q : Ionisation.Particle) (hw : Double q.weight) (h0 : 0 ≤ q.weight) :
    0 ≤ (ioniseSOL rnd c prm rate n q).sourceDensity ∧ 0 ≤ (ioniseSOL rnd c prm rate n q).sourceEnergy ∧ 0 ≤ (ioniseDR rnd c prm rate n q).sourceDensity := by
  have hN := P.n_ge
  obtain ⟨-, d2, -⟩ := delta_range R c (d := dtSI rnd prm) (n := densitySI rnd prm n) q.id P.rate_nonneg (rnd_nonneg R (mul_nonneg P.dt_pos.le P.t_nonneg) : 0 ≤ dtSI rnd prm)
    (rnd_nonneg R (mul_nonneg P.density_nonneg (by linarith)) : 0 ≤ densitySI rnd prm n) hw h0
  have hs : 0 ≤ sourceF rnd prm (weightF rnd c rate (dtSI rnd prm) (densitySI rnd prm n) q.id q.weight).2.1 := by
    refine rnd_nonneg R (div_nonneg (rnd_nonneg R (mul_nonneg (by linarith) (rnd_nonneg R (by positivity)))) P.dt_pos.le)
  refine ⟨hs, ?_, hs⟩
  refine rnd_nonneg R (mul_nonneg (rnd_nonneg R ?_) (by norm_num))
  rcases le_total 0 (alongF rnd c prm q.vel) with hv | hv
  · exact mul_nonneg (rnd_nonneg R (mul_nonneg hs hv)) hv
  · exact mul_nonneg_of_nonpos_of_nonpos (rnd_nonpos R (mul_nonpos_of_nonneg_of_nonpos hs hv)) hv

/-! ### Many steps -/

/-- After any number of calls, with any step sizes up to `D`, rates and densities, the weight is between zero and the initial weight, and what the fluid has received is what the particle has
lost up to the rounding of the calls. -/
theorem balance_steps (R : DoubleRounding rnd) (sol : Bool) (c : Contract) (prm : Params) (D : ℝ) (l : List (ℝ × ℝ × ℝ)) (q : Ionisation.Particle) (hw : Double q.weight) (h0 : 0 ≤ q.weight)
    (P : ∀ s ∈ l, Physical { prm with dt := s.1 } s.2.1 s.2.2 ∧ s.1 ≤ D) :
    0 ≤ (ioniseSteps rnd sol c prm l q).1.weight ∧ (ioniseSteps rnd sol c prm l q).1.weight ≤ q.weight ∧
      |(ioniseSteps rnd sol c prm l q).1.weight + (ioniseSteps rnd sol c prm l q).2 - q.weight| ≤ l.length * (6 * unit * q.weight + prm.nToSI * (D + 4) * tiny) := by
  induction l generalizing q with
  | nil => simp [ioniseSteps, h0]
  | cons s l ih =>
    obtain ⟨Ps, hD⟩ := P s (by simp)
    have w1 := weight_nonneg R sol c { prm with dt := s.1 } s.2.1 s.2.2 q hw
    have w2 := weight_nonincreasing R sol c Ps q hw h0
    have w3 := balance R sol c Ps q hw h0
    simp only [ioniseSteps]
    set q' := ionise rnd sol c { prm with dt := s.1 } s.2.1 s.2.2 q with hq'
    obtain ⟨i1, i2, i3⟩ := ih q' w1.2 w1.1 (fun s hs => P s (by simp [hs]))
    refine ⟨i1, i2.trans w2, ?_⟩
    have hu := unit_pos
    have ht := tiny_pos
    have hN : 1 ≤ prm.nToSI := Ps.n_ge
    have hl : (0 : ℝ) ≤ l.length := by positivity
    have k1 : (l.length : ℝ) * (6 * unit * q'.weight + prm.nToSI * (D + 4) * tiny) ≤ l.length * (6 * unit * q.weight + prm.nToSI * (D + 4) * tiny) := by gcongr
    have k2 : prm.nToSI * (s.1 + 4) * tiny ≤ prm.nToSI * (D + 4) * tiny := by gcongr
    dsimp only at w3
    have e1 := abs_le.mp w3
    have e2 := abs_le.mp i3
    rw [List.length_cons]
    push_cast
    rw [abs_le]
    constructor <;> linarith

/-! ### What does not hold -/

theorem double_int (m : ℤ) (h : |m| ≤ 2 ^ 53) : Double m := float_int (by norm_num) (by norm_num) h

theorem double_one : Double 1 := by have := double_int 1 (by norm_num); simpa using this

/-- A `double` below one is at least `2 ^ -53` below. -/
theorem below_one {f : ℝ} (hf : Double f) (h : f < 1) : f ≤ 1 - (2 : ℝ) ^ (-53 : ℤ) := by
  by_cases h1 : f < 1 / 2
  · have : f < 1 / 2 := h1
    refine this.le.trans ?_
    norm_num
  · push Not at h1
    obtain ⟨j, hj⟩ := float_grid hf (-1) (by rw [abs_of_nonneg (by linarith)]; norm_num; linarith)
    have hu : (2 : ℝ) ^ (-1 + 1 - ((53 : ℕ) : ℤ)) = 2 ^ (-53 : ℤ) := by norm_num
    rw [hu] at hj
    have h53 : (2 : ℝ) ^ (-53 : ℤ) * 2 ^ (53 : ℕ) = 1 := by norm_num
    have hpos := two_pos (-53)
    have hlt : (j : ℝ) < 2 ^ (53 : ℕ) := by
      by_contra hc
      push Not at hc
      have : (2 : ℝ) ^ (53 : ℕ) * 2 ^ (-53 : ℤ) ≤ j * 2 ^ (-53 : ℤ) := mul_le_mul_of_nonneg_right hc hpos.le
      linarith
    have hle : (j : ℝ) ≤ 2 ^ (53 : ℕ) - 1 := by
      have h2 : j < 2 ^ 53 := by exact_mod_cast hlt
      have h3 : j ≤ 2 ^ 53 - 1 := by omega
      exact_mod_cast h3
    have := mul_le_mul_of_nonneg_right hle hpos.le
    rw [← hj] at this
    linarith

/-- In the default rounding mode a weight of one does not change when less than `2 ^ -54` is subtracted. -/
theorem nearest_one (N : Nearest 53 (-1074) rnd) {e : ℝ} (h0 : 0 ≤ e) (h : e < (2 : ℝ) ^ (-54 : ℤ)) : rnd (1 - e) = 1 := by
  have R : DoubleRounding rnd := Verif.Lemmas.RoundingModes.nearest_rounding N
  have h1 : rnd (1 - e) ≤ 1 := rnd_le R double_one (by linarith)
  by_contra hne
  have h2 := below_one (R.float (1 - e)) (lt_of_le_of_ne h1 hne)
  have h3 := N.nearest (1 - e) 1 double_one
  rw [show (1 : ℝ) - (1 - e) = e by ring, abs_of_nonneg h0] at h3
  have h4 := (abs_le.mp h3).1
  have h5 : (2 : ℝ) ^ (-53 : ℤ) = 2 * 2 ^ (-54 : ℤ) := by norm_num
  linarith

/-- The parameters of the examples: all conversion factors one. -/
noncomputable def unitParams : Params := ⟨1, 1, 1, 1, 0⟩

/-- A particle of weight one. -/
noncomputable def unitParticle : Ionisation.Particle := ⟨(0, 0), (1, 0), 7, 1, 0, (0, 0), 0⟩

theorem double_pow {e : ℤ} (he : -1074 ≤ e) : Double ((2 : ℝ) ^ e) := float_pow (by norm_num) he

theorem stagnates (N : Nearest 53 (-1074) rnd) (sol : Bool) (c : Contract) (q : Ionisation.Particle) (hq : q.weight = 1) (prm : Params) (h1 : prm.dt = 1) (h2 : prm.tToSI = 1) (h3 : prm.nToSI = 1) :
    (ionise rnd sol c prm (2 ^ (-60 : ℤ)) 1 q).weight = 1 ∧ (ionise rnd sol c prm (2 ^ (-60 : ℤ)) 1 q).sourceDensity = 2 ^ (-60 : ℤ) := by
  have R : DoubleRounding rnd := Verif.Lemmas.RoundingModes.nearest_rounding N
  have e1 : rnd 1 = 1 := R.exact _ double_one
  have e2 : rnd ((2 : ℝ) ^ (-60 : ℤ)) = 2 ^ (-60 : ℤ) := R.exact _ (double_pow (by norm_num))
  have e3 : rnd (-(2 : ℝ) ^ (-60 : ℤ)) = -2 ^ (-60 : ℤ) := R.exact _ (float_neg (double_pow (by norm_num)))
  have e4 : rnd (1 - (2 : ℝ) ^ (-60 : ℤ)) = 1 := nearest_one N (two_pos _).le (zpow_lt_zpow_right₀ (by norm_num) (by norm_num))
  have e5 : ∀ b, mulAdd rnd b (-2 ^ (-60 : ℤ)) 1 1 = 1 := by
    intro b; unfold mulAdd
    rw [mul_one, e3, show -(2 : ℝ) ^ (-60 : ℤ) + 1 = 1 - 2 ^ (-60 : ℤ) by ring, e4]; simp
  have hw : weightF rnd c (2 ^ (-60 : ℤ)) (dtSI rnd prm) (densitySI rnd prm 1) q.id q.weight = (q.id, -2 ^ (-60 : ℤ), 1) := by
    have d1 : dtSI rnd prm = 1 := by rw [dtSI, h1, h2, mul_one, e1]
    have d2 : densitySI rnd prm 1 = 1 := by rw [densitySI, h3, mul_one, e1]
    have d3 : deltaPart rnd (2 ^ (-60 : ℤ)) 1 1 = -2 ^ (-60 : ℤ) := by rw [deltaPart, mul_one, mul_one, e3, e3]
    unfold weightF; dsimp only
    rw [d1, d2, hq, d3, e5, e5, mul_one, e3, if_neg (by norm_num)]
  rw [ionise_weight, ionise_source, hw]
  refine ⟨rfl, ?_⟩
  rw [sourceF, nScale, h1, h3, neg_neg, div_one, div_one, e1, mul_one, e2, e2]

/-- **Finding.** The bound of `balance_steps` cannot be replaced by one that does not grow with the number of calls: while the weight change is below the rounding unit of the weight, the weight does not
change but the fluid receives the change in each call. For every amount there is a number of calls after which the fluid has received more, and the particle has lost nothing. -/
theorem balance_unbounded (N : Nearest 53 (-1074) rnd) (sol : Bool) (c : Contract) (B : ℝ) : ∃ m : ℕ,
    (ioniseSteps rnd sol c unitParams (List.replicate m (1, 2 ^ (-60 : ℤ), 1)) unitParticle).1.weight = unitParticle.weight ∧
      B < (ioniseSteps rnd sol c unitParams (List.replicate m (1, 2 ^ (-60 : ℤ), 1)) unitParticle).2 := by
  have key : ∀ (m : ℕ) (q : Ionisation.Particle), q.weight = 1 → (ioniseSteps rnd sol c unitParams (List.replicate m (1, 2 ^ (-60 : ℤ), 1)) q).1.weight = 1 ∧
      (ioniseSteps rnd sol c unitParams (List.replicate m (1, 2 ^ (-60 : ℤ), 1)) q).2 = m * 2 ^ (-60 : ℤ) := by
    intro m
    induction m with
    | zero => intro q hq; simp [ioniseSteps, hq]
    | succ m ih =>
      intro q hq
      obtain ⟨s1, s2⟩ := stagnates N sol c q hq { unitParams with dt := 1 } rfl rfl rfl
      obtain ⟨i1, i2⟩ := ih _ s1
      rw [List.replicate_succ]
      simp only [ioniseSteps]
      refine ⟨i1, ?_⟩
      rw [i2, s2]
      simp only [unitParams]
      push_cast; ring
  obtain ⟨m, hm⟩ := exists_nat_gt (B / 2 ^ (-60 : ℤ))
  refine ⟨m, (key m unitParticle rfl).1, ?_⟩
  rw [(key m unitParticle rfl).2]
  rwa [div_lt_iff₀ (two_pos _)] at hm

/-- **Finding.** If the compiler fuses the sum of the test but not the sum of the update, a particle can lose all its weight without being marked. -/
theorem unmarked_zero (N : Nearest 53 (-1074) rnd) (sol v : Bool) : ∃ rate n : ℝ, Double rate ∧ Double n ∧
    (ionise rnd sol ⟨true, false, v⟩ unitParams rate n unitParticle).weight = 0 ∧
      (ionise rnd sol ⟨true, false, v⟩ unitParams rate n unitParticle).id = unitParticle.id ∧ unitParticle.id ≠ Ionisation.removeKey := by
  have R : DoubleRounding rnd := Verif.Lemmas.RoundingModes.nearest_rounding N
  have e1 : rnd 1 = 1 := R.exact _ double_one
  have f1 : Double (1 - (2 : ℝ) ^ (-28 : ℤ)) := ⟨2 ^ 28 - 1, -28, by norm_num, by norm_num, by norm_num⟩
  have f2 : Double (1 + (2 : ℝ) ^ (-28 : ℤ)) := ⟨2 ^ 28 + 1, -28, by norm_num, by norm_num, by norm_num⟩
  refine ⟨1 - 2 ^ (-28 : ℤ), 1 + 2 ^ (-28 : ℤ), f1, f2, ?_⟩
  have d1 : dtSI rnd unitParams = 1 := by simp only [dtSI, unitParams]; rw [mul_one, e1]
  have d2 : densitySI rnd unitParams (1 + 2 ^ (-28 : ℤ)) = 1 + 2 ^ (-28 : ℤ) := by simp only [densitySI, unitParams]; rw [mul_one, R.exact _ f2]
  have d3 : deltaPart rnd (1 - 2 ^ (-28 : ℤ)) 1 1 = -(1 - 2 ^ (-28 : ℤ)) := by
    rw [deltaPart, mul_one, mul_one, R.exact _ (float_neg f1), R.exact _ (float_neg f1)]
  have hprod : -(1 - (2 : ℝ) ^ (-28 : ℤ)) * (1 + 2 ^ (-28 : ℤ)) = -1 + 2 ^ (-56 : ℤ) := by norm_num
  have hone : rnd (1 - (2 : ℝ) ^ (-56 : ℤ)) = 1 := nearest_one N (two_pos _).le (zpow_lt_zpow_right₀ (by norm_num) (by norm_num))
  have hneg : rnd (-1 + (2 : ℝ) ^ (-56 : ℤ)) = -1 := by
    have h1 : -1 ≤ rnd (-1 + (2 : ℝ) ^ (-56 : ℤ)) := le_rnd R (float_neg double_one) (by have := two_pos (-56); linarith)
    by_contra hne
    have h2 : -rnd (-1 + (2 : ℝ) ^ (-56 : ℤ)) < 1 := by
      have := lt_of_le_of_ne h1 (Ne.symm hne); linarith
    have h3 := below_one (float_neg (R.float (-1 + (2 : ℝ) ^ (-56 : ℤ)))) h2
    have h4 := N.nearest (-1 + (2 : ℝ) ^ (-56 : ℤ)) (-1) (float_neg double_one)
    rw [show (-1 : ℝ) - (-1 + 2 ^ (-56 : ℤ)) = -2 ^ (-56 : ℤ) by ring, abs_neg, abs_of_pos (two_pos _)] at h4
    have h5 := (abs_le.mp h4).2
    have h6 : (2 : ℝ) ^ (-53 : ℤ) = 8 * 2 ^ (-56 : ℤ) := by norm_num
    have := two_pos (-56)
    linarith
  have ht : mulAdd rnd true (-(1 - (2 : ℝ) ^ (-28 : ℤ))) (1 + 2 ^ (-28 : ℤ)) 1 = 2 ^ (-56 : ℤ) := by
    unfold mulAdd
    rw [if_pos rfl, hprod, show -1 + (2 : ℝ) ^ (-56 : ℤ) + 1 = 2 ^ (-56 : ℤ) by ring, R.exact _ (double_pow (by norm_num))]
  have hf : mulAdd rnd false (-(1 - (2 : ℝ) ^ (-28 : ℤ))) (1 + 2 ^ (-28 : ℤ)) 1 = 0 := by
    unfold mulAdd
    rw [if_neg (by simp), hprod, hneg, show (-1 : ℝ) + 1 = 0 by ring, rnd_zero R]
  have hw : weightF rnd ⟨true, false, v⟩ (1 - 2 ^ (-28 : ℤ)) (dtSI rnd unitParams) (densitySI rnd unitParams (1 + 2 ^ (-28 : ℤ))) unitParticle.id unitParticle.weight =
      (unitParticle.id, rnd (-(1 - (2 : ℝ) ^ (-28 : ℤ)) * (1 + 2 ^ (-28 : ℤ))), 0) := by
    have hq : unitParticle.weight = 1 := rfl
    unfold weightF; dsimp only
    rw [d1, d2, hq, d3, ht, hf, if_neg (not_le.mpr (two_pos _))]
  rw [ionise_weight, ionise_id, hw]
  exact ⟨rfl, rfl, by simp [unitParticle, Ionisation.removeKey]⟩

/-! ### The hypotheses can be met -/

/-- Without rounding the kernel is the one of C62. -/
theorem exact_weight (c : Contract) (rate d n : ℝ) (id : ℤ) (w : ℝ) : weightF (fun x => x) c rate d n id w = Ionisation.weightChange rate d n id w := by
  have h : ∀ b, mulAdd (fun x => x) b (-rate * w * d) n w = w + -rate * w * d * n := by intro b; unfold mulAdd; split_ifs <;> ring
  unfold weightF Ionisation.weightChange deltaPart
  simp only [h]

/-- Without rounding the calls are the ones of C62: the density in SI units is the evaluated density times the conversion factor. -/
theorem exact_call (c : Contract) (t N θ dt T rate n : ℝ) (q : Ionisation.Particle) (h : Ionisation.ionRate T = some rate) :
    Ionisation.ioniseSOL ⟨t, N, θ⟩ dt (n * N) T q = some (ionise (fun x => x) true c ⟨dt, t, N, Real.cos θ, Real.sin θ⟩ rate n q) ∧
      Ionisation.ioniseDR ⟨t, N, θ⟩ T dt (n * N) q = some (ionise (fun x => x) false c ⟨dt, t, N, Real.cos θ, Real.sin θ⟩ rate n q) := by
  have hv : alongF (fun x => x) c ⟨dt, t, N, Real.cos θ, Real.sin θ⟩ q.vel = q.vel.1 * Real.cos θ + q.vel.2 * Real.sin θ := by
    unfold alongF mulAdd; simp
  unfold Ionisation.ioniseSOL Ionisation.ioniseDR ionise
  rw [h]
  simp only [Bool.false_eq_true, if_true, if_false, Option.some.injEq]
  unfold ioniseSOL ioniseDR sourceF nScale dtSI densitySI
  simp only [exact_weight, hv]
  exact ⟨trivial, trivial⟩

/-- There is a rounding in the default mode. -/
example : ∃ rnd : ℝ → ℝ, Nearest 53 (-1074) rnd ∧ DoubleRounding rnd :=
  ⟨_, (Verif.Lemmas.RoundingModes.nearestEven_spec (by norm_num)).toNearest, Verif.Lemmas.RoundingModes.nearest_rounding (Verif.Lemmas.RoundingModes.nearestEven_spec (by norm_num)).toNearest⟩

example : Physical unitParams (1 / 2) (1 / 2) ∧ Double unitParticle.weight ∧ 0 ≤ unitParticle.weight :=
  ⟨⟨by norm_num [unitParams], by norm_num [unitParams], by norm_num [unitParams], by simpa [unitParams] using one_le_pow₀ (M₀ := ℝ) (n := 1000) (one_le_two), by norm_num, by norm_num⟩, double_one, by norm_num [unitParticle]⟩

end Verif.Props.C105
