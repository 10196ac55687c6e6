import Verif.Spec.Rounding
import Mathlib.Data.Int.Log
import Mathlib.Algebra.Order.Floor.Ring
import Mathlib.Tactic.Linarith
import Mathlib.Tactic.Positivity
import Mathlib.Tactic.Ring
import Mathlib.Tactic.NormNum
import Mathlib.Data.Real.Archimedean

/-! Floating point numbers: exactness, errors, and the existence of a rounding. -/

namespace Verif.Lemmas.Rounding
open Verif.Spec.Rounding

variable {p : ℕ} {emin : ℤ} {rnd : ℝ → ℝ}

theorem two_pos (e : ℤ) : (0 : ℝ) < 2 ^ e := zpow_pos (by norm_num) e

theorem float_zero : IsFloat p emin 0 := ⟨0, emin, by simp, le_rfl, by simp⟩

theorem float_neg {x : ℝ} (h : IsFloat p emin x) : IsFloat p emin (-x) := by
  obtain ⟨m, e, h1, h2, rfl⟩ := h
  exact ⟨-m, e, by rwa [abs_neg], h2, by push_cast; ring⟩

theorem float_abs {x : ℝ} (h : IsFloat p emin x) : IsFloat p emin |x| := by
  rcases abs_choice x with e | e <;> rw [e]
  · exact h
  · exact float_neg h

/-- Multiples of `2 ^ e` of at most `2 ^ p` units are floating point numbers. -/
theorem float_of_multiple (hp : 1 ≤ p) {m e : ℤ} (he : emin ≤ e) (hm : |m| ≤ 2 ^ p) : IsFloat p emin (m * (2 : ℝ) ^ e) := by
  rcases lt_or_eq_of_le hm with h | h
  · exact ⟨m, e, h, he, rfl⟩
  · have h2 : (2 : ℤ) ^ p = 2 ^ (p - 1) * 2 := by rw [← pow_succ, Nat.sub_add_cancel hp]
    have h3 : (2 : ℤ) ^ (p - 1) < 2 ^ p := by rw [h2]; have : (0 : ℤ) < 2 ^ (p - 1) := by positivity
                                              omega
    have h4 : (0 : ℤ) < 2 ^ (p - 1) := by positivity
    rcases abs_choice m with e1 | e1
    · refine ⟨2 ^ (p - 1), e + 1, by rwa [abs_of_pos h4], by omega, ?_⟩
      rw [e1] at h
      rw [h, h2, zpow_add_one₀ (by norm_num : (2 : ℝ) ≠ 0)]
      push_cast; ring
    · refine ⟨-2 ^ (p - 1), e + 1, by rwa [abs_neg, abs_of_pos h4], by omega, ?_⟩
      rw [e1] at h
      have : m = - 2 ^ p := by omega
      rw [this, h2, zpow_add_one₀ (by norm_num : (2 : ℝ) ≠ 0)]
      push_cast; ring

theorem float_int (hp : 1 ≤ p) (he : emin ≤ 0) {m : ℤ} (hm : |m| ≤ 2 ^ p) : IsFloat p emin (m : ℝ) := by
  have := float_of_multiple hp he hm
  simpa using this

theorem float_pow (hp : 1 ≤ p) {e : ℤ} (he : emin ≤ e) : IsFloat p emin ((2 : ℝ) ^ e) := by
  have := float_of_multiple hp he (m := 1) (by simp; exact_mod_cast Nat.one_le_two_pow)
  simpa using this

/-- Two floating point numbers are multiples of a common unit. -/
theorem common (x y : ℝ) (hx : IsFloat p emin x) (hy : IsFloat p emin y) :
    ∃ (a b e : ℤ), emin ≤ e ∧ x = a * (2 : ℝ) ^ e ∧ y = b * (2 : ℝ) ^ e ∧ (|a| < 2 ^ p ∨ |b| < 2 ^ p) := by
  obtain ⟨m, e, h1, h2, rfl⟩ := hx
  obtain ⟨n, f, k1, k2, rfl⟩ := hy
  rcases le_total e f with h | h
  · obtain ⟨d, hd⟩ := Int.le.dest h
    refine ⟨m, n * 2 ^ d, e, h2, rfl, ?_, Or.inl h1⟩
    rw [← hd, zpow_add₀ (by norm_num : (2 : ℝ) ≠ 0), zpow_natCast]
    push_cast; ring
  · obtain ⟨d, hd⟩ := Int.le.dest h
    refine ⟨m * 2 ^ d, n, f, k2, ?_, rfl, Or.inr k1⟩
    rw [← hd, zpow_add₀ (by norm_num : (2 : ℝ) ≠ 0), zpow_natCast]
    push_cast; ring

/-- Sterbenz: the difference of floating point numbers within a factor of two is a floating point number. -/
theorem sterbenz {x y : ℝ} (hx : IsFloat p emin x) (hy : IsFloat p emin y) (h1 : x ≤ 2 * y) (h2 : y ≤ 2 * x) : IsFloat p emin (x - y) := by
  obtain ⟨a, b, e, he, rfl, rfl, hab⟩ := common x y hx hy
  have hu := two_pos e
  have h1' : (a : ℝ) ≤ 2 * b := by
    by_contra hc; push Not at hc; nlinarith
  have h2' : (b : ℝ) ≤ 2 * a := by
    by_contra hc; push Not at hc; nlinarith
  have i1 : a ≤ 2 * b := by exact_mod_cast h1'
  have i2 : b ≤ 2 * a := by exact_mod_cast h2'
  refine ⟨a - b, e, ?_, he, by push_cast; ring⟩
  have ha : 0 ≤ a := by omega
  have hb : 0 ≤ b := by omega
  rw [abs_of_nonneg ha, abs_of_nonneg hb] at hab
  rw [abs_lt]
  constructor <;> rcases hab with h | h <;> omega

/-- A floating point number of at least `2 ^ k` is a multiple of `2 ^ (k + 1 - p)`. -/
theorem float_grid {x : ℝ} (hx : IsFloat p emin x) (k : ℤ) (hk : (2 : ℝ) ^ k ≤ |x|) : ∃ j : ℤ, x = j * (2 : ℝ) ^ (k + 1 - p) := by
  obtain ⟨m, e, h1, h2, rfl⟩ := hx
  have hlt : (2 : ℝ) ^ k < 2 ^ ((p : ℤ) + e) := by
    refine lt_of_le_of_lt hk ?_
    rw [abs_mul, abs_of_pos (two_pos e), zpow_add₀ (by norm_num : (2 : ℝ) ≠ 0), zpow_natCast]
    apply mul_lt_mul_of_pos_right _ (two_pos e)
    exact_mod_cast h1
  have hle : k + 1 - p ≤ e := by
    have := (zpow_lt_zpow_iff_right₀ (by norm_num : (1 : ℝ) < 2)).mp hlt
    omega
  obtain ⟨d, hd⟩ := Int.le.dest hle
  refine ⟨m * 2 ^ d, ?_⟩
  push_cast
  rw [mul_assoc, ← zpow_natCast, ← zpow_add₀ (by norm_num : (2 : ℝ) ≠ 0), add_comm, hd]

section rounding
variable (R : Rounding p emin rnd)
include R

theorem rnd_zero : rnd 0 = 0 := R.exact 0 float_zero

theorem rnd_nonneg {x : ℝ} (h : 0 ≤ x) : 0 ≤ rnd x := by
  have := R.mono h
  rwa [rnd_zero R] at this

theorem rnd_nonpos {x : ℝ} (h : x ≤ 0) : rnd x ≤ 0 := by
  have := R.mono h
  rwa [rnd_zero R] at this

theorem le_rnd {x y : ℝ} (hy : IsFloat p emin y) (h : y ≤ x) : y ≤ rnd x := by
  have := R.mono h
  rwa [R.exact y hy] at this

theorem rnd_le {x y : ℝ} (hy : IsFloat p emin y) (h : x ≤ y) : rnd x ≤ y := by
  have := R.mono h
  rwa [R.exact y hy] at this

/-- A difference of floating point numbers is only rounded to zero if they are equal. -/
theorem sub_eq_zero_iff (hp : 1 ≤ p) {x y : ℝ} (hx : IsFloat p emin x) (hy : IsFloat p emin y) : rnd (x - y) = 0 ↔ x = y := by
  constructor
  · intro h
    by_contra hne
    obtain ⟨a, b, e, he, hx', hy', -⟩ := common x y hx hy
    have hab : a ≠ b := by rintro rfl; exact hne (hx'.trans hy'.symm)
    have hu := two_pos e
    have hf : IsFloat p emin ((2 : ℝ) ^ e) := float_pow hp he
    rcases lt_or_gt_of_ne hab with hl | hl
    · have h1 : x - y ≤ - (2 : ℝ) ^ e := by
        have : (a : ℝ) + 1 ≤ b := by exact_mod_cast hl
        rw [hx', hy']; nlinarith
      have := rnd_le R (float_neg hf) h1
      linarith
    · have h1 : (2 : ℝ) ^ e ≤ x - y := by
        have : (b : ℝ) + 1 ≤ a := by exact_mod_cast hl
        rw [hx', hy']; nlinarith
      have := le_rnd R hf h1
      linarith
  · rintro rfl
    rw [sub_self]; exact rnd_zero R

/-- The error of a rounding, in units of any exponent that is fine enough for the number. -/
theorem error_unit (hp : 1 ≤ p) (x : ℝ) (e : ℤ) (he : emin ≤ e) (hx : |x| ≤ 2 ^ p * (2 : ℝ) ^ e) : |rnd x - x| ≤ 2 ^ e := by
  have hu := two_pos e
  set m : ℤ := ⌊x / 2 ^ e⌋ with hm
  have h1 : (m : ℝ) * 2 ^ e ≤ x := by
    have := Int.floor_le (x / 2 ^ e); rwa [le_div_iff₀ hu] at this
  have h2 : x < (m + 1 : ℝ) * 2 ^ e := by
    have := Int.lt_floor_add_one (x / 2 ^ e); rwa [div_lt_iff₀ hu] at this
  obtain ⟨hx1, hx2⟩ := abs_le.mp hx
  have hm1 : -(2 : ℤ) ^ p ≤ m := by
    rw [hm, Int.le_floor]
    rw [le_div_iff₀ hu]; push_cast; linarith
  have hm2 : m ≤ 2 ^ p := by
    have : (m : ℝ) ≤ 2 ^ p := by
      by_contra hc; push Not at hc; nlinarith
    exact_mod_cast this
  have f1 : IsFloat p emin ((m : ℝ) * 2 ^ e) := float_of_multiple hp he (abs_le.mpr ⟨hm1, hm2⟩)
  by_cases hlt : m + 1 ≤ 2 ^ p
  · have f2 : IsFloat p emin (((m + 1 : ℤ) : ℝ) * 2 ^ e) := float_of_multiple hp he (abs_le.mpr ⟨by omega, hlt⟩)
    have r1 := le_rnd R f1 h1
    have r2 := rnd_le R f2 (by push_cast; exact h2.le)
    push_cast at r2
    rw [abs_le]; constructor <;> nlinarith
  · have hmp : m = 2 ^ p := by omega
    have hxe : x = (m : ℝ) * 2 ^ e := by
      apply le_antisymm _ h1
      rw [hmp]; push_cast; linarith
    rw [hxe, R.exact _ f1, sub_self, abs_zero]; exact hu.le

/-- The error of a rounding: relative, except near zero. -/
theorem error (hp : 1 ≤ p) (x : ℝ) : |rnd x - x| ≤ (2 : ℝ) ^ (1 - (p : ℤ)) * |x| + (2 : ℝ) ^ emin := by
  have hu := two_pos emin
  have hv := two_pos (1 - (p : ℤ))
  by_cases hx : |x| ≤ 2 ^ p * (2 : ℝ) ^ emin
  · have := error_unit R hp x emin le_rfl hx
    have : 0 ≤ (2 : ℝ) ^ (1 - (p : ℤ)) * |x| := by positivity
    linarith
  · push Not at hx
    have hpos : 0 < |x| := lt_trans (by positivity) hx
    set k := Int.log 2 |x| with hk
    have hlow : (2 : ℝ) ^ k ≤ |x| := by
      have := Int.zpow_log_le_self (b := 2) (by norm_num) hpos
      exact_mod_cast this
    have hhigh : |x| < (2 : ℝ) ^ (k + 1) := by
      have := Int.lt_zpow_succ_log_self (b := 2) (by norm_num) |x|
      exact_mod_cast this
    have hke : emin ≤ k + 1 - p := by
      have : (2 : ℝ) ^ ((p : ℤ) + emin) < 2 ^ (k + 1) := by
        rw [zpow_add₀ (by norm_num : (2 : ℝ) ≠ 0), zpow_natCast]; linarith
      have := (zpow_lt_zpow_iff_right₀ (by norm_num : (1 : ℝ) < 2)).mp this
      omega
    have h3 : |x| ≤ 2 ^ p * (2 : ℝ) ^ (k + 1 - p) := by
      rw [← zpow_natCast, ← zpow_add₀ (by norm_num : (2 : ℝ) ≠ 0)]
      rw [show (p : ℤ) + (k + 1 - p) = k + 1 by ring]; exact hhigh.le
    have h4 := error_unit R hp x (k + 1 - p) hke h3
    have h5 : (2 : ℝ) ^ (k + 1 - p) = 2 ^ (1 - (p : ℤ)) * 2 ^ k := by
      rw [← zpow_add₀ (by norm_num : (2 : ℝ) ≠ 0)]; congr 1; ring
    rw [h5] at h4
    have : (2 : ℝ) ^ (1 - (p : ℤ)) * 2 ^ k ≤ 2 ^ (1 - (p : ℤ)) * |x| := mul_le_mul_of_nonneg_left hlow hv.le
    linarith

end rounding

/-! ### A rounding exists -/

/-- The exponent of the unit of a number. -/
noncomputable def unit (p : ℕ) (emin : ℤ) (x : ℝ) : ℤ := max emin (Int.log 2 |x| + 1 - p)

/-- Rounding toward zero. -/
noncomputable def towardZero (p : ℕ) (emin : ℤ) (x : ℝ) : ℝ :=
  if 0 ≤ x then ⌊x / 2 ^ unit p emin x⌋ * 2 ^ unit p emin x else -(⌊(-x) / 2 ^ unit p emin x⌋ * 2 ^ unit p emin x)

theorem abs_lt_unit (x : ℝ) : |x| < 2 ^ p * (2 : ℝ) ^ unit p emin x := by
  have h1 : |x| < (2 : ℝ) ^ (Int.log 2 |x| + 1) := by
    have := Int.lt_zpow_succ_log_self (b := 2) (by norm_num) |x|
    exact_mod_cast this
  have h2 : (2 : ℝ) ^ (Int.log 2 |x| + 1) ≤ 2 ^ p * (2 : ℝ) ^ unit p emin x := by
    rw [← zpow_natCast, ← zpow_add₀ (by norm_num : (2 : ℝ) ≠ 0)]
    apply zpow_le_zpow_right₀ (by norm_num)
    have := le_max_right emin (Int.log 2 |x| + 1 - p)
    unfold unit; omega
  linarith

/-- The largest floating point number up to a non-negative number. -/
theorem floor_float {x : ℝ} (hx : 0 ≤ x) : IsFloat p emin (⌊x / 2 ^ unit p emin x⌋ * (2 : ℝ) ^ unit p emin x) := by
  have hu := two_pos (unit p emin x)
  refine ⟨⌊x / 2 ^ unit p emin x⌋, unit p emin x, ?_, le_max_left _ _, rfl⟩
  have h1 : 0 ≤ ⌊x / 2 ^ unit p emin x⌋ := Int.floor_nonneg.mpr (by positivity)
  rw [abs_of_nonneg h1, Int.floor_lt, div_lt_iff₀ hu]
  have := abs_lt_unit (p := p) (emin := emin) x
  rw [abs_of_nonneg hx] at this
  exact_mod_cast this

theorem floor_le' {x : ℝ} : ⌊x / 2 ^ unit p emin x⌋ * (2 : ℝ) ^ unit p emin x ≤ x := by
  have := Int.floor_le (x / 2 ^ unit p emin x)
  rwa [le_div_iff₀ (two_pos _)] at this

/-- A floating point number is a multiple of its unit. -/
theorem float_multiple_of_unit {y : ℝ} (hy : IsFloat p emin y) : ∃ k : ℤ, y = k * (2 : ℝ) ^ unit p emin y := by
  obtain ⟨m, e, h1, h2, rfl⟩ := hy
  by_cases h0 : m = 0
  · exact ⟨0, by simp [h0]⟩
  have hm : (1 : ℝ) ≤ |(m : ℝ)| := by
    have : 1 ≤ |m| := Int.one_le_abs h0
    exact_mod_cast this
  have hle : unit p emin (m * (2 : ℝ) ^ e) ≤ e := by
    unfold unit
    apply max_le h2
    have hlog : Int.log 2 |m * (2 : ℝ) ^ e| < p + e := by
      have hpos : 0 < |m * (2 : ℝ) ^ e| := by rw [abs_mul, abs_of_pos (two_pos e)]; have := two_pos e; positivity
      rw [← Int.lt_zpow_iff_log_lt (by norm_num) hpos]
      rw [abs_mul, abs_of_pos (two_pos e)]
      push_cast
      rw [zpow_add₀ (by norm_num : (2 : ℝ) ≠ 0), zpow_natCast]
      apply mul_lt_mul_of_pos_right _ (two_pos e)
      exact_mod_cast h1
    omega
  obtain ⟨d, hd⟩ := Int.le.dest hle
  refine ⟨m * 2 ^ d, ?_⟩
  push_cast
  rw [mul_assoc, ← zpow_natCast, ← zpow_add₀ (by norm_num : (2 : ℝ) ≠ 0)]
  rw [add_comm, hd]

/-- No floating point number is between. -/
theorem floor_greatest (hp : 1 ≤ p) {x y : ℝ} (hy : IsFloat p emin y) (h0 : 0 ≤ y) (h : y ≤ x) : y ≤ ⌊x / 2 ^ unit p emin x⌋ * (2 : ℝ) ^ unit p emin x := by
  have hu := two_pos (unit p emin x)
  by_cases hc : unit p emin x = emin
  · -- all floating point numbers are multiples of the smallest unit
    obtain ⟨m, e, h1, h2, rfl⟩ := hy
    obtain ⟨d, hd⟩ := Int.le.dest h2
    have hm : (m : ℝ) * 2 ^ e = ((m * 2 ^ d : ℤ) : ℝ) * 2 ^ emin := by
      push_cast
      rw [mul_assoc, ← zpow_natCast, ← zpow_add₀ (by norm_num : (2 : ℝ) ≠ 0), add_comm, hd]
    rw [hm] at h ⊢
    rw [hc] at hu ⊢
    apply mul_le_mul_of_nonneg_right _ hu.le
    exact_mod_cast Int.le_floor.mpr ((le_div_iff₀ hu).mpr h)
  · have hux : unit p emin x = Int.log 2 |x| + 1 - p := by unfold unit at hc ⊢; omega
    -- either `y` is at least the power of two below `x` and a multiple of the unit, or below it
    have hx0 : 0 ≤ x := le_trans h0 h
    rw [abs_of_nonneg hx0] at hux
    rcases eq_or_lt_of_le hx0 with hxz | hxpos
    · rw [← hxz] at h ⊢
      have : y = 0 := le_antisymm h h0
      simp [this]
    have hlow : (2 : ℝ) ^ Int.log 2 x ≤ x := by
      have := Int.zpow_log_le_self (b := 2) (by norm_num) hxpos
      exact_mod_cast this
    by_cases hyl : (2 : ℝ) ^ Int.log 2 x ≤ y
    · have hypos : 0 < y := lt_of_lt_of_le (two_pos _) hyl
      have hlog : Int.log 2 y = Int.log 2 x := by
        apply le_antisymm
        · exact Int.log_mono_right hypos h
        · rw [← Int.zpow_le_iff_le_log (by norm_num) hypos]; exact_mod_cast hyl
      have huy : unit p emin y = unit p emin x := by unfold unit; rw [abs_of_pos hypos, abs_of_pos hxpos, hlog]
      obtain ⟨k, hk⟩ := float_multiple_of_unit hy
      rw [huy] at hk
      rw [hk] at h ⊢
      apply mul_le_mul_of_nonneg_right _ hu.le
      exact_mod_cast Int.le_floor.mpr ((le_div_iff₀ hu).mpr h)
    · push Not at hyl
      refine le_trans hyl.le ?_
      have e1 : (2 : ℝ) ^ Int.log 2 x = ((2 ^ (p - 1) : ℤ) : ℝ) * 2 ^ unit p emin x := by
        push_cast
        rw [hux, ← zpow_natCast, ← zpow_add₀ (by norm_num : (2 : ℝ) ≠ 0)]
        congr 1
        have : ((p - 1 : ℕ) : ℤ) = (p : ℤ) - 1 := by omega
        rw [this]; ring
      rw [e1] at hlow ⊢
      apply mul_le_mul_of_nonneg_right _ hu.le
      exact_mod_cast Int.le_floor.mpr ((le_div_iff₀ hu).mpr hlow)

/-- Rounding toward zero is a rounding. -/
theorem towardZero_rounding (hp : 1 ≤ p) : Rounding p emin (towardZero p emin) := by
  have hneg : ∀ x : ℝ, unit p emin (-x) = unit p emin x := by intro x; unfold unit; rw [abs_neg]
  have hz : ∀ x : ℝ, x < 0 → towardZero p emin x = -(⌊(-x) / 2 ^ unit p emin (-x)⌋ * 2 ^ unit p emin (-x)) := by
    intro x hx
    unfold towardZero
    rw [if_neg (not_le.mpr hx), hneg]
  have hnn : ∀ x : ℝ, 0 ≤ x → 0 ≤ (⌊x / 2 ^ unit p emin x⌋ : ℝ) * 2 ^ unit p emin x := fun x hx => floor_greatest hp float_zero le_rfl hx
  have hfl : ∀ x, IsFloat p emin (towardZero p emin x) := by
    intro x
    by_cases hx : 0 ≤ x
    · unfold towardZero; rw [if_pos hx]; exact floor_float hx
    · push Not at hx
      rw [hz x hx]; exact float_neg (floor_float (by linarith))
  refine ⟨hfl, ?_, ?_⟩
  · intro x y hxy
    by_cases hx : 0 ≤ x
    · have hy : 0 ≤ y := hx.trans hxy
      unfold towardZero
      rw [if_pos hx, if_pos hy]
      exact floor_greatest hp (floor_float hx) (hnn x hx) (floor_le'.trans hxy)
    · push Not at hx
      rw [hz x hx]
      by_cases hy : 0 ≤ y
      · unfold towardZero
        rw [if_pos hy]
        have h1 := hnn (-x) (by linarith)
        have h2 := hnn y hy
        linarith
      · push Not at hy
        rw [hz y hy]
        apply neg_le_neg
        exact floor_greatest hp (floor_float (by linarith)) (hnn (-y) (by linarith)) (floor_le'.trans (by linarith))
  · intro x hx
    by_cases h0 : 0 ≤ x
    · unfold towardZero
      rw [if_pos h0]
      exact le_antisymm floor_le' (floor_greatest hp hx h0 le_rfl)
    · push Not at h0
      rw [hz x h0]
      have := le_antisymm (floor_le' (p := p) (emin := emin) (x := -x)) (floor_greatest hp (float_neg hx) (by linarith) le_rfl)
      linarith

end Verif.Lemmas.Rounding
