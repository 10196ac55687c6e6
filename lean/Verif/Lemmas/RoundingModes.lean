import Verif.Lemmas.Rounding
import Mathlib.Tactic.LinearCombination
import Mathlib.Algebra.Ring.Int.Parity

/-! The rounding modes of IEEE 754 are roundings, and rounding to the nearest even number exists. -/

namespace Verif.Lemmas.RoundingModes
open Verif.Spec.Rounding Verif.Lemmas.Rounding

variable {p : ℕ} {emin : ℤ} {rnd : ℝ → ℝ}

theorem downward_rounding (D : Downward p emin rnd) : Rounding p emin rnd :=
  ⟨D.float, fun x y h => D.largest y _ (D.float x) ((D.below x).trans h), fun x hx => le_antisymm (D.below x) (D.largest x x hx le_rfl)⟩

theorem upward_rounding (U : Upward p emin rnd) : Rounding p emin rnd :=
  ⟨U.float, fun x y h => U.smallest x _ (U.float y) (h.trans (U.above y)), fun x hx => le_antisymm (U.smallest x x hx le_rfl) (U.above x)⟩

theorem nearest_rounding (N : Nearest p emin rnd) : Rounding p emin rnd := by
  refine ⟨N.float, fun x y hxy => ?_, fun x hx => ?_⟩
  · rcases eq_or_lt_of_le hxy with rfl | hlt
    · exact le_rfl
    by_contra hc
    push Not at hc
    have h1 := N.nearest x (rnd y) (N.float y)
    have h2 := N.nearest y (rnd x) (N.float x)
    rcases abs_cases (rnd x - x) with ⟨a1, _⟩ | ⟨a1, _⟩ <;> rcases abs_cases (rnd y - x) with ⟨b1, _⟩ | ⟨b1, _⟩ <;>
      rcases abs_cases (rnd y - y) with ⟨c1, _⟩ | ⟨c1, _⟩ <;> rcases abs_cases (rnd x - y) with ⟨d1, _⟩ | ⟨d1, _⟩ <;> linarith
  · have := N.nearest x x hx
    rw [sub_self, abs_zero] at this
    have := abs_eq_zero.1 (le_antisymm this (abs_nonneg _))
    linarith

theorem towardZero_mode_rounding (T : TowardZero p emin rnd) : Rounding p emin rnd := by
  have hsign : ∀ x, (0 ≤ x → 0 ≤ rnd x ∧ rnd x ≤ x) ∧ (x ≤ 0 → x ≤ rnd x ∧ rnd x ≤ 0) := by
    intro x
    have h1 := T.smaller x
    have h2 := T.nearest x 0 float_zero (by simp)
    rw [zero_sub, abs_neg] at h2
    constructor <;> intro h
    · rw [abs_of_nonneg h] at h1 h2
      rw [abs_le] at h1 h2
      exact ⟨by linarith, h1.2⟩
    · rw [abs_of_nonpos h] at h1 h2
      rw [abs_le] at h1 h2
      exact ⟨by linarith, by linarith⟩
  refine ⟨T.float, fun x y hxy => ?_, fun x hx => ?_⟩
  · rcases le_total 0 x with h0 | h0
    · obtain ⟨a1, a2⟩ := (hsign x).1 h0
      obtain ⟨b1, b2⟩ := (hsign y).1 (h0.trans hxy)
      by_contra hc
      push Not at hc
      have h1 := T.nearest y (rnd x) (T.float x) (by rw [abs_of_nonneg a1, abs_of_nonneg (h0.trans hxy)]; linarith)
      rw [abs_of_nonpos (by linarith), abs_of_nonpos (by linarith)] at h1
      linarith
    · obtain ⟨a1, a2⟩ := (hsign x).2 h0
      rcases le_total 0 y with hy | hy
      · exact a2.trans ((hsign y).1 hy).1
      · obtain ⟨b1, b2⟩ := (hsign y).2 hy
        by_contra hc
        push Not at hc
        have h1 := T.nearest x (rnd y) (T.float y) (by rw [abs_of_nonpos b2, abs_of_nonpos h0]; linarith)
        rw [abs_of_nonneg (by linarith), abs_of_nonneg (by linarith)] at h1
        linarith
  · have := T.nearest x x hx le_rfl
    rw [sub_self, abs_zero] at this
    have := abs_eq_zero.1 (le_antisymm this (abs_nonneg _))
    linarith

/-! ### Rounding to the nearest even number -/

/-- A number rounded to an integer, ties to even. -/
noncomputable def roundEven (q : ℝ) : ℤ :=
  if q - ⌊q⌋ < 1 / 2 then ⌊q⌋ else if 1 / 2 < q - ⌊q⌋ then ⌊q⌋ + 1 else if Even ⌊q⌋ then ⌊q⌋ else ⌊q⌋ + 1

/-- A number rounded to the nearest even. -/
noncomputable def nearestEven (p : ℕ) (emin : ℤ) (x : ℝ) : ℝ :=
  if 0 ≤ x then roundEven (x / 2 ^ unit p emin x) * 2 ^ unit p emin x else -(roundEven (-x / 2 ^ unit p emin x) * 2 ^ unit p emin x)

theorem roundEven_cases (q : ℝ) : (roundEven q = ⌊q⌋ ∨ roundEven q = ⌊q⌋ + 1) ∧ |(roundEven q : ℝ) - q| ≤ q - ⌊q⌋ ∧ |(roundEven q : ℝ) - q| ≤ ⌊q⌋ + 1 - q ∧
    (|(roundEven q : ℝ) - q| = 1 / 2 → Even (roundEven q)) := by
  have h1 := Int.floor_le q
  have h2 := Int.lt_floor_add_one q
  unfold roundEven
  split_ifs with a b c
  · refine ⟨Or.inl rfl, ?_, ?_, ?_⟩ <;> rw [abs_of_nonpos (by linarith)] <;> (try intro _) <;> linarith
  · push_cast
    refine ⟨Or.inr rfl, ?_, ?_, ?_⟩ <;> rw [abs_of_nonneg (by linarith)] <;> (try intro _) <;> linarith
  · refine ⟨Or.inl rfl, ?_, ?_, fun _ => c⟩ <;> rw [abs_of_nonpos (by linarith)] <;> linarith
  · push_cast
    refine ⟨Or.inr rfl, ?_, ?_, fun _ => ?_⟩
    · rw [abs_of_nonneg (by linarith)]; linarith
    · rw [abs_of_nonneg (by linarith)]
    · exact (Int.not_even_iff_odd.1 c).add_one

/-- No floating point number is between a number and the next multiple of its unit. -/
theorem next_smallest {x y : ℝ} (hx : 0 < x) (hy : IsFloat p emin y) (h : x < y) : (⌊x / 2 ^ unit p emin x⌋ + 1 : ℝ) * (2 : ℝ) ^ unit p emin x ≤ y := by
  have hu := two_pos (unit p emin x)
  obtain ⟨k, hk⟩ := float_multiple_of_unit hy
  have hle : unit p emin x ≤ unit p emin y := by
    unfold unit
    have := Int.log_mono_right (b := 2) (r₁ := |x|) (r₂ := |y|) (by rw [abs_of_pos hx]; exact hx) (by rw [abs_of_pos hx, abs_of_pos (hx.trans h)]; exact h.le)
    omega
  obtain ⟨d, hd⟩ := Int.le.dest hle
  have e : y = ((k * 2 ^ d : ℤ) : ℝ) * 2 ^ unit p emin x := by
    conv_lhs => rw [hk, ← hd, zpow_add₀ (by norm_num : (2 : ℝ) ≠ 0), zpow_natCast]
    push_cast
    ring
  rw [e] at h ⊢
  apply mul_le_mul_of_nonneg_right _ hu.le
  rw [← div_lt_iff₀ hu] at h
  exact_mod_cast Int.add_one_le_of_lt (Int.floor_lt.2 h)

theorem nearest_pos (hp : 1 ≤ p) {x f : ℝ} (hx : 0 ≤ x) (hf : IsFloat p emin f) :
    |(roundEven (x / 2 ^ unit p emin x) : ℝ) * 2 ^ unit p emin x - x| ≤ |f - x| := by
  have hu := two_pos (unit p emin x)
  obtain ⟨_, h2, h3, _⟩ := roundEven_cases (x / 2 ^ unit p emin x)
  have e : ((roundEven (x / 2 ^ unit p emin x) : ℝ) - x / 2 ^ unit p emin x) * 2 ^ unit p emin x = roundEven (x / 2 ^ unit p emin x) * 2 ^ unit p emin x - x := by
    rw [sub_mul, div_mul_cancel₀ _ hu.ne']
  have e' : |(roundEven (x / 2 ^ unit p emin x) : ℝ) * 2 ^ unit p emin x - x| = |(roundEven (x / 2 ^ unit p emin x) : ℝ) - x / 2 ^ unit p emin x| * 2 ^ unit p emin x := by
    rw [← e, abs_mul, abs_of_pos hu]
  have k2 := mul_le_mul_of_nonneg_right h2 hu.le
  have k3 := mul_le_mul_of_nonneg_right h3 hu.le
  rw [← e', sub_mul, div_mul_cancel₀ _ hu.ne'] at k2 k3
  rcases le_or_gt f x with hle | hlt
  · rw [abs_of_nonpos (by linarith : f - x ≤ 0)]
    rcases le_total 0 f with h0 | h0
    · have := floor_greatest hp hf h0 hle
      linarith
    · have := floor_greatest hp float_zero le_rfl hx (emin := emin)
      linarith
  · rw [abs_of_pos (by linarith : 0 < f - x)]
    rcases eq_or_lt_of_le hx with h0 | h0
    · rw [← h0] at k2 ⊢
      simp only [zero_div, Int.floor_zero, Int.cast_zero, zero_mul, sub_self] at k2
      simp only [zero_div]
      linarith
    · have := next_smallest h0 hf hlt
      linarith

theorem nearestEven_neg {x : ℝ} (hx : x < 0) : nearestEven p emin x = -nearestEven p emin (-x) := by
  unfold nearestEven
  rw [if_neg (not_le.2 hx), if_pos (by linarith)]
  have : unit p emin (-x) = unit p emin x := by unfold unit; rw [abs_neg]
  rw [this]

/-- A multiple of the unit with even last digit. -/
theorem even_multiple (hp : 2 ≤ p) {x : ℝ} (hx0 : 0 < x) {n : ℤ} (hn : Even n) (h0 : 0 ≤ n) (h : n = ⌊x / 2 ^ unit p emin x⌋ ∨ n = ⌊x / 2 ^ unit p emin x⌋ + 1) :
    LastDigitEven p emin (n * (2 : ℝ) ^ unit p emin x) := by
  have hx := hx0.le
  have hu := two_pos (unit p emin x)
  have hfl : ⌊x / 2 ^ unit p emin x⌋ < 2 ^ p := by
    rw [Int.floor_lt, div_lt_iff₀ hu]
    have := abs_lt_unit (p := p) (emin := emin) x
    rw [abs_of_nonneg hx] at this
    exact_mod_cast this
  have hle : n ≤ 2 ^ p := by omega
  have hpp : (2 : ℤ) ^ p = 2 * 2 ^ (p - 1) := by rw [← pow_succ']; congr 1; omega
  have hpp2 : (2 : ℤ) ^ (p - 1) = 2 * 2 ^ (p - 2) := by rw [← pow_succ']; congr 1; omega
  have hpos : (0 : ℤ) < 2 ^ (p - 1) := by positivity
  rcases eq_or_lt_of_le hle with he | hlt
  · refine ⟨2 ^ (p - 1), unit p emin x + 1, ?_, ?_, Or.inl ?_, ?_, ?_⟩
    · rw [abs_of_pos hpos]; omega
    · have := le_max_left emin (Int.log 2 |x| + 1 - p); unfold unit; omega
    · rw [abs_of_pos hpos]
    · rw [hpp2]; exact even_two_mul _
    · rw [he, hpp, zpow_add₀ (by norm_num : (2 : ℝ) ≠ 0)]; push_cast; ring
  · refine ⟨n, unit p emin x, by rw [abs_of_nonneg h0]; exact hlt, le_max_left _ _, ?_, hn, rfl⟩
    by_cases hc : unit p emin x = emin
    · exact Or.inr hc
    · left
      rw [abs_of_nonneg h0]
      have hux : unit p emin x = Int.log 2 |x| + 1 - p := by unfold unit at hc ⊢; omega
      have hlow : (2 : ℝ) ^ Int.log 2 x ≤ x := by
        have := Int.zpow_log_le_self (b := 2) (by norm_num) hx0
        exact_mod_cast this
      rw [abs_of_pos hx0] at hux
      have e1 : (2 : ℝ) ^ Int.log 2 x = ((2 ^ (p - 1) : ℤ) : ℝ) * 2 ^ unit p emin x := by
        push_cast
        rw [hux, ← zpow_natCast, ← zpow_add₀ (by norm_num : (2 : ℝ) ≠ 0)]
        congr 1
        have : ((p - 1 : ℕ) : ℤ) = (p : ℤ) - 1 := by omega
        rw [this]; ring
      rw [e1, ← le_div_iff₀ hu] at hlow
      have := Int.le_floor.2 hlow
      omega

theorem tie_even (hp : 2 ≤ p) {x f : ℝ} (hx : 0 < x) (hf : IsFloat p emin f) (hne : f ≠ roundEven (x / 2 ^ unit p emin x) * (2 : ℝ) ^ unit p emin x)
    (ht : |f - x| = |(roundEven (x / 2 ^ unit p emin x) : ℝ) * 2 ^ unit p emin x - x|) : LastDigitEven p emin (roundEven (x / 2 ^ unit p emin x) * (2 : ℝ) ^ unit p emin x) := by
  have hu := two_pos (unit p emin x)
  obtain ⟨h1, h2, h3, h4⟩ := roundEven_cases (x / 2 ^ unit p emin x)
  have hfl : 0 ≤ ⌊x / 2 ^ unit p emin x⌋ := Int.floor_nonneg.2 (by positivity)
  refine even_multiple hp hx (h4 ?_) (by omega) h1
  have hdc : x / 2 ^ unit p emin x * 2 ^ unit p emin x = x := div_mul_cancel₀ _ hu.ne'
  -- the other number at the same distance
  have hfx : f = 2 * x - roundEven (x / 2 ^ unit p emin x) * (2 : ℝ) ^ unit p emin x := by
    rcases abs_eq_abs.1 ht with h | h
    · exact absurd (by linarith) hne
    · linarith
  rcases h1 with h1 | h1
  · rw [h1] at h3 hfx hne ⊢
    have hfloor := Int.floor_le (x / 2 ^ unit p emin x)
    rw [abs_of_nonpos (by linarith)] at h3 ⊢
    have hle : (⌊x / 2 ^ unit p emin x⌋ : ℝ) * 2 ^ unit p emin x ≤ x := floor_le'
    have hlt : x < f := by
      by_contra hc
      push Not at hc
      exact hne (by linarith)
    have hn := next_smallest hx hf hlt
    have : (⌊x / 2 ^ unit p emin x⌋ : ℝ) + 1 ≤ 2 * (x / 2 ^ unit p emin x) - ⌊x / 2 ^ unit p emin x⌋ := by
      apply le_of_mul_le_mul_right _ hu
      rw [sub_mul, mul_assoc, hdc]
      linarith
    linarith
  · rw [h1] at h2 hfx hne ⊢
    push_cast at *
    have hfloor := Int.lt_floor_add_one (x / 2 ^ unit p emin x)
    rw [abs_of_nonneg (by linarith)] at h2 ⊢
    have hlt : f < x := by
      have := mul_lt_mul_of_pos_right hfloor hu
      rw [hdc] at this
      linarith
    have hn : f ≤ (⌊x / 2 ^ unit p emin x⌋ : ℝ) * 2 ^ unit p emin x := by
      rcases le_total 0 f with h0 | h0
      · exact floor_greatest (by omega) hf h0 hlt.le
      · have := floor_greatest (p := p) (emin := emin) (by omega) float_zero le_rfl hx.le
        linarith
    have : 2 * (x / 2 ^ unit p emin x) - (⌊x / 2 ^ unit p emin x⌋ + 1) ≤ (⌊x / 2 ^ unit p emin x⌋ : ℝ) := by
      apply le_of_mul_le_mul_right _ hu
      rw [sub_mul, mul_assoc, hdc]
      linarith
    linarith

theorem lastDigitEven_neg {x : ℝ} (h : LastDigitEven p emin x) : LastDigitEven p emin (-x) := by
  obtain ⟨m, e, h1, h2, h3, h4, rfl⟩ := h
  exact ⟨-m, e, by rwa [abs_neg], h2, by rwa [abs_neg], h4.neg, by push_cast; ring⟩

/-- Rounding to the nearest even number exists. -/
theorem nearestEven_spec (hp : 2 ≤ p) : NearestEven p emin (nearestEven p emin) := by
  have hpos : ∀ x : ℝ, 0 ≤ x → nearestEven p emin x = roundEven (x / 2 ^ unit p emin x) * 2 ^ unit p emin x := fun x hx => by
    unfold nearestEven; rw [if_pos hx]
  have hfloat : ∀ x : ℝ, 0 ≤ x → IsFloat p emin (nearestEven p emin x) := by
    intro x hx
    have hu := two_pos (unit p emin x)
    rw [hpos x hx]
    apply float_of_multiple (by omega) (le_max_left _ _)
    have hfl : ⌊x / 2 ^ unit p emin x⌋ < 2 ^ p := by
      rw [Int.floor_lt, div_lt_iff₀ hu]
      have := abs_lt_unit (p := p) (emin := emin) x
      rw [abs_of_nonneg hx] at this
      exact_mod_cast this
    have h0 : 0 ≤ ⌊x / 2 ^ unit p emin x⌋ := Int.floor_nonneg.2 (by positivity)
    have := (roundEven_cases (x / 2 ^ unit p emin x)).1
    rw [abs_of_nonneg (by omega)]
    omega
  refine ⟨⟨?_, ?_⟩, ?_⟩
  · intro x
    rcases le_or_gt 0 x with hx | hx
    · exact hfloat x hx
    · rw [nearestEven_neg hx]
      exact float_neg (hfloat (-x) (by linarith))
  · intro x f hf
    rcases le_or_gt 0 x with hx | hx
    · rw [hpos x hx]
      exact nearest_pos (by omega) hx hf
    · rw [nearestEven_neg hx, hpos (-x) (by linarith)]
      have := nearest_pos (p := p) (emin := emin) (by omega) (by linarith : 0 ≤ -x) (float_neg hf)
      rw [← abs_neg] at this
      rw [← abs_neg (f - x)]
      convert this using 2 <;> ring
  · intro x f hf hne ht
    rcases lt_trichotomy x 0 with hx | hx | hx
    · rw [nearestEven_neg hx, hpos (-x) (by linarith)] at hne ht ⊢
      apply lastDigitEven_neg
      apply tie_even hp (by linarith) (float_neg hf)
      · intro h; apply hne; linarith
      · rw [← abs_neg (f - x), ← abs_neg (_ - x)] at ht
        convert ht using 2 <;> ring
    · exfalso
      subst hx
      have h0 : nearestEven p emin 0 = 0 := by unfold nearestEven roundEven; simp
      rw [h0] at hne ht
      simp at ht
      exact hne ht
    · rw [hpos x hx.le] at hne ht ⊢
      exact tie_even hp hx hf hne ht

/-- The last digit of a number is determined. -/
theorem not_even_of_odd (hp : 2 ≤ p) {m e : ℤ} (hm : Odd m) (h1 : 2 ^ (p - 1) ≤ |m|) (h2 : |m| < 2 ^ p) : ¬ LastDigitEven p emin (m * (2 : ℝ) ^ e) := by
  rintro ⟨n, k, a1, a2, a3, a4, a5⟩
  have hpp : (2 : ℤ) ^ p = 2 * 2 ^ (p - 1) := by rw [← pow_succ']; congr 1; omega
  have hcast : ∀ {a b : ℤ} {d : ℕ}, (a : ℝ) = b * 2 ^ d → a = b * 2 ^ d := by
    intro a b d h; exact_mod_cast h
  rcases le_total k e with hle | hle
  · obtain ⟨d, hd⟩ := Int.le.dest hle
    rw [← hd, zpow_add₀ (by norm_num : (2 : ℝ) ≠ 0), mul_comm ((2 : ℝ) ^ k), ← mul_assoc] at a5
    have h := mul_right_cancel₀ (two_pos k).ne' a5
    rw [zpow_natCast] at h
    have h := hcast h.symm
    rcases Nat.eq_zero_or_pos d with rfl | hd0
    · rw [pow_zero, mul_one] at h
      rw [h] at a4
      exact (Int.not_even_iff_odd.2 hm) a4
    · rw [h, abs_mul, abs_of_pos (by positivity : (0 : ℤ) < 2 ^ d)] at a1
      have : (2 : ℤ) ^ 1 ≤ 2 ^ d := pow_le_pow_right₀ (by norm_num) hd0
      nlinarith
  · obtain ⟨d, hd⟩ := Int.le.dest hle
    rw [← hd, zpow_add₀ (by norm_num : (2 : ℝ) ≠ 0), mul_comm ((2 : ℝ) ^ e), ← mul_assoc] at a5
    have h := mul_right_cancel₀ (two_pos e).ne' a5
    rw [zpow_natCast] at h
    have h := hcast h
    rw [h] at hm
    exact (Int.not_even_iff_odd.2 hm) (a4.mul_right _)

end Verif.Lemmas.RoundingModes
