import Verif.Lemmas.Rounding
import Verif.Model.FloatLookup

/-! The cell of a point in one dimension in floating point arithmetic. -/

namespace Verif.Lemmas.FloatLookup
open Verif.Spec.Rounding Verif.Lemmas.Rounding Verif.Model Verif.Model.FloatKernels Verif.Model.FloatLookup Verif.Model.CartesianMesh

/-- A rounding error relative to a bound: with unit `u` and least number `t`. -/
theorem err_le {rnd : ℝ → ℝ} {u t : ℝ} (he : ∀ z, |rnd z - z| ≤ u * |z| + t) (hu : 0 ≤ u) {z B : ℝ} (hz : |z| ≤ B) : |rnd z - z| ≤ u * B + t :=
  (he z).trans (by have := mul_le_mul_of_nonneg_left hz hu; linarith)

section
variable {rnd : ℝ → ℝ} {u t M : ℝ} (he : ∀ z, |rnd z - z| ≤ u * |z| + t) (hu0 : 0 < u) (hu : u ≤ 1 / 512) (ht0 : 0 < t) (htM : t ≤ u * M)
include he hu0

include hu ht0 htM in
/-- The extent. -/
theorem ext_error {o mx : ℝ} (ho : |o| ≤ M) (hm : |mx| ≤ M) : |rnd (mx - o) - (mx - o)| ≤ 3 * (u * M) := by
  have h : |mx - o| ≤ 2 * M := by
    rw [abs_le] at *
    constructor <;> linarith
  have := err_le he hu0.le h
  linarith

include hu ht0 htM in
/-- The width of the cells. -/
theorem width_error {ext w : ℝ} {n : ℝ} (hn : 1 ≤ n) (hw : w = rnd (ext / n)) (hext : 0 ≤ ext) (hext2 : ext ≤ 2 * M + 3 * (u * M)) (hw0 : 0 < w) (htw : t ≤ u * w) :
    |n * w - ext| ≤ 5 * (u * M) ∧ n * w ≤ 3 * M := by
  have hM0 : 0 < M := by
    have : 0 < u * M := lt_of_lt_of_le ht0 htM
    exact (pos_iff_pos_of_mul_pos this).1 hu0
  have hn0 : 0 < n := by linarith
  have h1 : |w - ext / n| ≤ u * (ext / n) + t := by
    have := he (ext / n)
    rwa [← hw, abs_of_nonneg (by positivity : 0 ≤ ext / n)] at this
  have h2 : |n * w - ext| ≤ u * ext + n * t := by
    have e : n * w - ext = n * (w - ext / n) := by field_simp
    rw [e, abs_mul, abs_of_pos hn0]
    calc n * |w - ext / n| ≤ n * (u * (ext / n) + t) := mul_le_mul_of_nonneg_left h1 hn0.le
      _ = u * ext + n * t := by field_simp
  have h3 : n * t ≤ u * (n * w) := by
    have := mul_le_mul_of_nonneg_left htw hn0.le
    linarith
  have huM : u * M ≤ M / 512 := by nlinarith
  have hue : u * ext ≤ ext / 512 := by nlinarith
  have hunw : u * (n * w) ≤ n * w / 512 := by
    have : 0 < n * w := by positivity
    nlinarith
  have h4 := (abs_le.1 h2).2
  have h5 : n * w ≤ 5 / 2 * M := by linarith
  have h6 : u * (n * w) ≤ 5 / 2 * (u * M) := by
    have := mul_le_mul_of_nonneg_left h5 hu0.le
    linarith
  have h7 : u * ext ≤ 9 / 4 * (u * M) := by
    have : ext ≤ 9 / 4 * M := by linarith
    have := mul_le_mul_of_nonneg_left this hu0.le
    linarith
  exact ⟨by linarith, by linarith⟩

include hu ht0 htM in
/-- The position in units of cells. -/
theorem cellFloat_error {o x w inv s y : ℝ} (ho : |o| ≤ M) (hx : |x| ≤ M) (hw0 : 0 < w) (hwM : w ≤ 3 * M) (htu : t ≤ u) (hwt : w * t ≤ u)
    (hinv : inv = rnd (1 / w)) (hs : s = rnd (x - o)) (hy : y = rnd (s * inv)) : |y * w - (x - o)| ≤ 20 * (u * M) := by
  have hM0 : 0 < M := by
    have : 0 < u * M := lt_of_lt_of_le ht0 htM
    exact (pos_iff_pos_of_mul_pos this).1 hu0
  have huM : u * M ≤ M / 512 := by nlinarith
  have h1 : |s - (x - o)| ≤ 3 * (u * M) := by
    rw [hs]
    exact ext_error he hu0 hu ht0 htM ho hx
  have hxo : |x - o| ≤ 2 * M := by
    rw [abs_le] at *
    constructor <;> linarith
  have h2 : |s| ≤ 3 * M := by
    rw [abs_le] at *
    constructor <;> linarith
  have h3 : |inv * w - 1| ≤ 2 * u := by
    have h := he (1 / w)
    rw [← hinv, abs_of_pos (by positivity : 0 < 1 / w)] at h
    have e : inv * w - 1 = w * (inv - 1 / w) := by field_simp
    rw [e, abs_mul, abs_of_pos hw0]
    calc w * |inv - 1 / w| ≤ w * (u * (1 / w) + t) := mul_le_mul_of_nonneg_left h hw0.le
      _ = u + w * t := by field_simp
      _ ≤ 2 * u := by linarith
  have h4 : |y - s * inv| ≤ u * |s * inv| + t := by
    rw [hy]; exact he _
  have h5 : |inv| * w ≤ 2 := by
    rw [← abs_of_pos hw0, ← abs_mul]
    have := abs_le.1 h3
    rw [abs_le]
    constructor <;> linarith
  have h6 : |y * w - s * (inv * w)| ≤ 6 * (u * M) + 3 * (u * M) := by
    have e : y * w - s * (inv * w) = w * (y - s * inv) := by ring
    rw [e, abs_mul, abs_of_pos hw0]
    calc w * |y - s * inv| ≤ w * (u * |s * inv| + t) := mul_le_mul_of_nonneg_left h4 hw0.le
      _ = u * (|s| * (|inv| * w)) + w * t := by rw [abs_mul]; ring
      _ ≤ u * (3 * M * 2) + 3 * M * u := by
        have hi : 0 ≤ |inv| * w := by positivity
        have a1 : |s| * (|inv| * w) ≤ 3 * M * 2 := mul_le_mul h2 h5 hi (by linarith)
        have a2 : w * t ≤ 3 * M * u := mul_le_mul hwM htu ht0.le (by linarith)
        have := mul_le_mul_of_nonneg_left a1 hu0.le
        linarith
      _ = 6 * (u * M) + 3 * (u * M) := by ring
  have h7 : |s * (inv * w) - s| ≤ 6 * (u * M) := by
    have e : s * (inv * w) - s = s * (inv * w - 1) := by ring
    rw [e, abs_mul]
    calc |s| * |inv * w - 1| ≤ 3 * M * (2 * u) := mul_le_mul h2 h3 (abs_nonneg _) (by linarith)
      _ = 6 * (u * M) := by ring
  rw [abs_le] at *
  constructor <;> linarith

include hu ht0 htM in
/-- The bounds of a cell. -/
theorem bound_error {o w : ℝ} {c : ℝ} (contract : Bool) (ho : |o| ≤ M) (hc : 0 ≤ c * w) (hcw : c * w ≤ 3 * M) :
    |mulAdd rnd contract c w o - (o + c * w)| ≤ 10 * (u * M) := by
  have hM0 : 0 < M := by
    have : 0 < u * M := lt_of_lt_of_le ht0 htM
    exact (pos_iff_pos_of_mul_pos this).1 hu0
  have huM : u * M ≤ M / 512 := by nlinarith
  unfold mulAdd
  cases contract
  · simp only [Bool.false_eq_true, ↓reduceIte]
    have h1 : |rnd (c * w) - c * w| ≤ u * (3 * M) + t := err_le he hu0.le (by rw [abs_of_nonneg hc]; exact hcw)
    have h2 : |rnd (rnd (c * w) + o) - (rnd (c * w) + o)| ≤ u * (17 / 4 * M) + t := err_le he hu0.le (by
      rw [abs_le] at *
      constructor <;> linarith)
    rw [abs_le] at *
    constructor <;> linarith
  · simp only [↓reduceIte]
    have h2 : |rnd (c * w + o) - (c * w + o)| ≤ u * (4 * M) + t := err_le he hu0.le (by
      rw [abs_le] at *
      constructor <;> linarith)
    rw [abs_le] at *
    constructor <;> linarith

end

end Verif.Lemmas.FloatLookup
