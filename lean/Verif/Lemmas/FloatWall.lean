import Verif.Model.FloatWall
import Verif.Lemmas.Rounding
import Verif.Lemmas.FloatBoris
import Mathlib.Tactic.Linarith
import Mathlib.Tactic.Positivity
import Mathlib.Tactic.FinCases

/-! Lemmas for C112: the intersection of a step with a wall in floating point arithmetic. -/

namespace Verif.Lemmas.FloatWall
open Verif.Spec Verif.Spec.Rounding Verif.Model.FloatBoris Verif.Model.FloatRegular Verif.Model.FloatWall Verif.Lemmas.Rounding Verif.Lemmas.FloatBoris

variable {p : ℕ} {emin : ℤ} {rnd : ℝ → ℝ}

theorem rnd_idem (R : Rounding p emin rnd) (x : ℝ) : rnd (rnd x) = rnd x := R.exact _ (R.float x)

theorem prod_zero_right (R : Rounding p emin rnd) (b : Bool) (x : ℝ) : prodF rnd b x 0 = 0 := by unfold prodF; split_ifs <;> simp [rnd_zero R]

theorem prod_zero_left (R : Rounding p emin rnd) (b : Bool) (x : ℝ) : prodF rnd b 0 x = 0 := by unfold prodF; split_ifs <;> simp [rnd_zero R]

theorem rnd_prod (R : Rounding p emin rnd) (b : Bool) (x y : ℝ) : rnd (prodF rnd b x y) = rnd (x * y) := by unfold prodF; split_ifs <;> simp [rnd_idem R]

theorem dot_x (R : Rounding p emin rnd) (c : ℕ → Bool) (i : ℕ) (a n : V3 ℝ) (hy : n.y = 0) (hz : n.z = 0) : dotF rnd c i a n = rnd (a.x * n.x) := by
  unfold dotF; rw [hy, hz, prod_zero_right R, prod_zero_right R, add_zero, add_zero, rnd_idem R, rnd_prod R]

theorem dot_y (R : Rounding p emin rnd) (c : ℕ → Bool) (i : ℕ) (a n : V3 ℝ) (hx : n.x = 0) (hz : n.z = 0) : dotF rnd c i a n = rnd (a.y * n.y) := by
  unfold dotF; rw [hx, hz, prod_zero_right R, prod_zero_right R, add_zero, zero_add, rnd_idem R, rnd_prod R]

theorem dot_z (R : Rounding p emin rnd) (c : ℕ → Bool) (i : ℕ) (a n : V3 ℝ) (hx : n.x = 0) (hy : n.y = 0) : dotF rnd c i a n = rnd (a.z * n.z) := by
  unfold dotF; rw [hx, hy, prod_zero_right R, prod_zero_right R, add_zero, rnd_zero R, zero_add, rnd_prod R]

/-- The computed dot products. -/
noncomputable def den (rnd : ℝ → ℝ) (c : ℕ → Bool) (w : Wall) (p0 p1 : V3 ℝ) : ℝ := dotF rnd c 0 (subF rnd p1 p0) w.normal
noncomputable def num (rnd : ℝ → ℝ) (c : ℕ → Bool) (w : Wall) (p0 : V3 ℝ) : ℝ := dotF rnd c 3 (subF rnd w.point p0) w.normal

/-- The fraction of the step. -/
noncomputable def frac (rnd : ℝ → ℝ) (c : ℕ → Bool) (w : Wall) (p0 p1 : V3 ℝ) : ℝ :=
  if den rnd c w p0 p1 = 0 then 0 else rnd (num rnd c w p0 / den rnd c w p0 p1)

theorem intersect_iff (c : ℕ → Bool) (w : Wall) (p0 p1 : V3 ℝ) :
    (intersectF rnd c w p0 p1).1 = true ↔ (den rnd c w p0 p1 = 0 → num rnd c w p0 = 0) ∧ 0 ≤ frac rnd c w p0 p1 ∧ frac rnd c w p0 p1 ≤ 1 := by
  unfold intersectF
  dsimp only
  rw [show dotF rnd c 0 (subF rnd p1 p0) w.normal = den rnd c w p0 p1 from rfl, show dotF rnd c 3 (subF rnd w.point p0) w.normal = num rnd c w p0 from rfl,
    show (if den rnd c w p0 p1 = 0 then (0 : ℝ) else rnd (num rnd c w p0 / den rnd c w p0 p1)) = frac rnd c w p0 p1 from rfl]
  split_ifs with h
  · simp only [Bool.false_eq_true, false_iff]
    rintro ⟨h1, h2, h3⟩
    rcases h with ⟨a, b⟩ | h | h
    · exact b (h1 a)
    · exact absurd h2 (not_le.2 h)
    · exact absurd h3 (not_le.2 h)
  · simp only [true_iff]
    push Not at h
    exact ⟨h.1, h.2.1, h.2.2⟩

/-- A sufficient condition. -/
theorem intersect_of (R : Rounding p emin rnd) (hp : 1 ≤ p) (he : emin ≤ 0) (c : ℕ → Bool) (w : Wall) (p0 p1 : V3 ℝ)
    (h : (0 ≤ num rnd c w p0 ∧ num rnd c w p0 ≤ den rnd c w p0 p1) ∨ (den rnd c w p0 p1 ≤ num rnd c w p0 ∧ num rnd c w p0 ≤ 0)) :
    (intersectF rnd c w p0 p1).1 = true := by
  rw [intersect_iff]
  refine ⟨fun h0 => ?_, ?_⟩
  · rcases h with h | h <;> rw [h0] at h <;> linarith [h.1, h.2]
  · unfold frac
    split_ifs with h0
    · exact ⟨le_rfl, zero_le_one⟩
    · have h1 : rnd 1 = 1 := by have := R.exact _ (float_int (p := p) (emin := emin) hp he (m := 1) (by simpa using one_le_pow₀ (by norm_num : (1 : ℤ) ≤ 2))); simpa using this
      have hq : 0 ≤ num rnd c w p0 / den rnd c w p0 p1 ∧ num rnd c w p0 / den rnd c w p0 p1 ≤ 1 := by
        rcases h with ⟨a, b⟩ | ⟨a, b⟩
        · have hd : 0 < den rnd c w p0 p1 := lt_of_le_of_ne (a.trans b) (Ne.symm h0)
          exact ⟨div_nonneg a hd.le, (div_le_one hd).2 b⟩
        · have hd : den rnd c w p0 p1 < 0 := lt_of_le_of_ne (a.trans b) h0
          exact ⟨div_nonneg_of_nonpos b hd.le, (div_le_one_of_neg hd).2 a⟩
      refine ⟨rnd_nonneg R hq.1, ?_⟩
      rw [← h1]
      exact R.mono hq.2

/-- One axis. -/
theorem axis_cond (R : Rounding p emin rnd) {a b q n : ℝ} (h : (a ≤ q ∧ q ≤ b) ∨ (b ≤ q ∧ q ≤ a)) :
    (0 ≤ rnd (rnd (q - a) * n) ∧ rnd (rnd (q - a) * n) ≤ rnd (rnd (b - a) * n)) ∨ (rnd (rnd (b - a) * n) ≤ rnd (rnd (q - a) * n) ∧ rnd (rnd (q - a) * n) ≤ 0) := by
  rcases h with ⟨h1, h2⟩ | ⟨h1, h2⟩
  · have e1 : 0 ≤ rnd (q - a) := rnd_nonneg R (by linarith)
    have e2 : rnd (q - a) ≤ rnd (b - a) := R.mono (by linarith)
    rcases le_total 0 n with hn | hn
    · exact .inl ⟨rnd_nonneg R (mul_nonneg e1 hn), R.mono (mul_le_mul_of_nonneg_right e2 hn)⟩
    · exact .inr ⟨R.mono (mul_le_mul_of_nonpos_right e2 hn), rnd_nonpos R (mul_nonpos_of_nonneg_of_nonpos e1 hn)⟩
  · have e1 : rnd (q - a) ≤ 0 := rnd_nonpos R (by linarith)
    have e2 : rnd (b - a) ≤ rnd (q - a) := R.mono (by linarith)
    rcases le_total 0 n with hn | hn
    · exact .inr ⟨R.mono (mul_le_mul_of_nonneg_right e2 hn), rnd_nonpos R (mul_nonpos_of_nonpos_of_nonneg e1 hn)⟩
    · exact .inl ⟨rnd_nonneg R (mul_nonneg_of_nonpos_of_nonpos e1 hn), R.mono (mul_le_mul_of_nonpos_right e2 hn)⟩

/-! ### Errors -/

section
variable {u η M : ℝ} (he : ∀ z, |rnd z - z| ≤ u * |z| + η) (hu0 : 0 ≤ u) (hu : u ≤ 1 / 1000) (hη : 0 ≤ η) (hηM : η ≤ u * M) (hM : 0 ≤ M)
include he hu0 hu hη hηM hM

theorem prod_sub_err (b : Bool) {x y n : ℝ} (hx : |x| ≤ M) (hy : |y| ≤ M) (hn : |n| ≤ 2) : |prodF rnd b (rnd (x - y)) n - (x - y) * n| ≤ 12 * (u * M) := by
  have hA : |x - y| ≤ 2 * M := (abs_sub _ _).trans (by linarith)
  have e1 : |rnd (x - y) - (x - y)| ≤ 3 * (u * M) := by
    have := he (x - y)
    have : u * |x - y| ≤ u * (2 * M) := mul_le_mul_of_nonneg_left hA hu0
    linarith
  have e2 := prod_err he hu0 hη b (ex := 3 * (u * M)) (ey := 0) (X := 2 * M) (Y := 2) e1 (by simp : |n - n| ≤ 0) hA hn
  refine e2.trans ?_
  have hm : 0 ≤ u * M := mul_nonneg hu0 hM
  have : u * (u * M) ≤ 1 / 1000 * (u * M) := mul_le_mul_of_nonneg_right hu hm
  nlinarith

theorem dot_sub_err (c : ℕ → Bool) (i : ℕ) {a b n : V3 ℝ} (ha : Le a M) (hb : Le b M) (hn : Le n 2) :
    |dotF rnd c i (subF rnd a b) n - ((a.x - b.x) * n.x + (a.y - b.y) * n.y + (a.z - b.z) * n.z)| ≤ 60 * (u * M) := by
  have hx := prod_sub_err he hu0 hu hη hηM hM (c i) ha.1 hb.1 hn.1
  have hy := prod_sub_err he hu0 hu hη hηM hM (c (i + 1)) ha.2.1 hb.2.1 hn.2.1
  have hz := prod_sub_err he hu0 hu hη hηM hM (c (i + 2)) ha.2.2 hb.2.2 hn.2.2
  have bd : ∀ {s t m : ℝ}, |s| ≤ M → |t| ≤ M → |m| ≤ 2 → |(s - t) * m| ≤ 4 * M := fun hs ht hm => by
    rw [abs_mul]
    have := (abs_sub _ _).trans (add_le_add hs ht)
    calc _ ≤ (M + M) * 2 := mul_le_mul this hm (abs_nonneg _) (by linarith)
      _ = 4 * M := by ring
  have bx := bd ha.1 hb.1 hn.1
  have bY := bd ha.2.1 hb.2.1 hn.2.1
  have bz := bd ha.2.2 hb.2.2 hn.2.2
  have hm : 0 ≤ u * M := mul_nonneg hu0 hM
  have hmu : u * (u * M) ≤ 1 / 1000 * (u * M) := mul_le_mul_of_nonneg_right hu hm
  unfold dotF subF
  dsimp only
  have s1 := add_err he hu0 hx hy (A := 8 * M) ((abs_add_le _ _).trans (by linarith))
  have s1' := s1.trans (show _ ≤ 34 * (u * M) by nlinarith)
  have s2 := add_err he hu0 s1' hz (A := 12 * M) ((abs_add_le _ _).trans (by linarith [(abs_add_le ((a.x - b.x) * n.x) ((a.y - b.y) * n.y))]))
  exact s2.trans (by nlinarith)

end

end Verif.Lemmas.FloatWall
