import Verif.Model.FloatExpr
import Verif.Lemmas.Rounding
import Mathlib.Tactic.Linarith
import Mathlib.Tactic.Ring
import Mathlib.Tactic.NormNum
import Mathlib.Algebra.Order.Ring.Abs

/-! Errors of expressions: counting roundings. -/

namespace Verif.Lemmas.FloatExpr
open Verif.Model.FloatExpr Verif.Spec.Rounding Verif.Lemmas.Rounding

variable {rnd : ℝ → ℝ}

/-- Twice the largest relative error of a rounding. -/
noncomputable def w : ℝ := 1 / 2 ^ 51

/-- A scale far above the smallest double. -/
noncomputable def tiny : ℝ := (2 : ℝ) ^ (-1000 : ℤ)

theorem w_pos : 0 < w := by unfold w; positivity

theorem tiny_pos : 0 < tiny := two_pos _

theorem tiny_le : tiny ≤ 1 / 2 ^ 90 := by
  unfold tiny
  rw [show (1 : ℝ) / 2 ^ 90 = 2 ^ (-90 : ℤ) by norm_num]
  exact zpow_le_zpow_right₀ (by norm_num) (by norm_num)

theorem tiny_le_one : tiny ≤ 1 := tiny_le.trans (by norm_num)

theorem pow_ge (k : ℕ) : 1 ≤ (1 + w) ^ k := one_le_pow₀ (by linarith [w_pos])

theorem pow_mono {k l : ℕ} (h : k ≤ l) : (1 + w) ^ k ≤ (1 + w) ^ l := pow_le_pow_right₀ (by linarith [w_pos]) h

theorem round_err (R : Rounding 53 (-1074) rnd) {x B : ℝ} (h : |x| ≤ B) (hB : tiny ≤ B) : |rnd x - x| ≤ w * B := by
  have h1 := error R (by norm_num) x
  have h2 : (2 : ℝ) ^ (-1074 : ℤ) ≤ 1 / 2 ^ 52 * tiny := by
    unfold tiny
    rw [show (-1074 : ℤ) = -74 + -1000 by norm_num, zpow_add₀ (by norm_num)]
    refine mul_le_mul_of_nonneg_right ?_ (two_pos _).le
    norm_num
  have h3 : (2 : ℝ) ^ (1 - ((53 : ℕ) : ℤ)) = 1 / 2 ^ 52 := by norm_num
  rw [h3] at h1
  unfold w
  have : (1 : ℝ) / 2 ^ 51 = 1 / 2 ^ 52 + 1 / 2 ^ 52 := by norm_num
  rw [this]
  have h4 : (1 : ℝ) / 2 ^ 52 * |x| ≤ 1 / 2 ^ 52 * B := mul_le_mul_of_nonneg_left h (by positivity)
  have h5 : (1 : ℝ) / 2 ^ 52 * tiny ≤ 1 / 2 ^ 52 * B := mul_le_mul_of_nonneg_left hB (by positivity)
  linarith

theorem round_step (R : Rounding 53 (-1074) rnd) {x X B : ℝ} {k : ℕ} (hB : tiny ≤ B) (hX : |X| ≤ B) (h : |x - X| ≤ ((1 + w) ^ k - 1) * B) :
    |rnd x - X| ≤ ((1 + w) ^ (k + 1) - 1) * B := by
  have hp := pow_ge k
  have hB0 : 0 ≤ B := tiny_pos.le.trans hB
  have hx : |x| ≤ (1 + w) ^ k * B := by
    have : |x| ≤ |x - X| + |X| := by simpa using abs_add_le (x - X) X
    linarith
  have h1 := round_err R hx (by nlinarith)
  have h2 : |rnd x - X| ≤ |rnd x - x| + |x - X| := abs_sub_le _ _ _
  rw [pow_succ]
  nlinarith

/-- The exact value has magnitude at most `B`, and whatever is computed differs from it by at most `k` roundings of values of that magnitude. -/
def Acc (rnd : ℝ → ℝ) (k : ℕ) (B : ℝ) (e : Expr) : Prop :=
  tiny ≤ B ∧ |e.eval| ≤ B ∧ ∀ r v, Res rnd e r v → |v - e.eval| ≤ ((1 + w) ^ k - 1) * B

theorem Acc.mono {k l : ℕ} {B C : ℝ} {e : Expr} (h : Acc rnd k B e) (hk : k ≤ l) (hB : B ≤ C) : Acc rnd l C e := by
  obtain ⟨h0, h1, h2⟩ := h
  refine ⟨h0.trans hB, h1.trans hB, fun r v hv => (h2 r v hv).trans ?_⟩
  exact mul_le_mul (by linarith [pow_mono hk]) hB (tiny_pos.le.trans h0) (by linarith [pow_ge l])

theorem acc_lit {x B : ℝ} (h : |x| ≤ B) (hB : tiny ≤ B) : Acc rnd 0 B (lit x) := by
  refine ⟨hB, h, fun r v hv => ?_⟩
  have : v = x := by
    cases hv with
    | lit => rfl
    | round h => cases h
  subst this
  simp [Expr.eval]

theorem Acc.add (R : Rounding 53 (-1074) rnd) {k l : ℕ} {B C : ℝ} {a b : Expr} (h : Acc rnd k B a) (g : Acc rnd l C b) : Acc rnd (max k l + 1) (B + C) (a + b) := by
  have hB := h.1
  have hC := g.1
  have ht := tiny_pos
  obtain ⟨-, h1, h2⟩ := h.mono (le_max_left k l) le_rfl
  obtain ⟨-, g1, g2⟩ := g.mono (le_max_right k l) le_rfl
  have hs : |a.eval + b.eval| ≤ B + C := (abs_add_le _ _).trans (by linarith)
  refine ⟨by linarith, hs, fun r v hv => ?_⟩
  cases hv with
  | add ha hb =>
    refine round_step R (by linarith) hs ?_
    have := abs_add_le (_ - a.eval) (_ - b.eval) |>.trans (add_le_add (h2 _ _ ha) (g2 _ _ hb))
    rw [show ∀ x y : ℝ, x + y - (a + b).eval = x - a.eval + (y - b.eval) from fun x y => by show x + y - (a.eval + b.eval) = _; ring]
    linarith
  | round h => cases h

theorem Acc.neg {k : ℕ} {B : ℝ} {a : Expr} (h : Acc rnd k B a) (hl : ∀ r v, Res rnd (-a) r v → ∃ r' x, Res rnd a r' x ∧ v = -x) : Acc rnd k B (-a) := by
  obtain ⟨h0, h1, h2⟩ := h
  refine ⟨h0, by show |(-a.eval)| ≤ B; rwa [abs_neg], fun r v hv => ?_⟩
  obtain ⟨r', x, hx, rfl⟩ := hl r v hv
  show |(-x - (-a.eval))| ≤ _
  rw [show -x - (-a.eval) = -(x - a.eval) by ring, abs_neg]
  exact h2 _ _ hx

/-- The sign of a number. -/
theorem acc_neg_lit {x B : ℝ} (h : |x| ≤ B) (hB : tiny ≤ B) : Acc rnd 0 B (-lit x) := by
  refine (acc_lit h hB).neg fun r v hv => ?_
  cases hv with
  | neg hv => exact ⟨_, _, hv, rfl⟩
  | round h =>
    cases h with
    | neg h => cases h

/-- The sign of a sum. -/
theorem acc_neg_sub {k : ℕ} {B : ℝ} {a b : Expr} (h : Acc rnd k B (a - b)) : Acc rnd k B (-(a - b)) := by
  refine h.neg fun r v hv => ?_
  cases hv with
  | neg hv => exact ⟨_, _, hv, rfl⟩
  | round h =>
    cases h with
    | neg h => cases h

theorem Acc.sub (R : Rounding 53 (-1074) rnd) {k l : ℕ} {B C : ℝ} {a b : Expr} (h : Acc rnd k B a) (g : Acc rnd l C b) : Acc rnd (max k l + 1) (B + C) (a - b) := by
  have hB := h.1
  have hC := g.1
  have ht := tiny_pos
  obtain ⟨-, h1, h2⟩ := h.mono (le_max_left k l) le_rfl
  obtain ⟨-, g1, g2⟩ := g.mono (le_max_right k l) le_rfl
  have hs : |a.eval - b.eval| ≤ B + C := (abs_sub _ _).trans (by linarith)
  refine ⟨by linarith, hs, fun r v hv => ?_⟩
  cases hv with
  | sub ha hb =>
    refine round_step R (by linarith) hs ?_
    have := abs_sub (_ - a.eval) (_ - b.eval) |>.trans (add_le_add (h2 _ _ ha) (g2 _ _ hb))
    rw [show ∀ x y : ℝ, x - y - (a - b).eval = x - a.eval - (y - b.eval) from fun x y => by show x - y - (a.eval - b.eval) = _; ring]
    linarith
  | round h => cases h

/-- Products without the last rounding. -/
theorem prod_err {k l : ℕ} {B C x X y Y : ℝ} (hX : |X| ≤ B) (h : |x - X| ≤ ((1 + w) ^ k - 1) * B) (hY : |Y| ≤ C) (g : |y - Y| ≤ ((1 + w) ^ l - 1) * C) :
    |x * y - X * Y| ≤ ((1 + w) ^ (k + l) - 1) * (B * C) := by
  have hy : |y| ≤ (1 + w) ^ l * C := by
    have : |y| ≤ |y - Y| + |Y| := by simpa using abs_add_le (y - Y) Y
    linarith
  rw [show x * y - X * Y = (x - X) * y + X * (y - Y) by ring]
  refine (abs_add_le _ _).trans ?_
  rw [abs_mul, abs_mul]
  have a1 := mul_le_mul h hy (abs_nonneg _) ((abs_nonneg _).trans h)
  have a2 := mul_le_mul hX g (abs_nonneg _) ((abs_nonneg _).trans hX)
  rw [pow_add]
  linarith

theorem Acc.mul (R : Rounding 53 (-1074) rnd) {k l : ℕ} {B C : ℝ} {a b : Expr} (h : Acc rnd k B a) (g : Acc rnd l C b) (ht : tiny ≤ B * C) : Acc rnd (k + l + 1) (B * C) (a * b) := by
  obtain ⟨h0, h1, h2⟩ := h
  obtain ⟨g0, g1, g2⟩ := g
  have hs : |a.eval * b.eval| ≤ B * C := by rw [abs_mul]; exact mul_le_mul h1 g1 (abs_nonneg _) ((abs_nonneg _).trans h1)
  have raw : ∀ v, Res rnd (a * b) true v → |v - a.eval * b.eval| ≤ ((1 + w) ^ (k + l) - 1) * (B * C) := by
    intro v hv
    cases hv with
    | mul ha hb => exact prod_err h1 (h2 _ _ ha) g1 (g2 _ _ hb)
  refine ⟨ht, hs, fun r v hv => ?_⟩
  cases r with
  | true =>
    refine (raw v hv).trans (mul_le_mul_of_nonneg_right ?_ (tiny_pos.le.trans ht))
    linarith [pow_mono (Nat.le_add_right (k + l) 1)]
  | false =>
    cases hv with
    | round hv => exact round_step R ht hs (raw _ hv)

/-! ### Every expression has a value -/

/-- The value without contractions. -/
noncomputable def run (rnd : ℝ → ℝ) : Expr → ℝ
  | .lit x => x
  | .add a b => rnd (run rnd a + run rnd b)
  | .sub a b => rnd (run rnd a - run rnd b)
  | .mul a b => rnd (run rnd a * run rnd b)
  | .div a b => rnd (run rnd a / run rnd b)
  | .neg a => -run rnd a

/-- No division by zero. -/
def Safe (rnd : ℝ → ℝ) : Expr → Prop
  | .lit _ => True
  | .add a b => Safe rnd a ∧ Safe rnd b
  | .sub a b => Safe rnd a ∧ Safe rnd b
  | .mul a b => Safe rnd a ∧ Safe rnd b
  | .div a b => Safe rnd a ∧ Safe rnd b ∧ run rnd b ≠ 0
  | .neg a => Safe rnd a

theorem run_res (rnd : ℝ → ℝ) : ∀ e : Expr, Safe rnd e → Res rnd e false (run rnd e)
  | .lit x, _ => .lit x
  | .add a b, h => .add (run_res rnd a h.1) (run_res rnd b h.2)
  | .sub a b, h => .sub (run_res rnd a h.1) (run_res rnd b h.2)
  | .mul a b, h => .round (.mul (run_res rnd a h.1) (run_res rnd b h.2))
  | .div a b, h => .div (run_res rnd a h.1) (run_res rnd b h.2.1) h.2.2
  | .neg a, h => .neg (run_res rnd a h)

end Verif.Lemmas.FloatExpr
