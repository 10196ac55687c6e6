import Verif.Model.FloatNewton
import Verif.Lemmas.FloatExpr
import Verif.Lemmas.FloatBary
import Verif.Model.LinearElements

/-! Errors of the residuals of straight-sided elements. -/

namespace Verif.Lemmas.FloatLinear
open Verif.Model.NewtonKernel Verif.Model.FloatExpr Verif.Model.FloatNewton Verif.Spec.Rounding Verif.Spec.LinearElements Verif.Lemmas.Rounding Verif.Lemmas.FloatExpr
open Verif.Model

variable {rnd : ℝ → ℝ}

/-- The exact values. -/
noncomputable def eval3 (v : V3 Expr) : V3 ℝ := ⟨v.x.eval, v.y.eval, v.z.eval⟩

theorem quad_eval (c : ℕ → V3 ℝ) (xi p : V3 ℝ) : eval3 (newtonF .quad c xi p) = LinearElements.Quad.newtonF c xi p := rfl
theorem hex_eval (c : ℕ → V3 ℝ) (xi p : V3 ℝ) : eval3 (newtonF .hex c xi p) = LinearElements.Hex.newtonF c xi p := rfl
theorem prism_eval (c : ℕ → V3 ℝ) (xi p : V3 ℝ) : eval3 (newtonF .prism c xi p) = LinearElements.Prism.newtonF c xi p := rfl
theorem pyr_eval (c : ℕ → V3 ℝ) (xi p : V3 ℝ) : eval3 (newtonF .pyr c xi p) = LinearElements.Pyr.newtonF c xi p := rfl
theorem tet_eval (c : ℕ → V3 ℝ) (xi p : V3 ℝ) : eval3 (newtonF .tet c xi p) = LinearElements.Tet.newtonF c xi p := rfl

/-- All coordinates are at most `B` in magnitude. -/
def Bounded (B : ℝ) (v : V3 ℝ) : Prop := |v.x| ≤ B ∧ |v.y| ≤ B ∧ |v.z| ≤ B

theorem pow_le_num (k : ℕ) (hk : k ≤ 32) : (1 + w) ^ k - 1 ≤ 2 * k * w := by
  have hw : w * 128 ≤ 1 := by unfold w; norm_num
  have h0 := w_pos
  induction k with
  | zero => simp
  | succ k ih =>
    have h := ih (by omega)
    have hk' : (k : ℝ) ≤ 31 := by exact_mod_cast (by omega : k ≤ 31)
    rw [pow_succ]
    push_cast
    nlinarith [mul_nonneg h0.le (Nat.cast_nonneg (α := ℝ) k)]

/-- A computed value from its certificate. -/
theorem Acc.err {k : ℕ} {B C : ℝ} {e : Expr} (h : Acc rnd k B e) (hk : k ≤ 32) (hC : 2 * k * B ≤ C) {r : Bool} {v : ℝ} (hv : Res rnd e r v) : |v - e.eval| ≤ w * C := by
  refine (h.2.2 r v hv).trans ?_
  have hB := tiny_pos.le.trans h.1
  have := mul_le_mul_of_nonneg_right (pow_le_num k hk) hB
  have := mul_le_mul_of_nonneg_left hC w_pos.le
  linarith

/-- The rules, applied as long as possible; what remains are the products that have to be above the smallest scale. -/
macro "acc" R:term : tactic => `(tactic| (
  repeat' first
    | assumption
    | apply Acc.add $R
    | apply Acc.sub $R
    | apply Acc.mul $R))

section
variable (R : Rounding 53 (-1074) rnd) {M : ℝ} (hM : 2 ^ 90 * tiny ≤ M)
include R hM

/-- A direction of the residual. -/
noncomputable def quadComp (p v0 v1 v2 v3 x y : ℝ) : Expr :=
  -lit p + lit (1 / 4) * lit v0 * (lit x - lit 1) * (lit y - lit 1) - lit v1 * (lit (1 / 4) * (lit y - lit 1) * (lit x + lit 1)) +
    lit (1 / 4) * lit v2 * (lit x + lit 1) * (lit y + lit 1) - lit v3 * (lit (1 / 4) * (lit x - lit 1) * (lit y + lit 1))

theorem quad_acc {p v0 v1 v2 v3 x y : ℝ} (hp : |p| ≤ M) (h0 : |v0| ≤ M) (h1 : |v1| ≤ M) (h2 : |v2| ≤ M) (h3 : |v3| ≤ M) (hx : |x| ≤ 9 / 8) (hy : |y| ≤ 9 / 8) :
    Acc rnd 9 (6 * M) (quadComp p v0 v1 v2 v3 x y) := by
  have ht := tiny_pos
  have t1 := tiny_le
  norm_num at t1
  have hM' : tiny ≤ M := by linarith
  have l4 : Acc rnd 0 (1 / 4) (lit (1 / 4)) := acc_lit (by rw [abs_of_pos] <;> norm_num) (by linarith)
  have one : Acc rnd 0 1 (lit 1) := acc_lit (by norm_num) (by linarith)
  have ax : Acc rnd 0 (9 / 8) (lit x) := acc_lit hx (by linarith)
  have ay : Acc rnd 0 (9 / 8) (lit y) := acc_lit hy (by linarith)
  have ap : Acc rnd 0 M (-lit p) := acc_neg_lit hp hM'
  have a0 : Acc rnd 0 M (lit v0) := acc_lit h0 hM'
  have a1 : Acc rnd 0 M (lit v1) := acc_lit h1 hM'
  have a2 : Acc rnd 0 M (lit v2) := acc_lit h2 hM'
  have a3 : Acc rnd 0 M (lit v3) := acc_lit h3 hM'
  unfold quadComp
  apply Acc.mono
  · acc R
    all_goals linarith
  · norm_num
  · linarith

/-- A direction of the residual. -/
noncomputable def hexComp (p v0 v1 v2 v3 v4 v5 v6 v7 x y z : ℝ) : Expr :=
  -lit p - lit v0 * ((lit x - lit 1) * (lit y - lit 1) * (lit (1 / 8) * (lit z - lit 1))) + lit (1 / 8) * lit v1 * (lit y - lit 1) * (lit z - lit 1) * (lit x + lit 1) - lit v2 * ((lit (1 / 8) * (lit z - lit 1)) * (lit x + lit 1) * (lit y + lit 1)) + lit (1 / 8) * lit v3 * (lit x - lit 1) * (lit z - lit 1) * (lit y + lit 1) +
    lit (1 / 8) * lit v4 * (lit x - lit 1) * (lit y - lit 1) * (lit z + lit 1) - lit v5 * ((lit y - lit 1) * (lit x + lit 1) * (lit (1 / 8) * (lit z + lit 1))) + lit (1 / 8) * lit v6 * (lit x + lit 1) * (lit y + lit 1) * (lit z + lit 1) - lit v7 * ((lit x - lit 1) * (lit y + lit 1) * (lit (1 / 8) * (lit z + lit 1)))

theorem hex_acc {p v0 v1 v2 v3 v4 v5 v6 v7 x y z : ℝ} (hp : |p| ≤ M) (h0 : |v0| ≤ M) (h1 : |v1| ≤ M) (h2 : |v2| ≤ M) (h3 : |v3| ≤ M) (h4 : |v4| ≤ M) (h5 : |v5| ≤ M) (h6 : |v6| ≤ M) (h7 : |v7| ≤ M) (hx : |x| ≤ 9 / 8) (hy : |y| ≤ 9 / 8) (hz : |z| ≤ 9 / 8) :
    Acc rnd 16 (11 * M) (hexComp p v0 v1 v2 v3 v4 v5 v6 v7 x y z) := by
  have ht := tiny_pos
  have t1 := tiny_le
  norm_num at t1
  have hM' : tiny ≤ M := by linarith
  have l8 : Acc rnd 0 (1 / 8) (lit (1 / 8)) := acc_lit (by rw [abs_of_pos] <;> norm_num) (by linarith)
  have one : Acc rnd 0 1 (lit 1) := acc_lit (by norm_num) (by linarith)
  have ax : Acc rnd 0 (9 / 8) (lit x) := acc_lit hx (by linarith)
  have ay : Acc rnd 0 (9 / 8) (lit y) := acc_lit hy (by linarith)
  have az : Acc rnd 0 (9 / 8) (lit z) := acc_lit hz (by linarith)
  have ap : Acc rnd 0 M (-lit p) := acc_neg_lit hp hM'
  have a0 : Acc rnd 0 M (lit v0) := acc_lit h0 hM'
  have a1 : Acc rnd 0 M (lit v1) := acc_lit h1 hM'
  have a2 : Acc rnd 0 M (lit v2) := acc_lit h2 hM'
  have a3 : Acc rnd 0 M (lit v3) := acc_lit h3 hM'
  have a4 : Acc rnd 0 M (lit v4) := acc_lit h4 hM'
  have a5 : Acc rnd 0 M (lit v5) := acc_lit h5 hM'
  have a6 : Acc rnd 0 M (lit v6) := acc_lit h6 hM'
  have a7 : Acc rnd 0 M (lit v7) := acc_lit h7 hM'
  unfold hexComp
  apply Acc.mono
  · acc R
    all_goals linarith
  · norm_num
  · linarith

/-- A direction of the residual. -/
noncomputable def prismComp (p v0 v1 v2 v3 v4 v5 x y z : ℝ) : Expr :=
  -lit p + lit (1 / 4) * lit v0 * (lit x + lit z) * (lit y - lit 1) - lit v1 * ((lit x + lit 1) * (lit (1 / 4) * (lit y - lit 1))) + lit (1 / 4) * lit v2 * (lit x + lit 1) * (lit y + lit 1) - lit v3 * (lit (1 / 4) * (lit x + lit z) * (lit y + lit 1)) - lit v4 * ((lit (1 / 4) * (lit y - lit 1)) * (lit z + lit 1)) +
    lit (1 / 4) * lit v5 * (lit y + lit 1) * (lit z + lit 1)

theorem prism_acc {p v0 v1 v2 v3 v4 v5 x y z : ℝ} (hp : |p| ≤ M) (h0 : |v0| ≤ M) (h1 : |v1| ≤ M) (h2 : |v2| ≤ M) (h3 : |v3| ≤ M) (h4 : |v4| ≤ M) (h5 : |v5| ≤ M) (hx : |x| ≤ 3 / 2) (hy : |y| ≤ 3 / 2) (hz : |z| ≤ 3 / 2) :
    Acc rnd 12 (11 * M) (prismComp p v0 v1 v2 v3 v4 v5 x y z) := by
  have ht := tiny_pos
  have t1 := tiny_le
  norm_num at t1
  have hM' : tiny ≤ M := by linarith
  have l4 : Acc rnd 0 (1 / 4) (lit (1 / 4)) := acc_lit (by rw [abs_of_pos] <;> norm_num) (by linarith)
  have one : Acc rnd 0 1 (lit 1) := acc_lit (by norm_num) (by linarith)
  have ax : Acc rnd 0 (3 / 2) (lit x) := acc_lit hx (by linarith)
  have ay : Acc rnd 0 (3 / 2) (lit y) := acc_lit hy (by linarith)
  have az : Acc rnd 0 (3 / 2) (lit z) := acc_lit hz (by linarith)
  have ap : Acc rnd 0 M (-lit p) := acc_neg_lit hp hM'
  have a0 : Acc rnd 0 M (lit v0) := acc_lit h0 hM'
  have a1 : Acc rnd 0 M (lit v1) := acc_lit h1 hM'
  have a2 : Acc rnd 0 M (lit v2) := acc_lit h2 hM'
  have a3 : Acc rnd 0 M (lit v3) := acc_lit h3 hM'
  have a4 : Acc rnd 0 M (lit v4) := acc_lit h4 hM'
  have a5 : Acc rnd 0 M (lit v5) := acc_lit h5 hM'
  unfold prismComp
  apply Acc.mono
  · acc R
    all_goals linarith
  · norm_num
  · linarith

/-- A direction of the residual. -/
noncomputable def tetComp (p v0 v1 v2 v3 x y z : ℝ) : Expr :=
  -lit p + lit v0 - (lit (1 / 2) * lit x + lit (1 / 2)) * (lit v0 - lit v1) - (lit (1 / 2) * lit y + lit (1 / 2)) * (lit v0 - lit v2) - (lit (1 / 2) * lit z + lit (1 / 2)) * (lit v0 - lit v3)

theorem tet_acc {p v0 v1 v2 v3 x y z : ℝ} (hp : |p| ≤ M) (h0 : |v0| ≤ M) (h1 : |v1| ≤ M) (h2 : |v2| ≤ M) (h3 : |v3| ≤ M) (hx : |x| ≤ 4) (hy : |y| ≤ 4) (hz : |z| ≤ 4) :
    Acc rnd 9 (17 * M) (tetComp p v0 v1 v2 v3 x y z) := by
  have ht := tiny_pos
  have t1 := tiny_le
  norm_num at t1
  have hM' : tiny ≤ M := by linarith
  have l2 : Acc rnd 0 (1 / 2) (lit (1 / 2)) := acc_lit (by rw [abs_of_pos] <;> norm_num) (by linarith)
  have one : Acc rnd 0 1 (lit 1) := acc_lit (by norm_num) (by linarith)
  have ax : Acc rnd 0 (4) (lit x) := acc_lit hx (by linarith)
  have ay : Acc rnd 0 (4) (lit y) := acc_lit hy (by linarith)
  have az : Acc rnd 0 (4) (lit z) := acc_lit hz (by linarith)
  have ap : Acc rnd 0 M (-lit p) := acc_neg_lit hp hM'
  have a0 : Acc rnd 0 M (lit v0) := acc_lit h0 hM'
  have a1 : Acc rnd 0 M (lit v1) := acc_lit h1 hM'
  have a2 : Acc rnd 0 M (lit v2) := acc_lit h2 hM'
  have a3 : Acc rnd 0 M (lit v3) := acc_lit h3 hM'
  unfold tetComp
  apply Acc.mono
  · acc R
    all_goals linarith
  · norm_num
  · linarith

theorem ratio_acc {y z : ℝ} (hy : IsFloat 53 (-1074) y) (hz : IsFloat 53 (-1074) z) (h1 : z ≠ 1) (h4 : |z| ≤ 3 / 2) (hr : |y + 1| ≤ 15 * |z - 1|) :
    Acc rnd 4 15 ((lit y + lit 1) * (lit 1 / (lit z - lit 1))) := by
  have ht := tiny_pos
  have t1 := tiny_le
  norm_num at t1
  have hZ : z - 1 ≠ 0 := sub_ne_zero.mpr h1
  have hZ' := abs_pos.mpr hZ
  have one : IsFloat 53 (-1074) (1 : ℝ) := by simpa using float_int (p := 53) (emin := -1074) (by norm_num) (by norm_num) (m := 1) (by norm_num)
  have e53 : (2 : ℝ) ^ (1 - ((53 : ℕ) : ℤ)) = w / 2 := by unfold w; norm_num
  have hw := w_pos
  have hw1 : w ≤ 1 / 1024 := by unfold w; norm_num
  have ey : |rnd (y + 1) - (y + 1)| ≤ ((1 + w) ^ 1 - 1) * |y + 1| := by
    have := FloatBary.error_sub R (by norm_num) hy (float_neg one)
    rw [e53, sub_neg_eq_add] at this
    refine this.trans (mul_le_mul_of_nonneg_right (by linarith) (abs_nonneg _))
  have ez : |rnd (z - 1) - (z - 1)| ≤ w / 2 * |z - 1| := by
    have := FloatBary.error_sub R (by norm_num) hz one
    rwa [e53] at this
  have hd : (1 - w / 2) * |z - 1| ≤ |rnd (z - 1)| := by
    have : |z - 1| ≤ |z - 1 - rnd (z - 1)| + |rnd (z - 1)| := by simpa using abs_add_le (z - 1 - rnd (z - 1)) (rnd (z - 1))
    rw [abs_sub_comm (z - 1) (rnd (z - 1))] at this
    linarith
  have hd0 : 0 < |rnd (z - 1)| := lt_of_lt_of_le (mul_pos (by linarith) hZ') hd
  have hdn : rnd (z - 1) ≠ 0 := abs_pos.mp hd0
  have hd8 : |rnd (z - 1)| ≤ 8 := by
    have a1 : |rnd (z - 1)| ≤ |rnd (z - 1) - (z - 1)| + |z - 1| := by simpa using abs_add_le (rnd (z - 1) - (z - 1)) (z - 1)
    have a2 : |z - 1| ≤ 3 := (abs_sub _ _).trans (by rw [abs_one]; linarith)
    nlinarith
  have ei : |1 / rnd (z - 1) - 1 / (z - 1)| ≤ w * |1 / (z - 1)| := by
    rw [show 1 / rnd (z - 1) - 1 / (z - 1) = (z - 1 - rnd (z - 1)) / (rnd (z - 1) * (z - 1)) by field_simp, abs_div, abs_mul, abs_sub_comm, abs_div, abs_one,
      div_le_iff₀ (mul_pos hd0 hZ')]
    have e2 : w * (1 / |z - 1|) * (|rnd (z - 1)| * |z - 1|) = w * |rnd (z - 1)| := by field_simp
    rw [e2]
    refine ez.trans ?_
    have := mul_le_mul_of_nonneg_left hd hw.le
    nlinarith
  have er : |rnd (1 / rnd (z - 1)) - 1 / (z - 1)| ≤ ((1 + w) ^ 2 - 1) * |1 / (z - 1)| := by
    have a1 := round_err R (x := 1 / rnd (z - 1)) le_rfl (by
      rw [abs_div, abs_one, le_div_iff₀ hd0]
      nlinarith)
    have a2 : |1 / rnd (z - 1)| ≤ (1 + w) * |1 / (z - 1)| := by
      have : |1 / rnd (z - 1)| ≤ |1 / rnd (z - 1) - 1 / (z - 1)| + |1 / (z - 1)| := by simpa using abs_add_le (1 / rnd (z - 1) - 1 / (z - 1)) (1 / (z - 1))
      linarith
    have a3 := abs_sub_le (rnd (1 / rnd (z - 1))) (1 / rnd (z - 1)) (1 / (z - 1))
    have a4 := mul_le_mul_of_nonneg_left a2 hw.le
    nlinarith
  have hB : |y + 1| * |1 / (z - 1)| ≤ 15 := by
    rw [abs_div, abs_one, mul_one_div, div_le_iff₀ hZ']; exact hr
  have hs : |(y + 1) * (1 / (z - 1))| ≤ 15 := by rw [abs_mul]; exact hB
  have raw : ∀ v, Res rnd ((lit y + lit 1) * (lit 1 / (lit z - lit 1))) true v → |v - (y + 1) * (1 / (z - 1))| ≤ ((1 + w) ^ 3 - 1) * 15 := by
    intro v hv
    have inv : ∀ x r u, Res rnd (lit x) r u → u = x := fun x r u h => by
      cases h with
      | lit => rfl
      | round h => cases h
    have prod : |rnd (y + 1) * rnd (1 / rnd (z - 1)) - (y + 1) * (1 / (z - 1))| ≤ ((1 + w) ^ 3 - 1) * 15 :=
      (prod_err le_rfl ey le_rfl er).trans (mul_le_mul_of_nonneg_left hB (by linarith [pow_ge (1 + 2)]))
    cases hv with
    | mul ha hb =>
      cases ha with
      | add ha1 ha2 =>
        rw [inv _ _ _ ha1, inv _ _ _ ha2]
        cases hb with
        | div hb1 hb2 hb3 =>
          rw [inv _ _ _ hb1]
          cases hb2 with
          | sub hc1 hc2 => rw [inv _ _ _ hc1, inv _ _ _ hc2]; exact prod
          | round h => cases h
        | round h => cases h
      | round h => cases h
  refine ⟨by linarith, hs, fun r v hv => ?_⟩
  show |v - (y + 1) * (1 / (z - 1))| ≤ _
  cases r with
  | true => exact (raw v hv).trans (mul_le_mul_of_nonneg_right (by linarith [pow_mono (show 3 ≤ 4 by norm_num)]) (by norm_num))
  | false =>
    cases hv with
    | round hv => exact round_step R (by linarith) hs (raw _ hv)

/-- A direction of the residual. -/
noncomputable def pyrComp (p v0 v1 v2 v3 v4 x y z : ℝ) : Expr :=
  -lit p - lit v0 * (lit (1 / 2) * (lit z - lit 1) * (((lit y + lit 1) * (lit 1 / (lit z - lit 1))) + lit 1) * ((lit x + lit 1) * (lit 1 / (lit z - lit 1)) + lit 1)) + lit (1 / 2) * lit v1 * (lit x + lit 1) * (((lit y + lit 1) * (lit 1 / (lit z - lit 1))) + lit 1) - lit v2 * (lit (1 / 2) * (lit x + lit 1) * ((lit y + lit 1) * (lit 1 / (lit z - lit 1)))) + lit (1 / 2) * lit v3 * (lit y + lit 1) * ((lit x + lit 1) * (lit 1 / (lit z - lit 1)) + lit 1) + lit (1 / 2) * lit v4 * (lit z + lit 1)

theorem pyr_acc {p v0 v1 v2 v3 v4 x y z : ℝ} (hp : |p| ≤ M) (h0 : |v0| ≤ M) (h1 : |v1| ≤ M) (h2 : |v2| ≤ M) (h3 : |v3| ≤ M) (h4 : |v4| ≤ M) (hx : |x| ≤ 3 / 2) (hy : |y| ≤ 3 / 2) (hz : |z| ≤ 3 / 2) (fx : IsFloat 53 (-1074) x) (fy : IsFloat 53 (-1074) y) (fz : IsFloat 53 (-1074) z)
    (hz1 : z ≠ 1) (rx : |x + 1| ≤ 15 * |z - 1|) (ry : |y + 1| ≤ 15 * |z - 1|) :
    Acc rnd 20 (382 * M) (pyrComp p v0 v1 v2 v3 v4 x y z) := by
  have ht := tiny_pos
  have t1 := tiny_le
  norm_num at t1
  have hM' : tiny ≤ M := by linarith
  have l2 : Acc rnd 0 (1 / 2) (lit (1 / 2)) := acc_lit (by rw [abs_of_pos] <;> norm_num) (by linarith)
  have one : Acc rnd 0 1 (lit 1) := acc_lit (by norm_num) (by linarith)
  have ax : Acc rnd 0 (3 / 2) (lit x) := acc_lit hx (by linarith)
  have ay : Acc rnd 0 (3 / 2) (lit y) := acc_lit hy (by linarith)
  have az : Acc rnd 0 (3 / 2) (lit z) := acc_lit hz (by linarith)
  have ap : Acc rnd 0 M (-lit p) := acc_neg_lit hp hM'
  have a0 : Acc rnd 0 M (lit v0) := acc_lit h0 hM'
  have a1 : Acc rnd 0 M (lit v1) := acc_lit h1 hM'
  have a2 : Acc rnd 0 M (lit v2) := acc_lit h2 hM'
  have a3 : Acc rnd 0 M (lit v3) := acc_lit h3 hM'
  have a4 : Acc rnd 0 M (lit v4) := acc_lit h4 hM'
  have q0 := ratio_acc R hM fx fz hz1 hz rx
  have q1 := ratio_acc R hM fy fz hz1 hz ry
  unfold pyrComp
  apply Acc.mono
  · acc R
    all_goals linarith
  · norm_num
  · linarith

end

end Verif.Lemmas.FloatLinear
