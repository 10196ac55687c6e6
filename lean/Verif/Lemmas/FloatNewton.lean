import Verif.Lemmas.FloatLinear
import Verif.Props.C59_BoundInside
import Verif.Lemmas.FloatShapes

/-! Lemmas for C118: reference positions computed from collapsed coordinates, and the measure of the residual. -/

namespace Verif.Lemmas.FloatNewton
open Verif.Model.NewtonKernel Verif.Model.FloatExpr Verif.Model.FloatNewton Verif.Spec.Rounding Verif.Spec.LinearElements Verif.Lemmas.Rounding Verif.Lemmas.FloatExpr Verif.Lemmas.FloatLinear
  Verif.Props.C59
open Verif.Model

variable {rnd : ℝ → ℝ}

theorem lit_inv {x : ℝ} {r : Bool} {u : ℝ} (h : Res rnd (lit x) r u) : u = x := by
  cases h with
  | lit => rfl
  | round h => cases h

/-- `(1 + a) (1 - b) / 2 - 1`. -/
noncomputable def colComp (a b : ℝ) : Expr := (lit 1 + lit a) * (lit 1 - lit b) * lit (1 / 2) - lit 1

theorem col_acc (R : Rounding 53 (-1074) rnd) {a b : ℝ} (ha : |a| ≤ 9 / 8) (hb : |b| ≤ 9 / 8) : Acc rnd 5 (10 / 3) (colComp a b) := by
  have ht := tiny_pos
  have t1 := tiny_le
  norm_num at t1
  have l2 : Acc rnd 0 (1 / 2) (lit (1 / 2)) := acc_lit (by rw [abs_of_pos] <;> norm_num) (by linarith)
  have one : Acc rnd 0 1 (lit 1) := acc_lit (by norm_num) (by linarith)
  have xa : Acc rnd 0 (9 / 8) (lit a) := acc_lit ha (by linarith)
  have xb : Acc rnd 0 (9 / 8) (lit b) := acc_lit hb (by linarith)
  unfold colComp
  apply Acc.mono
  · acc R
    all_goals linarith
  · norm_num
  · linarith

/-- `(1 + a) (-x - c) / 2 - 1` for `x` the value above. -/
noncomputable def colComp2 (a b c : ℝ) : Expr := (lit 1 + lit a) * (-colComp b c - lit c) * lit (1 / 2) - lit 1

theorem col2_acc (R : Rounding 53 (-1074) rnd) {a b c : ℝ} (ha : |a| ≤ 9 / 8) (hb : |b| ≤ 9 / 8) (hc : |c| ≤ 9 / 8) : Acc rnd 10 6 (colComp2 a b c) := by
  have ht := tiny_pos
  have t1 := tiny_le
  norm_num at t1
  have l2 : Acc rnd 0 (1 / 2) (lit (1 / 2)) := acc_lit (by rw [abs_of_pos] <;> norm_num) (by linarith)
  have one : Acc rnd 0 1 (lit 1) := acc_lit (by norm_num) (by linarith)
  have xa : Acc rnd 0 (9 / 8) (lit a) := acc_lit ha (by linarith)
  have xc : Acc rnd 0 (9 / 8) (lit c) := acc_lit hc (by linarith)
  have x1 : Acc rnd 5 (10 / 3) (-colComp b c) := acc_neg_sub (col_acc R hb hc)
  unfold colComp2
  apply Acc.mono
  · acc R
    all_goals linarith
  · norm_num
  · linarith

theorem one_float : IsFloat 53 (-1074) (1 : ℝ) := by simpa using float_int (p := 53) (emin := -1074) (by norm_num) (by norm_num) (m := 1) (by norm_num)

/-- The quotient of the pyramid is bounded at stored reference positions. -/
theorem col_ratio (R : Rounding 53 (-1074) rnd) {a b y : ℝ} (ha : |a| ≤ 9 / 8) (hb : |b| ≤ 9 / 8) (fb : IsFloat 53 (-1074) b) (h1 : b ≠ 1) (h : Res rnd (colComp a b) false y) :
    |y + 1| ≤ 15 * |b - 1| := by
  have ht := tiny_pos
  have t1 := tiny_le
  norm_num at t1
  have hlow := FloatShapes.one_sub_float fb h1
  have hlow' : (1 : ℝ) / 2 ^ 53 ≤ |1 - b| := by norm_num at hlow ⊢; exact hlow
  have l2 : Acc rnd 0 (1 / 2) (lit (1 / 2)) := acc_lit (by rw [abs_of_pos] <;> norm_num) (by linarith)
  have one : Acc rnd 0 1 (lit 1) := acc_lit (by norm_num) (by linarith)
  have xa : Acc rnd 0 (9 / 8) (lit a) := acc_lit ha (by linarith)
  have hw := w_pos
  have hb17 : |1 - b| ≤ 17 / 8 := (abs_sub _ _).trans (by rw [abs_one]; linarith)
  norm_num at hlow'
  have xb : Acc rnd 1 |1 - b| (lit 1 - lit b) := by
    refine ⟨by linarith, le_rfl, fun r v hv => ?_⟩
    cases hv with
    | sub h1 h2 =>
      rw [lit_inv h1, lit_inv h2]
      have := FloatBary.error_sub R (by norm_num) one_float fb
      rw [show (2 : ℝ) ^ (1 - ((53 : ℕ) : ℤ)) = w / 2 by unfold w; norm_num] at this
      exact this.trans (mul_le_mul_of_nonneg_right (by linarith) (abs_nonneg _))
    | round h => cases h
  have ht' : Acc rnd 4 (17 / 16 * |1 - b|) ((lit 1 + lit a) * (lit 1 - lit b) * lit (1 / 2)) := by
    apply Acc.mono
    · acc R
      all_goals linarith
    · norm_num
    · linarith
  cases h with
  | sub h1 h2 =>
    rename_i t s
    rw [lit_inv h2]
    obtain ⟨-, e1, e2⟩ := ht'
    have e3 := e2 _ _ h1
    have hp : (1 + w) ^ 4 ≤ 17 / 16 := by unfold w; norm_num
    have e4 : |t| ≤ 17 / 16 * (17 / 16 * |1 - b|) := by
      have : |t| ≤ |t - ((lit 1 + lit a) * (lit 1 - lit b) * lit (1 / 2)).eval| + |((lit 1 + lit a) * (lit 1 - lit b) * lit (1 / 2)).eval| := by
        simpa using abs_add_le (t - ((lit 1 + lit a) * (lit 1 - lit b) * lit (1 / 2)).eval) ((lit 1 + lit a) * (lit 1 - lit b) * lit (1 / 2)).eval
      have : (1 + w) ^ 4 * (17 / 16 * |1 - b|) ≤ 17 / 16 * (17 / 16 * |1 - b|) := mul_le_mul_of_nonneg_right hp (by positivity)
      linarith
    have e7 : |rnd (t - 1) + 1| ≤ |rnd (t - 1) - (t - 1)| + |t| := by
      have := abs_add_le (rnd (t - 1) - (t - 1)) t
      rwa [show rnd (t - 1) - (t - 1) + t = rnd (t - 1) + 1 by ring] at this
    rw [abs_sub_comm b 1]
    have e8 : w * (171 / 50) ≤ 1368 / 100 * |1 - b| := by unfold w; norm_num; linarith
    have e9 : |t - 1| ≤ 171 / 50 := (abs_sub _ _).trans (by rw [abs_one]; linarith)
    have e6 := round_err R e9 (by linarith)
    linarith
  | round h => cases h

/-! ### The residual -/

/-- Reference positions which the stored ones satisfy. -/
def Good : Shape → V3 ℝ → Prop
  | .quad, x => |x.x| ≤ 9 / 8 ∧ |x.y| ≤ 9 / 8
  | .hex, x => Bounded (9 / 8) x
  | .prism, x => Bounded (3 / 2) x
  | .tet, x => Bounded 4 x
  | .pyr, x => Bounded (3 / 2) x ∧ IsFloat 53 (-1074) x.x ∧ IsFloat 53 (-1074) x.y ∧ IsFloat 53 (-1074) x.z ∧
      (x.z ≠ 1 → |x.x + 1| ≤ 15 * |x.z - 1| ∧ |x.y + 1| ≤ 15 * |x.z - 1|)

/-- The rounding error of the residual for vertices and a position of magnitude 1. -/
noncomputable def errF : Shape → ℝ
  | .pyr => w * 16384
  | _ => w * 512

theorem finish {k : ℕ} {B C D M u v : ℝ} {e : Expr} (h : Acc rnd k (B * M) e) (hM : 0 ≤ M) (hk : k ≤ 32) (hC : 2 * k * B ≤ C) (hv : Res rnd e false v) (he : e.eval = u) (hD : D = w * C) :
    |v - u| ≤ D * M := by
  have := FloatLinear.Acc.err h hk (C := C * M) (by nlinarith) hv
  rw [he] at this
  rw [hD, mul_assoc]
  exact this

theorem resid_err (R : Rounding 53 (-1074) rnd) {M : ℝ} (hM : 2 ^ 90 * tiny ≤ M) (s : Shape) (c : ℕ → V3 ℝ) (x q f : V3 ℝ) (hc : ∀ i, Bounded M (c i)) (hq : Bounded M q) (g : Good s x)
    (hz : s = .pyr → x.z ≠ 1) (f0 : Res rnd (FloatNewton.newtonF s c x q).x false f.x) (f1 : Res rnd (FloatNewton.newtonF s c x q).y false f.y)
    (f2 : Res rnd (FloatNewton.newtonF s c x q).z false f.z) :
    |f.x - ((X s c x).x - q.x)| ≤ errF s * M ∧ |f.y - ((X s c x).y - q.y)| ≤ errF s * M ∧ (s ≠ .quad → |f.z - ((X s c x).z - q.z)| ≤ errF s * M) := by
  have ht := tiny_pos
  have hM0 : 0 ≤ M := by linarith
  cases s with
  | quad =>
    obtain ⟨gx, gy⟩ := g
    have e := congrArg V3.x (quad_eval c x q)
    have e' := congrArg V3.y (quad_eval c x q)
    rw [(Props.C38.quad_f c x q).1] at e
    rw [(Props.C38.quad_f c x q).2.1] at e'
    exact ⟨finish (C := 512) (quad_acc R hM hq.1 (hc 0).1 (hc 1).1 (hc 2).1 (hc 3).1 gx gy) hM0 (by norm_num) (by norm_num) f0 e rfl,
      finish (C := 512) (quad_acc R hM hq.2.1 (hc 0).2.1 (hc 1).2.1 (hc 2).2.1 (hc 3).2.1 gx gy) hM0 (by norm_num) (by norm_num) f1 e' rfl, fun h => absurd rfl h⟩
  | hex =>
    obtain ⟨gx, gy, gz⟩ := g
    have e := hex_eval c x q
    rw [Props.C38.hex_f] at e
    exact ⟨finish (C := 512) (hex_acc R hM hq.1 (hc 0).1 (hc 1).1 (hc 2).1 (hc 3).1 (hc 4).1 (hc 5).1 (hc 6).1 (hc 7).1 gx gy gz) hM0 (by norm_num) (by norm_num) f0 (congrArg V3.x e) rfl,
      finish (C := 512) (hex_acc R hM hq.2.1 (hc 0).2.1 (hc 1).2.1 (hc 2).2.1 (hc 3).2.1 (hc 4).2.1 (hc 5).2.1 (hc 6).2.1 (hc 7).2.1 gx gy gz) hM0 (by norm_num) (by norm_num) f1 (congrArg V3.y e) rfl,
      fun _ => finish (C := 512) (hex_acc R hM hq.2.2 (hc 0).2.2 (hc 1).2.2 (hc 2).2.2 (hc 3).2.2 (hc 4).2.2 (hc 5).2.2 (hc 6).2.2 (hc 7).2.2 gx gy gz) hM0 (by norm_num) (by norm_num) f2 (congrArg V3.z e) rfl⟩
  | prism =>
    obtain ⟨gx, gy, gz⟩ := g
    have e := prism_eval c x q
    rw [Props.C38.prism_f] at e
    exact ⟨finish (C := 512) (prism_acc R hM hq.1 (hc 0).1 (hc 1).1 (hc 2).1 (hc 3).1 (hc 4).1 (hc 5).1 gx gy gz) hM0 (by norm_num) (by norm_num) f0 (congrArg V3.x e) rfl,
      finish (C := 512) (prism_acc R hM hq.2.1 (hc 0).2.1 (hc 1).2.1 (hc 2).2.1 (hc 3).2.1 (hc 4).2.1 (hc 5).2.1 gx gy gz) hM0 (by norm_num) (by norm_num) f1 (congrArg V3.y e) rfl,
      fun _ => finish (C := 512) (prism_acc R hM hq.2.2 (hc 0).2.2 (hc 1).2.2 (hc 2).2.2 (hc 3).2.2 (hc 4).2.2 (hc 5).2.2 gx gy gz) hM0 (by norm_num) (by norm_num) f2 (congrArg V3.z e) rfl⟩
  | tet =>
    obtain ⟨gx, gy, gz⟩ := g
    have e := tet_eval c x q
    rw [Props.C38.tet_f] at e
    exact ⟨finish (C := 512) (tet_acc R hM hq.1 (hc 0).1 (hc 1).1 (hc 2).1 (hc 3).1 gx gy gz) hM0 (by norm_num) (by norm_num) f0 (congrArg V3.x e) rfl,
      finish (C := 512) (tet_acc R hM hq.2.1 (hc 0).2.1 (hc 1).2.1 (hc 2).2.1 (hc 3).2.1 gx gy gz) hM0 (by norm_num) (by norm_num) f1 (congrArg V3.y e) rfl,
      fun _ => finish (C := 512) (tet_acc R hM hq.2.2 (hc 0).2.2 (hc 1).2.2 (hc 2).2.2 (hc 3).2.2 gx gy gz) hM0 (by norm_num) (by norm_num) f2 (congrArg V3.z e) rfl⟩
  | pyr =>
    have h1 := hz rfl
    obtain ⟨⟨gx, gy, gz⟩, k0, k1, k2, k3⟩ := g
    obtain ⟨rx, ry⟩ := k3 h1
    have e := pyr_eval c x q
    rw [Props.C38.pyr_f c x q h1] at e
    exact ⟨finish (C := 16384) (pyr_acc R hM hq.1 (hc 0).1 (hc 1).1 (hc 2).1 (hc 3).1 (hc 4).1 gx gy gz k0 k1 k2 h1 rx ry) hM0 (by norm_num) (by norm_num) f0 (congrArg V3.x e) rfl,
      finish (C := 16384) (pyr_acc R hM hq.2.1 (hc 0).2.1 (hc 1).2.1 (hc 2).2.1 (hc 3).2.1 (hc 4).2.1 gx gy gz k0 k1 k2 h1 rx ry) hM0 (by norm_num) (by norm_num) f1 (congrArg V3.y e) rfl,
      fun _ => finish (C := 16384) (pyr_acc R hM hq.2.2 (hc 0).2.2 (hc 1).2.2 (hc 2).2.2 (hc 3).2.2 (hc 4).2.2 gx gy gz k0 k1 k2 h1 rx ry) hM0 (by norm_num) (by norm_num) f2 (congrArg V3.z e) rfl⟩

/-! ### The measure -/

theorem unround (R : Rounding 53 (-1074) rnd) {a T : ℝ} (ha : 0 ≤ a) (h : rnd a ≤ T) : a ≤ (1 + w) * (T + 2 ^ (-1074 : ℤ)) := by
  have h1 := error R (by norm_num) a
  rw [show (2 : ℝ) ^ (1 - ((53 : ℕ) : ℤ)) = w / 2 by unfold w; norm_num, abs_of_nonneg ha] at h1
  have h2 := (abs_le.1 h1).1
  have hw := w_pos
  have hw1 : w ≤ 1 / 1024 := by unfold w; norm_num
  have h3 : a * (1 - w / 2) ≤ T + 2 ^ (-1074 : ℤ) := by linarith
  have h4 := mul_le_mul_of_nonneg_left h3 (show 0 ≤ 1 + w by linarith)
  nlinarith [mul_nonneg ha hw.le]

theorem unround_sub (R : Rounding 53 (-1074) rnd) {a b T : ℝ} (ha : IsFloat 53 (-1074) a) (hb : IsFloat 53 (-1074) b) (h : |rnd (a - b)| ≤ T) : |a - b| ≤ (1 + w) * T := by
  have h1 := FloatBary.error_sub R (by norm_num) ha hb
  rw [show (2 : ℝ) ^ (1 - ((53 : ℕ) : ℤ)) = w / 2 by unfold w; norm_num] at h1
  have h2 : |a - b| ≤ |a - b - rnd (a - b)| + |rnd (a - b)| := by simpa using abs_add_le (a - b - rnd (a - b)) (rnd (a - b))
  rw [abs_sub_comm (a - b)] at h2
  have hw := w_pos
  have hw1 : w ≤ 1 / 1024 := by unfold w; norm_num
  have h3 : |a - b| * (1 - w / 2) ≤ T := by linarith
  have h4 := mul_le_mul_of_nonneg_left h3 (show 0 ≤ 1 + w by linarith)
  nlinarith [mul_nonneg (abs_nonneg (a - b)) hw.le]

/-- The scaling that is used in a direction. -/
noncomputable def scaleOf (s : Shape) (sc : V3 ℝ) (d : ℕ) : ℝ :=
  match s, d with
  | .hex, _ => sc.x
  | _, 0 => sc.x
  | _, 1 => sc.y
  | _, _ => sc.z

theorem measure_le (R : Rounding 53 (-1074) rnd) {T : ℝ} (s : Shape) (sc f : V3 ℝ) (hs : 0 < sc.x ∧ 0 < sc.y ∧ 0 < sc.z) (h : measureF rnd s sc f ≤ T) :
    |f.x| ≤ (1 + w) * (T + 2 ^ (-1074 : ℤ)) / scaleOf s sc 0 ∧ |f.y| ≤ (1 + w) * (T + 2 ^ (-1074 : ℤ)) / scaleOf s sc 1 ∧
      (s ≠ .quad → |f.z| ≤ (1 + w) * (T + 2 ^ (-1074 : ℤ)) / scaleOf s sc 2) := by
  have one : ∀ (u t : ℝ), 0 < t → rnd (|u| * t) ≤ T → |u| ≤ (1 + w) * (T + 2 ^ (-1074 : ℤ)) / t := fun u t ht hu => by
    rw [le_div_iff₀ ht]; exact unround R (by positivity) hu
  obtain ⟨s0, s1, s2⟩ := hs
  have gen : ∀ u v t : ℝ, max (max u v) t ≤ T → u ≤ T ∧ v ≤ T ∧ t ≤ T := fun u v t h =>
    ⟨(le_max_left _ _).trans ((le_max_left _ _).trans h), (le_max_right _ _).trans ((le_max_left _ _).trans h), (le_max_right _ _).trans h⟩
  cases s with
  | quad => exact ⟨one _ _ s0 ((le_max_left _ _).trans h), one _ _ s1 ((le_max_right _ _).trans h), fun h => absurd rfl h⟩
  | hex =>
    have h' : max (max |f.x| |f.y|) |f.z| * sc.x ≤ (1 + w) * (T + 2 ^ (-1074 : ℤ)) := unround R (mul_nonneg (le_max_of_le_right (abs_nonneg _)) s0.le) h
    have h2 := (le_div_iff₀ s0).2 h'
    exact ⟨((le_max_left _ _).trans (le_max_left _ _)).trans h2, ((le_max_right _ _).trans (le_max_left _ _)).trans h2, fun _ => (le_max_right _ _).trans h2⟩
  | prism => obtain ⟨a, b, d⟩ := gen _ _ _ h; exact ⟨one _ _ s0 a, one _ _ s1 b, fun _ => one _ _ s2 d⟩
  | pyr => obtain ⟨a, b, d⟩ := gen _ _ _ h; exact ⟨one _ _ s0 a, one _ _ s1 b, fun _ => one _ _ s2 d⟩
  | tet => obtain ⟨a, b, d⟩ := gen _ _ _ h; exact ⟨one _ _ s0 a, one _ _ s1 b, fun _ => one _ _ s2 d⟩

/-! ### Stored reference positions -/

theorem col_bound {a b : ℝ} (ha : |a| ≤ 9 / 8) (hb : |b| ≤ 9 / 8) : |(1 + a) * (1 - b) * (1 / 2) - 1| ≤ 13 / 10 := by
  have h1 := abs_le.1 ha
  have h2 := abs_le.1 hb
  rw [abs_le]
  constructor <;> nlinarith [mul_nonneg (show 0 ≤ 9 / 8 + a by linarith) (show 0 ≤ 9 / 8 - b by linarith), mul_nonneg (show 0 ≤ 9 / 8 - a by linarith) (show 0 ≤ 9 / 8 - b by linarith)]

/-- The exact result `X` and the computed one `x`. -/
theorem near {x X D B : ℝ} (h : |x - X| ≤ D) (hX : |X| ≤ B) : |x| ≤ B + D := by
  have : |x| ≤ |x - X| + |X| := by simpa using abs_add_le (x - X) X
  linarith

theorem stored (R : Rounding 53 (-1074) rnd) {δ : ℝ} (h0 : 0 ≤ δ) (h1 : δ ≤ 1 / 8) (s : Shape) (e x : V3 ℝ) (fe : IsFloat 53 (-1074) e.z) (fx : IsFloat 53 (-1074) x.x) (fy : IsFloat 53 (-1074) x.y)
    (ex : -1 - δ ≤ e.x ∧ e.x ≤ 1 + δ) (ey : -1 - δ ≤ e.y ∧ e.y ≤ 1 + δ) (ez : s ≠ .quad → -1 - δ ≤ e.z ∧ e.z ≤ 1 + δ)
    (r0 : Res rnd (FloatNewton.fromCollapsed s e).x false x.x) (r1 : Res rnd (FloatNewton.fromCollapsed s e).y false x.y) (r2 : Res rnd (FloatNewton.fromCollapsed s e).z false x.z) :
    Good s x ∧ InRef (5 * δ + w * 512) s x := by
  have hw := w_pos
  have hw1 : w * 512 ≤ 1 / 1024 := by unfold w; norm_num
  have ax : |e.x| ≤ 9 / 8 := abs_le.2 ⟨by linarith [ex.1], by linarith [ex.2]⟩
  have ay : |e.y| ≤ 9 / 8 := abs_le.2 ⟨by linarith [ey.1], by linarith [ey.2]⟩
  have az' : s ≠ .quad → |e.z| ≤ 9 / 8 := fun h => abs_le.2 ⟨by linarith [(ez h).1], by linarith [(ez h).2]⟩
  have cerr : ∀ {a b v : ℝ}, |a| ≤ 9 / 8 → |b| ≤ 9 / 8 → Res rnd (colComp a b) false v → |v - ((1 + a) * (1 - b) * (1 / 2) - 1)| ≤ w * 64 := fun ha hb hv =>
    FloatLinear.Acc.err (col_acc R ha hb) (by norm_num) (by norm_num) hv
  cases s with
  | quad =>
    have := lit_inv r0
    have := lit_inv r1
    obtain ⟨x0, x1, x2⟩ := x
    dsimp only at *
    subst x0 x1
    exact ⟨⟨ax, ay⟩, ⟨by dsimp only; linarith [ex.1], by dsimp only; linarith [ex.2]⟩, ⟨by dsimp only; linarith [ey.1], by dsimp only; linarith [ey.2]⟩⟩
  | hex =>
    have := lit_inv r0
    have := lit_inv r1
    have := lit_inv r2
    have ez := ez (by simp)
    have az := az' (by simp)
    obtain ⟨x0, x1, x2⟩ := x
    dsimp only at *
    subst x0 x1 x2
    exact ⟨⟨ax, ay, az⟩, ⟨by linarith [ex.1], by linarith [ex.2]⟩, ⟨by linarith [ey.1], by linarith [ey.2]⟩, ⟨by linarith [ez.1], by linarith [ez.2]⟩⟩
  | prism =>
    have := lit_inv r1
    have := lit_inv r2
    have ez := ez (by simp)
    have az := az' (by simp)
    have c0 := cerr ax az r0
    have b0 := near c0 (col_bound ax az)
    have i := from_collapsed_in δ h0 (by linarith) .prism e.x e.y e.z ex ey ez
    simp only [Verif.Model.CoordMap.fromCollapsed3, Verif.Model.CoordMap.prismFromCollapsed, Verif.Spec.InRef3] at i
    obtain ⟨x0, x1, x2⟩ := x
    dsimp only at *
    subst x1 x2
    have c0' := abs_le.1 c0
    exact ⟨⟨by dsimp only; linarith, by dsimp only; linarith, by dsimp only; linarith⟩, by dsimp only; linarith [i.1], ⟨by dsimp only; linarith [i.2.1.1], by dsimp only; linarith [i.2.1.2]⟩, by dsimp only; linarith [i.2.2.1], by dsimp only; linarith [i.2.2.2]⟩
  | pyr =>
    have := lit_inv r2
    have ez := ez (by simp)
    have az := az' (by simp)
    have c0 := cerr ax az r0
    have b0 := near c0 (col_bound ax az)
    have c1 := cerr ay az r1
    have b1 := near c1 (col_bound ay az)
    have i := from_collapsed_in δ h0 (by linarith) .pyr e.x e.y e.z ex ey ez
    simp only [Verif.Model.CoordMap.fromCollapsed3, Verif.Model.CoordMap.pyrFromCollapsed, Verif.Spec.InRef3] at i
    obtain ⟨x0, x1, x2⟩ := x
    dsimp only at *
    subst x2
    have c0' := abs_le.1 c0
    have c1' := abs_le.1 c1
    exact ⟨⟨⟨by dsimp only; linarith, by dsimp only; linarith, by dsimp only; linarith⟩, fx, fy, fe, fun hn => ⟨col_ratio R ax az fe hn r0, col_ratio R ay az fe hn r1⟩⟩,
      by dsimp only; linarith [i.1], by dsimp only; linarith [i.2.1], by dsimp only; linarith [i.2.2.1], by dsimp only; linarith [i.2.2.2.1], by dsimp only; linarith [i.2.2.2.2]⟩
  | tet =>
    have := lit_inv r2
    have ez := ez (by simp)
    have az := az' (by simp)
    have c1 := cerr ay az r1
    have b1' := col_bound ay az
    have b1 := near c1 b1'
    have c0 : |x.x - ((1 + e.x) * (-((1 + e.y) * (1 - e.z) * (1 / 2) - 1) - e.z) * (1 / 2) - 1)| ≤ w * 128 :=
      FloatLinear.Acc.err (col2_acc R ax ay az) (by norm_num) (by norm_num) r0
    have b0' : |(1 + e.x) * (-((1 + e.y) * (1 - e.z) * (1 / 2) - 1) - e.z) * (1 / 2) - 1| ≤ 7 / 2 + 1 / 10 := by
      generalize (1 + e.y) * (1 - e.z) * (1 / 2) - 1 = v at b1'
      have p1 : |1 + e.x| ≤ 17 / 8 := (abs_add_le _ _).trans (by rw [abs_one]; linarith)
      have p2 : |-v - e.z| ≤ 97 / 40 := (abs_sub _ _).trans (by rw [abs_neg]; linarith)
      have p3 := mul_le_mul p1 p2 (abs_nonneg _) (by norm_num)
      rw [← abs_mul] at p3
      refine (abs_sub _ _).trans ?_
      rw [abs_mul, abs_one, abs_of_pos (show (0 : ℝ) < 1 / 2 by norm_num)]
      linarith
    have b0 := near c0 b0'
    have i := from_collapsed_in δ h0 (by linarith) .tet e.x e.y e.z ex ey ez
    simp only [Verif.Model.CoordMap.fromCollapsed3, Verif.Model.CoordMap.tetFromCollapsed, Verif.Spec.InRef3] at i
    obtain ⟨x0, x1, x2⟩ := x
    dsimp only at *
    subst x2
    have c0' := abs_le.1 c0
    have c1' := abs_le.1 c1
    exact ⟨⟨by dsimp only; linarith, by dsimp only; linarith, by dsimp only; linarith⟩,
      by dsimp only; linarith [i.1], by dsimp only; linarith [i.2.1], by dsimp only; linarith [i.2.2.1], by dsimp only; linarith [i.2.2.2]⟩

end Verif.Lemmas.FloatNewton
