import Verif.Model.FloatRegular
import Verif.Lemmas.RoundingModes
import Mathlib.Tactic.Linarith
import Mathlib.Tactic.Positivity

/-! The counterexample of C107: two triangles, and a point of one of them that neither of the computed tests accepts. -/

namespace Verif.Lemmas.FloatRegularLost
open Verif.Spec Verif.Spec.Rounding Verif.Model.FloatBoris Verif.Model.FloatRegular Verif.Model.RegularMap Verif.Lemmas.Rounding Verif.Lemmas.RoundingModes

variable {rnd : ℝ → ℝ}

theorem prod_eq (b : Bool) {x y w : ℝ} (h : x * y = w) (hw : rnd w = w) : prodF rnd b x y = w := by
  unfold prodF; split_ifs
  · exact h
  · rw [h, hw]

theorem lit (R : Rounding 53 (-1074) rnd) (z : ℤ) (hz : |z| ≤ 2 ^ 53) : rnd z = z := R.exact _ (float_int (by norm_num) (by norm_num) hz)

/-- The nearest number, if there is only one. -/
theorem near (N : Nearest 53 (-1074) rnd) {x f : ℝ} (m e : ℤ) (he : -1074 ≤ e) (hf : f = m * (2 : ℝ) ^ e) (h0 : 2 ^ 52 < |m|) (h1 : |m| ≤ 2 ^ 53) (hx : 2 * |f - x| < 2 ^ e) : rnd x = f := by
  have hF : IsFloat 53 (-1074) f := hf ▸ float_of_multiple (by norm_num) he h1
  have h2 := N.nearest x f hF
  have hp := two_pos e
  have h3 : |rnd x - f| < 2 ^ e := by
    have : rnd x - f = (rnd x - x) - (f - x) := by ring
    rw [this]
    have := abs_sub (rnd x - x) (f - x)
    linarith
  have hm : ((2 : ℝ) ^ 52 + 1) * 2 ^ e ≤ |f| := by
    rw [hf, abs_mul, abs_of_pos hp]
    refine mul_le_mul_of_nonneg_right ?_ hp.le
    have : (2 ^ 52 + 1 : ℤ) ≤ |m| := h0
    exact_mod_cast this
  have h4 : (2 : ℝ) ^ (52 + e) ≤ |rnd x| := by
    rw [zpow_add₀ (by norm_num)]
    have : |f| ≤ |rnd x| + |rnd x - f| := by
      have e1 : f = rnd x - (rnd x - f) := by ring
      calc |f| = |rnd x - (rnd x - f)| := by rw [← e1]
        _ ≤ _ := abs_sub _ _
    have e2 : (2 : ℝ) ^ (52 : ℤ) = 2 ^ 52 := by norm_cast
    rw [e2]; nlinarith
  obtain ⟨j, hj⟩ := float_grid (N.float x) (52 + e) h4
  have e3 : (52 + e + 1 - ((53 : ℕ) : ℤ)) = e := by norm_num; ring
  rw [e3] at hj
  rw [hj, hf, ← sub_mul, abs_mul, abs_of_pos hp] at h3
  have h5 : |((j - m : ℤ) : ℝ)| < 1 := by
    push_cast
    by_contra hc
    push Not at hc
    nlinarith
  have h6 : |j - m| < 1 := by exact_mod_cast h5
  have h7 : j = m := by
    have := Int.abs_lt_one_iff.1 h6
    omega
  rw [hj, hf, h7]

/-- The coordinates of the point. -/
noncomputable def px : ℝ := ((2 ^ 32 + 5 : ℤ) : ℝ) * (2 : ℝ) ^ (-56 : ℤ)
noncomputable def py : ℝ := ((2 ^ 32 + 3 : ℤ) : ℝ) * (2 : ℝ) ^ (-56 : ℤ)

theorem float_px : IsFloat 53 (-1074) px := ⟨_, _, by norm_num, by norm_num, rfl⟩
theorem float_py : IsFloat 53 (-1074) py := ⟨_, _, by norm_num, by norm_num, rfl⟩

theorem edge_lit (R : Rounding 53 (-1074) rnd) {x y : ℝ} {v : Verif.Model.NewtonKernel.V3 ℝ} (a b : ℤ) (ha : x - v.x = a) (hb : y - v.y = b) (ha' : |a| ≤ 2 ^ 53) (hb' : |b| ≤ 2 ^ 53) :
    edgeF rnd x y v = ⟨a, b, 0⟩ := by
  unfold edgeF; rw [ha, hb, lit R a ha', lit R b hb']

theorem prod_zero_right (R : Rounding 53 (-1074) rnd) (b : Bool) (x : ℝ) : prodF rnd b x 0 = 0 := prod_eq b (mul_zero x) (rnd_zero R)
theorem prod_zero_left (R : Rounding 53 (-1074) rnd) (b : Bool) (x : ℝ) : prodF rnd b 0 x = 0 := prod_eq b (zero_mul x) (rnd_zero R)

theorem prod_lit (R : Rounding 53 (-1074) rnd) (b : Bool) (x y : ℤ) (h : |x * y| ≤ 2 ^ 53) : prodF rnd b (x : ℝ) (y : ℝ) = ((x * y : ℤ) : ℝ) :=
  prod_eq b (by push_cast; rfl) (lit R _ h)

/-- The vector products of vectors of the plane with small integer components. -/
theorem cross_norm (R : Rounding 53 (-1074) rnd) (c : ℕ → Bool) (i : ℕ) (a0 a1 b0 b1 : ℤ) (h1 : |a0 * b1| ≤ 2 ^ 53) (h2 : |a1 * b0| ≤ 2 ^ 53) (h3 : |a0 * b1 - a1 * b0| ≤ 2 ^ 53) :
    crossF rnd c i ⟨a0, a1, 0⟩ ⟨b0, b1, 0⟩ = ⟨0, 0, ((a0 * b1 - a1 * b0 : ℤ) : ℝ)⟩ := by
  unfold crossF
  simp only [prod_zero_left R, prod_zero_right R, sub_self, rnd_zero R, prod_lit R _ _ _ h1, prod_lit R _ _ _ h2]
  rw [← Int.cast_sub, lit R _ h3]

theorem cross_orth (R : Rounding 53 (-1074) rnd) (c : ℕ → Bool) (i : ℕ) (n b0 b1 : ℤ) (h1 : |n * b1| ≤ 2 ^ 53) (h2 : |n * b0| ≤ 2 ^ 53) :
    crossF rnd c i ⟨0, 0, n⟩ ⟨b0, b1, 0⟩ = ⟨((-(n * b1) : ℤ) : ℝ), ((n * b0 : ℤ) : ℝ), 0⟩ := by
  unfold crossF
  simp only [prod_zero_left R, prod_zero_right R, sub_self, rnd_zero R, prod_lit R _ _ _ h1, prod_lit R _ _ _ h2, sub_zero, zero_sub]
  rw [← Int.cast_neg, lit R _ (by rwa [abs_neg]), lit R _ h2]

theorem dot_lit (R : Rounding 53 (-1074) rnd) (c : ℕ → Bool) (i : ℕ) (a0 a1 b0 b1 : ℤ) (h1 : |a0 * b0| ≤ 2 ^ 53) (h2 : |a1 * b1| ≤ 2 ^ 53) (h3 : |a0 * b0 + a1 * b1| ≤ 2 ^ 53) :
    dotF rnd c i ⟨a0, a1, 0⟩ ⟨b0, b1, 0⟩ = ((a0 * b0 + a1 * b1 : ℤ) : ℝ) := by
  unfold dotF
  simp only [prod_zero_right R, prod_lit R _ _ _ h1, prod_lit R _ _ _ h2]
  rw [← Int.cast_add, lit R _ h3, add_zero, lit R _ h3]

theorem ex (R : Rounding 53 (-1074) rnd) {z : ℝ} (m e : ℤ) (he : -1074 ≤ e) (hm : |m| ≤ 2 ^ 53) (h : z = m * (2 : ℝ) ^ e) : rnd z = z :=
  R.exact _ (h ▸ float_of_multiple (by norm_num) he hm)

theorem prod_ex (R : Rounding 53 (-1074) rnd) (b : Bool) {x y : ℝ} (m e : ℤ) (he : -1074 ≤ e) (hm : |m| ≤ 2 ^ 53) (h : x * y = m * (2 : ℝ) ^ e) : prodF rnd b x y = x * y :=
  prod_eq b rfl (ex R m e he hm h)

/-- The tolerances of the test are near one. -/
theorem upper_le (R : Rounding 53 (-1074) rnd) {t : ℝ} (ht : t ≤ 1 / 2 ^ 30) : rnd (1 + t) ≤ 1 + 1 / 2 ^ 30 := by
  have : rnd (1 + 1 / 2 ^ 30) = 1 + 1 / 2 ^ 30 := ex R (2 ^ 30 + 1) (-30) (by norm_num) (by norm_num) (by norm_num)
  rw [← this]; exact R.mono (by linarith)

theorem lower_ge (R : Rounding 53 (-1074) rnd) {t : ℝ} (ht : t ≤ 1 / 2 ^ 30) : -1 - 1 / 2 ^ 30 ≤ rnd (-1 - t) := by
  have : rnd (-1 - 1 / 2 ^ 30) = -1 - 1 / 2 ^ 30 := ex R (-(2 ^ 30 + 1)) (-30) (by norm_num) (by norm_num) (by norm_num)
  rw [← this]; exact R.mono (by linarith)

theorem px_eq : px = 1 / 2 ^ 24 + 5 / 2 ^ 56 := by unfold px; norm_num
theorem py_eq : py = 1 / 2 ^ 24 + 3 / 2 ^ 56 := by unfold py; norm_num

/-- The first triangle. -/
theorem lost_first (N : Nearest 53 (-1074) rnd) (c : ℕ → Bool) {tol0 ktol : ℝ} (h0 : tol0 ≤ 1 / 2 ^ 23) (ht : ktol ≤ 1 / 2 ^ 30) :
    accept2F rnd c tol0 ktol .tri ⟨2, 0, 0⟩ ⟨1, 1, 0⟩ ⟨0, 0, 0⟩ px py = none := by
  have R := nearest_rounding N
  have he10 : edgeF rnd 1 1 ⟨2, 0, 0⟩ = ⟨((-1 : ℤ) : ℝ), ((1 : ℤ) : ℝ), 0⟩ := edge_lit R _ _ (by norm_num) (by norm_num) (by norm_num) (by norm_num)
  have he20 : edgeF rnd 0 0 ⟨2, 0, 0⟩ = ⟨((-2 : ℤ) : ℝ), ((0 : ℤ) : ℝ), 0⟩ := edge_lit R _ _ (by norm_num) (by norm_num) (by norm_num) (by norm_num)
  have her : edgeF rnd px py ⟨2, 0, 0⟩ = ⟨-2 + 1 / 2 ^ 24, py, 0⟩ := by
    unfold edgeF
    have e1 : rnd (px - 2) = -2 + 1 / 2 ^ 24 := near N (-(2 ^ 53 - 2 ^ 28)) (-52) (by norm_num) (by norm_num) (by norm_num) (by norm_num) (by rw [px_eq]; norm_num [abs_lt])
    have e2 : rnd (py - 0) = py := by rw [sub_zero]; exact R.exact _ float_py
    dsimp only; rw [e1, e2]
  have hd00 : dotF rnd c 18 ⟨-2 + 1 / 2 ^ 24, py, 0⟩ ⟨((-(2 * 0) : ℤ) : ℝ), ((2 * (-2) : ℤ) : ℝ), 0⟩ = -4 * py := by
    unfold dotF
    have a : prodF rnd (c (18 + 1)) py ((2 * (-2) : ℤ) : ℝ) = -4 * py := by
      rw [prod_ex R _ (-4 * (2 ^ 32 + 3)) (-56) (by norm_num) (by norm_num) (by rw [py_eq]; norm_num)]; push_cast; ring
    have b : rnd (-4 * py) = -4 * py := ex R (-4 * (2 ^ 32 + 3)) (-56) (by norm_num) (by norm_num) (by rw [py_eq]; norm_num)
    have z : ((-(2 * 0) : ℤ) : ℝ) = 0 := by norm_num
    dsimp only
    rw [a, z, prod_zero_right R, prod_zero_right R, zero_add, b, add_zero, b]
  have hd01 : dotF rnd c 21 ⟨((-1 : ℤ) : ℝ), ((1 : ℤ) : ℝ), 0⟩ ⟨((-(2 * 0) : ℤ) : ℝ), ((2 * (-2) : ℤ) : ℝ), 0⟩ = -4 := by
    rw [dot_lit R c 21 _ _ _ _ (by norm_num) (by norm_num) (by norm_num)]; norm_num
  have hd10 : dotF rnd c 24 ⟨-2 + 1 / 2 ^ 24, py, 0⟩ ⟨((-(2 * 1) : ℤ) : ℝ), ((2 * (-1) : ℤ) : ℝ), 0⟩ = 4 - 1 / 2 ^ 22 := by
    unfold dotF
    have a : prodF rnd (c 24) (-2 + 1 / 2 ^ 24) ((-(2 * 1) : ℤ) : ℝ) = 4 - 1 / 2 ^ 23 := by
      rw [prod_ex R _ (2 ^ 53 - 2 ^ 28) (-51) (by norm_num) (by norm_num) (by norm_num)]; norm_num
    have b : prodF rnd (c (24 + 1)) py ((2 * (-1) : ℤ) : ℝ) = -2 * py := by
      rw [prod_ex R _ (-2 * (2 ^ 32 + 3)) (-56) (by norm_num) (by norm_num) (by rw [py_eq]; norm_num)]; push_cast; ring
    have f : rnd (4 - 1 / 2 ^ 23 + -2 * py) = 4 - 1 / 2 ^ 22 := near N (2 ^ 53 - 2 ^ 29) (-51) (by norm_num) (by norm_num) (by norm_num) (by norm_num) (by rw [py_eq]; norm_num [abs_lt])
    have g : rnd (4 - 1 / 2 ^ 22) = 4 - 1 / 2 ^ 22 := ex R (2 ^ 24 - 1) (-22) (by norm_num) (by norm_num) (by norm_num)
    dsimp only
    rw [a, b, f, prod_zero_right R, add_zero, g]
  have hd11 : dotF rnd c 27 ⟨((-2 : ℤ) : ℝ), ((0 : ℤ) : ℝ), 0⟩ ⟨((-(2 * 1) : ℤ) : ℝ), ((2 * (-1) : ℤ) : ℝ), 0⟩ = 4 := by
    rw [dot_lit R c 27 _ _ _ _ (by norm_num) (by norm_num) (by norm_num)]; norm_num
  have hdots : dotsF rnd c ⟨2, 0, 0⟩ ⟨1, 1, 0⟩ ⟨0, 0, 0⟩ px py = ((-4 * py, -4), 4 - 1 / 2 ^ 22, 4) := by
    unfold dotsF
    have hn : crossF rnd c 0 ⟨((-1 : ℤ) : ℝ), ((1 : ℤ) : ℝ), 0⟩ ⟨((-2 : ℤ) : ℝ), ((0 : ℤ) : ℝ), 0⟩ = ⟨0, 0, ((2 : ℤ) : ℝ)⟩ := by
      rw [cross_norm R c 0 _ _ _ _ (by norm_num) (by norm_num) (by norm_num)]; norm_num
    dsimp only
    rw [he10, he20, her, hn, cross_orth R c 6 2 _ _ (by norm_num) (by norm_num), cross_orth R c 12 2 _ _ (by norm_num) (by norm_num), hd00, hd01, hd10, hd11]
  have hx0 : localF rnd (c 30) (-4 * py) (-4) = -1 + (2 ^ 30 + 1) / 2 ^ 53 := by
    unfold localF
    have a : -4 * py / -4 = py := by ring
    have b : prodF rnd (c 30) 2 py = 2 * py := prod_ex R _ (2 * (2 ^ 32 + 3)) (-56) (by norm_num) (by norm_num) (by rw [py_eq]; norm_num)
    rw [a, R.exact _ float_py, b]
    exact near N (-(2 ^ 53 - 2 ^ 30 - 1)) (-53) (by norm_num) (by norm_num) (by norm_num) (by norm_num) (by rw [py_eq]; norm_num [abs_lt])
  have hx1 : localF rnd (c 31) (4 - 1 / 2 ^ 22) 4 = 1 - 1 / 2 ^ 23 := by
    unfold localF
    have a : (4 - 1 / 2 ^ 22) / 4 = (1 - 1 / 2 ^ 24 : ℝ) := by norm_num
    have a' : rnd (1 - 1 / 2 ^ 24) = 1 - 1 / 2 ^ 24 := ex R (2 ^ 24 - 1) (-24) (by norm_num) (by norm_num) (by norm_num)
    have b : prodF rnd (c 31) 2 (1 - 1 / 2 ^ 24) = 2 * (1 - 1 / 2 ^ 24) := prod_ex R _ (2 ^ 24 - 1) (-23) (by norm_num) (by norm_num) (by norm_num)
    rw [a, a', b]
    have e : (2 * (1 - 1 / 2 ^ 24) - 1 : ℝ) = 1 - 1 / 2 ^ 23 := by norm_num
    rw [e]
    exact ex R (2 ^ 23 - 1) (-23) (by norm_num) (by norm_num) (by norm_num)
  have heta : eta0F rnd tol0 .tri (-1 + (2 ^ 30 + 1) / 2 ^ 53) (1 - 1 / 2 ^ 23) = 1 + 1 / 2 ^ 29 := by
    unfold eta0F
    have a : rnd (1 - (1 - 1 / 2 ^ 23)) = 1 / 2 ^ 23 := by
      have e : (1 - (1 - 1 / 2 ^ 23) : ℝ) = 1 / 2 ^ 23 := by norm_num
      rw [e]; exact ex R 1 (-23) (by norm_num) (by norm_num) (by norm_num)
    have b : rnd (1 + (-1 + (2 ^ 30 + 1) / 2 ^ 53)) = (2 ^ 30 + 1) / 2 ^ 53 := by
      have e : (1 + (-1 + (2 ^ 30 + 1) / 2 ^ 53) : ℝ) = (2 ^ 30 + 1) / 2 ^ 53 := by norm_num
      rw [e]; exact ex R (2 ^ 30 + 1) (-53) (by norm_num) (by norm_num) (by norm_num)
    have d : rnd (2 * ((2 ^ 30 + 1) / 2 ^ 53)) = (2 ^ 30 + 1) / 2 ^ 52 := by
      have e : (2 * ((2 ^ 30 + 1) / 2 ^ 53) : ℝ) = (2 ^ 30 + 1) / 2 ^ 52 := by norm_num
      rw [e]; exact ex R (2 ^ 30 + 1) (-52) (by norm_num) (by norm_num) (by norm_num)
    have f : rnd ((2 ^ 30 + 1) / 2 ^ 52 / (1 / 2 ^ 23)) = (2 ^ 30 + 1) / 2 ^ 29 := by
      have e : ((2 ^ 30 + 1) / 2 ^ 52 / (1 / 2 ^ 23) : ℝ) = (2 ^ 30 + 1) / 2 ^ 29 := by norm_num
      rw [e]; exact ex R (2 ^ 30 + 1) (-29) (by norm_num) (by norm_num) (by norm_num)
    dsimp only
    rw [a, if_neg (by rw [abs_of_pos (by norm_num)]; exact not_lt.2 h0), b, d, f]
    have e : ((2 ^ 30 + 1) / 2 ^ 29 - 1 : ℝ) = 1 + 1 / 2 ^ 29 := by norm_num
    rw [e]; exact ex R (2 ^ 29 + 1) (-29) (by norm_num) (by norm_num) (by norm_num)
  unfold accept2F
  dsimp only
  rw [hdots]
  dsimp only
  rw [if_neg (by norm_num), hx0, hx1, heta, if_neg]
  rintro ⟨_, h, _⟩
  have := h.trans (upper_le R ht)
  norm_num at this

/-- The second triangle. -/
theorem lost_second (N : Nearest 53 (-1074) rnd) (c : ℕ → Bool) {tol0 ktol : ℝ} (h0 : tol0 ≤ 1 / 2 ^ 23) (ht : ktol ≤ 1 / 2 ^ 30) :
    accept2F rnd c tol0 ktol .tri ⟨1, 1, 0⟩ ⟨0, 1, 0⟩ ⟨0, 0, 0⟩ px py = none := by
  have R := nearest_rounding N
  have he10 : edgeF rnd 0 1 ⟨1, 1, 0⟩ = ⟨((-1 : ℤ) : ℝ), ((0 : ℤ) : ℝ), 0⟩ := edge_lit R _ _ (by norm_num) (by norm_num) (by norm_num) (by norm_num)
  have he20 : edgeF rnd 0 0 ⟨1, 1, 0⟩ = ⟨((-1 : ℤ) : ℝ), ((-1 : ℤ) : ℝ), 0⟩ := edge_lit R _ _ (by norm_num) (by norm_num) (by norm_num) (by norm_num)
  have her : edgeF rnd px py ⟨1, 1, 0⟩ = ⟨-1 + (2 ^ 29 + 1) / 2 ^ 53, -1 + 1 / 2 ^ 24, 0⟩ := by
    unfold edgeF
    have e1 : rnd (px - 1) = -1 + (2 ^ 29 + 1) / 2 ^ 53 := near N (-(2 ^ 53 - 2 ^ 29 - 1)) (-53) (by norm_num) (by norm_num) (by norm_num) (by norm_num) (by rw [px_eq]; norm_num [abs_lt])
    have e2 : rnd (py - 1) = -1 + 1 / 2 ^ 24 := near N (-(2 ^ 53 - 2 ^ 29)) (-53) (by norm_num) (by norm_num) (by norm_num) (by norm_num) (by rw [py_eq]; norm_num [abs_lt])
    dsimp only; rw [e1, e2]
  have hd00 : dotF rnd c 18 ⟨-1 + (2 ^ 29 + 1) / 2 ^ 53, -1 + 1 / 2 ^ 24, 0⟩ ⟨((-(1 * (-1)) : ℤ) : ℝ), ((1 * (-1) : ℤ) : ℝ), 0⟩ = 1 / 2 ^ 53 := by
    unfold dotF
    have a : prodF rnd (c 18) (-1 + (2 ^ 29 + 1) / 2 ^ 53) ((-(1 * (-1)) : ℤ) : ℝ) = -1 + (2 ^ 29 + 1) / 2 ^ 53 := by
      rw [prod_ex R _ (-(2 ^ 53 - 2 ^ 29 - 1)) (-53) (by norm_num) (by norm_num) (by norm_num)]; norm_num
    have b : prodF rnd (c (18 + 1)) (-1 + 1 / 2 ^ 24) ((1 * (-1) : ℤ) : ℝ) = 1 - 1 / 2 ^ 24 := by
      rw [prod_ex R _ (2 ^ 53 - 2 ^ 29) (-53) (by norm_num) (by norm_num) (by norm_num)]; norm_num
    have e : (-1 + (2 ^ 29 + 1) / 2 ^ 53 + (1 - 1 / 2 ^ 24) : ℝ) = 1 / 2 ^ 53 := by norm_num
    have f : rnd (1 / 2 ^ 53) = 1 / 2 ^ 53 := ex R 1 (-53) (by norm_num) (by norm_num) (by norm_num)
    dsimp only
    rw [a, b, e, prod_zero_right R, f, add_zero, f]
  have hd01 : dotF rnd c 21 ⟨((-1 : ℤ) : ℝ), ((0 : ℤ) : ℝ), 0⟩ ⟨((-(1 * (-1)) : ℤ) : ℝ), ((1 * (-1) : ℤ) : ℝ), 0⟩ = -1 := by
    rw [dot_lit R c 21 _ _ _ _ (by norm_num) (by norm_num) (by norm_num)]; norm_num
  have hd10 : dotF rnd c 24 ⟨-1 + (2 ^ 29 + 1) / 2 ^ 53, -1 + 1 / 2 ^ 24, 0⟩ ⟨((-(1 * 0) : ℤ) : ℝ), ((1 * (-1) : ℤ) : ℝ), 0⟩ = 1 - 1 / 2 ^ 24 := by
    unfold dotF
    have z : ((-(1 * 0) : ℤ) : ℝ) = 0 := by norm_num
    have b : prodF rnd (c (24 + 1)) (-1 + 1 / 2 ^ 24) ((1 * (-1) : ℤ) : ℝ) = 1 - 1 / 2 ^ 24 := by
      rw [prod_ex R _ (2 ^ 53 - 2 ^ 29) (-53) (by norm_num) (by norm_num) (by norm_num)]; norm_num
    have f : rnd (1 - 1 / 2 ^ 24) = 1 - 1 / 2 ^ 24 := ex R (2 ^ 24 - 1) (-24) (by norm_num) (by norm_num) (by norm_num)
    dsimp only
    rw [b, z, prod_zero_right R, prod_zero_right R, zero_add, f, add_zero, f]
  have hd11 : dotF rnd c 27 ⟨((-1 : ℤ) : ℝ), ((-1 : ℤ) : ℝ), 0⟩ ⟨((-(1 * 0) : ℤ) : ℝ), ((1 * (-1) : ℤ) : ℝ), 0⟩ = 1 := by
    rw [dot_lit R c 27 _ _ _ _ (by norm_num) (by norm_num) (by norm_num)]; norm_num
  have hdots : dotsF rnd c ⟨1, 1, 0⟩ ⟨0, 1, 0⟩ ⟨0, 0, 0⟩ px py = ((1 / 2 ^ 53, -1), 1 - 1 / 2 ^ 24, 1) := by
    unfold dotsF
    have hn : crossF rnd c 0 ⟨((-1 : ℤ) : ℝ), ((0 : ℤ) : ℝ), 0⟩ ⟨((-1 : ℤ) : ℝ), ((-1 : ℤ) : ℝ), 0⟩ = ⟨0, 0, ((1 : ℤ) : ℝ)⟩ := by
      rw [cross_norm R c 0 _ _ _ _ (by norm_num) (by norm_num) (by norm_num)]; norm_num
    dsimp only
    rw [he10, he20, her, hn, cross_orth R c 6 1 _ _ (by norm_num) (by norm_num), cross_orth R c 12 1 _ _ (by norm_num) (by norm_num), hd00, hd01, hd10, hd11]
  have hx0 : localF rnd (c 30) (1 / 2 ^ 53) (-1) = -1 - 1 / 2 ^ 52 := by
    unfold localF
    have a : (1 / 2 ^ 53 / -1 : ℝ) = -(1 / 2 ^ 53) := by norm_num
    have a' : rnd (-(1 / 2 ^ 53)) = -(1 / 2 ^ 53) := ex R (-1) (-53) (by norm_num) (by norm_num) (by norm_num)
    have b : prodF rnd (c 30) 2 (-(1 / 2 ^ 53)) = 2 * (-(1 / 2 ^ 53)) := prod_ex R _ (-1) (-52) (by norm_num) (by norm_num) (by norm_num)
    rw [a, a', b]
    have e : (2 * -(1 / 2 ^ 53) - 1 : ℝ) = -1 - 1 / 2 ^ 52 := by norm_num
    rw [e]
    exact ex R (-(2 ^ 52 + 1)) (-52) (by norm_num) (by norm_num) (by norm_num)
  have hx1 : localF rnd (c 31) (1 - 1 / 2 ^ 24) 1 = 1 - 1 / 2 ^ 23 := by
    unfold localF
    have a' : rnd (1 - 1 / 2 ^ 24) = 1 - 1 / 2 ^ 24 := ex R (2 ^ 24 - 1) (-24) (by norm_num) (by norm_num) (by norm_num)
    have b : prodF rnd (c 31) 2 (1 - 1 / 2 ^ 24) = 2 * (1 - 1 / 2 ^ 24) := prod_ex R _ (2 ^ 24 - 1) (-23) (by norm_num) (by norm_num) (by norm_num)
    rw [div_one, a', b]
    have e : (2 * (1 - 1 / 2 ^ 24) - 1 : ℝ) = 1 - 1 / 2 ^ 23 := by norm_num
    rw [e]
    exact ex R (2 ^ 23 - 1) (-23) (by norm_num) (by norm_num) (by norm_num)
  have heta : eta0F rnd tol0 .tri (-1 - 1 / 2 ^ 52) (1 - 1 / 2 ^ 23) = -1 - 1 / 2 ^ 28 := by
    unfold eta0F
    have a : rnd (1 - (1 - 1 / 2 ^ 23)) = 1 / 2 ^ 23 := by
      have e : (1 - (1 - 1 / 2 ^ 23) : ℝ) = 1 / 2 ^ 23 := by norm_num
      rw [e]; exact ex R 1 (-23) (by norm_num) (by norm_num) (by norm_num)
    have b : rnd (1 + (-1 - 1 / 2 ^ 52)) = -(1 / 2 ^ 52) := by
      have e : (1 + (-1 - 1 / 2 ^ 52) : ℝ) = -(1 / 2 ^ 52) := by norm_num
      rw [e]; exact ex R (-1) (-52) (by norm_num) (by norm_num) (by norm_num)
    have d : rnd (2 * (-(1 / 2 ^ 52))) = -(1 / 2 ^ 51) := by
      have e : (2 * (-(1 / 2 ^ 52)) : ℝ) = -(1 / 2 ^ 51) := by norm_num
      rw [e]; exact ex R (-1) (-51) (by norm_num) (by norm_num) (by norm_num)
    have f : rnd (-(1 / 2 ^ 51) / (1 / 2 ^ 23)) = -(1 / 2 ^ 28) := by
      have e : (-(1 / 2 ^ 51) / (1 / 2 ^ 23) : ℝ) = -(1 / 2 ^ 28) := by norm_num
      rw [e]; exact ex R (-1) (-28) (by norm_num) (by norm_num) (by norm_num)
    dsimp only
    rw [a, if_neg (by rw [abs_of_pos (by norm_num)]; exact not_lt.2 h0), b, d, f]
    have e : (-(1 / 2 ^ 28) - 1 : ℝ) = -1 - 1 / 2 ^ 28 := by norm_num
    rw [e]; exact ex R (-(2 ^ 28 + 1)) (-28) (by norm_num) (by norm_num) (by norm_num)
  unfold accept2F
  dsimp only
  rw [hdots]
  dsimp only
  rw [if_neg (by norm_num), hx0, hx1, heta, if_neg]
  rintro ⟨h, _⟩
  have := (lower_ge R ht).trans h
  norm_num at this

end Verif.Lemmas.FloatRegularLost
