import Verif.Lemmas.FloatRegular3

/-! The collapsed coordinates of the test of regular elements in three dimensions. -/

namespace Verif.Lemmas.FloatRegular3
open Verif.Model.FloatExpr Verif.Spec.Rounding Verif.Lemmas.Rounding Verif.Lemmas.FloatExpr Verif.Model.FloatRegular3 Verif.Model Verif.Model.NewtonKernel

variable {rnd : ℝ → ℝ}

theorem res_lit {x z : ℝ} {r : Bool} (h : Res rnd (lit x) r z) : z = x := by
  cases h with
  | lit => rfl
  | round h => cases h

theorem res_add_lit {x y z : ℝ} {r : Bool} (h : Res rnd (lit x + lit y) r z) : z = rnd (x + y) := by
  cases h with
  | add ha hb => rw [res_lit ha, res_lit hb]
  | round h => cases h

/-- The value before the last subtraction. -/
theorem collapse_mid (R : Rounding 53 (-1074) rnd) {x g m : ℝ} {r : Bool} (h1 : tiny ≤ |g|) (h2 : |g| ≤ 7) (h : Res rnd ((lit 1 + lit x) * (lit 2 / lit g)) r m) :
    |m - 2 * rnd (1 + x) / g| ≤ 4 * w * (|2 * rnd (1 + x) / g| + 1) := by
  have hw0 := w_pos
  have hw1 := w_le
  have hg : g ≠ 0 := by rintro rfl; rw [abs_zero] at h1; linarith [tiny_pos]
  have hp : 0 < |g| := abs_pos.2 hg
  have inner : ∀ v, Res rnd ((lit 1 + lit x) * (lit 2 / lit g)) true v → |v - 2 * rnd (1 + x) / g| ≤ w * |2 * rnd (1 + x) / g| := by
    intro v hv
    cases hv with
    | mul ha hb =>
      rw [res_add_lit ha]
      cases hb with
      | div hc hd _ =>
        rw [res_lit hc, res_lit hd]
        have ht : tiny ≤ |2 / g| := by
          rw [abs_div, abs_two, le_div_iff₀ hp]
          have := tiny_le
          nlinarith [tiny_pos]
        have := round_err R (le_refl |2 / g|) ht
        rw [show rnd (1 + x) * rnd (2 / g) - 2 * rnd (1 + x) / g = rnd (1 + x) * (rnd (2 / g) - 2 / g) by ring, abs_mul,
          show 2 * rnd (1 + x) / g = rnd (1 + x) * (2 / g) by ring, abs_mul]
        have := mul_le_mul_of_nonneg_left this (abs_nonneg (rnd (1 + x)))
        linarith
      | round h => cases h
  set M := 2 * rnd (1 + x) / g with hM
  have hM0 := abs_nonneg M
  cases r with
  | true => exact (inner m h).trans (by nlinarith)
  | false =>
    cases h with
    | round h =>
      rename_i y
      have h3 := inner y h
      have h4 := round_one R y
      have h5 : |y| ≤ |M| + w * |M| := by
        have := abs_add_le (y - M) M
        rw [sub_add_cancel] at this
        linarith
      have h6 := abs_sub_le (rnd y) y M
      have h7 : w * (|y| + 1) ≤ w * (2 * (|M| + 1)) := mul_le_mul_of_nonneg_left (by nlinarith) hw0.le
      nlinarith

theorem collapse2_mid (R : Rounding 53 (-1074) rnd) {x g m : ℝ} {r : Bool} (h1 : tiny ≤ |g|) (h : Res rnd (lit 2 * (lit 1 + lit x) / lit g) r m) :
    |m - 2 * rnd (1 + x) / g| ≤ 4 * w * (|2 * rnd (1 + x) / g| + 1) := by
  have hw0 := w_pos
  have hw1 := w_le
  have hg : g ≠ 0 := by rintro rfl; rw [abs_zero] at h1; linarith [tiny_pos]
  have hp : 0 < |g| := abs_pos.2 hg
  have inner : ∀ v, Res rnd (lit 2 * (lit 1 + lit x)) false v → v = rnd (2 * rnd (1 + x)) := by
    intro v hv
    cases hv with
    | round hv =>
      cases hv with
      | mul ha hb => rw [res_lit ha, res_add_lit hb]
  cases h with
  | div ha hb _ =>
    rw [inner _ ha, res_lit hb]
    set y := 2 * rnd (1 + x) with hy
    have h3 := round_abs R y
    have h4 : |rnd y / g - y / g| ≤ w * (|y / g| + 1) := by
      rw [← sub_div, abs_div, abs_div, div_le_iff₀ hp]
      refine h3.trans ?_
      have : w * (|y| / |g| + 1) * |g| = w * (|y| + |g|) := by field_simp
      rw [this]
      exact mul_le_mul_of_nonneg_left (by linarith) hw0.le
    have h5 := round_one R (rnd y / g)
    set M := y / g with hM
    have hM0 := abs_nonneg M
    have h6 : |rnd y / g| ≤ |M| + w * (|M| + 1) := by
      have := abs_add_le (rnd y / g - M) M
      rw [sub_add_cancel] at this
      linarith
    have h7 := abs_sub_le (rnd (rnd y / g)) (rnd y / g) M
    have h8 : w * (|rnd y / g| + 1) ≤ w * (2 * (|M| + 1)) := mul_le_mul_of_nonneg_left (by nlinarith) hw0.le
    nlinarith
  | round h => cases h

/-- From the value before the last subtraction to the result, both ways. -/
theorem collapse_last (R : Rounding 53 (-1074) rnd) {M m : ℝ} (h : |m - M| ≤ 4 * w * (|M| + 1)) :
    (|rnd (m - 1)| ≤ 3 / 2 → |rnd (m - 1) - (M - 1)| ≤ 20 * w) ∧ (|M| ≤ 3 → |rnd (m - 1) - (M - 1)| ≤ 25 * w) := by
  have hw0 := w_pos
  have hw1 := w_le
  have h1 := round_one R (m - 1)
  have tri := abs_sub_le (rnd (m - 1)) (m - 1) (M - 1)
  rw [show m - 1 - (M - 1) = m - M by ring] at tri
  constructor
  · intro hc
    have h2 : |m - 1| ≤ 8 / 5 := by
      have := abs_sub_le (m - 1) (rnd (m - 1)) 0
      rw [sub_zero, sub_zero, abs_sub_comm (m - 1) (rnd (m - 1))] at this
      nlinarith [abs_nonneg (m - 1)]
    have h3 : |M| ≤ 27 / 10 := by
      have a1 := abs_add_le (m - 1) 1
      rw [sub_add_cancel, abs_one] at a1
      have a2 := abs_sub_le M m 0
      rw [sub_zero, sub_zero, abs_sub_comm] at a2
      nlinarith [abs_nonneg M]
    nlinarith
  · intro hM
    have h2 : |m - 1| ≤ 41 / 10 := by
      have a1 := abs_sub_le (m - 1) (M - 1) 0
      rw [sub_zero, sub_zero, show m - 1 - (M - 1) = m - M by ring] at a1
      have a2 := abs_sub M 1
      rw [abs_one] at a2
      nlinarith
    nlinarith

theorem collapse_err (R : Rounding 53 (-1074) rnd) {x g c : ℝ} (h1 : tiny ≤ |g|) (h2 : |g| ≤ 7) (h : Res rnd (collapse x g) false c) :
    (|c| ≤ 3 / 2 → |c - (2 * rnd (1 + x) / g - 1)| ≤ 20 * w) ∧ (|2 * rnd (1 + x) / g| ≤ 3 → |c - (2 * rnd (1 + x) / g - 1)| ≤ 25 * w) := by
  cases h with
  | sub hm ho =>
    rw [res_lit ho]
    exact collapse_last R (collapse_mid R h1 h2 hm)
  | round h => cases h

theorem collapse2_err (R : Rounding 53 (-1074) rnd) {x g c : ℝ} (h1 : tiny ≤ |g|) (h : Res rnd (collapse2 x g) false c) :
    (|c| ≤ 3 / 2 → |c - (2 * rnd (1 + x) / g - 1)| ≤ 20 * w) ∧ (|2 * rnd (1 + x) / g| ≤ 3 → |c - (2 * rnd (1 + x) / g - 1)| ≤ 25 * w) := by
  cases h with
  | sub hm ho =>
    rw [res_lit ho]
    exact collapse_last R (collapse2_mid R h1 hm)
  | round h => cases h

/-! ### The distance -/

theorem excess_le (l : List ℝ) (t : ℝ) (ht : 0 ≤ t) : excess rnd l ≤ t ↔ ∀ e ∈ l, (e < -1 → rnd (-1 - e) ≤ t) ∧ (e > 1 → rnd (e - 1) ≤ t) := by
  have key : ∀ (l : List ℝ) (d : ℝ), l.foldl (fun d e => max (max d (if e < -1 then rnd (-1 - e) else 0)) (if e > 1 then rnd (e - 1) else 0)) d ≤ t ↔
      d ≤ t ∧ ∀ e ∈ l, (e < -1 → rnd (-1 - e) ≤ t) ∧ (e > 1 → rnd (e - 1) ≤ t) := by
    intro l
    induction l with
    | nil => simp
    | cons x l ih =>
      intro d
      rw [List.foldl_cons, ih, max_le_iff, max_le_iff, List.forall_mem_cons]
      have a1 : (if x < -1 then rnd (-1 - x) else 0) ≤ t ↔ (x < -1 → rnd (-1 - x) ≤ t) := by
        split_ifs with h <;> simp [h, ht]
      have a2 : (if x > 1 then rnd (x - 1) else 0) ≤ t ↔ (x > 1 → rnd (x - 1) ≤ t) := by
        split_ifs with h <;> simp [h, ht]
      rw [a1, a2]
      tauto
  unfold excess
  split_ifs with hc
  · refine iff_of_true ht fun e he => ⟨fun h => ?_, fun h => ?_⟩
    · linarith [(hc e he).2]
    · linarith [(hc e he).1]
  · rw [key]
    simp [ht]

/-- What an accepted coordinate satisfies. -/
theorem bound_of (R : Rounding 53 (-1074) rnd) {e k : ℝ} (h0 : 0 ≤ k) (h1 : k ≤ 1 / 1000) (h : (e < -1 → rnd (-1 - e) ≤ k) ∧ (e > 1 → rnd (e - 1) ≤ k)) :
    -1 - (k + 2 * w) ≤ e ∧ e ≤ 1 + (k + 2 * w) := by
  have hw0 := w_pos
  have hw1 := w_le
  have key : ∀ y : ℝ, 0 < y → rnd y ≤ k → y ≤ k + 2 * w := by
    intro y hy hk
    have := round_one R y
    rw [abs_of_pos hy] at this
    have h2 := (abs_le.1 this).1
    by_contra hc
    push Not at hc
    have h3 : y ≤ k + w * (y + 1) := by linarith
    nlinarith
  constructor
  · by_contra hc
    push Not at hc
    have := key (-1 - e) (by linarith) (h.1 (by linarith))
    linarith
  · by_contra hc
    push Not at hc
    have := key (e - 1) (by linarith) (h.2 (by linarith))
    linarith

/-- A coordinate in the enlarged interval is accepted. -/
theorem bound_to (R : Rounding 53 (-1074) rnd) {e k : ℝ} (hk : IsFloat 53 (-1074) k) (h1 : -1 - k ≤ e) (h2 : e ≤ 1 + k) : (e < -1 → rnd (-1 - e) ≤ k) ∧ (e > 1 → rnd (e - 1) ≤ k) :=
  ⟨fun _ => rnd_le R hk (by linarith), fun _ => rnd_le R hk (by linarith)⟩

/-! ### Guarded divisors -/

theorem guard_abs {tol0 d : ℝ} (h0 : 0 < tol0) : tol0 ≤ |CoordMap.zeroGuard tol0 d| ∧ |CoordMap.zeroGuard tol0 d| ≤ |d| + tol0 := by
  unfold CoordMap.zeroGuard
  split_ifs with h1 h2
  · rw [abs_of_pos h0]; exact ⟨le_rfl, by linarith [abs_nonneg d]⟩
  · rw [abs_neg, abs_of_pos h0]; exact ⟨le_rfl, by linarith [abs_nonneg d]⟩
  · exact ⟨not_lt.1 h1, by linarith⟩

/-- From an accepted collapsed coordinate to the local coordinate. -/
theorem from_collapsed (R : Rounding 53 (-1074) rnd) {tol0 k a d x c : ℝ} (h0 : 0 < tol0) (hk : 0 ≤ k) (ha1 : k + 22 * w ≤ a) (ha2 : tol0 ≤ a) (ha : a ≤ 1 / 3) (hd : -a + 7 * w ≤ d) (hd5 : d ≤ 5)
    (hc : |c - (2 * rnd (1 + x) / CoordMap.zeroGuard tol0 (rnd d) - 1)| ≤ 20 * w) (hlo : -1 - (k + 2 * w) ≤ c) (hhi : c ≤ 1 + (k + 2 * w)) :
    -(4 * a) - 9 * w ≤ 1 + x ∧ 1 + x ≤ d + 5 * a + 15 * w := by
  have hw0 := w_pos
  have hw1 := w_le
  have hdabs : |d| ≤ 5 := abs_le.2 ⟨by linarith, hd5⟩
  have hr := abs_le.1 ((round_one R d).trans (mul_le_mul_of_nonneg_left (by linarith : |d| + 1 ≤ 6) hw0.le))
  obtain ⟨c1, c2⟩ := abs_le.1 hc
  have hb := Verif.Props.C40.collapsed_bounds tol0 (k + 22 * w) a (rnd d) (rnd (1 + x)) h0 (by linarith) ha2 ha1 (by linarith) (by linarith) (by linarith) (by linarith) (by linarith) (by linarith)
  have hy : |rnd (1 + x)| ≤ 7 := abs_le.2 ⟨by linarith, by linarith⟩
  have hq := round_one R (1 + x)
  have hx : |1 + x| ≤ 8 - 1 / 2 := by
    have := abs_sub_le (1 + x) (rnd (1 + x)) 0
    rw [sub_zero, sub_zero, abs_sub_comm] at this
    nlinarith [abs_nonneg (1 + x)]
  have hq' := abs_le.1 (hq.trans (mul_le_mul_of_nonneg_left (by linarith : |1 + x| + 1 ≤ 9 - 1 / 2) hw0.le))
  constructor <;> linarith [hb.1, hb.2, hq'.1, hq'.2, hr.1, hr.2]

/-- From a local coordinate to the collapsed coordinate: `Y` and `D` are exact. -/
theorem to_collapsed (R : Rounding 53 (-1074) rnd) {tol0 t n Y D d x c : ℝ} (h0 : 0 < tol0) (ht : 0 < t) (hw : w ≤ 6 * t) (hn : 0 < n) (hn2 : n ≤ 2) (hY : 0 ≤ Y) (hYD : Y ≤ D) (hD : n ≤ D) (hD2 : D ≤ 2) (hsm : 3000 * t ≤ n / 100) (hx : |1 + x - Y| ≤ 500 * t)
    (hd : |d - D| ≤ 1000 * t) (htol : tol0 ≤ n / 2) (hc : |2 * rnd (1 + x) / CoordMap.zeroGuard tol0 (rnd d)| ≤ 3 → |c - (2 * rnd (1 + x) / CoordMap.zeroGuard tol0 (rnd d) - 1)| ≤ 25 * w) :
    -1 - 4000 * t / n ≤ c ∧ c ≤ 1 + 4000 * t / n := by
  have hw0 := w_pos
  obtain ⟨x1, x2⟩ := abs_le.1 hx
  obtain ⟨d1, d2⟩ := abs_le.1 hd
  have hxa : |1 + x| ≤ 3 - 1 / 10 := abs_le.2 ⟨by linarith, by linarith⟩
  have hda : |d| ≤ 3 - 1 / 10 := abs_le.2 ⟨by linarith, by linarith⟩
  obtain ⟨r1, r2⟩ := abs_le.1 ((round_one R (1 + x)).trans (mul_le_mul_of_nonneg_left (by linarith : |1 + x| + 1 ≤ 4) hw0.le))
  obtain ⟨s1, s2⟩ := abs_le.1 ((round_one R d).trans (mul_le_mul_of_nonneg_left (by linarith : |d| + 1 ≤ 4) hw0.le))
  have hg : CoordMap.zeroGuard tol0 (rnd d) = rnd d := by
    unfold CoordMap.zeroGuard
    rw [if_neg]
    rw [not_lt]
    refine le_trans ?_ (le_abs_self _)
    linarith
  rw [hg] at hc
  set y := rnd (1 + x) with hy
  set g := rnd d with hgd
  have hgp : n * (99 / 100) ≤ g := by linarith
  have hgpos : 0 < g := by linarith
  set T := 4000 * t / n with hT
  have hTn : T * n = 4000 * t := by rw [hT]; field_simp
  have hT1 : T ≤ 1 / 2 := by rw [hT, div_le_iff₀ hn]; linarith
  have hTpos : 0 < T := by rw [hT]; positivity
  have hTt : 2000 * t ≤ T := by nlinarith
  have up : 2 * y / g ≤ 2 + T - 25 * w := by
    rw [div_le_iff₀ hgpos]
    have e1 : 2 * y ≤ 2 * D + 1048 * t := by linarith
    have e2 : 2 * D ≤ 2 * g + 2048 * t := by linarith
    have e3 : 3096 * t ≤ (T - 25 * w) * g := by
      have : T * (4 / 5) ≤ T - 25 * w := by linarith
      have h2 : T * (4 / 5) * g ≤ (T - 25 * w) * g := mul_le_mul_of_nonneg_right this hgpos.le
      have h3 : T * (4 / 5) * (n * (99 / 100)) ≤ T * (4 / 5) * g := mul_le_mul_of_nonneg_left hgp (by positivity)
      nlinarith
    linarith
  have lo : -T + 25 * w ≤ 2 * y / g := by
    rw [le_div_iff₀ hgpos]
    have e1 : -(1048 * t) ≤ 2 * y := by linarith
    have e3 : 1048 * t ≤ (T - 25 * w) * g := by
      have : T * (4 / 5) ≤ T - 25 * w := by linarith
      have h2 : T * (4 / 5) * g ≤ (T - 25 * w) * g := mul_le_mul_of_nonneg_right this hgpos.le
      have h3 : T * (4 / 5) * (n * (99 / 100)) ≤ T * (4 / 5) * g := mul_le_mul_of_nonneg_left hgp (by positivity)
      nlinarith
    linarith
  obtain ⟨c1, c2⟩ := abs_le.1 (hc (abs_le.2 ⟨by linarith, by linarith⟩))
  constructor <;> linarith

end Verif.Lemmas.FloatRegular3
