import Verif.Model.FloatRegular3
import Verif.Lemmas.FloatExpr
import Verif.Lemmas.FloatLinear
import Verif.Props.C40_Regular

/-! Errors of the test of regular elements in three dimensions. -/

namespace Verif.Lemmas.FloatRegular3
open Verif.Model.FloatExpr Verif.Spec.Rounding Verif.Lemmas.Rounding Verif.Lemmas.FloatExpr Verif.Model.FloatRegular3 Verif.Model Verif.Model.NewtonKernel

variable {rnd : ℝ → ℝ}

theorem w_le : w ≤ 1 / 10 ^ 15 := by unfold w; norm_num

theorem round_abs (R : Rounding 53 (-1074) rnd) (x : ℝ) : |rnd x - x| ≤ w * (|x| + tiny) := by
  refine round_err R ?_ ?_
  · linarith [tiny_pos]
  · linarith [abs_nonneg x]

theorem round_one (R : Rounding 53 (-1074) rnd) (x : ℝ) : |rnd x - x| ≤ w * (|x| + 1) := by
  refine (round_abs R x).trans (mul_le_mul_of_nonneg_left ?_ w_pos.le)
  linarith [tiny_le_one]

theorem acc_edge (R : Rounding 53 (-1074) rnd) {a b L : ℝ} (h : |a - b| ≤ L) (hL : tiny ≤ L) : Acc rnd 1 L (lit a - lit b) := by
  refine ⟨hL, h, fun r v hv => ?_⟩
  have hv' : v = rnd (a - b) := by
    cases hv with
    | sub ha hb =>
      cases ha with
      | lit => cases hb with
        | lit => rfl
        | round h => cases h
      | round h => cases h
    | round h => cases h
  subst hv'
  have := round_err R h hL
  show |rnd (a - b) - (a - b)| ≤ _
  simpa using this

/-- All components are at most `L`. -/
def Within (L : ℝ) (a b : V3 ℝ) : Prop := |a.x - b.x| ≤ L ∧ |a.y - b.y| ≤ L ∧ |a.z - b.z| ≤ L

variable {L : ℝ}

theorem pow_facts (h1 : (2 : ℝ) ^ (-300 : ℤ) ≤ L) : tiny ≤ L ∧ tiny ≤ L * L ∧ tiny ≤ L * (2 * (L * L)) := by
  have hP : (0 : ℝ) < 2 ^ (-300 : ℤ) := two_pos _
  have hL : 0 < L := lt_of_lt_of_le hP h1
  have t1 : tiny ≤ (2 : ℝ) ^ (-300 : ℤ) := by unfold tiny; exact zpow_le_zpow_right₀ (by norm_num) (by norm_num)
  have t2 : tiny ≤ (2 : ℝ) ^ (-300 : ℤ) * (2 : ℝ) ^ (-300 : ℤ) := by unfold tiny; rw [← zpow_add₀ (by norm_num)]; exact zpow_le_zpow_right₀ (by norm_num) (by norm_num)
  have t3 : tiny ≤ (2 : ℝ) ^ (-300 : ℤ) * ((2 : ℝ) ^ (-300 : ℤ) * (2 : ℝ) ^ (-300 : ℤ)) := by
    unfold tiny; rw [← zpow_add₀ (by norm_num), ← zpow_add₀ (by norm_num)]; exact zpow_le_zpow_right₀ (by norm_num) (by norm_num)
  have m2 : (2 : ℝ) ^ (-300 : ℤ) * (2 : ℝ) ^ (-300 : ℤ) ≤ L * L := mul_le_mul h1 h1 hP.le hL.le
  have m3 : (2 : ℝ) ^ (-300 : ℤ) * ((2 : ℝ) ^ (-300 : ℤ) * (2 : ℝ) ^ (-300 : ℤ)) ≤ L * (L * L) := mul_le_mul h1 m2 (by positivity) hL.le
  refine ⟨t1.trans h1, t2.trans m2, t3.trans (m3.trans ?_)⟩
  have : 0 < L * (L * L) := by positivity
  nlinarith

theorem acc_edges (R : Rounding 53 (-1074) rnd) (h1 : (2 : ℝ) ^ (-300 : ℤ) ≤ L) {a b : V3 ℝ} (h : Within L a b) :
    Acc rnd 1 L (edge a b).x ∧ Acc rnd 1 L (edge a b).y ∧ Acc rnd 1 L (edge a b).z :=
  ⟨acc_edge R h.1 (pow_facts h1).1, acc_edge R h.2.1 (pow_facts h1).1, acc_edge R h.2.2 (pow_facts h1).1⟩

theorem acc_det (R : Rounding 53 (-1074) rnd) (h1 : (2 : ℝ) ^ (-300 : ℤ) ≤ L) {a b c d : Expr} (ha : Acc rnd 1 L a) (hb : Acc rnd 1 L b) (hc : Acc rnd 1 L c) (hd : Acc rnd 1 L d) :
    Acc rnd 4 (2 * (L * L)) (a * b - c * d) := by
  have := (ha.mul R hb (pow_facts h1).2.1).sub R (hc.mul R hd (pow_facts h1).2.1)
  exact this.mono (by norm_num) (by linarith)

/-- A triple product of edges has an error of at most `96 w L³`. -/
theorem triple_acc (R : Rounding 53 (-1074) rnd) (h1 : (2 : ℝ) ^ (-300 : ℤ) ≤ L) {a b c v : V3 ℝ} (ha : Within L a v) (hb : Within L b v) (hc : Within L c v) :
    Acc rnd 8 (6 * L ^ 3) (dotp (edge a v) (cross (edge b v) (edge c v))) := by
  obtain ⟨a1, a2, a3⟩ := acc_edges R h1 ha
  obtain ⟨b1, b2, b3⟩ := acc_edges R h1 hb
  obtain ⟨c1, c2, c3⟩ := acc_edges R h1 hc
  have hx := a1.mul R (acc_det R h1 b2 c3 b3 c2) (pow_facts h1).2.2
  have hy := a2.mul R (acc_det R h1 b3 c1 b1 c3) (pow_facts h1).2.2
  have hz := a3.mul R (acc_det R h1 b1 c2 b2 c1) (pow_facts h1).2.2
  exact ((hx.add R hy).add R hz).mono (by norm_num) (by ring_nf; rfl)

theorem triple_err (R : Rounding 53 (-1074) rnd) (h1 : (2 : ℝ) ^ (-300 : ℤ) ≤ L) {a b c v : V3 ℝ} (ha : Within L a v) (hb : Within L b v) (hc : Within L c v) {r : Bool} {y : ℝ}
    (hy : Res rnd (dotp (edge a v) (cross (edge b v) (edge c v))) r y) :
    |y - NewtonElements.dot (NewtonElements.sub a v) (NewtonElements.cross (NewtonElements.sub b v) (NewtonElements.sub c v))| ≤ 96 * (w * L ^ 3) ∧
    |NewtonElements.dot (NewtonElements.sub a v) (NewtonElements.cross (NewtonElements.sub b v) (NewtonElements.sub c v))| ≤ 6 * L ^ 3 := by
  have h := triple_acc R h1 ha hb hc
  refine ⟨?_, h.2.1⟩
  have := Verif.Lemmas.FloatLinear.Acc.err h (C := 96 * L ^ 3) (by norm_num) (by push_cast; linarith) hy
  have e : (dotp (edge a v) (cross (edge b v) (edge c v))).eval = NewtonElements.dot (NewtonElements.sub a v) (NewtonElements.cross (NewtonElements.sub b v) (NewtonElements.sub c v)) := rfl
  rw [e] at this
  linarith

/-! ### The local coordinates -/

/-- The value of `2 / V` for a computed `V`. -/
theorem inverse_err (R : Rounding 53 (-1074) rnd) {V V' t : ℝ} (hV : V ≠ 0) (hb : |V| ≤ 2 ^ 990) (ht : t ≤ 1 / 100000) (hw : w ≤ 6 * t) (h : |V' - V| ≤ 96 * (t * |V|)) :
    V' ≠ 0 ∧ |rnd (2 / V') * V - 2| ≤ 210 * t := by
  have hp : 0 < |V| := abs_pos.2 hV
  have hw0 := w_pos
  have ht0 : 0 < t := by linarith
  have hlow : |V| * (999 / 1000) ≤ |V'| := by
    have h1 : |V| ≤ |V - V'| + |V'| := by simpa using abs_add_le (V - V') V'
    rw [abs_sub_comm] at h1
    nlinarith
  have hV' : V' ≠ 0 := by
    intro h0
    rw [h0, abs_zero] at hlow
    linarith
  refine ⟨hV', ?_⟩
  have hp' : 0 < |V'| := abs_pos.2 hV'
  -- the quotient
  have q1 : |2 / V' * V - 2| ≤ 193 * t := by
    have : 2 / V' * V - 2 = 2 * (V - V') / V' := by field_simp
    rw [this, abs_div, abs_mul, abs_two, abs_sub_comm, div_le_iff₀ hp']
    have h2 : 193 * t * (|V| * (999 / 1000)) ≤ 193 * t * |V'| := mul_le_mul_of_nonneg_left hlow (by linarith)
    nlinarith [mul_pos ht0 hp]
  have hbig : |V'| ≤ 2 ^ 991 := by
    have h1 : |V'| ≤ |V' - V| + |V| := by simpa using abs_add_le (V' - V) V
    have h2 : 96 * (t * |V|) ≤ |V| := by nlinarith
    have h3 : (2 : ℝ) ^ 991 = 2 ^ 990 + 2 ^ 990 := by rw [pow_succ]; ring
    rw [h3]
    generalize (2 : ℝ) ^ 990 = B at hb ⊢
    linarith
  have hq : tiny ≤ |2 / V'| := by
    rw [abs_div, abs_two, le_div_iff₀ hp']
    have h1 : tiny * |V'| ≤ tiny * 2 ^ 991 := mul_le_mul_of_nonneg_left hbig tiny_pos.le
    have h2 : tiny * (2 : ℝ) ^ 991 ≤ 1 := by
      unfold tiny
      rw [← zpow_natCast, ← zpow_add₀ (by norm_num)]
      exact zpow_le_one_of_nonpos₀ (by norm_num) (by norm_num)
    linarith
  have h3 := round_err R (le_refl |2 / V'|) hq
  have h4 : |2 / V' * V| ≤ 2 + 193 * t := by
    have := abs_add_le (2 / V' * V - 2) 2
    rw [sub_add_cancel, abs_two] at this
    linarith
  have h5 : |(rnd (2 / V') - 2 / V') * V| ≤ w * (2 + 193 * t) := by
    rw [abs_mul]
    have := mul_le_mul_of_nonneg_right h3 (abs_nonneg V)
    rw [mul_assoc w, ← abs_mul (2 / V')] at this
    exact this.trans (mul_le_mul_of_nonneg_left h4 hw0.le)
  have h6 : rnd (2 / V') * V - 2 = (rnd (2 / V') - 2 / V') * V + (2 / V' * V - 2) := by ring
  rw [h6]
  refine (abs_add_le _ _).trans ?_
  nlinarith

/-- A local coordinate: `a` is exact, `n * iV - 1` is computed from a product `n` and a volume with errors. -/
theorem local_err (R : Rounding 53 (-1074) rnd) {V t a : ℝ} {N D : Expr} (hV : V ≠ 0) (hb : |V| ≤ 2 ^ 990) (ht : t ≤ 1 / 100000) (hw : w ≤ 6 * t)
    (hD : ∀ r y, Res rnd D r y → |y - V| ≤ 96 * (t * |V|)) (hN : ∀ r y, Res rnd N r y → |y - (1 + a) / 2 * V| ≤ 96 * (t * |V|)) {x : ℝ} (hx : Res rnd (local1 N D) false x) :
    |x - a| ≤ (130 * |1 + a| + 220) * t := by
  have hw0 := w_pos
  have hw1 := w_le
  have ht0 : 0 < t := by linarith
  have hp : 0 < |V| := abs_pos.2 hV
  -- the product before its rounding
  have raw : ∀ n d, Res rnd N false n → Res rnd D false d → |n * rnd (2 / d) - (1 + a)| ≤ (106 * |1 + a| + 194) * t := by
    intro n d hn hd
    obtain ⟨-, hi⟩ := inverse_err R hV hb ht hw (hD _ _ hd)
    have hn' := hN _ _ hn
    set i := rnd (2 / d) with hidef
    have h1 : |(n - (1 + a) / 2 * V) * i| ≤ 193 * t := by
      have : |(n - (1 + a) / 2 * V) * i| * |V| = |n - (1 + a) / 2 * V| * |i * V| := by rw [abs_mul, abs_mul, mul_assoc]
      have h2 : |i * V| ≤ 2 + 210 * t := by
        have := abs_add_le (i * V - 2) 2
        rw [sub_add_cancel, abs_two] at this
        linarith
      have h3 : |n - (1 + a) / 2 * V| * |i * V| ≤ 96 * (t * |V|) * (2 + 210 * t) := mul_le_mul hn' h2 (abs_nonneg _) ((abs_nonneg _).trans hn')
      rw [← this] at h3
      have h4 : 96 * (t * |V|) * (2 + 210 * t) ≤ 193 * t * |V| := by
        have : 0 < t * |V| := mul_pos ht0 hp
        nlinarith
      exact le_of_mul_le_mul_right (h3.trans h4) hp
    have h2 : |(1 + a) / 2 * (i * V - 2)| ≤ 105 * |1 + a| * t := by
      rw [abs_mul, abs_div, abs_two]
      have := mul_le_mul_of_nonneg_left hi (by positivity : 0 ≤ |1 + a| / 2)
      linarith
    have h3 : n * i - (1 + a) = (n - (1 + a) / 2 * V) * i + (1 + a) / 2 * (i * V - 2) := by ring
    rw [h3]
    refine (abs_add_le _ _).trans ?_
    have : 0 ≤ |1 + a| * t := by positivity
    linarith
  have hA := abs_nonneg (1 + a)
  -- the product as an operand
  have op : ∀ r m, Res rnd (N * (lit 2 / D)) r m → |m - (1 + a)| ≤ (114 * |1 + a| + 201) * t := by
    have inner : ∀ n i, Res rnd N false n → Res rnd (lit 2 / D) false i → |n * i - (1 + a)| ≤ (106 * |1 + a| + 194) * t := by
      intro n i hn hi
      cases hi with
      | div h2 hd _ =>
        have : ∀ z, Res rnd (lit 2) false z → z = 2 := by
          intro z hz
          cases hz with
          | lit => rfl
          | round h => cases h
        rw [this _ h2]
        exact raw n _ hn hd
      | round h => cases h
    have tr : ∀ m, Res rnd (N * (lit 2 / D)) true m → |m - (1 + a)| ≤ (106 * |1 + a| + 194) * t := by
      intro m hm
      cases hm with
      | mul hn hi => exact inner _ _ hn hi
    intro r m hm
    cases r with
    | true => exact (tr m hm).trans (mul_le_mul_of_nonneg_right (by linarith) ht0.le)
    | false =>
      cases hm with
      | round hm =>
        rename_i y
        have h1 := tr _ hm
        have h2 := round_one R y
        have h3 : |y| ≤ |1 + a| + (106 * |1 + a| + 194) * t := by
          have := abs_add_le (y - (1 + a)) (1 + a)
          rw [sub_add_cancel] at this
          linarith
        have h4 : w * (|y| + 1) ≤ 6 * t * (|1 + a| * (101 / 100) + 101 / 100) := by
          refine mul_le_mul hw ?_ (by positivity) (by linarith)
          nlinarith
        have h5 := abs_sub_le (rnd y) y (1 + a)
        nlinarith [mul_nonneg hA ht0.le]
  cases hx with
  | sub hm h1 =>
    rename_i rm r1 m o
    have ho : o = 1 := by
      cases h1 with
      | lit => rfl
      | round h => cases h
    subst ho
    have h2 := op _ _ hm
    have h3 := round_one R (m - 1)
    have h4 : |m - 1| ≤ |1 + a| + 1 + (114 * |1 + a| + 201) * t := by
      have := abs_add_le (m - (1 + a)) a
      rw [show m - (1 + a) + a = m - 1 by ring] at this
      have h5 : |a| ≤ |1 + a| + 1 := by
        have := abs_sub (1 + a) 1
        rw [show 1 + a - 1 = a by ring, abs_one] at this
        exact this
      linarith
    have h5 : w * (|m - 1| + 1) ≤ 6 * t * (|1 + a| * (101 / 100) + 203 / 100) := by
      refine mul_le_mul hw ?_ (by positivity) (by linarith)
      nlinarith
    have h6 := abs_add_le (rnd (m - 1) - (m - 1)) (m - (1 + a))
    rw [show rnd (m - 1) - (m - 1) + (m - (1 + a)) = rnd (m - 1) - a by ring] at h6
    nlinarith [mul_nonneg hA ht0.le]
  | round h => cases h

end Verif.Lemmas.FloatRegular3
