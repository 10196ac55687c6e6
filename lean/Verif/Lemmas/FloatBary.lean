import Verif.Lemmas.Rounding
import Verif.Model.FloatBary
import Verif.Spec.FloatBary
import Mathlib.Analysis.SpecialFunctions.Exp
import Mathlib.Algebra.Order.BigOperators.Ring.Finset
import Mathlib.LinearAlgebra.Lagrange

/-! Lemmas for C100: errors of barycentric evaluation. -/

namespace Verif.Lemmas.FloatBary
open Verif.Lemmas.Rounding Verif.Spec.Rounding Verif.Spec.FloatBary Verif.Model Verif.Model.FloatKernels Verif.Model.FloatBary

variable {p : ℕ} {emin : ℤ} {rnd : ℝ → ℝ}

/-! ### Rounding errors -/

/-- Above the subnormal numbers the error is relative. -/
theorem error_rel (R : Rounding p emin rnd) (hp : 1 ≤ p) {x : ℝ} (hx : 2 ^ p * (2 : ℝ) ^ emin < |x|) : |rnd x - x| ≤ (2 : ℝ) ^ (1 - (p : ℤ)) * |x| := by
  have hv := two_pos (1 - (p : ℤ))
  have hu := two_pos emin
  have hpos : 0 < |x| := lt_trans (by positivity) hx
  set k := Int.log 2 |x| with hk
  have hlow : (2 : ℝ) ^ k ≤ |x| := by
    have := Int.zpow_log_le_self (b := 2) (by norm_num) hpos
    exact_mod_cast this
  have hhigh : |x| < (2 : ℝ) ^ (k + 1) := by
    have := Int.lt_zpow_succ_log_self (b := 2) (by norm_num) |x|
    exact_mod_cast this
  have hke : emin ≤ k + 1 - p := by
    have : (2 : ℝ) ^ ((p : ℤ) + emin) < 2 ^ (k + 1) := by
      rw [zpow_add₀ (by norm_num : (2 : ℝ) ≠ 0), zpow_natCast]; linarith
    have := (zpow_lt_zpow_iff_right₀ (by norm_num : (1 : ℝ) < 2)).mp this
    omega
  have h3 : |x| ≤ 2 ^ p * (2 : ℝ) ^ (k + 1 - p) := by
    rw [← zpow_natCast, ← zpow_add₀ (by norm_num : (2 : ℝ) ≠ 0)]
    rw [show (p : ℤ) + (k + 1 - p) = k + 1 by ring]; exact hhigh.le
  have h4 := error_unit R hp x (k + 1 - p) hke h3
  have h5 : (2 : ℝ) ^ (k + 1 - p) = 2 ^ (1 - (p : ℤ)) * 2 ^ k := by
    rw [← zpow_add₀ (by norm_num : (2 : ℝ) ≠ 0)]; congr 1; ring
  rw [h5] at h4
  have : (2 : ℝ) ^ (1 - (p : ℤ)) * 2 ^ k ≤ 2 ^ (1 - (p : ℤ)) * |x| := mul_le_mul_of_nonneg_left hlow hv.le
  linarith

/-- Sums of floating point numbers have no underflow: the error is relative. -/
theorem error_add (R : Rounding p emin rnd) (hp : 1 ≤ p) {x y : ℝ} (hx : IsFloat p emin x) (hy : IsFloat p emin y) :
    |rnd (x + y) - (x + y)| ≤ (2 : ℝ) ^ (1 - (p : ℤ)) * |x + y| := by
  have hv := two_pos (1 - (p : ℤ))
  by_cases h : 2 ^ p * (2 : ℝ) ^ emin < |x + y|
  · exact error_rel R hp h
  · push Not at h
    obtain ⟨a, b, e, he, ha, hb, -⟩ := common x y hx hy
    have hxy : x + y = ((a + b : ℤ) : ℝ) * (2 : ℝ) ^ e := by push_cast; rw [ha, hb]; ring
    have hle : (2 : ℝ) ^ emin ≤ 2 ^ e := zpow_le_zpow_right₀ (by norm_num) he
    have hue := two_pos e
    have hm : |a + b| ≤ 2 ^ p := by
      rw [hxy, abs_mul, abs_of_pos hue] at h
      have h1 : |((a + b : ℤ) : ℝ)| * 2 ^ e ≤ 2 ^ p * 2 ^ e := h.trans (mul_le_mul_of_nonneg_left hle (by positivity))
      have h2 := le_of_mul_le_mul_right h1 hue
      exact_mod_cast h2
    have hf : IsFloat p emin (x + y) := by rw [hxy]; exact float_of_multiple hp he hm
    rw [R.exact _ hf, sub_self, abs_zero]; positivity

theorem error_sub (R : Rounding p emin rnd) (hp : 1 ≤ p) {x y : ℝ} (hx : IsFloat p emin x) (hy : IsFloat p emin y) :
    |rnd (x - y) - (x - y)| ≤ (2 : ℝ) ^ (1 - (p : ℤ)) * |x - y| := by
  have := error_add R hp hx (float_neg hy)
  rwa [← sub_eq_add_neg] at this

/-! ### Relative errors -/

/-- `a` is `b` up to a relative error of `exp s - 1`. -/
def Rel (s a b : ℝ) : Prop := |a - b| ≤ (Real.exp s - 1) * |b|

theorem exp_sub_one_nonneg {s : ℝ} (hs : 0 ≤ s) : 0 ≤ Real.exp s - 1 := by have := Real.add_one_le_exp s; linarith

theorem exp_le_two {s : ℝ} (h0 : 0 ≤ s) (h : s ≤ 1 / 2) : Real.exp s ≤ 1 + 2 * s := by
  have h1 : 1 - s ≤ Real.exp (-s) := by have := Real.add_one_le_exp (-s); linarith
  have h2 : 0 < 1 - s := by linarith
  have h3 : Real.exp s ≤ 1 / (1 - s) := by
    rw [Real.exp_neg] at h1
    rw [le_div_iff₀ h2]
    have := Real.exp_pos s
    calc Real.exp s * (1 - s) ≤ Real.exp s * (Real.exp s)⁻¹ := mul_le_mul_of_nonneg_left h1 this.le
      _ = 1 := mul_inv_cancel₀ this.ne'
  refine h3.trans ?_
  rw [div_le_iff₀ h2]
  nlinarith

theorem rel_self {s : ℝ} (hs : 0 ≤ s) (a : ℝ) : Rel s a a := by
  unfold Rel; rw [sub_self, abs_zero]; exact mul_nonneg (exp_sub_one_nonneg hs) (abs_nonneg _)

theorem rel_of {α a b : ℝ} (h : |a - b| ≤ α * |b|) : Rel α a b := by
  refine h.trans (mul_le_mul_of_nonneg_right ?_ (abs_nonneg _))
  have := Real.add_one_le_exp α; linarith

theorem Rel.le {s a b : ℝ} (h : Rel s a b) : |a| ≤ Real.exp s * |b| := by
  have h1 : |a| ≤ |a - b| + |b| := by simpa using abs_add_le (a - b) b
  unfold Rel at h; linarith

theorem Rel.mono {s t a b : ℝ} (h : Rel s a b) (hst : s ≤ t) : Rel t a b :=
  le_trans h (mul_le_mul_of_nonneg_right (by have := Real.exp_le_exp.mpr hst; linarith) (abs_nonneg _))

theorem Rel.trans {s t a b c : ℝ} (h : Rel s a b) (k : Rel t b c) (hs : 0 ≤ s) : Rel (s + t) a c := by
  have h1 : |a - c| ≤ |a - b| + |b - c| := abs_sub_le a b c
  have h2 := k.le
  unfold Rel at *
  rw [Real.exp_add]
  have h3 := mul_le_mul_of_nonneg_left h2 (exp_sub_one_nonneg hs)
  nlinarith

theorem Rel.mul {s t a b c d : ℝ} (h : Rel s a b) (k : Rel t c d) (ht : 0 ≤ t) : Rel (s + t) (a * c) (b * d) := by
  have h2 := h.le
  unfold Rel at *
  rw [Real.exp_add]
  have e : a * c - b * d = a * (c - d) + (a - b) * d := by ring
  have h1 : |a * c - b * d| ≤ |a| * |c - d| + |a - b| * |d| := by
    rw [e]; refine (abs_add_le _ _).trans ?_; rw [abs_mul, abs_mul]
  rw [abs_mul b d]
  have h3 : |a| * |c - d| ≤ (Real.exp s * |b|) * ((Real.exp t - 1) * |d|) := mul_le_mul h2 k (abs_nonneg _) (mul_nonneg (Real.exp_pos _).le (abs_nonneg _))
  have h4 : |a - b| * |d| ≤ (Real.exp s - 1) * |b| * |d| := mul_le_mul_of_nonneg_right h (abs_nonneg _)
  nlinarith

theorem Rel.ne {s a b : ℝ} (h : Rel s a b) (hs : s ≤ 2 / 5) (h0 : 0 ≤ s) (hb : b ≠ 0) : |b| / 5 ≤ |a| ∧ a ≠ 0 := by
  have h1 := exp_le_two h0 (by linarith)
  have hb' := abs_pos.mpr hb
  have h2 : |b| ≤ |a| + |a - b| := by
    have := abs_sub_abs_le_abs_sub b a
    rw [abs_sub_comm b a] at this; linarith
  have h3 : |b| / 5 ≤ |a| := by
    unfold Rel at h
    nlinarith
  exact ⟨h3, fun e => by rw [e, abs_zero] at h3; linarith⟩

theorem Rel.inv {s a b : ℝ} (h : Rel s a b) (hs : s ≤ 2 / 5) (h0 : 0 ≤ s) (hb : b ≠ 0) : Rel (2 * s) (1 / a) (1 / b) := by
  obtain ⟨-, ha⟩ := h.ne hs h0 hb
  have hb' := abs_pos.mpr hb
  have ha' := abs_pos.mpr ha
  set t := Real.exp s with ht
  have ht1 : 1 ≤ t := Real.one_le_exp h0
  have ht2 : t ≤ 8 / 5 := by
    -- `exp (2/5)` is below 8/5
    have h1 : 1 - 2 / 5 ≤ Real.exp (-(2 / 5 : ℝ)) := by have := Real.add_one_le_exp (-(2 / 5 : ℝ)); linarith
    have h2 : (4 / 5 : ℝ) ≤ Real.exp (-(1 / 5 : ℝ)) := by have := Real.add_one_le_exp (-(1 / 5 : ℝ)); linarith
    have h3 : (16 / 25 : ℝ) ≤ Real.exp (-(2 / 5 : ℝ)) := by
      rw [show -(2 / 5 : ℝ) = -(1 / 5) + -(1 / 5) by ring, Real.exp_add]; nlinarith
    have h4 : Real.exp s ≤ Real.exp (2 / 5) := Real.exp_le_exp.mpr hs
    have h5 : Real.exp (2 / 5 : ℝ) ≤ 25 / 16 := by
      rw [Real.exp_neg] at h3
      have hp := Real.exp_pos (2 / 5 : ℝ)
      have : (16 / 25 : ℝ) * Real.exp (2 / 5) ≤ 1 := by
        calc (16 / 25 : ℝ) * Real.exp (2 / 5) ≤ (Real.exp (2 / 5))⁻¹ * Real.exp (2 / 5) := mul_le_mul_of_nonneg_right h3 hp.le
          _ = 1 := inv_mul_cancel₀ hp.ne'
      linarith
    linarith
  unfold Rel at *
  rw [← ht] at h
  rw [show 2 * s = s + s by ring, Real.exp_add, ← ht]
  have e : 1 / a - 1 / b = (b - a) / (a * b) := by field_simp
  rw [e, abs_div, abs_mul, abs_sub_comm, div_le_iff₀ (by positivity), abs_div, abs_one]
  have h2 : |b| ≤ |a| + |a - b| := by
    have := abs_sub_abs_le_abs_sub b a
    rw [abs_sub_comm b a] at this; linarith
  have h3 : (2 - t) * |b| ≤ |a| := by nlinarith
  have h4 : (t * t - 1) * (1 / |b|) * (|a| * |b|) = (t * t - 1) * |a| := by field_simp
  rw [h4]
  refine h.trans ?_
  have h5 : (t - 1) * |b| ≤ (t * t - 1) * ((2 - t) * |b|) := by
    have : t - 1 ≤ (t * t - 1) * (2 - t) := by nlinarith [mul_nonneg (sub_nonneg.mpr ht1) (sub_nonneg.mpr ht2)]
    nlinarith
  have h6 : (t * t - 1) * ((2 - t) * |b|) ≤ (t * t - 1) * |a| := mul_le_mul_of_nonneg_left h3 (by nlinarith)
  linarith

/-- A sum of values with relative errors: the condition of the sum enters. -/
theorem rel_sum {n : ℕ} {s L : ℝ} {a b : ℕ → ℝ} (h : ∀ i < n, Rel s (a i) (b i)) (h0 : 0 ≤ s) (hs : s ≤ 1 / 2)
    (hL : ∑ i ∈ Finset.range n, |b i| ≤ L * |∑ i ∈ Finset.range n, b i|) : Rel (2 * s * L) (∑ i ∈ Finset.range n, a i) (∑ i ∈ Finset.range n, b i) := by
  apply rel_of
  have h1 : |∑ i ∈ Finset.range n, a i - ∑ i ∈ Finset.range n, b i| ≤ (Real.exp s - 1) * ∑ i ∈ Finset.range n, |b i| := by
    rw [← Finset.sum_sub_distrib, Finset.mul_sum]
    exact (Finset.abs_sum_le_sum_abs _ _).trans (Finset.sum_le_sum fun i hi => h i (Finset.mem_range.mp hi))
  have h2 := exp_le_two h0 hs
  refine h1.trans ?_
  calc (Real.exp s - 1) * ∑ i ∈ Finset.range n, |b i| ≤ 2 * s * ∑ i ∈ Finset.range n, |b i| :=
        mul_le_mul_of_nonneg_right (by linarith) (Finset.sum_nonneg fun _ _ => abs_nonneg _)
    _ ≤ 2 * s * (L * |∑ i ∈ Finset.range n, b i|) := mul_le_mul_of_nonneg_left hL (by linarith)
    _ = _ := by ring

/-! ### Loops -/

/-- A rounded sum: the sum of values with small relative errors. -/
theorem sum_backward (R : Rounding p emin rnd) (hp : 1 ≤ p) {w : ℕ → ℝ} (n : ℕ) (hw : ∀ i < n, IsFloat p emin (w i)) :
    IsFloat p emin (loop n (fun i d => rnd (d + w i)) 0) ∧
    ∃ a : ℕ → ℝ, loop n (fun i d => rnd (d + w i)) 0 = ∑ i ∈ Finset.range n, a i ∧ ∀ i < n, Rel (n * (2 : ℝ) ^ (1 - (p : ℤ))) (a i) (w i) := by
  have hu := two_pos (1 - (p : ℤ))
  set u := (2 : ℝ) ^ (1 - (p : ℤ)) with hudef
  induction n with
  | zero => exact ⟨float_zero, fun _ => 0, by simp [loop], fun i hi => by omega⟩
  | succ n ih =>
    obtain ⟨hf, a, ha, hrel⟩ := ih fun i hi => hw i (by omega)
    have hstep : loop (n + 1) (fun i d => rnd (d + w i)) 0 = rnd (loop n (fun i d => rnd (d + w i)) 0 + w n) := rfl
    set acc := loop n (fun i d => rnd (d + w i)) 0 with hacc
    refine ⟨by rw [hstep]; exact R.float _, ?_⟩
    have herr := error_add R hp hf (hw n (by omega))
    rw [← hudef] at herr
    obtain ⟨δ, hδ, hr⟩ : ∃ δ : ℝ, |δ| ≤ u ∧ rnd (acc + w n) = (acc + w n) * (1 + δ) := by
      by_cases h0 : acc + w n = 0
      · refine ⟨0, by rw [abs_zero]; exact hu.le, ?_⟩
        rw [h0, zero_mul]; exact rnd_zero R
      · refine ⟨(rnd (acc + w n) - (acc + w n)) / (acc + w n), ?_, ?_⟩
        · rw [abs_div, div_le_iff₀ (abs_pos.mpr h0)]; exact herr
        · field_simp; ring
    have hone : ∀ c : ℝ, Rel u (c * (1 + δ)) c := by
      intro c
      apply rel_of
      rw [show c * (1 + δ) - c = δ * c by ring, abs_mul]
      exact mul_le_mul_of_nonneg_right hδ (abs_nonneg _)
    refine ⟨fun i => (if i < n then a i else w n) * (1 + δ), ?_, ?_⟩
    · rw [hstep, hr, ha, ← Finset.sum_mul, Finset.sum_range_succ, if_neg (lt_irrefl n)]
      congr 2
      exact Finset.sum_congr rfl fun i hi => (if_pos (Finset.mem_range.mp hi)).symm
    · intro i hi
      dsimp only
      have hn : (0 : ℝ) ≤ n := Nat.cast_nonneg n
      by_cases hin : i < n
      · rw [if_pos hin]
        have := (hone (a i)).trans (hrel i hin) hu.le
        refine this.mono (le_of_eq ?_)
        push_cast; ring
      · rw [if_neg hin]
        obtain rfl : i = n := by omega
        refine (hone (w i)).mono ?_
        push_cast; nlinarith

/-- The state of an accumulation of `k` products: `acc` is the computed sum, `V` the exact sum, `S` the sum of the magnitudes. -/
def Acc (u α β : ℝ) (k : ℕ) (acc V S : ℝ) : Prop :=
  |acc - V| ≤ (Real.exp (α + (k + 1) * u) - 1) * S + k * β * Real.exp ((k + 1) * u) ∧ |V| ≤ S

theorem acc_init {u α β : ℝ} : Acc u α β 0 0 0 0 := ⟨by simp, by simp⟩

theorem acc_step (R : Rounding p emin rnd) (hp : 1 ≤ p) {contract : Bool} {α β0 : ℝ} (hα : 0 ≤ α) (hβ : 0 ≤ β0) {k : ℕ} {acc V S a b v : ℝ}
    (h : Acc ((2 : ℝ) ^ (1 - (p : ℤ))) α (β0 + 2 * (2 : ℝ) ^ emin) k acc V S) (hv : |a * b - v| ≤ (Real.exp α - 1) * |v| + β0) :
    Acc ((2 : ℝ) ^ (1 - (p : ℤ))) α (β0 + 2 * (2 : ℝ) ^ emin) (k + 1) (mulAdd rnd contract a b acc) (V + v) (S + |v|) := by
  have hu := two_pos (1 - (p : ℤ))
  have hη := two_pos emin
  have herr := fun x => error R hp x
  set u := (2 : ℝ) ^ (1 - (p : ℤ)) with hudef
  set η := (2 : ℝ) ^ emin with hηdef
  obtain ⟨h1, h2⟩ := h
  have hS : 0 ≤ S := (abs_nonneg V).trans h2
  have hv0 := abs_nonneg v
  refine ⟨?_, (abs_add_le V v).trans (by linarith)⟩
  obtain ⟨y, hy, hr⟩ : ∃ y, |y - a * b| ≤ u * |a * b| + η ∧ mulAdd rnd contract a b acc = rnd (y + acc) := by
    unfold mulAdd
    cases contract
    · exact ⟨rnd (a * b), herr _, rfl⟩
    · exact ⟨a * b, by rw [sub_self, abs_zero]; positivity, rfl⟩
  rw [hr]
  set E := Real.exp α with hE
  have hE1 : 1 ≤ E := Real.one_le_exp hα
  set q := Real.exp u with hq
  have hq1 : 1 + u ≤ q := by have := Real.add_one_le_exp u; linarith
  set Q := Real.exp ((k + 1) * u) with hQ
  have hQ1 : q ≤ Q := by
    refine Real.exp_le_exp.mpr ?_
    have : (0 : ℝ) ≤ k := Nat.cast_nonneg k
    nlinarith
  have e1 : Real.exp (α + ((k : ℝ) + 1) * u) = E * Q := Real.exp_add _ _
  have e2 : Real.exp (((k + 1 : ℕ) + 1 : ℝ) * u) = Q * q := by
    rw [hQ, hq, ← Real.exp_add]; congr 1; push_cast; ring
  have e3 : Real.exp (α + ((k + 1 : ℕ) + 1 : ℝ) * u) = E * (Q * q) := by rw [Real.exp_add, e2]
  rw [e2, e3]
  rw [e1] at h1
  have hab : |a * b| ≤ E * |v| + β0 := by
    have : |a * b| ≤ |a * b - v| + |v| := by simpa using abs_add_le (a * b - v) v
    linarith
  have hyv : |y - v| ≤ (E * (1 + u) - 1) * |v| + (1 + u) * β0 + η := by
    have h3 : |y - v| ≤ |y - a * b| + |a * b - v| := abs_sub_le _ _ _
    have h4 := mul_le_mul_of_nonneg_left hab hu.le
    linarith
  set F := (E * Q - 1) * S + k * (β0 + 2 * η) * Q + ((E * (1 + u) - 1) * |v| + (1 + u) * β0 + η) with hF
  have hZ : |y + acc - (V + v)| ≤ F := by
    rw [show y + acc - (V + v) = (acc - V) + (y - v) by ring]
    exact (abs_add_le _ _).trans (by rw [hF]; linarith)
  have hZ2 : |y + acc| ≤ S + |v| + F := by
    have h3 : |y + acc| ≤ |y + acc - (V + v)| + |V + v| := by simpa using abs_add_le (y + acc - (V + v)) (V + v)
    have h4 : |V + v| ≤ S + |v| := (abs_add_le V v).trans (by linarith)
    linarith
  have hfin : |rnd (y + acc) - (V + v)| ≤ (1 + u) * F + u * (S + |v|) + η := by
    have h3 : |rnd (y + acc) - (V + v)| ≤ |rnd (y + acc) - (y + acc)| + |y + acc - (V + v)| := abs_sub_le _ _ _
    have h4 := herr (y + acc)
    have h5 := mul_le_mul_of_nonneg_left hZ2 hu.le
    linarith
  refine hfin.trans ?_
  have hQpos : 0 < Q := Real.exp_pos _
  have hq0 : 0 < q := Real.exp_pos _
  have g1 : (1 + u) * (E * Q) ≤ E * (Q * q) := by
    calc (1 + u) * (E * Q) ≤ q * (E * Q) := mul_le_mul_of_nonneg_right hq1 (by positivity)
      _ = _ := by ring
  have g2 : (1 + u) * (E * (1 + u)) ≤ E * (Q * q) := by
    have h3 : (1 + u) * (1 + u) ≤ Q * q := mul_le_mul (hq1.trans hQ1) hq1 (by positivity) hQpos.le
    have h4 := mul_le_mul_of_nonneg_left h3 (by linarith : (0 : ℝ) ≤ E)
    linarith
  have g3 : (1 + u) * (k * (β0 + 2 * η) * Q) ≤ k * (β0 + 2 * η) * (Q * q) := by
    have h3 : 0 ≤ (k : ℝ) * (β0 + 2 * η) * Q := by positivity
    calc (1 + u) * (k * (β0 + 2 * η) * Q) ≤ q * (k * (β0 + 2 * η) * Q) := mul_le_mul_of_nonneg_right hq1 h3
      _ = _ := by ring
  have hQq : (1 + u) * (1 + u) ≤ Q * q := mul_le_mul (hq1.trans hQ1) hq1 (by positivity) hQpos.le
  have hQq1 : 1 + u ≤ Q * q := le_trans (by nlinarith) hQq
  have g4 : (1 + u) * ((1 + u) * β0 + η) + η ≤ (β0 + 2 * η) * (Q * q) := by
    have h3 := mul_le_mul_of_nonneg_right hQq hβ
    have h4 := mul_le_mul_of_nonneg_right hQq1 hη.le
    have h5 : 0 ≤ u * η := by positivity
    linarith
  have g5 := mul_le_mul_of_nonneg_right g1 hS
  have g6 := mul_le_mul_of_nonneg_right g2 hv0
  rw [hF]
  push_cast
  linarith

/-- A loop whose body adds `m` products adds `n * m` products. -/
theorem acc_loop {u α β : ℝ} {n m : ℕ} {body : ℕ → ℝ → ℝ} {v : ℕ → ℝ} {a : ℕ → ℝ}
    (h : ∀ i < n, ∀ k acc V S, Acc u α β k acc V S → Acc u α β (k + m) (body i acc) (V + v i) (S + a i)) (k : ℕ) (acc V S : ℝ) (h0 : Acc u α β k acc V S) :
    Acc u α β (k + n * m) (loop n body acc) (V + ∑ i ∈ Finset.range n, v i) (S + ∑ i ∈ Finset.range n, a i) := by
  induction n with
  | zero => simpa [loop] using h0
  | succ n ih =>
    have h1 := h n (by omega) _ _ _ _ (ih fun i hi => h i (by omega))
    rw [Finset.sum_range_succ, Finset.sum_range_succ, ← add_assoc, ← add_assoc, show k + (n + 1) * m = k + n * m + m by ring]
    exact h1

end Verif.Lemmas.FloatBary
