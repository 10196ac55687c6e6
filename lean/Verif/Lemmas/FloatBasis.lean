import Verif.Model.FloatBasis
import Verif.Spec.FloatBasis
import Verif.Lemmas.FloatExpansion
import Verif.Lemmas.FloatBary
import Verif.Lemmas.JacobiTable

/-! Lemmas for C115: errors of the tables and of the recursion. -/

namespace Verif.Lemmas.FloatBasis
open Verif.Lemmas.Rounding Verif.Lemmas.FloatExpansion Verif.Lemmas.FloatBary Verif.Spec.Rounding Verif.Spec.FloatExpansion Verif.Spec.FloatBasis Verif.Spec Verif.Model
  Verif.Model.FloatKernels Verif.Model.FloatBasis Verif.Model.JacobiCoeff

variable {rnd : ℝ → ℝ}

/-! ### Counting roundings -/

theorem ρ_ge : q ≤ ρ ∧ 1 ≤ ρ := by
  have h1 := q_ge
  have h2 := η_pos
  have : q ≤ ρ := by unfold ρ; nlinarith
  exact ⟨this, h1.trans this⟩

/-- `X` has magnitude at most `m` and `x` is as accurate as after `k` roundings. -/
def Rel (k : ℕ) (m x X : ℝ) : Prop := |X| ≤ m ∧ Accurate k m x X

theorem rel_self {m X : ℝ} (h : |X| ≤ m) : Rel 0 m X X := ⟨h, by simp [Accurate]⟩

theorem Rel.mono {k l : ℕ} {m p x X : ℝ} (h : Rel k m x X) (hk : k ≤ l) (hm : m ≤ p) : Rel l p x X := by
  obtain ⟨h1, h2⟩ := h
  refine ⟨h1.trans hm, h2.trans ?_⟩
  have a1 : ρ ^ k ≤ ρ ^ l := pow_le_pow_right₀ ρ_ge.2 hk
  have a2 : 1 ≤ ρ ^ k := one_le_pow₀ ρ_ge.2
  exact mul_le_mul (by linarith) hm ((abs_nonneg _).trans h1) (by linarith)

theorem Rel.abs_le {k : ℕ} {m x X : ℝ} (h : Rel k m x X) : |x| ≤ ρ ^ k * m := by
  obtain ⟨h1, h2⟩ := h
  unfold Accurate at h2
  have : |x| ≤ |x - X| + |X| := by simpa using abs_add_le (x - X) X
  linarith

/-- A rounded value of magnitude at most `M`. -/
theorem round_le (R : Rounding 53 (-1074) rnd) {x X M m : ℝ} (hm : 1 ≤ m) (h1 : |X| ≤ m) (h2 : |x - X| ≤ M - m) : |rnd x - X| ≤ ρ * M - m := by
  have hx : |x| ≤ M := by
    have : |x| ≤ |x - X| + |X| := by simpa using abs_add_le (x - X) X
    linarith
  have hM : 1 ≤ M := by linarith [abs_nonneg (x - X)]
  have h3 := err R x
  have h4 : |rnd x - X| ≤ |rnd x - x| + |x - X| := abs_sub_le _ _ _
  have hq := q_ge
  have hη := η_pos
  have h5 := mul_le_mul_of_nonneg_left hx (by linarith : 0 ≤ q - 1)
  have h6 : η ≤ q * η * M := by
    have : η * 1 ≤ η * (q * M) := mul_le_mul_of_nonneg_left (by nlinarith) hη.le
    linarith
  unfold ρ
  linarith

theorem Rel.round (R : Rounding 53 (-1074) rnd) {k : ℕ} {m x X : ℝ} (hm : 1 ≤ m) (h : Rel k m x X) : Rel (k + 1) m (rnd x) X := by
  obtain ⟨h1, h2⟩ := h
  refine ⟨h1, ?_⟩
  unfold Accurate at *
  have := round_le R (M := ρ ^ k * m) hm h1 (by linarith)
  rw [pow_succ]; linarith

theorem Rel.mul {k l : ℕ} {m p x X y Y : ℝ} (h : Rel k m x X) (g : Rel l p y Y) : Rel (k + l) (m * p) (x * y) (X * Y) := by
  have hy := g.abs_le
  obtain ⟨h1, h2⟩ := h
  obtain ⟨g1, g2⟩ := g
  unfold Rel Accurate at *
  refine ⟨?_, ?_⟩
  · rw [abs_mul]; exact mul_le_mul h1 g1 (abs_nonneg _) ((abs_nonneg _).trans h1)
  · rw [show x * y - X * Y = (x - X) * y + X * (y - Y) by ring]
    refine (abs_add_le _ _).trans ?_
    rw [abs_mul, abs_mul]
    have a1 : |x - X| * |y| ≤ ((ρ ^ k - 1) * m) * (ρ ^ l * p) := mul_le_mul h2 hy (abs_nonneg _) ((abs_nonneg _).trans h2)
    have a2 : |X| * |y - Y| ≤ m * ((ρ ^ l - 1) * p) := mul_le_mul h1 g2 (abs_nonneg _) ((abs_nonneg _).trans h1)
    rw [pow_add]
    linarith

theorem Rel.add {k : ℕ} {m p x X y Y : ℝ} (h : Rel k m x X) (g : Rel k p y Y) : Rel k (m + p) (x + y) (X + Y) := by
  obtain ⟨h1, h2⟩ := h
  obtain ⟨g1, g2⟩ := g
  unfold Rel Accurate at *
  refine ⟨(abs_add_le _ _).trans (by linarith), ?_⟩
  rw [show x + y - (X + Y) = (x - X) + (y - Y) by ring]
  exact (abs_add_le _ _).trans (by linarith)

theorem rel_mulAdd (R : Rounding 53 (-1074) rnd) (ct : Bool) {k l j : ℕ} {m p s x X y Y z Z : ℝ} (hm : 1 ≤ m * p) (hs : 0 ≤ s) (h : Rel k m x X) (g : Rel l p y Y)
    (f : Rel j s z Z) (hj : j ≤ k + l + 1) : Rel (k + l + 2) (m * p + s) (mulAdd rnd ct x y z) (X * Y + Z) := by
  unfold mulAdd
  cases ct
  · exact (((h.mul g).round R hm).add (f.mono hj le_rfl)).round R (by linarith)
  · exact ((((h.mul g).mono (Nat.le_succ _) le_rfl).add (f.mono hj le_rfl)).round R (by linarith))

/-! ### The tables -/

/-- `x` is the integer `m`. -/
def IsInt (x : ℝ) (m : ℤ) : Prop := x = m

theorem IsInt.rnd' (R : Rounding 53 (-1074) rnd) {x : ℝ} {m : ℤ} (h : IsInt x m) {A : ℤ} (hm : |m| ≤ A) (hA : A ≤ 2 ^ 53) : IsInt (rnd x) m := by
  unfold IsInt at *
  rw [h]; exact R.exact _ (float_int (by norm_num) (by norm_num) (hm.trans hA))

theorem IsInt.mul {x y : ℝ} {m k : ℤ} (h : IsInt x m) (g : IsInt y k) : IsInt (x * y) (m * k) := by unfold IsInt at *; rw [h, g]; push_cast; rfl
theorem IsInt.add {x y : ℝ} {m k : ℤ} (h : IsInt x m) (g : IsInt y k) : IsInt (x + y) (m + k) := by unfold IsInt at *; rw [h, g]; push_cast; rfl
theorem IsInt.sub {x y : ℝ} {m k : ℤ} (h : IsInt x m) (g : IsInt y k) : IsInt (x - y) (m - k) := by unfold IsInt at *; rw [h, g]; push_cast; rfl
theorem isInt_nat (n : ℕ) : IsInt (n : ℝ) n := by simp [IsInt]
theorem isInt_one : IsInt 1 1 := by simp [IsInt]
theorem isInt_two : IsInt 2 2 := by simp [IsInt]
theorem isInt_neg_two : IsInt (-2) (-2) := by simp [IsInt]

/-- Orders for which the integers of the tables are exact. -/
def SmallOrder (α n : ℕ) : Prop := n + α ≤ 100000

theorem ib {a b A B : ℤ} (ha : |a| ≤ A) (hb : |b| ≤ B) : |a * b| ≤ A * B := by
  rw [abs_mul]; exact mul_le_mul ha hb (abs_nonneg _) ((abs_nonneg _).trans ha)

variable {α n : ℕ}

theorem n_int (R : Rounding 53 (-1074) rnd) (h : SmallOrder α n) : IsInt (rnd (n : ℝ)) n := by
  unfold SmallOrder at h
  exact (isInt_nat n).rnd' R (A := 100000) (by rw [abs_le]; constructor <;> omega) (by norm_num)

theorem a_int (R : Rounding 53 (-1074) rnd) (h : SmallOrder α n) : IsInt (rnd (n + α : ℕ)) (n + α : ℕ) := by
  unfold SmallOrder at h
  exact (isInt_nat _).rnd' R (A := 100000) (by rw [abs_le]; constructor <;> omega) (by norm_num)

theorem b_int (R : Rounding 53 (-1074) rnd) (h : SmallOrder α n) : IsInt (rnd (n + 1 : ℕ)) (n + 1 : ℕ) := by
  unfold SmallOrder at h
  exact (isInt_nat _).rnd' R (A := 100001) (by rw [abs_le]; constructor <;> omega) (by norm_num)

theorem c_int (R : Rounding 53 (-1074) rnd) (h : SmallOrder α n) : IsInt (cF rnd α n) ((n + α : ℕ) + (n + 1 : ℕ)) := by
  have h' := h
  unfold SmallOrder at h
  exact ((a_int R h').add (b_int R h')).rnd' R (A := 200001) (by rw [abs_le]; constructor <;> omega) (by norm_num)

/-- The exact numerator of the first table. -/
noncomputable def num10 (α n : ℕ) : ℝ := (2 * n + α) * (2 * n + α + 1) * (2 * n + α - 1)

/-- The exact numerator of the second table. -/
noncomputable def num11 (α n : ℕ) : ℝ := (2 * n + α) * (α - 1) * (α + 1)

/-- The exact numerator of the third table. -/
noncomputable def num2 (α n : ℕ) : ℝ := -2 * (n + α - 1) * n * (2 * n + α + 1)

theorem cPnF_eq (R : Rounding 53 (-1074) rnd) (h : SmallOrder α n) : cPnF rnd α n = cPn α n ∧ |(cPn α n : ℝ)| ≤ 2 ^ 53 := by
  have h' := h
  unfold SmallOrder at h
  have b1 : |(2 * n : ℤ)| ≤ 200000 := by rw [abs_le]; constructor <;> omega
  have b2 : |((n + α : ℕ) + (n + 1 : ℕ) - n : ℤ)| ≤ 100001 := by rw [abs_le]; constructor <;> omega
  have b3 : |((n + α : ℕ) + (n + 1 : ℕ) - 2 : ℤ)| ≤ 200000 := by rw [abs_le]; constructor <;> omega
  have k := (((((isInt_two.mul (n_int R h')).rnd' R b1 (by norm_num)).mul (((c_int R h').sub (n_int R h')).rnd' R b2 (by norm_num))).rnd' R (ib b1 b2) (by norm_num)).mul
    (((c_int R h').sub isInt_two).rnd' R b3 (by norm_num))).rnd' R (ib (ib b1 b2) b3) (by norm_num)
  unfold IsInt at k
  have k2 : cPnF rnd α n = cPn α n := by
    refine Eq.trans k ?_
    unfold cPn; push_cast; ring
  refine ⟨k2, ?_⟩
  have b4 := (ib (ib b1 b2) b3).trans (by norm_num : _ ≤ (2 : ℤ) ^ 53)
  rw [← k2]
  refine (congrArg abs k).trans_le ?_
  exact_mod_cast b4

theorem cPnm10F_eq (R : Rounding 53 (-1074) rnd) (h : SmallOrder α n) : cPnm10F rnd α n = num10 α n ∧ ∃ m : ℤ, num10 α n = m := by
  have h' := h
  unfold SmallOrder at h
  have b1 : |((n + α : ℕ) + (n + 1 : ℕ) - 1 : ℤ)| ≤ 200000 := by rw [abs_le]; constructor <;> omega
  have b2 : |((n + α : ℕ) + (n + 1 : ℕ) : ℤ)| ≤ 200001 := by rw [abs_le]; constructor <;> omega
  have b3 : |((n + α : ℕ) + (n + 1 : ℕ) - 2 : ℤ)| ≤ 200000 := by rw [abs_le]; constructor <;> omega
  have k := ((((((c_int R h').sub isInt_one).rnd' R b1 (by norm_num)).mul (c_int R h')).rnd' R (ib b1 b2) (by norm_num)).mul
    (((c_int R h').sub isInt_two).rnd' R b3 (by norm_num))).rnd' R (ib (ib b1 b2) b3) (by norm_num)
  unfold IsInt at k
  have k2 : cPnm10F rnd α n = num10 α n := by
    refine Eq.trans k ?_
    unfold num10; push_cast; ring
  exact ⟨k2, _, k2.symm.trans k⟩

theorem cPnm11F_eq (R : Rounding 53 (-1074) rnd) (ct : Bool) (h : SmallOrder α n) : cPnm11F rnd ct α n = num11 α n ∧ ∃ m : ℤ, num11 α n = m := by
  have h' := h
  unfold SmallOrder at h
  have b1 : |((n + α : ℕ) + (n + 1 : ℕ) - 1 : ℤ)| ≤ 200000 := by rw [abs_le]; constructor <;> omega
  have b2 : |((n + α : ℕ) - (n + 1 : ℕ) : ℤ)| ≤ 100000 := by rw [abs_le]; constructor <;> omega
  have b3 : |(-2 * n + ((n + α : ℕ) + (n + 1 : ℕ)) : ℤ)| ≤ 100001 := by rw [abs_le]; constructor <;> omega
  have b5 : |(-2 * n : ℤ)| ≤ 200000 := by rw [abs_le]; constructor <;> omega
  have hf : IsInt (mulAdd rnd ct (-2) (rnd n) (cF rnd α n)) (-2 * n + ((n + α : ℕ) + (n + 1 : ℕ))) := by
    unfold mulAdd
    cases ct
    · exact (((isInt_neg_two.mul (n_int R h')).rnd' R b5 (by norm_num)).add (c_int R h')).rnd' R b3 (by norm_num)
    · exact ((isInt_neg_two.mul (n_int R h')).add (c_int R h')).rnd' R b3 (by norm_num)
  have k := ((((((c_int R h').sub isInt_one).rnd' R b1 (by norm_num)).mul (((a_int R h').sub (b_int R h')).rnd' R b2 (by norm_num))).rnd' R (ib b1 b2) (by norm_num)).mul
    hf).rnd' R (ib (ib b1 b2) b3) (by norm_num)
  unfold IsInt at k
  have k2 : cPnm11F rnd ct α n = num11 α n := by
    refine Eq.trans k ?_
    unfold num11; push_cast; ring
  exact ⟨k2, _, k2.symm.trans k⟩

theorem cPnm2F_eq (R : Rounding 53 (-1074) rnd) (h : SmallOrder α n) : cPnm2F rnd α n = num2 α n ∧ ∃ m : ℤ, num2 α n = m := by
  have h' := h
  unfold SmallOrder at h
  have b0 : |((n + α : ℕ) - 1 : ℤ)| ≤ 100000 := by rw [abs_le]; constructor <;> omega
  have b1 : |(-2 * ((n + α : ℕ) - 1) : ℤ)| ≤ 200000 := by rw [abs_le]; constructor <;> omega
  have b2 : |((n + 1 : ℕ) - 1 : ℤ)| ≤ 100000 := by rw [abs_le]; constructor <;> omega
  have b3 : |((n + α : ℕ) + (n + 1 : ℕ) : ℤ)| ≤ 200001 := by rw [abs_le]; constructor <;> omega
  have k := ((((isInt_neg_two.mul (((a_int R h').sub isInt_one).rnd' R b0 (by norm_num))).rnd' R b1 (by norm_num)).mul
    (((b_int R h').sub isInt_one).rnd' R b2 (by norm_num))).rnd' R (ib b1 b2) (by norm_num)).mul (c_int R h') |>.rnd' R (ib (ib b1 b2) b3) (by norm_num)
  unfold IsInt at k
  have k2 : cPnm2F rnd α n = num2 α n := by
    refine Eq.trans k ?_
    unfold num2; push_cast; ring
  exact ⟨k2, _, k2.symm.trans k⟩

theorem rel_err (R : Rounding 53 (-1074) rnd) {x : ℝ} (hx : (2 : ℝ) ^ (-1000 : ℤ) ≤ |x|) : |rnd x - x| ≤ (q - 1) * |x| := by
  have h := error_rel R (by norm_num) (x := x) (lt_of_lt_of_le ?_ hx)
  · unfold q
    convert h using 2
    norm_num
  · rw [← zpow_natCast, ← zpow_add₀ (by norm_num : (2 : ℝ) ≠ 0)]
    exact zpow_lt_zpow_right₀ (by norm_num) (by norm_num)

/-- Reciprocal and product. -/
theorem quotient_err (R : Rounding 53 (-1074) rnd) {c X : ℝ} (hc : 0 < c) (hc' : c ≤ 2 ^ 53) {m : ℤ} (hX : X = m) :
    |rnd (rnd (1 / c) * X) - 1 / c * X| ≤ (q ^ 2 - 1) * |1 / c * X| := by
  by_cases h0 : m = 0
  · rw [hX, h0]; simp [rnd_zero R]
  have hX1 : 1 ≤ |X| := by
    rw [hX]
    have : 1 ≤ |m| := Int.one_le_abs h0
    exact_mod_cast this
  have hi : (2 : ℝ) ^ (-53 : ℤ) ≤ 1 / c := by
    rw [zpow_neg, ← one_div]
    exact one_div_le_one_div_of_le hc (by exact_mod_cast hc')
  have hr : (2 : ℝ) ^ (-53 : ℤ) ≤ rnd (1 / c) := le_rnd R (float_pow (by norm_num) (by norm_num)) hi
  have hsm : (2 : ℝ) ^ (-1000 : ℤ) ≤ 2 ^ (-53 : ℤ) := zpow_le_zpow_right₀ (by norm_num) (by norm_num)
  have hp := two_pos (-53)
  have hic : 0 < 1 / c := by positivity
  have h1 := rel_err R (x := 1 / c) (by rw [abs_of_pos hic]; exact hsm.trans hi)
  rw [abs_of_pos hic] at h1
  have h2 := rel_err R (x := rnd (1 / c) * X) (by
    rw [abs_mul, abs_of_pos (lt_of_lt_of_le hp hr)]
    have : (2 : ℝ) ^ (-53 : ℤ) * 1 ≤ rnd (1 / c) * |X| := mul_le_mul hr hX1 (by norm_num) (hp.le.trans hr)
    rw [mul_one] at this
    exact hsm.trans this)
  have hq := q_ge
  have h3 : |rnd (1 / c)| ≤ q * (1 / c) := by
    have : |rnd (1 / c)| ≤ |rnd (1 / c) - 1 / c| + |1 / c| := by simpa using abs_add_le (rnd (1 / c) - 1 / c) (1 / c)
    rw [abs_of_pos hic] at this
    linarith
  have h4 : |rnd (1 / c) * X - 1 / c * X| ≤ (q - 1) * (1 / c) * |X| := by
    rw [← sub_mul, abs_mul]; exact mul_le_mul_of_nonneg_right h1 (abs_nonneg _)
  rw [abs_mul] at h2
  have h5 : (q - 1) * (|rnd (1 / c)| * |X|) ≤ (q - 1) * (q * (1 / c) * |X|) :=
    mul_le_mul_of_nonneg_left (mul_le_mul_of_nonneg_right h3 (abs_nonneg _)) (by linarith)
  have h6 : |rnd (rnd (1 / c) * X) - 1 / c * X| ≤ |rnd (rnd (1 / c) * X) - rnd (1 / c) * X| + |rnd (1 / c) * X - 1 / c * X| := abs_sub_le _ _ _
  rw [abs_mul, abs_of_pos hic]
  linarith

theorem quotient_rel (R : Rounding 53 (-1074) rnd) {c X g : ℝ} (hc : 0 < c) (hc' : c ≤ 2 ^ 53) {m : ℤ} (hX : X = m) (hg : |1 / c * X| ≤ g) :
    Rel 2 g (rnd (rnd (1 / c) * X)) (1 / c * X) := by
  refine ⟨hg, (quotient_err R hc hc' hX).trans ?_⟩
  have h1 := q_ge
  have h2 : q ^ 2 ≤ ρ ^ 2 := pow_le_pow_left₀ (by linarith) ρ_ge.1 2
  exact mul_le_mul (by linarith) hg (abs_nonneg _) (by nlinarith)

/-! ### The size of the exact coefficients -/

theorem cPn_real (α n : ℕ) : (cPn α n : ℝ) = 2 * n * (n + α + 1) * (2 * n + α - 1) := by unfold cPn; push_cast; ring

theorem cPn_pos (h : 2 ≤ n) : 0 < (cPn α n : ℝ) := by
  rw [cPn_real]
  have hn : (2 : ℝ) ≤ n := by exact_mod_cast h
  have ha : (0 : ℝ) ≤ α := by positivity
  have : (0 : ℝ) < 2 * n + α - 1 := by linarith
  positivity

theorem size10 (h : 2 ≤ n) : |1 / (cPn α n : ℝ) * num10 α n| ≤ 2 + α / 2 := by
  have hc := cPn_pos (α := α) h
  have hn : (2 : ℝ) ≤ n := by exact_mod_cast h
  have ha : (0 : ℝ) ≤ α := by positivity
  have h1 : (0 : ℝ) < 2 * n + α - 1 := by linarith
  rw [one_div_mul_eq_div, abs_div, abs_of_pos hc, div_le_iff₀ hc, cPn_real]
  unfold num10
  rw [abs_mul, abs_of_pos h1, abs_of_nonneg (by positivity)]
  have key : ((2 * n + α) * (2 * n + α + 1) : ℝ) ≤ (2 + α / 2) * (2 * n * (n + α + 1)) := by
    have e1 : (0 : ℝ) ≤ α * n * n := by positivity
    have e2 : (0 : ℝ) ≤ α * α * (n - 1) := mul_nonneg (by positivity) (by linarith)
    have e3 : (0 : ℝ) ≤ α * (n - 1) := mul_nonneg (by positivity) (by linarith)
    nlinarith
  calc ((2 * n + α) * (2 * n + α + 1) * (2 * n + α - 1) : ℝ) ≤ (2 + α / 2) * (2 * n * (n + α + 1)) * (2 * n + α - 1) := mul_le_mul_of_nonneg_right key h1.le
    _ = _ := by ring

theorem size11 (h : 2 ≤ n) : |1 / (cPn α n : ℝ) * num11 α n| ≤ (α + 1) / 3 := by
  have hc := cPn_pos (α := α) h
  have hn : (2 : ℝ) ≤ n := by exact_mod_cast h
  have ha : (0 : ℝ) ≤ α := by positivity
  have h1 : (0 : ℝ) < 2 * n + α - 1 := by linarith
  rw [one_div_mul_eq_div, abs_div, abs_of_pos hc, div_le_iff₀ hc, cPn_real]
  unfold num11
  rw [abs_mul, abs_mul, abs_of_nonneg (by positivity : (0 : ℝ) ≤ 2 * n + α), abs_of_nonneg (by positivity : (0 : ℝ) ≤ (α : ℝ) + 1)]
  have k1 : |(α : ℝ) - 1| ≤ n + α + 1 := by rw [abs_le]; constructor <;> linarith
  have k2 : (2 * n + α : ℝ) ≤ 2 * n * (2 * n + α - 1) / 3 := by nlinarith
  have k3 : (2 * n + α : ℝ) * |(α : ℝ) - 1| ≤ 2 * n * (2 * n + α - 1) / 3 * (n + α + 1) := mul_le_mul k2 k1 (abs_nonneg _) (by positivity)
  calc (2 * n + α : ℝ) * |(α : ℝ) - 1| * (α + 1) ≤ 2 * n * (2 * n + α - 1) / 3 * (n + α + 1) * (α + 1) := mul_le_mul_of_nonneg_right k3 (by positivity)
    _ = _ := by ring

theorem size2 (h : 2 ≤ n) : |1 / (cPn α n : ℝ) * num2 α n| ≤ 1 := by
  have hc := cPn_pos (α := α) h
  have hn : (2 : ℝ) ≤ n := by exact_mod_cast h
  have ha : (0 : ℝ) ≤ α := by positivity
  rw [one_div_mul_eq_div, abs_div, abs_of_pos hc, div_le_iff₀ hc, cPn_real]
  unfold num2
  have e : (-2 * (n + α - 1) * n * (2 * n + α + 1) : ℝ) = -(2 * n * ((n + α - 1) * (2 * n + α + 1))) := by ring
  rw [e, abs_neg, abs_of_nonneg (by have : (0 : ℝ) ≤ n + α - 1 := by linarith
                                    positivity)]
  have : ((n + α - 1) * (2 * n + α + 1) : ℝ) ≤ (n + α + 1) * (2 * n + α - 1) := by nlinarith
  calc (2 * n * ((n + α - 1) * (2 * n + α + 1)) : ℝ) ≤ 2 * n * ((n + α + 1) * (2 * n + α - 1)) := mul_le_mul_of_nonneg_left this (by positivity)
    _ = _ := by ring

/-! ### The recursion -/

/-- One step of the recursion with exact coefficients. -/
theorem jacobiP_step (h : 2 ≤ n) (z : ℝ) : jacobiP n α 1 z =
    1 / cPn α n * num10 α n * jacobiP (n - 1) α 1 z * z + 1 / cPn α n * num11 α n * jacobiP (n - 1) α 1 z + 1 / cPn α n * num2 α n * jacobiP (n - 2) α 1 z := by
  have hr := recStep_mk (K := ℝ) n α α n z le_rfl h le_rfl
  unfold recStep JacobiCoeff.mk at hr
  simp only [] at hr
  rw [read_pushTable _ _ _ _ _ le_rfl le_rfl, read_pushTable _ _ _ _ _ le_rfl le_rfl, read_pushTable _ _ _ _ _ le_rfl le_rfl] at hr
  simp only [Option.bind_some] at hr
  have hc := cPn_ne_zero (K := ℝ) α n (by omega) (Or.inl h)
  unfold entry10 entry11 entry2 Dbl.div at hr
  simp only [if_neg hc, Dbl.mul_some, Dbl.add_some] at hr
  rw [← Option.some.inj (Option.some.inj hr)]
  unfold num10 num11 num2
  push_cast
  ring

theorem entryF_some (R : Rounding 53 (-1074) rnd) (h : SmallOrder α n) (h2 : 2 ≤ n) (x : ℝ) : entryF rnd α n x = some (rnd (rnd (1 / cPn α n) * x)) := by
  unfold entryF
  rw [(cPnF_eq R h).1, if_neg (cPn_pos h2).ne']

theorem pnF_rel (R : Rounding 53 (-1074) rnd) (ch : Choice) {c10 C10 c11 C11 c2 C2 z p1 P1 p2 P2 g0 g1 m1 m2 : ℝ} {K L : ℕ} (h10 : Rel 2 g0 c10 C10) (h11 : Rel 2 g1 c11 C11)
    (h2 : Rel 2 1 c2 C2) (hz : |z| ≤ 9 / 8) (hp1 : Rel K m1 p1 P1) (hp2 : Rel L m2 p2 P2) (hL : L ≤ K) (k0 : 1 ≤ g0 * m1) (k1 : 1 ≤ g1 * m1) (k2 : 1 ≤ m2) :
    Rel (K + 6) (g0 * m1 * (9 / 8) + g1 * m1 + m2) (pnF rnd ch c10 c11 c2 z p1 p2) (C10 * P1 * z + C11 * P1 + C2 * P2) := by
  have u := ((h10.mul hp1).round R k0).mul (rel_self hz)
  have u' := u.round R (by linarith)
  have v := h11.mul hp1
  have v' := v.round R k1
  have s : Rel (K + 5) (g0 * m1 * (9 / 8) + g1 * m1) (match ch.inner with
    | .neither => rnd (rnd (rnd (c10 * p1) * z) + rnd (c11 * p1))
    | .left => rnd (rnd (c10 * p1) * z + rnd (c11 * p1))
    | .right => rnd (rnd (rnd (c10 * p1) * z) + c11 * p1)) (C10 * P1 * z + C11 * P1) := by
    cases ch.inner
    · exact (((u'.mono (l := K + 4) (by omega) le_rfl).add (v'.mono (l := K + 4) (by omega) le_rfl)).round R (by linarith)).mono (by omega) le_rfl
    · exact (((u.mono (l := K + 4) (by omega) le_rfl).add (v'.mono (l := K + 4) (by omega) le_rfl)).round R (by linarith)).mono (by omega) le_rfl
    · exact (((u'.mono (l := K + 4) (by omega) le_rfl).add (v.mono (l := K + 4) (by omega) le_rfl)).round R (by linarith)).mono (by omega) le_rfl
  have w := h2.mul hp2
  rw [one_mul] at w
  have w' := w.round R k2
  unfold pnF mulAdd
  rw [add_comm (g0 * m1 * (9 / 8) + g1 * m1) m2, add_comm (C10 * P1 * z + C11 * P1)]
  cases ch.outer
  · exact ((w'.mono (l := K + 5) (by omega) le_rfl).add s).round R (by linarith)
  · exact ((w.mono (l := K + 5) (by omega) le_rfl).add s).round R (by linarith)

theorem bound_step (α : ℕ) (k : ℕ) : (2 + α / 2 : ℝ) * (α + 3) ^ (k + 1) * (9 / 8) + (α + 1) / 3 * (α + 3) ^ (k + 1) + (α + 3) ^ k ≤ ((α : ℝ) + 3) ^ (k + 2) := by
  have ha : (0 : ℝ) ≤ α := by positivity
  have hp : (0 : ℝ) ≤ ((α : ℝ) + 3) ^ k := by positivity
  rw [pow_succ, pow_add]
  have : (2 + α / 2 : ℝ) * (α + 3) * (9 / 8) + (α + 1) / 3 * (α + 3) + 1 ≤ (α + 3) ^ 2 := by nlinarith
  calc _ = ((α : ℝ) + 3) ^ k * ((2 + α / 2 : ℝ) * (α + 3) * (9 / 8) + (α + 1) / 3 * (α + 3) + 1) := by ring
    _ ≤ _ := mul_le_mul_of_nonneg_left this hp

/-- One pass of the recursion. -/
theorem recStepF_rel (R : Rounding 53 (-1074) rnd) (ch : Choice) (ct : Bool) (maxN maxAlpha : ℕ) {k : ℕ} (hα : α ≤ maxAlpha) (hk : k + 2 ≤ maxN) (hs : SmallOrder α (k + 2)) {z κ : ℝ} (hκ : 1 ≤ κ)
    (hz : |z| ≤ 9 / 8) {p1 p2 : ℝ} (h1 : Rel (6 * (k + 1)) (κ * (α + 3) ^ (k + 1)) p1 (jacobiP (k + 1) α 1 z)) (h2 : Rel (6 * k) (κ * (α + 3) ^ k) p2 (jacobiP k α 1 z)) :
    ∃ p, recStepF rnd ch (mkF rnd ct maxN maxAlpha) α (k + 2) z (some p1) (some p2) = some (some p) ∧
      Rel (6 * (k + 2)) (κ * (α + 3) ^ (k + 2)) p (jacobiP (k + 2) α 1 z) := by
  obtain ⟨e10, m10, i10⟩ := cPnm10F_eq R hs
  obtain ⟨e11, m11, i11⟩ := cPnm11F_eq R ct hs
  obtain ⟨e2, m2, i2⟩ := cPnm2F_eq R hs
  have hc := cPn_pos (α := α) (n := k + 2) (by omega)
  have hc' : (cPn α (k + 2) : ℝ) ≤ 2 ^ 53 := (le_abs_self _).trans (cPnF_eq R hs).2
  have r10 := quotient_rel R hc hc' i10 (size10 (by omega))
  have r11 := quotient_rel R hc hc' i11 (size11 (by omega))
  have r2 := quotient_rel R hc hc' i2 (size2 (by omega))
  refine ⟨pnF rnd ch (rnd (rnd (1 / cPn α (k + 2)) * num10 α (k + 2))) (rnd (rnd (1 / cPn α (k + 2)) * num11 α (k + 2))) (rnd (rnd (1 / cPn α (k + 2)) * num2 α (k + 2))) z p1 p2, ?_, ?_⟩
  · unfold recStepF mkF
    simp only []
    rw [read_pushTable _ _ _ _ _ hα hk, read_pushTable _ _ _ _ _ hα hk, read_pushTable _ _ _ _ _ hα hk]
    simp only [Option.bind_some]
    rw [entryF_some R hs (by omega), entryF_some R hs (by omega), entryF_some R hs (by omega), e10, e11, e2]
    rfl
  · have ha : (0 : ℝ) ≤ α := by positivity
    have hG : (3 : ℝ) ≤ ((α : ℝ) + 3) ^ (k + 1) := by
      calc (3 : ℝ) = 3 * 1 := by norm_num
        _ ≤ (α + 3) * (α + 3) ^ k := mul_le_mul (by linarith) (one_le_pow₀ (by linarith)) (by norm_num) (by positivity)
        _ = _ := by rw [pow_succ]; ring
    have hG' : (3 : ℝ) ≤ κ * ((α : ℝ) + 3) ^ (k + 1) := by nlinarith
    have hG0 : (1 : ℝ) ≤ ((α : ℝ) + 3) ^ k := one_le_pow₀ (by linarith)
    have := pnF_rel R ch r10 r11 r2 hz h1 h2 (by omega) (by nlinarith) (by nlinarith) (by nlinarith)
    have hst := jacobiP_step (α := α) (n := k + 2) (by omega) z
    rw [show k + 2 - 1 = k + 1 by omega, Nat.add_sub_cancel] at hst
    rw [← hst] at this
    refine this.mono (by omega) ?_
    have hb := mul_le_mul_of_nonneg_left (bound_step α k) (by linarith : 0 ≤ κ)
    linarith

end Verif.Lemmas.FloatBasis
