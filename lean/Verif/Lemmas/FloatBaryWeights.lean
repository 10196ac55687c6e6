import Verif.Lemmas.FloatBary

/-! The weights of a barycentric evaluation in floating point arithmetic. -/

namespace Verif.Lemmas.FloatBary
open Verif.Lemmas.Rounding Verif.Spec.Rounding Verif.Spec.FloatBary Verif.Model Verif.Model.FloatKernels Verif.Model.FloatBary

variable {rnd : ℝ → ℝ}

theorem lagrange_basis (n : ℕ) (z : ℕ → ℝ) (i : ℕ) (x : ℝ) : lagrange n z i x = (Lagrange.basis (Finset.range n) z i).eval x := by
  rw [lagrange, Lagrange.basis, Polynomial.eval_prod]
  refine Finset.prod_congr rfl fun j _ => ?_
  rw [Lagrange.basisDivisor, Polynomial.eval_mul, Polynomial.eval_C, Polynomial.eval_sub, Polynomial.eval_X, Polynomial.eval_C, div_eq_inv_mul]

theorem sum_lagrange {n : ℕ} {z : ℕ → ℝ} (hn : 0 < n) (hd : ∀ i < n, ∀ j < n, z i = z j → i = j) (x : ℝ) : ∑ i ∈ Finset.range n, lagrange n z i x = 1 := by
  have hinj : Set.InjOn z (Finset.range n : Finset ℕ) := by
    intro i hi j hj e
    simp only [Finset.coe_range, Set.mem_Iio] at hi hj
    exact hd i hi j hj e
  rw [Finset.sum_congr rfl fun i _ => lagrange_basis n z i x, ← Polynomial.eval_finset_sum, Lagrange.sum_basis hinj ⟨0, Finset.mem_range.mpr hn⟩, Polynomial.eval_one]

theorem lebesgue_ge {n : ℕ} {z : ℕ → ℝ} (hn : 0 < n) (hd : ∀ i < n, ∀ j < n, z i = z j → i = j) (x : ℝ) : 1 ≤ lebesgue n z x := by
  have h := Finset.abs_sum_le_sum_abs (fun i => lagrange n z i x) (Finset.range n)
  rw [sum_lagrange hn hd x, abs_one] at h
  exact h

theorem lagrange_le {n : ℕ} {z : ℕ → ℝ} {i : ℕ} (hi : i < n) (x : ℝ) : |lagrange n z i x| ≤ lebesgue n z x :=
  Finset.single_le_sum (f := fun i => |lagrange n z i x|) (fun _ _ => abs_nonneg _) (Finset.mem_range.mpr hi)

theorem lagrange_node {n : ℕ} {z : ℕ → ℝ} (hd : ∀ i < n, ∀ j < n, z i = z j → i = j) {i j : ℕ} (hi : i < n) (hj : j < n) :
    lagrange n z i (z j) = if i = j then 1 else 0 := by
  unfold lagrange
  by_cases h : i = j
  · subst h
    rw [if_pos rfl]
    refine Finset.prod_eq_one fun k hk => div_self ?_
    obtain ⟨h1, h2⟩ := Finset.mem_erase.mp hk
    exact fun e => h1 (hd k (Finset.mem_range.mp h2) i hi (sub_eq_zero.mp e).symm)
  · rw [if_neg h]
    exact Finset.prod_eq_zero (Finset.mem_erase.mpr ⟨fun e => h e.symm, Finset.mem_range.mpr hj⟩) (by rw [sub_self, zero_div])

/-- At a point the weights are one and zero, whatever the rounding. -/
theorem weights_node (R : DoubleRounding rnd) {ρ : ℝ} {n : ℕ} {z bw : ℕ → ℝ} {x : ℝ} (P : Points ρ n z bw x) {j : ℕ} (hj : j < n) (hx : x = z j) :
    weightsF rnd n z bw x = some fun ix => if ix = j then 1 else 0 := by
  have hz : ∀ i < n, (rnd (z i - x) = 0 ↔ i = j) := by
    intro i hi
    rw [sub_eq_zero_iff R (by norm_num) (P.z_double i hi) P.x_double, hx]
    exact ⟨fun e => P.distinct i hi j hj e, fun e => by rw [e]⟩
  have hf : (List.range n).find? (fun ix => decide (rnd (z ix - x) = 0)) = some j := by
    rw [List.find?_range_eq_some]
    refine ⟨decide_eq_true ((hz j hj).mpr rfl), List.mem_range.mpr hj, fun k hk => ?_⟩
    simp only [Bool.not_eq_true', decide_eq_false_iff_not]
    exact fun e => by have := (hz k (by omega)).mp e; omega
  unfold weightsF
  rw [hf]

theorem half_exp {s : ℝ} (h0 : 0 ≤ s) (h : s ≤ 1 / 2) : Real.exp s ≤ 2 := by have := exp_le_two h0 h; linarith

theorem unit_eq : (2 : ℝ) ^ (1 - ((53 : ℕ) : ℤ)) = (2 : ℝ) ^ (-52 : ℤ) := by norm_num

theorem Rel.le_two {s a b : ℝ} (h : Rel s a b) (h0 : 0 ≤ s) (hs : s ≤ 1 / 2) : |a| ≤ 2 * |b| :=
  h.le.trans (mul_le_mul_of_nonneg_right (half_exp h0 hs) (abs_nonneg _))

set_option maxHeartbeats 800000 in
/-- What is computed away from the points: the size of the values and their relative errors. -/
theorem weights_off (R : DoubleRounding rnd) {ρ : ℝ} {n : ℕ} {z bw : ℕ → ℝ} {x : ℝ} (P : Points ρ n z bw x)
    (hoff : ∀ i < n, (2 : ℝ) ^ (-300 : ℤ) ≤ |z i - x| ∧ |z i - x| ≤ 4) (hsmall : weightError ρ n z x ≤ 1 / 8) :
    denomF rnd n z bw x ≠ 0 ∧ (∀ i < n, (2 : ℝ) ^ (-306 : ℤ) ≤ |overDiff rnd z bw x i| ∧ |overDiff rnd z bw x i| ≤ (2 : ℝ) ^ (604 : ℤ)) ∧
    |denomF rnd n z bw x| ≤ (2 : ℝ) ^ (655 : ℤ) ∧ (2 : ℝ) ^ (-360 : ℤ) ≤ |denomF rnd n z bw x| ∧
    ∀ i < n, Rel (weightError ρ n z x) (rnd (overDiff rnd z bw x i * rnd (1 / denomF rnd n z bw x))) (lagrange n z i x) := by
  have hρ := P.rho
  have hn : (1 : ℝ) ≤ n := by exact_mod_cast P.pos
  have hL := lebesgue_ge P.pos P.distinct x
  have hu := two_pos (-52)
  have herrU : ∀ {y : ℝ}, (2 : ℝ) ^ (-1021 : ℤ) < |y| → Rel ((2 : ℝ) ^ (-52 : ℤ)) (rnd y) y := by
    intro y hy
    have h := error_rel R (by norm_num) (x := y) (by refine lt_of_eq_of_lt ?_ hy; rw [← zpow_natCast, ← zpow_add₀ (by norm_num : (2 : ℝ) ≠ 0)]; norm_num)
    rw [unit_eq] at h
    exact rel_of h
  have hLsmall : (ρ + (n + 4) * (2 : ℝ) ^ (-52 : ℤ)) * lebesgue n z x ≤ 1 / 40 := by unfold weightError at hsmall; linarith
  set u := (2 : ℝ) ^ (-52 : ℤ) with hudef
  set L := lebesgue n z x with hLdef
  clear_value u L
  have hρL : ρ ≤ ρ * L := by nlinarith
  have huL : u ≤ u * L := by nlinarith
  have hnuL : n * u ≤ n * u * L := by have : 0 ≤ n * u := by positivity
                                      nlinarith
  have hs0 : 0 ≤ ρ + (n + 3) * u := by positivity
  have hexp : ρ * L + n * u * L + 4 * (u * L) ≤ 1 / 40 := le_of_eq_of_le (by ring) hLsmall
  have hs1 : ρ + (n + 4) * u ≤ 1 / 40 := by
    have : ρ + (n + 4) * u = ρ + n * u + 4 * u := by ring
    linarith
  have hnu0 : 0 ≤ n * u := by positivity
  have hsum : (ρ + (n + 3) * u) * L ≤ 1 / 40 := by linarith
  have hnbig : (n : ℝ) ≤ (2 : ℝ) ^ (47 : ℤ) := by
    have h1 : (n : ℝ) * u ≤ 1 / 40 := by linarith
    have h2 : (2 : ℝ) ^ (47 : ℤ) * u = 1 / 32 := by rw [hudef, ← zpow_add₀ (by norm_num : (2 : ℝ) ≠ 0)]; norm_num
    nlinarith
  -- the exact values
  obtain ⟨κ, hκ, hw⟩ := P.weights
  have hne : ∀ i < n, z i - x ≠ 0 := fun i hi e => by
    have := (hoff i hi).1
    rw [e, abs_zero] at this
    have := two_pos (-300); linarith
  set N := ∏ j ∈ Finset.range n, (x - z j) with hN
  have hN0 : N ≠ 0 := Finset.prod_ne_zero_iff.mpr fun j hj e => hne j (Finset.mem_range.mp hj) (by linarith)
  set D := -κ / N with hD
  have hD0 : D ≠ 0 := div_ne_zero (neg_ne_zero.mpr hκ) hN0
  have hwD : ∀ i < n, κ * (∏ j ∈ (Finset.range n).erase i, (z i - z j))⁻¹ * (1 / (z i - x)) = lagrange n z i x * D := by
    intro i hi
    have hNi : N = (x - z i) * ∏ j ∈ (Finset.range n).erase i, (x - z j) := (Finset.mul_prod_erase _ _ (Finset.mem_range.mpr hi)).symm
    have hpi : ∏ j ∈ (Finset.range n).erase i, (x - z j) ≠ 0 := by
      intro e; rw [e, mul_zero] at hNi; exact hN0 hNi
    have hq : ∏ j ∈ (Finset.range n).erase i, (z i - z j) ≠ 0 := Finset.prod_ne_zero_iff.mpr fun j hj e => by
      obtain ⟨h1, h2⟩ := Finset.mem_erase.mp hj
      exact h1 (P.distinct j (Finset.mem_range.mp h2) i hi (by linarith))
    have hxz : x - z i ≠ 0 := fun e => hne i hi (by linarith)
    rw [lagrange, Finset.prod_div_distrib, hD, hNi, show z i - x = -(x - z i) by ring]
    field_simp
  -- the quotients
  have hX : ∀ i < n, Rel u (rnd (z i - x)) (z i - x) := fun i hi => by
    have h := error_sub R (by norm_num) (P.z_double i hi) P.x_double
    rw [unit_eq, ← hudef] at h
    exact rel_of h
  have hu5 : u ≤ 2 / 5 := by linarith
  have hq : ∀ i < n, Rel (ρ + 2 * u) (bw i / rnd (z i - x)) (lagrange n z i x * D) := by
    intro i hi
    rw [← hwD i hi, div_eq_mul_one_div]
    exact (rel_of (hw i hi)).mul ((hX i hi).inv hu5 hu.le (hne i hi)) (by positivity)
  have hsize : ∀ i < n, (2 : ℝ) ^ (-303 : ℤ) ≤ |bw i / rnd (z i - x)| ∧ |bw i / rnd (z i - x)| ≤ (2 : ℝ) ^ (603 : ℤ) := by
    intro i hi
    obtain ⟨b1, b2⟩ := P.size i hi
    obtain ⟨c1, c2⟩ := hoff i hi
    obtain ⟨k1, k2⟩ := (hX i hi).ne hu5 hu.le (hne i hi)
    have k3 := (hX i hi).le_two hu.le (by linarith : u ≤ 1 / 2)
    have hpos := abs_pos.mpr k2
    rw [abs_div]
    constructor
    · rw [le_div_iff₀ hpos]
      have : |rnd (z i - x)| ≤ 8 := by linarith
      calc (2 : ℝ) ^ (-303 : ℤ) * |rnd (z i - x)| ≤ (2 : ℝ) ^ (-303 : ℤ) * 8 := mul_le_mul_of_nonneg_left this (two_pos _).le
        _ = (2 : ℝ) ^ (-300 : ℤ) := by rw [show (8 : ℝ) = (2 : ℝ) ^ (3 : ℤ) by norm_num, ← zpow_add₀ (by norm_num : (2 : ℝ) ≠ 0)]; norm_num
        _ ≤ _ := b1
    · rw [div_le_iff₀ hpos]
      have : (2 : ℝ) ^ (-303 : ℤ) ≤ |rnd (z i - x)| := by
        have h1 : (2 : ℝ) ^ (-303 : ℤ) * 8 = (2 : ℝ) ^ (-300 : ℤ) := by
          rw [show (8 : ℝ) = (2 : ℝ) ^ (3 : ℤ) by norm_num, ← zpow_add₀ (by norm_num : (2 : ℝ) ≠ 0)]; norm_num
        have := two_pos (-303)
        linarith
      calc |bw i| ≤ (2 : ℝ) ^ (300 : ℤ) := b2
        _ = (2 : ℝ) ^ (603 : ℤ) * (2 : ℝ) ^ (-303 : ℤ) := by rw [← zpow_add₀ (by norm_num : (2 : ℝ) ≠ 0)]; norm_num
        _ ≤ _ := mul_le_mul_of_nonneg_left this (two_pos _).le
  have hround : ∀ i < n, Rel u (overDiff rnd z bw x i) (bw i / rnd (z i - x)) := fun i hi =>
    herrU (lt_of_lt_of_le (zpow_lt_zpow_right₀ (by norm_num) (by norm_num)) (hsize i hi).1)
  have hO : ∀ i < n, Rel (ρ + 3 * u) (overDiff rnd z bw x i) (lagrange n z i x * D) := fun i hi =>
    ((hround i hi).trans (hq i hi) hu.le).mono (by linarith)
  have hsizeO : ∀ i < n, (2 : ℝ) ^ (-306 : ℤ) ≤ |overDiff rnd z bw x i| ∧ |overDiff rnd z bw x i| ≤ (2 : ℝ) ^ (604 : ℤ) := by
    intro i hi
    obtain ⟨s1, s2⟩ := hsize i hi
    have hne' : bw i / rnd (z i - x) ≠ 0 := fun e => by rw [e, abs_zero] at s1; have := two_pos (-303); linarith
    obtain ⟨k1, -⟩ := (hround i hi).ne hu5 hu.le hne'
    have k3 := (hround i hi).le_two hu.le (by linarith : u ≤ 1 / 2)
    have e1 : (2 : ℝ) ^ (-306 : ℤ) * 8 = (2 : ℝ) ^ (-303 : ℤ) := by
      rw [show (8 : ℝ) = (2 : ℝ) ^ (3 : ℤ) by norm_num, ← zpow_add₀ (by norm_num : (2 : ℝ) ≠ 0)]; norm_num
    have e2 : (2 : ℝ) ^ (604 : ℤ) = 2 * (2 : ℝ) ^ (603 : ℤ) := by rw [← zpow_one_add₀ (by norm_num : (2 : ℝ) ≠ 0)]; norm_num
    have := two_pos (-306)
    refine ⟨by linarith, ?_⟩
    rw [e2]
    linarith
  -- the denominator
  obtain ⟨-, a, ha, harel⟩ := sum_backward R (by norm_num) (w := overDiff rnd z bw x) n (fun i _ => R.float _)
  rw [unit_eq, ← hudef] at harel
  have hden : denomF rnd n z bw x = ∑ i ∈ Finset.range n, a i := ha
  have harel' : ∀ i < n, Rel (ρ + (n + 3) * u) (a i) (lagrange n z i x * D) := fun i hi =>
    ((harel i hi).trans (hO i hi) (by positivity)).mono (by linarith)
  have hDsum : ∑ i ∈ Finset.range n, lagrange n z i x * D = D := by rw [← Finset.sum_mul, sum_lagrange P.pos P.distinct x, one_mul]
  have hDabs : ∑ i ∈ Finset.range n, |lagrange n z i x * D| ≤ L * |∑ i ∈ Finset.range n, lagrange n z i x * D| := by
    rw [hDsum, hLdef, lebesgue, Finset.sum_mul]
    exact le_of_eq (Finset.sum_congr rfl fun i _ => abs_mul _ _)
  have hDrel : Rel (2 * (ρ + (n + 3) * u) * L) (denomF rnd n z bw x) D := by
    rw [hden]
    have := rel_sum harel' hs0 (by linarith) hDabs
    rwa [hDsum] at this
  have h2s0 : 0 ≤ 2 * (ρ + (n + 3) * u) * L := by positivity
  have h2s : 2 * (ρ + (n + 3) * u) * L ≤ 2 / 5 := by linarith
  obtain ⟨hd1, hd2⟩ := hDrel.ne h2s h2s0 hD0
  have hdinv := hDrel.inv h2s h2s0 hD0
  set d := denomF rnd n z bw x with hddef
  have hdbig : |d| ≤ (2 : ℝ) ^ (655 : ℤ) := by
    have h1 : ∀ i < n, |a i| ≤ (2 : ℝ) ^ (605 : ℤ) := by
      intro i hi
      have k1 := (harel i hi).le_two hnu0 (by linarith)
      have k3 := (hsizeO i hi).2
      have e2 : (2 : ℝ) ^ (605 : ℤ) = 2 * (2 : ℝ) ^ (604 : ℤ) := by rw [← zpow_one_add₀ (by norm_num : (2 : ℝ) ≠ 0)]; norm_num
      rw [e2]
      linarith
    rw [hden]
    calc |∑ i ∈ Finset.range n, a i| ≤ ∑ i ∈ Finset.range n, |a i| := Finset.abs_sum_le_sum_abs _ _
      _ ≤ ∑ _i ∈ Finset.range n, (2 : ℝ) ^ (605 : ℤ) := Finset.sum_le_sum fun i hi => h1 i (Finset.mem_range.mp hi)
      _ = n * (2 : ℝ) ^ (605 : ℤ) := by rw [Finset.sum_const, Finset.card_range, nsmul_eq_mul]
      _ ≤ (2 : ℝ) ^ (47 : ℤ) * (2 : ℝ) ^ (605 : ℤ) := mul_le_mul_of_nonneg_right hnbig (two_pos _).le
      _ = (2 : ℝ) ^ (652 : ℤ) := by rw [← zpow_add₀ (by norm_num : (2 : ℝ) ≠ 0)]; norm_num
      _ ≤ _ := zpow_le_zpow_right₀ (by norm_num) (by norm_num)
  have hdsmall : (2 : ℝ) ^ (-360 : ℤ) ≤ |d| := by
    have h0 : 0 < n := P.pos
    have k1 := (hO 0 h0).le_two (by positivity) (by linarith)
    have k3 := (hsizeO 0 h0).1
    have k4 : |lagrange n z 0 x * D| ≤ L * |D| := by rw [abs_mul]; exact mul_le_mul_of_nonneg_right (hLdef ▸ lagrange_le h0 x) (abs_nonneg _)
    have k5 : L ≤ (2 : ℝ) ^ (47 : ℤ) := by
      have h1 : u * L ≤ 1 / 40 := by
        have : 0 ≤ ρ * L := by positivity
        have : 0 ≤ n * u * L := by positivity
        have : 0 ≤ u * L := by positivity
        linarith
      have h2 : (2 : ℝ) ^ (47 : ℤ) * u = 1 / 32 := by rw [hudef, ← zpow_add₀ (by norm_num : (2 : ℝ) ≠ 0)]; norm_num
      nlinarith
    have k6 : (2 : ℝ) ^ (-306 : ℤ) ≤ 2 * ((2 : ℝ) ^ (47 : ℤ) * |D|) := by
      have h2 : L * |D| ≤ (2 : ℝ) ^ (47 : ℤ) * |D| := mul_le_mul_of_nonneg_right k5 (abs_nonneg _)
      linarith
    have e1 : (2 : ℝ) ^ (-306 : ℤ) = (2 : ℝ) ^ (-360 : ℤ) * ((2 : ℝ) ^ (7 : ℤ) * (2 : ℝ) ^ (47 : ℤ)) := by
      rw [← zpow_add₀ (by norm_num : (2 : ℝ) ≠ 0), ← zpow_add₀ (by norm_num : (2 : ℝ) ≠ 0)]; norm_num
    have e2 := two_pos 47
    have k7 : (2 : ℝ) ^ (-360 : ℤ) * (2 : ℝ) ^ (7 : ℤ) ≤ 2 * |D| := by
      rw [e1] at k6
      refine le_of_mul_le_mul_right ?_ e2
      linarith
    have e3 : (2 : ℝ) ^ (7 : ℤ) = 128 := by norm_num
    rw [e3] at k7
    have := two_pos (-360)
    linarith
  -- the factor
  have hfsize : (2 : ℝ) ^ (-655 : ℤ) ≤ |1 / d| := by
    rw [abs_div, abs_one, le_div_iff₀ (abs_pos.mpr hd2)]
    calc (2 : ℝ) ^ (-655 : ℤ) * |d| ≤ (2 : ℝ) ^ (-655 : ℤ) * (2 : ℝ) ^ (655 : ℤ) := mul_le_mul_of_nonneg_left hdbig (two_pos _).le
      _ = 1 := by rw [← zpow_add₀ (by norm_num : (2 : ℝ) ≠ 0)]; norm_num
  have hfrel : Rel u (rnd (1 / d)) (1 / d) := herrU (lt_of_lt_of_le (zpow_lt_zpow_right₀ (by norm_num) (by norm_num)) hfsize)
  have hfsize' : (2 : ℝ) ^ (-658 : ℤ) ≤ |rnd (1 / d)| := by
    obtain ⟨k1, -⟩ := hfrel.ne hu5 hu.le (one_div_ne_zero hd2)
    have e1 : (2 : ℝ) ^ (-658 : ℤ) * 8 = (2 : ℝ) ^ (-655 : ℤ) := by
      rw [show (8 : ℝ) = (2 : ℝ) ^ (3 : ℤ) by norm_num, ← zpow_add₀ (by norm_num : (2 : ℝ) ≠ 0)]; norm_num
    have := two_pos (-658)
    linarith
  refine ⟨hd2, hsizeO, hdbig, hdsmall, fun i hi => ?_⟩
  have hprod : (2 : ℝ) ^ (-1021 : ℤ) < |overDiff rnd z bw x i * rnd (1 / d)| := by
    rw [abs_mul]
    calc (2 : ℝ) ^ (-1021 : ℤ) < (2 : ℝ) ^ (-964 : ℤ) := zpow_lt_zpow_right₀ (by norm_num) (by norm_num)
      _ = (2 : ℝ) ^ (-306 : ℤ) * (2 : ℝ) ^ (-658 : ℤ) := by rw [← zpow_add₀ (by norm_num : (2 : ℝ) ≠ 0)]; norm_num
      _ ≤ _ := mul_le_mul (hsizeO i hi).1 hfsize' (two_pos _).le (abs_nonneg _)
  have hlast := (herrU hprod).trans ((hO i hi).mul (hfrel.trans hdinv hu.le) (by positivity)) hu.le
  have heq : lagrange n z i x * D * (1 / D) = lagrange n z i x := by field_simp
  rw [heq] at hlast
  refine hlast.mono ?_
  unfold weightError
  rw [← hudef, ← hLdef]
  linarith

/-- The computed weights are the Lagrange polynomials up to small relative errors. -/
theorem weights_rel (R : DoubleRounding rnd) {ρ : ℝ} {n : ℕ} {z bw : ℕ → ℝ} {x : ℝ} (P : Points ρ n z bw x) (hsmall : weightError ρ n z x ≤ 1 / 8) :
    ∃ d, weightsF rnd n z bw x = some d ∧ ∀ i < n, Rel (weightError ρ n z x) (d i) (lagrange n z i x) := by
  have h0 : 0 ≤ weightError ρ n z x := by
    have := lebesgue_ge P.pos P.distinct x
    have := P.rho
    unfold weightError; positivity
  rcases P.coordinate with ⟨j, hj, hx⟩ | hoff
  · refine ⟨_, weights_node R P hj hx, fun i hi => ?_⟩
    rw [hx, lagrange_node P.distinct hi hj]
    rw [hx] at h0
    exact rel_self h0 _
  · obtain ⟨h1, -, -, -, h2⟩ := weights_off R P hoff hsmall
    refine ⟨_, ?_, h2⟩
    have hf : (List.range n).find? (fun ix => decide (rnd (z ix - x) = 0)) = none := by
      rw [List.find?_eq_none]
      intro i hi
      have hi' := List.mem_range.mp hi
      rw [decide_eq_true_iff, sub_eq_zero_iff R (by norm_num) (P.z_double i hi') P.x_double]
      intro e
      have := (hoff i hi').1
      rw [e, sub_self, abs_zero] at this
      have := two_pos (-300); linarith
    unfold weightsF
    rw [hf]
    dsimp only
    rw [if_neg h1]

end Verif.Lemmas.FloatBary
