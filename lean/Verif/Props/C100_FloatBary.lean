import Verif.Lemmas.FloatBaryWeights
import Mathlib.Tactic.IntervalCases

/-! C100: evaluation of a function at a point in floating point arithmetic. -/

namespace Verif.Props.C100
open Verif.Lemmas.Rounding Verif.Lemmas.FloatBary Verif.Spec.Rounding Verif.Spec.FloatBary Verif.Model Verif.Model.FloatKernels Verif.Model.FloatBary

variable {rnd : ℝ → ℝ}

/-! ### At the points the result is exact -/

theorem mulAdd_one (R : DoubleRounding rnd) {contract : Bool} {a b c : ℝ} (h : Double (a * b)) : mulAdd rnd contract a b c = rnd (a * b + c) := by
  unfold mulAdd; cases contract
  · rw [if_neg (by simp), R.exact _ h]
  · rfl

/-- A loop in which one iteration adds a number and the others add nothing. -/
theorem loop_pick {n j : ℕ} {body : ℕ → ℝ → ℝ} {v s : ℝ} (hj : j < n)
    (h : ∀ i < n, ∀ c, Double c → Double (c + if i = j then v else 0) → body i c = c + if i = j then v else 0) (hs : Double s) (hv : Double (s + v)) :
    loop n body s = s + v := by
  have key : ∀ m ≤ n, loop m body s = if j < m then s + v else s := by
    intro m hm
    induction m with
    | zero => rw [if_neg (by omega)]; rfl
    | succ m ih =>
      have e : loop (m + 1) body s = body m (loop m body s) := rfl
      rw [e, ih (by omega)]
      by_cases hmj : m = j
      · rw [if_neg (by omega), if_pos (by omega), h m (by omega) s hs (by rw [if_pos hmj]; exact hv), if_pos hmj]
      · by_cases hlt : j < m
        · rw [if_pos hlt, if_pos (by omega), h m (by omega) _ hv (by rw [if_neg hmj, add_zero]; exact hv), if_neg hmj, add_zero]
        · rw [if_neg hlt, if_neg (by omega), h m (by omega) _ hs (by rw [if_neg hmj, add_zero]; exact hs), if_neg hmj, add_zero]
  rw [key n le_rfl, if_pos hj]

theorem double_one : Double 1 := by
  have := float_int (p := 53) (emin := -1074) (by norm_num) (by norm_num) (m := 1) (by norm_num)
  rwa [Int.cast_one] at this

/-- At one of the points the evaluation returns the value at this point, bit for bit, in every rounding mode. -/
theorem exact_at_point_1d (R : DoubleRounding rnd) (contract : Bool) {ρ : ℝ} {n : ℕ} {z bw phys : ℕ → ℝ} {x : ℝ} (P : Points ρ n z bw x)
    (hf : ∀ i < n, Double (phys i)) {i : ℕ} (hi : i < n) (hx : x = z i) : evaluate1 rnd contract n z bw phys x = some (phys i) := by
  have h0 : Double 0 := float_zero
  unfold evaluate1
  rw [weights_node R P hi hx, Option.map_some, dir0F]
  congr 1
  rw [loop_pick (v := phys i) hi _ h0 (by rw [zero_add]; exact hf i hi), zero_add]
  intro k hk c hc hcv
  by_cases hki : k = i
  · subst hki
    rw [if_pos rfl] at hcv
    rw [if_pos rfl, if_pos rfl, mulAdd_one R (by rw [one_mul]; exact hf k hk), one_mul, add_comm, R.exact _ hcv]
  · rw [if_neg hki, if_neg hki, mulAdd_one R (by rw [zero_mul]; exact h0), zero_mul, zero_add, add_zero, R.exact _ hc]

theorem factors_indicator (R : DoubleRounding rnd) {interlaced : Bool} {p a b : ℝ} (hp : Double p) (ha : a = 0 ∨ a = 1) (hb : b = 0 ∨ b = 1) :
    (factors rnd interlaced p a b).1 * (factors rnd interlaced p a b).2 = p * a * b ∧ Double (p * a * b) := by
  have h0 : Double 0 := float_zero
  have r0 : rnd 0 = 0 := R.exact 0 h0
  have r1 : rnd 1 = 1 := R.exact 1 double_one
  have rp : rnd p = p := R.exact p hp
  unfold factors
  rcases ha with rfl | rfl <;> rcases hb with rfl | rfl <;> cases interlaced <;> simp [r0, r1, rp, h0, hp]

/-- One iteration of the innermost loops. -/
theorem step_indicator (R : DoubleRounding rnd) {contract interlaced : Bool} {p b : ℝ} (hp : Double p) (hb : b = 0 ∨ b = 1) (q : Prop) [Decidable q] {c : ℝ}
    (hc : Double (c + if q then p * b else 0)) :
    mulAdd rnd contract (factors rnd interlaced p (if q then 1 else 0) b).1 (factors rnd interlaced p (if q then 1 else 0) b).2 c =
      c + if q then p * b else 0 := by
  obtain ⟨e, hd⟩ := factors_indicator R (interlaced := interlaced) hp (a := if q then 1 else 0) (by by_cases h : q <;> simp [h]) hb
  rw [mulAdd_one R (by rw [e]; exact hd), e]
  have : p * (if q then 1 else 0) * b = if q then p * b else 0 := by by_cases h : q <;> simp [h]
  rw [this, add_comm, R.exact _ hc]

theorem exact_at_point_2d (R : DoubleRounding rnd) (contract interlaced : Bool) {ρ0 ρ1 : ℝ} {n0 n1 : ℕ} {z0 bw0 z1 bw1 phys : ℕ → ℝ} {x y : ℝ}
    (P0 : Points ρ0 n0 z0 bw0 x) (P1 : Points ρ1 n1 z1 bw1 y) (hf : ∀ i < n0, ∀ j < n1, Double (phys (j * n0 + i))) {i j : ℕ} (hi : i < n0) (hj : j < n1)
    (hx : x = z0 i) (hy : y = z1 j) : evaluate2 rnd contract interlaced n0 n1 z0 bw0 z1 bw1 phys x y = some (phys (j * n0 + i)) := by
  have h0 : Double 0 := float_zero
  unfold evaluate2
  rw [weights_node R P0 hi hx, weights_node R P1 hj hy, Option.bind_some, Option.map_some, dir10F]
  congr 1
  rw [loop_pick (v := phys (j * n0 + i)) hj _ h0 (by rw [zero_add]; exact hf i hi j hj), zero_add]
  intro b hb c hc hcv
  have hcv' : Double (c + phys (b * n0 + i) * if b = j then 1 else 0) := by
    convert hcv using 2
    by_cases h : b = j <;> simp [h]
  rw [loop_pick (v := phys (b * n0 + i) * if b = j then 1 else 0) hi _ hc hcv']
  · by_cases h : b = j <;> simp [h]
  · intro a ha c hc hcv
    have e : (if a = i then phys (b * n0 + i) * (if b = j then 1 else 0) else 0) = if a = i then phys (b * n0 + a) * (if b = j then 1 else 0) else 0 := by
      by_cases h : a = i <;> simp [h]
    rw [e] at hcv ⊢
    exact step_indicator R (hf a ha b hb) (by by_cases h : b = j <;> simp [h]) (a = i) hcv

theorem exact_at_point_3d (R : DoubleRounding rnd) (contract interlaced : Bool) {ρ0 ρ1 ρ2 : ℝ} {n0 n1 n2 : ℕ} {z0 bw0 z1 bw1 z2 bw2 phys : ℕ → ℝ}
    {x y w : ℝ} (P0 : Points ρ0 n0 z0 bw0 x) (P1 : Points ρ1 n1 z1 bw1 y) (P2 : Points ρ2 n2 z2 bw2 w)
    (hf : ∀ i < n0, ∀ j < n1, ∀ k < n2, Double (phys (k * (n0 * n1) + j * n0 + i))) {i j k : ℕ} (hi : i < n0) (hj : j < n1) (hk : k < n2)
    (hx : x = z0 i) (hy : y = z1 j) (hw : w = z2 k) :
    evaluate3 rnd contract interlaced n0 n1 n2 z0 bw0 z1 bw1 z2 bw2 phys x y w = some (phys (k * (n0 * n1) + j * n0 + i)) := by
  have h0 : Double 0 := float_zero
  have r0 : rnd 0 = 0 := R.exact 0 h0
  have r1 : rnd 1 = 1 := R.exact 1 double_one
  unfold evaluate3
  rw [weights_node R P0 hi hx, weights_node R P1 hj hy, weights_node R P2 hk hw, Option.bind_some, Option.bind_some, Option.map_some, dir210F]
  congr 1
  rw [loop_pick (v := phys (k * (n0 * n1) + j * n0 + i)) hk _ h0 (by rw [zero_add]; exact hf i hi j hj k hk), zero_add]
  intro d hd c hc hcv
  have hcv' : Double (c + if d = k then phys (d * (n0 * n1) + j * n0 + i) else 0) := by
    convert hcv using 2
    by_cases h : d = k <;> simp [h]
  rw [loop_pick (v := if d = k then phys (d * (n0 * n1) + j * n0 + i) else 0) hj _ hc hcv']
  · by_cases h : d = k <;> simp [h]
  · intro b hb c hc hcv
    dsimp only
    have hw1 : rnd ((if d = k then 1 else 0) * if b = j then 1 else 0) = if d = k ∧ b = j then 1 else 0 := by
      by_cases h : d = k <;> by_cases h' : b = j <;> simp [h, h', r0, r1]
    rw [hw1]
    have hcv'' : Double (c + phys (d * (n0 * n1) + b * n0 + i) * if d = k ∧ b = j then 1 else 0) := by
      convert hcv using 2
      by_cases h : d = k <;> by_cases h' : b = j <;> simp [h, h']
    rw [loop_pick (v := phys (d * (n0 * n1) + b * n0 + i) * if d = k ∧ b = j then 1 else 0) hi _ hc hcv'']
    · by_cases h : d = k <;> by_cases h' : b = j <;> simp [h, h']
    · intro a ha c hc hcv
      have e : (if a = i then phys (d * (n0 * n1) + b * n0 + i) * (if d = k ∧ b = j then 1 else 0) else 0) =
          if a = i then phys (d * (n0 * n1) + b * n0 + a) * (if d = k ∧ b = j then 1 else 0) else 0 := by
        by_cases h : a = i <;> simp [h]
      rw [e] at hcv ⊢
      exact step_indicator R (hf a ha b hb d hd) (by by_cases h : d = k ∧ b = j <;> simp [h]) (a = i) hcv

/-! ### Elsewhere the error is small -/

theorem acc_bound {u α β S V acc : ℝ} {N : ℕ} (h : Acc u α β N acc V S) (h0 : 0 ≤ α) (hu : 0 ≤ u) (hβ : 0 ≤ β) (hs : α + (N + 1) * u ≤ 1 / 2) :
    |acc - V| ≤ 2 * (α + (N + 1) * u) * S + 2 * N * β := by
  obtain ⟨h1, h2⟩ := h
  have hS : 0 ≤ S := (abs_nonneg V).trans h2
  have hN : (0 : ℝ) ≤ N := Nat.cast_nonneg N
  have k1 := exp_le_two (s := α + (N + 1) * u) (by positivity) hs
  have k2 := half_exp (s := (N + 1) * u) (by positivity) (by linarith)
  have k3 : (Real.exp (α + (N + 1) * u) - 1) * S ≤ 2 * (α + (N + 1) * u) * S := mul_le_mul_of_nonneg_right (by linarith) hS
  have k4 : N * β * Real.exp ((N + 1) * u) ≤ N * β * 2 := mul_le_mul_of_nonneg_left k2 (by positivity)
  linarith

theorem weightError_nonneg {ρ : ℝ} {n : ℕ} {z bw : ℕ → ℝ} {x : ℝ} (P : Points ρ n z bw x) : 0 ≤ weightError ρ n z x := by
  have := lebesgue_ge P.pos P.distinct x
  have := P.rho
  unfold weightError; positivity

theorem R_error (R : DoubleRounding rnd) (x : ℝ) : |rnd x - x| ≤ (2 : ℝ) ^ (-52 : ℤ) * |x| + (2 : ℝ) ^ (-1074 : ℤ) := by
  have := error R (by norm_num) x
  rwa [unit_eq] at this

theorem rel_abs {s t a b v β : ℝ} (h : |a - b| ≤ (Real.exp t - 1) * |b| + β) (k : Lemmas.FloatBary.Rel s b v) (ht : 0 ≤ t) :
    |a - v| ≤ (Real.exp (s + t) - 1) * |v| + β := by
  have h1 : |a - v| ≤ |a - b| + |b - v| := abs_sub_le _ _ _
  have h2 := k.le
  have h3 := mul_le_mul_of_nonneg_left h2 (exp_sub_one_nonneg ht)
  unfold Lemmas.FloatBary.Rel at k
  rw [Real.exp_add]
  linarith

theorem unit_small : (2 : ℝ) ^ (-52 : ℤ) ≤ 1 / 64 := by norm_num

/-- In one dimension. -/
theorem error_1d (R : DoubleRounding rnd) (contract : Bool) {ρ M : ℝ} {n : ℕ} {z bw phys : ℕ → ℝ} {x : ℝ} (P : Points ρ n z bw x)
    (hsmall : weightError ρ n z x ≤ 1 / 8) (hf : ∀ i < n, |phys i| ≤ M) :
    ∃ v, evaluate1 rnd contract n z bw phys x = some v ∧
      |v - interpolant1 n z phys x| ≤ 2 * (weightError ρ n z x + (n + 1) * (2 : ℝ) ^ (-52 : ℤ)) * lebesgue n z x * M + n * (2 : ℝ) ^ (-1072 : ℤ) := by
  obtain ⟨d, hd, hrel⟩ := weights_rel R P hsmall
  have hε := weightError_nonneg P
  have hL := lebesgue_ge P.pos P.distinct x
  have hu := two_pos (-52)
  have hη := two_pos (-1074)
  refine ⟨_, by rw [evaluate1, hd, Option.map_some], ?_⟩
  have hacc := acc_loop (u := (2 : ℝ) ^ (1 - ((53 : ℕ) : ℤ))) (α := weightError ρ n z x) (β := 0 + 2 * (2 : ℝ) ^ (-1074 : ℤ)) (n := n) (m := 1)
    (body := fun ix numer => mulAdd rnd contract (d ix) (phys ix) numer) (v := fun i => phys i * lagrange n z i x) (a := fun i => |phys i * lagrange n z i x|)
    (fun i hi k acc V S h => acc_step R (by norm_num) hε le_rfl h (by
      have := (hrel i hi).mul (rel_self (s := 0) le_rfl (phys i)) le_rfl
      rw [add_zero] at this
      rw [add_zero, mul_comm (phys i)]
      exact this)) 0 0 0 0 acc_init
  rw [unit_eq] at hacc
  have hS : ∑ i ∈ Finset.range n, |phys i * lagrange n z i x| ≤ lebesgue n z x * M := by
    rw [lebesgue, Finset.sum_mul]
    refine Finset.sum_le_sum fun i hi => ?_
    rw [abs_mul, mul_comm]
    exact mul_le_mul_of_nonneg_left (hf i (Finset.mem_range.mp hi)) (abs_nonneg _)
  have hnu : (n + 1 : ℝ) * (2 : ℝ) ^ (-52 : ℤ) ≤ 1 / 8 := by
    have h1 : (n + 1 : ℝ) * (2 : ℝ) ^ (-52 : ℤ) ≤ weightError ρ n z x := by
      unfold weightError
      have h2 : 0 ≤ ρ := P.rho
      have h3 : (n + 1 : ℝ) * (2 : ℝ) ^ (-52 : ℤ) ≤ ρ + (n + 4) * (2 : ℝ) ^ (-52 : ℤ) := by nlinarith
      have h4 : 0 ≤ ρ + (n + 4) * (2 : ℝ) ^ (-52 : ℤ) := by positivity
      nlinarith
    exact h1.trans hsmall
  simp only [zero_add, mul_one] at hacc
  have hb := acc_bound hacc hε hu.le (by positivity) (by linarith)
  have e2 : (2 : ℝ) ^ (-1072 : ℤ) = 4 * (2 : ℝ) ^ (-1074 : ℤ) := by
    rw [show (4 : ℝ) = (2 : ℝ) ^ (2 : ℤ) by norm_num, ← zpow_add₀ (by norm_num : (2 : ℝ) ≠ 0)]; norm_num
  have hmul := mul_le_mul_of_nonneg_left hS (by positivity : 0 ≤ 2 * (weightError ρ n z x + (n + 1) * (2 : ℝ) ^ (-52 : ℤ)))
  rw [e2]
  refine hb.trans ?_
  linarith

/-- The products that are added in two dimensions. -/
theorem term2 (R : DoubleRounding rnd) (interlaced : Bool) {ε0 ε1 L1 M p d0 d1 l0 l1 : ℝ} (h0 : Lemmas.FloatBary.Rel ε0 d0 l0) (h1 : Lemmas.FloatBary.Rel ε1 d1 l1)
    (hε0 : 0 ≤ ε0) (hε1 : 0 ≤ ε1) (hε1' : ε1 ≤ 1 / 2) (hL1 : |l1| ≤ L1) (hp : |p| ≤ M) :
    |(factors rnd interlaced p d0 d1).1 * (factors rnd interlaced p d0 d1).2 - p * l0 * l1| ≤
      (Real.exp (ε0 + ε1 + (2 : ℝ) ^ (-52 : ℤ)) - 1) * |p * l0 * l1| + (2 * L1 + M) * (2 : ℝ) ^ (-1074 : ℤ) := by
  have hu := two_pos (-52)
  have hη := two_pos (-1074)
  have hE := R_error R
  set u := (2 : ℝ) ^ (-52 : ℤ)
  set η := (2 : ℝ) ^ (-1074 : ℤ)
  clear_value u η
  have hL0 : 0 ≤ L1 := (abs_nonneg _).trans hL1
  have hM0 : 0 ≤ M := (abs_nonneg _).trans hp
  have hd1 : |d1| ≤ 2 * L1 := (h1.le_two hε1 hε1').trans (by linarith)
  have hb : Lemmas.FloatBary.Rel (ε0 + ε1) (p * d0 * d1) (p * l0 * l1) := by
    have := (rel_self (s := 0) le_rfl p).mul (h0.mul h1 hε1) (by linarith)
    rw [zero_add, ← mul_assoc, ← mul_assoc] at this
    exact this
  refine rel_abs ?_ hb hu.le
  have hexp : u ≤ Real.exp u - 1 := by have := Real.add_one_le_exp u; linarith
  have hfin : u * |p * d0 * d1| ≤ (Real.exp u - 1) * |p * d0 * d1| := mul_le_mul_of_nonneg_right hexp (abs_nonneg _)
  unfold factors
  cases interlaced
  · have h2 : |rnd (p * d0) * d1 - p * d0 * d1| ≤ (u * |p * d0| + η) * |d1| := by
      rw [← sub_mul, abs_mul]; exact mul_le_mul_of_nonneg_right (hE _) (abs_nonneg _)
    have h3 : η * |d1| ≤ η * (2 * L1) := mul_le_mul_of_nonneg_left hd1 hη.le
    have h4 : u * |p * d0| * |d1| = u * |p * d0 * d1| := by rw [abs_mul (p * d0) d1]; ring
    have h5 : 0 ≤ M * η := by positivity
    simp only [Bool.false_eq_true, if_false]
    linarith
  · have h2 : |p * rnd (d0 * d1) - p * d0 * d1| ≤ |p| * (u * |d0 * d1| + η) := by
      rw [mul_assoc p d0 d1, ← mul_sub, abs_mul]; exact mul_le_mul_of_nonneg_left (hE _) (abs_nonneg _)
    have h3 : |p| * η ≤ M * η := mul_le_mul_of_nonneg_right hp hη.le
    have h4 : |p| * (u * |d0 * d1|) = u * |p * d0 * d1| := by rw [mul_assoc p d0 d1, abs_mul p (d0 * d1)]; ring
    have h5 : 0 ≤ 2 * L1 * η := by positivity
    simp only [if_true]
    linarith

/-- In two dimensions, for the functions that evaluate one function and for those that evaluate several functions. -/
theorem error_2d (R : DoubleRounding rnd) (contract interlaced : Bool) {ρ0 ρ1 M : ℝ} {n0 n1 : ℕ} {z0 bw0 z1 bw1 phys : ℕ → ℝ} {x y : ℝ}
    (P0 : Points ρ0 n0 z0 bw0 x) (P1 : Points ρ1 n1 z1 bw1 y) (hs0 : weightError ρ0 n0 z0 x ≤ 1 / 8) (hs1 : weightError ρ1 n1 z1 y ≤ 1 / 8)
    (hN : ((n1 * n0 : ℕ) : ℝ) * (2 : ℝ) ^ (-52 : ℤ) ≤ 1 / 16) (hf : ∀ i < n0, ∀ j < n1, |phys (j * n0 + i)| ≤ M) :
    ∃ v, evaluate2 rnd contract interlaced n0 n1 z0 bw0 z1 bw1 phys x y = some v ∧
      |v - interpolant2 n0 n1 z0 z1 phys x y| ≤
        2 * (weightError ρ0 n0 z0 x + weightError ρ1 n1 z1 y + (n1 * n0 + 2) * (2 : ℝ) ^ (-52 : ℤ)) * lebesgue n0 z0 x * lebesgue n1 z1 y * M +
        2 * (n1 * n0) * (2 * lebesgue n1 z1 y + M + 2) * (2 : ℝ) ^ (-1074 : ℤ) := by
  obtain ⟨d0, hd0, hr0⟩ := weights_rel R P0 hs0
  obtain ⟨d1, hd1, hr1⟩ := weights_rel R P1 hs1
  have hε0 := weightError_nonneg P0
  have hε1 := weightError_nonneg P1
  have hL0 := lebesgue_ge P0.pos P0.distinct x
  have hL1 := lebesgue_ge P1.pos P1.distinct y
  have hu := two_pos (-52)
  have hη := two_pos (-1074)
  have hM : 0 ≤ M := (abs_nonneg _).trans (hf 0 P0.pos 0 P1.pos)
  refine ⟨_, by rw [evaluate2, hd0, hd1, Option.bind_some, Option.map_some], ?_⟩
  have hinner := fun (j : ℕ) (hj : j < n1) => acc_loop (u := (2 : ℝ) ^ (1 - ((53 : ℕ) : ℤ)))
    (α := weightError ρ0 n0 z0 x + weightError ρ1 n1 z1 y + (2 : ℝ) ^ (-52 : ℤ))
    (β := (2 * lebesgue n1 z1 y + M) * (2 : ℝ) ^ (-1074 : ℤ) + 2 * (2 : ℝ) ^ (-1074 : ℤ)) (n := n0) (m := 1)
    (body := fun i acc => mulAdd rnd contract (factors rnd interlaced (phys (j * n0 + i)) (d0 i) (d1 j)).1
      (factors rnd interlaced (phys (j * n0 + i)) (d0 i) (d1 j)).2 acc)
    (v := fun i => phys (j * n0 + i) * lagrange n0 z0 i x * lagrange n1 z1 j y)
    (a := fun i => |phys (j * n0 + i) * lagrange n0 z0 i x * lagrange n1 z1 j y|)
    (fun i hi k acc V S h => acc_step R (by norm_num) (by positivity) (by positivity) h
      (term2 R interlaced (hr0 i hi) (hr1 j hj) hε0 hε1 (by linarith) (lagrange_le hj y) (hf i hi j hj)))
  have hacc := acc_loop (n := n1) (m := n0 * 1) (fun j hj k acc V S h => hinner j hj k acc V S h) 0 0 0 0 acc_init
  rw [unit_eq] at hacc
  have hS : ∑ j ∈ Finset.range n1, ∑ i ∈ Finset.range n0, |phys (j * n0 + i) * lagrange n0 z0 i x * lagrange n1 z1 j y| ≤
      lebesgue n0 z0 x * lebesgue n1 z1 y * M := by
    rw [lebesgue, lebesgue, Finset.sum_mul_sum, Finset.sum_comm, Finset.sum_mul]
    refine Finset.sum_le_sum fun i hi => ?_
    rw [Finset.sum_mul]
    refine Finset.sum_le_sum fun j hj => ?_
    rw [abs_mul, abs_mul, mul_assoc, mul_comm]
    exact mul_le_mul_of_nonneg_left (hf i (Finset.mem_range.mp hi) j (Finset.mem_range.mp hj)) (by positivity)
  simp only [zero_add, mul_one] at hacc
  have hus := unit_small
  have hN' := hN
  push_cast at hN'
  have hb := acc_bound hacc (by positivity) hu.le (by positivity) (by
    push_cast
    generalize (2 : ℝ) ^ (-52 : ℤ) = u at *
    linarith)
  push_cast at hb
  have hmul := mul_le_mul_of_nonneg_left hS (by positivity :
    0 ≤ 2 * (weightError ρ0 n0 z0 x + weightError ρ1 n1 z1 y + (n1 * n0 + 2) * (2 : ℝ) ^ (-52 : ℤ)))
  refine hb.trans ?_
  generalize (2 : ℝ) ^ (-52 : ℤ) = u at *
  generalize (2 : ℝ) ^ (-1074 : ℤ) = η at *
  refine le_of_eq_of_le ?_ (add_le_add (le_of_le_of_eq hmul ?_) (le_refl (2 * ((n1 : ℝ) * n0) * (2 * lebesgue n1 z1 y + M + 2) * η)))
  · ring
  · ring

/-- The products that are added in three dimensions. -/
theorem term3 (R : DoubleRounding rnd) (interlaced : Bool) {ε0 ε1 ε2 L0 L1 L2 M p d0 d1 d2 l0 l1 l2 : ℝ} (h0 : Lemmas.FloatBary.Rel ε0 d0 l0)
    (h1 : Lemmas.FloatBary.Rel ε1 d1 l1) (h2 : Lemmas.FloatBary.Rel ε2 d2 l2) (hε0 : 0 ≤ ε0) (hε0' : ε0 ≤ 1 / 2) (hε1 : 0 ≤ ε1) (hε1' : ε1 ≤ 1 / 2)
    (hε2 : 0 ≤ ε2) (hε2' : ε2 ≤ 1 / 2) (hl0 : |l0| ≤ L0) (hL0 : 1 ≤ L0) (hl1 : |l1| ≤ L1) (hl2 : |l2| ≤ L2) (hp : |p| ≤ M) :
    |(factors rnd interlaced p d0 (rnd (d2 * d1))).1 * (factors rnd interlaced p d0 (rnd (d2 * d1))).2 - p * l0 * l1 * l2| ≤
      (Real.exp (ε0 + ε1 + ε2 + 2 * (2 : ℝ) ^ (-52 : ℤ)) - 1) * |p * l0 * l1 * l2| + (5 * M * L0 + 8 * L1 * L2 + 1) * (2 : ℝ) ^ (-1074 : ℤ) := by
  have hu := two_pos (-52)
  have hη := two_pos (-1074)
  have hη1 : (2 : ℝ) ^ (-1074 : ℤ) ≤ 1 := zpow_le_one_of_nonpos₀ (by norm_num) (by norm_num)
  have hu1 : (2 : ℝ) ^ (-52 : ℤ) ≤ 1 := unit_small.trans (by norm_num)
  have hE := R_error R
  set u := (2 : ℝ) ^ (-52 : ℤ)
  set η := (2 : ℝ) ^ (-1074 : ℤ)
  clear_value u η
  have hM0 : 0 ≤ M := (abs_nonneg _).trans hp
  have hL1 : 0 ≤ L1 := (abs_nonneg _).trans hl1
  have hL2 : 0 ≤ L2 := (abs_nonneg _).trans hl2
  have hd0 : |d0| ≤ 2 * L0 := (h0.le_two hε0 hε0').trans (by linarith)
  have hd1 : |d1| ≤ 2 * L1 := (h1.le_two hε1 hε1').trans (by linarith)
  have hd2 : |d2| ≤ 2 * L2 := (h2.le_two hε2 hε2').trans (by linarith)
  have hd21 : |d2 * d1| ≤ 4 * L1 * L2 := by
    rw [abs_mul]
    have := mul_le_mul hd2 hd1 (abs_nonneg _) (by positivity)
    linarith
  have hb : Lemmas.FloatBary.Rel (ε0 + ε1 + ε2) (p * d0 * (d2 * d1)) (p * l0 * l1 * l2) := by
    have := (rel_self (s := 0) le_rfl p).mul (h0.mul (h2.mul h1 hε1) (by linarith)) (by linarith)
    rw [zero_add, ← mul_assoc, show p * (l0 * (l2 * l1)) = p * l0 * l1 * l2 by ring] at this
    exact this.mono (by linarith)
  refine rel_abs ?_ hb (by linarith)
  have hexp : 2 * u + u * u ≤ Real.exp (2 * u) - 1 := by
    have h3 := Real.add_one_le_exp u
    have h4 : (1 + u) * (1 + u) ≤ Real.exp u * Real.exp u := mul_le_mul (by linarith) (by linarith) (by positivity) (Real.exp_pos _).le
    rw [← Real.exp_add] at h4
    rw [show 2 * u = u + u by ring]
    linarith
  set B := |p * d0 * (d2 * d1)| with hB
  have hfin : (2 * u + u * u) * B ≤ (Real.exp (2 * u) - 1) * B := mul_le_mul_of_nonneg_right hexp (abs_nonneg _)
  have hc := hE (d2 * d1)
  set c1 := rnd (d2 * d1) with hc1
  clear_value c1
  have hMη : 0 ≤ M * L0 * η := by positivity
  have hLη : 0 ≤ L1 * L2 * η := by positivity
  unfold factors
  cases interlaced
  · simp only [Bool.false_eq_true, if_false]
    have hq := hE (p * d0)
    have hBm : B = |p * d0| * |d2 * d1| := abs_mul _ _
    have hpd : |p * d0| ≤ 2 * M * L0 := by
      rw [abs_mul]
      have := mul_le_mul hp hd0 (abs_nonneg _) hM0
      linarith
    set q := rnd (p * d0) with hqd
    clear_value q
    have hq2 : |q| ≤ (1 + u) * |p * d0| + η := by
      have : |q| ≤ |q - p * d0| + |p * d0| := by simpa using abs_add_le (q - p * d0) (p * d0)
      linarith
    have e : q * c1 - p * d0 * (d2 * d1) = q * (c1 - d2 * d1) + (q - p * d0) * (d2 * d1) := by ring
    have k1 : |q * c1 - p * d0 * (d2 * d1)| ≤ ((1 + u) * |p * d0| + η) * (u * |d2 * d1| + η) + (u * |p * d0| + η) * |d2 * d1| := by
      rw [e]
      refine (abs_add_le _ _).trans ?_
      rw [abs_mul, abs_mul]
      exact add_le_add (mul_le_mul hq2 hc (abs_nonneg _) (by positivity)) (mul_le_mul_of_nonneg_right hq (abs_nonneg _))
    set s := |p * d0|
    set t := |d2 * d1|
    have hs : 0 ≤ s := abs_nonneg _
    have ht : 0 ≤ t := abs_nonneg _
    have k2 : (1 + u) * s * η ≤ 2 * (2 * M * L0) * η := mul_le_mul_of_nonneg_right (mul_le_mul (by linarith) hpd hs (by norm_num)) hη.le
    have k3 : η * (u * t) ≤ η * (1 * (4 * L1 * L2)) := mul_le_mul_of_nonneg_left (mul_le_mul hu1 hd21 ht (by norm_num)) hη.le
    have k4 : η * t ≤ η * (4 * L1 * L2) := mul_le_mul_of_nonneg_left hd21 hη.le
    have k5 : η * η ≤ 1 * η := mul_le_mul_of_nonneg_right hη1 hη.le
    rw [hBm] at hfin ⊢
    linarith
  · simp only [if_true]
    have hq := hE (d0 * c1)
    have hBm : B = |p| * (|d0| * |d2 * d1|) := by rw [hB, mul_assoc, abs_mul, abs_mul]
    set q := rnd (d0 * c1) with hqd
    clear_value q
    have hc2 : |c1| ≤ (1 + u) * |d2 * d1| + η := by
      have : |c1| ≤ |c1 - d2 * d1| + |d2 * d1| := by simpa using abs_add_le (c1 - d2 * d1) (d2 * d1)
      linarith
    have e : p * q - p * d0 * (d2 * d1) = p * ((q - d0 * c1) + d0 * (c1 - d2 * d1)) := by ring
    have k0 : |(q - d0 * c1) + d0 * (c1 - d2 * d1)| ≤ u * (|d0| * ((1 + u) * |d2 * d1| + η)) + η + |d0| * (u * |d2 * d1| + η) := by
      refine (abs_add_le _ _).trans ?_
      rw [abs_mul d0 (c1 - d2 * d1)]
      refine add_le_add (hq.trans ?_) (mul_le_mul_of_nonneg_left hc (abs_nonneg _))
      rw [abs_mul]
      have := mul_le_mul_of_nonneg_left (mul_le_mul_of_nonneg_left hc2 (abs_nonneg d0)) hu.le
      linarith
    have k1 : |p * q - p * d0 * (d2 * d1)| ≤ |p| * (u * (|d0| * ((1 + u) * |d2 * d1| + η)) + η + |d0| * (u * |d2 * d1| + η)) := by
      rw [e, abs_mul]; exact mul_le_mul_of_nonneg_left k0 (abs_nonneg _)
    set r := |d0|
    set t := |d2 * d1|
    have hr : 0 ≤ r := abs_nonneg _
    have k2 : |p| * (η * (u * r + 1 + r)) ≤ M * (η * (5 * L0)) := by
      refine mul_le_mul hp (mul_le_mul_of_nonneg_left ?_ hη.le) (by positivity) hM0
      have : u * r ≤ 1 * (2 * L0) := mul_le_mul hu1 hd0 hr (by norm_num)
      linarith
    rw [hBm] at hfin ⊢
    have hη' : 0 ≤ η := hη.le
    linarith

/-- In three dimensions. -/
theorem error_3d (R : DoubleRounding rnd) (contract interlaced : Bool) {ρ0 ρ1 ρ2 M : ℝ} {n0 n1 n2 : ℕ} {z0 bw0 z1 bw1 z2 bw2 phys : ℕ → ℝ} {x y w : ℝ}
    (P0 : Points ρ0 n0 z0 bw0 x) (P1 : Points ρ1 n1 z1 bw1 y) (P2 : Points ρ2 n2 z2 bw2 w) (hs0 : weightError ρ0 n0 z0 x ≤ 1 / 8)
    (hs1 : weightError ρ1 n1 z1 y ≤ 1 / 8) (hs2 : weightError ρ2 n2 z2 w ≤ 1 / 8) (hN : ((n2 * (n1 * n0) : ℕ) : ℝ) * (2 : ℝ) ^ (-52 : ℤ) ≤ 1 / 16)
    (hf : ∀ i < n0, ∀ j < n1, ∀ k < n2, |phys (k * (n0 * n1) + j * n0 + i)| ≤ M) :
    ∃ v, evaluate3 rnd contract interlaced n0 n1 n2 z0 bw0 z1 bw1 z2 bw2 phys x y w = some v ∧
      |v - interpolant3 n0 n1 n2 z0 z1 z2 phys x y w| ≤
        2 * (weightError ρ0 n0 z0 x + weightError ρ1 n1 z1 y + weightError ρ2 n2 z2 w + (n2 * (n1 * n0) + 3) * (2 : ℝ) ^ (-52 : ℤ)) *
          lebesgue n0 z0 x * lebesgue n1 z1 y * lebesgue n2 z2 w * M +
        2 * (n2 * (n1 * n0)) * (5 * M * lebesgue n0 z0 x + 8 * lebesgue n1 z1 y * lebesgue n2 z2 w + 3) * (2 : ℝ) ^ (-1074 : ℤ) := by
  obtain ⟨d0, hd0, hr0⟩ := weights_rel R P0 hs0
  obtain ⟨d1, hd1, hr1⟩ := weights_rel R P1 hs1
  obtain ⟨d2, hd2, hr2⟩ := weights_rel R P2 hs2
  have hε0 := weightError_nonneg P0
  have hε1 := weightError_nonneg P1
  have hε2 := weightError_nonneg P2
  have hL0 := lebesgue_ge P0.pos P0.distinct x
  have hL1 := lebesgue_ge P1.pos P1.distinct y
  have hL2 := lebesgue_ge P2.pos P2.distinct w
  have hu := two_pos (-52)
  have hη := two_pos (-1074)
  have hM : 0 ≤ M := (abs_nonneg _).trans (hf 0 P0.pos 0 P1.pos 0 P2.pos)
  refine ⟨_, by rw [evaluate3, hd0, hd1, hd2, Option.bind_some, Option.bind_some, Option.map_some], ?_⟩
  have hinner := fun (k : ℕ) (hk : k < n2) (j : ℕ) (hj : j < n1) => acc_loop (u := (2 : ℝ) ^ (1 - ((53 : ℕ) : ℤ)))
    (α := weightError ρ0 n0 z0 x + weightError ρ1 n1 z1 y + weightError ρ2 n2 z2 w + 2 * (2 : ℝ) ^ (-52 : ℤ))
    (β := (5 * M * lebesgue n0 z0 x + 8 * lebesgue n1 z1 y * lebesgue n2 z2 w + 1) * (2 : ℝ) ^ (-1074 : ℤ) + 2 * (2 : ℝ) ^ (-1074 : ℤ)) (n := n0) (m := 1)
    (body := fun i acc => mulAdd rnd contract (factors rnd interlaced (phys (k * (n0 * n1) + j * n0 + i)) (d0 i) (rnd (d2 k * d1 j))).1
      (factors rnd interlaced (phys (k * (n0 * n1) + j * n0 + i)) (d0 i) (rnd (d2 k * d1 j))).2 acc)
    (v := fun i => phys (k * (n0 * n1) + j * n0 + i) * lagrange n0 z0 i x * lagrange n1 z1 j y * lagrange n2 z2 k w)
    (a := fun i => |phys (k * (n0 * n1) + j * n0 + i) * lagrange n0 z0 i x * lagrange n1 z1 j y * lagrange n2 z2 k w|)
    (fun i hi _ acc V S h => acc_step R (by norm_num) (by positivity) (by positivity) h
      (term3 R interlaced (hr0 i hi) (hr1 j hj) (hr2 k hk) hε0 (by linarith) hε1 (by linarith) hε2 (by linarith) (lagrange_le hi x) hL0
        (lagrange_le hj y) (lagrange_le hk w) (hf i hi j hj k hk)))
  have hmiddle := fun (k : ℕ) (hk : k < n2) => acc_loop (n := n1) (m := n0 * 1) (fun j hj m acc V S h => hinner k hk j hj m acc V S h)
  have hacc := acc_loop (n := n2) (m := n1 * (n0 * 1)) (fun k hk m acc V S h => hmiddle k hk m acc V S h) 0 0 0 0 acc_init
  rw [unit_eq] at hacc
  have hS : ∑ k ∈ Finset.range n2, ∑ j ∈ Finset.range n1, ∑ i ∈ Finset.range n0,
      |phys (k * (n0 * n1) + j * n0 + i) * lagrange n0 z0 i x * lagrange n1 z1 j y * lagrange n2 z2 k w| ≤
      lebesgue n0 z0 x * lebesgue n1 z1 y * lebesgue n2 z2 w * M := by
    have e : lebesgue n0 z0 x * lebesgue n1 z1 y * lebesgue n2 z2 w * M =
        ∑ k ∈ Finset.range n2, ∑ j ∈ Finset.range n1, ∑ i ∈ Finset.range n0, M * |lagrange n0 z0 i x| * |lagrange n1 z1 j y| * |lagrange n2 z2 k w| := by
      simp only [← Finset.mul_sum, ← Finset.sum_mul]
      unfold lebesgue
      ring
    rw [e]
    refine Finset.sum_le_sum fun k hk => Finset.sum_le_sum fun j hj => Finset.sum_le_sum fun i hi => ?_
    rw [abs_mul, abs_mul, abs_mul]
    have := hf i (Finset.mem_range.mp hi) j (Finset.mem_range.mp hj) k (Finset.mem_range.mp hk)
    gcongr
  simp only [zero_add, mul_one] at hacc
  have hus := unit_small
  have hN' := hN
  push_cast at hN'
  have hb := acc_bound hacc (by positivity) hu.le (by positivity) (by
    push_cast
    generalize (2 : ℝ) ^ (-52 : ℤ) = u at *
    linarith)
  push_cast at hb
  have hmul := mul_le_mul_of_nonneg_left hS (by positivity :
    0 ≤ 2 * (weightError ρ0 n0 z0 x + weightError ρ1 n1 z1 y + weightError ρ2 n2 z2 w + (n2 * (n1 * n0) + 3) * (2 : ℝ) ^ (-52 : ℤ)))
  refine hb.trans ?_
  generalize (2 : ℝ) ^ (-52 : ℤ) = u at *
  generalize (2 : ℝ) ^ (-1074 : ℤ) = η at *
  refine le_of_eq_of_le ?_ (add_le_add (le_of_le_of_eq hmul ?_)
    (le_refl (2 * ((n2 : ℝ) * (n1 * n0)) * (5 * M * lebesgue n0 z0 x + 8 * lebesgue n1 z1 y * lebesgue n2 z2 w + 3) * η)))
  · ring
  · ring

/-! ### The range of the values -/

/-- No value that is computed for the weights overflows or underflows. -/
theorem weights_in_range (R : DoubleRounding rnd) {ρ : ℝ} {n : ℕ} {z bw : ℕ → ℝ} {x : ℝ} (P : Points ρ n z bw x) (hx : ∀ j < n, x ≠ z j)
    (hsmall : weightError ρ n z x ≤ 1 / 8) :
    (∀ i < n, (2 : ℝ) ^ (-306 : ℤ) ≤ |overDiff rnd z bw x i| ∧ |overDiff rnd z bw x i| ≤ (2 : ℝ) ^ (604 : ℤ)) ∧
    (2 : ℝ) ^ (-360 : ℤ) ≤ |denomF rnd n z bw x| ∧ |denomF rnd n z bw x| ≤ (2 : ℝ) ^ (655 : ℤ) := by
  rcases P.coordinate with ⟨j, hj, e⟩ | hoff
  · exact absurd e (hx j hj)
  · obtain ⟨-, h1, h2, h3, -⟩ := weights_off R P hoff hsmall
    exact ⟨h1, h3, h2⟩

/-! ### What the interpolant is -/

/-- The interpolant of the values of a polynomial of degree below the number of points is the polynomial. -/
theorem interpolant_polynomial {n : ℕ} {z : ℕ → ℝ} (hd : ∀ i < n, ∀ j < n, z i = z j → i = j) (q : Polynomial ℝ) (hq : q.degree < n) (x : ℝ) :
    interpolant1 n z (fun i => q.eval (z i)) x = q.eval x := by
  have hinj : Set.InjOn z (Finset.range n : Finset ℕ) := by
    intro i hi j hj e
    simp only [Finset.coe_range, Set.mem_Iio] at hi hj
    exact hd i hi j hj e
  have h := Lagrange.eq_interpolate (s := Finset.range n) (f := q) hinj (by simpa using hq)
  unfold interpolant1
  conv_rhs => rw [h, Lagrange.interpolate_apply, Polynomial.eval_finset_sum]
  exact Finset.sum_congr rfl fun i _ => by rw [Polynomial.eval_mul, Polynomial.eval_C, lagrange_basis]

/-- A polynomial is evaluated up to rounding errors. -/
theorem polynomial_1d (R : DoubleRounding rnd) (contract : Bool) {ρ M : ℝ} {n : ℕ} {z bw : ℕ → ℝ} {x : ℝ} (P : Points ρ n z bw x)
    (hsmall : weightError ρ n z x ≤ 1 / 8) (q : Polynomial ℝ) (hq : q.degree < n) (hf : ∀ i < n, |q.eval (z i)| ≤ M) :
    ∃ v, evaluate1 rnd contract n z bw (fun i => q.eval (z i)) x = some v ∧
      |v - q.eval x| ≤ 2 * (weightError ρ n z x + (n + 1) * (2 : ℝ) ^ (-52 : ℤ)) * lebesgue n z x * M + n * (2 : ℝ) ^ (-1072 : ℤ) := by
  obtain ⟨v, h1, h2⟩ := error_1d R contract P hsmall hf
  rw [interpolant_polynomial P.distinct q hq x] at h2
  exact ⟨v, h1, h2⟩

/-! ### Examples -/

/-- The points -1, 0 and 1 and their weights. -/
noncomputable def exZ (i : ℕ) : ℝ := if i = 0 then -1 else if i = 1 then 0 else 1
noncomputable def exBw (i : ℕ) : ℝ := if i = 1 then -1 else 1 / 2

theorem double_frac {m e : ℤ} (hm : |m| ≤ 2 ^ 53) (he : -1074 ≤ e) : Double (m * (2 : ℝ) ^ e) := float_of_multiple (by norm_num) he hm

theorem exZ_double (i : ℕ) : Double (exZ i) := by
  unfold exZ
  split_ifs
  · simpa using double_frac (m := -1) (e := 0) (by norm_num) (by norm_num)
  · simpa using double_frac (m := 0) (e := 0) (by norm_num) (by norm_num)
  · simpa using double_frac (m := 1) (e := 0) (by norm_num) (by norm_num)

theorem exBw_double (i : ℕ) : Double (exBw i) := by
  unfold exBw
  split_ifs
  · simpa using double_frac (m := -1) (e := 0) (by norm_num) (by norm_num)
  · have := double_frac (m := 1) (e := -1) (by norm_num) (by norm_num)
    norm_num at this ⊢
    exact this

theorem erase0 : (Finset.range 3).erase 0 = {1, 2} := by decide
theorem erase1 : (Finset.range 3).erase 1 = {0, 2} := by decide
theorem erase2 : (Finset.range 3).erase 2 = {0, 1} := by decide

theorem ex_weights : ∀ i < 3, exBw i = 1 * (∏ j ∈ (Finset.range 3).erase i, (exZ i - exZ j))⁻¹ := by
  intro i hi
  interval_cases i
  · rw [erase0, Finset.prod_pair (by norm_num)]; norm_num [exBw, exZ]
  · rw [erase1, Finset.prod_pair (by norm_num)]; norm_num [exBw, exZ]
  · rw [erase2, Finset.prod_pair (by norm_num)]; norm_num [exBw, exZ]

theorem ex_distinct : ∀ i < 3, ∀ j < 3, exZ i = exZ j → i = j := by
  intro i hi j hj
  interval_cases i <;> interval_cases j <;> norm_num [exZ]

theorem ex_points {x : ℝ} (hx : Double x) (hc : (∃ j < 3, x = exZ j) ∨ ∀ i < 3, (2 : ℝ) ^ (-300 : ℤ) ≤ |exZ i - x| ∧ |exZ i - x| ≤ 4) : Points 0 3 exZ exBw x where
  pos := by norm_num
  z_double i _ := exZ_double i
  bw_double i _ := exBw_double i
  x_double := hx
  distinct := ex_distinct
  weights := ⟨1, one_ne_zero, fun i hi => by rw [← ex_weights i hi, sub_self, abs_zero, zero_mul]⟩
  size i hi := by
    have h1 : (2 : ℝ) ^ (-300 : ℤ) ≤ 2 ^ (-1 : ℤ) := zpow_le_zpow_right₀ (by norm_num) (by norm_num)
    have h2 : (2 : ℝ) ^ (0 : ℤ) ≤ 2 ^ (300 : ℤ) := zpow_le_zpow_right₀ (by norm_num) (by norm_num)
    have e1 : (2 : ℝ) ^ (-1 : ℤ) = 1 / 2 := by norm_num
    have e2 : (2 : ℝ) ^ (0 : ℤ) = 1 := by norm_num
    rw [e1] at h1
    rw [e2] at h2
    have h3 : |exBw i| = 1 ∨ |exBw i| = 1 / 2 := by
      unfold exBw
      split_ifs
      · left; norm_num
      · right; norm_num
    rcases h3 with h | h <;> rw [h]
    · exact ⟨h1.trans (by norm_num), h2⟩
    · exact ⟨h1, le_trans (by norm_num) h2⟩
  coordinate := hc
  rho := le_rfl

theorem double_half : Double (1 / 2) := by
  have := double_frac (m := 1) (e := -1) (by norm_num) (by norm_num)
  norm_num at this ⊢
  exact this

theorem ex_half : Points 0 3 exZ exBw (1 / 2) := by
  refine ex_points double_half (Or.inr fun i hi => ?_)
  have h1 : (2 : ℝ) ^ (-300 : ℤ) ≤ 2 ^ (-1 : ℤ) := zpow_le_zpow_right₀ (by norm_num) (by norm_num)
  have e1 : (2 : ℝ) ^ (-1 : ℤ) = 1 / 2 := by norm_num
  rw [e1] at h1
  have h3 : |exZ i - 1 / 2| = 3 / 2 ∨ |exZ i - 1 / 2| = 1 / 2 := by
    interval_cases i
    · left; norm_num [exZ, abs_of_neg]
    · right; norm_num [exZ, abs_of_neg]
    · right; norm_num [exZ, abs_of_pos]
  rcases h3 with h | h <;> rw [h]
  · exact ⟨h1.trans (by norm_num), by norm_num⟩
  · exact ⟨h1, by norm_num⟩

theorem ex_lebesgue : lebesgue 3 exZ (1 / 2) = 5 / 4 := by
  unfold lebesgue lagrange
  rw [Finset.sum_range_succ, Finset.sum_range_succ, Finset.sum_range_succ, Finset.sum_range_zero, erase0, erase1, erase2, Finset.prod_pair (by norm_num),
    Finset.prod_pair (by norm_num), Finset.prod_pair (by norm_num)]
  norm_num [exZ, abs_of_neg, abs_of_pos]

theorem ex_small : weightError 0 3 exZ (1 / 2) ≤ 1 / 8 := by
  unfold weightError
  rw [ex_lebesgue]
  norm_num

/-- The hypotheses are met: for these points the value at 1/2 of values of at most one is within 2 ^ -45 of the interpolant. -/
example (R : DoubleRounding rnd) (contract : Bool) (phys : ℕ → ℝ) (hf : ∀ i < 3, |phys i| ≤ 1) :
    ∃ v, evaluate1 rnd contract 3 exZ exBw phys (1 / 2) = some v ∧ |v - interpolant1 3 exZ phys (1 / 2)| ≤ (2 : ℝ) ^ (-45 : ℤ) := by
  obtain ⟨v, h1, h2⟩ := error_1d R contract ex_half ex_small hf
  refine ⟨v, h1, h2.trans ?_⟩
  unfold weightError
  rw [ex_lebesgue]
  have h3 : (2 : ℝ) ^ (-1072 : ℤ) ≤ 2 ^ (-60 : ℤ) := zpow_le_zpow_right₀ (by norm_num) (by norm_num)
  have e1 : (2 : ℝ) ^ (-45 : ℤ) = 128 * (2 : ℝ) ^ (-52 : ℤ) := by norm_num
  have e2 : (2 : ℝ) ^ (-60 : ℤ) ≤ (2 : ℝ) ^ (-52 : ℤ) := zpow_le_zpow_right₀ (by norm_num) (by norm_num)
  have h4 := h3.trans e2
  rw [e1]
  have h5 := two_pos (-52)
  generalize (2 : ℝ) ^ (-52 : ℤ) = u at *
  generalize (2 : ℝ) ^ (-1072 : ℤ) = η at *
  push_cast
  linarith

example (R : DoubleRounding rnd) : ∃ v, evaluate2 rnd false true 3 3 exZ exBw exZ exBw (fun _ => 1) (1 / 2) (1 / 2) = some v := by
  obtain ⟨v, h, -⟩ := error_2d R false true (M := 1) ex_half ex_half ex_small ex_small (by norm_num) (fun i _ j _ => by norm_num) (phys := fun _ => 1)
  exact ⟨v, h⟩

example (R : DoubleRounding rnd) : evaluate3 rnd true false 3 3 3 exZ exBw exZ exBw exZ exBw (fun i => if i = 13 then 1 / 2 else 0) 0 0 0 = some (1 / 2) := by
  have P : Points 0 3 exZ exBw 0 := ex_points float_zero (Or.inl ⟨1, by norm_num, by norm_num [exZ]⟩)
  have h := exact_at_point_3d R true false P P P (phys := fun i => if i = 13 then 1 / 2 else 0) (i := 1) (j := 1) (k := 1)
    (fun i _ j _ k _ => by split_ifs; exacts [double_half, float_zero]) (by norm_num) (by norm_num) (by norm_num) (by norm_num [exZ]) (by norm_num [exZ])
    (by norm_num [exZ])
  simpa using h

/-! ### Next to a point at zero -/

/-- The bound on the distance to the points cannot be dropped: next to the point zero, at a coordinate of the reference element, a quotient is larger
than all values of `double`. The code then computes an infinite denominator, a factor of zero, and a weight that is not a number. -/
theorem overflow_next_to_point (R : DoubleRounding rnd) : ∃ x : ℝ, Double x ∧ |x| ≤ 1 ∧ x ≠ 0 ∧ (∀ j < 3, x ≠ exZ j) ∧
    (2 : ℝ) ^ (1024 : ℤ) ≤ |exBw 1 / rnd (exZ 1 - x)| := by
  have hx : Double ((2 : ℝ) ^ (-1074 : ℤ)) := float_pow (by norm_num) le_rfl
  have hpos := two_pos (-1074)
  have hlt : (2 : ℝ) ^ (-1074 : ℤ) < 2 ^ (0 : ℤ) := zpow_lt_zpow_right₀ (by norm_num) (by norm_num)
  rw [zpow_zero] at hlt
  refine ⟨(2 : ℝ) ^ (-1074 : ℤ), hx, by rw [abs_of_pos hpos]; exact hlt.le, hpos.ne', fun j _ => ?_, ?_⟩
  · unfold exZ
    split_ifs
    · intro e; rw [e] at hpos; norm_num at hpos
    · exact hpos.ne'
    · exact hlt.ne
  · have e1 : exZ 1 - (2 : ℝ) ^ (-1074 : ℤ) = -(2 : ℝ) ^ (-1074 : ℤ) := by simp [exZ]
    have e2 : exBw 1 = -1 := by simp [exBw]
    rw [e1, e2, R.exact _ (float_neg hx), neg_div_neg_eq, abs_of_pos (by positivity), one_div, ← zpow_neg]
    exact zpow_le_zpow_right₀ (by norm_num) (by norm_num)

end Verif.Props.C100
