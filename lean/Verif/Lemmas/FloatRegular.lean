import Verif.Model.FloatRegular
import Verif.Lemmas.FloatBoris
import Mathlib.Tactic.Linarith
import Mathlib.Tactic.Positivity
import Mathlib.Tactic.FieldSimp

/-! Lemmas for C107: errors of the local coordinates of the regular mapper, in terms of the relative error `u` and the underflow error `η` of each operation. `M` is the size of the element. -/

namespace Verif.Lemmas.FloatRegular
open Verif.Spec Verif.Model.FloatBoris Verif.Model.FloatRegular Verif.Model.RegularMap Verif.Lemmas.FloatBoris

/-- The rounding after division by `n`. -/
noncomputable def scaled (rnd : ℝ → ℝ) (n : ℝ) : ℝ → ℝ := fun z => rnd (n * z) / n

theorem scaled_err {rnd : ℝ → ℝ} {u η n : ℝ} (he : ∀ z, |rnd z - z| ≤ u * |z| + η) (hn : n ≠ 0) (z : ℝ) : |scaled rnd n z - z| ≤ u * |z| + η / |n| := by
  have h := he (n * z)
  have hp := abs_pos.2 hn
  have e : scaled rnd n z - z = (rnd (n * z) - n * z) / n := by unfold scaled; field_simp
  rw [e, abs_div, div_le_iff₀ hp]
  rw [abs_mul] at h
  have e2 : (u * |z| + η / |n|) * |n| = u * (|n| * |z|) + η := by field_simp
  rw [e2]; exact h

theorem rnd_scaled {rnd : ℝ → ℝ} {n : ℝ} (hn : n ≠ 0) (z : ℝ) : rnd (n * z) = n * scaled rnd n z := by unfold scaled; field_simp

theorem prod_scaled {rnd : ℝ → ℝ} {n : ℝ} (hn : n ≠ 0) (b : Bool) (x y : ℝ) : prodF rnd b x (n * y) = n * prodF (scaled rnd n) b x y := by
  unfold prodF; split_ifs
  · ring
  · rw [← rnd_scaled hn]; congr 1; ring

theorem prod_first {rnd : ℝ → ℝ} {n : ℝ} (hn : n ≠ 0) (b : Bool) (y : ℝ) : prodF rnd b n y = n * prodF (scaled rnd n) b 1 y := by
  unfold prodF; split_ifs
  · ring
  · rw [← rnd_scaled hn]; congr 1; ring

theorem prod_zero_right {rnd : ℝ → ℝ} (h : rnd 0 = 0) (b : Bool) (x : ℝ) : prodF rnd b x 0 = 0 := by unfold prodF; split_ifs <;> simp [h]
theorem prod_zero_left {rnd : ℝ → ℝ} (h : rnd 0 = 0) (b : Bool) (x : ℝ) : prodF rnd b 0 x = 0 := by unfold prodF; split_ifs <;> simp [h]

/-- The components of the computed orthogonal vector, divided by the normal. -/
noncomputable def orthF (rnd : ℝ → ℝ) (n : ℝ) (c : ℕ → Bool) (i : ℕ) (b0 b1 : ℝ) : V3 ℝ :=
  ⟨scaled rnd n (-prodF (scaled rnd n) (c (i + 1)) 1 b1), scaled rnd n (prodF (scaled rnd n) (c (i + 2)) 1 b0), 0⟩

theorem cross_norm_eq {rnd : ℝ → ℝ} (h : rnd 0 = 0) (c : ℕ → Bool) (i : ℕ) (a0 a1 b0 b1 : ℝ) :
    crossF rnd c i ⟨a0, a1, 0⟩ ⟨b0, b1, 0⟩ = ⟨0, 0, rnd (prodF rnd (c (i + 4)) a0 b1 - prodF rnd (c (i + 5)) a1 b0)⟩ := by
  unfold crossF; simp only [prod_zero_left h, prod_zero_right h, sub_self, h]

theorem cross_orth_eq {rnd : ℝ → ℝ} (h : rnd 0 = 0) (c : ℕ → Bool) (i : ℕ) {n : ℝ} (hn : n ≠ 0) (b0 b1 : ℝ) :
    crossF rnd c i ⟨0, 0, n⟩ ⟨b0, b1, 0⟩ = ⟨n * (orthF rnd n c i b0 b1).x, n * (orthF rnd n c i b0 b1).y, 0⟩ := by
  unfold crossF orthF
  simp only [prod_zero_left h, prod_zero_right h, sub_self, h, prod_first hn, zero_sub, sub_zero]
  rw [← mul_neg, rnd_scaled (rnd := rnd) hn, rnd_scaled (rnd := rnd) hn]

theorem dot_scaled {rnd : ℝ → ℝ} (h : rnd 0 = 0) (c : ℕ → Bool) (i : ℕ) {n : ℝ} (hn : n ≠ 0) (a q0 q1 : ℝ) (b : ℝ) :
    dotF rnd c i ⟨a, b, 0⟩ ⟨n * q0, n * q1, 0⟩ = n * dotF (scaled rnd n) c i ⟨a, b, 0⟩ ⟨q0, q1, 0⟩ := by
  have h0 : scaled rnd n 0 = 0 := by unfold scaled; rw [mul_zero, h, zero_div]
  unfold dotF
  simp only [prod_zero_right h, prod_zero_right h0, prod_scaled hn, add_zero]
  rw [← mul_add, rnd_scaled (rnd := rnd) hn, rnd_scaled (rnd := rnd) hn]

section
variable {rnd : ℝ → ℝ} {u η M : ℝ} (he : ∀ z, |rnd z - z| ≤ u * |z| + η) (hu0 : 0 ≤ u) (hu : u ≤ 1 / 1000) (hη : 0 ≤ η) (hM : 0 < M)
include he hu0 hM

theorem edge_err (hηM : η ≤ u * M) {x : ℝ} (hx : |x| ≤ M) : |rnd x - x| ≤ 2 * (u * M) := by
  have := he x
  have : u * |x| ≤ u * M := mul_le_mul_of_nonneg_left hx hu0
  linarith [he x]

include hu hη

theorem orth_err (hηM : η ≤ u * M) (b : Bool) {y' y : ℝ} (h : |y' - y| ≤ 2 * (u * M)) (hy : |y| ≤ M) :
    |rnd (prodF rnd b 1 y') - y| ≤ 7 * (u * M) ∧ |rnd (-prodF rnd b 1 y') - -y| ≤ 7 * (u * M) := by
  have hw : 0 ≤ u * M := mul_nonneg hu0 hM.le
  have huw : u * (u * M) ≤ u * M / 1000 := by have := mul_le_mul_of_nonneg_right hu hw; linarith
  have h1 := prod_err he hu0 hη b (x := 1) (x' := 1) (ex := 0) (X := 1) (by simp) h (by simp) hy
  rw [one_mul] at h1
  have h2 : |prodF rnd b 1 y' - y| ≤ 4.1 * (u * M) := by refine h1.trans ?_; nlinarith
  have h3 := rnd_err he hu0 h2 hy
  have h4 : |-prodF rnd b 1 y' - -y| ≤ 4.1 * (u * M) := by
    have : -prodF rnd b 1 y' - -y = -(prodF rnd b 1 y' - y) := by ring
    rw [this, abs_neg]; exact h2
  have h5 := rnd_err he hu0 h4 (A := M) (by rwa [abs_neg])
  exact ⟨h3.trans (by nlinarith), h5.trans (by nlinarith)⟩

theorem dot_err (h00 : rnd 0 = 0) (hηM : η ≤ u * M ^ 2) (c : ℕ → Bool) (i : ℕ) {a b q0 q1 a' b' q0' q1' : ℝ} (ha : |a' - a| ≤ 2 * (u * M)) (hb : |b' - b| ≤ 2 * (u * M))
    (hq0 : |q0' - q0| ≤ 7 * (u * M)) (hq1 : |q1' - q1| ≤ 7 * (u * M)) (ha1 : |a| ≤ M) (hb1 : |b| ≤ M) (hq01 : |q0| ≤ M) (hq11 : |q1| ≤ M) :
    |dotF rnd c i ⟨a', b', 0⟩ ⟨q0', q1', 0⟩ - (a * q0 + b * q1)| ≤ 29 * (u * M ^ 2) := by
  have hW : 0 ≤ u * M ^ 2 := by positivity
  have huW : u * (u * M ^ 2) ≤ u * M ^ 2 / 1000 := by have := mul_le_mul_of_nonneg_right hu hW; linarith
  have key : ∀ (f : Bool) {x y x' y' : ℝ}, |x' - x| ≤ 2 * (u * M) → |y' - y| ≤ 7 * (u * M) → |x| ≤ M → |y| ≤ M → |prodF rnd f x' y' - x * y| ≤ 11.1 * (u * M ^ 2) ∧ |x * y| ≤ M ^ 2 := by
    intro f x y x' y' h1 h2 h3 h4
    have := prod_err he hu0 hη f h1 h2 h3 h4
    refine ⟨this.trans ?_, ?_⟩
    · have e : M * (7 * (u * M)) + M * (2 * (u * M)) + 2 * (u * M) * (7 * (u * M)) = 9 * (u * M ^ 2) + 14 * (u * (u * M ^ 2)) := by ring
      rw [e]
      have : u * (M * M + (9 * (u * M ^ 2) + 14 * (u * (u * M ^ 2)))) = u * M ^ 2 + 9 * (u * (u * M ^ 2)) + 14 * (u * (u * (u * M ^ 2))) := by ring
      rw [this]
      have h5 : u * (u * (u * M ^ 2)) ≤ u * (u * M ^ 2) / 1000 := by have := mul_le_mul_of_nonneg_right hu (mul_nonneg hu0 hW); linarith
      linarith
    · rw [abs_mul, sq]; exact mul_le_mul h3 h4 (abs_nonneg _) hM.le
  unfold dotF
  dsimp only
  rw [prod_zero_right h00, add_zero]
  obtain ⟨k1, k2⟩ := key (c i) ha hq0 ha1 hq01
  obtain ⟨k3, k4⟩ := key (c (i + 1)) hb hq1 hb1 hq11
  have hA : |a * q0 + b * q1| ≤ 2 * M ^ 2 := (abs_add_le _ _).trans (by linarith)
  have h1 := add_err he hu0 k1 k3 hA
  have h2 : |rnd (prodF rnd (c i) a' q0' + prodF rnd (c (i + 1)) b' q1') - (a * q0 + b * q1)| ≤ 25.3 * (u * M ^ 2) := by
    refine h1.trans ?_
    have : u * (2 * M ^ 2 + (11.1 * (u * M ^ 2) + 11.1 * (u * M ^ 2))) = 2 * (u * M ^ 2) + 22.2 * (u * (u * M ^ 2)) := by ring
    rw [this]; linarith
  refine (rnd_err he hu0 h2 hA).trans ?_
  have : u * (2 * M ^ 2 + 25.3 * (u * M ^ 2)) = 2 * (u * M ^ 2) + 25.3 * (u * (u * M ^ 2)) := by ring
  rw [this]; linarith

end

/-- The numerators and denominators of the code over the computed normal, and their errors. `Δ` is the determinant of the edges. -/
theorem dots_err {rnd : ℝ → ℝ} {u η M : ℝ} (he : ∀ z, |rnd z - z| ≤ u * |z| + η) (hu0 : 0 ≤ u) (hu : u ≤ 1 / 1000) (hη : 0 ≤ η) (hM : 0 < M) (h00 : rnd 0 = 0)
    (c : ℕ → Bool) (v0 v1 v2 : Verif.Model.NewtonKernel.V3 ℝ) (p0 p1 : ℝ) {r0 r1 a0 a1 b0 b1 Δ : ℝ} (hr0 : r0 = p0 - v0.x) (hr1 : r1 = p1 - v0.y) (ha0 : a0 = v1.x - v0.x) (ha1 : a1 = v1.y - v0.y)
    (hb0 : b0 = v2.x - v0.x) (hb1 : b1 = v2.y - v0.y) (hΔ : Δ = a0 * b1 - a1 * b0)
    (hr0' : |r0| ≤ M) (hr1' : |r1| ≤ M) (ha0' : |a0| ≤ M) (ha1' : |a1| ≤ M) (hb0' : |b0| ≤ M) (hb1' : |b1| ≤ M)
    (hη1 : η ≤ u * M) (hη2 : η ≤ u * M ^ 2) (hη3 : 2 * η ≤ u * M * |Δ|) (hη4 : 2 * η ≤ u * M ^ 2 * |Δ|) (hbig : 1000 * (u * M ^ 2) ≤ |Δ|) (hΔ0 : Δ ≠ 0) :
    ∃ n X0 D0 X1 D1 : ℝ, n ≠ 0 ∧ dotsF rnd c v0 v1 v2 p0 p1 = ((n * X0, n * D0), n * X1, n * D1) ∧
      |X0 - -(r0 * b1 - r1 * b0)| ≤ 29 * (u * M ^ 2) ∧ |D0 - -Δ| ≤ 29 * (u * M ^ 2) ∧ |X1 - (a0 * r1 - a1 * r0)| ≤ 29 * (u * M ^ 2) ∧ |D1 - Δ| ≤ 29 * (u * M ^ 2) := by
  have hW : 0 ≤ u * M ^ 2 := by positivity
  have huW : u * (u * M ^ 2) ≤ u * M ^ 2 / 1000 := by have := mul_le_mul_of_nonneg_right hu hW; linarith
  have er0 := edge_err he hu0 hM hη1 hr0'
  have er1 := edge_err he hu0 hM hη1 hr1'
  have ea0 := edge_err he hu0 hM hη1 ha0'
  have ea1 := edge_err he hu0 hM hη1 ha1'
  have eb0 := edge_err he hu0 hM hη1 hb0'
  have eb1 := edge_err he hu0 hM hη1 hb1'
  set n := rnd (prodF rnd (c (0 + 4)) (rnd a0) (rnd b1) - prodF rnd (c (0 + 5)) (rnd a1) (rnd b0)) with hn
  have key : ∀ (f : Bool) {x y x' y' : ℝ}, |x' - x| ≤ 2 * (u * M) → |y' - y| ≤ 2 * (u * M) → |x| ≤ M → |y| ≤ M → |prodF rnd f x' y' - x * y| ≤ 6.1 * (u * M ^ 2) ∧ |x * y| ≤ M ^ 2 := by
    intro f x y x' y' h1 h2 h3 h4
    have := prod_err he hu0 hη f h1 h2 h3 h4
    refine ⟨this.trans ?_, ?_⟩
    · have e : M * (2 * (u * M)) + M * (2 * (u * M)) + 2 * (u * M) * (2 * (u * M)) = 4 * (u * M ^ 2) + 4 * (u * (u * M ^ 2)) := by ring
      rw [e]
      have : u * (M * M + (4 * (u * M ^ 2) + 4 * (u * (u * M ^ 2)))) = u * M ^ 2 + 4 * (u * (u * M ^ 2)) + 4 * (u * (u * (u * M ^ 2))) := by ring
      rw [this]
      have h5 : u * (u * (u * M ^ 2)) ≤ u * (u * M ^ 2) / 1000 := by have := mul_le_mul_of_nonneg_right hu (mul_nonneg hu0 hW); linarith
      linarith
    · rw [abs_mul, sq]; exact mul_le_mul h3 h4 (abs_nonneg _) hM.le
  have hn1 : |n - Δ| ≤ |Δ| / 2 := by
    obtain ⟨k1, k2⟩ := key (c (0 + 4)) ea0 eb1 ha0' hb1'
    obtain ⟨k3, k4⟩ := key (c (0 + 5)) ea1 eb0 ha1' hb0'
    have hA : |a0 * b1 - a1 * b0| ≤ 2 * M ^ 2 := (abs_sub _ _).trans (by linarith)
    have := sub_err he hu0 k1 k3 hA
    rw [← hn, ← hΔ] at this
    refine this.trans ?_
    have e : u * (2 * M ^ 2 + (6.1 * (u * M ^ 2) + 6.1 * (u * M ^ 2))) = 2 * (u * M ^ 2) + 12.2 * (u * (u * M ^ 2)) := by ring
    rw [e]; linarith
  have hn2 : |Δ| / 2 ≤ |n| := by
    have : |Δ| ≤ |n| + |n - Δ| := by
      have e : Δ = n - (n - Δ) := by ring
      calc |Δ| = |n - (n - Δ)| := by rw [← e]
        _ ≤ _ := abs_sub _ _
    linarith
  have hΔp : 0 < |Δ| := abs_pos.2 hΔ0
  have hn0 : n ≠ 0 := abs_pos.1 (by linarith)
  have hnp : 0 < |n| := by linarith
  have hs := scaled_err he hn0
  have hη' : 0 ≤ η / |n| := by positivity
  have hη1' : η / |n| ≤ u * M := by
    rw [div_le_iff₀ hnp]
    have : u * M * (|Δ| / 2) ≤ u * M * |n| := mul_le_mul_of_nonneg_left hn2 (by positivity)
    linarith
  have hη2' : η / |n| ≤ u * M ^ 2 := by
    rw [div_le_iff₀ hnp]
    have : u * M ^ 2 * (|Δ| / 2) ≤ u * M ^ 2 * |n| := mul_le_mul_of_nonneg_left hn2 hW
    linarith
  have hs0 : scaled rnd n 0 = 0 := by unfold scaled; rw [mul_zero, h00, zero_div]
  have o1x := (orth_err hs hu0 hu hη' hM hη1' (c (6 + 1)) ea1 ha1').2
  have o1y := (orth_err hs hu0 hu hη' hM hη1' (c (6 + 2)) ea0 ha0').1
  have o2x := (orth_err hs hu0 hu hη' hM hη1' (c (12 + 1)) eb1 hb1').2
  have o2y := (orth_err hs hu0 hu hη' hM hη1' (c (12 + 2)) eb0 hb0').1
  have neg : ∀ {x : ℝ}, |x| ≤ M → |-x| ≤ M := fun h => by rwa [abs_neg]
  refine ⟨n, dotF (scaled rnd n) c 18 ⟨rnd r0, rnd r1, 0⟩ ⟨(orthF rnd n c 12 (rnd b0) (rnd b1)).x, (orthF rnd n c 12 (rnd b0) (rnd b1)).y, 0⟩,
    dotF (scaled rnd n) c 21 ⟨rnd a0, rnd a1, 0⟩ ⟨(orthF rnd n c 12 (rnd b0) (rnd b1)).x, (orthF rnd n c 12 (rnd b0) (rnd b1)).y, 0⟩,
    dotF (scaled rnd n) c 24 ⟨rnd r0, rnd r1, 0⟩ ⟨(orthF rnd n c 6 (rnd a0) (rnd a1)).x, (orthF rnd n c 6 (rnd a0) (rnd a1)).y, 0⟩,
    dotF (scaled rnd n) c 27 ⟨rnd b0, rnd b1, 0⟩ ⟨(orthF rnd n c 6 (rnd a0) (rnd a1)).x, (orthF rnd n c 6 (rnd a0) (rnd a1)).y, 0⟩, hn0, ?_, ?_, ?_, ?_, ?_⟩
  · unfold dotsF edgeF
    dsimp only
    rw [← hr0, ← hr1, ← ha0, ← ha1, ← hb0, ← hb1, cross_norm_eq h00, ← hn, cross_orth_eq h00 c 6 hn0, cross_orth_eq h00 c 12 hn0,
      dot_scaled h00 c 18 hn0, dot_scaled h00 c 21 hn0, dot_scaled h00 c 24 hn0, dot_scaled h00 c 27 hn0]
  · have := dot_err hs hu0 hu hη' hM hs0 hη2' c 18 er0 er1 o2x o2y hr0' hr1' (neg hb1') hb0'
    have e : r0 * -b1 + r1 * b0 = -(r0 * b1 - r1 * b0) := by ring
    rw [e] at this; exact this
  · have := dot_err hs hu0 hu hη' hM hs0 hη2' c 21 ea0 ea1 o2x o2y ha0' ha1' (neg hb1') hb0'
    have e : a0 * -b1 + a1 * b0 = -Δ := by rw [hΔ]; ring
    rw [e] at this; exact this
  · have := dot_err hs hu0 hu hη' hM hs0 hη2' c 24 er0 er1 o1x o1y hr0' hr1' (neg ha1') ha0'
    have e : r0 * -a1 + r1 * a0 = a0 * r1 - a1 * r0 := by ring
    rw [e] at this; exact this
  · have := dot_err hs hu0 hu hη' hM hs0 hη2' c 27 eb0 eb1 o1x o1y hb0' hb1' (neg ha1') ha0'
    have e : b0 * -a1 + b1 * a0 = Δ := by rw [hΔ]; ring
    rw [e] at this; exact this

/-- The quotient: from the exact value. -/
theorem quot_err {X D x Δ s t : ℝ} (ht : 0 ≤ t) (ht1 : t ≤ 1 / 10000) (hΔ : Δ ≠ 0) (hX : |X - x| ≤ 29 * (t * |Δ|)) (hD : |D - Δ| ≤ 29 * (t * |Δ|)) (hx : x = s * Δ) (hs : |s| ≤ 1.1) :
    D ≠ 0 ∧ |X / D - s| ≤ 61.2 * t := by
  have hp := abs_pos.2 hΔ
  have hD1 : (1 - 29 * t) * |Δ| ≤ |D| := by
    have : |Δ| ≤ |D| + |D - Δ| := by
      have e : Δ = D - (D - Δ) := by ring
      calc |Δ| = |D - (D - Δ)| := by rw [← e]
        _ ≤ _ := abs_sub _ _
    linarith
  have hD2 : 0.997 * |Δ| ≤ |D| := by nlinarith
  have hD0 : D ≠ 0 := abs_pos.1 (by linarith)
  refine ⟨hD0, ?_⟩
  have e : X / D - s = ((X - x) - s * (D - Δ)) / D := by rw [hx]; field_simp; ring
  rw [e, abs_div, div_le_iff₀ (abs_pos.2 hD0)]
  have h1 : |(X - x) - s * (D - Δ)| ≤ 29 * (t * |Δ|) + 1.1 * (29 * (t * |Δ|)) := by
    refine (abs_sub _ _).trans (add_le_add hX ?_)
    rw [abs_mul]; exact mul_le_mul hs hD (abs_nonneg _) (by norm_num)
  have h2 : 61.2 * t * (0.997 * |Δ|) ≤ 61.2 * t * |D| := mul_le_mul_of_nonneg_left hD2 (by linarith)
  have h3 : 0 ≤ t * |Δ| := by positivity
  linarith

/-- The quotient: from the computed value. -/
theorem quot_err' {X D x Δ s t : ℝ} (ht : 0 ≤ t) (hΔ : Δ ≠ 0) (hX : |X - x| ≤ 29 * (t * |Δ|)) (hD : |D - Δ| ≤ 29 * (t * |Δ|)) (hD0 : D ≠ 0) (hx : x = s * Δ) (hs : |X / D| ≤ 1.1) :
    |X / D - s| ≤ 61.2 * t := by
  have hp := abs_pos.2 hΔ
  have e : X / D - s = (X / D * (Δ - D) + (X - x)) / Δ := by rw [hx]; field_simp; ring
  rw [e, abs_div, div_le_iff₀ hp]
  have h1 : |X / D * (Δ - D) + (X - x)| ≤ 1.1 * (29 * (t * |Δ|)) + 29 * (t * |Δ|) := by
    refine (abs_add_le _ _).trans (add_le_add ?_ hX)
    rw [abs_mul, abs_sub_comm]; exact mul_le_mul hs hD (abs_nonneg _) (by norm_num)
  have h3 : 0 ≤ t * |Δ| := by positivity
  linarith

section
variable {rnd : ℝ → ℝ} {u η t : ℝ} (he : ∀ z, |rnd z - z| ≤ u * |z| + η) (hu0 : 0 ≤ u) (hη : 0 ≤ η) (ht : 0 ≤ t) (ht1 : t ≤ 1 / 10000) (hut : u ≤ 2 * t) (hηt : η ≤ t / 500)
include he hu0 hη ht ht1 hut hηt

/-- A rounding of a value of size at most `A`. -/
theorem step_err {a b e A : ℝ} (h : |a - b| ≤ e * t) (hb : |b| ≤ A) (he0 : 0 ≤ e) (he1 : e ≤ 1000) : |rnd a - b| ≤ (e + 2 * A + 0.3) * t := by
  have h1 := rnd_err he hu0 h hb
  have hA : 0 ≤ A := (abs_nonneg _).trans hb
  have h2 : u * A ≤ 2 * t * A := mul_le_mul_of_nonneg_right hut hA
  have h3 : u * (e * t) ≤ 0.2 * t := by
    have h4 : u * e ≤ 1 / 5000 * 1000 := mul_le_mul (by linarith) he1 he0 (by norm_num)
    have := mul_le_mul_of_nonneg_right h4 ht
    linarith
  linarith

theorem local_err (f : Bool) {N D s : ℝ} (h : |N / D - s| ≤ 61.2 * t) (hs : |s| ≤ 1.1) : |localF rnd f N D - (2 * s - 1)| ≤ 140 * t := by
  unfold localF
  have h1 := step_err he hu0 hη ht ht1 hut hηt h hs (by norm_num) (by norm_num)
  have h2 : |prodF rnd f 2 (rnd (N / D)) - 2 * s| ≤ 132.3 * t := by
    have h3 : |2 * rnd (N / D) - 2 * s| ≤ 127.5 * t := by
      rw [← mul_sub, abs_mul, abs_of_pos (by norm_num : (0 : ℝ) < 2)]; linarith
    unfold prodF; split_ifs
    · linarith
    · have := step_err he hu0 hη ht ht1 hut hηt h3 (A := 2.2) (by rw [abs_mul, abs_of_pos (by norm_num : (0 : ℝ) < 2)]; linarith) (by norm_num) (by norm_num)
      linarith
  have h4 : |prodF rnd f 2 (rnd (N / D)) - 1 - (2 * s - 1)| ≤ 132.3 * t := by
    have e : prodF rnd f 2 (rnd (N / D)) - 1 - (2 * s - 1) = prodF rnd f 2 (rnd (N / D)) - 2 * s := by ring
    rw [e]; exact h2
  have h5 := step_err he hu0 hη ht ht1 hut hηt h4 (A := 3.2) (by rw [abs_le] at hs ⊢; constructor <;> linarith [hs.1, hs.2]) (by norm_num) (by norm_num)
  linarith

/-- From a local coordinate in the range to the quotient. -/
theorem local_bound (f : Bool) {N D : ℝ} (h : |localF rnd f N D| ≤ 1.15) : |N / D| ≤ 1.09 := by
  unfold localF at h
  set q := N / D
  have r1 : ∀ z B : ℝ, |rnd z| ≤ B → |z| ≤ 1.0003 * B + 0.0001 := by
    intro z B hz
    have h1 := he z
    have h2 : |z| ≤ |rnd z| + |rnd z - z| := by
      have e : z = rnd z - (rnd z - z) := by ring
      calc |z| = |rnd z - (rnd z - z)| := by rw [← e]
        _ ≤ _ := abs_sub _ _
    have h3 : u * |z| ≤ 0.0002 * |z| := mul_le_mul_of_nonneg_right (by linarith) (abs_nonneg _)
    have h4 : 0 ≤ |z| := abs_nonneg _
    have h5 : 0 ≤ |rnd z| := abs_nonneg _
    linarith
  have h1 := r1 _ _ h
  have h2 : |prodF rnd f 2 (rnd q)| ≤ 2.152 := by
    have e : prodF rnd f 2 (rnd q) = (prodF rnd f 2 (rnd q) - 1) + 1 := by ring
    rw [e]; refine (abs_add_le _ _).trans ?_
    rw [abs_one]; linarith
  have h3 : |2 * rnd q| ≤ 2.154 := by
    unfold prodF at h2
    split_ifs at h2
    · linarith
    · have := r1 _ _ h2; linarith
  rw [abs_mul, abs_of_pos (by norm_num : (0 : ℝ) < 2)] at h3
  have h4 : |rnd q| ≤ 1.077 := by linarith
  have := r1 _ _ h4
  linarith

/-- The collapsed coordinate of a triangle. -/
theorem eta_err {tol0 d x0 x1 n : ℝ} (hd : 0 < d) (hd2 : d ≤ 2) (hn0 : 0 ≤ n) (hnd : n ≤ d) (hsmall : 1000 * t ≤ d / 10) (ht0 : tol0 ≤ d / 2) (h0 : |x0 - (n - 1)| ≤ 140 * t) (h1 : |x1 - (1 - d)| ≤ 140 * t) :
    |eta0F rnd tol0 .tri x0 x1 - (2 * n / d - 1)| * d ≤ 613 * t := by
  have e1 : |rnd (1 - x1) - d| ≤ 144.3 * t := by
    have : |1 - x1 - d| ≤ 140 * t := by
      have e : 1 - x1 - d = -(x1 - (1 - d)) := by ring
      rw [e, abs_neg]; exact h1
    have := step_err he hu0 hη ht ht1 hut hηt this (A := 2) (by rwa [abs_of_pos hd]) (by norm_num) (by norm_num)
    linarith
  have e2 : |rnd (1 + x0) - n| ≤ 144.3 * t := by
    have : |1 + x0 - n| ≤ 140 * t := by
      have e : 1 + x0 - n = x0 - (n - 1) := by ring
      rw [e]; exact h0
    have := step_err he hu0 hη ht ht1 hut hηt this (A := 2) (by rw [abs_of_nonneg hn0]; linarith) (by norm_num) (by norm_num)
    linarith
  have e3 : |rnd (2 * rnd (1 + x0)) - 2 * n| ≤ 297 * t := by
    have : |2 * rnd (1 + x0) - 2 * n| ≤ 288.6 * t := by
      rw [← mul_sub, abs_mul, abs_of_pos (by norm_num : (0 : ℝ) < 2)]; linarith
    have := step_err he hu0 hη ht ht1 hut hηt this (A := 4) (by rw [abs_of_nonneg (by linarith)]; linarith) (by norm_num) (by norm_num)
    linarith
  set D := rnd (1 - x1) with hD
  set m := rnd (2 * rnd (1 + x0)) with hm
  have hDl : 0.98 * d ≤ D := by have := (abs_le.1 e1).1; linarith
  have hDp : 0 < D := by linarith
  have hnot : ¬ |D| < tol0 := by rw [abs_of_pos hDp]; linarith
  have e4 : |m / D - 2 * n / d| * d ≤ 599 * t := by
    have e : m / D - 2 * n / d = ((m - 2 * n) - 2 * n / d * (D - d)) / D := by field_simp; ring
    rw [e, abs_div, abs_of_pos hDp]
    have hq : |2 * n / d| ≤ 2 := by
      rw [abs_of_nonneg (by positivity), div_le_iff₀ hd]; linarith
    have h2 : |(m - 2 * n) - 2 * n / d * (D - d)| ≤ 297 * t + 2 * (144.3 * t) := by
      refine (abs_sub _ _).trans (add_le_add e3 ?_)
      rw [abs_mul]; exact mul_le_mul hq e1 (abs_nonneg _) (by norm_num)
    rw [div_mul_eq_mul_div, div_le_iff₀ hDp]
    have h3 : |(m - 2 * n) - 2 * n / d * (D - d)| * d ≤ 585.6 * t * d := mul_le_mul_of_nonneg_right (by linarith) hd.le
    have h4 : 599 * t * (0.98 * d) ≤ 599 * t * D := mul_le_mul_of_nonneg_left hDl (by linarith)
    have h5 : 0 ≤ t * d := by positivity
    linarith
  have hq : |2 * n / d| ≤ 2 := by
    rw [abs_of_nonneg (by positivity), div_le_iff₀ hd]; linarith
  have r1 : ∀ a b e A : ℝ, |a - b| * d ≤ e * t → |b| ≤ A → 0 ≤ e → e ≤ 1000 → |rnd a - b| * d ≤ (e + 2 * A * d + 0.3 * d + 0.001) * t := by
    intro a b e A h hb he0 he1
    have hA : 0 ≤ A := (abs_nonneg _).trans hb
    have h2 : |a - b| ≤ e * t / d := by rw [le_div_iff₀ hd]; exact h
    have h3 := rnd_err he hu0 h2 hb
    have h4 : (e * t / d + u * (A + e * t / d) + η) * d = e * t + u * A * d + u * (e * t) + η * d := by field_simp; ring
    have h5 := mul_le_mul_of_nonneg_right h3 hd.le
    rw [h4] at h5
    have h6 : u * A * d ≤ 2 * t * A * d := mul_le_mul_of_nonneg_right (mul_le_mul_of_nonneg_right hut hA) hd.le
    have h7 : η * d ≤ t / 500 * d := mul_le_mul_of_nonneg_right hηt hd.le
    have h8 : u * (e * t) ≤ 0.2 * t * d := by
      have h9 : u * e ≤ 2 * t * 1000 := mul_le_mul hut he1 he0 (by linarith)
      have h10 : u * e ≤ 0.2 * d := by linarith
      have := mul_le_mul_of_nonneg_right h10 ht
      linarith
    have h11 : 0 ≤ t * d := by positivity
    linarith
  have e5 := r1 _ _ _ 2 e4 hq (by norm_num) (by norm_num)
  have e6 : |rnd (m / D) - 1 - (2 * n / d - 1)| * d ≤ (599 + 2 * 2 * 2 + 0.3 * 2 + 0.001) * t := by
    have e : rnd (m / D) - 1 - (2 * n / d - 1) = rnd (m / D) - 2 * n / d := by ring
    rw [e]
    refine e5.trans (mul_le_mul_of_nonneg_right ?_ ht)
    linarith
  have hq1 : |2 * n / d - 1| ≤ 1 := by
    have h0 : 0 ≤ 2 * n / d := by positivity
    have h2 : 2 * n / d ≤ 2 := by rw [div_le_iff₀ hd]; linarith
    rw [abs_le]; constructor <;> linarith
  have e7 := r1 _ _ _ 1 e6 hq1 (by norm_num) (by norm_num)
  unfold eta0F
  dsimp only
  rw [← hD, if_neg hnot, ← hm]
  refine e7.trans (mul_le_mul_of_nonneg_right ?_ ht)
  linarith

/-- The rounded tolerances. -/
theorem tol_err {k : ℝ} (hk0 : 0 ≤ k) (hk : k ≤ 1 / 1000) : 1 + k - 3 * t ≤ rnd (1 + k) ∧ rnd (1 + k) ≤ 1 + k + 3 * t ∧ rnd (-1 - k) ≤ -1 - k + 3 * t ∧ -1 - k - 3 * t ≤ rnd (-1 - k) := by
  have h1 := step_err he hu0 hη ht ht1 hut hηt (a := 1 + k) (b := 1 + k) (e := 0) (A := 1.001) (by simp) (by rw [abs_of_pos (by linarith)]; linarith) le_rfl (by norm_num)
  have h2 := step_err he hu0 hη ht ht1 hut hηt (a := -1 - k) (b := -1 - k) (e := 0) (A := 1.001) (by simp) (by rw [abs_of_neg (by linarith)]; linarith) le_rfl (by norm_num)
  rw [abs_le] at h1 h2
  refine ⟨?_, ?_, ?_, ?_⟩ <;> linarith [h1.1, h1.2, h2.1, h2.2]

/-- The error of a rounding from its result. -/
theorem back_err {z B : ℝ} (hz : |rnd z| ≤ B) : |rnd z - z| ≤ (2.0006 * B + 0.01) * t := by
  have h1 := he z
  have h2 : |z| ≤ |rnd z| + |rnd z - z| := by
    have e : z = rnd z - (rnd z - z) := by ring
    calc |z| = |rnd z - (rnd z - z)| := by rw [← e]
      _ ≤ _ := abs_sub _ _
  have hu' : u ≤ 0.0002 := by linarith
  have h3 : u * |z| ≤ 0.0002 * |z| := mul_le_mul_of_nonneg_right hu' (abs_nonneg _)
  have h4 : 0 ≤ |z| := abs_nonneg _
  have h6 : |z| ≤ 1.0003 * B + 0.0001 := by linarith [abs_nonneg (rnd z)]
  have h7 : u * |z| ≤ 2 * t * (1.0003 * B + 0.0001) := mul_le_mul hut h6 h4 (by linarith)
  linarith

/-- Two roundings. -/
theorem twice_err {x m : ℝ} (hm : m = rnd (2 * rnd (1 + x))) (h : |m| ≤ 5) : |m - 2 * (1 + x)| ≤ 21 * t := by
  have c1 := back_err he hu0 hη ht ht1 hut hηt (z := 2 * rnd (1 + x)) (B := 5) (by rw [← hm]; exact h)
  rw [← hm] at c1
  have c2 : |rnd (1 + x)| ≤ 2.501 := by
    have : |2 * rnd (1 + x)| ≤ |m| + |m - 2 * rnd (1 + x)| := by
      have e : 2 * rnd (1 + x) = m - (m - 2 * rnd (1 + x)) := by ring
      calc |2 * rnd (1 + x)| = |m - (m - 2 * rnd (1 + x))| := by rw [← e]
        _ ≤ _ := abs_sub _ _
    rw [abs_mul, abs_of_pos (by norm_num : (0 : ℝ) < 2)] at this
    linarith
  have c3 := back_err he hu0 hη ht ht1 hut hηt c2
  have e : m - 2 * (1 + x) = (m - 2 * rnd (1 + x)) + 2 * (rnd (1 + x) - (1 + x)) := by ring
  rw [e]
  refine (abs_add_le _ _).trans ?_
  rw [abs_mul, abs_of_pos (by norm_num : (0 : ℝ) < 2)]
  linarith

/-- What the test of a triangle says of the computed local coordinates. -/
theorem eta_test {tol0 k x0 x1 : ℝ} (hk0 : 0 ≤ k) (hk : k ≤ 1 / 1000) (h00 : 0 < tol0) (h01 : tol0 ≤ 1 / 1000) (hl : rnd (-1 - k) ≤ eta0F rnd tol0 .tri x0 x1) (hh : eta0F rnd tol0 .tri x0 x1 ≤ rnd (1 + k))
    (hl1 : rnd (-1 - k) ≤ x1) (hh1 : x1 ≤ rnd (1 + k)) : -1 - (3 * k + 3 * tol0 + 50 * t) ≤ x0 ∧ x0 + x1 ≤ 3 * k + 3 * tol0 + 50 * t := by
  obtain ⟨_, t2, _, t4⟩ := tol_err he hu0 hη ht ht1 hut hηt hk0 hk
  have back := fun z B => back_err he hu0 hη ht ht1 hut hηt (z := z) (B := B)
  unfold eta0F at hl hh
  dsimp only at hl hh
  set D := rnd (1 - x1) with hD
  set m := rnd (2 * rnd (1 + x0)) with hm
  set d := (if |D| < tol0 then (if D ≥ 0 then tol0 else -tol0) else D) with hd
  set Q := rnd (m / d) with hQ
  have b1 := abs_le.1 (back (Q - 1) 1.002 (by rw [abs_le]; constructor <;> linarith))
  have b2 := abs_le.1 (back (m / d) 2.003 (by rw [← hQ, abs_le]; constructor <;> linarith [b1.1, b1.2]))
  have q1 : -k - 10 * t ≤ m / d := by linarith [b1.1, b1.2, b2.1, b2.2]
  have q2 : m / d ≤ 2 + k + 10 * t := by linarith [b1.1, b1.2, b2.1, b2.2]
  have b3 := abs_le.1 (he (1 - x1))
  have x1b : |1 - x1| ≤ 2.002 := by rw [abs_le]; constructor <;> linarith
  have b3' : u * |1 - x1| ≤ 2 * t * 2.002 := mul_le_mul hut x1b (abs_nonneg _) (by linarith)
  rw [← hD] at b3
  have hm' := twice_err he hu0 hη ht ht1 hut hηt hm
  rcases le_or_gt 0 D with hD0 | hD0
  · have hdp : 0 < d := by
      rw [hd]; split_ifs with h1
      · exact h00
      · have := not_lt.1 h1; rw [abs_of_nonneg hD0] at this; linarith
    have hdD : d ≤ D + tol0 := by
      rw [hd]; split_ifs <;> linarith
    rw [le_div_iff₀ hdp] at q1
    rw [div_le_iff₀ hdp] at q2
    have d2 : d ≤ 2.004 := by linarith
    have d3 : d ≤ 1 - x1 + tol0 + 5 * t := by linarith
    have kt := mul_le_mul_of_nonneg_left d2 (by linarith : 0 ≤ k + 10 * t)
    have m1 : -2.01 * k - 20.1 * t ≤ m := by linarith
    have m2 : m ≤ 2 * d + 2.01 * k + 20.1 * t := by linarith
    have m3 := abs_le.1 (hm' (by rw [abs_le]; constructor <;> linarith))
    constructor <;> linarith [m3.1, m3.2]
  · have hdn : d < 0 := by
      rw [hd]; split_ifs <;> linarith
    have hdl : -(k + tol0 + 8 * t) ≤ d := by
      rw [hd]; split_ifs <;> linarith
    have q1' := mul_le_mul_of_nonpos_right q1 hdn.le
    have q2' := mul_le_mul_of_nonpos_right q2 hdn.le
    rw [div_mul_cancel₀ _ hdn.ne] at q1' q2'
    have kt := mul_le_mul_of_nonneg_right (by linarith : k + 10 * t ≤ 0.1) (by linarith : 0 ≤ -d)
    have m1 : 2.1 * d ≤ m := by linarith
    have m2 : m ≤ -d := by linarith
    have m3 := abs_le.1 (hm' (by rw [abs_le]; constructor <;> linarith))
    constructor <;> linarith [m3.1, m3.2]

end

end Verif.Lemmas.FloatRegular
