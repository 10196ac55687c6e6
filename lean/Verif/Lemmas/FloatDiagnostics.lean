import Verif.Model.FloatDiagnostics
import Verif.Lemmas.FloatBary
import Mathlib.Tactic.Linarith
import Mathlib.Tactic.Positivity
import Mathlib.Tactic.NormNum

/-! Errors of sums in floating point arithmetic, for C123. -/

namespace Verif.Lemmas.FloatDiagnostics
open Verif.Spec.Rounding Verif.Lemmas.Rounding Verif.Model.FloatDiagnostics

variable {rnd : ℝ → ℝ}

/-- `y` is the computed value of `x`, which is at most `X` in magnitude, after `k` roundings one after the other, of terms with the errors `t` from underflow. -/
def Near (k : ℕ) (t X y x : ℝ) : Prop := 0 ≤ t ∧ |x| ≤ X ∧ |y - x| ≤ ((1 + (2 : ℝ) ^ (-52 : ℤ)) ^ k - 1) * X + (1 + (2 : ℝ) ^ (-52 : ℤ)) ^ k * t

theorem one_le_pow' (k : ℕ) : (1 : ℝ) ≤ (1 + (2 : ℝ) ^ (-52 : ℤ)) ^ k := one_le_pow₀ (by norm_num)

theorem Near.refl (x : ℝ) : Near 0 0 |x| x x := ⟨le_rfl, le_rfl, by simp⟩

theorem Near.mono {k l : ℕ} {t t' X y x : ℝ} (h : Near k t X y x) (hk : k ≤ l) (ht : t ≤ t') : Near l t' X y x := by
  obtain ⟨h0, h1, h2⟩ := h
  have hX : 0 ≤ X := (abs_nonneg x).trans h1
  have hp : (1 + (2 : ℝ) ^ (-52 : ℤ)) ^ k ≤ (1 + (2 : ℝ) ^ (-52 : ℤ)) ^ l := pow_le_pow_right₀ (by norm_num) hk
  have := one_le_pow' l
  refine ⟨h0.trans ht, h1, h2.trans ?_⟩
  have a := mul_le_mul_of_nonneg_right hp hX
  have b := mul_le_mul hp ht h0 (by linarith)
  linarith

theorem Near.le {k : ℕ} {t X y x : ℝ} (h : Near k t X y x) : |y| ≤ (1 + (2 : ℝ) ^ (-52 : ℤ)) ^ k * (X + t) := by
  obtain ⟨-, h1, h2⟩ := h
  have := abs_sub_abs_le_abs_sub y x
  linarith

theorem Near.add {k : ℕ} {t t' X X' y y' x x' : ℝ} (h : Near k t X y x) (h' : Near k t' X' y' x') : Near k (t + t') (X + X') (y + y') (x + x') := by
  refine ⟨add_nonneg h.1 h'.1, (abs_add_le _ _).trans (add_le_add h.2.1 h'.2.1), ?_⟩
  rw [show y + y' - (x + x') = (y - x) + (y' - x') by ring]
  refine (abs_add_le _ _).trans ((add_le_add h.2.2 h'.2.2).trans (le_of_eq (by ring)))

theorem Near.mul {k : ℕ} {t X y x : ℝ} (h : Near k t X y x) (a : ℝ) : Near k (|a| * t) (|a| * X) (a * y) (a * x) := by
  refine ⟨mul_nonneg (abs_nonneg _) h.1, ?_, ?_⟩
  · rw [abs_mul]; exact mul_le_mul_of_nonneg_left h.2.1 (abs_nonneg _)
  · rw [← mul_sub, abs_mul]
    exact (mul_le_mul_of_nonneg_left h.2.2 (abs_nonneg a)).trans (le_of_eq (by ring))

/-- A rounding whose error is relative. -/
theorem Near.rel {k : ℕ} {t X y x z : ℝ} (h : Near k t X y x) (hz : |z - y| ≤ (2 : ℝ) ^ (-52 : ℤ) * |y|) : Near (k + 1) t X z x := by
  refine ⟨h.1, h.2.1, ?_⟩
  have hy := h.le
  have h2 := h.2.2
  have h3 := abs_add_le (z - y) (y - x)
  rw [show z - y + (y - x) = z - x by ring] at h3
  have := mul_le_mul_of_nonneg_left hy (by norm_num : (0 : ℝ) ≤ (2 : ℝ) ^ (-52 : ℤ))
  rw [pow_succ]
  linarith

/-- Any rounding. -/
theorem Near.round (R : Rounding 53 (-1074) rnd) {k : ℕ} {t X y x : ℝ} (h : Near k t X y x) : Near (k + 1) (t + (2 : ℝ) ^ (-1074 : ℤ)) X (rnd y) x := by
  have he := error R (by norm_num) y
  rw [show (1 : ℤ) - ((53 : ℕ) : ℤ) = -52 by norm_num] at he
  have hη : (0 : ℝ) < 2 ^ (-1074 : ℤ) := zpow_pos (by norm_num) _
  refine ⟨add_nonneg h.1 hη.le, h.2.1, ?_⟩
  have hy := h.le
  have h2 := h.2.2
  have h3 := abs_add_le (rnd y - y) (y - x)
  rw [show rnd y - y + (y - x) = rnd y - x by ring] at h3
  have h4 := mul_le_mul_of_nonneg_left hy (by norm_num : (0 : ℝ) ≤ (2 : ℝ) ^ (-52 : ℤ))
  have h5 : (2 : ℝ) ^ (-1074 : ℤ) ≤ (1 + (2 : ℝ) ^ (-52 : ℤ)) ^ (k + 1) * (2 : ℝ) ^ (-1074 : ℤ) := le_mul_of_one_le_left hη.le (one_le_pow' _)
  rw [mul_add]
  rw [pow_succ] at h5 ⊢
  linarith

theorem rnd_add_rel (R : Rounding 53 (-1074) rnd) {x y : ℝ} (hx : IsFloat 53 (-1074) x) (hy : IsFloat 53 (-1074) y) : |rnd (x + y) - (x + y)| ≤ (2 : ℝ) ^ (-52 : ℤ) * |x + y| := by
  have := FloatBary.error_add R (by norm_num) hx hy
  rwa [show (1 : ℤ) - ((53 : ℕ) : ℤ) = -52 by norm_num] at this

theorem value_float (R : Rounding 53 (-1074) rnd) {P : Type} {f : P → ℝ} (s : Additions P) (hf : ∀ a ∈ s.particles, IsFloat 53 (-1074) (f a)) : IsFloat 53 (-1074) (s.value rnd f) := by
  cases s with
  | zero => exact float_zero
  | term a => exact hf a (by simp [Additions.particles])
  | add s t => exact R.float _

/-- The sum of terms with errors. -/
theorem value_near (R : Rounding 53 (-1074) rnd) {P : Type} {f x X : P → ℝ} {k : ℕ} {t : ℝ} (s : Additions P) (hf : ∀ a ∈ s.particles, IsFloat 53 (-1074) (f a) ∧ Near k t (X a) (f a) (x a)) :
    Near (k + s.depth) (s.particles.length * t) (s.particles.map X).sum (s.value rnd f) (s.particles.map x).sum := by
  induction s with
  | zero => simpa [Additions.particles, Additions.value, Additions.depth] using (Near.refl 0).mono (Nat.zero_le k) le_rfl
  | term a => simpa [Additions.particles, Additions.value, Additions.depth] using (hf a (by simp [Additions.particles])).2
  | add s s' ih ih' =>
    have m1 : ∀ a ∈ s.particles, a ∈ (Additions.add s s').particles := fun a h => List.mem_append_left _ h
    have m2 : ∀ a ∈ s'.particles, a ∈ (Additions.add s s').particles := fun a h => List.mem_append_right _ h
    have a1 := (ih fun a h => hf a (m1 a h)).mono (l := k + max s.depth s'.depth) (by omega) le_rfl
    have a2 := (ih' fun a h => hf a (m2 a h)).mono (l := k + max s.depth s'.depth) (by omega) le_rfl
    have a3 := (a1.add a2).rel (rnd_add_rel R (value_float R s fun a h => (hf a (m1 a h)).1) (value_float R s' fun a h => (hf a (m2 a h)).1))
    have e : (((Additions.add s s').particles.length : ℕ) : ℝ) * t = s.particles.length * t + s'.particles.length * t := by
      simp only [Additions.particles, List.length_append]; push_cast; ring
    rw [e]
    simpa [Additions.particles, Additions.value, Additions.depth, add_assoc] using a3

end Verif.Lemmas.FloatDiagnostics
