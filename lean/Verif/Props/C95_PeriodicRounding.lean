import Verif.Model.FloatKernels
import Verif.Model.Periodic
import Verif.Lemmas.RoundingModes
import Mathlib.Tactic.FieldSimp

/-! C95: periodic boundary conditions in floating point arithmetic. -/

namespace Verif.Props.C95
open Verif.Model Verif.Model.FloatKernels Verif.Spec.Rounding Verif.Lemmas.Rounding Verif.Lemmas.RoundingModes

variable {p : ℕ} {emin : ℤ} {rnd : ℝ → ℝ}

/-! ### The remainder -/

theorem fmodF_range {x y : ℝ} (hy : 0 < y) (hx : 0 ≤ x) : 0 ≤ fmodF x y ∧ fmodF x y < y := by
  have h : 0 ≤ x / y := div_nonneg hx hy.le
  unfold fmodF
  rw [truncZ_of_nonneg h]
  have h1 := Int.floor_le (x / y)
  have h2 := Int.lt_floor_add_one (x / y)
  rw [le_div_iff₀ hy] at h1
  rw [div_lt_iff₀ hy] at h2
  constructor <;> nlinarith

/-! ### The number of periods -/

/-- The number of periods is between the exact number and the rounded one. -/
theorem periods_bounds (R : Rounding p emin rnd) (hp : 1 ≤ p) (he : emin ≤ 0) (origin q : ℝ) (hbig : |rnd (q - origin)| + 2 ≤ 2 ^ p) :
    ⌊|rnd (q - origin)|⌋ + 2 ≤ periods rnd origin q ∧ periods rnd origin q ≤ 2 ^ p ∧ (periods rnd origin q : ℝ) ≤ rnd (|rnd (q - origin)| + 2) ∧
    |rnd (q - origin)| + 1 ≤ (periods rnd origin q : ℝ) ∧ rnd (periods rnd origin q) = periods rnd origin q := by
  set a := |rnd (q - origin)| with ha
  have ha0 : 0 ≤ a := abs_nonneg _
  have hfl : (⌊a⌋ : ℝ) ≤ a := Int.floor_le a
  have hm0 : 0 ≤ ⌊a⌋ := Int.floor_nonneg.mpr ha0
  have hmp : ⌊a⌋ + 2 ≤ 2 ^ p := by
    have : ((⌊a⌋ + 2 : ℤ) : ℝ) ≤ ((2 ^ p : ℤ) : ℝ) := by push_cast; linarith
    exact_mod_cast this
  have hf : IsFloat p emin ((⌊a⌋ + 2 : ℤ) : ℝ) := float_int hp he (by rw [abs_of_nonneg (by omega)]; exact hmp)
  have h1 : ((⌊a⌋ + 2 : ℤ) : ℝ) ≤ rnd (a + 2) := le_rnd R hf (by push_cast; linarith)
  have h2 : rnd (a + 2) ≤ 2 ^ p := by
    have : IsFloat p emin ((2 ^ p : ℤ) : ℝ) := float_int hp he (by rw [abs_of_nonneg (by positivity)])
    have := rnd_le R this (x := a + 2) (by push_cast; exact hbig)
    push_cast at this; exact this
  have hr0 : 0 ≤ rnd (a + 2) := rnd_nonneg R (by linarith)
  have hn : periods rnd origin q = ⌊rnd (a + 2)⌋ := by unfold periods; rw [← ha, truncZ_of_nonneg hr0]
  have hlow : ⌊a⌋ + 2 ≤ periods rnd origin q := by rw [hn, Int.le_floor]; exact h1
  have hup : (periods rnd origin q : ℝ) ≤ rnd (a + 2) := by rw [hn]; exact Int.floor_le _
  have hup2 : periods rnd origin q ≤ 2 ^ p := by
    have : (periods rnd origin q : ℝ) ≤ ((2 ^ p : ℤ) : ℝ) := by push_cast; linarith
    exact_mod_cast this
  refine ⟨hlow, hup2, hup, ?_, R.exact _ (float_int hp he (by rw [abs_of_nonneg (by omega)]; exact hup2))⟩
  have h3 := Int.lt_floor_add_one a
  have h4 : ((⌊a⌋ + 2 : ℤ) : ℝ) ≤ (periods rnd origin q : ℝ) := by exact_mod_cast hlow
  push_cast at h4
  linarith

theorem offset_nonneg (R : Rounding p emin rnd) (hp : 1 ≤ p) (he : emin ≤ 0) (contract : Bool) {origin extent q : ℝ} (hext : 0 < extent)
    (h : 1 ≤ extent ∨ origin ≤ q) (hbig : |rnd (q - origin)| + 2 ≤ 2 ^ p) :
    0 ≤ mulAdd rnd contract (rnd (periods rnd origin q)) extent (rnd (q - origin)) := by
  obtain ⟨-, -, -, h1, h2⟩ := periods_bounds R hp he origin q hbig
  rw [h2]
  set pos := rnd (q - origin) with hpos
  set n : ℝ := (periods rnd origin q : ℝ) with hn
  have hfl : IsFloat p emin |pos| := float_abs (R.float _)
  have hneg := neg_abs_le pos
  have ha0 : 0 ≤ |pos| := abs_nonneg _
  have key : 0 ≤ n * extent + pos ∧ 0 ≤ rnd (n * extent) + pos := by
    rcases h with h | h
    · have h3 : |pos| ≤ n * extent := by nlinarith
      exact ⟨by linarith, by have := le_rnd R hfl h3; linarith⟩
    · have h4 : 0 ≤ pos := rnd_nonneg R (by linarith)
      have h5 : 0 ≤ n * extent := by apply mul_nonneg _ hext.le; linarith
      exact ⟨by linarith, by have := rnd_nonneg R h5; linarith⟩
  unfold mulAdd
  split_ifs
  · exact rnd_nonneg R key.1
  · exact rnd_nonneg R key.2

/-- **In floating point arithmetic, for every rounding mode, with or without fused operations**: the new position is in the closed domain, if the period is at least one or
the particle has not left at the lower end, and the particle is less than `2 ^ 53 - 2` away. The upper end is `origin + extent`, rounded. -/
theorem wrap_in_domain_partial (R : Rounding p emin rnd) (hp : 1 ≤ p) (he : emin ≤ 0) (contract : Bool) {origin extent q : ℝ} (ho : IsFloat p emin origin)
    (hext : 0 < extent) (h : 1 ≤ extent ∨ origin ≤ q) (hbig : |rnd (q - origin)| + 2 ≤ 2 ^ p) :
    origin ≤ wrapF rnd contract origin extent q ∧ wrapF rnd contract origin extent q ≤ rnd (origin + extent) := by
  obtain ⟨h1, h2⟩ := fmodF_range hext (offset_nonneg R hp he contract hext h hbig)
  unfold wrapF
  dsimp only
  exact ⟨le_rnd R ho (by linarith), R.mono (by linarith)⟩

/-- The new position is the old one up to whole periods and rounding errors: with `n` periods added, the error is about `2 ^ -52` times `3 n extent`. -/
theorem wrap_error (R : Rounding p emin rnd) (hp : 1 ≤ p) (he : emin ≤ 0) (contract : Bool) {origin extent q : ℝ} (hext : 0 < extent) (h : 1 ≤ extent ∨ origin ≤ q)
    (hbig : |rnd (q - origin)| + 2 ≤ 2 ^ p) :
    ∃ k : ℤ, |wrapF rnd contract origin extent q - (q + k * extent)| ≤
      (2 : ℝ) ^ (1 - (p : ℤ)) * (|q - origin| + (3 * extent + 1) * periods rnd origin q + extent + |origin|) + 5 * (2 : ℝ) ^ emin := by
  obtain ⟨-, -, -, h1, h2⟩ := periods_bounds R hp he origin q hbig
  obtain ⟨f1, f2⟩ := fmodF_range hext (offset_nonneg R hp he contract hext h hbig)
  set u := (2 : ℝ) ^ (1 - (p : ℤ)) with hu
  set η := (2 : ℝ) ^ emin with hη
  have hu0 : 0 < u := two_pos _
  have hu1 : u ≤ 1 := by
    have : u ≤ (2 : ℝ) ^ (0 : ℤ) := zpow_le_zpow_right₀ (by norm_num) (by omega)
    simpa using this
  have hη0 : 0 < η := two_pos _
  rw [h2] at f1 f2
  unfold wrapF
  dsimp only
  rw [h2]
  set pos := rnd (q - origin) with hpos
  set n : ℤ := periods rnd origin q with hn
  set x := mulAdd rnd contract (n : ℝ) extent pos with hx
  have e1 : |pos - (q - origin)| ≤ u * |q - origin| + η := error R hp (q - origin)
  have hpn : |pos| ≤ n := by linarith
  have hn0 : (0 : ℝ) ≤ n := le_trans (abs_nonneg _) hpn
  have hne : 0 ≤ (n : ℝ) * extent := mul_nonneg hn0 hext.le
  have e2 : |x - (n * extent + pos)| ≤ u * (3 * (n * extent) + n) + 3 * η := by
    rw [hx]
    unfold mulAdd
    split_ifs with hc
    · have k1 := error R hp (n * extent + pos)
      have k2 : |n * extent + pos| ≤ n * extent + n := by
        refine (abs_add_le _ _).trans ?_
        rw [abs_of_nonneg hne]; linarith
      have k3 : u * |n * extent + pos| ≤ u * (n * extent + n) := mul_le_mul_of_nonneg_left k2 hu0.le
      have k4 : 0 ≤ u * (n * extent) := mul_nonneg hu0.le hne
      rw [← hu, ← hη] at k1
      linarith
    · have k1 := error R hp (n * extent)
      have k2 := error R hp (rnd (n * extent) + pos)
      rw [← hu, ← hη] at k1 k2
      rw [abs_of_nonneg hne] at k1
      have k3 : |rnd (n * extent) + pos| ≤ 2 * (n * extent) + η + n := by
        refine (abs_add_le _ _).trans ?_
        have k5 : |rnd (n * extent)| ≤ n * extent + (u * (n * extent) + η) := by
          have := abs_sub_abs_le_abs_sub (rnd (n * extent)) (n * extent)
          rw [abs_of_nonneg hne] at this
          linarith
        have k6 : u * (n * extent) ≤ n * extent := by nlinarith
        linarith
      have k7 : u * |rnd (n * extent) + pos| ≤ u * (2 * (n * extent) + η + n) := mul_le_mul_of_nonneg_left k3 hu0.le
      have k8 : u * η ≤ η := by nlinarith
      have k9 : |rnd (rnd (n * extent) + pos) - (n * extent + pos)| ≤
          |rnd (rnd (n * extent) + pos) - (rnd (n * extent) + pos)| + |rnd (n * extent) - n * extent| := by
        have := abs_add_le (rnd (rnd (n * extent) + pos) - (rnd (n * extent) + pos)) (rnd (n * extent) - n * extent)
        calc _ = |(rnd (rnd (n * extent) + pos) - (rnd (n * extent) + pos)) + (rnd (n * extent) - n * extent)| := by congr 1; ring
          _ ≤ _ := this
      nlinarith
  have e3 := error R hp (fmodF x extent + origin)
  rw [← hu, ← hη] at e3
  have e4 : |fmodF x extent + origin| ≤ extent + |origin| := by
    refine (abs_add_le _ _).trans ?_
    rw [abs_of_nonneg f1]; linarith
  have e5 : u * |fmodF x extent + origin| ≤ u * (extent + |origin|) := mul_le_mul_of_nonneg_left e4 hu0.le
  refine ⟨n - truncZ (x / extent), ?_⟩
  have hsplit : rnd (fmodF x extent + origin) - (q + ((n - truncZ (x / extent) : ℤ) : ℝ) * extent) =
      (rnd (fmodF x extent + origin) - (fmodF x extent + origin)) + ((x - (n * extent + pos)) + (pos - (q - origin))) := by
    unfold fmodF
    push_cast
    ring
  rw [hsplit]
  have t1 := abs_add_le (rnd (fmodF x extent + origin) - (fmodF x extent + origin)) ((x - (n * extent + pos)) + (pos - (q - origin)))
  have t2 := abs_add_le (x - (n * extent + pos)) (pos - (q - origin))
  nlinarith

/-- The number of periods added grows with the distance of the particle from the origin, so the error grows with the product of the distance and the extent. -/
theorem periods_upper (R : Rounding p emin rnd) (hp : 3 ≤ p) (he : emin ≤ -2) (origin q : ℝ) (hbig : |rnd (q - origin)| + 2 ≤ 2 ^ p) :
    (periods rnd origin q : ℝ) ≤ 2 * |q - origin| + 4 := by
  obtain ⟨-, -, h1, -, -⟩ := periods_bounds R (by omega) (by omega) origin q hbig
  have hu1 : (2 : ℝ) ^ (1 - (p : ℤ)) ≤ 1 / 4 := by
    have : (2 : ℝ) ^ (1 - (p : ℤ)) ≤ (2 : ℝ) ^ (-2 : ℤ) := zpow_le_zpow_right₀ (by norm_num) (by omega)
    refine this.trans (by norm_num)
  have hη1 : (2 : ℝ) ^ emin ≤ 1 / 4 := by
    have : (2 : ℝ) ^ emin ≤ (2 : ℝ) ^ (-2 : ℤ) := zpow_le_zpow_right₀ (by norm_num) (by omega)
    refine this.trans (by norm_num)
  have e1 := error R (by omega : 1 ≤ p) (q - origin)
  have e2 := error R (by omega : 1 ≤ p) (|rnd (q - origin)| + 2)
  have a0 := abs_nonneg (q - origin)
  have a1 := abs_nonneg (rnd (q - origin))
  have k1 : |rnd (q - origin)| ≤ |q - origin| + |rnd (q - origin) - (q - origin)| := by
    have := abs_sub_abs_le_abs_sub (rnd (q - origin)) (q - origin); linarith
  have k2 := le_abs_self (rnd (|rnd (q - origin)| + 2) - (|rnd (q - origin)| + 2))
  rw [abs_of_nonneg (by linarith : 0 ≤ |rnd (q - origin)| + 2)] at e2
  have k3 : (2 : ℝ) ^ (1 - (p : ℤ)) * |q - origin| ≤ 1 / 4 * |q - origin| := mul_le_mul_of_nonneg_right hu1 a0
  have k4 : (2 : ℝ) ^ (1 - (p : ℤ)) * (|rnd (q - origin)| + 2) ≤ 1 / 4 * (|rnd (q - origin)| + 2) := mul_le_mul_of_nonneg_right hu1 (by linarith)
  linarith

/-- If no operation is rounded, the result is that of exact arithmetic (C27). -/
theorem wrap_exact (R : Rounding p emin rnd) (hp : 1 ≤ p) (he : emin ≤ 0) (contract : Bool) {origin extent q : ℝ} (hbig : |q - origin| + 2 ≤ 2 ^ p)
    (h1 : IsFloat p emin (q - origin)) (h2 : IsFloat p emin (|q - origin| + 2)) (h3 : IsFloat p emin (truncZ (|q - origin| + 2) * extent))
    (h4 : IsFloat p emin (truncZ (|q - origin| + 2) * extent + (q - origin)))
    (h5 : IsFloat p emin (Periodic.wrap origin extent q)) : wrapF rnd contract origin extent q = Periodic.wrap origin extent q := by
  have hpos : rnd (q - origin) = q - origin := R.exact _ h1
  obtain ⟨-, -, -, -, hnr⟩ := periods_bounds R hp he origin q (by rw [hpos]; exact hbig)
  have hn : periods rnd origin q = truncZ (|q - origin| + 2) := by unfold periods; rw [hpos, R.exact _ h2]
  unfold wrapF
  dsimp only
  rw [hnr, hpos, hn]
  have hm : mulAdd rnd contract (truncZ (|q - origin| + 2)) extent (q - origin) = truncZ (|q - origin| + 2) * extent + (q - origin) := by
    unfold mulAdd
    split_ifs
    · exact R.exact _ h4
    · rw [R.exact _ h3, R.exact _ h4]
  rw [hm]
  have he : fmodF (truncZ (|q - origin| + 2) * extent + (q - origin)) extent + origin = Periodic.wrap origin extent q := by
    unfold fmodF Periodic.wrap Periodic.fmod
    dsimp only
    rw [add_comm (q - origin)]
  rw [he, R.exact _ h5]

/-! ### Findings -/

/-- `double`. -/
def doubleP : ℕ := 53
def doubleEmin : ℤ := -1074

/-- Finding: in exact arithmetic a particle in the domain is not moved (`C27.wrap_fixes_domain`). With `double` and **any** rounding mode a particle strictly inside of
`[0, 2 ^ 26)` is moved by at least `1/4`, although its position is representable to `2 ^ -27`: `2 ^ 25 + 2` periods are added to it first. -/
theorem inside_particle_moved (R : Rounding doubleP doubleEmin rnd) (contract : Bool) :
    1 / 4 ≤ |wrapF rnd contract 0 (2 ^ 26) (2 ^ 25 + 1 / 4) - (2 ^ 25 + 1 / 4)| := by
  have hfl : ∀ (m : ℤ) (e : ℤ), doubleEmin ≤ e → |m| ≤ 2 ^ 53 → ∀ x : ℝ, x = m * (2 : ℝ) ^ e → rnd x = x := by
    intro m e he hm x hx
    rw [hx]; exact R.exact _ (float_of_multiple (by decide) he hm)
  have h1 : rnd (2 ^ 25 + 1 / 4 - 0) = 2 ^ 25 + 1 / 4 := by
    rw [hfl (2 ^ 27 + 1) (-2) (by decide) (by decide) _ (by norm_num)]; norm_num
  have h2 : rnd (|(2 : ℝ) ^ 25 + 1 / 4| + 2) = 2 ^ 25 + 1 / 4 + 2 := by
    rw [abs_of_pos (by norm_num)]
    exact hfl (2 ^ 27 + 9) (-2) (by decide) (by decide) _ (by norm_num)
  have hn : periods rnd 0 (2 ^ 25 + 1 / 4) = 2 ^ 25 + 2 := by
    unfold periods
    rw [h1, h2, truncZ_of_nonneg (by norm_num), Int.floor_eq_iff]
    norm_num
  have h3 : rnd (((2 ^ 25 + 2 : ℤ) : ℝ)) = 2 ^ 25 + 2 := by
    rw [hfl (2 ^ 25 + 2) 0 (by decide) (by decide) _ (by norm_num)]; norm_num
  have h4 : rnd (((2 : ℝ) ^ 25 + 2) * 2 ^ 26) = 2 ^ 51 + 2 ^ 27 := by
    rw [hfl (2 ^ 25 + 2) 26 (by decide) (by decide) _ (by norm_num)]; norm_num
  have hx : mulAdd rnd contract (rnd (periods rnd 0 (2 ^ 25 + 1 / 4))) (2 ^ 26) (rnd (2 ^ 25 + 1 / 4 - 0)) = rnd (2 ^ 51 + 2 ^ 27 + (2 ^ 25 + 1 / 4)) := by
    rw [hn, h3, h1]
    unfold mulAdd
    split_ifs
    · congr 1; norm_num
    · rw [h4]
  unfold wrapF
  dsimp only
  rw [hx]
  set x := rnd ((2 : ℝ) ^ 51 + 2 ^ 27 + (2 ^ 25 + 1 / 4)) with hxdef
  have hlow : (2 : ℝ) ^ (51 : ℤ) ≤ x := by
    have hf : IsFloat doubleP doubleEmin ((2 : ℝ) ^ (51 : ℤ)) := float_pow (by decide) (by decide)
    exact le_rnd R hf (by norm_num)
  have hup : x ≤ 2 ^ 52 := by
    have hf : IsFloat doubleP doubleEmin ((2 : ℝ) ^ (52 : ℤ)) := float_pow (by decide) (by decide)
    have := rnd_le R hf (x := (2 : ℝ) ^ 51 + 2 ^ 27 + (2 ^ 25 + 1 / 4)) (by norm_num)
    rw [hxdef]; norm_num at this ⊢; exact this
  have hx0 : 0 ≤ x := le_trans (by positivity) hlow
  obtain ⟨j, hj⟩ := float_grid (R.float _) 51 (by rw [abs_of_nonneg hx0]; exact hlow)
  have hj' : x = j * (1 / 2) := by rw [hxdef, hj]; norm_num [doubleP]
  obtain ⟨f1, f2⟩ := fmodF_range (by norm_num : (0 : ℝ) < 2 ^ 26) hx0
  have hfm : fmodF x (2 ^ 26) = ((j - truncZ (x / 2 ^ 26) * 2 ^ 27 : ℤ) : ℝ) * (2 : ℝ) ^ (-1 : ℤ) := by
    unfold fmodF
    nth_rewrite 1 [hj']
    push_cast
    norm_num
    ring
  set i : ℤ := j - truncZ (x / 2 ^ 26) * 2 ^ 27 with hi
  have hi1 : |i| ≤ 2 ^ 53 := by
    rw [hfm] at f1 f2
    have g1 : (0 : ℝ) ≤ i := by
      by_contra hc; push Not at hc
      have : (i : ℝ) * (2 : ℝ) ^ (-1 : ℤ) < 0 := mul_neg_of_neg_of_pos hc (two_pos _)
      linarith
    have g2 : (i : ℝ) < 2 ^ 27 := by
      norm_num at f2
      linarith
    have g1' : 0 ≤ i := by exact_mod_cast g1
    have g2' : i < 2 ^ 27 := by exact_mod_cast g2
    rw [abs_of_nonneg g1']; omega
  have hr : rnd (fmodF x (2 ^ 26) + 0) = i * (2 : ℝ) ^ (-1 : ℤ) := by
    rw [add_zero, hfm]
    exact hfl i (-1) (by decide) hi1 _ rfl
  rw [hr]
  have hodd : (1 : ℝ) ≤ |((2 * i - (2 ^ 27 + 1) : ℤ) : ℝ)| := by
    have : 1 ≤ |2 * i - (2 ^ 27 + 1)| := Int.one_le_abs (by omega)
    exact_mod_cast this
  have heq : (i : ℝ) * (2 : ℝ) ^ (-1 : ℤ) - (2 ^ 25 + 1 / 4) = ((2 * i - (2 ^ 27 + 1) : ℤ) : ℝ) * (1 / 4) := by
    push_cast
    norm_num
    ring
  rw [heq, abs_mul, abs_of_pos (by norm_num : (0 : ℝ) < 1 / 4)]
  have := mul_le_mul_of_nonneg_right hodd (by norm_num : (0 : ℝ) ≤ 1 / 4)
  rw [one_mul] at this
  exact this

/-- Finding: a particle just below the origin can be put on the upper end of the domain, which is not in the half open domain of exact arithmetic, if
`1025 - 2 ^ -43` is rounded up (as it is by rounding to the nearest even number). -/
theorem upper_end_reached (R : Rounding doubleP doubleEmin rnd) (contract : Bool) (hup : rnd (1025 - (2 : ℝ) ^ (-43 : ℤ)) = 1025) :
    wrapF rnd contract 1024 1 (1024 - (2 : ℝ) ^ (-43 : ℤ)) = 1024 + 1 := by
  have hfl : ∀ (m : ℤ) (e : ℤ), doubleEmin ≤ e → |m| ≤ 2 ^ 53 → ∀ x : ℝ, x = m * (2 : ℝ) ^ e → rnd x = x := by
    intro m e he hm x hx
    rw [hx]; exact R.exact _ (float_of_multiple (by decide) he hm)
  have h1 : rnd (1024 - (2 : ℝ) ^ (-43 : ℤ) - 1024) = -(2 : ℝ) ^ (-43 : ℤ) := by
    rw [hfl (-1) (-43) (by decide) (by decide) _ (by push_cast; ring)]; ring
  have hn : periods rnd 1024 (1024 - (2 : ℝ) ^ (-43 : ℤ)) = 2 := by
    unfold periods
    rw [h1, abs_neg, abs_of_pos (two_pos _), hfl (2 ^ 44 + 1) (-43) (by decide) (by decide) _ (by norm_num), truncZ_of_nonneg (by positivity), Int.floor_eq_iff]
    norm_num
  have h3 : rnd ((2 : ℤ) : ℝ) = 2 := by
    rw [hfl 2 0 (by decide) (by decide) _ (by norm_num)]; norm_num
  have hx : mulAdd rnd contract (rnd (periods rnd 1024 (1024 - (2 : ℝ) ^ (-43 : ℤ)))) 1 (rnd (1024 - (2 : ℝ) ^ (-43 : ℤ) - 1024)) = 2 - (2 : ℝ) ^ (-43 : ℤ) := by
    have h4 : rnd (2 : ℝ) = 2 := hfl 2 0 (by decide) (by decide) _ (by norm_num)
    have h5 : rnd (2 + -(2 : ℝ) ^ (-43 : ℤ)) = 2 + -(2 : ℝ) ^ (-43 : ℤ) := hfl (2 ^ 44 - 1) (-43) (by decide) (by decide) _ (by norm_num)
    rw [hn, h3, h1]
    unfold mulAdd
    split_ifs
    · rw [mul_one, h5]; ring
    · rw [mul_one, h4, h5]; ring
  unfold wrapF
  dsimp only
  rw [hx]
  have hf : fmodF (2 - (2 : ℝ) ^ (-43 : ℤ)) 1 = 1 - (2 : ℝ) ^ (-43 : ℤ) := by
    unfold fmodF
    have : truncZ ((2 - (2 : ℝ) ^ (-43 : ℤ)) / 1) = 1 := by
      rw [truncZ_of_nonneg (by norm_num), Int.floor_eq_iff]; norm_num
    rw [this]; push_cast; ring
  rw [hf, show 1 - (2 : ℝ) ^ (-43 : ℤ) + 1024 = 1025 - (2 : ℝ) ^ (-43 : ℤ) by ring, hup]
  norm_num

/-- All rounding modes of IEEE 754 are roundings, so that the theorems hold for each of them. -/
theorem modes_are_roundings {p : ℕ} {emin : ℤ} (h : Nearest p emin rnd ∨ NearestEven p emin rnd ∨ Downward p emin rnd ∨ Upward p emin rnd ∨ TowardZero p emin rnd) : Rounding p emin rnd := by
  rcases h with h | h | h | h | h
  · exact nearest_rounding h
  · exact nearest_rounding h.toNearest
  · exact downward_rounding h
  · exact upward_rounding h
  · exact towardZero_mode_rounding h

/-- In the default mode `1025 - 2 ^ -43` is rounded up. -/
theorem nearest_even_rounds_up (N : NearestEven doubleP doubleEmin rnd) : rnd (1025 - (2 : ℝ) ^ (-43 : ℤ)) = 1025 := by
  have hf1 : IsFloat doubleP doubleEmin (1025 : ℝ) := by
    have := float_of_multiple (p := doubleP) (emin := doubleEmin) (by decide) (m := 1025) (e := 0) (by decide) (by decide)
    simpa using this
  have e2 : 1025 - (2 : ℝ) ^ (-42 : ℤ) = ((1025 * 2 ^ 42 - 1 : ℤ) : ℝ) * (2 : ℝ) ^ (-42 : ℤ) := by norm_num
  have hn := N.nearest (1025 - (2 : ℝ) ^ (-43 : ℤ)) 1025 hf1
  have hd : |(1025 : ℝ) - (1025 - (2 : ℝ) ^ (-43 : ℤ))| = (2 : ℝ) ^ (-43 : ℤ) := by norm_num
  rw [hd] at hn
  have hb := abs_le.1 hn
  have h43 : (2 : ℝ) ^ (-42 : ℤ) = 2 * (2 : ℝ) ^ (-43 : ℤ) := by norm_num
  have hlow : 1025 - (2 : ℝ) ^ (-42 : ℤ) ≤ rnd (1025 - (2 : ℝ) ^ (-43 : ℤ)) := by rw [h43]; linarith [hb.1]
  have hhigh : rnd (1025 - (2 : ℝ) ^ (-43 : ℤ)) ≤ 1025 := by linarith [hb.2]
  obtain ⟨j, hj⟩ := float_grid (N.float (1025 - (2 : ℝ) ^ (-43 : ℤ))) 10 (by
    rw [abs_of_pos (by norm_num at hlow ⊢; linarith)]; norm_num at hlow ⊢; linarith)
  have hj' : rnd (1025 - (2 : ℝ) ^ (-43 : ℤ)) = j * (2 : ℝ) ^ (-42 : ℤ) := by rw [hj]; rfl
  by_contra hne
  have hj1 : ((1025 * 2 ^ 42 - 1 : ℤ) : ℝ) ≤ j := by
    rw [hj', e2] at hlow
    exact le_of_mul_le_mul_right hlow (two_pos _)
  have hj2 : (j : ℝ) < ((1025 * 2 ^ 42 : ℤ) : ℝ) := by
    have hlt := lt_of_le_of_ne hhigh hne
    rw [hj', show (1025 : ℝ) = ((1025 * 2 ^ 42 : ℤ) : ℝ) * (2 : ℝ) ^ (-42 : ℤ) by norm_num] at hlt
    exact lt_of_mul_lt_mul_right hlt (two_pos _).le
  have hj3 : (1025 * 2 ^ 42 - 1 : ℤ) ≤ j := by exact_mod_cast hj1
  have hj4 : j < (1025 * 2 ^ 42 : ℤ) := by exact_mod_cast hj2
  have hjj : j = 1025 * 2 ^ 42 - 1 := by omega
  have hev := N.even (1025 - (2 : ℝ) ^ (-43 : ℤ)) 1025 hf1 (fun h => hne h.symm) (by
    rw [hd, hj', hjj, ← e2, h43]
    rw [show 1025 - 2 * (2 : ℝ) ^ (-43 : ℤ) - (1025 - (2 : ℝ) ^ (-43 : ℤ)) = -(2 : ℝ) ^ (-43 : ℤ) by ring, abs_neg, abs_of_pos (two_pos _)])
  rw [hj', hjj] at hev
  exact not_even_of_odd (by decide) (by decide) (by decide) (by decide) hev

/-- Finding: in the default rounding mode a particle just below the origin is put on the upper end of the domain. -/
theorem upper_end_reached_by_default (N : NearestEven doubleP doubleEmin rnd) (contract : Bool) :
    wrapF rnd contract 1024 1 (1024 - (2 : ℝ) ^ (-43 : ℤ)) = 1024 + 1 :=
  upper_end_reached (nearest_rounding N.toNearest) contract (nearest_even_rounds_up N)

/-! ### Examples -/

/-- There are roundings of `double`. -/
example : Rounding doubleP doubleEmin (towardZero doubleP doubleEmin) := towardZero_rounding (by decide)

/-- The default mode of `double` exists. -/
theorem default_mode_exists : ∃ rnd, NearestEven doubleP doubleEmin rnd := ⟨_, nearestEven_spec (by decide)⟩

/-- A rounding that rounds `1025 - 2 ^ -43` up. -/
theorem rounds_up_exists : ∃ rnd, Rounding doubleP doubleEmin rnd ∧ rnd (1025 - (2 : ℝ) ^ (-43 : ℤ)) = 1025 :=
  ⟨_, nearest_rounding (nearestEven_spec (by decide)).toNearest, nearest_even_rounds_up (nearestEven_spec (by decide))⟩

/-- The hypotheses of `wrap_in_domain_partial` and `wrap_error` hold of a particle one and a half periods above the domain. -/
example : |towardZero doubleP doubleEmin (7 - 2)| + 2 ≤ 2 ^ doubleP := by
  have hf : IsFloat doubleP doubleEmin ((5 : ℤ) : ℝ) := float_int (by decide) (by decide) (by decide)
  have e : (7 - 2 : ℝ) = ((5 : ℤ) : ℝ) := by norm_num
  rw [e, (towardZero_rounding (p := doubleP) (emin := doubleEmin) (by decide)).exact _ hf]
  norm_num [doubleP]

end Verif.Props.C95
