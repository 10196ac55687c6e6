import Verif.Model.FloatKernels
import Verif.Lemmas.Rounding

/-! C96: the sub steps of the neutral particle systems in floating point arithmetic. -/

namespace Verif.Props.C96
open Verif.Model.FloatKernels Verif.Spec.Rounding Verif.Lemmas.Rounding

variable {p : ℕ} {emin : ℤ} {rnd : ℝ → ℝ}

/-- The unit of rounding at a number: the largest error of an operation with results up to `x`. -/
noncomputable def ulp (p : ℕ) (emin : ℤ) (x : ℝ) : ℝ := (2 : ℝ) ^ (1 - (p : ℤ)) * x + (2 : ℝ) ^ emin

theorem ulp_pos {x : ℝ} (hx : 0 ≤ x) : 0 < ulp p emin x := by
  unfold ulp
  have := two_pos emin
  have := two_pos (1 - (p : ℤ))
  positivity

/-- The error of an operation with a result in `[0, x]`. -/
theorem error_ulp (R : Rounding p emin rnd) (hp : 1 ≤ p) {x y : ℝ} (h0 : 0 ≤ y) (h : y ≤ x) : |rnd y - y| ≤ ulp p emin x := by
  refine (error R hp y).trans ?_
  unfold ulp
  have := two_pos (1 - (p : ℤ))
  rw [abs_of_nonneg h0]
  nlinarith

/-- The steps end: the last step or the last two are near the end. -/
theorem near_end (R : Rounding p emin rnd) (hp : 4 ≤ p) {tEnd dt t : ℝ} (hE : IsFloat p emin tEnd) (hd : IsFloat p emin dt) (ht : IsFloat p emin t)
    (h0 : 0 ≤ t) (hlt : t < tEnd) (hnear : tEnd - t ≤ dt) (hdt : 4 * ulp p emin tEnd ≤ dt) (hbig : 32 * (2 : ℝ) ^ emin ≤ tEnd) :
    ∃ ds t', SubSteps rnd tEnd dt t ds t' ∧ (ds.length = 1 ∨ ds.length = 2) ∧ (∀ d ∈ ds, 0 < d ∧ d ≤ dt) ∧ tEnd ≤ t' ∧ t' ≤ tEnd + 4 * ulp p emin tEnd ∧
      |ds.sum - (tEnd - t)| ≤ 4 * ulp p emin tEnd ∧ (tEnd ≤ 2 * t → t' = tEnd ∧ ds = [tEnd - t]) := by
  have hp1 : 1 ≤ p := by omega
  have hEpos : 0 < tEnd := lt_of_le_of_lt h0 hlt
  set w := ulp p emin tEnd with hw
  have hw0 : 0 < w := ulp_pos hEpos.le
  have hu1 : (2 : ℝ) ^ (1 - (p : ℤ)) ≤ 1 / 8 := by
    have : (2 : ℝ) ^ (1 - (p : ℤ)) ≤ (2 : ℝ) ^ (-3 : ℤ) := zpow_le_zpow_right₀ (by norm_num) (by omega)
    refine this.trans (by norm_num)
  have hws : w ≤ tEnd * (5 / 32) := by
    have : (2 : ℝ) ^ (1 - (p : ℤ)) * tEnd ≤ 1 / 8 * tEnd := mul_le_mul_of_nonneg_right hu1 hEpos.le
    rw [hw]; unfold ulp; linarith
  have hrle : rnd (tEnd - t) ≤ dt := rnd_le R hd hnear
  have hss : stepSize rnd tEnd dt t = rnd (tEnd - t) := by unfold stepSize; exact min_eq_right hrle
  have hpos : 0 < rnd (tEnd - t) := by
    rcases lt_or_eq_of_le (rnd_nonneg R (by linarith : 0 ≤ tEnd - t)) with h | h
    · exact h
    · exact absurd ((sub_eq_zero_iff R hp1 hE ht).mp h.symm) (ne_of_gt hlt)
  have e1 : |rnd (tEnd - t) - (tEnd - t)| ≤ w := error_ulp R hp1 (by linarith) (by linarith)
  obtain ⟨e1a, e1b⟩ := abs_le.mp e1
  -- the time after the first step
  set t1 := nextTime rnd tEnd dt t with ht1
  have hnext : t1 = rnd (t + rnd (tEnd - t)) := by rw [ht1]; unfold nextTime; rw [hss]
  have e2 : |t1 - (t + rnd (tEnd - t))| ≤ 2 * w := by
    rw [hnext]
    refine (error_ulp R hp1 (x := 2 * tEnd) (by linarith) (by linarith)).trans ?_
    rw [hw]; unfold ulp
    have := two_pos emin
    linarith
  obtain ⟨e2a, e2b⟩ := abs_le.mp e2
  have hsb : tEnd ≤ 2 * t → rnd (tEnd - t) = tEnd - t ∧ t1 = tEnd := by
    intro h
    have hf : IsFloat p emin (tEnd - t) := sterbenz hE ht h (by linarith)
    have h1 := R.exact _ hf
    refine ⟨h1, ?_⟩
    rw [hnext, h1, add_sub_cancel, R.exact _ hE]
  by_cases hc : t1 < tEnd
  · -- a second step, which is exact
    have hf1 : IsFloat p emin t1 := by rw [hnext]; exact R.float _
    have h2 : tEnd ≤ 2 * t1 := by linarith
    have hf : IsFloat p emin (tEnd - t1) := sterbenz hE hf1 h2 (by linarith)
    have hr : rnd (tEnd - t1) = tEnd - t1 := R.exact _ hf
    have hss2 : stepSize rnd tEnd dt t1 = tEnd - t1 := by
      unfold stepSize; rw [hr]; exact min_eq_right (by linarith)
    have hn2 : nextTime rnd tEnd dt t1 = tEnd := by
      unfold nextTime; rw [hss2, add_sub_cancel, R.exact _ hE]
    refine ⟨[rnd (tEnd - t), tEnd - t1], tEnd, ?_, Or.inr rfl, ?_, le_rfl, by linarith, ?_, ?_⟩
    · have s1 : SubSteps rnd tEnd dt t1 [tEnd - t1] tEnd := by
        have := SubSteps.step (rnd := rnd) (timeEnd := tEnd) (dt := dt) t1 [] tEnd hc (by rw [hn2]; exact SubSteps.done _ (lt_irrefl _))
        rwa [hss2] at this
      have := SubSteps.step (rnd := rnd) (timeEnd := tEnd) (dt := dt) t [tEnd - t1] tEnd hlt s1
      rwa [hss] at this
    · intro d hdm
      simp only [List.mem_cons, List.not_mem_nil, or_false] at hdm
      rcases hdm with rfl | rfl
      · exact ⟨hpos, hrle⟩
      · exact ⟨by linarith, by linarith⟩
    · simp only [List.sum_cons, List.sum_nil, add_zero]
      rw [abs_le]; constructor <;> linarith
    · intro h
      exact absurd (hsb h).2 (ne_of_lt hc)
  · refine ⟨[rnd (tEnd - t)], t1, ?_, Or.inl rfl, ?_, not_lt.mp hc, by linarith, ?_, ?_⟩
    · have := SubSteps.step (rnd := rnd) (timeEnd := tEnd) (dt := dt) t [] t1 hlt (SubSteps.done _ hc)
      rwa [hss] at this
    · intro d hdm
      simp only [List.mem_cons, List.not_mem_nil, or_false] at hdm
      rw [hdm]; exact ⟨hpos, hrle⟩
    · simp only [List.sum_cons, List.sum_nil, add_zero]
      linarith
    · intro h
      exact ⟨(hsb h).2, by rw [(hsb h).1]⟩

/-- **The sub steps in floating point arithmetic, for every rounding mode.** If the step size is not below the resolution of the time, the loop ends. All steps are
positive and at most `dt`, all but the last two are `dt`, the number of steps is at most `2 (tEnd - t) / dt + 2`, the last time is `tEnd` up to rounding, and the sum of the
steps is `tEnd - t` up to the errors of the additions. -/
theorem sub_steps (R : Rounding p emin rnd) (hp : 4 ≤ p) {tEnd dt t : ℝ} (hE : IsFloat p emin tEnd) (hd : IsFloat p emin dt) (ht : IsFloat p emin t)
    (h0 : 0 ≤ t) (hlt : t < tEnd) (hdt : 4 * ulp p emin tEnd ≤ dt) (hbig : 32 * (2 : ℝ) ^ emin ≤ tEnd) :
    ∃ ds t', SubSteps rnd tEnd dt t ds t' ∧ (∀ d ∈ ds, 0 < d ∧ d ≤ dt) ∧ (∀ d ∈ ds.dropLast.dropLast, d = dt) ∧
      (ds.length : ℝ) ≤ 2 * (tEnd - t) / dt + 2 ∧ tEnd ≤ t' ∧ t' ≤ tEnd + 4 * ulp p emin tEnd ∧
      |ds.sum - (tEnd - t)| ≤ (ds.length + 4) * ulp p emin tEnd ∧ (tEnd ≤ 2 * t → t' = tEnd) := by
  have hp1 : 1 ≤ p := by omega
  have hEpos : 0 < tEnd := lt_of_le_of_lt h0 hlt
  have hw0 : 0 < ulp p emin tEnd := ulp_pos hEpos.le
  have hdt0 : 0 < dt := by linarith
  obtain ⟨n, hn⟩ := exists_nat_gt (2 * (tEnd - t) / dt)
  induction n generalizing t with
  | zero =>
    exfalso
    have : 0 ≤ 2 * (tEnd - t) / dt := div_nonneg (by linarith) hdt0.le
    rw [Nat.cast_zero] at hn
    linarith
  | succ n ih =>
    by_cases hnear : tEnd - t ≤ dt
    · obtain ⟨ds, t', s1, s2, s3, s4, s5, s6, s7⟩ := near_end R hp hE hd ht h0 hlt hnear hdt hbig
      refine ⟨ds, t', s1, s3, ?_, ?_, s4, s5, ?_, fun h => (s7 h).1⟩
      · intro d hdm
        have hl : ds.dropLast.dropLast.length = 0 := by simp only [List.length_dropLast]; omega
        rw [List.length_eq_zero_iff.mp hl] at hdm
        simp at hdm
      · have h1 : 0 ≤ 2 * (tEnd - t) / dt := div_nonneg (by linarith) hdt0.le
        have h2 : (ds.length : ℝ) ≤ 2 := by
          have : ds.length ≤ 2 := by omega
          exact_mod_cast this
        linarith
      · refine s6.trans ?_
        have : (0 : ℝ) ≤ ds.length := by positivity
        nlinarith
    · push Not at hnear
      -- a full step
      have hle : dt ≤ rnd (tEnd - t) := le_rnd R hd hnear.le
      have hss : stepSize rnd tEnd dt t = dt := by unfold stepSize; exact min_eq_left hle
      have hnext : nextTime rnd tEnd dt t = rnd (t + dt) := by unfold nextTime; rw [hss]
      have hle2 : rnd (t + dt) ≤ tEnd := rnd_le R hE (by linarith)
      have e1 : |rnd (t + dt) - (t + dt)| ≤ ulp p emin tEnd := error_ulp R hp1 (by linarith) (by linarith)
      obtain ⟨e1a, e1b⟩ := abs_le.mp e1
      have hgrow : t + dt / 2 ≤ rnd (t + dt) := by linarith
      have hstep : ∀ ds t', SubSteps rnd tEnd dt (rnd (t + dt)) ds t' → SubSteps rnd tEnd dt t (dt :: ds) t' := by
        intro ds t' h
        have := SubSteps.step (rnd := rnd) (timeEnd := tEnd) (dt := dt) t ds t' hlt (by rw [hnext]; exact h)
        rwa [hss] at this
      rcases lt_or_eq_of_le hle2 with hlt2 | heq
      · have hcount : 2 * (tEnd - rnd (t + dt)) / dt + 1 ≤ 2 * (tEnd - t) / dt := by
          rw [div_add_one (ne_of_gt hdt0)]
          apply div_le_div_of_nonneg_right _ hdt0.le
          linarith
        obtain ⟨ds, t', s1, s2, s3, s4, s5, s6, s7, s8⟩ := ih (R.float _) (by linarith) hlt2 (by push_cast at hn; linarith)
        refine ⟨dt :: ds, t', hstep ds t' s1, ?_, ?_, ?_, s5, s6, ?_, fun h => s8 (by linarith)⟩
        · intro d hdm
          rcases List.mem_cons.mp hdm with rfl | hdm
          · exact ⟨hdt0, le_rfl⟩
          · exact s2 d hdm
        · intro d hdm
          rcases ds with _ | ⟨a, _ | ⟨b, l⟩⟩
          · simp at hdm
          · simp at hdm
          · simp only [List.dropLast_cons_cons] at hdm s3
            cases l with
            | nil => simp at hdm; exact hdm
            | cons c l =>
              simp only [List.dropLast_cons_cons] at hdm s3
              rcases List.mem_cons.mp hdm with h | h
              · exact h
              · exact s3 d h
        · simp only [List.length_cons]; push_cast; linarith
        · simp only [List.sum_cons, List.length_cons]
          push_cast
          have e : dt + ds.sum - (tEnd - t) = (ds.sum - (tEnd - rnd (t + dt))) + (t + dt - rnd (t + dt)) := by ring
          rw [e]
          refine (abs_add_le _ _).trans ?_
          have : |t + dt - rnd (t + dt)| ≤ ulp p emin tEnd := by rw [abs_sub_comm]; exact e1
          linarith
      · refine ⟨[dt], tEnd, hstep [] tEnd (by rw [heq]; exact SubSteps.done _ (lt_irrefl _)), ?_, by simp, ?_, le_rfl, by linarith, ?_, fun _ => rfl⟩
        · intro d hdm
          simp only [List.mem_cons, List.not_mem_nil, or_false] at hdm
          rw [hdm]; exact ⟨hdt0, le_rfl⟩
        · have h1 : 0 ≤ 2 * (tEnd - t) / dt := div_nonneg (by linarith) hdt0.le
          simp only [List.length_cons, List.length_nil]
          push_cast
          linarith
        · simp only [List.sum_cons, List.sum_nil, add_zero, List.length_cons, List.length_nil]
          push_cast
          rw [abs_le]; constructor <;> linarith

/-- The loop is deterministic: the steps of `sub_steps` are the steps of the loop. -/
theorem sub_steps_unique {tEnd dt t : ℝ} {ds ds' : List ℝ} {t1 t2 : ℝ} (h1 : SubSteps rnd tEnd dt t ds t1) (h2 : SubSteps rnd tEnd dt t ds' t2) :
    ds = ds' ∧ t1 = t2 := by
  induction h1 generalizing ds' t2 with
  | done t h =>
    cases h2 with
    | done _ _ => exact ⟨rfl, rfl⟩
    | step _ _ _ h' _ => exact absurd h' h
  | step t ds t' h _ ih =>
    cases h2 with
    | done _ h' => exact absurd h h'
    | step _ ds2 _ _ hr =>
      obtain ⟨e1, e2⟩ := ih hr
      exact ⟨by rw [e1], e2⟩

/-- Without the condition on the step size the loop may not end: if adding `dt` to the time gives the same time, no list of sub steps ends it. -/
theorem loop_stuck {tEnd dt t : ℝ} (hlt : t < tEnd) (hs : nextTime rnd tEnd dt t = t) : ¬ ∃ ds t', SubSteps rnd tEnd dt t ds t' := by
  rintro ⟨ds, t', h⟩
  generalize he : t = t0 at h
  induction h with
  | done t1 h => rw [← he] at h; exact h hlt
  | step t1 ds t' h _ ih => exact ih (by rw [← he, hs])

/-! ### Examples -/

/-- The hypotheses hold for `double` with `t = 0`, `tEnd = 1`, `dt = 1 / 8`. -/
example : 4 * ulp 53 (-1074) 1 ≤ 1 / 8 ∧ 32 * (2 : ℝ) ^ (-1074 : ℤ) ≤ 1 := by
  have h : (2 : ℝ) ^ (-1074 : ℤ) ≤ 2 ^ (-10 : ℤ) := zpow_le_zpow_right₀ (by norm_num) (by norm_num)
  have h2 : (2 : ℝ) ^ (1 - ((53 : ℕ) : ℤ)) ≤ 2 ^ (-10 : ℤ) := zpow_le_zpow_right₀ (by norm_num) (by norm_num)
  unfold ulp
  norm_num at h h2 ⊢
  constructor <;> linarith

/-- A stuck loop: toward zero, `1 + 2 ^ -60` is `1`. -/
example : ¬ ∃ ds t', SubSteps (towardZero 53 (-1074)) 2 ((2 : ℝ) ^ (-60 : ℤ)) 1 ds t' := by
  have R : Rounding 53 (-1074) (towardZero 53 (-1074)) := towardZero_rounding (by norm_num)
  apply loop_stuck (by norm_num)
  have h1 : towardZero 53 (-1074) (2 - 1) = 1 := by
    rw [R.exact _ (by have := float_int (p := 53) (emin := -1074) (by norm_num) (by norm_num) (m := 1) (by norm_num); norm_num at this ⊢; exact this)]
    norm_num
  unfold nextTime stepSize
  rw [h1, min_eq_left (by norm_num)]
  -- round toward zero
  have hlog : Int.log 2 |(1 : ℝ) + (2 : ℝ) ^ (-60 : ℤ)| = 0 := by
    rw [abs_of_pos (by positivity)]
    apply le_antisymm
    · have : Int.log 2 ((1 : ℝ) + (2 : ℝ) ^ (-60 : ℤ)) < 1 := by
        rw [← Int.lt_zpow_iff_log_lt (by norm_num) (by positivity)]; norm_num
      omega
    · rw [← Int.zpow_le_iff_le_log (by norm_num) (by positivity)]; norm_num
  have hunit : unit 53 (-1074) ((1 : ℝ) + (2 : ℝ) ^ (-60 : ℤ)) = -52 := by unfold unit; rw [hlog]; norm_num
  unfold towardZero
  rw [if_pos (by positivity), hunit]
  have hf : ⌊((1 : ℝ) + (2 : ℝ) ^ (-60 : ℤ)) / 2 ^ (-52 : ℤ)⌋ = 2 ^ 52 := by
    rw [Int.floor_eq_iff]; norm_num
  rw [hf]; norm_num

end Verif.Props.C96
