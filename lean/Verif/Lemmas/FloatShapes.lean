import Verif.Model.FloatShapes
import Verif.Lemmas.FloatBasis
import Verif.Lemmas.BasisKernels

/-! Lemmas for C116: the recursion and the kernels at a computed point. -/

namespace Verif.Lemmas.FloatShapes
open Verif.Lemmas.Rounding Verif.Lemmas.FloatExpansion Verif.Lemmas.FloatBasis Verif.Spec.Rounding Verif.Spec.FloatExpansion Verif.Spec.FloatBasis Verif.Spec Verif.Model
  Verif.Model.FloatKernels Verif.Model.FloatBasis Verif.Model.FloatShapes Verif.Model.JacobiCoeff Verif.Model.BasisEvaluation Verif.Model.BasisReference Verif.Lemmas

variable {rnd : ℝ → ℝ}

local notation "RelF" => Verif.Lemmas.FloatBasis.Rel

/-! ### The recursion at a computed point -/

theorem pnF_relJ (R : Rounding 53 (-1074) rnd) (ch : Choice) {J : ℕ} {c10 C10 c11 C11 c2 C2 z Z p1 P1 p2 P2 g0 g1 m1 m2 : ℝ} {K L : ℕ} (h10 : RelF 2 g0 c10 C10) (h11 : RelF 2 g1 c11 C11)
    (h2 : RelF 2 1 c2 C2) (hz : RelF J (9 / 8) z Z) (hp1 : RelF K m1 p1 P1) (hp2 : RelF L m2 p2 P2) (hL : L ≤ K) (k0 : 1 ≤ g0 * m1) (k1 : 1 ≤ g1 * m1) (k2 : 1 ≤ m2) :
    RelF (K + (J + 6)) (g0 * m1 * (9 / 8) + g1 * m1 + m2) (pnF rnd ch c10 c11 c2 z p1 p2) (C10 * P1 * Z + C11 * P1 + C2 * P2) := by
  have u := ((h10.mul hp1).round R k0).mul hz
  have u' := u.round R (by linarith)
  have v := h11.mul hp1
  have v' := v.round R k1
  have s : RelF (K + J + 5) (g0 * m1 * (9 / 8) + g1 * m1) (match ch.inner with
    | .neither => rnd (rnd (rnd (c10 * p1) * z) + rnd (c11 * p1))
    | .left => rnd (rnd (c10 * p1) * z + rnd (c11 * p1))
    | .right => rnd (rnd (rnd (c10 * p1) * z) + c11 * p1)) (C10 * P1 * Z + C11 * P1) := by
    cases ch.inner
    · exact (((u'.mono (l := K + J + 4) (by omega) le_rfl).add (v'.mono (l := K + J + 4) (by omega) le_rfl)).round R (by linarith)).mono (by omega) le_rfl
    · exact (((u.mono (l := K + J + 4) (by omega) le_rfl).add (v'.mono (l := K + J + 4) (by omega) le_rfl)).round R (by linarith)).mono (by omega) le_rfl
    · exact (((u'.mono (l := K + J + 4) (by omega) le_rfl).add (v.mono (l := K + J + 4) (by omega) le_rfl)).round R (by linarith)).mono (by omega) le_rfl
  have w := h2.mul hp2
  rw [one_mul] at w
  have w' := w.round R k2
  unfold pnF mulAdd
  rw [add_comm (g0 * m1 * (9 / 8) + g1 * m1) m2, add_comm (C10 * P1 * Z + C11 * P1)]
  cases ch.outer
  · exact (((w'.mono (l := K + J + 5) (by omega) le_rfl).add s).round R (by linarith)).mono (by omega) le_rfl
  · exact (((w.mono (l := K + J + 5) (by omega) le_rfl).add s).round R (by linarith)).mono (by omega) le_rfl

/-- The computed value of the polynomial of order `k`. -/
def JacOk (J : ℕ) (z : ℝ) (α k : ℕ) (p : ℝ) : Prop := RelF ((J + 6) * k) (17 / 16 * (α + 3) ^ k) p (jacobiP k α 1 z)

theorem recStepF_relJ (R : Rounding 53 (-1074) rnd) (ch : Choice) (ct : Bool) (maxN maxAlpha : ℕ) {J k α : ℕ} (hα : α ≤ maxAlpha) (hk : k + 2 ≤ maxN) (hs : SmallOrder α (k + 2)) {z Z : ℝ}
    (hz : RelF J (9 / 8) z Z) {p1 p2 : ℝ} (h1 : JacOk J Z α (k + 1) p1) (h2 : JacOk J Z α k p2) :
    ∃ p, recStepF rnd ch (mkF rnd ct maxN maxAlpha) α (k + 2) z (some p1) (some p2) = some (some p) ∧ JacOk J Z α (k + 2) p := by
  unfold JacOk at *
  obtain ⟨e10, m10, i10⟩ := cPnm10F_eq R hs
  obtain ⟨e11, m11, i11⟩ := cPnm11F_eq R ct hs
  obtain ⟨e2, m2, i2⟩ := cPnm2F_eq R hs
  have hc := cPn_pos (α := α) (n := k + 2) (by omega)
  have hc' : (cPn α (k + 2) : ℝ) ≤ 2 ^ 53 := (le_abs_self _).trans (cPnF_eq R hs).2
  have r10 := quotient_rel R hc hc' i10 (size10 (by omega))
  have r11 := quotient_rel R hc hc' i11 (size11 (by omega))
  have r2 := quotient_rel R hc hc' i2 (size2 (by omega))
  refine ⟨pnF rnd ch (rnd (rnd (1 / cPn α (k + 2)) * num10 α (k + 2))) (rnd (rnd (1 / cPn α (k + 2)) * num11 α (k + 2))) (rnd (rnd (1 / cPn α (k + 2)) * num2 α (k + 2))) z p1 p2, ?_, ?_⟩
  · unfold recStepF mkF
    simp only []
    rw [read_pushTable _ _ _ _ _ hα hk, read_pushTable _ _ _ _ _ hα hk, read_pushTable _ _ _ _ _ hα hk]
    simp only [Option.bind_some]
    rw [entryF_some R hs (by omega), entryF_some R hs (by omega), entryF_some R hs (by omega), e10, e11, e2]
    rfl
  · have ha : (0 : ℝ) ≤ α := by positivity
    have hG : (3 : ℝ) ≤ ((α : ℝ) + 3) ^ (k + 1) := by
      calc (3 : ℝ) = 3 * 1 := by norm_num
        _ ≤ (α + 3) * (α + 3) ^ k := mul_le_mul (by linarith) (one_le_pow₀ (by linarith)) (by norm_num) (by positivity)
        _ = _ := by rw [pow_succ]; ring
    have hG0 : (1 : ℝ) ≤ ((α : ℝ) + 3) ^ k := one_le_pow₀ (by linarith)
    have := pnF_relJ R ch r10 r11 r2 hz h1 h2 (Nat.mul_le_mul_left _ (by omega)) (by nlinarith) (by nlinarith) (by nlinarith)
    have hst := jacobiP_step (α := α) (n := k + 2) (by omega) Z
    rw [show k + 2 - 1 = k + 1 by omega, Nat.add_sub_cancel] at hst
    rw [← hst] at this
    refine this.mono (by rw [show k + 2 = k + 1 + 1 by omega, Nat.mul_succ (J + 6) (k + 1)]) ?_
    have hb := mul_le_mul_of_nonneg_left (bound_step α k) (by norm_num : (0 : ℝ) ≤ 17 / 16)
    linarith

theorem zm1_relJ (R : Rounding 53 (-1074) rnd) {J : ℕ} {z Z : ℝ} (hz : RelF J (9 / 8) z Z) : RelF (J + 1) (17 / 8) (rnd (z - 1)) (Z - 1) := by
  have h := hz.add ((rel_self (X := (-1 : ℝ)) (m := 1) (by norm_num)).mono (Nat.zero_le J) le_rfl)
  have := h.round R (by norm_num)
  rw [← sub_eq_add_neg, ← sub_eq_add_neg] at this
  exact this.mono le_rfl (by norm_num)

/-- `a (z - 1) + c` with exact `a` and `c`. -/
theorem affine_relJ (R : Rounding 53 (-1074) rnd) (ct : Bool) {J : ℕ} {a c z Z : ℝ} (ha1 : 1 ≤ a) (hz : RelF J (9 / 8) z Z)
    (hX : |a * (Z - 1) + c| ≤ 17 / 8 * a) : RelF (J + 3) (17 / 8 * a) (mulAdd rnd ct a (rnd (z - 1)) c) (a * (Z - 1) + c) := by
  have w := (rel_self (abs_of_pos (by linarith : 0 < a)).le).mul (zm1_relJ R hz)
  have w' := w.round R (by linarith)
  have hbound : ∀ t, RelF (J + 2) (a * (17 / 8)) t (a * (Z - 1)) → RelF (J + 2) (17 / 8 * a) (t + c) (a * (Z - 1) + c) := by
    intro t ht
    refine ⟨hX, ?_⟩
    have h1 := ht.2
    unfold Accurate at *
    rw [add_sub_add_right_eq_sub, mul_comm (17 / 8 : ℝ)]
    exact h1
  unfold mulAdd
  cases ct
  · exact (hbound _ (w'.mono (by omega) le_rfl)).round R (by linarith)
  · exact (hbound _ (w.mono (by omega) le_rfl)).round R (by linarith)

theorem half_rel : RelF 0 (1 / 2) (1 / 2) (1 / 2) := rel_self (by rw [abs_of_pos] <;> norm_num)

theorem startBF_relJ (R : Rounding 53 (-1074) rnd) (ct : Bool) {J α : ℕ} {z Z : ℝ} (hs : α ≤ 100000) (hz : RelF J (9 / 8) z Z) : JacOk J Z α 1 (startBF rnd ct z α) := by
  have e1 : rnd ((α + 3 : ℕ) : ℝ) = α + 3 := by
    have := (isInt_nat (α + 3)).rnd' R (A := 100003) (by rw [abs_le]; constructor <;> omega) (by norm_num)
    rw [this]; push_cast; ring
  have e0 := (isInt_nat (α + 1)).rnd' R (A := 100001) (by rw [abs_le]; constructor <;> omega) (by norm_num)
  have e2 : rnd (2 * rnd ((α + 1 : ℕ) : ℝ)) = 2 * (α + 1) := by
    have := (isInt_two.mul e0).rnd' R (A := 200002) (by rw [abs_le]; constructor <;> omega) (by norm_num)
    rw [this]; push_cast; ring
  have ha : (0 : ℝ) ≤ α := by positivity
  have hz' := abs_le.mp hz.1
  have hX : |((α : ℝ) + 3) * (Z - 1) + 2 * (α + 1)| ≤ 17 / 8 * (α + 3) := by rw [abs_le]; constructor <;> nlinarith
  have h1 := affine_relJ R ct (by linarith : (1 : ℝ) ≤ α + 3) hz hX
  have h2 := ((half_rel.mul h1).mono (l := J + 5) (p := 17 / 16 * (α + 3)) (by omega) (by linarith)).round R (by linarith)
  unfold startBF JacOk
  rw [e1, e2, pow_one, Nat.mul_one]
  have e3 : (1 / 2 : ℝ) * (((α : ℝ) + 3) * (Z - 1) + 2 * (α + 1)) = jacobiP 1 α 1 Z := by rw [jacobiP_one]; push_cast; ring
  rw [e3] at h2
  exact h2

theorem startAF_relJ (R : Rounding 53 (-1074) rnd) (ct : Bool) {J : ℕ} {z Z : ℝ} (hz : RelF J (9 / 8) z Z) : JacOk J Z 1 1 (startAF rnd ct z) := by
  have hz' := abs_le.mp hz.1
  have := affine_relJ R ct (a := 2) (c := 2) (by norm_num) hz (by rw [abs_le]; constructor <;> linarith)
  have e : 2 * (Z - 1) + 2 = jacobiP 1 1 1 Z := by rw [jacobiP_one]; push_cast; ring
  rw [e] at this
  unfold JacOk
  rw [pow_one, Nat.mul_one]
  exact this.mono (by omega) (by norm_num)

theorem jacOk_zero {J α : ℕ} {Z : ℝ} : JacOk J Z α 0 1 := by
  unfold JacOk
  rw [show jacobiP 0 α 1 Z = 1 from jacobiP_zero _ _ _]
  simpa using rel_self (X := (1 : ℝ)) (m := 17 / 16) (by norm_num)

theorem b0F_relJ (R : Rounding 53 (-1074) rnd) {J : ℕ} {z Z : ℝ} (hz : RelF J (9 / 8) z Z) : RelF (J + 2) (17 / 16) (b0F rnd z) (b0 Z) := by
  have hn : RelF J (9 / 8) (-z) (-Z) := by
    obtain ⟨h1, h2⟩ := hz
    unfold Verif.Lemmas.FloatBasis.Rel Accurate at *
    rw [abs_neg, show -z - -Z = -(z - Z) by ring, abs_neg]
    exact ⟨h1, h2⟩
  have h := (((rel_self (X := (1 : ℝ)) (m := 1) (by norm_num)).mono (Nat.zero_le J) le_rfl).add hn).round R (by norm_num)
  rw [← sub_eq_add_neg, ← sub_eq_add_neg] at h
  exact ((half_rel.mul h).mono (l := J + 1) (p := 17 / 16) (by omega) (by norm_num)).round R (by norm_num)

theorem b1F_relJ (R : Rounding 53 (-1074) rnd) {J : ℕ} {z Z : ℝ} (hz : RelF J (9 / 8) z Z) : RelF (J + 2) (17 / 16) (b1F rnd z) (b1 Z) := by
  have h := (((rel_self (X := (1 : ℝ)) (m := 1) (by norm_num)).mono (Nat.zero_le J) le_rfl).add hz).round R (by norm_num)
  exact ((half_rel.mul h).mono (l := J + 1) (p := 17 / 16) (by omega) (by norm_num)).round R (by norm_num)

/-! ### Powers -/

/-- Doubles are at least `2^-53` away from one. -/
theorem one_sub_float {z : ℝ} (hz : IsFloat 53 (-1074) z) (h1 : z ≠ 1) : (2 : ℝ) ^ (-53 : ℤ) ≤ |1 - z| := by
  have hp := two_pos (-53)
  by_cases h : |z| < 1 / 2
  · have := (abs_lt.mp h).2
    rw [abs_of_pos (by linarith)]
    calc (2 : ℝ) ^ (-53 : ℤ) ≤ 2 ^ (-1 : ℤ) := zpow_le_zpow_right₀ (by norm_num) (by norm_num)
      _ = 1 / 2 := by norm_num
      _ ≤ 1 - z := by linarith
  · push Not at h
    obtain ⟨j, hj⟩ := float_grid hz (-1) (by rw [zpow_neg, zpow_one]; linarith)
    norm_num at hj
    have e : (1 - z : ℝ) = ((2 ^ 53 - j : ℤ) : ℝ) * (2 : ℝ) ^ (-53 : ℤ) := by
      rw [hj]; push_cast; norm_num; ring
    have hne : (2 ^ 53 - j : ℤ) ≠ 0 := fun h0 => h1 (by rw [h0] at e; simp at e; linarith)
    have : (1 : ℝ) ≤ |((2 ^ 53 - j : ℤ) : ℝ)| := by
      rw [← Int.cast_abs]; exact_mod_cast Int.one_le_abs hne
    rw [e, abs_mul, abs_of_pos hp]
    nlinarith

/-- The start value of the powers: one, up to two roundings. -/
theorem start_pow (R : Rounding 53 (-1074) rnd) {b : ℝ} (h1 : (2 : ℝ) ^ (-60 : ℤ) ≤ |b|) (h2 : |b| ≤ 4) :
    ∃ y, mulF rnd (invF rnd b) (some b) = some y ∧ RelF 2 1 y 1 := by
  have hp := two_pos (-60)
  have hb : b ≠ 0 := fun h => by rw [h, abs_zero] at h1; linarith
  have hb' : 0 < |b| := abs_pos.mpr hb
  refine ⟨rnd (rnd (1 / b) * b), ?_, by norm_num, ?_⟩
  · unfold mulF invF; rw [if_neg hb]; rfl
  have hsm : (2 : ℝ) ^ (-1000 : ℤ) ≤ 1 / 4 := by
    rw [show (1 / 4 : ℝ) = 2 ^ (-2 : ℤ) by norm_num]
    exact zpow_le_zpow_right₀ (by norm_num) (by norm_num)
  have hi : 1 / 4 ≤ |1 / b| := by
    rw [abs_div, abs_one]; exact one_div_le_one_div_of_le hb' h2
  have e1 := rel_err R (x := 1 / b) (hsm.trans hi)
  have hq := q_ge
  have hq' : q ≤ 5 / 4 := by unfold q; norm_num
  have hprod : |rnd (1 / b) * b - 1| ≤ q - 1 := by
    have : rnd (1 / b) * b - 1 = (rnd (1 / b) - 1 / b) * b := by field_simp
    rw [this, abs_mul]
    calc |rnd (1 / b) - 1 / b| * |b| ≤ (q - 1) * |1 / b| * |b| := mul_le_mul_of_nonneg_right e1 hb'.le
      _ = q - 1 := by rw [mul_assoc, ← abs_mul, one_div_mul_cancel hb, abs_one, mul_one]
  have hpl := abs_le.mp hprod
  have e2 := rel_err R (x := rnd (1 / b) * b) (hsm.trans (by rw [abs_of_pos (by linarith)]; linarith))
  rw [abs_of_pos (by linarith : 0 < rnd (1 / b) * b)] at e2
  unfold Accurate
  have h3 : |rnd (rnd (1 / b) * b) - 1| ≤ |rnd (rnd (1 / b) * b) - rnd (1 / b) * b| + |rnd (1 / b) * b - 1| := abs_sub_le _ _ _
  have h4 : (q - 1) * (rnd (1 / b) * b) ≤ (q - 1) * q := mul_le_mul_of_nonneg_left (by linarith) (by linarith)
  have h5 : q ^ 2 ≤ ρ ^ 2 := pow_le_pow_left₀ (by linarith) ρ_ge.1 2
  nlinarith

theorem b0F_size (R : Rounding 53 (-1074) rnd) {z : ℝ} (hz : IsFloat 53 (-1074) z) (h1 : z ≠ 1) (hb : |z| ≤ 2) : (2 : ℝ) ^ (-60 : ℤ) ≤ |b0F rnd z| ∧ |b0F rnd z| ≤ 4 := by
  have h := one_sub_float hz h1
  have hle : |1 - z| ≤ 3 := by rw [abs_le] at *; constructor <;> linarith [hb.1, hb.2]
  have fl : ∀ e : ℤ, -1074 ≤ e → IsFloat 53 (-1074) ((2 : ℝ) ^ e) := fun e he => float_pow (by norm_num) he
  have f4 : IsFloat 53 (-1074) 4 := by have := float_int (p := 53) (emin := -1074) (by norm_num) (by norm_num) (m := 4) (by norm_num); simpa using this
  have a1 : ∀ x : ℝ, |x| ≤ 4 → |rnd x| ≤ 4 := fun x hx => by
    rw [abs_le] at *
    exact ⟨le_rnd R (float_neg f4) hx.1, rnd_le R f4 hx.2⟩
  have a2 : ∀ (e : ℤ) (x : ℝ), -1074 ≤ e → (2 : ℝ) ^ e ≤ |x| → (2 : ℝ) ^ e ≤ |rnd x| := fun e x he hx => by
    rw [le_abs] at *
    rcases hx with hx | hx
    · exact Or.inl (le_rnd R (fl e he) hx)
    · right
      have := rnd_le R (float_neg (fl e he)) (by linarith : x ≤ -(2 : ℝ) ^ e)
      linarith
  have b1 := a2 (-53) _ (by norm_num) h
  have b2 := a1 (1 - z) (by linarith)
  unfold b0F
  refine ⟨?_, a1 _ ?_⟩
  · refine (zpow_le_zpow_right₀ (by norm_num) (by norm_num : (-60 : ℤ) ≤ -54)).trans (a2 (-54) _ (by norm_num) ?_)
    rw [abs_mul, show |(1 / 2 : ℝ)| = 2 ^ (-1 : ℤ) by rw [abs_of_pos] <;> norm_num, show (-54 : ℤ) = -1 + -53 by norm_num, zpow_add₀ (by norm_num)]
    exact mul_le_mul_of_nonneg_left b1 (two_pos _).le
  · rw [abs_mul, abs_of_pos (by norm_num : (0 : ℝ) < 1 / 2)]; linarith

end Verif.Lemmas.FloatShapes
