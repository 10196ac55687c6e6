import Verif.Lemmas.FloatBasis
import Verif.Lemmas.BasisKernels
import Verif.Lemmas.RoundingModes
import Verif.Props.C114_FloatDeposit

/-! C115: the tables of coefficients, Jacobi polynomials and the modified A basis in floating point arithmetic. -/

namespace Verif.Props.C115
open Verif.Lemmas.Rounding Verif.Lemmas.FloatExpansion Verif.Lemmas.FloatBasis Verif.Spec.Rounding Verif.Spec.FloatExpansion Verif.Spec.FloatBasis Verif.Spec Verif.Model
  Verif.Model.FloatKernels Verif.Model.FloatBasis Verif.Model.FloatExpansion Verif.Model.JacobiCoeff Verif.Model.ExpansionLooping Verif.Model.BasisReference Verif.Model.BasisEvaluation
  Verif.Model.BasisEvaluateBase Verif.Lemmas Verif.Props.C13 Verif.Props.C14 Verif.Props.C114

variable {rnd : ℝ → ℝ}

/-! ### Tables -/

/-- A computed entry: not finite exactly when the exact one is not, and otherwise with the error of two roundings. -/
def EntryOk (x X : Dbl ℝ) : Prop := (x = none ↔ X = none) ∧ ∀ a A, x = some a → X = some A → |a - A| ≤ (q ^ 2 - 1) * |A|

theorem entry_ok (R : Rounding 53 (-1074) rnd) {α n : ℕ} (h : SmallOrder α n) {x X : ℝ} (hx : x = X) {m : ℤ} (hm : X = m) :
    EntryOk (entryF rnd α n x) (Dbl.mul (Dbl.div 1 (cPn α n)) (some X)) := by
  obtain ⟨e, hb⟩ := cPnF_eq R h
  unfold EntryOk entryF Dbl.div
  rw [e, hx]
  by_cases h0 : (cPn α n : ℝ) = 0
  · rw [if_pos h0, if_pos h0]; simp
  · rw [if_neg h0, if_neg h0, Dbl.mul_some]
    refine ⟨by simp, fun a A ha hA => ?_⟩
    obtain rfl := Option.some.inj ha
    obtain rfl := Option.some.inj hA
    have hpos : 0 < (cPn α n : ℝ) := by
      refine lt_of_le_of_ne ?_ (Ne.symm h0)
      rcases Nat.eq_zero_or_pos n with rfl | hn
      · rw [cPn_real]; simp
      · rw [cPn_real]
        have h1 : (1 : ℝ) ≤ n := by exact_mod_cast hn
        have h2 : (0 : ℝ) ≤ α := by positivity
        have : (0 : ℝ) ≤ 2 * n + α - 1 := by linarith
        positivity
    exact quotient_err R hpos ((le_abs_self _).trans hb) hm

/-- **C115, tables.** In the constructor all integers are exact, for orders up to `10^5`; each entry has the error of two roundings (relative to the exact entry), and is not
finite exactly where the exact entry is not (order zero, or one with `alpha` zero), in every rounding mode. -/
theorem tables_error (R : Rounding 53 (-1074) rnd) (ct : Bool) (maxN maxAlpha α n : ℕ) (hα : α ≤ maxAlpha) (hn : n ≤ maxN) (hs : n + α ≤ 100000) :
    ∃ x X y Y z Z, Mem.read (mkF rnd ct maxN maxAlpha).pnm10 (((maxN + 1 : ℕ) : ℤ) * α + n) = some x ∧ Mem.read (mk (K := ℝ) maxN maxAlpha).pnm10 (((maxN + 1 : ℕ) : ℤ) * α + n) = some X ∧
      EntryOk x X ∧
      Mem.read (mkF rnd ct maxN maxAlpha).pnm11 (((maxN + 1 : ℕ) : ℤ) * α + n) = some y ∧ Mem.read (mk (K := ℝ) maxN maxAlpha).pnm11 (((maxN + 1 : ℕ) : ℤ) * α + n) = some Y ∧
      EntryOk y Y ∧
      Mem.read (mkF rnd ct maxN maxAlpha).pnm2 (((maxN + 1 : ℕ) : ℤ) * α + n) = some z ∧ Mem.read (mk (K := ℝ) maxN maxAlpha).pnm2 (((maxN + 1 : ℕ) : ℤ) * α + n) = some Z ∧
      EntryOk z Z := by
  obtain ⟨e10, m10, i10⟩ := cPnm10F_eq R hs
  obtain ⟨e11, m11, i11⟩ := cPnm11F_eq R ct hs
  obtain ⟨e2, m2, i2⟩ := cPnm2F_eq R hs
  refine ⟨_, _, _, _, _, _, read_pushTable _ _ _ _ _ hα hn, read_pushTable _ _ _ _ _ hα hn, ?_, read_pushTable _ _ _ _ _ hα hn, read_pushTable _ _ _ _ _ hα hn, ?_,
    read_pushTable _ _ _ _ _ hα hn, read_pushTable _ _ _ _ _ hα hn, ?_⟩
  · have := entry_ok R hs e10 i10
    unfold entry10
    convert this using 4
    unfold num10; push_cast; ring
  · have := entry_ok R hs e11 i11
    unfold entry11
    convert this using 4
    unfold num11; push_cast; ring
  · have := entry_ok R hs e2 i2
    unfold entry2
    convert this using 4
    unfold num2; push_cast; ring

/-! ### Jacobi polynomials -/

theorem start_aux (R : Rounding 53 (-1074) rnd) {m y X : ℝ} (hm : 1 ≤ m) (hX : |X| ≤ m) (h : |y - X| ≤ (ρ ^ 2 - 1) * (17 / 16 * m)) : Rel 5 m (rnd y) X := by
  refine ⟨hX, ?_⟩
  have h1 := round_le R (x := y) (M := m + (ρ ^ 2 - 1) * (17 / 16 * m)) hm hX (by linarith)
  unfold Accurate
  have hρ := ρ_ge.2
  have h2 : 1 ≤ ρ ^ 2 := one_le_pow₀ hρ
  have h3 : m + (ρ ^ 2 - 1) * (17 / 16 * m) ≤ ρ ^ 4 * m := by
    have e : ρ ^ 4 = 1 + (ρ ^ 2 - 1) * (ρ ^ 2 + 1) := by ring
    rw [e]
    have : (ρ ^ 2 - 1) * (17 / 16) ≤ (ρ ^ 2 - 1) * (ρ ^ 2 + 1) := mul_le_mul_of_nonneg_left (by linarith) (by linarith)
    nlinarith
  have h4 := mul_le_mul_of_nonneg_left h3 (by linarith : 0 ≤ ρ)
  have e : ρ ^ 5 = ρ * ρ ^ 4 := by ring
  rw [e]; linarith

theorem zm1_rel (R : Rounding 53 (-1074) rnd) {z : ℝ} (hz : |z| ≤ 9 / 8) : Rel 1 (17 / 8) (rnd (z - 1)) (z - 1) := by
  have : |z - 1| ≤ 17 / 8 := by rw [abs_le] at *; constructor <;> linarith [hz.1, hz.2]
  exact (rel_self this).round R (by norm_num)

/-- `c + a * (z - 1)` with exact `a` and `c`. -/
theorem affine_rel (R : Rounding 53 (-1074) rnd) (ct : Bool) {a c z m : ℝ} (ha : 0 < a) (hm : 1 ≤ m) (ham : 2 * a ≤ m) (ha1 : 1 ≤ a) (hz : |z| ≤ 9 / 8)
    (hX : |a * (z - 1) + c| ≤ m) : Rel 5 m (mulAdd rnd ct a (rnd (z - 1)) c) (a * (z - 1) + c) := by
  have w := (rel_self (abs_of_pos ha).le).mul (zm1_rel R hz)
  have w' := w.round R (by linarith)
  have hbound : ∀ t, Rel 2 (a * (17 / 8)) t (a * (z - 1)) → |t + c - (a * (z - 1) + c)| ≤ (ρ ^ 2 - 1) * (17 / 16 * m) := by
    intro t ht
    have h1 := ht.2
    unfold Accurate at h1
    rw [add_sub_add_right_eq_sub]
    refine h1.trans (mul_le_mul_of_nonneg_left (by linarith) ?_)
    have : 1 ≤ ρ ^ 2 := one_le_pow₀ ρ_ge.2
    linarith
  unfold mulAdd
  cases ct
  · exact start_aux R hm hX (hbound _ (w'.mono (by omega) le_rfl))
  · exact start_aux R hm hX (hbound _ (w.mono (by omega) le_rfl))

theorem start1F_rel (R : Rounding 53 (-1074) rnd) (ct : Bool) {z : ℝ} {α : ℕ} (hs : SmallOrder α 1) (hz : |z| ≤ 9 / 8) : Rel 6 (17 / 16 * (α + 3)) (start1F rnd ct z α) (jacobiP 1 α 1 z) := by
  unfold SmallOrder at hs
  have e1 : rnd ((α + 1 + 2 : ℕ) : ℝ) = α + 3 := by
    have := (isInt_nat (α + 1 + 2)).rnd' R (A := 100002) (by rw [abs_le]; constructor <;> omega) (by norm_num)
    rw [this]; push_cast; ring
  have e2 : rnd ((2 * (α + 1) : ℕ) : ℝ) = 2 * (α + 1) := by
    have := (isInt_nat (2 * (α + 1))).rnd' R (A := 200002) (by rw [abs_le]; constructor <;> omega) (by norm_num)
    rw [this]; push_cast; ring
  have ha : (0 : ℝ) ≤ α := by positivity
  have hz' := abs_le.mp hz
  have hX : |((α : ℝ) + 3) * (z - 1) + 2 * (α + 1)| ≤ 17 / 8 * (α + 3) := by rw [abs_le]; constructor <;> nlinarith
  have h1 := affine_rel R ct (by linarith : (0 : ℝ) < α + 3) (by linarith) (by linarith) (by linarith) hz hX
  have hhalf : Rel 0 (1 / 2) (1 / 2) (1 / 2) := rel_self (by rw [abs_of_pos] <;> norm_num)
  have h2 := ((hhalf.mul h1).mono (l := 5) (p := 17 / 16 * (α + 3)) (by omega) (by linarith)).round R (by linarith)
  unfold start1F
  rw [e1, e2]
  have e3 : (1 / 2 : ℝ) * (((α : ℝ) + 3) * (z - 1) + 2 * (α + 1)) = jacobiP 1 α 1 z := by rw [jacobiP_one]; push_cast; ring
  rw [e3] at h2
  exact h2

theorem hostLoopF_rel (R : Rounding 53 (-1074) rnd) (ch : Choice) (ct ct' : Bool) (maxN maxAlpha α : ℕ) (hα : α ≤ maxAlpha) {z : ℝ} (hz : |z| ≤ 9 / 8) (k : ℕ) (hk : k + 1 ≤ maxN)
    (hs : SmallOrder α (k + 1)) : ∃ p p', hostLoopF rnd ch ct' (mkF rnd ct maxN maxAlpha) α z k = some (some p, some p') ∧
      Rel (6 * (k + 1)) (17 / 16 * (α + 3) ^ (k + 1)) p (jacobiP (k + 1) α 1 z) ∧ Rel (6 * k) (17 / 16 * (α + 3) ^ k) p' (jacobiP k α 1 z) := by
  induction k with
  | zero =>
    refine ⟨_, _, rfl, ?_, ?_⟩
    · simpa using start1F_rel R ct' hs hz
    · have : jacobiP 0 α 1 z = 1 := jacobiP_zero _ _ _
      rw [this]
      simpa using rel_self (X := (1 : ℝ)) (m := 17 / 16) (by norm_num)
  | succ k ih =>
    obtain ⟨p, p', h, h1, h2⟩ := ih (by omega) (by unfold SmallOrder at *; omega)
    obtain ⟨p'', e, h3⟩ := recStepF_rel R ch ct maxN maxAlpha hα (by omega) hs (by norm_num) hz h1 h2
    refine ⟨p'', p, ?_, h3, h1⟩
    unfold hostLoopF at h ⊢
    rw [forLoop, h, Option.bind_some, e, Option.bind_some]

/-- **C115, Jacobi polynomials.** `host_evaluate` returns the Jacobi polynomial up to the error of `6 n` roundings of values of magnitude `17/16 (alpha + 3)^n`, in every rounding mode
and whichever operations the compiler contracts. -/
theorem host_evaluate_error (R : Rounding 53 (-1074) rnd) (ch : Choice) (ct ct' : Bool) (maxN maxAlpha n α : ℕ) (hα : α ≤ maxAlpha) (hn : n ≤ maxN) (hs : n + α ≤ 100000) {z : ℝ}
    (hz : |z| ≤ 9 / 8) : ∃ v, hostEvaluateF rnd ch ct' (mkF rnd ct maxN maxAlpha) n α z = .ok v ∧ Accurate (6 * n) (17 / 16 * (α + 3) ^ n) v (jacobiP n α 1 z) := by
  have g1 : (0 : ℤ) ≤ n ∧ (n : ℤ) ≤ ((mkF rnd ct maxN maxAlpha).maxN : ℤ) := ⟨by omega, by show (n : ℤ) ≤ (maxN : ℤ); omega⟩
  have g2 : (0 : ℤ) ≤ α ∧ (α : ℤ) ≤ ((mkF rnd ct maxN maxAlpha).maxAlpha : ℤ) := ⟨by omega, by show (α : ℤ) ≤ (maxAlpha : ℤ); omega⟩
  unfold hostEvaluateF
  rw [if_pos g1, if_pos g2, Int.toNat_natCast, Int.toNat_natCast]
  rcases n with _ | _ | n
  · refine ⟨1, by simp, ?_⟩
    rw [show jacobiP 0 α 1 z = 1 from jacobiP_zero _ _ _]
    simp [Accurate]
  · refine ⟨_, by rw [if_neg (by norm_num), if_pos (by norm_num)], ?_⟩
    simpa using (start1F_rel R ct' (by unfold SmallOrder; omega) hz).2
  · obtain ⟨p, p', h, h1, -⟩ := hostLoopF_rel R ch ct ct' maxN maxAlpha α hα hz (n + 1) (by omega) (by unfold SmallOrder; omega)
    refine ⟨p, ?_, h1.2⟩
    rw [if_neg (by omega), if_neg (by omega), show n + 1 + 1 - 1 = n + 1 by omega, h]

/-! ### The modified A basis -/

/-- The error of the `k`th function. -/
def ModeOk (z : ℝ) (k : ℕ) (x : ℝ) : Prop := |evalModA k z| ≤ 17 / 16 * 4 ^ (k - 1) ∧ Accurate (6 * (k - 1) + 2) (17 / 16 * 4 ^ (k - 1)) x (evalModA k z)

theorem b0F_rel (R : Rounding 53 (-1074) rnd) {z : ℝ} (hz : |z| ≤ 9 / 8) : Rel 2 (17 / 16) (b0F rnd z) (1 / 2 * (1 - z)) := by
  have h1 : |1 - z| ≤ 17 / 8 := by rw [abs_le] at *; constructor <;> linarith [hz.1, hz.2]
  have hhalf : Rel 0 (1 / 2) (1 / 2) (1 / 2) := rel_self (by rw [abs_of_pos] <;> norm_num)
  exact ((hhalf.mul ((rel_self h1).round R (by norm_num))).mono (l := 1) (p := 17 / 16) (by omega) (by norm_num)).round R (by norm_num)

theorem b1F_rel (R : Rounding 53 (-1074) rnd) {z : ℝ} (hz : |z| ≤ 9 / 8) : Rel 2 (17 / 16) (b1F rnd z) (1 / 2 * (1 + z)) := by
  have h1 : |1 + z| ≤ 17 / 8 := by rw [abs_le] at *; constructor <;> linarith [hz.1, hz.2]
  have hhalf : Rel 0 (1 / 2) (1 / 2) (1 / 2) := rel_self (by rw [abs_of_pos] <;> norm_num)
  exact ((hhalf.mul ((rel_self h1).round R (by norm_num))).mono (l := 1) (p := 17 / 16) (by omega) (by norm_num)).round R (by norm_num)

theorem startAF_rel (R : Rounding 53 (-1074) rnd) (ct : Bool) {z : ℝ} (hz : |z| ≤ 9 / 8) : Rel 6 4 (startAF rnd ct z) (jacobiP 1 1 1 z) := by
  have hz' := abs_le.mp hz
  have := affine_rel R ct (a := 2) (c := 2) (m := 4) (by norm_num) (by norm_num) (by norm_num) (by norm_num) hz (by rw [abs_le]; constructor <;> linarith)
  have e : 2 * (z - 1) + 2 = jacobiP 1 1 1 z := by rw [jacobiP_one]; push_cast; ring
  rw [e] at this
  exact this.mono (by omega) le_rfl

theorem mode_rel (R : Rounding 53 (-1074) rnd) {z p : ℝ} (hz : |z| ≤ 9 / 8) (k : ℕ) (hp : Rel (6 * k) (4 ^ k) p (jacobiP k 1 1 z)) :
    ModeOk z (k + 2) (rnd (rnd (b0F rnd z * b1F rnd z) * p)) := by
  have h4 : (1 : ℝ) ≤ 4 ^ k := one_le_pow₀ (by norm_num)
  have h := ((((b0F_rel R hz).mul (b1F_rel R hz)).round R (by norm_num)).mul hp).round R (by nlinarith)
  have e : evalModA (k + 2) z = 1 / 2 * (1 - z) * (1 / 2 * (1 + z)) * jacobiP k 1 1 z := by
    unfold evalModA
    rw [if_neg (by omega), if_neg (by omega), jacobi_eq_jacobiP]; rfl
  unfold ModeOk
  rw [e]
  refine h.mono (by omega) ?_
  rw [show k + 2 - 1 = k + 1 by omega, pow_succ]
  nlinarith

theorem mode2 (R : Rounding 53 (-1074) rnd) {z : ℝ} (hz : |z| ≤ 9 / 8) : ModeOk z 2 (rnd (b0F rnd z * b1F rnd z)) := by
  have h := ((b0F_rel R hz).mul (b1F_rel R hz)).round R (by norm_num)
  have e : evalModA 2 z = 1 / 2 * (1 - z) * (1 / 2 * (1 + z)) := by simp [evalModA, SpecialFunctions.jacobi]
  unfold ModeOk
  rw [e]
  exact h.mono (by omega) (by norm_num)

/-- **C115, modified A basis.** `mod_A` writes the first `n` entries of its output and no others, and each is the value of the function of that order up to the error of at most
`6 k + 2` roundings of values of magnitude about `4^(k-1)`. -/
theorem mod_A_error (R : Rounding 53 (-1074) rnd) (ch : Choice) (ct ct' : Bool) (maxN maxAlpha n : ℕ) (h2 : 2 ≤ n) (hs : n ≤ 100000) (hN : n ≤ maxN + 3) (hA : 1 ≤ maxAlpha) {z : ℝ}
    (hz : |z| ≤ 9 / 8) (buf : List (Dbl ℝ)) (hl : n ≤ buf.length) :
    ∃ l : List ℝ, l.length = n ∧ modAF rnd ch ct' (mkF rnd ct maxN maxAlpha) n z buf = some (l.map some ++ buf.drop n) ∧ ∀ (k : ℕ) x, l[k]? = some x → ModeOk z k x := by
  have m0 : ModeOk z 0 (b0F rnd z) := by
    have := b0F_rel R hz
    have e : evalModA 0 z = 1 / 2 * (1 - z) := rfl
    unfold ModeOk
    rw [e]
    exact this.mono (by omega) (by norm_num)
  have m1 : ModeOk z 1 (b1F rnd z) := by
    have := b1F_rel R hz
    have e : evalModA 1 z = 1 / 2 * (1 + z) := rfl
    unfold ModeOk
    rw [e]
    exact this.mono (by omega) (by norm_num)
  have m2 := mode2 R hz
  have m3 := mode_rel R hz 1 (by simpa using startAF_rel R ct' hz)
  have hend : ∀ l : List ℝ, l.length = n → fill (l.map some) buf = l.map some ++ buf.drop n := fun l h => by unfold fill; rw [List.length_map, h]
  unfold modAF
  have w0 := write_fill [] buf (some (b0F rnd z)) (by simp; omega)
  have w1 := write_fill [some (b0F rnd z)] buf (some (b1F rnd z)) (by simp; omega)
  rw [fill_nil] at w0
  simp only [List.length_nil, Nat.cast_zero] at w0
  simp only [List.length_singleton, Nat.cast_one] at w1
  rw [w0, Option.bind_some, List.nil_append, w1, Option.bind_some]
  rcases Nat.lt_or_ge n 3 with h | h
  · have : n = 2 := by omega
    subst this
    refine ⟨[b0F rnd z, b1F rnd z], rfl, ?_, fun k x hx => ?_⟩
    · rw [← hend _ rfl]; simp [forLoop]
    · rcases k with _ | _ | k
      · simp at hx; rw [← hx]; exact m0
      · simp at hx; rw [← hx]; exact m1
      · simp at hx
  have w2 := write_fill ([some (b0F rnd z)] ++ [some (b1F rnd z)]) buf (some (rnd (b0F rnd z * b1F rnd z))) (by simp; omega)
  simp only [List.length_append, List.length_singleton, Nat.reduceAdd, Nat.cast_ofNat] at w2
  rw [if_pos (by omega), w2, Option.bind_some]
  rcases Nat.lt_or_ge n 4 with h' | h'
  · have : n = 3 := by omega
    subst this
    refine ⟨[b0F rnd z, b1F rnd z, rnd (b0F rnd z * b1F rnd z)], rfl, ?_, fun k x hx => ?_⟩
    · rw [← hend _ rfl]; simp [forLoop]
    · rcases k with _ | _ | _ | k
      · simp at hx; rw [← hx]; exact m0
      · simp at hx; rw [← hx]; exact m1
      · simp at hx; rw [← hx]; exact m2
      · simp at hx
  have w3 := write_fill ([some (b0F rnd z)] ++ [some (b1F rnd z)] ++ [some (rnd (b0F rnd z * b1F rnd z))]) buf
    (some (rnd (rnd (b0F rnd z * b1F rnd z) * startAF rnd ct' z))) (by simp; omega)
  simp only [List.length_append, List.length_singleton, Nat.reduceAdd, Nat.cast_ofNat] at w3
  rw [if_pos (by omega), w3, Option.bind_some]
  have hloop : ∀ j ≤ n - 4, ∃ (l : List ℝ) (p p' : ℝ), l.length = j + 4 ∧ (∀ (k : ℕ) x, l[k]? = some x → ModeOk z k x) ∧
      Rel (6 * (j + 1)) (4 ^ (j + 1)) p (jacobiP (j + 1) 1 1 z) ∧ Rel (6 * j) (4 ^ j) p' (jacobiP j 1 1 z) ∧
      forLoop j (fun i (s : AStF) =>
        (recStepF rnd ch (mkF rnd ct maxN maxAlpha) 1 (i + 4 - 2) z s.pnm1 s.pnm2).bind fun pn =>
        (Mem.write s.buf ((i + 4 : ℕ) : ℤ) (pn.map fun pn => rnd (rnd (b0F rnd z * b1F rnd z) * pn))).map fun buf => (⟨buf, pn, s.pnm1⟩ : AStF))
        ⟨fill ([some (b0F rnd z)] ++ [some (b1F rnd z)] ++ [some (rnd (b0F rnd z * b1F rnd z))] ++ [some (rnd (rnd (b0F rnd z * b1F rnd z) * startAF rnd ct' z))]) buf,
          some (startAF rnd ct' z), some 1⟩ = some ⟨fill (l.map some) buf, some p, some p'⟩ := by
    intro j
    induction j with
    | zero =>
      intro _
      refine ⟨[b0F rnd z, b1F rnd z, rnd (b0F rnd z * b1F rnd z), rnd (rnd (b0F rnd z * b1F rnd z) * startAF rnd ct' z)], _, _, rfl, fun k x hx => ?_,
        by simpa using startAF_rel R ct' hz, ?_, rfl⟩
      · rcases k with _ | _ | _ | _ | k
        · simp at hx; rw [← hx]; exact m0
        · simp at hx; rw [← hx]; exact m1
        · simp at hx; rw [← hx]; exact m2
        · simp at hx; rw [← hx]; exact m3
        · simp at hx
      · rw [show jacobiP 0 1 1 z = 1 from jacobiP_zero _ _ _]
        simpa using rel_self (X := (1 : ℝ)) (m := 1) (by simp)
    | succ j ih =>
      intro hj
      obtain ⟨l, p, p', hlen, hl', h1, h0, e⟩ := ih (by omega)
      obtain ⟨p'', er, hr⟩ := recStepF_rel (α := 1) R ch ct maxN maxAlpha (k := j) hA (by omega) (by unfold SmallOrder; omega) (le_refl (1 : ℝ)) hz (by convert h1 using 2; norm_num)
        (by convert h0 using 2; norm_num)
      have hr' : Rel (6 * (j + 2)) (4 ^ (j + 2)) p'' (jacobiP (j + 2) 1 1 z) := by convert hr using 2; norm_num
      refine ⟨l ++ [rnd (rnd (b0F rnd z * b1F rnd z) * p'')], p'', p, by simp [hlen], fun k x hx => ?_, hr', h1, ?_⟩
      · rcases Nat.lt_or_ge k l.length with hk | hk
        · rw [List.getElem?_append_left hk] at hx; exact hl' k x hx
        · rw [List.getElem?_append_right hk] at hx
          obtain ⟨hk1, hk2⟩ := List.getElem?_eq_some_iff.mp hx
          simp only [List.length_singleton] at hk1
          have hk3 : k = j + 2 + 2 := by omega
          simp only [List.getElem_singleton] at hk2
          rw [← hk2, hk3]
          exact mode_rel R hz (j + 2) hr'
      · rw [forLoop, e, Option.bind_some]
        simp only [show j + 4 - 2 = j + 2 by omega]
        rw [er, Option.bind_some]
        have hw := write_fill (l.map some) buf (some (rnd (rnd (b0F rnd z * b1F rnd z) * p''))) (by rw [List.length_map]; omega)
        rw [List.length_map, hlen] at hw
        rw [Option.map_some, hw, Option.map_some]
        simp
  obtain ⟨l, p, p', hlen, hok, -, -, e⟩ := hloop (n - 4) le_rfl
  refine ⟨l, by omega, ?_, hok⟩
  dsimp only
  rw [e, Option.map_some, hend l (by omega)]

end Verif.Props.C115
