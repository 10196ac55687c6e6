import Verif.Lemmas.FloatShapes

/-! Lemmas for C116: the kernels in floating point arithmetic and in exact arithmetic write the same entries, with related values. -/

namespace Verif.Lemmas.FloatShapes
open Verif.Lemmas.Rounding Verif.Lemmas.FloatExpansion Verif.Lemmas.FloatBasis Verif.Spec.Rounding Verif.Spec.FloatExpansion Verif.Spec.FloatBasis Verif.Spec Verif.Model
  Verif.Model.FloatKernels Verif.Model.FloatBasis Verif.Model.FloatShapes Verif.Model.JacobiCoeff Verif.Model.BasisEvaluation Verif.Model.BasisReference Verif.Lemmas

variable {rnd : ℝ → ℝ}

local notation "RelF" => Verif.Lemmas.FloatBasis.Rel

/-- Where the exact entry is finite the computed one is, and it is accurate. -/
def Ent (C : ℕ) (B : ℝ) (x y : Dbl ℝ) : Prop := ∀ A, y = some A → ∃ a, x = some a ∧ RelF C B a A

theorem ent_some {C : ℕ} {B a A : ℝ} (h : RelF C B a A) : Ent C B (some a) (some A) := fun _ hA => ⟨a, rfl, by rw [← Option.some.inj hA]; exact h⟩

theorem write2 {α β : Type*} {P : α → β → Prop} {l : List α} {L : List β} (h : List.Forall₂ P l L) {a : α} {b : β} (hab : P a b) (i : ℕ) :
    Opt2 (List.Forall₂ P) (Mem.write l (i : ℤ) a) (Mem.write L (i : ℤ) b) := by
  have hl := h.length_eq
  by_cases hi : i < l.length
  · have e1 : Mem.write l (i : ℤ) a = some (l.set i a) := by unfold Mem.write; rw [if_pos ⟨by omega, by exact_mod_cast hi⟩]; simp
    have e2 : Mem.write L (i : ℤ) b = some (L.set i b) := by unfold Mem.write; rw [if_pos ⟨by omega, by rw [← hl]; exact_mod_cast hi⟩]; simp
    rw [e1, e2]
    show List.Forall₂ P _ _
    clear e1 e2 hi hl
    induction h generalizing i with
    | nil => simp
    | cons h1 h2 ih =>
      cases i with
      | zero => exact List.Forall₂.cons hab h2
      | succ i => exact List.Forall₂.cons h1 (ih i)
  · have e1 : Mem.write l (i : ℤ) a = none := by unfold Mem.write; rw [if_neg]; rintro ⟨-, h⟩; exact hi (by exact_mod_cast h)
    have e2 : Mem.write L (i : ℤ) b = none := by unfold Mem.write; rw [if_neg]; rintro ⟨-, h⟩; rw [← hl] at h; exact hi (by exact_mod_cast h)
    rw [e1, e2]; trivial

/-- The buffers and the next slots agree. -/
def Same (C : ℕ) (B : ℝ) (m m' : ℕ) (l L : List (Dbl ℝ)) : Prop := m = m' ∧ List.Forall₂ (Ent C B) l L

theorem put2 {C : ℕ} {B : ℝ} {s t : RowSt ℝ} (h : Same C B s.mode t.mode s.buf t.buf) {x y p1 p2 q1 q2 : Dbl ℝ} (hxy : Ent C B x y) {P : RowSt ℝ → RowSt ℝ → Prop}
    (hP : ∀ m l L, List.Forall₂ (Ent C B) l L → P ⟨m, l, p1, p2⟩ ⟨m, L, q1, q2⟩) : Opt2 P (put s x p1 p2) (put t y q1 q2) := by
  obtain ⟨h1, h2⟩ := h
  unfold put
  rw [h1]
  exact (write2 h2 hxy t.mode).map fun l L hl => hP _ _ _ hl

/-- What is known of the local variables. -/
def Var (c : Prop) (J : ℕ) (Z : ℝ) (α k : ℕ) (x : Dbl ℝ) : Prop := c → ∃ p, x = some p ∧ JacOk J Z α k p

/-- Related states of the innermost loop. -/
def RowRel (C : ℕ) (B : ℝ) (J : ℕ) (Z : ℝ) (px k : ℕ) (s t : RowSt ℝ) : Prop :=
  Same C B s.mode t.mode s.buf t.buf ∧ t.pnm1 = rowP1 px k Z ∧ t.pnm2 = rowP2 px k Z ∧
    (px = 0 → Var (4 ≤ k) J Z 1 (k - 3) s.pnm1 ∧ Var (3 ≤ k) J Z 1 (k - 4) s.pnm2) ∧
    (px ≠ 0 → Var (3 ≤ k) J Z (2 * px - 1) (k - 2) s.pnm1 ∧ Var (2 ≤ k) J Z (2 * px - 1) (k - 3) s.pnm2)

theorem mag {a b m : ℕ} {g G : ℝ} (hg : 1 ≤ g) (hG : g ≤ G) (h2 : 17 / 16 ≤ G) (h : a + b ≤ m) : (17 / 16 : ℝ) ^ a * g ^ b ≤ G ^ m := by
  calc (17 / 16 : ℝ) ^ a * g ^ b ≤ G ^ a * G ^ b := mul_le_mul (pow_le_pow_left₀ (by norm_num) h2 a) (pow_le_pow_left₀ (by linarith) hG b) (by positivity) (by positivity)
    _ = G ^ (a + b) := by rw [pow_add]
    _ ≤ G ^ m := pow_le_pow_right₀ (by linarith) h

/-- Related powers. -/
def PowOk (J : ℕ) (k : ℕ) (x y : Dbl ℝ) : Prop := ∃ a A, x = some a ∧ y = some A ∧ RelF (2 + (J + 3) * k) ((17 / 16) ^ k) a A

theorem one_le_pow_17 (k : ℕ) : (1 : ℝ) ≤ (17 / 16) ^ k := one_le_pow₀ (by norm_num)

theorem powOk_succ (R : Rounding 53 (-1074) rnd) {J k : ℕ} {z Z : ℝ} (hz : RelF J (9 / 8) z Z) {x y : Dbl ℝ} (h : PowOk J k x y) :
    PowOk J (k + 1) (mulF rnd x (some (b0F rnd z))) (Dbl.mul y (some (b0 Z))) := by
  obtain ⟨a, A, rfl, rfl, h⟩ := h
  refine ⟨_, _, rfl, rfl, ?_⟩
  have h1 := one_le_pow_17 k
  refine ((h.mul (b0F_relJ R hz)).round R (by linarith)).mono (by rw [Nat.mul_succ]; omega) (by rw [pow_succ])

variable {C : ℕ} {B : ℝ} {J : ℕ} {z Z : ℝ}

theorem rowBody_sim (R : Rounding 53 (-1074) rnd) (ch : Bool → Choice) (ct ct' : Bool) (maxN maxAlpha px len k : ℕ) (hz : RelF J (9 / 8) z Z) (hk : k < len) (hC : (J + 6) * (px + len) ≤ C)
    (hB : ((2 * px + 4 : ℕ) : ℝ) ^ (px + len) ≤ B) {bF b : Dbl ℝ} (hb : px ≠ 0 → PowOk J px bF b) (hN : k ≤ maxN + 1) (hA : 1 ≤ maxAlpha) (hpx : 2 * px - 1 ≤ maxAlpha)
    (hs : 2 * px + len ≤ 100000) (s t : RowSt ℝ) (h : RowRel C B J Z px k s t) :
    Opt2 (RowRel C B J Z px (k + 1)) (rowBodyF rnd ch ct' (mkF rnd ct maxN maxAlpha) z bF px k s) (rowBody (JacobiCoeff.mk maxN maxAlpha) Z b px k t) := by
  obtain ⟨hsame, hp1, hp2, hz0, hz1⟩ := h
  have B0 := b0F_relJ R hz
  have B1 := b1F_relJ R hz
  have hcnt : ∀ {m : ℕ}, m ≤ (J + 6) * (px + (k + 1)) → m ≤ C := fun hm => hm.trans ((Nat.mul_le_mul_left _ (by omega)).trans hC)
  have hG : (4 : ℝ) ≤ ((2 * px + 4 : ℕ) : ℝ) := by push_cast; linarith [(Nat.cast_nonneg px : (0 : ℝ) ≤ px)]
  have hmag : ∀ {a b : ℕ} {g : ℝ}, 1 ≤ g → g ≤ ((2 * px + 4 : ℕ) : ℝ) → a + b ≤ px + (k + 1) → (17 / 16 : ℝ) ^ a * g ^ b ≤ B :=
    fun hg hg' hab => (mag hg hg' (by linarith) (hab.trans (by omega : px + (k + 1) ≤ px + len))).trans hB
  unfold rowBodyF rowBody
  by_cases h0 : px = 0
  · subst h0
    obtain ⟨v1, v2⟩ := hz0 rfl
    rw [if_pos rfl, if_pos rfl]
    rcases k with _ | _ | _ | _ | k
    · rw [if_pos rfl, if_pos rfl]
      refine put2 hsame (ent_some (B0.mono (hcnt (by omega)) (by simpa using hmag (a := 1) (b := 0) (g := 4) (by norm_num) hG (by omega)))) fun m l L hl => ⟨⟨rfl, hl⟩, ?_, ?_, ?_, ?_⟩
      · rw [hp1]; simp [rowP1]
      · rw [hp2]; simp [rowP2]
      · exact fun _ => ⟨fun h => absurd h (by omega), fun h => absurd h (by omega)⟩
      · exact fun h => absurd rfl h
    · rw [if_neg (by omega), if_pos rfl, if_neg (by omega), if_pos rfl]
      refine put2 hsame (ent_some (B1.mono (hcnt (by omega)) (by simpa using hmag (a := 1) (b := 0) (g := 4) (by norm_num) hG (by omega)))) fun m l L hl => ⟨⟨rfl, hl⟩, ?_, ?_, ?_, ?_⟩
      · rw [hp1]; simp [rowP1]
      · rw [hp2]; simp [rowP2]
      · exact fun _ => ⟨fun h => absurd h (by omega), fun h => absurd h (by omega)⟩
      · exact fun h => absurd rfl h
    · rw [if_neg (by omega), if_neg (by omega), if_pos rfl, if_neg (by omega), if_neg (by omega), if_pos rfl]
      refine put2 hsame (ent_some (((B0.mul B1).round R (by norm_num)).mono (hcnt (by omega)) (by
        have := hmag (a := 2) (b := 0) (g := 4) (by norm_num) hG (by omega)
        rw [pow_zero, mul_one, pow_two] at this; exact this))) fun m l L hl => ⟨⟨rfl, hl⟩, ?_, ?_, ?_, ?_⟩
      · rw [hp1]; simp [rowP1]
      · simp [rowP2, jacobiP_zero]
      · exact fun _ => ⟨fun h => absurd h (by omega), fun _ => ⟨1, rfl, jacOk_zero⟩⟩
      · exact fun h => absurd rfl h
    · rw [if_neg (by omega), if_neg (by omega), if_neg (by omega), if_pos rfl, if_neg (by omega), if_neg (by omega), if_neg (by omega), if_pos rfl]
      have hst := startAF_relJ R ct' hz
      have hst' := hst
      unfold JacOk at hst
      have e : (2 + 2 * (Z - 1) : ℝ) = jacobiP 1 1 1 Z := by rw [jacobiP_one]; push_cast; ring
      rw [e]
      refine put2 hsame (ent_some (((((B0.mul B1).round R (by norm_num)).mul hst).round R (by norm_num)).mono (hcnt (by omega)) (by
        have := hmag (a := 3) (b := 1) (g := 4) (by norm_num) hG (by omega)
        norm_num at this ⊢; linarith))) fun m l L hl => ⟨⟨rfl, hl⟩, ?_, ?_, ?_, ?_⟩
      · simp [rowP1]
      · rw [hp2]; simp [rowP2]
      · exact fun _ => ⟨fun _ => ⟨_, rfl, hst'⟩, fun _ => v2 (by omega)⟩
      · exact fun h => absurd rfl h
    · rw [if_neg (by omega), if_neg (by omega), if_neg (by omega), if_neg (by omega), if_neg (by omega), if_neg (by omega), if_neg (by omega), if_neg (by omega)]
      obtain ⟨q1, e1, g1⟩ := v1 (by omega)
      obtain ⟨q2, e2, g2⟩ := v2 (by omega)
      simp only [show k + 1 + 1 + 1 + 1 - 3 = k + 1 by omega, show k + 1 + 1 + 1 + 1 - 4 = k by omega] at g1 g2
      obtain ⟨p, er, gp⟩ := recStepF_relJ R (ch false) ct maxN maxAlpha hA (by omega) (by unfold SmallOrder; omega) hz g1 g2
      have hr := recStep_mk (K := ℝ) maxN maxAlpha 1 (k + 2) Z hA (by omega) (by omega)
      simp only [show k + 2 - 1 = k + 1 by omega, Nat.add_sub_cancel] at hr
      have hp1' : t.pnm1 = some (jacobiP (k + 1) 1 1 Z) := by
        rw [hp1]; unfold rowP1
        rw [if_pos rfl, if_neg (by omega), show k + 1 + 1 + 1 + 1 - 3 = k + 1 by omega]
      have hp2' : t.pnm2 = some (jacobiP k 1 1 Z) := by
        rw [hp2]; unfold rowP2
        rw [if_pos rfl, if_neg (by omega), show k + 1 + 1 + 1 + 1 - 4 = k by omega]
      rw [show k + 1 + 1 + 1 + 1 - 2 = k + 2 by omega, e1, e2, er, hp1', hp2', hr, Option.bind_some, Option.bind_some]
      have gp' := gp
      unfold JacOk at gp
      rw [show ((1 : ℕ) : ℝ) + 3 = 4 by norm_num] at gp
      have h4 : (1 : ℝ) ≤ 4 ^ (k + 2) := one_le_pow₀ (by norm_num)
      refine put2 hsame (ent_some (((((gp.mul B0).round R (by linarith)).mul B1).round R (by linarith)).mono (hcnt (by rw [show (J + 6) * (0 + (k + 1 + 1 + 1 + 1 + 1)) = (J + 6) * (k + 2) + (3 * J + 18) by ring]; omega)) (by
        have := hmag (a := 3) (b := k + 2) (g := 4) (by norm_num) hG (by omega)
        norm_num at this ⊢; linarith))) fun m l L hl => ⟨⟨rfl, hl⟩, ?_, ?_, ?_, ?_⟩
      · simp [rowP1]
      · simp [rowP2]
      · refine fun _ => ⟨fun _ => ⟨p, rfl, ?_⟩, fun _ => ⟨q1, rfl, ?_⟩⟩
        · rw [show k + 1 + 1 + 1 + 1 + 1 - 3 = k + 2 by omega]; exact gp'
        · rw [show k + 1 + 1 + 1 + 1 + 1 - 4 = k + 1 by omega]; exact g1
      · exact fun h => absurd rfl h
  · rw [if_neg h0, if_neg h0]
    obtain ⟨v1, v2⟩ := hz1 h0
    obtain ⟨w, W, rfl, rfl, hw⟩ := hb h0
    have hpx1 : 1 ≤ px := by omega
    have hw1 := one_le_pow_17 px
    rcases k with _ | _ | _ | k
    · rw [if_pos rfl, if_pos rfl]
      refine put2 hsame (ent_some (hw.mono (hcnt (by nlinarith)) (by simpa using hmag (a := px) (b := 0) (g := 4) (by norm_num) hG (by omega)))) fun m l L hl => ⟨⟨rfl, hl⟩, ?_, ?_, ?_, ?_⟩
      · rw [hp1]; simp [rowP1, h0]
      · rw [hp2]; simp [rowP2, h0]
      · exact fun h => absurd h h0
      · exact fun _ => ⟨fun h => absurd h (by omega), fun h => absurd h (by omega)⟩
    · rw [if_neg (by omega), if_pos rfl, if_neg (by omega), if_pos rfl]
      refine put2 hsame (ent_some (((hw.mul B1).round R (by nlinarith)).mono (hcnt (by nlinarith)) (by
        have := hmag (a := px + 1) (b := 0) (g := 4) (by norm_num) hG (by omega)
        rw [pow_zero, mul_one, pow_succ] at this; exact this))) fun m l L hl => ⟨⟨rfl, hl⟩, ?_, ?_, ?_, ?_⟩
      · rw [hp1]; simp [rowP1, h0]
      · simp [rowP2, h0, jacobiP_zero]
      · exact fun h => absurd h h0
      · exact fun _ => ⟨fun h => absurd h (by omega), fun _ => ⟨1, rfl, jacOk_zero⟩⟩
    · rw [if_neg (by omega), if_neg (by omega), if_pos rfl, if_neg (by omega), if_neg (by omega), if_pos rfl]
      have hst := startBF_relJ R ct' (α := 2 * px - 1) (by omega) hz
      have hst' := hst
      unfold JacOk at hst
      have e : (1 / 2 : ℝ) * (2 * (((2 * px - 1 : ℕ) : ℝ) + 1) + (((2 * px - 1 : ℕ) : ℝ) + 3) * (Z - 1)) = jacobiP 1 (2 * px - 1) 1 Z := by rw [jacobiP_one]; push_cast; ring
      simp only [e]
      have ea : ((2 * px - 1 : ℕ) : ℝ) + 3 = ((2 * px + 2 : ℕ) : ℝ) := by
        have : 2 * px + 2 = (2 * px - 1) + 3 := by omega
        rw [this]; push_cast; ring
      rw [ea] at hst
      have h2x : (1 : ℝ) ≤ ((2 * px + 2 : ℕ) : ℝ) := by exact_mod_cast (by omega : 1 ≤ 2 * px + 2)
      refine put2 hsame (ent_some (((((hw.mul B1).round R (by nlinarith)).mul hst).round R (by rw [pow_one]; nlinarith)).mono (hcnt (by nlinarith)) (by
        have := hmag (a := px + 2) (b := 1) (g := ((2 * px + 2 : ℕ) : ℝ)) h2x (by exact_mod_cast (by omega : 2 * px + 2 ≤ 2 * px + 4)) (by omega)
        rw [pow_succ, pow_succ] at this
        linarith))) fun m l L hl => ⟨⟨rfl, hl⟩, ?_, ?_, ?_, ?_⟩
      · simp [rowP1, h0]
      · rw [hp2]; simp [rowP2, h0]
      · exact fun h => absurd h h0
      · exact fun _ => ⟨fun _ => ⟨_, rfl, hst'⟩, fun _ => v2 (by omega)⟩
    · rw [if_neg (by omega), if_neg (by omega), if_neg (by omega), if_neg (by omega), if_neg (by omega), if_neg (by omega)]
      obtain ⟨q1, e1, g1⟩ := v1 (by omega)
      obtain ⟨q2, e2, g2⟩ := v2 (by omega)
      simp only [show k + 1 + 1 + 1 - 2 = k + 1 by omega, show k + 1 + 1 + 1 - 3 = k by omega] at g1 g2
      obtain ⟨p, er, gp⟩ := recStepF_relJ R (ch true) ct maxN maxAlpha hpx (by omega) (by unfold SmallOrder; omega) hz g1 g2
      have hr := recStep_mk (K := ℝ) maxN maxAlpha (2 * px - 1) (k + 2) Z hpx (by omega) (by omega)
      simp only [show k + 2 - 1 = k + 1 by omega, Nat.add_sub_cancel] at hr
      have hp1' : t.pnm1 = some (jacobiP (k + 1) (2 * px - 1) 1 Z) := by
        rw [hp1]; unfold rowP1
        rw [if_neg h0, if_neg (by omega), show k + 1 + 1 + 1 - 2 = k + 1 by omega]
      have hp2' : t.pnm2 = some (jacobiP k (2 * px - 1) 1 Z) := by
        rw [hp2]; unfold rowP2
        rw [if_neg h0, if_neg (by omega), show k + 1 + 1 + 1 - 3 = k by omega]
      rw [show k + 1 + 1 + 1 - 1 = k + 2 by omega, e1, e2, er, hp1', hp2', hr, Option.bind_some, Option.bind_some]
      have gp' := gp
      unfold JacOk at gp
      have ea : ((2 * px - 1 : ℕ) : ℝ) + 3 = ((2 * px + 2 : ℕ) : ℝ) := by
        have : 2 * px + 2 = (2 * px - 1) + 3 := by omega
        rw [this]; push_cast; ring
      rw [ea] at gp
      have h2x : (1 : ℝ) ≤ ((2 * px + 2 : ℕ) : ℝ) := by exact_mod_cast (by omega : 1 ≤ 2 * px + 2)
      have h4 : (1 : ℝ) ≤ ((2 * px + 2 : ℕ) : ℝ) ^ (k + 2) := one_le_pow₀ h2x
      have h5 : (1 : ℝ) ≤ (17 / 16) ^ px * (17 / 16) := by linarith
      refine put2 hsame (ent_some (((((hw.mul B1).round R h5).mul gp).round R (by nlinarith)).mono (hcnt (by
          have e : (J + 6) * (px + (k + 1 + 1 + 1 + 1)) = (J + 6) * (k + 2) + (J * px + 6 * px + 2 * J + 12) := by ring
          have e' : (J + 3) * px = J * px + 3 * px := by ring
          rw [e, e']; omega)) (by
        have := hmag (a := px + 2) (b := k + 2) (g := ((2 * px + 2 : ℕ) : ℝ)) h2x (by exact_mod_cast (by omega : 2 * px + 2 ≤ 2 * px + 4)) (by omega)
        rw [pow_succ, pow_succ] at this
        linarith))) fun m l L hl => ⟨⟨rfl, hl⟩, ?_, ?_, ?_, ?_⟩
      · simp [rowP1, h0]
      · simp [rowP2, h0]
      · exact fun h => absurd h h0
      · refine fun _ => ⟨fun _ => ⟨p, rfl, ?_⟩, fun _ => ⟨q1, rfl, ?_⟩⟩
        · rw [show k + 1 + 1 + 1 + 1 - 2 = k + 2 by omega]; exact gp'
        · rw [show k + 1 + 1 + 1 + 1 - 3 = k + 1 by omega]; exact g1

theorem rowLoop_sim (R : Rounding 53 (-1074) rnd) (ch : Bool → Choice) (ct ct' : Bool) (maxN maxAlpha px len : ℕ) (hz : RelF J (9 / 8) z Z) (hC : (J + 6) * (px + len) ≤ C)
    (hB : ((2 * px + 4 : ℕ) : ℝ) ^ (px + len) ≤ B) {bF b : Dbl ℝ} (hb : px ≠ 0 → PowOk J px bF b) (hN : len ≤ maxN + 2) (hA : 1 ≤ maxAlpha) (hpx : 2 * px - 1 ≤ maxAlpha)
    (hs : 2 * px + len ≤ 100000) {m m' : ℕ} {l L : List (Dbl ℝ)} (h : Same C B m m' l L) :
    Opt2 (fun r r' => Same C B r.1 r'.1 r.2 r'.2) (rowLoopF rnd ch ct' (mkF rnd ct maxN maxAlpha) z bF px len m l) (rowLoop (JacobiCoeff.mk maxN maxAlpha) Z b px len m' L) := by
  unfold rowLoopF rowLoop
  refine (forLoop2 (RowRel C B J Z px) len (fun k hk s t hst => rowBody_sim R ch ct ct' maxN maxAlpha px len k hz hk hC hB hb (by omega) hA hpx hs s t hst) ?_).map fun s t hst => hst.1
  refine ⟨h, by simp [rowP1], by simp [rowP2], fun _ => ⟨fun h => absurd h (by omega), fun h => absurd h (by omega)⟩, fun _ => ⟨fun h => absurd h (by omega), fun h => absurd h (by omega)⟩⟩

end Verif.Lemmas.FloatShapes
