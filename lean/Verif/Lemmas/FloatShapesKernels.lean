import Verif.Lemmas.FloatShapesSim

/-! Lemmas for C116: the four kernels. -/

namespace Verif.Lemmas.FloatShapes
open Verif.Lemmas.Rounding Verif.Lemmas.FloatExpansion Verif.Lemmas.FloatBasis Verif.Spec.Rounding Verif.Spec.FloatExpansion Verif.Spec.FloatBasis Verif.Spec Verif.Model
  Verif.Model.FloatKernels Verif.Model.FloatBasis Verif.Model.FloatShapes Verif.Model.JacobiCoeff Verif.Model.BasisEvaluation Verif.Model.BasisReference Verif.Lemmas

variable {rnd : ℝ → ℝ}

local notation "RelF" => Verif.Lemmas.FloatBasis.Rel

variable {C : ℕ} {B : ℝ} {J : ℕ} {z Z : ℝ}

/-! ### mod_A -/

theorem modA_sim (R : Rounding 53 (-1074) rnd) (ch : Choice) (ct ct' : Bool) (maxN maxAlpha n : ℕ) (hz : RelF J (9 / 8) z Z) (h2 : 2 ≤ n) (hC : (J + 6) * n ≤ C) (hB : (4 : ℝ) ^ n ≤ B)
    (hN : n ≤ maxN + 3) (hA : 1 ≤ maxAlpha) (hs : n ≤ 20000) {l L : List (Dbl ℝ)} (h : List.Forall₂ (Ent C B) l L) :
    Opt2 (List.Forall₂ (Ent C B)) (modAF rnd ch ct' (mkF rnd ct maxN maxAlpha) n z l) (modA (JacobiCoeff.mk maxN maxAlpha) n Z L) := by
  have B0 := b0F_relJ R hz
  have B1 := b1F_relJ R hz
  have B01 := (B0.mul B1).round R (by norm_num)
  have hst := startAF_relJ R ct' hz
  have es : (2 + 2 * (Z - 1) : ℝ) = jacobiP 1 1 1 Z := by rw [jacobiP_one]; push_cast; ring
  have hcnt : ∀ {m j : ℕ}, m ≤ (J + 6) * j → j ≤ n → m ≤ C := fun hm hj => hm.trans ((Nat.mul_le_mul_left _ hj).trans hC)
  have hmag : ∀ {a b : ℕ}, a + b ≤ n → (17 / 16 : ℝ) ^ a * 4 ^ b ≤ B := fun hab => (mag (by norm_num) le_rfl (by norm_num) hab).trans hB
  unfold modAF modA
  refine (write2 h (ent_some (B0.mono (hcnt (j := 1) (by omega) (by omega)) (by simpa using hmag (a := 1) (b := 0) (by omega)))) 0).bind fun l0 L0 _ _ h0 => ?_
  refine (write2 h0 (ent_some (B1.mono (hcnt (j := 1) (by omega) (by omega)) (by simpa using hmag (a := 1) (b := 0) (by omega)))) 1).bind fun l1 L1 _ _ h1 => ?_
  refine Opt2.bind (R := List.Forall₂ (Ent C B)) ?_ fun l2 L2 _ _ h2' => ?_
  · split_ifs with h3
    · refine write2 h1 (ent_some (B01.mono (hcnt (j := 2) (by omega) (by omega)) ?_)) 2
      have := hmag (a := 2) (b := 0) (by omega)
      rw [pow_zero, mul_one, pow_two] at this; exact this
    · exact h1
  refine Opt2.bind (R := List.Forall₂ (Ent C B)) ?_ fun l3 L3 _ _ h3' => ?_
  · split_ifs with h4
    · rw [es]
      have hst' := hst
      unfold JacOk at hst'
      refine write2 h2' (ent_some (((B01.mul hst').round R (by norm_num)).mono (hcnt (j := 3) (by omega) (by omega)) ?_)) 3
      have := hmag (a := 3) (b := 1) (by omega)
      norm_num at this ⊢; linarith
    · exact h2'
  refine (forLoop2 (fun k (s : AStF) (t : ASt ℝ) => List.Forall₂ (Ent C B) s.buf t.buf ∧ t.pnm1 = some (jacobiP (k + 1) 1 1 Z) ∧ t.pnm2 = some (jacobiP k 1 1 Z) ∧
    (∃ p, s.pnm1 = some p ∧ JacOk J Z 1 (k + 1) p) ∧ ∃ p, s.pnm2 = some p ∧ JacOk J Z 1 k p) (n - 4) ?_ ?_).map fun s t hst => hst.1
  · rintro k hk ⟨sb, s1, s2⟩ ⟨tb, t1, t2⟩ ⟨hb, e1, e2, ⟨p, e3, g1⟩, ⟨p', e4, g2⟩⟩
    simp only [] at e1 e2 e3 e4 hb
    subst e1 e2 e3 e4
    obtain ⟨y, er, gp⟩ := recStepF_relJ R ch ct maxN maxAlpha hA (by omega) (by unfold SmallOrder; omega) hz g1 g2
    have hr := recStep_mk (K := ℝ) maxN maxAlpha 1 (k + 2) Z hA (by omega) (by omega)
    simp only [show k + 2 - 1 = k + 1 by omega, Nat.add_sub_cancel] at hr
    simp only [show k + 4 - 2 = k + 2 by omega, er, hr, Option.bind_some]
    have gp' := gp
    unfold JacOk at gp
    rw [show ((1 : ℕ) : ℝ) + 3 = 4 by norm_num] at gp
    have h4 : (1 : ℝ) ≤ 4 ^ (k + 2) := one_le_pow₀ (by norm_num)
    refine (write2 hb (ent_some (((B01.mul gp).round R (by nlinarith)).mono (hcnt (j := k + 4) ?_ (by omega)) ?_)) (k + 4)).map fun l L hl => ⟨hl, rfl, rfl, ⟨y, rfl, gp'⟩, ⟨p, rfl, g1⟩⟩
    · rw [show (J + 6) * (k + 4) = (J + 6) * (k + 2) + (2 * J + 12) by ring]; omega
    · have := hmag (a := 2) (b := k + 4 - 2) (by omega)
      have h3 := mag (a := 3) (b := k + 2) (m := k + 5) (g := 4) (G := 4) (by norm_num) le_rfl (by norm_num) (by omega)
      have h5 : (17 / 16 : ℝ) ^ 3 * 4 ^ (k + 2) ≤ 4 ^ (k + 4) := by rw [show k + 4 = k + 2 + 2 by omega, pow_add (4 : ℝ) (k + 2) 2]; nlinarith
      have h6 : (4 : ℝ) ^ (k + 4) ≤ 4 ^ n := pow_le_pow_right₀ (by norm_num) (by omega)
      have e : (17 / 16 : ℝ) * (17 / 16) * (17 / 16 * 4 ^ (k + 2)) = (17 / 16) ^ 3 * 4 ^ (k + 2) := by ring
      rw [e]; linarith
  · exact ⟨h3', by rw [es], by simp [jacobiP_zero], ⟨_, rfl, hst⟩, ⟨1, rfl, jacOk_zero⟩⟩

/-! ### mod_B and mod_C -/

/-- The computed and the exact point are not at the collapsed end. -/
def Off (z Z : ℝ) : Prop := IsFloat 53 (-1074) z ∧ z ≠ 1 ∧ |z| ≤ 2 ∧ Z ≠ 1

theorem pow_first (R : Rounding 53 (-1074) rnd) (ho : Off z Z) : PowOk J 0 (mulF rnd (invF rnd (b0F rnd z)) (some (b0F rnd z))) (Dbl.mul (Dbl.div 1 (b0 Z)) (some (b0 Z))) := by
  obtain ⟨h1, h2, h3, h4⟩ := ho
  obtain ⟨k1, k2⟩ := b0F_size R h1 h2 h3
  obtain ⟨y, e, hy⟩ := start_pow R k1 k2
  refine ⟨y, 1, e, ?_, by simpa using hy⟩
  rw [powB_zero, powB, if_neg h4, pow_zero]

/-- The powers before pass `k`. -/
def PowAt (rnd : ℝ → ℝ) (J : ℕ) (z Z : ℝ) (k : ℕ) (x y : Dbl ℝ) : Prop := PowOk J k (mulF rnd x (some (b0F rnd z))) (Dbl.mul y (some (b0 Z)))

theorem modB_sim (R : Rounding 53 (-1074) rnd) (ch : Bool → Choice) (ct ct' : Bool) (maxN maxAlpha n : ℕ) (hz : RelF J (9 / 8) z Z) (ho : Off z Z) (hC : (J + 6) * n ≤ C)
    (hB : ((2 * n + 2 : ℕ) : ℝ) ^ n ≤ B) (hN : n ≤ maxN + 2) (hA : 1 ≤ maxAlpha) (hpx : 2 * n - 3 ≤ maxAlpha) (hs : n ≤ 20000) {l L : List (Dbl ℝ)} (h : List.Forall₂ (Ent C B) l L) :
    Opt2 (List.Forall₂ (Ent C B)) (modBF rnd ch ct' (mkF rnd ct maxN maxAlpha) n z l) (modB (JacobiCoeff.mk maxN maxAlpha) n Z L) := by
  unfold modBF modB
  refine (forLoop2 (fun k (s t : PowSt ℝ) => Same C B s.mode t.mode s.buf t.buf ∧ PowAt rnd J z Z k s.pow t.pow) n ?_ ?_).map fun s t hst => hst.1.2
  · rintro px hp ⟨sm, sb, sp⟩ ⟨tm, tb, tp⟩ ⟨hsame, hpow⟩
    simp only [] at hsame hpow ⊢
    have hB' : ((2 * px + 4 : ℕ) : ℝ) ^ (px + (n - px)) ≤ B := by
      rw [show px + (n - px) = n by omega]
      exact (pow_le_pow_left₀ (by positivity) (by exact_mod_cast (by omega : 2 * px + 4 ≤ 2 * n + 2)) n).trans hB
    refine (rowLoop_sim R ch ct ct' maxN maxAlpha px (n - px) hz (by rw [show px + (n - px) = n by omega]; exact hC) hB' (fun _ => hpow) (by omega) hA (by omega) (by omega) hsame).map
      fun r r' hr => ⟨hr, powOk_succ R hz hpow⟩
  · exact ⟨⟨rfl, h⟩, pow_first R ho⟩

theorem modC_sim (R : Rounding 53 (-1074) rnd) (ch : Bool → Choice) (ct ct' : Bool) (maxN maxAlpha n : ℕ) (hz : RelF J (9 / 8) z Z) (ho : Off z Z) (hC : (J + 6) * n ≤ C)
    (hB : ((2 * n + 2 : ℕ) : ℝ) ^ n ≤ B) (hN : n ≤ maxN + 2) (hA : 1 ≤ maxAlpha) (hpx : 2 * n - 3 ≤ maxAlpha) (hs : n ≤ 20000) {l L : List (Dbl ℝ)} (h : List.Forall₂ (Ent C B) l L) :
    Opt2 (List.Forall₂ (Ent C B)) (modCF rnd ch ct' (mkF rnd ct maxN maxAlpha) n z l) (modC (JacobiCoeff.mk maxN maxAlpha) n Z L) := by
  unfold modCF modC
  refine (forLoop2 (fun k (s t : PowSt ℝ) => Same C B s.mode t.mode s.buf t.buf ∧ PowAt rnd J z Z k s.pow t.pow) n ?_ ?_).map fun s t hst => hst.1.2
  · rintro p hp ⟨sm, sb, sp⟩ ⟨tm, tb, tp⟩ ⟨hsame, hpow⟩
    simp only [] at hsame hpow ⊢
    refine (forLoop2 (fun k (s t : PowSt ℝ) => Same C B s.mode t.mode s.buf t.buf ∧ PowOk J (p + k) s.pow t.pow) (n - p) ?_ ?_).map fun s t hst => ⟨hst.1, powOk_succ R hz hpow⟩
    · rintro q hq ⟨sm, sb, sp⟩ ⟨tm, tb, tp⟩ ⟨hsame, hpow⟩
      simp only [] at hsame hpow ⊢
      have e : p + q + (n - p - q) = n := by omega
      have hB' : ((2 * (p + q) + 4 : ℕ) : ℝ) ^ (p + q + (n - p - q)) ≤ B := by
        rw [e]
        exact (pow_le_pow_left₀ (by positivity) (by exact_mod_cast (by omega : 2 * (p + q) + 4 ≤ 2 * n + 2)) n).trans hB
      exact (rowLoop_sim R ch ct ct' maxN maxAlpha (p + q) (n - p - q) hz (by rw [e]; exact hC) hB' (fun _ => hpow) (by omega) hA (by omega) (by omega) hsame).map
        fun r r' hr => ⟨hr, powOk_succ R hz hpow⟩
    · exact ⟨hsame, hpow⟩
  · exact ⟨⟨rfl, h⟩, pow_first R ho⟩

/-! ### mod_PyrC -/

theorem copyLoop_sim (len base out : ℕ) {l L : List (Dbl ℝ)} (h : List.Forall₂ (Ent C B) l L) : Opt2 (List.Forall₂ (Ent C B)) (copyLoop len base out l) (copyLoop len base out L) := by
  unfold copyLoop
  exact forLoop2 (fun _ => List.Forall₂ (Ent C B)) len (fun i _ s t hst => (read2 hst (base + i)).bind fun a b _ _ hab => write2 hst hab (out + i)) h

theorem copyTwice_sim (len base out : ℕ) {l L : List (Dbl ℝ)} (h : List.Forall₂ (Ent C B) l L) : Opt2 (List.Forall₂ (Ent C B)) (copyTwice len base out l) (copyTwice len base out L) := by
  unfold copyTwice
  exact forLoop2 (fun _ => List.Forall₂ (Ent C B)) len (fun i _ s t hst => (read2 hst (base + i)).bind fun a b _ _ hab => (write2 hst hab (out + i)).bind fun s' t' _ _ h' =>
    (read2 h' (base + i)).bind fun a' b' _ _ hab' => write2 h' hab' (out + len + i)) h

/-- Related states of the innermost loop. -/
def PyrRel (C : ℕ) (B : ℝ) (J : ℕ) (Z : ℝ) (α k : ℕ) (s t : RowSt ℝ) : Prop :=
  Same C B s.mode t.mode s.buf t.buf ∧ t.pnm1 = pyrP1 α k Z ∧ t.pnm2 = pyrP2 α k Z ∧ Var (2 ≤ k) J Z α (k - 1) s.pnm1 ∧ Var (1 ≤ k) J Z α (k - 2) s.pnm2

theorem pyrBody_sim (R : Rounding 53 (-1074) rnd) (ch : Choice) (ct ct' : Bool) (maxN maxAlpha m α k N G : ℕ) (hz : RelF J (9 / 8) z Z) (hC : (J + 6) * N ≤ C) (hB : ((G : ℕ) : ℝ) ^ N ≤ B)
    (hk : m + k + 2 ≤ N) (hG : α + 3 ≤ G) {bF b : Dbl ℝ} (hb : PowOk J m bF b) (hN : k ≤ maxN) (hA : 2 ≤ k → α ≤ maxAlpha) (hs : SmallOrder α k) (s t : RowSt ℝ) (h : PyrRel C B J Z α k s t) :
    Opt2 (PyrRel C B J Z α (k + 1)) (pyrBodyF rnd ch ct' (mkF rnd ct maxN maxAlpha) z bF α k s) (pyrBody (JacobiCoeff.mk maxN maxAlpha) Z b α k t) := by
  obtain ⟨hsame, hp1, hp2, v1, v2⟩ := h
  obtain ⟨w, W, rfl, rfl, hw⟩ := hb
  have B1 := b1F_relJ R hz
  have hw1 := one_le_pow_17 m
  have hcoef := (hw.mul B1).round R (by linarith)
  have hg3 : (3 : ℝ) ≤ (α : ℝ) + 3 := by linarith [(Nat.cast_nonneg α : (0 : ℝ) ≤ α)]
  have hgG : (α : ℝ) + 3 ≤ (G : ℝ) := by exact_mod_cast hG
  have hmag : ∀ {a b : ℕ}, a + b ≤ N → (17 / 16 : ℝ) ^ a * ((α : ℝ) + 3) ^ b ≤ B := fun hab => (mag (by linarith) hgG (by linarith) hab).trans hB
  have hcnt : ∀ {c : ℕ}, c ≤ (J + 6) * (m + k + 2) → c ≤ C := fun hc => hc.trans ((Nat.mul_le_mul_left _ hk).trans hC)
  unfold SmallOrder at hs
  unfold pyrBodyF pyrBody
  simp only []
  rcases k with _ | _ | k
  · rw [if_pos rfl, if_pos rfl]
    refine put2 hsame (ent_some (hcoef.mono (hcnt (by nlinarith)) (by
      have := hmag (a := m + 1) (b := 0) (by omega)
      rw [pow_zero, mul_one, pow_succ] at this; exact this))) fun m l L hl => ⟨⟨rfl, hl⟩, ?_, ?_, ?_, ?_⟩
    · rw [hp1]; simp [pyrP1]
    · simp [pyrP2, jacobiP_zero]
    · exact fun h => absurd h (by omega)
    · exact fun _ => ⟨1, rfl, jacOk_zero⟩
  · rw [if_neg (by omega), if_pos rfl, if_neg (by omega), if_pos rfl]
    have hst := startBF_relJ R ct' (α := α) (by omega) hz
    have hst' := hst
    unfold JacOk at hst
    have e : (1 / 2 : ℝ) * (2 * ((α : ℝ) + 1) + ((α : ℝ) + 3) * (Z - 1)) = jacobiP 1 α 1 Z := by rw [jacobiP_one]; push_cast; ring
    rw [e]
    have h5 : (1 : ℝ) ≤ (17 / 16) ^ m * (17 / 16) := by linarith
    refine put2 hsame (ent_some (((hst.mul hcoef).round R (by rw [pow_one]; nlinarith)).mono (hcnt (by nlinarith)) (by
      have := hmag (a := m + 2) (b := 1) (by omega)
      rw [pow_succ, pow_succ] at this
      linarith))) fun m l L hl => ⟨⟨rfl, hl⟩, ?_, ?_, ?_, ?_⟩
    · simp [pyrP1]
    · rw [hp2]; simp [pyrP2]
    · exact fun _ => ⟨_, rfl, hst'⟩
    · exact fun _ => v2 (by omega)
  · rw [if_neg (by omega), if_neg (by omega), if_neg (by omega), if_neg (by omega)]
    obtain ⟨q1, e1, g1⟩ := v1 (by omega)
    obtain ⟨q2, e2, g2⟩ := v2 (by omega)
    simp only [show k + 1 + 1 - 1 = k + 1 by omega, show k + 1 + 1 - 2 = k by omega] at g1 g2
    obtain ⟨p, er, gp⟩ := recStepF_relJ R ch ct maxN maxAlpha (hA (by omega)) (by omega) (by unfold SmallOrder; omega) hz g1 g2
    have hr := recStep_mk (K := ℝ) maxN maxAlpha α (k + 2) Z (hA (by omega)) (by omega) (by omega)
    simp only [show k + 2 - 1 = k + 1 by omega, Nat.add_sub_cancel] at hr
    have hp1' : t.pnm1 = some (jacobiP (k + 1) α 1 Z) := by
      rw [hp1]; unfold pyrP1
      rw [if_neg (by omega), show k + 1 + 1 - 1 = k + 1 by omega]
    have hp2' : t.pnm2 = some (jacobiP k α 1 Z) := by
      rw [hp2]; unfold pyrP2
      rw [if_neg (by omega), show k + 1 + 1 - 2 = k by omega]
    rw [show k + 1 + 1 + 1 - 1 = k + 2 by omega, e1, e2, er, hp1', hp2', hr, Option.bind_some, Option.bind_some]
    have gp' := gp
    unfold JacOk at gp
    have h4 : (1 : ℝ) ≤ ((α : ℝ) + 3) ^ (k + 2) := one_le_pow₀ (by linarith)
    have h5 : (1 : ℝ) ≤ (17 / 16) ^ m * (17 / 16) := by linarith
    refine put2 hsame (ent_some (((gp.mul hcoef).round R (by nlinarith)).mono (hcnt (by
        have e : (J + 6) * (m + (k + 1 + 1) + 2) = (J + 6) * (k + 2) + (J * m + 6 * m + 2 * J + 12) := by ring
        have e' : (J + 3) * m = J * m + 3 * m := by ring
        rw [e, e']; omega)) (by
      have := hmag (a := m + 2) (b := k + 2) (by omega)
      rw [pow_succ, pow_succ] at this
      linarith))) fun m l L hl => ⟨⟨rfl, hl⟩, ?_, ?_, ?_, ?_⟩
    · simp [pyrP1]
    · simp [pyrP2]
    · refine fun _ => ⟨p, rfl, ?_⟩
      rw [show k + 1 + 1 + 1 - 1 = k + 2 by omega]; exact gp'
    · refine fun _ => ⟨q1, rfl, ?_⟩
      rw [show k + 1 + 1 + 1 - 2 = k + 1 by omega]; exact g1

theorem pyrQ_sim (R : Rounding 53 (-1074) rnd) (ch : Choice) (ct ct' : Bool) (maxN maxAlpha n p j : ℕ) (hz : RelF J (9 / 8) z Z) (hC : (J + 6) * (2 * n) ≤ C)
    (hB : ((4 * n : ℕ) : ℝ) ^ (2 * n) ≤ B) (hp : 2 ≤ p) (hpn : p < n) (hj : j + 2 < n) (hN : n ≤ maxN + 2) (hA : 4 * n - 7 ≤ maxAlpha) (hs : n ≤ 20000) (s t : PowSt ℝ)
    (h : Same C B s.mode t.mode s.buf t.buf) (hpow : PowOk J (p + j - 1) s.pow t.pow) :
    Opt2 (fun s t => Same C B s.mode t.mode s.buf t.buf ∧ PowOk J (p + (j + 1) - 1) s.pow t.pow) (pyrQF rnd ch ct' (mkF rnd ct maxN maxAlpha) n z p j s)
      (pyrQ (JacobiCoeff.mk maxN maxAlpha) n Z p j t) := by
  have hpow' := powOk_succ R hz hpow
  rw [show p + j - 1 + 1 = p + (j + 1) - 1 by omega] at hpow'
  obtain ⟨w, W, ew, eW, hw⟩ := hpow'
  obtain ⟨hm, hbuf⟩ := h
  unfold pyrQF pyrQ
  simp only []
  rw [hm]
  have hn4 : (17 / 16 : ℝ) ≤ ((4 * n : ℕ) : ℝ) := by
    have : (4 : ℝ) ≤ ((4 * n : ℕ) : ℝ) := by exact_mod_cast (by omega : 4 ≤ 4 * n)
    linarith
  have hent : Ent C B (mulF rnd s.pow (some (b0F rnd z))) (Dbl.mul t.pow (some (b0 Z))) := by
    rw [ew, eW]
    refine ent_some (hw.mono (le_trans ?_ hC) (le_trans ?_ hB))
    · have : (J + 6) * (p + (j + 1) - 1 + 1) ≤ (J + 6) * (2 * n) := Nat.mul_le_mul_left _ (by omega)
      have e : (J + 6) * (p + (j + 1) - 1 + 1) = (J + 3) * (p + (j + 1) - 1) + 3 * (p + (j + 1) - 1) + J + 6 := by ring
      omega
    · have := mag (a := p + (j + 1) - 1) (b := 0) (m := 2 * n) (g := 1) le_rfl (by linarith) hn4 (by omega)
      simpa using this
  refine (write2 hbuf hent t.mode).bind fun l L _ _ hl => ?_
  refine (forLoop2 (PyrRel C B J Z (2 * p + 2 * (j + 2) - 3)) (n - max p (j + 2) - 1) (fun k hk s' t' hst => pyrBody_sim R ch ct ct' maxN maxAlpha (p + (j + 1) - 1) (2 * p + 2 * (j + 2) - 3) k (2 * n)
    (4 * n) hz hC hB (by omega) (by omega) ⟨w, W, ew, eW, hw⟩ (by omega) (by omega) (by unfold SmallOrder; omega) s' t' hst) ?_).map fun s' t' hst => ⟨hst.1, w, W, ew, eW, hw⟩
  exact ⟨⟨rfl, hl⟩, by simp [pyrP1], by simp [pyrP2], fun h => absurd h (by omega), fun h => absurd h (by omega)⟩

theorem modPyrC_sim (R : Rounding 53 (-1074) rnd) (ch : Bool → Choice) (chP : Choice) (ct ct' : Bool) (maxN maxAlpha n : ℕ) (hz : RelF J (9 / 8) z Z) (ho : Off z Z)
    (hC : (J + 6) * (2 * n) ≤ C) (hB : ((4 * n : ℕ) : ℝ) ^ (2 * n) ≤ B) (hn : 1 ≤ n) (hN : n ≤ maxN + 2) (hA1 : 1 ≤ maxAlpha) (hA2 : 2 * n - 3 ≤ maxAlpha) (hA : 4 * n - 7 ≤ maxAlpha)
    (hs : n ≤ 20000) {l L : List (Dbl ℝ)} (h : List.Forall₂ (Ent C B) l L) :
    Opt2 (List.Forall₂ (Ent C B)) (modPyrCF rnd ch chP ct' (mkF rnd ct maxN maxAlpha) n z l) (modPyrC (JacobiCoeff.mk maxN maxAlpha) n Z L) := by
  have hB2 : ((2 * n + 2 : ℕ) : ℝ) ^ n ≤ B := by
    refine le_trans ?_ hB
    calc ((2 * n + 2 : ℕ) : ℝ) ^ n ≤ ((4 * n : ℕ) : ℝ) ^ n := pow_le_pow_left₀ (by positivity) (by exact_mod_cast (by omega : 2 * n + 2 ≤ 4 * n)) n
      _ ≤ _ := pow_le_pow_right₀ (by exact_mod_cast (by omega : 1 ≤ 4 * n)) (by omega)
  unfold modPyrCF modPyrC
  simp only []
  refine (modB_sim R ch ct ct' maxN maxAlpha n hz ho ((Nat.mul_le_mul_left _ (by omega)).trans hC) hB2 hN hA1 hA2 hs h).bind fun l1 L1 _ _ h1 => ?_
  refine (copyLoop_sim _ _ _ h1).bind fun l2 L2 _ _ h2 => ?_
  refine (copyLoop_sim _ _ _ h2).bind fun l3 L3 _ _ h3 => ?_
  refine (forLoop2 (fun k (s t : PyrSt ℝ) => Same C B s.out t.out s.buf t.buf ∧ s.base = t.base ∧ PowOk J k s.pow t.pow) (n - 2) ?_ ?_).map fun s t hst => hst.1.2
  · rintro i hi ⟨so, sb, sB, sp⟩ ⟨uo, tb, tB, tp⟩ ⟨⟨e1, hbuf⟩, e2, hpow⟩
    simp only [] at e1 e2 hbuf hpow
    subst e1 e2
    have hpow' := powOk_succ R hz hpow
    unfold pyrPF pyrP
    simp only []
    refine (copyTwice_sim _ _ _ hbuf).bind fun l4 L4 _ _ h4 => ?_
    refine (forLoop2 (fun k (s t : PowSt ℝ) => Same C B s.mode t.mode s.buf t.buf ∧ PowOk J (i + 2 + k - 1) s.pow t.pow) (n - 2)
      (fun j hj s t hst => pyrQ_sim R chP ct ct' maxN maxAlpha n (i + 2) j hz hC hB (by omega) (by omega) (by omega) hN hA hs s t hst.1 hst.2) ?_).map fun s t hst => ⟨hst.1, rfl, hpow'⟩
    exact ⟨⟨rfl, h4⟩, hpow'⟩
  · exact ⟨⟨rfl, h3⟩, rfl, 1, 1, rfl, rfl, (rel_self (X := (1:ℝ)) (m := 1) (by norm_num)).mono (by omega) (by norm_num)⟩

end Verif.Lemmas.FloatShapes
