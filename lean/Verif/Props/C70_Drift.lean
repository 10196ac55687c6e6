import Verif.Model.DriftFluid
import Mathlib.Tactic.LinearCombination
import Mathlib.Tactic.FieldSimp
import Mathlib.Tactic.Linarith
import Mathlib.Tactic.Positivity

/-!
# C70: drift and advection velocities of the DriftReduced systems
-/

namespace Verif.Props.C70
open Verif.Model.DriftFluid

/-! ### Specification -/

/-- Scalar product. -/
def sp (a b : Vec) : ℝ := a 0 * b 0 + a 1 * b 1 + a 2 * b 2

/-- Vector product. -/
def cross (a b : Vec) : Vec := fun i =>
  match i with
  | 0 => a 1 * b 2 - a 2 * b 1
  | 1 => a 2 * b 0 - a 0 * b 2
  | 2 => a 0 * b 1 - a 1 * b 0

theorem bmag_sq (B : Vec) : bmag B * bmag B = sp B B := by
  rw [bmag, Real.mul_self_sqrt]
  · rfl
  · nlinarith [sq_nonneg (B 0), sq_nonneg (B 1), sq_nonneg (B 2)]

theorem bmag_nonneg (B : Vec) : 0 ≤ bmag B := Real.sqrt_nonneg _

theorem bmag_eq_zero (B : Vec) : bmag B = 0 ↔ B = 0 := by
  constructor
  · intro h
    have := bmag_sq B
    rw [h] at this
    simp only [sp] at this
    funext i
    have h0 := sq_nonneg (B 0); have h1 := sq_nonneg (B 1); have h2 := sq_nonneg (B 2)
    fin_cases i
    · show B 0 = 0; nlinarith
    · show B 1 = 0; nlinarith
    · show B 2 = 0; nlinarith
  · rintro rfl; simp [bmag]

/-! ### The drift -/

/-- On three dimensional meshes, for every field and every non-zero magnetic field, the drift is `E × B / |B|²`; it is defined
exactly for non-zero magnetic fields. -/
theorem exb_3d (B E : Vec) : (B = 0 ↔ exbVel 3 B E = none) ∧
    ∀ v, exbVel 3 B E = some v → ∀ i, v i = cross E B i / sp B B := by
  refine ⟨?_, fun v h i => ?_⟩
  · rw [← bmag_eq_zero, exbVel]
    split_ifs with h <;> simp [h]
  · rw [exbVel] at h
    by_cases hb : bmag B = 0
    · rw [if_pos hb] at h; cases h
    rw [if_neg hb] at h
    have := Option.some.inj h
    subst this
    rw [← bmag_sq]
    fin_cases i
    · show B 2 / bmag B / bmag B * E 1 + -(B 1) / bmag B / bmag B * E 2 = (E 1 * B 2 - E 2 * B 1) / (bmag B * bmag B)
      field_simp; ring
    · show B 0 / bmag B / bmag B * E 2 + -(B 2) / bmag B / bmag B * E 0 = (E 2 * B 0 - E 0 * B 2) / (bmag B * bmag B)
      field_simp; ring
    · show B 1 / bmag B / bmag B * E 0 + -(B 0) / bmag B / bmag B * E 1 = (E 0 * B 1 - E 1 * B 0) / (bmag B * bmag B)
      field_simp; ring

/-- On two dimensional meshes the same, for the magnetic field along the third axis and the electric field in the plane. -/
theorem exb_2d (B E : Vec) (hB0 : B 0 = 0) (hB1 : B 1 = 0) (v : Vec) (h : exbVel 2 B E = some v) (i : Fin 3) :
    v i = cross E B i / sp B B := by
  rw [exbVel] at h
  by_cases hb : bmag B = 0
  · rw [if_pos hb] at h; cases h
  rw [if_neg hb] at h
  have := Option.some.inj h
  subst this
  rw [← bmag_sq]
  fin_cases i
  · show B 2 / bmag B / bmag B * E 1 + -(B 1) / bmag B / bmag B * E 2 = (E 1 * B 2 - E 2 * B 1) / (bmag B * bmag B)
    field_simp; ring
  · show B 0 / bmag B / bmag B * E 2 + -(B 2) / bmag B / bmag B * E 0 = (E 2 * B 0 - E 0 * B 2) / (bmag B * bmag B)
    field_simp; ring
  · show (if (2 : ℕ) = 3 then _ else (0 : ℝ)) = (E 0 * B 1 - E 1 * B 0) / (bmag B * bmag B)
    rw [if_neg (by decide), hB0, hB1]; simp

/-- The drift of the potential on two dimensional meshes: `(-∂y φ, ∂x φ) / B`, on three dimensional ones `-∇φ × B / |B|²`. -/
theorem exb_potential (grad : Vec) :
    (∀ (Bz : ℝ) (v : Vec), exbVel 2 ![0, 0, Bz] (eField 2 grad) = some v → v 0 = -grad 1 / Bz ∧ v 1 = grad 0 / Bz ∧ v 2 = 0) ∧
    ∀ B v, exbVel 3 B (eField 3 grad) = some v → ∀ i, v i = cross (fun j => -grad j) B i / sp B B := by
  constructor
  · intro Bz v h
    have hz : Bz ≠ 0 := by
      rintro rfl
      rw [exbVel, if_pos (by simp [bmag])] at h
      cases h
    have h1 := fun i => exb_2d ![0, 0, Bz] (eField 2 grad) rfl rfl v h i
    refine ⟨?_, ?_, ?_⟩
    · rw [h1]; simp [cross, sp, eField]; field_simp
    · rw [h1]; simp [cross, sp, eField]; field_simp
    · rw [h1]; simp [cross, sp, eField]
  · intro B v h i
    rw [(exb_3d B _).2 v h i]
    have : eField 3 grad = fun j => -grad j := by
      funext j; fin_cases j <;> simp [eField]
    rw [this]

/-- The drift is perpendicular to both fields, and in the frame moving with it only the parallel electric field remains:
`E + v × B` is the part of `E` along `B`. -/
theorem drift_properties (B E v : Vec) (hB : B ≠ 0) (hv : ∀ i, v i = cross E B i / sp B B) :
    sp v E = 0 ∧ sp v B = 0 ∧ (∀ i, E i + cross v B i = sp E B / sp B B * B i) ∧
      sp v v * (sp B B) = sp E E - (sp E B) ^ 2 / sp B B := by
  have hs : sp B B ≠ 0 := by
    rw [← bmag_sq]
    have := (bmag_eq_zero B).not.mpr hB
    exact mul_ne_zero this this
  have h0 := hv 0; have h1 := hv 1; have h2 := hv 2
  simp only [cross] at h0 h1 h2
  obtain ⟨s, hdef⟩ : ∃ s, s = sp B B := ⟨_, rfl⟩
  rw [← hdef] at hs h0 h1 h2 ⊢
  simp only [sp] at hdef
  rw [eq_div_iff hs] at h0 h1 h2
  have hz : ∀ a : ℝ, s * a = 0 → a = 0 := fun a h => (mul_eq_zero.mp h).resolve_left hs
  have hd : ∀ a b c : ℝ, s * a = s * c + b → a = c + b / s := fun a b c h => by field_simp; linarith
  refine ⟨?_, ?_, fun i => ?_, ?_⟩
  · apply hz; unfold sp; linear_combination E 0 * h0 + E 1 * h1 + E 2 * h2
  · apply hz; unfold sp; linear_combination B 0 * h0 + B 1 * h1 + B 2 * h2
  · have hi : sp E B / s * B i = 0 + sp E B * B i / s := by ring
    rw [hi]
    apply hd
    unfold sp
    fin_cases i
    · show s * (E 0 + (v 1 * B 2 - v 2 * B 1)) = s * 0 + (E 0 * B 0 + E 1 * B 1 + E 2 * B 2) * B 0
      linear_combination B 2 * h1 - B 1 * h2 + E 0 * hdef
    · show s * (E 1 + (v 2 * B 0 - v 0 * B 2)) = s * 0 + (E 0 * B 0 + E 1 * B 1 + E 2 * B 2) * B 1
      linear_combination B 0 * h2 - B 2 * h0 + E 1 * hdef
    · show s * (E 2 + (v 0 * B 1 - v 1 * B 0)) = s * 0 + (E 0 * B 0 + E 1 * B 1 + E 2 * B 2) * B 2
      linear_combination B 1 * h0 - B 0 * h1 + E 2 * hdef
  · have hi : sp E E - sp E B ^ 2 / s = sp E E + (-(sp E B ^ 2)) / s := by ring
    rw [hi]
    apply hd
    unfold sp
    linear_combination (v 0 * s + (E 1 * B 2 - E 2 * B 1)) * h0 + (v 1 * s + (E 2 * B 0 - E 0 * B 2)) * h1 +
      (v 2 * s + (E 0 * B 1 - E 1 * B 0)) * h2 - (E 0 * E 0 + E 1 * E 1 + E 2 * E 2) * hdef

/-- A non-trivial case. -/
example : ∃ v, exbVel 3 ![0, 0, 2] ![3, 4, 5] = some v ∧ v 0 = 2 ∧ v 1 = -3 / 2 ∧ v 2 = 0 := by
  have hne : (![0, 0, 2] : Vec) ≠ 0 := fun h => by have := congrFun h 2; simp at this
  obtain ⟨h1, h2⟩ := exb_3d ![0, 0, 2] ![3, 4, 5]
  obtain ⟨v, hv⟩ := Option.ne_none_iff_exists'.mp (fun h => hne (h1.mpr h))
  refine ⟨v, hv, ?_, ?_, ?_⟩
  · rw [h2 v hv 0]; simp [cross, sp]; norm_num
  · rw [h2 v hv 1]; simp [cross, sp]; norm_num
  · rw [h2 v hv 2]; simp [cross, sp]

/-- Full claim: the parameters are loaded for all meshes the solver accepts (2D and 3D). This is false: with two space dimensions
the magnetic field is written beyond the end of its array. -/
theorem loadB_iff (spaceDim : ℕ) (Bxy : ℝ) : (loadB spaceDim Bxy = none ↔ spaceDim ≤ 2) ∧
    ∀ l, loadB spaceDim Bxy = some l → comps l = ![0, 0, Bxy] := by
  constructor
  · simp [loadB]
  · intro l h
    rw [loadB] at h
    simp only [List.length_replicate] at h
    split_ifs at h with hd
    have := Option.some.inj h
    subst this
    funext i
    have hg : ∀ j < 3, (List.set (List.replicate spaceDim (0 : ℝ)) 2 Bxy).getD j 0 = if j = 2 then Bxy else 0 := by
      intro j hj
      rw [List.getD_eq_getElem?_getD, List.getElem?_set]
      by_cases hj2 : j = 2
      · subst hj2; simp [hd]
      · rw [if_neg (fun h => hj2 h.symm), if_neg hj2, List.getElem?_replicate, if_pos (by omega)]; rfl
    fin_cases i
    · exact hg 0 (by decide)
    · exact hg 1 (by decide)
    · exact hg 2 (by decide)

/-- A magnetic field of strength zero is accepted (the unit vector is then zero) but the drift is not finite. -/
theorem zero_field (dims : ℕ) (E : Vec) : bUnit 0 = 0 ∧ exbVel dims 0 E = none := by
  have h : bmag 0 = 0 := (bmag_eq_zero 0).mpr rfl
  constructor
  · funext i; simp [bUnit, h]
  · rw [exbVel, if_pos h]

/-! ### Advection velocities -/

theorem bUnit_spec (B : Vec) (hB : B ≠ 0) : (∀ i, bmag B * bUnit B i = B i) ∧ sp (bUnit B) (bUnit B) = 1 := by
  have hp : 0 < bmag B := lt_of_le_of_ne (bmag_nonneg B) (fun h => hB ((bmag_eq_zero B).mp h.symm))
  have h : ∀ i, bUnit B i = B i / bmag B := fun i => by simp [bUnit, hp]
  refine ⟨fun i => by rw [h]; field_simp, ?_⟩
  have := bmag_sq B
  simp only [sp, h] at *
  field_simp
  linarith

/-- The velocity of a species has the parallel velocity as its component along the magnetic field, and the drift as the rest. -/
theorem advVel_spec (B E v : Vec) (hB : B ≠ 0) (hv : ∀ i, v i = cross E B i / sp B B) (vPar : ℝ) :
    sp (advVel B vPar v) (bUnit B) = vPar ∧ ∀ i, advVel B vPar v i - vPar * bUnit B i = v i := by
  obtain ⟨_, h2, _, _⟩ := drift_properties B E v hB hv
  obtain ⟨hb, h1⟩ := bUnit_spec B hB
  have hp : bmag B ≠ 0 := (bmag_eq_zero B).not.mpr hB
  refine ⟨?_, fun i => by simp only [advVel]; ring⟩
  have h3 : sp v (bUnit B) = 0 := by
    have : bmag B * sp v (bUnit B) = sp v B := by
      simp only [sp, ← hb]; ring
    rw [h2] at this
    exact (mul_eq_zero.mp this).resolve_left hp
  calc sp (advVel B vPar v) (bUnit B) = vPar * sp (bUnit B) (bUnit B) + sp v (bUnit B) := by simp only [sp, advVel]; ring
    _ = vPar := by rw [h1, h3]; ring

/-- Where the density is above the floor the parallel velocity carries exactly the momentum density: `m n v = G`. Everywhere it
has the sign of the momentum density, and with a positive floor it is bounded for every density. -/
theorem parVel_spec (nRef floorFac mass ne G : ℝ) (hm : 0 < mass) (hf : 0 < nRef * floorFac) :
    (nRef * floorFac ≤ ne → mass * ne * parVel nRef floorFac mass ne G = G) ∧
      |parVel nRef floorFac mass ne G| ≤ |G| / (mass * (nRef * floorFac)) ∧ 0 ≤ parVel nRef floorFac mass ne G * G := by
  have hmax : 0 < max ne (nRef * floorFac) := lt_max_of_lt_right hf
  refine ⟨fun h => ?_, ?_, ?_⟩
  · rw [parVel, max_eq_left h]
    have : ne ≠ 0 := (lt_of_lt_of_le hf h).ne'
    field_simp
  · rw [parVel, abs_mul, abs_div, abs_div, abs_one, abs_of_pos hm, abs_of_pos hmax]
    rw [div_mul_div_comm, one_mul]
    apply div_le_div_of_nonneg_left (abs_nonneg G) (by positivity)
    exact mul_le_mul_of_nonneg_left (le_max_right _ _) hm.le
  · rw [parVel]
    have : 1 / mass * (G / max ne (nRef * floorFac)) * G = G ^ 2 / (mass * max ne (nRef * floorFac)) := by field_simp
    rw [this]
    positivity

example : (1 : ℝ) * (1 / 100000) ≤ 3 ∧ 0 < (1 : ℝ) * (1 / 100000) := by norm_num

/-- Full claim: the velocity of the polarisation drift term is the difference of the velocities of electrons and ions. It is for
magnetic fields along the positive third axis. -/
theorem pdVel_partial (Bxy : ℝ) (hB : 0 < Bxy) (ve vi : ℝ) (exb : Vec) (i : Fin 3) :
    pdVel ve vi i = advVel ![0, 0, Bxy] ve exb i - advVel ![0, 0, Bxy] vi exb i := by
  have hm : bmag ![0, 0, Bxy] = Bxy := by
    have : bmag ![0, 0, Bxy] = Real.sqrt (Bxy * Bxy) := by simp [bmag]
    rw [this, Real.sqrt_mul_self hB.le]
  have hu : ∀ i, bUnit ![0, 0, Bxy] i = if i = 2 then 1 else 0 := by
    intro i
    simp only [bUnit, hm, gt_iff_lt, hB, if_true]
    fin_cases i <;> simp
    exact hB.ne'
  simp only [pdVel, advVel, hu]
  split_ifs <;> ring

/-- For fields along the negative third axis it has the wrong sign. -/
theorem pdVel_negative (Bxy : ℝ) (hB : Bxy < 0) (ve vi : ℝ) (exb : Vec) (i : Fin 3) :
    pdVel ve vi i = -(advVel ![0, 0, Bxy] ve exb i - advVel ![0, 0, Bxy] vi exb i) := by
  have hm : bmag ![0, 0, Bxy] = -Bxy := by
    have : bmag ![0, 0, Bxy] = Real.sqrt (Bxy * Bxy) := by simp [bmag]
    rw [this, Real.sqrt_mul_self_eq_abs, abs_of_neg hB]
  have hu : ∀ i, bUnit ![0, 0, Bxy] i = if i = 2 then -1 else 0 := by
    intro i
    have h1 : (0 : ℝ) < -Bxy := by linarith
    simp only [bUnit, hm, gt_iff_lt, h1, if_true]
    fin_cases i <;> simp
    rw [div_neg, div_self hB.ne]
  simp only [pdVel, advVel, hu]
  split_ifs <;> ring

/-- The normal velocity at a trace point is the scalar product with the normal, and the normal flux of a field is the field times
the normal velocity. -/
theorem normal_flux (k : ℕ) (normal vel : ℕ → ℝ) (f : ℝ) :
    advVelNorm k normal vel = ∑ i ∈ Finset.range k, normal i * vel i ∧
      ∑ i ∈ Finset.range k, normal i * (f * vel i) = f * advVelNorm k normal vel := by
  have h : advVelNorm k normal vel = ∑ i ∈ Finset.range k, normal i * vel i := by
    induction k with
    | zero => rfl
    | succ k ih =>
      rw [Finset.sum_range_succ, ← ih]
      simp only [advVelNorm, List.range_succ, List.foldl_append, List.foldl_cons, List.foldl_nil]
      ring
  refine ⟨h, ?_⟩
  rw [h, Finset.mul_sum]
  exact Finset.sum_congr rfl fun i _ => by ring

theorem flux_spec (f : ℝ) (v n : Vec) : sp (fluxVector f v) n = f * sp v n := by
  simp only [sp, fluxVector]; ring

end Verif.Props.C70
