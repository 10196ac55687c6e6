import Verif.Model.PlaneFluid
import Mathlib.Analysis.Calculus.Deriv.Add
import Mathlib.Analysis.Calculus.Deriv.Mul
import Mathlib.Analysis.SpecialFunctions.ExpDeriv
import Mathlib.Tactic.LinearCombination
import Mathlib.Tactic.FieldSimp
import Mathlib.Tactic.Linarith
import Mathlib.Tactic.NormNum

/-!
# C73: the drift plane solver (Blob2D)
-/

namespace Verif.Props.C73
open Verif.Model.PlaneFluid

/-- Scalar product in the plane. -/
def sp (a b : ℝ × ℝ) : ℝ := a.1 * b.1 + a.2 * b.2

/-! ### Velocity -/

/-- The velocity which advects, `drift_vel / B`, is the drift `E × B / |B|²` of `E = -grad phi` in the magnetic field `(0, 0, -B)`, so it is
along the contours of the potential. -/
theorem drift_spec (p : Params) (hB : p.B ≠ 0) (gx gy : ℝ) :
    sp (driftVel gx gy) (gx, gy) = 0 ∧
    1 / p.B * (driftVel gx gy).1 = ((-gy) * (-p.B) - 0 * 0) / (-p.B) ^ 2 ∧
    1 / p.B * (driftVel gx gy).2 = (0 * 0 - (-gx) * (-p.B)) / (-p.B) ^ 2 := by
  refine ⟨by simp only [sp, driftVel]; ring, ?_, ?_⟩ <;> simp only [driftVel] <;> field_simp <;> ring

/-- With derivatives that commute the velocity is free of divergence. -/
theorem drift_incompressible {N : ℕ} (dx dy : (Fin N → ℝ) → (Fin N → ℝ)) (hneg : ∀ f, dy (fun k => -f k) = fun k => -dy f k)
    (hc : ∀ f, dx (dy f) = dy (dx f)) (phi : Fin N → ℝ) (k : Fin N) :
    dx (fun j => (driftVel (dx phi j) (dy phi j)).1) k + dy (fun j => (driftVel (dx phi j) (dy phi j)).2) k = 0 := by
  simp only [driftVel, hneg]
  have := congrFun (hc phi) k
  show dx (dy phi) k + -dy (dx phi) k = 0
  rw [this]; ring

example : ∃ (dx dy : (Fin 4 → ℝ) → (Fin 4 → ℝ)), (∀ f, dy (fun k => -f k) = fun k => -dy f k) ∧ (∀ f, dx (dy f) = dy (dx f)) ∧
    dx (fun k => (k : ℝ)) ≠ 0 :=
  ⟨fun f k => f (k + 1) - f k, fun f k => f (k + 2) - f k, fun f => by funext k; ring, fun f => by
    funext k
    have : k + 1 + 2 = k + 2 + 1 := add_right_comm k 1 2
    simp only [this]; ring, fun h => by have := congrFun h 0; simp at this⟩

/-! ### Fluxes -/

/-- Consistency: for equal states on both sides the numerical fluxes are the normal components of the bulk fluxes, for every normal and
velocity; so the sign convention of the curvature term is the same in both. -/
theorem flux_consistent (p : Params) (normal v : ℝ × ℝ) (u : Pt) :
    upwind (riemannC p) (normalVel normal v) normal.2 u u =
      (sp normal (bulkFlux p v u).1, sp normal (bulkFlux p v u).2) := by
  have h : upwind (riemannC p) (normalVel normal v) normal.2 u u =
      (normalVel normal v * u.n, normalVel normal v * u.w - riemannC p * normal.2 * u.n) := by
    unfold upwind
    by_cases hv : normalVel normal v ≥ 0
    · rw [if_pos hv]
    · rw [if_neg hv]
  rw [h]
  simp only [riemannC, normalVel, bulkFlux, sp]
  refine Prod.ext ?_ ?_ <;> simp only <;> ring

/-- The flux is that of the state upstream. -/
theorem flux_upstream (c vn ny : ℝ) (fwd bwd : Pt) :
    (0 < vn → upwind c vn ny fwd bwd = upwind c vn ny fwd fwd) ∧ (vn < 0 → upwind c vn ny fwd bwd = upwind c vn ny bwd bwd) := by
  constructor <;> intro h
  · simp only [upwind, ge_iff_le, h.le, if_true]
  · simp only [upwind, ge_iff_le, not_le.mpr h, if_false]

/-- Dissipation: the jump of the flux times the jump of the density is the change of half the square plus a non-negative term. -/
theorem flux_dissipative (c vn ny : ℝ) (fwd bwd : Pt) :
    (upwind c vn ny fwd bwd).1 * (fwd.n - bwd.n) = vn * (fwd.n ^ 2 / 2 - bwd.n ^ 2 / 2) + |vn| / 2 * (fwd.n - bwd.n) ^ 2 := by
  rcases le_or_gt 0 vn with h | h
  · simp only [upwind, ge_iff_le, h, if_true, abs_of_nonneg h]; ring
  · simp only [upwind, ge_iff_le, not_le.mpr h, if_false, abs_of_neg h]; ring

/-- Full claim: the flux does not depend on which side of the trace is called forward (the other choice negates it). It does not
where the normal velocity is not zero. -/
theorem orientation_partial (c vn ny : ℝ) (hv : vn ≠ 0) (fwd bwd : Pt) :
    upwind c (-vn) (-ny) bwd fwd = (-(upwind c vn ny fwd bwd).1, -(upwind c vn ny fwd bwd).2) := by
  rcases lt_or_gt_of_ne hv with h | h
  · have h1 : -vn ≥ 0 := by linarith
    simp only [upwind, h1, if_true, ge_iff_le, not_le.mpr h, if_false]
    refine Prod.ext ?_ ?_ <;> simp only <;> ring
  · have h1 : ¬ (-vn ≥ 0) := by linarith
    simp only [upwind, h1, if_true, ge_iff_le, h.le, if_false]
    refine Prod.ext ?_ ?_ <;> simp only <;> ring

/-- Where it is zero the vorticity flux is the curvature term of the forward side, so the flux depends on the choice whenever the density
jumps. -/
theorem orientation_zero (c ny : ℝ) (fwd bwd : Pt) :
    upwind c (-0) (-ny) bwd fwd = (-(upwind c 0 ny fwd bwd).1, -(upwind c 0 ny fwd bwd).2) ↔ c * ny * (fwd.n - bwd.n) = 0 := by
  simp only [upwind, neg_zero, ge_iff_le, le_refl, if_true, Prod.mk.injEq]
  constructor
  · rintro ⟨-, h⟩; linear_combination -h
  · intro h; exact ⟨by ring, by linear_combination -h⟩

example : ¬ (upwind 1 (-0) (-1) ⟨3, 0⟩ ⟨2, 0⟩ = (-(upwind 1 0 1 ⟨2, 0⟩ ⟨3, 0⟩).1, -(upwind 1 0 1 ⟨2, 0⟩ ⟨3, 0⟩).2)) := by
  rw [orientation_zero]; norm_num

/-! ### Sources and balances -/

/-- The sheath takes charge and vorticity in the ratio of the charge: the combination `e n - w` does not see the sheath. -/
theorem sheath_cancels (p : Params) (he : p.e ≠ 0) (advN advW n phi : ℝ) :
    p.e * (blobRhs p advN advW n phi).1 - (blobRhs p advN advW n phi).2 = -1 / p.B * (p.e * advN - advW) := by
  simp only [blobRhs]; field_simp; ring

/-- With the default (negative) charge density is lost where the potential is positive. -/
theorem sheath_sign (p : Params) (he : p.e < 0) (hL : 0 < p.Lpar) (n phi : ℝ) (hn : 0 < n) :
    (blobRhs p 0 0 n phi).1 < 0 ↔ 0 < phi := by
  simp only [blobRhs, divSheath, mul_zero, add_zero]
  have h1 : 1 / p.e * (1 / p.Lpar * (n * phi)) = -((n / p.Lpar / -p.e) * phi) := by field_simp
  have h2 : 0 < n / p.Lpar / -p.e := div_pos (div_pos hn hL) (by linarith)
  rw [h1, neg_lt_zero]
  exact ⟨fun h => (pos_iff_pos_of_mul_pos h).mp h2, fun h => mul_pos h2 h⟩

/-- A session without parameters: the sheath loss of the density and the constant of the Riemann solver. -/
theorem default_parameters (n phi : ℝ) : blobRhs defaults 0 0 n phi = (-(n * phi), n * phi) ∧ riemannC defaults = 20 / 9 ∧
    (∀ adv, (blobRhs defaults adv 0 0 phi).1 = -adv / 0.35) := by
  refine ⟨?_, ?_, fun adv => ?_⟩
  · simp [blobRhs, divSheath, defaults]
  · simp only [riemannC, defaults]; norm_num
  · simp only [blobRhs, divSheath, defaults]; ring

/-- Conservation: for every solution of the equations, whatever the potential, with advection which conserves integrals, the integral of
`e n - w` does not change. -/
theorem charge_conserved {N : ℕ} (p : Params) (he : p.e ≠ 0) (wt : Fin N → ℝ) (n w phi advN advW : ℝ → Fin N → ℝ)
    (hn : ∀ t k, HasDerivAt (fun s => n s k) (blobRhs p (advN t k) (advW t k) (n t k) (phi t k)).1 t)
    (hw : ∀ t k, HasDerivAt (fun s => w s k) (blobRhs p (advN t k) (advW t k) (n t k) (phi t k)).2 t)
    (hcn : ∀ t, ∑ k, wt k * advN t k = 0) (hcw : ∀ t, ∑ k, wt k * advW t k = 0) (t : ℝ) :
    HasDerivAt (fun s => ∑ k, wt k * (p.e * n s k - w s k)) 0 t := by
  have h : HasDerivAt (fun s => ∑ k, wt k * (p.e * n s k - w s k))
      (∑ k, wt k * (p.e * (blobRhs p (advN t k) (advW t k) (n t k) (phi t k)).1 -
        (blobRhs p (advN t k) (advW t k) (n t k) (phi t k)).2)) t :=
    HasDerivAt.fun_sum fun k _ => (((hn t k).const_mul p.e).sub (hw t k)).const_mul _
  refine h.congr_deriv ?_
  simp only [sheath_cancels p he]
  have : ∀ k, wt k * (-1 / p.B * (p.e * advN t k - advW t k)) = -1 / p.B * p.e * (wt k * advN t k) - -1 / p.B * (wt k * advW t k) :=
    fun k => by ring
  simp only [this, Finset.sum_sub_distrib, ← Finset.mul_sum, hcn, hcw]
  ring

/-- The hypotheses are met by a plasma which is not at rest: at unit negative potential density and vorticity grow exponentially. -/
example : ∃ (n w phi : ℝ → Fin 1 → ℝ), (∀ t k, HasDerivAt (fun s => n s k) (blobRhs defaults 0 0 (n t k) (phi t k)).1 t) ∧
    (∀ t k, HasDerivAt (fun s => w s k) (blobRhs defaults 0 0 (n t k) (phi t k)).2 t) ∧ n 1 0 ≠ n 0 0 := by
  refine ⟨fun t _ => Real.exp t, fun t _ => -Real.exp t, fun _ _ => -1, fun t _ => ?_, fun t _ => ?_, ?_⟩
  · exact (Real.hasDerivAt_exp t).congr_deriv (by simp [blobRhs, divSheath, defaults])
  · exact (Real.hasDerivAt_exp t).neg.congr_deriv (by simp [blobRhs, divSheath, defaults])
  · exact fun h => by have := Real.exp_injective h; norm_num at this

/-- The potential: if the solver inverts the discrete Laplacian of its argument, the vorticity is `div (grad phi + grad ph) / B²`, with or
without ion pressure. -/
theorem potential_spec {N : ℕ} (p : Params) (hB : p.B ≠ 0) (dx dy : (Fin N → ℝ) → (Fin N → ℝ)) (w : Fin N → ℝ) (ph : Option (Fin N → ℝ))
    (phi : Fin N → ℝ) (hphi : ∀ k, dx (dx phi) k + dy (dy phi) k = phiRhs p dx dy w ph k) (k : Fin N) :
    w k = (dx (dx phi) k + dy (dy phi) k + (match ph with | none => 0 | some q => dx (dx q) k + dy (dy q) k)) / p.B ^ 2 := by
  rw [hphi]
  cases ph with
  | none => simp only [phiRhs]; field_simp; ring
  | some q => simp only [phiRhs]; field_simp; ring

end Verif.Props.C73
