import Verif.Model.Diffusion
import Mathlib.Tactic.LinearCombination
import Mathlib.Tactic.FieldSimp
import Mathlib.Tactic.Linarith
import Mathlib.Tactic.Positivity
import Mathlib.Tactic.NormNum

/-!
# C72: the diffusion solver
-/

namespace Verif.Props.C72
open Verif.Model.Diffusion

/-! ### The tensor -/

/-- Unit vector of the magnetic field: at the angle `theta` (degrees) below the `x` axis. -/
noncomputable def bHat (p : Params) : ℝ × ℝ :=
  (Real.cos (p.thetaDeg * Real.pi / 180), -Real.sin (p.thetaDeg * Real.pi / 180))

/-- Flux of a gradient. -/
def apply (t : Tensor) (g : ℝ × ℝ) : ℝ × ℝ := (t.d00 * g.1 + t.d01 * g.2, t.d01 * g.1 + t.d11 * g.2)

/-- Scalar product in the plane. -/
def sp (a b : ℝ × ℝ) : ℝ := a.1 * b.1 + a.2 * b.2

theorem bHat_unit (p : Params) : sp (bHat p) (bHat p) = 1 := by
  simp only [sp, bHat]
  have := Real.sin_sq_add_cos_sq (p.thetaDeg * Real.pi / 180)
  linear_combination this

theorem cos_theta (p : Params) : Real.cos (thetaRad p) = (bHat p).1 := by
  have : thetaRad p = -(p.thetaDeg * Real.pi / 180) := by unfold thetaRad; ring
  rw [this, Real.cos_neg, bHat]

theorem sin_theta (p : Params) : Real.sin (thetaRad p) = (bHat p).2 := by
  have : thetaRad p = -(p.thetaDeg * Real.pi / 180) := by unfold thetaRad; ring
  rw [this, Real.sin_neg, bHat]

/-- For every gradient the flux is `2/(3n)` times `k_par` times its part along the magnetic field plus `k_perp` times the rest. -/
theorem tensor_spec (p : Params) (g : ℝ × ℝ) :
    apply (tensor p) g = (2 / (3 * p.n) * (p.kPar * (sp (bHat p) g * (bHat p).1) + p.kPerp * (g.1 - sp (bHat p) g * (bHat p).1)),
      2 / (3 * p.n) * (p.kPar * (sp (bHat p) g * (bHat p).2) + p.kPerp * (g.2 - sp (bHat p) g * (bHat p).2))) := by
  simp only [apply, tensor, cos_theta, sin_theta, sp]
  refine Prod.ext ?_ ?_ <;> simp only <;> ring

/-- The directions along and across the magnetic field are the principal directions. -/
theorem tensor_eigen (p : Params) :
    apply (tensor p) (bHat p) = (2 * p.kPar / (3 * p.n) * (bHat p).1, 2 * p.kPar / (3 * p.n) * (bHat p).2) ∧
    apply (tensor p) (-(bHat p).2, (bHat p).1) = (2 * p.kPerp / (3 * p.n) * -(bHat p).2, 2 * p.kPerp / (3 * p.n) * (bHat p).1) := by
  have h := bHat_unit p
  constructor
  · rw [tensor_spec, h]; refine Prod.ext ?_ ?_ <;> simp only <;> ring
  · rw [tensor_spec]
    have : sp (bHat p) (-(bHat p).2, (bHat p).1) = 0 := by simp only [sp]; ring
    rw [this]; refine Prod.ext ?_ ?_ <;> simp only <;> ring

/-- The dissipation, for every gradient: positive for positive conductivities and density. -/
theorem tensor_pos (p : Params) (hn : 0 < p.n) (h1 : 0 < p.kPar) (h2 : 0 < p.kPerp) (g : ℝ × ℝ) :
    0 ≤ sp g (apply (tensor p) g) ∧ (sp g (apply (tensor p) g) = 0 → g = (0, 0)) ∧
      2 / (3 * p.n) * min p.kPar p.kPerp * sp g g ≤ sp g (apply (tensor p) g) ∧
      sp g (apply (tensor p) g) ≤ 2 / (3 * p.n) * max p.kPar p.kPerp * sp g g := by
  have hb := bHat_unit p
  obtain ⟨b0, b1, hbd⟩ : ∃ b0 b1, bHat p = (b0, b1) := ⟨_, _, rfl⟩
  obtain ⟨g0, g1⟩ := g
  rw [hbd] at hb
  have hq : sp (g0, g1) (apply (tensor p) (g0, g1)) =
      2 / (3 * p.n) * (p.kPar * (b0 * g0 + b1 * g1) ^ 2 + p.kPerp * (b0 * g1 - b1 * g0) ^ 2) := by
    rw [tensor_spec, hbd]
    simp only [sp] at hb ⊢
    linear_combination (-2 / (3 * p.n) * p.kPerp * (g0 * g0 + g1 * g1)) * hb
  have hs : sp (g0, g1) (g0, g1) = (b0 * g0 + b1 * g1) ^ 2 + (b0 * g1 - b1 * g0) ^ 2 := by
    simp only [sp] at hb ⊢
    linear_combination (-(g0 * g0 + g1 * g1)) * hb
  have hc : 0 < 2 / (3 * p.n) := by positivity
  set a := (b0 * g0 + b1 * g1) ^ 2 with ha
  set c := (b0 * g1 - b1 * g0) ^ 2 with hcc
  have ha0 : 0 ≤ a := sq_nonneg _
  have hc0 : 0 ≤ c := sq_nonneg _
  rw [hq, hs]
  refine ⟨by positivity, fun h => ?_, ?_, ?_⟩
  · have h3 : p.kPar * a + p.kPerp * c = 0 := (mul_eq_zero.mp h).resolve_left hc.ne'
    have h4 : a = 0 := by nlinarith [mul_nonneg h1.le ha0, mul_nonneg h2.le hc0]
    have h5 : c = 0 := by nlinarith [mul_nonneg h1.le ha0, mul_nonneg h2.le hc0]
    have h6 : g0 * g0 + g1 * g1 = 0 := by
      have := hs; simp only [sp] at this; rw [this, h4, h5, add_zero]
    have e0 : g0 = 0 := by nlinarith [sq_nonneg g0, sq_nonneg g1]
    have e1 : g1 = 0 := by nlinarith [sq_nonneg g0, sq_nonneg g1]
    rw [e0, e1]
  · rw [mul_assoc]
    apply mul_le_mul_of_nonneg_left _ hc.le
    have := mul_le_mul_of_nonneg_right (min_le_left p.kPar p.kPerp) ha0
    have := mul_le_mul_of_nonneg_right (min_le_right p.kPar p.kPerp) hc0
    linarith
  · rw [mul_assoc]
    apply mul_le_mul_of_nonneg_left _ hc.le
    have := mul_le_mul_of_nonneg_right (le_max_left p.kPar p.kPerp) ha0
    have := mul_le_mul_of_nonneg_right (le_max_right p.kPar p.kPerp) hc0
    linarith

/-- Equal conductivities: isotropic, whatever the angle. Angles which differ by 180 degrees give the same tensor. -/
theorem tensor_symmetries (p : Params) :
    (p.kPar = p.kPerp → ∀ g, apply (tensor p) g = (2 * p.kPar / (3 * p.n) * g.1, 2 * p.kPar / (3 * p.n) * g.2)) ∧
      tensor { p with thetaDeg := p.thetaDeg + 180 } = tensor p := by
  constructor
  · intro h g
    rw [tensor_spec, ← h]; refine Prod.ext ?_ ?_ <;> simp only <;> ring
  · have h : thetaRad { p with thetaDeg := p.thetaDeg + 180 } = thetaRad p - Real.pi := by unfold thetaRad; ring
    simp only [tensor, h, Real.cos_sub_pi, Real.sin_sub_pi, neg_mul, mul_neg, neg_neg]

/-- A session without parameters diffuses with `(200/3)e-18` along the first axis and a hundredth of it across. -/
theorem default_tensor : defaults.epsilon = 1 ∧ (tensor defaults).d00 = 200 / 3 / 10 ^ 18 ∧ (tensor defaults).d01 = 0 ∧
    (tensor defaults).d11 = 2 / 3 / 10 ^ 18 := by
  refine ⟨rfl, ?_, ?_, ?_⟩ <;> simp only [tensor, defaults, thetaRad, zero_mul, Real.cos_zero, Real.sin_zero] <;> norm_num

example : 0 < defaults.n ∧ 0 < defaults.kPar ∧ 0 < defaults.kPerp := by
  simp only [defaults]; norm_num

/-! ### Which coefficients are used -/

/-- Specification: the tensor which the coefficients describe at a point, if all three entries are given. -/
def tensorAt {N : ℕ} (c : Coeffs N) (k : Fin N) : Option Tensor :=
  match c.const, c.var with
  | some t, (none, none, none) => some t
  | none, (some a, some b, some d) => some ⟨a k, b k, d k⟩
  | _, _ => none

/-- The collection type chooses the representation only: the tensor at all points is the same. -/
theorem coeffs_spec (N : ℕ) (mf : Bool) (p : Params) (k : Fin N) : tensorAt (setupCoeffs N mf p) k = some (tensor p) := by
  cases mf <;> rfl

/-- The collection type is that of the `DEFAULT` attribute if it is a name of the table (without duplicates), and none without
the element or for an unknown name. -/
theorem collection_spec (names : List String) (noImp : ℕ) (i : ℕ) (hi : i < names.length) (hnd : names.Nodup) :
    collectionType names noImp none = noImp ∧ collectionType names noImp (some (some names[i])) = i ∧
      ∀ s, s ∉ names → collectionType names noImp (some (some s)) = noImp := by
  refine ⟨rfl, ?_, fun s hs => ?_⟩
  · simp only [collectionType, Option.getD_some]
    have : names.findIdx? (· == names[i]) = some i := by
      rw [List.findIdx?_eq_some_iff_getElem]
      refine ⟨hi, by simp, fun j hj => ?_⟩
      simp only [beq_iff_eq, Bool.not_eq_true, beq_eq_false_iff_ne, ne_eq]
      intro h
      exact absurd ((List.Nodup.getElem_inj_iff hnd).mp h) (by omega)
    rw [this]; rfl
  · simp only [collectionType, Option.getD_some]
    have : names.findIdx? (· == s) = none := by
      rw [List.findIdx?_eq_none_iff]
      intro x hx
      simp only [beq_eq_false_iff_ne, ne_eq]
      rintro rfl; exact hs hx
    rw [this]; rfl

/-! ### Time stepping -/

/-- Inner product of the quadrature. -/
def ip {N : ℕ} (wt u v : Fin N → ℝ) : ℝ := ∑ k, wt k * (u k * v k)

/-- What is assumed of the Helmholtz solver of Nektar++: for positive `lambda` it returns `u` with `A u - lambda u = f`, where `A` is the discrete diffusion
operator of the coefficients. -/
def Solves {N : ℕ} (helm : Solver N) (c : Coeffs N) (A : (Fin N → ℝ) → (Fin N → ℝ)) : Prop :=
  ∀ lam f k, 0 < lam → A (helm c lam f) k - lam * helm c lam f k = f k

/-- One step is a step of backward Euler for `du/dt = epsilon A u`, for all positive step sizes. -/
theorem backward_euler {N : ℕ} (helm : Solver N) (c : Coeffs N) (A : (Fin N → ℝ) → (Fin N → ℝ)) (hA : Solves helm c A) (eps lam : ℝ)
    (he : 0 < eps) (hl : 0 < lam) (u : Fin N → ℝ) (k : Fin N) :
    implicitSolve helm c eps lam u k - lam * eps * A (implicitSolve helm c eps lam u) k = u k := by
  have h := hA (1 / lam / eps) (fun k => -(1 / lam / eps) * u k) k (by positivity)
  simp only [implicitSolve]
  generalize helm c (1 / lam / eps) (fun k => -(1 / lam / eps) * u k) = v at *
  have h2 : lam * eps * (1 / lam / eps) = 1 := by field_simp
  linear_combination (-(lam * eps)) * h - (v k - u k) * h2

/-- If the operator dissipates, every step shrinks the norm: the solver is stable for every step size and every number of steps. -/
theorem stable {N : ℕ} (helm : Solver N) (c : Coeffs N) (A : (Fin N → ℝ) → (Fin N → ℝ)) (hA : Solves helm c A) (wt : Fin N → ℝ)
    (hw : ∀ k, 0 ≤ wt k) (hneg : ∀ u, ip wt u (A u) ≤ 0) (eps dt : ℝ) (he : 0 < eps) (hd : 0 < dt) (u : Fin N → ℝ) (s : ℕ) :
    ip wt (steps helm c eps dt s u) (steps helm c eps dt s u) ≤ ip wt u u := by
  induction s with
  | zero => exact le_refl _
  | succ s ih =>
    refine le_trans ?_ ih
    simp only [steps]
    generalize steps helm c eps dt s u = x
    have hb := backward_euler helm c A hA eps dt he hd x
    set v := implicitSolve helm c eps dt x
    have hx : x = fun k => v k - dt * eps * A v k := funext fun k => (hb k).symm
    have e : ip wt x x = ip wt v v - 2 * (dt * eps) * ip wt v (A v) + (dt * eps) ^ 2 * ip wt (A v) (A v) := by
      rw [hx]
      simp only [ip, Finset.mul_sum, ← Finset.sum_add_distrib, ← Finset.sum_sub_distrib]
      exact Finset.sum_congr rfl fun k _ => by ring
    have h1 := hneg v
    have h2 : 0 ≤ ip wt (A v) (A v) := Finset.sum_nonneg fun k _ => mul_nonneg (hw k) (mul_self_nonneg _)
    have h3 : 0 < dt * eps := mul_pos hd he
    rw [e]
    nlinarith [mul_nonneg h3.le (neg_nonneg.mpr h1), mul_nonneg (sq_nonneg (dt * eps)) h2]

/-- If the operator conserves the integral, so do any number of steps. -/
theorem conserves {N : ℕ} (helm : Solver N) (c : Coeffs N) (A : (Fin N → ℝ) → (Fin N → ℝ)) (hA : Solves helm c A) (wt : Fin N → ℝ)
    (hcons : ∀ u, ∑ k, wt k * A u k = 0) (eps dt : ℝ) (he : 0 < eps) (hd : 0 < dt) (u : Fin N → ℝ) (s : ℕ) :
    ∑ k, wt k * steps helm c eps dt s u k = ∑ k, wt k * u k := by
  induction s with
  | zero => rfl
  | succ s ih =>
    rw [← ih]
    simp only [steps]
    generalize steps helm c eps dt s u = x
    have hb := backward_euler helm c A hA eps dt he hd x
    set v := implicitSolve helm c eps dt x
    have h := hcons v
    have : ∑ k, wt k * x k = ∑ k, wt k * v k - dt * eps * ∑ k, wt k * A v k := by
      rw [Finset.mul_sum, ← Finset.sum_sub_distrib]
      exact Finset.sum_congr rfl fun k _ => by rw [← hb k]; ring
    rw [this, h]; ring

/-- Dissipation of the operator follows from the tensor: if `A` is the Galerkin operator of the tensor with gradient `grad`, it
dissipates for positive parameters. -/
theorem operator_dissipates {N : ℕ} (p : Params) (hn : 0 < p.n) (h1 : 0 < p.kPar) (h2 : 0 < p.kPerp) (wt : Fin N → ℝ) (hw : ∀ k, 0 ≤ wt k)
    (A : (Fin N → ℝ) → (Fin N → ℝ)) (grad : (Fin N → ℝ) → Fin N → ℝ × ℝ)
    (hgal : ∀ u, ip wt u (A u) = -∑ k, wt k * sp (grad u k) (apply (tensor p) (grad u k))) (u : Fin N → ℝ) : ip wt u (A u) ≤ 0 := by
  rw [hgal, neg_nonpos]
  exact Finset.sum_nonneg fun k _ => mul_nonneg (hw k) (tensor_pos p hn h1 h2 (grad u k)).1

/-- A discretisation which meets the assumptions: two points, the gradient along `x` of their difference, the exact solver. -/
noncomputable def twoPoint (d : ℝ) : (Fin 2 → ℝ) → (Fin 2 → ℝ) := fun u k => d * (u (k + 1) - u k)

/-- Its solver. -/
noncomputable def twoSolve (d : ℝ) : Solver 2 := fun _ lam f k => -(f 0 + f 1) / (2 * lam) - (f k - f (k + 1)) / (2 * (2 * d + lam))

theorem two_solves (d : ℝ) (c : Coeffs 2) (hd : 0 < d) : Solves (twoSolve d) c (twoPoint d) := by
  intro lam f k hl
  have h2 : 2 * d + lam ≠ 0 := by positivity
  have : ∀ k : Fin 2, k + 1 + 1 = k := by decide
  have hk : f 0 + f 1 = f k + f (k + 1) := by
    rcases (by decide : ∀ k : Fin 2, k = 0 ∨ k = 1) k with h | h
    · subst h; rfl
    · subst h; show f 0 + f 1 = f 1 + f 0; ring
  simp only [twoPoint, twoSolve, this, hk]
  field_simp
  ring

theorem two_dissipates (d : ℝ) (hd : 0 < d) (u : Fin 2 → ℝ) :
    ip (fun _ => 1) u (twoPoint d u) ≤ 0 ∧ ∑ k, 1 * twoPoint d u k = 0 := by
  simp only [ip, twoPoint, Fin.sum_univ_two, Fin.reduceAdd, Fin.isValue]
  constructor
  · nlinarith [mul_nonneg hd.le (sq_nonneg (u 0 - u 1))]
  · ring

/-! ### Coupling -/

/-- Full claim: the receiver diffuses with the tensor of the sender, for all accepted collection types. It does if the sender does
not use matrix-free collections and the coupling reproduces constants: after the first step, and in all later steps. -/
theorem couple_partial {N M : ℕ} (transfer : (Fin N → ℝ) → (Fin M → ℝ)) (htr : ∀ c : ℝ, transfer (fun _ => c) = fun _ => c) (mf : Bool)
    (p : Params) (receiver : Coeffs M) (hM : 0 < M) :
    ∃ c, couple transfer mf (setupCoeffs N false p) receiver 0 = some c ∧ (∀ k, tensorAt c k = some (tensor p)) ∧
      ∀ step, 0 < step → couple transfer mf (setupCoeffs N false p) c step = some c := by
  have hs : sendArray (setupCoeffs N false p) =
      some [some fun _ => (tensor p).d00, some fun _ => (tensor p).d01, some fun _ => (tensor p).d11] := by
    simp [sendArray, setupCoeffs, Coeffs.varSize, List.replicate_succ]
  refine ⟨if mf then { const := some (tensor p), var := (none, none, none) }
    else { const := none, var := (some fun _ => (tensor p).d00, some fun _ => (tensor p).d01, some fun _ => (tensor p).d11) },
    ?_, fun k => ?_, fun step hst => ?_⟩
  · simp only [couple, if_true, hs, receive]
    cases mf
    · simp [htr]
    · simp [htr, hM]
  · cases mf <;> rfl
  · simp [couple, Nat.pos_iff_ne_zero.mp hst]

/-- A sender with matrix-free collections writes beyond the end of the array it sends. -/
theorem sender_matrixFree {N M : ℕ} (transfer : (Fin N → ℝ) → (Fin M → ℝ)) (mf : Bool) (p : Params) (receiver : Coeffs M) :
    sendArray (setupCoeffs N true p) = none ∧ couple transfer mf (setupCoeffs N true p) receiver 0 = none := by
  have h : sendArray (setupCoeffs N true p) = none := by simp [sendArray, setupCoeffs, Coeffs.varSize]
  exact ⟨h, by simp [couple, h]⟩

/-- A receiver with matrix-free collections uses the value of its first point at all points, so a tensor which varies is replaced by
a constant one. -/
theorem receiver_first {M : ℕ} (hM : 0 < M) (rcv : Fin 3 → Fin M → ℝ) (c : Coeffs M) (h : receive true rcv = some c) (k : Fin M) :
    tensorAt c k = some ⟨rcv 0 ⟨0, hM⟩, rcv 1 ⟨0, hM⟩, rcv 2 ⟨0, hM⟩⟩ := by
  simp only [receive, if_true, dif_pos hM] at h
  rw [← Option.some.inj h]; rfl

end Verif.Props.C72
