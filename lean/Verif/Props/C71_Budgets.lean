import Verif.Model.DriftFluid
import Mathlib.Analysis.Calculus.Deriv.Add
import Mathlib.Analysis.Calculus.Deriv.Mul
import Mathlib.Analysis.Calculus.Deriv.Pi
import Mathlib.Algebra.BigOperators.Pi
import Mathlib.LinearAlgebra.Pi
import Mathlib.Tactic.LinearCombination
import Mathlib.Tactic.FieldSimp
import Mathlib.Tactic.Linarith
import Mathlib.Tactic.Positivity
import Mathlib.Tactic.NormNum

/-!
# C71: budgets of the DriftReduced systems
-/

namespace Verif.Props.C71
open Verif.Model.DriftFluid

variable {N : ℕ}

/-! ### Specification -/

/-- A curve of fields has a time derivative (at one time) at all points. -/
def Rate (f : ℝ → Field N) (f' : Field N) (t : ℝ) : Prop := ∀ k, HasDerivAt (fun s => f s k) (f' k) t

/-- Inner product of the quadrature. -/
def ip (o : Ops N) (f g : Field N) : ℝ := o.integral fun k => f k * g k

/-- What is assumed of the operators of Nektar++. `c` are the coefficients of the operator of the Poisson problem: `solve w` is the
Galerkin solution of `∂ᵢ cᵢ ∂ᵢ phi = w`, tested with its own solution space. Advection with the drift is skew symmetric (a
divergence free velocity without flow through the boundary), and the drift is along the contours of the potential. -/
structure Consistent (o : Ops N) (velOf : Vec → Vec) (c : Fin 3 → ℝ) : Prop where
  deriv_linear : ∀ i, IsLinearMap ℝ (o.deriv i)
  solve_linear : IsLinearMap ℝ o.solve
  poisson : ∀ w w', ip o (o.solve w') w = -∑ i, c i * ip o (o.deriv i (o.solve w)) (o.deriv i (o.solve w'))
  advect_linear : ∀ v, IsLinearMap ℝ (o.advect v)
  skew : ∀ w f g, ip o f (o.advect (driftOf o velOf (o.solve w)) g) = -ip o g (o.advect (driftOf o velOf (o.solve w)) f)
  contour : ∀ w, ip o (o.solve w) (o.advect (driftOf o velOf (o.solve w)) w) = 0
  periodic : ∀ w, ip o w (o.deriv 1 (o.solve w)) = 0

/-! ### Lemmas -/

theorem ip_add_left (o : Ops N) (f g h : Field N) : ip o (fun k => f k + g k) h = ip o f h + ip o g h := by
  simp only [ip, Ops.integral, ← Finset.sum_add_distrib]
  exact Finset.sum_congr rfl fun k _ => by ring

theorem ip_smul_left (o : Ops N) (c : ℝ) (f h : Field N) : ip o (fun k => c * f k) h = c * ip o f h := by
  simp only [ip, Ops.integral, Finset.mul_sum]
  exact Finset.sum_congr rfl fun k _ => by ring

theorem ip_comm (o : Ops N) (f g : Field N) : ip o f g = ip o g f := by
  simp only [ip]; congr 1; funext k; ring

theorem rate_linear {T : Field N → Field N} (hT : IsLinearMap ℝ T) {f : ℝ → Field N} {f' : Field N} {t : ℝ} (h : Rate f f' t) :
    Rate (fun s => T (f s)) (T f') t := by
  intro k
  have hs : ∀ x : Field N, T x k = ∑ j, x j * T (Pi.single j 1) k := by
    intro x
    have := LinearMap.pi_apply_eq_sum_univ (hT.mk' T) x
    have h2 := congrFun this k
    simp only [IsLinearMap.mk'_apply, Finset.sum_apply, Pi.smul_apply, smul_eq_mul] at h2
    rw [h2]
    refine Finset.sum_congr rfl fun j _ => ?_
    congr 2
    funext i
    rw [Pi.single_apply]
    exact if_congr eq_comm rfl rfl
  have hf : (fun s => T (f s) k) = fun s => ∑ j, f s j * T (Pi.single j 1) k := funext fun s => hs (f s)
  rw [hf, hs f']
  exact HasDerivAt.fun_sum fun j _ => (h j).mul_const _

theorem rate_integral (o : Ops N) {f : ℝ → Field N} {f' : Field N} {t : ℝ} (h : Rate f f' t) :
    HasDerivAt (fun s => o.integral (f s)) (o.integral f') t := by
  unfold Ops.integral
  exact HasDerivAt.fun_sum fun j _ => (h j).const_mul _

theorem rate_sq {f : ℝ → Field N} {f' : Field N} {t : ℝ} (h : Rate f f' t) :
    Rate (fun s k => f s k * f s k) (fun k => 2 * (f t k * f' k)) t := by
  intro k
  exact ((h k).mul (h k)).congr_deriv (by ring)

theorem rate_add {f g : ℝ → Field N} {f' g' : Field N} {t : ℝ} (hf : Rate f f' t) (hg : Rate g g' t) :
    Rate (fun s k => f s k + g s k) (fun k => f' k + g' k) t := fun k => (hf k).add (hg k)

/-- The rate of the recorded energy. -/
theorem energy_rate (o : Ops N) (hd : ∀ i, IsLinearMap ℝ (o.deriv i)) (hs : IsLinearMap ℝ o.solve) (dims : ℕ)
    (n w : ℝ → Field N) (n' w' : Field N) (t : ℝ) (hn : Rate n n' t) (hw : Rate w w' t) :
    HasDerivAt (fun s => energy o dims (n s) (o.solve (w s)))
      (ip o (n t) n' + ∑ i, (if i = 2 ∧ dims ≠ 2 then 0 else 1) *
        ip o (o.deriv i (o.solve w')) (o.deriv i (o.solve (w t)))) t := by
  have hp : Rate (fun s => o.solve (w s)) (o.solve w') t := rate_linear hs hw
  have h0 := rate_sq (rate_linear (hd 0) hp)
  have h1 := rate_sq (rate_linear (hd 1) hp)
  have h2 := rate_sq (rate_linear (hd 2) hp)
  have hnn := rate_sq hn
  have ha := rate_add (rate_add hnn h0) h1
  unfold energy
  by_cases hdim : dims = 2
  · have hb := rate_integral o (rate_add ha h2)
    have := hb.const_mul 0.5
    simp only [hdim, if_true]
    refine this.congr_deriv ?_
    symm
    simp only [Fin.sum_univ_three, ip, Ops.integral, ← Finset.sum_add_distrib, Finset.mul_sum]
    simp only [ne_eq, not_true_eq_false, and_false, if_false, one_mul, ← Finset.sum_add_distrib]
    exact Finset.sum_congr rfl fun k _ => by norm_num; ring
  · have hb := rate_integral o ha
    have := hb.const_mul 0.5
    simp only [hdim, if_false]
    refine this.congr_deriv ?_
    symm
    simp only [Fin.sum_univ_three, ip, Ops.integral, ← Finset.sum_add_distrib, Finset.mul_sum]
    have e0 : ¬ ((0 : Fin 3) = 2) := by decide
    have e1 : ¬ ((1 : Fin 3) = 2) := by decide
    simp only [e0, e1, false_and, if_false, ne_eq, not_false_eq_true, and_self, if_true, one_mul, zero_mul,
      Finset.sum_const_zero, add_zero, ← Finset.sum_add_distrib]
    exact Finset.sum_congr rfl fun k _ => by norm_num [hdim]; ring

/-- The rate of the recorded enstrophy. -/
theorem enstrophy_rate (o : Ops N) (n w : ℝ → Field N) (n' w' : Field N) (t : ℝ) (hn : Rate n n' t) (hw : Rate w w' t) :
    HasDerivAt (fun s => enstrophy o (n s) (w s)) (ip o (fun k => n t k - w t k) (fun k => n' k - w' k)) t := by
  have hd : Rate (fun s k => n s k - w s k) (fun k => n' k - w' k) t := fun k => (hn k).sub (hw k)
  have := (rate_integral o (rate_sq hd)).const_mul 0.5
  unfold enstrophy
  refine this.congr_deriv ?_
  symm
  simp only [ip, Ops.integral, Finset.mul_sum]
  exact Finset.sum_congr rfl fun k _ => by norm_num; ring

/-! ### Hasegawa-Wakatani, two dimensional -/

/-- For every solution of the equations with the operators of the program, the rate of the recorded energy, with arbitrary values in the
density field of the equation system and an arbitrary source. -/
theorem hw2_energy (o : Ops N) (velOf : Vec → Vec) (p : HWParams) (hc : Consistent o velOf fun _ => 1)
    (fieldNe src : Field N) (n w : ℝ → Field N) (t : ℝ)
    (hn : Rate n (hw2Rhs o velOf p fieldNe src ⟨n t, w t⟩).ne t) (hw : Rate w (hw2Rhs o velOf p fieldNe src ⟨n t, w t⟩).w t) :
    HasDerivAt (fun s => energy o 2 (n s) (o.solve (w s)))
      (gammaN o p (n t) (o.solve (w t)) -
        p.alpha * ip o (fun k => n t k - o.solve (w t) k) (fun k => fieldNe k - o.solve (w t) k) + ip o (n t) src) t := by
  have h := energy_rate o hc.deriv_linear hc.solve_linear 2 n w _ _ t hn hw
  refine h.congr_deriv ?_
  symm
  simp only [ne_eq, not_true_eq_false, and_false, if_false, one_mul]
  set w' := (hw2Rhs o velOf p fieldNe src ⟨n t, w t⟩).w with hw'
  have hp := hc.poisson w' (w t)
  simp only [one_mul] at hp
  have hp' : ∑ i, ip o (o.deriv i (o.solve w')) (o.deriv i (o.solve (w t))) = -ip o (o.solve (w t)) w' := by
    rw [hp]; ring
  rw [hp']
  have hsk := hc.skew (w t) (n t) (n t)
  have hct := hc.contour (w t)
  simp only [hw', hw2Rhs]
  set phi := o.solve (w t)
  set v := driftOf o velOf phi
  have hsk' : ip o (n t) (o.advect v (n t)) = 0 := by linarith
  have key : gammaN o p (n t) phi - p.alpha * ip o (fun k => n t k - phi k) (fun k => fieldNe k - phi k) + ip o (n t) src
      = ip o (n t) (fun k => (0 - o.advect v (n t) k) + p.alpha * (phi k - fieldNe k) - p.kappa * o.deriv 1 phi k + src k)
        + -ip o phi (fun k => (0 - o.advect v (w t) k) + p.alpha * (phi k - fieldNe k))
        + ip o (n t) (o.advect v (n t)) - ip o phi (o.advect v (w t)) := by
    simp only [gammaN, ip, Ops.integral, Finset.mul_sum, ← Finset.sum_add_distrib, ← Finset.sum_sub_distrib,
      ← Finset.sum_neg_distrib]
    exact Finset.sum_congr rfl fun k _ => by ring
  rw [key, hsk', hct]; ring

/-- Full claim: the recorded rate of change of the energy is its rate of change for every solution. It is if the stored density
is that of the stage and there are no particles. -/
theorem hw2_energy_partial (o : Ops N) (velOf : Vec → Vec) (p : HWParams) (hc : Consistent o velOf fun _ => 1)
    (n w : ℝ → Field N) (t : ℝ)
    (hn : Rate n (hw2Rhs o velOf p (n t) 0 ⟨n t, w t⟩).ne t) (hw : Rate w (hw2Rhs o velOf p (n t) 0 ⟨n t, w t⟩).w t) :
    HasDerivAt (fun s => energy o 2 (n s) (o.solve (w s)))
      (gammaN o p (n t) (o.solve (w t)) - gammaA o 2 p (n t) (o.solve (w t))) t := by
  have h := hw2_energy o velOf p hc (n t) 0 n w t hn hw
  refine h.congr_deriv ?_
  symm
  simp [gammaA, ip, Ops.integral]

/-- The rate of the enstrophy: what is recorded plus the contribution of the particles, whatever the density field of the equation
system holds (the coupling terms cancel). -/
theorem hw2_enstrophy (o : Ops N) (velOf : Vec → Vec) (p : HWParams) (c : Fin 3 → ℝ) (hc : Consistent o velOf c)
    (fieldNe src : Field N) (n w : ℝ → Field N) (t : ℝ)
    (hn : Rate n (hw2Rhs o velOf p fieldNe src ⟨n t, w t⟩).ne t) (hw : Rate w (hw2Rhs o velOf p fieldNe src ⟨n t, w t⟩).w t) :
    HasDerivAt (fun s => enstrophy o (n s) (w s))
      (gammaN o p (n t) (o.solve (w t)) + ip o (fun k => n t k - w t k) src) t := by
  have h := enstrophy_rate o n w _ _ t hn hw
  refine h.congr_deriv ?_
  symm
  have h1 := hc.skew (w t) (n t) (n t)
  have h2 := hc.skew (w t) (w t) (w t)
  have h3 := hc.skew (w t) (n t) (w t)
  have h4 := hc.periodic (w t)
  simp only [hw2Rhs]
  set phi := o.solve (w t)
  set v := driftOf o velOf phi
  have key : gammaN o p (n t) phi + ip o (fun k => n t k - w t k) src
      = ip o (fun k => n t k - w t k) (fun k => ((0 - o.advect v (n t) k) + p.alpha * (phi k - fieldNe k) -
          p.kappa * o.deriv 1 phi k + src k) - ((0 - o.advect v (w t) k) + p.alpha * (phi k - fieldNe k)))
        + ip o (n t) (o.advect v (n t)) + ip o (w t) (o.advect v (w t)) - ip o (n t) (o.advect v (w t)) -
          ip o (w t) (o.advect v (n t)) - p.kappa * ip o (w t) (o.deriv 1 phi) := by
    simp only [gammaN, ip, Ops.integral, Finset.mul_sum, ← Finset.sum_add_distrib, ← Finset.sum_sub_distrib]
    exact Finset.sum_congr rfl fun k _ => by ring
  rw [key]
  have h1' : ip o (n t) (o.advect v (n t)) = 0 := by linarith
  have h2' : ip o (w t) (o.advect v (w t)) = 0 := by linarith
  rw [h1', h2', h4]; linarith

/-- The coupling term does not depend on the density of the stage: two stages with the same vorticity and advection of the density have
the same right hand sides. -/
theorem hw2_stale (o : Ops N) (velOf : Vec → Vec) (p : HWParams) (fieldNe src n₁ n₂ w : Field N) (k : Fin N) :
    (hw2Rhs o velOf p fieldNe src ⟨n₁, w⟩).w = (hw2Rhs o velOf p fieldNe src ⟨n₂, w⟩).w ∧
      (hw2Rhs o velOf p fieldNe src ⟨n₁, w⟩).ne k - (hw2Rhs o velOf p fieldNe src ⟨n₂, w⟩).ne k =
        -(o.advect (driftOf o velOf (o.solve w)) n₁ k - o.advect (driftOf o velOf (o.solve w)) n₂ k) := by
  refine ⟨rfl, ?_⟩
  simp only [hw2Rhs]; ring

/-! ### Hasegawa-Wakatani, three dimensional -/

/-- Diffusion along the magnetic field, tested with its argument. -/
def ParallelDiffusion (o : Ops N) : Prop := ∀ u, ip o u (o.diffuse u) = -ip o (o.deriv 2 u) (o.deriv 2 u)

/-- For every solution of the equations, with an arbitrary source, the rate of the energy is the recorded one plus the contribution of
the particles. -/
theorem hw3_energy (o : Ops N) (velOf : Vec → Vec) (p : HWParams) (hc : Consistent o velOf fun i => if i = 2 then 0 else 1)
    (hpar : ParallelDiffusion o) (src : Field N) (n w : ℝ → Field N) (t : ℝ)
    (hn : Rate n (hw3Rhs o velOf p src ⟨n t, w t⟩).ne t) (hw : Rate w (hw3Rhs o velOf p src ⟨n t, w t⟩).w t) :
    HasDerivAt (fun s => energy o 3 (n s) (o.solve (w s)))
      (gammaN o p (n t) (o.solve (w t)) - gammaA o 3 p (n t) (o.solve (w t)) + ip o (n t) src) t := by
  have h := energy_rate o hc.deriv_linear hc.solve_linear 3 n w _ _ t hn hw
  refine h.congr_deriv ?_
  symm
  have e3 : ((3 : ℕ) ≠ 2) := by decide
  simp only [e3, and_true, ne_eq, not_false_eq_true]
  set w' := (hw3Rhs o velOf p src ⟨n t, w t⟩).w with hw'
  have hp := hc.poisson w' (w t)
  have hp' : ∑ i, (if i = (2 : Fin 3) then (0 : ℝ) else 1) * ip o (o.deriv i (o.solve w')) (o.deriv i (o.solve (w t))) =
      -ip o (o.solve (w t)) w' := by
    rw [hp]; ring
  rw [hp']
  have hsk := hc.skew (w t) (n t) (n t)
  have hct := hc.contour (w t)
  have hpd := hpar (fun k => o.solve (w t) k - n t k)
  simp only [hw', hw3Rhs]
  set phi := o.solve (w t)
  set v := driftOf o velOf phi
  have hsk' : ip o (n t) (o.advect v (n t)) = 0 := by linarith
  have hz : o.deriv 2 (fun k => phi k - n t k) = fun k => -o.deriv 2 (fun k => n t k - phi k) k := by
    have : (fun k => phi k - n t k) = (-1 : ℝ) • (fun k => n t k - phi k) := by funext k; simp
    rw [this, (hc.deriv_linear 2).map_smul]; funext k; simp
  set u : Field N := fun k => phi k - n t k
  set d := o.deriv 2 (fun k => n t k - phi k)
  have hgA : gammaA o 3 p (n t) phi = p.alpha * ip o (o.deriv 2 u) (o.deriv 2 u) := by
    rw [hz]; simp only [gammaA, ip, e3, if_false]
    congr 2; funext k; simp only [d]; ring
  rw [hgA]
  have key : gammaN o p (n t) phi + ip o (n t) src
      = ip o (n t) (fun k => ((0 - o.advect v (n t) k) - p.alpha * o.diffuse u k - p.kappa * o.deriv 1 phi k) + src k)
        + -ip o phi (fun k => (0 - o.advect v (w t) k) - p.alpha * o.diffuse u k)
        + ip o (n t) (o.advect v (n t)) - ip o phi (o.advect v (w t)) - p.alpha * ip o u (o.diffuse u) := by
    simp only [gammaN, ip, Ops.integral, Finset.mul_sum, ← Finset.sum_add_distrib, ← Finset.sum_sub_distrib,
      ← Finset.sum_neg_distrib]
    exact Finset.sum_congr rfl fun k _ => by simp only [u]; ring
  rw [hpd, hsk', hct] at key
  linarith

/-- The same for the enstrophy. -/
theorem hw3_enstrophy (o : Ops N) (velOf : Vec → Vec) (p : HWParams) (c : Fin 3 → ℝ) (hc : Consistent o velOf c)
    (src : Field N) (n w : ℝ → Field N) (t : ℝ)
    (hn : Rate n (hw3Rhs o velOf p src ⟨n t, w t⟩).ne t) (hw : Rate w (hw3Rhs o velOf p src ⟨n t, w t⟩).w t) :
    HasDerivAt (fun s => enstrophy o (n s) (w s))
      (gammaN o p (n t) (o.solve (w t)) + ip o (fun k => n t k - w t k) src) t := by
  have h := enstrophy_rate o n w _ _ t hn hw
  refine h.congr_deriv ?_
  symm
  have h1 := hc.skew (w t) (n t) (n t)
  have h2 := hc.skew (w t) (w t) (w t)
  have h3 := hc.skew (w t) (n t) (w t)
  have h4 := hc.periodic (w t)
  simp only [hw3Rhs]
  set phi := o.solve (w t)
  set v := driftOf o velOf phi
  set u : Field N := fun k => phi k - n t k
  have key : gammaN o p (n t) phi + ip o (fun k => n t k - w t k) src
      = ip o (fun k => n t k - w t k) (fun k => ((0 - o.advect v (n t) k) - p.alpha * o.diffuse u k -
          p.kappa * o.deriv 1 phi k + src k) - ((0 - o.advect v (w t) k) - p.alpha * o.diffuse u k))
        + ip o (n t) (o.advect v (n t)) + ip o (w t) (o.advect v (w t)) - ip o (n t) (o.advect v (w t)) -
          ip o (w t) (o.advect v (n t)) - p.kappa * ip o (w t) (o.deriv 1 phi) := by
    simp only [gammaN, ip, Ops.integral, Finset.mul_sum, ← Finset.sum_add_distrib, ← Finset.sum_sub_distrib]
    exact Finset.sum_congr rfl fun k _ => by ring
  rw [key]
  have h1' : ip o (n t) (o.advect v (n t)) = 0 := by linarith
  have h2' : ip o (w t) (o.advect v (w t)) = 0 := by linarith
  rw [h1', h2', h4]; linarith

/-- With non-negative coupling and quadrature weights the coupling dissipates. -/
theorem gammaA_nonneg (o : Ops N) (dims : ℕ) (p : HWParams) (n phi : Field N) (hw : ∀ k, 0 ≤ o.weight k) (ha : 0 ≤ p.alpha) :
    0 ≤ gammaA o dims p n phi := by
  unfold gammaA Ops.integral
  refine mul_nonneg ha (Finset.sum_nonneg fun k _ => mul_nonneg (hw k) ?_)
  split_ifs <;> exact mul_self_nonneg _

/-- What is written: at multiples of a positive recording step the values above, nothing at other steps. The documented value zero
("disables recording") is a division by zero instead. -/
theorem record_spec (o : Ops N) (dims : ℕ) (p : HWParams) (rs step : ℤ) (n w phi : Field N) :
    (record o dims p rs step n w phi = none ↔ rs = 0) ∧
    (∀ r, record o dims p rs step n w phi = some (some r) ↔ (0 < rs ∧ rs ∣ step) ∧ r.E = energy o dims n phi ∧
      r.W = enstrophy o n w ∧ r.dEdtExp = gammaN o p n phi - gammaA o dims p n phi ∧ r.dWdtExp = gammaN o p n phi) := by
  unfold record
  by_cases h0 : rs = 0
  · simp [h0]
  · rw [if_neg h0]
    by_cases h1 : step.tmod rs = 0 ∧ rs > 0
    · rw [if_pos h1]
      refine ⟨by simp [h0], fun r => ?_⟩
      have hdv : rs ∣ step := Int.dvd_of_tmod_eq_zero h1.1
      constructor
      · intro h
        have := Option.some.inj (Option.some.inj h)
        subst this
        exact ⟨⟨h1.2, hdv⟩, rfl, rfl, rfl, rfl⟩
      · rintro ⟨-, h2, h3, h4, h5⟩
        cases r
        simp_all
    · rw [if_neg h1]
      refine ⟨by simp [h0], fun r => ?_⟩
      constructor
      · intro h; cases Option.some.inj h
      · rintro ⟨⟨h2, h3⟩, -⟩
        exact absurd ⟨Int.tmod_eq_zero_of_dvd h3, h2⟩ h1

/-! ### A discretisation which meets the assumptions -/

/-- Four points of a periodic line in the `y` direction, central differences of spacing one, and the solver for `∂²phi = w` on the modes
it can represent. All fields are constant in the other directions, so the drift does not advect anything. -/
noncomputable def line : Ops 4 where
  weight := fun _ => 1
  deriv := fun i f => if i = 1 then fun k => (f (k + 1) - f (k + 3)) / 2 else 0
  solve := fun w k => -(w k - w (k + 2)) / 2
  advect := fun _ _ => 0
  diffuse := fun _ => 0

theorem line_consistent (velOf : Vec → Vec) (c : Fin 3 → ℝ) (hc : c 1 = 1) : Consistent line velOf c where
  deriv_linear := fun i => by
    refine ⟨fun x y => ?_, fun a x => ?_⟩
    · by_cases h : i = 1
      · funext k; simp only [line, h, if_true, Pi.add_apply]; ring
      · funext k; simp [line, h]
    · by_cases h : i = 1
      · funext k; simp only [line, h, if_true, Pi.smul_apply, smul_eq_mul]; ring
      · funext k; simp [line, h]
  solve_linear := by
    refine ⟨fun x y => ?_, fun a x => ?_⟩
    · funext k; simp only [line, Pi.add_apply]; ring
    · funext k; simp only [line, Pi.smul_apply, smul_eq_mul]; ring
  poisson := fun w w' => by
    have e0 : ¬ ((0 : Fin 3) = 1) := by decide
    have e2 : ¬ ((2 : Fin 3) = 1) := by decide
    simp only [Fin.sum_univ_three, hc, ip, Ops.integral, line, e0, e2, if_true, if_false, Fin.sum_univ_four, Pi.zero_apply]
    simp only [Fin.reduceAdd, Fin.isValue]
    ring
  advect_linear := fun v => ⟨fun x y => by simp [line], fun a x => by simp [line]⟩
  skew := fun w f g => by simp [ip, Ops.integral, line]
  contour := fun w => by simp [ip, Ops.integral, line]
  periodic := fun w => by
    simp only [ip, Ops.integral, line, if_true, Fin.sum_univ_four]
    simp only [Fin.reduceAdd, Fin.isValue]
    ring

theorem line_parallel : ParallelDiffusion line := fun u => by
  have e2 : ¬ ((2 : Fin 3) = 1) := by decide
  simp [ip, Ops.integral, line, e2]

/-- The hypotheses of the balance are met by a curve with non-zero rates: the straight line in the direction of the right hand side. -/
example (velOf : Vec → Vec) (p : HWParams) (n₀ w₀ : Field 4) :
    HasDerivAt (fun s => energy line 2 (fun k => n₀ k + s * (hw2Rhs line velOf p n₀ 0 ⟨n₀, w₀⟩).ne k)
        (line.solve fun k => w₀ k + s * (hw2Rhs line velOf p n₀ 0 ⟨n₀, w₀⟩).w k))
      (gammaN line p n₀ (line.solve w₀) - gammaA line 2 p n₀ (line.solve w₀)) 0 := by
  have hr : ∀ (f f' : Field 4), Rate (fun (s : ℝ) k => f k + s * f' k) f' 0 := fun f f' k => by
    have := ((hasDerivAt_id (0 : ℝ)).mul_const (f' k)).const_add (f k)
    simpa using this
  have h := hw2_energy_partial line velOf p (line_consistent velOf _ rfl)
    (fun s k => n₀ k + s * (hw2Rhs line velOf p n₀ 0 ⟨n₀, w₀⟩).ne k)
    (fun s k => w₀ k + s * (hw2Rhs line velOf p n₀ 0 ⟨n₀, w₀⟩).w k) 0
  simp only [zero_mul, add_zero] at h
  exact h (hr _ _) (hr _ _)

/-- Without drive and particles, with a density field of the equation system which is not that of the stage, the energy grows although the
recorder expects it to fall: both of the recorded contributions are non-positive and the second is negative. -/
theorem hw2_stale_grows (velOf : Vec → Vec) : ∃ (p : HWParams) (fieldNe n w : Field 4) (r : ℝ), 0 < p.alpha ∧ p.kappa = 0 ∧
    0 < r ∧ gammaN line p n (line.solve w) - gammaA line 2 p n (line.solve w) < 0 ∧
    HasDerivAt (fun s => energy line 2 (fun k => n k + s * (hw2Rhs line velOf p fieldNe 0 ⟨n, w⟩).ne k)
        (line.solve fun k => w k + s * (hw2Rhs line velOf p fieldNe 0 ⟨n, w⟩).w k)) r 0 := by
  refine ⟨⟨1, 0⟩, fun _ => -1, fun _ => 1, fun _ => 0, 4, by norm_num, rfl, by norm_num, ?_, ?_⟩
  · simp [gammaN, gammaA, Ops.integral, line]
  · have hr : ∀ (f f' : Field 4), Rate (fun (s : ℝ) k => f k + s * f' k) f' 0 := fun f f' k => by
      have := ((hasDerivAt_id (0 : ℝ)).mul_const (f' k)).const_add (f k)
      simpa using this
    have h := hw2_energy line velOf ⟨1, 0⟩ (line_consistent velOf _ rfl) (fun _ => -1) 0
      (fun s k => 1 + s * (hw2Rhs line velOf ⟨1, 0⟩ (fun _ => -1) 0 ⟨fun _ => 1, fun _ => 0⟩).ne k)
      (fun s k => 0 + s * (hw2Rhs line velOf ⟨1, 0⟩ (fun _ => -1) 0 ⟨fun _ => 1, fun _ => 0⟩).w k) 0
    simp only [zero_mul, add_zero] at h
    have h2 := h (hr (fun _ => 1) _) (hr (fun _ => 0) _)
    refine h2.congr_deriv ?_
    symm
    simp [gammaN, ip, Ops.integral, line]

/-! ### LAPD -/

/-- Momentum: the electric field and the collisions exchange momentum between the species, the sum of the two momentum equations has
advection and pressure gradient only. -/
theorem lapd_momentum (o : Ops N) (p : LapdParams) (exb : Fin N → Vec) (eZ eZ' src : Field N) (st : LapdState N) (k : Fin N)
    (p' : LapdParams) (hp : p'.B = p.B ∧ p'.nRef = p.nRef ∧ p'.floorFac = p.floorFac ∧ p'.me = p.me ∧ p'.md = p.md ∧ p'.Te = p.Te ∧
      p'.Td = p.Td) :
    (lapdRhs o p exb eZ src st).Ge k + (lapdRhs o p exb eZ src st).Gd k =
      (lapdRhs o p' exb eZ' src st).Ge k + (lapdRhs o p' exb eZ' src st).Gd k := by
  obtain ⟨h1, h2, h3, h4, h5, h6, h7⟩ := hp
  simp only [lapdRhs, h1, h2, h3, h4, h5, h6, h7]
  ring

/-- The forces: every species is advected with its own velocity (drift plus parallel velocity, C70) and accelerated by its pressure
gradient; `e n E` and the collisions act with opposite signs on the two. -/
theorem lapd_forces (o : Ops N) (p : LapdParams) (exb : Fin N → Vec) (eZ src : Field N) (st : LapdState N) (k : Fin N) :
    ∃ F, F = p.e * st.ne k * eZ k + collisionTerm p (st.ne k)
        (parVel p.nRef p.floorFac p.me (st.ne k) (st.Ge k) - parVel p.nRef p.floorFac p.md (st.ne k) (st.Gd k)) ∧
      (lapdRhs o p exb eZ src st).Gd k +
        o.advect (fun j => advVel p.B (parVel p.nRef p.floorFac p.md (st.ne j) (st.Gd j)) (exb j)) st.Gd k +
        o.deriv 2 (fun j => p.Td * st.ne j) k = F ∧
      (lapdRhs o p exb eZ src st).Ge k +
        o.advect (fun j => advVel p.B (parVel p.nRef p.floorFac p.me (st.ne j) (st.Ge j)) (exb j)) st.Ge k +
        o.deriv 2 (fun j => p.Te * st.ne j) k = -F := by
  refine ⟨_, rfl, ?_, ?_⟩ <;> simp only [lapdRhs, pdVel, if_true] <;> ring

/-- Friction: the collision term is a force against the relative motion of the species, wherever the density is positive and the
Coulomb logarithm is not negative. -/
theorem lapd_friction (p : LapdParams) (ne vPD : ℝ) (hn : 0 < ne) (hme : 0 ≤ p.me) (hnu : 0 ≤ p.nuEiConst)
    (hlog : 0 ≤ p.coulombLogConst - 0.5 * Real.log (p.nToSI * ne)) : 0 ≤ collisionTerm p ne vPD * vPD := by
  have : collisionTerm p ne vPD * vPD =
      p.me * (p.nuEiConst * ne * (p.coulombLogConst - 0.5 * Real.log (p.nToSI * ne))) * (ne * (vPD * vPD)) := by
    simp only [collisionTerm, collisionFreq]; ring
  rw [this]
  have := mul_self_nonneg vPD
  positivity

/-- The condition on the logarithm in terms of the density. -/
theorem lapd_log_iff (p : LapdParams) (ne : ℝ) (hn : 0 < p.nToSI * ne) :
    0 ≤ p.coulombLogConst - 0.5 * Real.log (p.nToSI * ne) ↔ p.nToSI * ne ≤ Real.exp (2 * p.coulombLogConst) := by
  rw [← Real.log_le_iff_le_exp hn]
  constructor <;> intro h <;> norm_num at h ⊢ <;> linarith

example : ∃ p : LapdParams, 0 ≤ p.coulombLogConst - 0.5 * Real.log (p.nToSI * 2) ∧ 0 < p.me ∧ 0 < p.nuEiConst ∧
    0 < collisionTerm p 2 3 := by
  have h : Real.log 2 < 1 := lt_of_lt_of_le (Real.log_lt_sub_one_of_pos (by norm_num) (by norm_num)) (by norm_num)
  refine ⟨⟨0, 1, 1, 1, 1, 1, 1, 1, 1, 30, 1⟩, ?_, by norm_num, by norm_num, ?_⟩
  · norm_num; linarith
  · simp only [collisionTerm, collisionFreq]; norm_num; linarith

/-- Density: with advection that conserves the integral, the total number of electrons changes by the source only. -/
theorem lapd_density (o : Ops N) (p : LapdParams) (exb : Fin N → Vec) (eZ src : Field N) (st : LapdState N)
    (hcons : ∀ v f, o.integral (o.advect v f) = 0) :
    o.integral (lapdRhs o p exb eZ src st).ne = o.integral src ∧ o.integral (lapdRhs o p exb eZ src st).w = 0 := by
  constructor
  · have h := hcons (fun k => advVel p.B (parVel p.nRef p.floorFac p.me (st.ne k) (st.Ge k)) (exb k)) st.ne
    simp only [Ops.integral] at h ⊢
    simp only [lapdRhs]
    set A := o.advect (fun k => advVel p.B (parVel p.nRef p.floorFac p.me (st.ne k) (st.Ge k)) (exb k)) st.ne
    have : ∀ i, o.weight i * (0 - A i + src i) = o.weight i * src i - o.weight i * A i := fun i => by ring
    simp only [this, Finset.sum_sub_distrib, h, sub_zero]
  · have h := hcons exb st.w
    have h2 := hcons (fun k => pdVel (parVel p.nRef p.floorFac p.me (st.ne k) (st.Ge k))
      (parVel p.nRef p.floorFac p.md (st.ne k) (st.Gd k))) st.ne
    simp only [Ops.integral] at h h2 ⊢
    simp only [lapdRhs]
    set A := o.advect (fun k => pdVel (parVel p.nRef p.floorFac p.me (st.ne k) (st.Ge k))
      (parVel p.nRef p.floorFac p.md (st.ne k) (st.Gd k))) st.ne
    have : ∀ i, o.weight i * (0 - o.advect exb st.w i - A i) = -(o.weight i * o.advect exb st.w i) - o.weight i * A i :=
      fun i => by ring
    simp only [this, Finset.sum_sub_distrib, Finset.sum_neg_distrib, h, h2, neg_zero, sub_zero]

/-! ### Rogers-Ricci -/

theorem tanh_sub (a b : ℝ) : Real.tanh b - Real.tanh a = Real.sinh (b - a) / (Real.cosh a * Real.cosh b) := by
  have ha := (Real.cosh_pos a).ne'
  have hb := (Real.cosh_pos b).ne'
  rw [Real.tanh_eq_sinh_div_cosh, Real.tanh_eq_sinh_div_cosh, Real.sinh_sub]
  field_simp

theorem tanh_strictMono : StrictMono Real.tanh := fun a b h => by
  have := tanh_sub a b
  have hs : 0 < Real.sinh (b - a) := by
    rw [Real.sinh_eq]
    have : Real.exp (-(b - a)) < Real.exp (b - a) := Real.exp_lt_exp.mpr (by linarith)
    linarith
  have h2 : 0 < Real.sinh (b - a) / (Real.cosh a * Real.cosh b) :=
    div_pos hs (mul_pos (Real.cosh_pos a) (Real.cosh_pos b))
  linarith

theorem tanh_bounds (x : ℝ) : -1 < Real.tanh x ∧ Real.tanh x < 1 := by
  have hc := Real.cosh_pos x
  rw [Real.tanh_eq_sinh_div_cosh, lt_div_iff₀ hc, div_lt_iff₀ hc]
  have h1 : Real.cosh x + Real.sinh x = Real.exp x := Real.cosh_add_sinh x
  have h2 : Real.cosh x - Real.sinh x = Real.exp (-x) := Real.cosh_sub_sinh x
  have h3 := Real.exp_pos x
  have h4 := Real.exp_pos (-x)
  constructor <;> linarith

/-- The source is between zero and twice its value at the source radius, and falls with the distance from the axis. -/
theorem rr_source (p : RRParams) (hr : 0 < p.rhoS0) (hl : 0 < p.lsBoost) :
    (∀ r, 0 < rrSource p r ∧ rrSource p r < 0.06) ∧ (∀ r r', r < r' → rrSource p r' < rrSource p r) ∧
      rrSource p p.rsNorm = 0.03 := by
  refine ⟨fun r => ?_, fun r r' h => ?_, ?_⟩
  · have := tanh_bounds ((p.rhoS0 * r - p.rsNorm * p.rhoS0) / (0.5 * p.rhoS0 * p.lsBoost))
    simp only [rrSource]
    norm_num at *
    constructor <;> linarith [this.1, this.2]
  · have hd : 0 < 0.5 * p.rhoS0 * p.lsBoost := by positivity
    have := tanh_strictMono (div_lt_div_of_pos_right
      (sub_lt_sub_right (mul_lt_mul_of_pos_left h hr) (p.rsNorm * p.rhoS0)) hd)
    simp only [rrSource]
    norm_num at *
    linarith
  · have : p.rhoS0 * p.rsNorm - p.rsNorm * p.rhoS0 = 0 := by ring
    simp only [rrSource, this, zero_div, Real.tanh_zero, sub_zero, mul_one]

/-- The source and the scale lengths do not depend on the unit of length: only on `r` in units of `rho_s0`. -/
theorem rr_source_scale (p : RRParams) (hr : p.rhoS0 ≠ 0) (r : ℝ) :
    rrSource p r = 0.03 * (1 - Real.tanh ((r - p.rsNorm) / (0.5 * p.lsBoost))) := by
  simp only [rrSource]
  congr 3
  have : p.rhoS0 * r - p.rsNorm * p.rhoS0 = p.rhoS0 * (r - p.rsNorm) := by ring
  rw [this, show 0.5 * p.rhoS0 * p.lsBoost = p.rhoS0 * (0.5 * p.lsBoost) by ring, mul_div_mul_left _ _ hr]

/-- The radius is the distance from the axis, so the source is axisymmetric. -/
theorem rr_radius (x y : ℝ) : 0 ≤ rrRadius x y ∧ rrRadius x y ^ 2 = x ^ 2 + y ^ 2 ∧
    ∀ c s, c ^ 2 + s ^ 2 = 1 → rrRadius (c * x - s * y) (s * x + c * y) = rrRadius x y := by
  refine ⟨Real.sqrt_nonneg _, ?_, fun c s h => ?_⟩
  · rw [rrRadius, Real.sq_sqrt (by nlinarith [sq_nonneg x, sq_nonneg y])]; ring
  · rw [rrRadius, rrRadius]
    congr 1
    linear_combination (x * x + y * y) * h

/-- The sheath: losses of density are proportional to the density and have its sign; the current vanishes exactly at the floating
potential, which is the only one for a temperature and finite for all temperatures if the regularisation is positive; above it
the vorticity grows, below it falls. -/
theorem rr_sheath (p : RRParams) (he : 0 < p.tEps) (phi n Te : ℝ) :
    0 < rrExp p phi Te ∧ (rrExp p phi Te = 1 ↔ phi = p.coulombLog * Real.sqrt (Te * Te + p.tEps)) ∧
      (0 < 1 - rrExp p phi Te ↔ p.coulombLog * Real.sqrt (Te * Te + p.tEps) < phi) ∧
      0 ≤ (1 / 24 * rrExp p phi Te * n) * n := by
  have hp : 0 < Real.sqrt (Te * Te + p.tEps) := Real.sqrt_pos.mpr (by nlinarith [mul_self_nonneg Te])
  refine ⟨Real.exp_pos _, ?_, ?_, ?_⟩
  · rw [rrExp, Real.exp_eq_one_iff, sub_eq_zero, eq_div_iff hp.ne', eq_comm]
  · rw [rrExp, sub_pos, Real.exp_lt_one_iff, sub_neg, lt_div_iff₀ hp]
  · have := Real.exp_pos (p.coulombLog - phi / Real.sqrt (Te * Te + p.tEps))
    have h2 : (1 / 24 * rrExp p phi Te * n) * n = 1 / 24 * rrExp p phi Te * (n * n) := by ring
    rw [h2]
    have h3 := mul_self_nonneg n
    have h4 : 0 < rrExp p phi Te := this
    positivity

/-- At the floating potential: no current, density lost at the rate 1/24, temperature at the rate 1/36. -/
theorem rr_floating (p : RRParams) (he : 0 < p.tEps) (r advN advT advW n Te : ℝ) :
    rrRhs p r advN advT advW (p.coulombLog * Real.sqrt (Te * Te + p.tEps)) n Te =
      (-40 * advN - n / 24 + rrSource p r, -40 * advT - Te / 36 + rrSource p r, -40 * advW) := by
  have h := ((rr_sheath p he (p.coulombLog * Real.sqrt (Te * Te + p.tEps)) n Te).2.1).mpr rfl
  simp only [rrRhs, h]
  refine Prod.ext ?_ (Prod.ext ?_ ?_) <;> norm_num <;> ring

example : ∃ p : RRParams, 0 < p.rhoS0 ∧ 0 < p.lsBoost ∧ 0 < p.tEps ∧ p.coulombLog = 3 :=
  ⟨⟨3, 0.012, 2, 20, 0.0001⟩, by norm_num, by norm_num, by norm_num, rfl⟩

/-- **C71, the flow.** With the E×B drift, in two and three dimensions, the velocity of the Hasegawa-Wakatani systems is at every point along the contours of the potential. -/
theorem drift_along_contours {N : ℕ} (o : Ops N) (dims : ℕ) (B : Vec) (velOf : Vec → Vec) (h : ∀ g, exbVel dims B (eField dims g) = some (velOf g)) (phi : Field N) (k : Fin N) :
    ∑ i, driftOf o velOf phi k i * o.deriv i phi k = 0 := by
  have hk := h fun i => o.deriv i phi k
  unfold exbVel at hk
  split at hk
  · cases hk
  · have e := Option.some.inj hk
    have e' : driftOf o velOf phi k = velOf fun i => o.deriv i phi k := rfl
    rw [e', ← e, Fin.sum_univ_three]
    simp only [eField]
    split_ifs <;> ring

end Verif.Props.C71
