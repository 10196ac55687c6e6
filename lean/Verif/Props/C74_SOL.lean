import Mathlib.Analysis.Real.Pi.Bounds
import Verif.Model.PlaneFluid
import Mathlib.Analysis.SpecialFunctions.Gaussian.GaussianIntegral
import Mathlib.Tactic.LinearCombination
import Mathlib.Tactic.FieldSimp
import Mathlib.Tactic.Linarith
import Mathlib.Tactic.NormNum

/-!
# C74: fluxes and sources of SimpleSOL
-/

namespace Verif.Props.C74
open Verif.Model.PlaneFluid

/-! ### Fluxes -/

/-- State with density, velocity and energy given. -/
def ofVel {d : ℕ} (rho : ℝ) (v : Fin d → ℝ) (E : ℝ) : SolPt d := ⟨rho, fun i => rho * v i, E⟩

/-- In terms of density, velocity and pressure the fluxes are those of the Euler equations, for every equation of state. -/
theorem flux_spec {d : ℕ} (pr : SolPt d → ℝ) (rho : ℝ) (hr : rho ≠ 0) (v : Fin d → ℝ) (E : ℝ) (i j : Fin d) :
    (eulerFlux pr (ofVel rho v E)).rho i = rho * v i ∧
    (eulerFlux pr (ofVel rho v E)).mom i j = rho * v i * v j + (if i = j then pr (ofVel rho v E) else 0) ∧
    (eulerFlux pr (ofVel rho v E)).E i = (E + pr (ofVel rho v E)) * v i := by
  refine ⟨rfl, ?_, ?_⟩
  · simp only [eulerFlux, ofVel]
    split_ifs <;> field_simp <;> ring
  · simp only [eulerFlux, ofVel]
    field_simp

/-- The momentum flux is symmetric, for every state, so that there is no torque. -/
theorem flux_symm {d : ℕ} (pr : SolPt d → ℝ) (u : SolPt d) (i j : Fin d) : (eulerFlux pr u).mom i j = (eulerFlux pr u).mom j i := by
  simp only [eulerFlux]
  by_cases h : i = j
  · rw [h]
  · rw [if_neg h, if_neg (fun h' => h h'.symm)]; ring

/-- Rotation of a vector in the plane. -/
def rot (c s : ℝ) (v : Fin 2 → ℝ) : Fin 2 → ℝ := ![c * v 0 - s * v 1, s * v 0 + c * v 1]

/-- Rotation of a state. -/
def rotPt (c s : ℝ) (u : SolPt 2) : SolPt 2 := ⟨u.rho, rot c s u.mom, u.E⟩

/-- The fluxes turn with the state, for every rotation and every equation of state which does not depend on the direction: the solver is
isotropic in the plane (the tests run it at a few angles). -/
theorem flux_rotation (pr : SolPt 2 → ℝ) (c s : ℝ) (hcs : c ^ 2 + s ^ 2 = 1) (hpr : ∀ u, pr (rotPt c s u) = pr u) (u : SolPt 2) :
    (eulerFlux pr (rotPt c s u)).rho = rot c s (eulerFlux pr u).rho ∧ (eulerFlux pr (rotPt c s u)).E = rot c s (eulerFlux pr u).E ∧
      ∀ n : Fin 2 → ℝ, (fun i => (eulerFlux pr (rotPt c s u)).mom i 0 * rot c s n 0 + (eulerFlux pr (rotPt c s u)).mom i 1 * rot c s n 1) =
        rot c s fun i => (eulerFlux pr u).mom i 0 * n 0 + (eulerFlux pr u).mom i 1 * n 1 := by
  have h01 : ¬ ((0 : Fin 2) = 1) := by decide
  have h10 : ¬ ((1 : Fin 2) = 0) := by decide
  refine ⟨rfl, ?_, fun n => ?_⟩
  · funext i
    simp only [eulerFlux, hpr]
    fin_cases i
    · show (u.E + pr u) * ((c * u.mom 0 - s * u.mom 1) * (1 / u.rho)) =
        c * ((u.E + pr u) * (u.mom 0 * (1 / u.rho))) - s * ((u.E + pr u) * (u.mom 1 * (1 / u.rho)))
      ring
    · show (u.E + pr u) * ((s * u.mom 0 + c * u.mom 1) * (1 / u.rho)) =
        s * ((u.E + pr u) * (u.mom 0 * (1 / u.rho))) + c * ((u.E + pr u) * (u.mom 1 * (1 / u.rho)))
      ring
  · simp only [eulerFlux, hpr]
    set P := pr u
    set q := 1 / u.rho
    funext i
    have e : ∀ (a b : ℝ), rot a b u.mom 0 = a * u.mom 0 - b * u.mom 1 ∧ rot a b u.mom 1 = b * u.mom 0 + a * u.mom 1 := fun a b => ⟨rfl, rfl⟩
    have en : rot c s n 0 = c * n 0 - s * n 1 ∧ rot c s n 1 = s * n 0 + c * n 1 := ⟨rfl, rfl⟩
    fin_cases i
    · show (if (0 : Fin 2) = 0 then rot c s u.mom 0 * q * rot c s u.mom 0 + P else _) * rot c s n 0 +
        (if (0 : Fin 2) = 1 then _ else rot c s u.mom 1 * q * rot c s u.mom 0) * rot c s n 1 =
        c * ((if (0 : Fin 2) = 0 then u.mom 0 * q * u.mom 0 + P else _) * n 0 + (if (0 : Fin 2) = 1 then _ else u.mom 1 * q * u.mom 0) * n 1) -
        s * ((if (1 : Fin 2) = 0 then _ else u.mom 0 * q * u.mom 1) * n 0 + (if (1 : Fin 2) = 1 then u.mom 1 * q * u.mom 1 + P else _) * n 1)
      rw [if_pos rfl, if_neg h01, if_pos rfl, if_neg h01, if_neg h10, if_pos rfl, (e c s).1, (e c s).2, en.1, en.2]
      linear_combination (c * u.mom 0 - s * u.mom 1) * q * (u.mom 0 * n 0 + u.mom 1 * n 1) * hcs
    · show (if (1 : Fin 2) = 0 then _ else rot c s u.mom 0 * q * rot c s u.mom 1) * rot c s n 0 +
        (if (1 : Fin 2) = 1 then rot c s u.mom 1 * q * rot c s u.mom 1 + P else _) * rot c s n 1 =
        s * ((if (0 : Fin 2) = 0 then u.mom 0 * q * u.mom 0 + P else _) * n 0 + (if (0 : Fin 2) = 1 then _ else u.mom 1 * q * u.mom 0) * n 1) +
        c * ((if (1 : Fin 2) = 0 then _ else u.mom 0 * q * u.mom 1) * n 0 + (if (1 : Fin 2) = 1 then u.mom 1 * q * u.mom 1 + P else _) * n 1)
      rw [if_neg h10, if_pos rfl, if_pos rfl, if_neg h01, if_neg h10, if_pos rfl, (e c s).1, (e c s).2, en.1, en.2]
      linear_combination (s * u.mom 0 + c * u.mom 1) * q * (u.mom 0 * n 0 + u.mom 1 * n 1) * hcs

/-- The ideal gas law meets the assumption of the last theorem. -/
example (c s g : ℝ) (hcs : c ^ 2 + s ^ 2 = 1) (u : SolPt 2) :
    (fun u : SolPt 2 => (g - 1) * (u.E - (u.mom 0 ^ 2 + u.mom 1 ^ 2) / (2 * u.rho))) (rotPt c s u) =
      (fun u : SolPt 2 => (g - 1) * (u.E - (u.mom 0 ^ 2 + u.mom 1 ^ 2) / (2 * u.rho))) u := by
  show (g - 1) * (u.E - ((c * u.mom 0 - s * u.mom 1) ^ 2 + (s * u.mom 0 + c * u.mom 1) ^ 2) / (2 * u.rho)) =
    (g - 1) * (u.E - (u.mom 0 ^ 2 + u.mom 1 ^ 2) / (2 * u.rho))
  have : (c * u.mom 0 - s * u.mom 1) ^ 2 + (s * u.mom 0 + c * u.mom 1) ^ 2 = u.mom 0 ^ 2 + u.mom 1 ^ 2 := by
    linear_combination (u.mom 0 ^ 2 + u.mom 1 ^ 2) * hcs
  rw [this]

/-! ### Sources -/

/-- The coordinate along the sources is the first coordinate of the domain turned back by the angle. -/
theorem coord_spec (p : SrcParams) (a b : ℝ) :
    srcCoord p (Real.cos p.theta * a - Real.sin p.theta * b) (Real.sin p.theta * a + Real.cos p.theta * b) = a := by
  have := Real.sin_sq_add_cos_sq p.theta
  simp only [srcCoord]
  linear_combination a * this

theorem gaussian_symm (c mu sg d : ℝ) : gaussian c mu sg (mu + d) = gaussian c mu sg (mu - d) := by
  simp only [gaussian]
  congr 3
  ring

/-- Sources are symmetric about the middle (density, energy) and antisymmetric (momentum): for a positive length they add no momentum
in total. -/
theorem sources_symm (p : SrcParams) (hm : p.smax / 2 ≠ 0) (d : ℝ) :
    (sources p (p.smax / 2 + d)).1 = (sources p (p.smax / 2 - d)).1 ∧
    (sources p (p.smax / 2 + d)).2.1.1 = -(sources p (p.smax / 2 - d)).2.1.1 ∧
    (sources p (p.smax / 2 + d)).2.1.2 = -(sources p (p.smax / 2 - d)).2.1.2 ∧
    (sources p (p.smax / 2 + d)).2.2 = (sources p (p.smax / 2 - d)).2.2 := by
  change srcMu p ≠ 0 at hm
  change _ = (sources p (srcMu p - d)).1 ∧ _ = -(sources p (srcMu p - d)).2.1.1 ∧ _ = -(sources p (srcMu p - d)).2.1.2 ∧ _ = (sources p (srcMu p - d)).2.2
  change (sources p (srcMu p + d)).1 = _ ∧ (sources p (srcMu p + d)).2.1.1 = _ ∧ (sources p (srcMu p + d)).2.1.2 = _ ∧ (sources p (srcMu p + d)).2.2 = _
  have h : (srcMu p + d) / srcMu p - 1 = -((srcMu p - d) / srcMu p - 1) := by field_simp; ring
  simp only [sources, srcPrefac, gaussian_symm, h]
  refine ⟨trivial, by ring, by ring, trivial⟩

/-- The momentum source is along the direction of the sources, and density and energy sources are positive, with a unit mask. -/
theorem sources_direction (p : SrcParams) (hs : 0 < p.sigma) (hk : 0 < p.mask) (s : ℝ) :
    0 < (sources p s).1 ∧ 0 < (sources p s).2.2 ∧
      ∃ m, (sources p s).2.1 = (m * Real.cos p.theta, m * Real.sin p.theta) ∧
        (0 < srcMu p → (0 < m ↔ s < srcMu p) ∧ (m < 0 ↔ srcMu p < s)) := by
  have hpos : ∀ c : ℝ, 0 < c → 0 < gaussian c (srcMu p) p.sigma s := fun c hc => mul_pos hc (Real.exp_pos _)
  refine ⟨?_, ?_, (s / srcMu p - 1) * gaussian (srcPrefac p).2.1 (srcMu p) p.sigma s, ?_, fun hmu => ?_⟩
  · exact hpos (srcPrefac p).1 (by have := hk; have := hs; simp only [srcPrefac]; positivity)
  · exact half_pos (hpos (srcPrefac p).2.2 (by have := hk; have := hs; simp only [srcPrefac]; positivity))
  · simp only [sources, srcPrefac]
    refine Prod.ext ?_ ?_ <;> simp only <;> ring
  · have hneg : gaussian (srcPrefac p).2.1 (srcMu p) p.sigma s < 0 := by
      refine mul_neg_of_neg_of_pos ?_ (Real.exp_pos _)
      have h1 : (srcPrefac p).2.1 = -(p.mask * 7.296657414e-27 * 1e26 * 2 / p.sigma) := by simp only [srcPrefac]; ring
      rw [h1, neg_lt_zero]
      positivity
    have h1 : s / srcMu p - 1 < 0 ↔ s < srcMu p := by rw [sub_neg, div_lt_one hmu]
    have h2 : 0 < s / srcMu p - 1 ↔ srcMu p < s := by rw [sub_pos, one_lt_div hmu]
    generalize gaussian (srcPrefac p).2.1 (srcMu p) p.sigma s = g at *
    constructor
    · rw [← h1]
      constructor
      · intro h; by_contra hc; push Not at hc
        nlinarith
      · intro h; exact mul_pos_of_neg_of_neg h hneg
    · rw [← h2]
      constructor
      · intro h; by_contra hc; push Not at hc
        nlinarith
      · intro h; exact mul_neg_of_pos_of_neg h hneg

example : 0 < srcDefaults.sigma ∧ 0 < srcDefaults.mask ∧ 0 < srcMu srcDefaults := by
  simp only [srcDefaults, srcMu]; norm_num

/-- The total of a Gaussian source over an unbounded line. -/
theorem gaussian_total (c mu sg : ℝ) (hs : 0 < sg) : ∫ s, gaussian c mu sg s = c * (sg * Real.sqrt (2 * Real.pi)) := by
  have h1 : (fun s => gaussian c mu sg s) = fun s => c * (fun x => Real.exp (-(1 / (2 * sg ^ 2)) * x ^ 2)) (s - mu) := by
    funext s
    simp only [gaussian]
    congr 2
    field_simp
    ring
  rw [h1, MeasureTheory.integral_const_mul,
    MeasureTheory.integral_sub_right_eq_self (fun x => Real.exp (-(1 / (2 * sg ^ 2)) * x ^ 2)) mu, integral_gaussian]
  congr 1
  have h2 : Real.pi / (1 / (2 * sg ^ 2)) = sg ^ 2 * (2 * Real.pi) := by field_simp
  rw [h2, Real.sqrt_mul (sq_nonneg sg), Real.sqrt_sq hs.le]

/-- The normalisation: the totals of density and energy sources over an unbounded line do not depend on the width (nor on the position). -/
theorem total_width_free (p q : SrcParams) (hp : 0 < p.sigma) (hq : 0 < q.sigma) (hm : p.mask = q.mask) :
    ∫ s, (sources p s).1 = ∫ s, (sources q s).1 ∧ ∫ s, (sources p s).2.2 = ∫ s, (sources q s).2.2 := by
  constructor
  · simp only [sources, srcPrefac]
    rw [gaussian_total _ _ _ hp, gaussian_total _ _ _ hq, hm]
    field_simp
  · simp only [sources, srcPrefac]
    rw [MeasureTheory.integral_div, MeasureTheory.integral_div, gaussian_total _ _ _ hp, gaussian_total _ _ _ hq, hm]
    field_simp

/-- The totals: two for the density and six for the energy, up to the digits of the constants, times the mask. -/
theorem total_values (p : SrcParams) (hp : 0 < p.sigma) (hm : 0 ≤ p.mask) :
    |(∫ s, (sources p s).1) - 2 * p.mask| ≤ 1e-8 * p.mask ∧ |(∫ s, (sources p s).2.2) - 6 * p.mask| ≤ 1e-8 * p.mask := by
  have h1 : (2.50662827463 : ℝ) ≤ Real.sqrt (2 * Real.pi) := by
    apply Real.le_sqrt_of_sq_le
    have := Real.pi_gt_d20
    norm_num at this ⊢; linarith
  have h2 : Real.sqrt (2 * Real.pi) ≤ 2.50662827464 := by
    rw [Real.sqrt_le_left (by norm_num)]
    have := Real.pi_lt_d20
    norm_num at this ⊢; linarith
  constructor
  · have e : ∫ s, (sources p s).1 = p.mask * (2 * 0.3989422804 * Real.sqrt (2 * Real.pi)) := by
      simp only [sources, srcPrefac]
      rw [gaussian_total _ _ _ hp]
      have := hp.ne'
      field_simp; norm_num; ring
    rw [e, abs_le]
    constructor <;> norm_num at h1 h2 ⊢ <;> nlinarith
  · have e : ∫ s, (sources p s).2.2 = p.mask * (2.3936536824 * Real.sqrt (2 * Real.pi)) := by
      simp only [sources, srcPrefac]
      rw [MeasureTheory.integral_div, gaussian_total _ _ _ hp]
      have := hp.ne'
      field_simp; norm_num; ring
    rw [e, abs_le]
    constructor <;> norm_num at h1 h2 ⊢ <;> nlinarith

/-- The momentum source is the density source times a velocity which grows linearly from the middle `smax / 2`. -/
theorem momentum_ratio (p : SrcParams) (s : ℝ) :
    (sources p s).2.1.1 * 0.3989422804 = Real.cos p.theta * (0.7296657414 * (1 - s / (p.smax / 2))) * (sources p s).1 ∧
    (sources p s).2.1.2 * 0.3989422804 = Real.sin p.theta * (0.7296657414 * (1 - s / (p.smax / 2))) * (sources p s).1 := by
  constructor <;> simp only [sources, srcPrefac, srcMu, gaussian] <;> norm_num <;> ring

/-- Without parameters the line has length 110, the sources are in its middle and have width two. -/
theorem default_sources : srcDefaults.smax = 110 ∧ srcDefaults.theta = 0 ∧ srcDefaults.sigma = 2 ∧ srcDefaults.mask = 1 ∧
    srcMu srcDefaults = 55 := by
  refine ⟨rfl, rfl, rfl, rfl, ?_⟩; simp only [srcMu, srcDefaults]; norm_num

/-- The mask switches the sources off. -/
theorem mask_zero (p : SrcParams) (hm : p.mask = 0) (s : ℝ) : sources p s = (0, (0, 0), 0) := by
  simp [sources, srcPrefac, gaussian, hm]

/-- Balance: with conservative advection the total of a field changes by the totals of its analytic and particle sources only. -/
theorem balance {N : ℕ} (wt adv src partSrc : Fin N → ℝ) (hc : ∑ k, wt k * adv k = 0) :
    ∑ k, wt k * solRhs (adv k) (src k) (partSrc k) = ∑ k, wt k * src k + ∑ k, wt k * partSrc k := by
  have : ∀ k, wt k * solRhs (adv k) (src k) (partSrc k) = -(wt k * adv k) + (wt k * src k + wt k * partSrc k) := fun k => by
    simp only [solRhs]; ring
  simp only [this, Finset.sum_add_distrib, Finset.sum_neg_distrib, hc, neg_zero, zero_add]

end Verif.Props.C74
