import Verif.Model.Electrostatic
import Mathlib.Algebra.BigOperators.Field
import Mathlib.Algebra.Order.Chebyshev
import Mathlib.Algebra.BigOperators.Fin
import Mathlib.Tactic.Linarith
import Mathlib.Tactic.FieldSimp
import Mathlib.Tactic.Positivity

/-!
# C65: weights, charges and neutrality of the electrostatic solver

Users rely on the macro particles representing the requested number and charge density, and on the right hand side of the
(periodic, hence singular) Poisson problem having zero mean.
-/

namespace Verif.Props.C65
open Verif.Model.Electrostatic

/-! ### Set up -/

/-- The number of particles: the total number if it is given as non-negative, otherwise the number per element. -/
theorem setup_number (i : SetupInput) (s : Setup) (h : setup i = some s) :
    s.numParticles = if 0 ≤ i.total then i.total else i.numElements * i.perCell := by
  have hn : numParticles i = if 0 ≤ i.total then i.total else (i.numElements : ℤ) * i.perCell := by
    unfold numParticles
    by_cases h0 : 0 ≤ i.total
    · rw [if_pos h0, if_pos (by omega)]
    · rw [if_neg h0, if_neg (by omega)]
  rw [← hn]
  unfold setup at h
  simp only [Option.bind_eq_some_iff] at h
  obtain ⟨wd, -, h⟩ := h
  split at h
  · simp only [Option.map_eq_some_iff] at h
    obtain ⟨q, -, rfl⟩ := h
    rfl
  · simp only [Option.some.injEq] at h; rw [← h]
  · simp only [Option.some.injEq] at h; rw [← h]

/-- The macro particles represent the number density: their number times their weight is density times volume. The density is
the requested one unless a negative value asked for weight one. -/
theorem setup_weight (i : SetupInput) (s : Setup) (h : setup i = some s) :
    s.weight * s.numParticles = s.numberDensity * (i.extent0 * i.extent1) ∧
    (if i.density < 0 then s.weight = 1 else s.numberDensity = i.density) := by
  unfold setup at h
  simp only [Option.bind_eq_some_iff] at h
  obtain ⟨wd, hwd, h⟩ := h
  have key : s.weight = wd.1 ∧ s.numberDensity = wd.2 ∧ s.numParticles = numParticles i := by
    split at h
    · simp only [Option.map_eq_some_iff] at h
      obtain ⟨q, -, rfl⟩ := h
      exact ⟨rfl, rfl, rfl⟩
    · simp only [Option.some.injEq] at h; rw [← h]; exact ⟨rfl, rfl, rfl⟩
    · simp only [Option.some.injEq] at h; rw [← h]; exact ⟨rfl, rfl, rfl⟩
  obtain ⟨k1, k2, k3⟩ := key
  rw [k1, k2, k3]
  split_ifs at hwd ⊢ with hd
  · simp only [quot, Option.map_eq_some_iff] at hwd
    obtain ⟨d, hq, rfl⟩ := hwd
    split_ifs at hq with hv
    simp only [Option.some.injEq] at hq
    subst hq
    refine ⟨?_, rfl⟩
    simp only
    rw [div_mul_cancel₀ _ hv, one_mul]
  · simp only [quot, Option.map_eq_some_iff] at hwd
    obtain ⟨d, hq, rfl⟩ := hwd
    split_ifs at hq with hv
    simp only [Option.some.injEq] at hq
    subst hq
    refine ⟨?_, rfl⟩
    simp only
    field_simp

/-- Charge and charge density agree if either of them was requested, and the requested one is used (the density if both
are given). -/
theorem setup_charge (i : SetupInput) (s : Setup) (h : setup i = some s) (hgiven : i.chargeDensity.isSome ∨ i.charge.isSome) :
    s.chargeDensity = some (s.numberDensity * s.charge) ∧
    (∀ c, i.chargeDensity = some c → s.chargeDensity = some c) ∧
    (∀ q, i.chargeDensity = none → i.charge = some q → s.charge = q) := by
  unfold setup at h
  simp only [Option.bind_eq_some_iff] at h
  obtain ⟨wd, hwd, h⟩ := h
  split at h
  · rename_i c _ hc
    simp only [Option.map_eq_some_iff, quot] at h
    obtain ⟨q, hq, rfl⟩ := h
    split_ifs at hq with hv
    simp only [Option.some.injEq] at hq
    subst hq
    refine ⟨?_, ?_, ?_⟩
    · simp only [Option.some.injEq]
      have h1 : wd.2 ≠ 0 := left_ne_zero_of_mul hv
      have h2 : i.extent0 * i.extent1 ≠ 0 := right_ne_zero_of_mul hv
      generalize i.extent0 * i.extent1 = V at *
      field_simp
    · intro c' hc'; rw [hc] at hc'; exact hc'
    · intro q hn; rw [hc] at hn; simp at hn
  · rename_i q hc hq
    simp only [Option.some.injEq] at h
    subst h
    refine ⟨rfl, ?_, ?_⟩
    · intro c hc'; rw [hc] at hc'; simp at hc'
    · intro q' _ hq'; rw [hq] at hq'; exact Option.some.inj hq'
  · rename_i hc hq
    simp [hc, hq] at hgiven

/-- Finding: if neither the charge nor the charge density is given, the constructor succeeds with an uninitialised charge
density (and charge one). -/
theorem charge_uninitialised (i : SetupInput) (s : Setup) (h : setup i = some s) (hc : i.chargeDensity = none)
    (hq : i.charge = none) : s.chargeDensity = none ∧ s.charge = 1 := by
  unfold setup at h
  simp only [Option.bind_eq_some_iff, hc, hq, Option.some.injEq] at h
  obtain ⟨wd, -, rfl⟩ := h
  exact ⟨rfl, rfl⟩

/-- Finding: a total of zero particles with a requested density divides by zero. -/
theorem no_particles_not_finite (i : SetupInput) (h0 : i.total = 0) (hd : 0 ≤ i.density) : setup i = none := by
  unfold setup
  simp [numParticles, h0, quot, not_lt.mpr hd]

/-! ### Neutrality -/

variable {N M : ℕ}

theorem integral_add (S : Space N M) (f g : Fin N → ℝ) (a : ℝ) :
    S.integral (fun i => f i + g i * a) = S.integral f + S.integral g * a := by
  simp only [Space.integral, Finset.sum_mul, ← Finset.sum_add_distrib]
  exact Finset.sum_congr rfl fun i _ => by ring

theorem integral_const (S : Space N M) (a : ℝ) : S.integral (fun _ => a) = (∑ i, S.w i) * a := by
  simp only [Space.integral, Finset.sum_mul]

/-- The volume of the coupling is the volume of the domain. -/
theorem coupling_volume (S : Space N M) (c : Coupling N M) (h : coupling S = some c) : c.volume = ∑ i, S.w i := by
  unfold coupling at h
  simp only at h
  split_ifs at h
  simp only [Option.some.injEq] at h
  rw [← h]
  simp only [integral_const]
  ring

/-- If the space represents constants, the coupling can be constructed and neutralises with exactly minus one. -/
theorem coupling_exact (S : Space N M) (hexact : S.bwd (S.fwd fun _ => -1) = fun _ => -1) :
    ∃ c, coupling S = some c ∧ c.ncdPhys = fun _ => -1 := by
  unfold coupling
  simp only [hexact]
  have : S.l2 (fun _ : Fin N => (-1 : ℝ)) (fun _ => -1) = 0 := by simp [Space.l2, Space.integral]
  rw [this, zero_div, if_pos (by norm_num)]
  exact ⟨_, rfl, rfl⟩

/-- Specification: the mean of a function over the domain. -/
noncomputable def mean (S : Space N M) (f : Fin N → ℝ) : ℝ := S.integral f / ∑ i, S.w i

/-- For every charge density: the right hand side of the Poisson problem is minus the weight times the deviation of the density
from its mean, its integral is zero, and the assertion on the neutrality never fires. -/
theorem neutral {U ι : Type*} (S : Space N M) (c : Coupling N M) (hc : coupling S = some c)
    (hexact : S.bwd (S.fwd fun _ => -1) = fun _ => -1) (hvol : ∑ i, S.w i ≠ 0) (weight : ℝ)
    (project : (ι → (ℝ × ℝ) × ℝ) → Forcing N M) (helmSolve : (Fin N → ℝ) → U) (gradient : U → ℝ × ℝ → ℝ × ℝ)
    (old : Fields N M U) (ps : ι → (ℝ × ℝ) × ℝ) :
    ∃ out, computeField S c weight project helmSolve gradient old ps = some out ∧
      (∀ k, out.1.forcing.phys k = -weight * ((project ps).phys k - mean S (project ps).phys)) ∧
      S.integral out.1.forcing.phys = 0 ∧ out.1.potential = helmSolve out.1.forcing.phys ∧
      ∀ i, out.2 i = gradient out.1.potential (ps i).1 := by
  have hv := coupling_volume S c hc
  have hncd : c.ncdPhys = fun _ => -1 := by
    obtain ⟨c', h1, h2⟩ := coupling_exact S hexact
    rw [hc] at h1
    rw [Option.some.inj h1, h2]
  have hint : S.integral (fun k => (project ps).phys k + c.ncdPhys k * (S.integral (project ps).phys / c.volume)) = 0 := by
    rw [integral_add, hncd, integral_const, hv]
    field_simp
    ring
  unfold computeField addNeutralising
  simp only [hint]
  rw [if_pos (by norm_num), Option.map_some]
  refine ⟨_, rfl, ?_, ?_, rfl, fun i => rfl⟩
  · intro k
    simp only [scaleForcing, hncd, mean, hv]
    ring
  · simp only [scaleForcing]
    have : S.integral (fun k => ((project ps).phys k + c.ncdPhys k * (S.integral (project ps).phys / c.volume)) * -weight) =
        S.integral (fun k => (project ps).phys k + c.ncdPhys k * (S.integral (project ps).phys / c.volume)) * -weight := by
      simp only [Space.integral, Finset.sum_mul]
      exact Finset.sum_congr rfl fun i _ => by ring
    rw [this, hint, zero_mul]

/-- The field depends on the particles only, not on the fields of earlier steps. -/
theorem field_memoryless {U ι : Type*} (S : Space N M) (c : Coupling N M) (weight : ℝ)
    (project : (ι → (ℝ × ℝ) × ℝ) → Forcing N M) (helmSolve : (Fin N → ℝ) → U) (gradient : U → ℝ × ℝ → ℝ × ℝ)
    (old old' : Fields N M U) (ps : ι → (ℝ × ℝ) × ℝ) :
    computeField S c weight project helmSolve gradient old ps = computeField S c weight project helmSolve gradient old' ps :=
  rfl

/-- A space which represents constants only up to the tolerance of the constructor: the remaining charge is bounded by the
total charge, for positive quadrature weights. -/
theorem neutral_bound (S : Space N M) (c : Coupling N M) (hc : coupling S = some c) (hw : ∀ i, 0 ≤ S.w i)
    (hvol : 0 < ∑ i, S.w i) (weight : ℝ) (f g : Forcing N M) (h : addNeutralising S c weight f = some g) :
    |S.integral g.phys| ≤ 1 / 10 ^ 6 * Real.sqrt (∑ i, S.w i) * |S.integral f.phys| ∧
    |S.integral g.phys * weight| < 1 / 10 ^ 6 := by
  have hv := coupling_volume S c hc
  unfold addNeutralising at h
  simp only at h
  split_ifs at h with hlt
  simp only [Option.some.injEq] at h
  subst h
  refine ⟨?_, hlt⟩
  simp only
  rw [integral_add, hv]
  set V := ∑ i, S.w i with hV
  -- the deviation of the neutralising field from minus one
  have hl2 : S.l2 (fun _ => -1) c.ncdPhys < 1 / 10 ^ 6 * V := by
    unfold coupling at hc
    simp only at hc
    split_ifs at hc with hl
    simp only [Option.some.injEq] at hc
    have hv' : -(S.integral fun _ => -1) = V := by rw [integral_const]; ring
    rw [hv', div_lt_iff₀ hvol] at hl
    rw [← hc]
    exact hl
  have hcs : |S.integral (fun i => -1 - c.ncdPhys i)| ≤ Real.sqrt V * S.l2 (fun _ => -1) c.ncdPhys := by
    rw [Space.l2, ← Real.sqrt_mul hvol.le]
    apply Real.abs_le_sqrt
    have := Finset.sum_mul_sq_le_sq_mul_sq Finset.univ (fun i => Real.sqrt (S.w i))
      (fun i => Real.sqrt (S.w i) * (-1 - c.ncdPhys i))
    simp only [← mul_assoc, Real.mul_self_sqrt (hw _), Real.sq_sqrt (hw _), mul_pow] at this
    exact this
  have e : S.integral f.phys + S.integral c.ncdPhys * (S.integral f.phys / V) =
      -(S.integral (fun i => -1 - c.ncdPhys i)) * (S.integral f.phys / V) := by
    have : S.integral (fun i => -1 - c.ncdPhys i) = -V - S.integral c.ncdPhys := by
      have h1 := integral_add S (fun _ => -1) c.ncdPhys (-1)
      rw [integral_const] at h1
      rw [← hV] at h1
      calc S.integral (fun i => -1 - c.ncdPhys i) = S.integral (fun i => -1 + c.ncdPhys i * -1) := by
            congr 1; funext i; ring
        _ = _ := by rw [h1]; ring
    rw [this]
    field_simp
    ring
  rw [e, abs_mul, abs_neg, abs_div, abs_of_pos hvol]
  calc |S.integral (fun i => -1 - c.ncdPhys i)| * (|S.integral f.phys| / V)
      ≤ (Real.sqrt V * (1 / 10 ^ 6 * V)) * (|S.integral f.phys| / V) := by
        apply mul_le_mul_of_nonneg_right
        · exact hcs.trans (mul_le_mul_of_nonneg_left hl2.le (Real.sqrt_nonneg _))
        · positivity
    _ = 1 / 10 ^ 6 * Real.sqrt V * |S.integral f.phys| := by field_simp

/-- Finding: the coefficients of the forcing function are overwritten, after every call all of them are minus the weight. They do
not represent the physical values. -/
theorem coefficients_overwritten {U ι : Type*} (S : Space N M) (c : Coupling N M) (weight : ℝ)
    (project : (ι → (ℝ × ℝ) × ℝ) → Forcing N M) (helmSolve : (Fin N → ℝ) → U) (gradient : U → ℝ × ℝ → ℝ × ℝ)
    (old : Fields N M U) (ps : ι → (ℝ × ℝ) × ℝ) (out : Fields N M U × (ι → ℝ × ℝ))
    (h : computeField S c weight project helmSolve gradient old ps = some out) (k : Fin M) :
    out.1.forcing.coeffs k = -weight := by
  unfold computeField at h
  simp only [Option.map_eq_some_iff] at h
  obtain ⟨f, -, rfl⟩ := h
  rfl

/-! ### The total charge -/

/-- A Galerkin projection of point charges: the coefficients solve the mass matrix system with the right hand side of the
charges (property C14), and the physical values are those of the expansion. If the basis represents the constant one (in the domain), the
integral of the projected density is the total charge. -/
theorem projection_total {ι : Type*} [Fintype ι] (S : Space N M) (phi : Fin M → ℝ × ℝ → ℝ) (points : Fin N → ℝ × ℝ)
    (ps : ι → (ℝ × ℝ) × ℝ) (coeffs : Fin M → ℝ) (one : Fin M → ℝ)
    (hsolve : ∀ j, ∑ k, (∑ i, S.w i * phi j (points i) * phi k (points i)) * coeffs k = ∑ p, (ps p).2 * phi j (ps p).1)
    (honeq : ∀ i, ∑ j, one j * phi j (points i) = 1) (honep : ∀ p, ∑ j, one j * phi j (ps p).1 = 1) :
    S.integral (fun i => ∑ k, coeffs k * phi k (points i)) = ∑ p, (ps p).2 := by
  have h1 : S.integral (fun i => ∑ k, coeffs k * phi k (points i)) =
      ∑ j, one j * ∑ k, (∑ i, S.w i * phi j (points i) * phi k (points i)) * coeffs k := by
    have : ∀ i, S.w i * (∑ k, coeffs k * phi k (points i)) =
        ∑ j, ∑ k, one j * (S.w i * phi j (points i) * phi k (points i) * coeffs k) := by
      intro i
      calc S.w i * (∑ k, coeffs k * phi k (points i))
          = (∑ j, one j * phi j (points i)) * (S.w i * (∑ k, coeffs k * phi k (points i))) := by rw [honeq, one_mul]
        _ = _ := by
          rw [Finset.sum_mul]
          refine Finset.sum_congr rfl fun j _ => ?_
          rw [Finset.mul_sum, Finset.mul_sum]
          exact Finset.sum_congr rfl fun k _ => by ring
    simp only [Space.integral, this]
    rw [Finset.sum_comm]
    refine Finset.sum_congr rfl fun j _ => ?_
    rw [Finset.sum_comm, Finset.mul_sum]
    refine Finset.sum_congr rfl fun k _ => ?_
    rw [Finset.sum_mul, Finset.mul_sum]
  rw [h1]
  simp only [hsolve, Finset.mul_sum]
  rw [Finset.sum_comm]
  refine Finset.sum_congr rfl fun p _ => ?_
  calc ∑ j, one j * ((ps p).2 * phi j (ps p).1) = (ps p).2 * ∑ j, one j * phi j (ps p).1 := by
        rw [Finset.mul_sum]; exact Finset.sum_congr rfl fun j _ => by ring
    _ = (ps p).2 := by rw [honep, mul_one]

/-! ### Concrete cases -/

/-- Eight particles on a domain of area 4 with number density 6 and charge density 3: weight 3, charge 1/2. -/
example : setup ⟨4, 2, -1, 6, 2, 2, some 3, none⟩ = some ⟨8, 6, 3, 1 / 2, some 3⟩ := by
  norm_num [setup, numParticles, quot]

example : setup ⟨4, 2, 16, -1, 2, 2, none, some 5⟩ = some ⟨16, 4, 1, 5, some 20⟩ := by
  norm_num [setup, numParticles, quot]

/-- A space of two points with weight 1/2 and 3/2 and one constant mode: the density (4, 0) has mean 1. -/
example : ∃ c, coupling (⟨![1 / 2, 3 / 2], fun f => ![f 0], fun c => fun _ => c 0⟩ : Space 2 1) = some c ∧
    ∃ out : Fields 2 1 Unit × (Unit → ℝ × ℝ), computeField ⟨![1 / 2, 3 / 2], fun f => ![f 0], fun c => fun _ => c 0⟩ c 2 (fun _ => ⟨![4, 0], ![0]⟩) (fun _ => ()) (fun _ x => x)
      ⟨⟨![0, 0], ![0]⟩, ()⟩ (fun _ => ((0, 0), 1)) = some out ∧
      out.1.forcing.phys 0 = -6 ∧ out.1.forcing.phys 1 = 2 := by
  obtain ⟨c, hc, -⟩ := coupling_exact (⟨![1 / 2, 3 / 2], fun f => ![f 0], fun c => fun _ => c 0⟩ : Space 2 1) rfl
  refine ⟨c, hc, ?_⟩
  obtain ⟨out, ho, hp, -⟩ := neutral _ c hc rfl (by norm_num [Fin.sum_univ_two]) 2 (fun _ : Unit → (ℝ × ℝ) × ℝ => ⟨![4, 0], ![0]⟩)
    (fun _ => ()) (fun _ x => x) ⟨⟨![0, 0], ![0]⟩, ()⟩ (fun _ => ((0, 0), 1))
  refine ⟨out, ho, ?_, ?_⟩ <;> rw [hp] <;> norm_num [mean, Space.integral, Fin.sum_univ_two]

end Verif.Props.C65
