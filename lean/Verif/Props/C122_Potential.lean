import Verif.Model.Potential
import Mathlib.Tactic.FieldSimp
import Mathlib.Tactic.Linarith

/-!
# C122: the potential solves the documented equation

The drift velocities of the fluid solvers come from a potential which is computed from the vorticity in every stage of every time step. Users rely on it being the solution of the equation in the documentation:
`∂xx φ + ∂yy φ = w` for the Hasegawa-Wakatani systems, also in three dimensions (examples/DriftReduced/README.md, equation (3)), and `∇² φ = B² w` for the drift plane.
-/

namespace Verif.Props.C122
open Verif.Model Verif.Model.Potential

variable {N : ℕ}

/-- The equation `d00 ∂xx u + d11 ∂yy u + d22 ∂zz u - λ u = f` in `nDims` dimensions, at all points. `L i` is the second derivative in direction `i`; a coefficient that is not given is one. -/
def Equation (L : Fin 3 → (Fin N → ℝ) → (Fin N → ℝ)) (nDims : ℕ) (F : Factors) (u f : Fin N → ℝ) : Prop :=
  ∀ k, F.d00.getD 1 * L 0 u k + F.d11.getD 1 * L 1 u k + (if nDims = 3 then F.d22.getD 1 * L 2 u k else 0) - F.lambda * u k = f k

/-- `HelmSolve` of Nektar++ (contract): if there is a solution it returns one. -/
def HelmSolves (L : Fin 3 → (Fin N → ℝ) → (Fin N → ℝ)) (nDims : ℕ) (helm : Factors → (Fin N → ℝ) → (Fin N → ℝ)) : Prop :=
  ∀ F f, (∃ u, Equation L nDims F u f) → Equation L nDims F (helm F f) f

/-- The documented equation: the Laplacian in the plane across the magnetic field. -/
def Perpendicular (L : Fin 3 → (Fin N → ℝ) → (Fin N → ℝ)) (phi w : Fin N → ℝ) : Prop := ∀ k, L 0 phi k + L 1 phi k = w k

/-- The right hand side of the equation in the documentation of each system: the vorticity, in units of `n_ref m / B²` for LAPD. -/
noncomputable def source (s : System) (w : ℝ) : ℝ :=
  match s with
  | .hasegawaWakatani => w
  | .lapd B n m => B ^ 2 / (n * m) * w
  | .rogersRicci => w

/-- The contract can be met for all operators. -/
theorem contract_met (L : Fin 3 → (Fin N → ℝ) → (Fin N → ℝ)) (nDims : ℕ) : ∃ helm, HelmSolves L nDims helm := by
  classical
  refine ⟨fun F f => if h : ∃ u, Equation L nDims F u f then h.choose else f, fun F f h => ?_⟩
  dsimp only
  rw [dif_pos h]
  exact h.choose_spec

/-- **What is solved**: the equation with the coefficients of the session (one if they are not set) and the right hand side of the system, if it can be solved. -/
theorem solved (L : Fin 3 → (Fin N → ℝ) → (Fin N → ℝ)) (nDims : ℕ) (helm) (H : HelmSolves L nDims helm) (params : String → Option ℝ) (s : System) (w : Fin N → ℝ)
    (hs : ∃ u : Fin N → ℝ, ∀ k, (params "d00").getD 1 * L 0 u k + (params "d11").getD 1 * L 1 u k + (if nDims = 3 then (params "d22").getD 1 * L 2 u k else 0) =
      source s (w k)) :
    ∀ k, (params "d00").getD 1 * L 0 (solvePhi helm nDims params s w) k + (params "d11").getD 1 * L 1 (solvePhi helm nDims params s w) k +
        (if nDims = 3 then (params "d22").getD 1 * L 2 (solvePhi helm nDims params s w) k else 0) =
      source s (w k) := by
  have hr : ∀ k, source s (w k) = phiRhs s w k := by
    intro k
    cases s <;> simp only [source, phiRhs, one_mul]
    rw [div_div, sq]
  have hc : ∀ u k, (if nDims = 3 then (reducedFactors nDims params).d22.getD 1 * L 2 u k else 0) = if nDims = 3 then (params "d22").getD 1 * L 2 u k else 0 := by
    intro u k
    by_cases h : nDims = 3 <;> simp [reducedFactors, loadCoefficient, h]
  have key := H (reducedFactors nDims params) (phiRhs s w) (by
    obtain ⟨u, hu⟩ := hs
    refine ⟨u, fun k => ?_⟩
    rw [hc, ← hr, ← hu k]
    simp [reducedFactors, loadCoefficient])
  intro k
  have hk := key k
  rw [hc, ← hr] at hk
  rw [← hk]
  simp [reducedFactors, loadCoefficient, solvePhi]

/-- **Two dimensions**: without coefficients in the session the potential solves the documented equation, for the Hasegawa-Wakatani and the Rogers-Ricci systems. -/
theorem documented_2d (L : Fin 3 → (Fin N → ℝ) → (Fin N → ℝ)) (helm) (H : HelmSolves L 2 helm) (params : String → Option ℝ) (h0 : params "d00" = none) (h1 : params "d11" = none) (s : System)
    (hsys : s = .hasegawaWakatani ∨ s = .rogersRicci) (w : Fin N → ℝ) (hs : ∃ u, Perpendicular L u w) : Perpendicular L (solvePhi helm 2 params s w) w := by
  obtain ⟨u, hu⟩ := hs
  have := solved L 2 helm H params s w ⟨u, fun k => by rcases hsys with rfl | rfl <;> simp [source, h0, h1, ← hu k]⟩
  intro k
  have hk := this k
  rcases hsys with rfl | rfl <;> simpa [source, h0, h1] using hk

/-- **Three dimensions**: if the session sets `d22` to zero the potential solves the documented equation. -/
theorem documented_3d_partial (L : Fin 3 → (Fin N → ℝ) → (Fin N → ℝ)) (helm) (H : HelmSolves L 3 helm) (params : String → Option ℝ) (h0 : params "d00" = none) (h1 : params "d11" = none) (h2 : params "d22" = some 0)
    (w : Fin N → ℝ) (hs : ∃ u, Perpendicular L u w) : Perpendicular L (solvePhi helm 3 params .hasegawaWakatani w) w := by
  obtain ⟨u, hu⟩ := hs
  have := solved L 3 helm H params .hasegawaWakatani w ⟨u, fun k => by simp [source, h0, h1, h2, ← hu k]⟩
  intro k
  simpa [source, h0, h1, h2] using this k

/-- Without `d22` in the session, the potential in three dimensions solves the documented equation iff it does not vary along the magnetic field (its second derivative vanishes). -/
theorem default_3d_iff (L : Fin 3 → (Fin N → ℝ) → (Fin N → ℝ)) (helm) (H : HelmSolves L 3 helm) (params : String → Option ℝ) (h0 : params "d00" = none) (h1 : params "d11" = none) (h2 : params "d22" = none)
    (w : Fin N → ℝ) (hs : ∃ u : Fin N → ℝ, ∀ k, L 0 u k + L 1 u k + L 2 u k = w k) :
    Perpendicular L (solvePhi helm 3 params .hasegawaWakatani w) w ↔ ∀ k, L 2 (solvePhi helm 3 params .hasegawaWakatani w) k = 0 := by
  obtain ⟨u, hu⟩ := hs
  have := solved L 3 helm H params .hasegawaWakatani w ⟨u, fun k => by simp [source, h0, h1, h2, ← hu k]⟩
  constructor
  · intro hp k
    have a := this k
    have b := hp k
    simp [source, h0, h1, h2] at a
    linarith
  · intro hz k
    have a := this k
    have b := hz k
    simp [source, h0, h1, h2] at a
    linarith

/-- The second derivatives of a wave with the wave numbers `q`, at any points. -/
def wave (q : Fin 3 → ℝ) (i : Fin 3) (u : Fin N → ℝ) : Fin N → ℝ := fun k => -(q i ^ 2) * u k

/-- For a wave, the documented potential and the one computed with the default coefficients: the latter is too small by the factor (qx² + qy²) / (qx² + qy² + qz²). -/
theorem wave_default (q : Fin 3 → ℝ) (hq : q 0 ^ 2 + q 1 ^ 2 ≠ 0) (helm) (H : HelmSolves (N := N) (wave q) 3 helm) (params : String → Option ℝ) (h0 : params "d00" = none) (h1 : params "d11" = none)
    (h2 : params "d22" = none) (w phi : Fin N → ℝ) (hphi : Perpendicular (wave q) phi w) :
    ∀ k, solvePhi helm 3 params .hasegawaWakatani w k = (q 0 ^ 2 + q 1 ^ 2) / (q 0 ^ 2 + q 1 ^ 2 + q 2 ^ 2) * phi k := by
  have hpos : 0 < q 0 ^ 2 + q 1 ^ 2 := lt_of_le_of_ne (by positivity) (Ne.symm hq)
  have hpos3 : 0 < q 0 ^ 2 + q 1 ^ 2 + q 2 ^ 2 := by positivity
  have := solved (wave q) 3 helm H params .hasegawaWakatani w ⟨fun k => -w k / (q 0 ^ 2 + q 1 ^ 2 + q 2 ^ 2), fun k => by
    simp [source, h0, h1, h2, wave]; field_simp⟩
  intro k
  have a := this k
  have b := hphi k
  simp [source, h0, h1, h2, wave] at a b
  rw [div_mul_eq_mul_div, eq_div_iff hpos3.ne']
  linarith

/-- **The default coefficients are not those of the documented equation**: in three dimensions, for every wave that varies along the magnetic field and every vorticity that is not zero, the computed potential does
not solve it, whatever solution the solver returns. -/
theorem default_3d_wrong (q : Fin 3 → ℝ) (hq : q 0 ^ 2 + q 1 ^ 2 ≠ 0) (hz : q 2 ≠ 0) (helm) (H : HelmSolves (N := N) (wave q) 3 helm) (params : String → Option ℝ) (h0 : params "d00" = none)
    (h1 : params "d11" = none) (h2 : params "d22" = none) (w : Fin N → ℝ) (hw : ∃ k, w k ≠ 0) :
    (∃ u, Perpendicular (wave q) u w) ∧ ¬ Perpendicular (wave q) (solvePhi helm 3 params .hasegawaWakatani w) w := by
  have hpos : 0 < q 0 ^ 2 + q 1 ^ 2 := lt_of_le_of_ne (by positivity) (Ne.symm hq)
  have hpos3 : 0 < q 0 ^ 2 + q 1 ^ 2 + q 2 ^ 2 := by positivity
  refine ⟨⟨fun k => -w k / (q 0 ^ 2 + q 1 ^ 2), fun k => by simp [wave]; field_simp⟩, ?_⟩
  rw [default_3d_iff (wave q) helm H params h0 h1 h2 w ⟨fun k => -w k / (q 0 ^ 2 + q 1 ^ 2 + q 2 ^ 2), fun k => by simp [wave]; field_simp⟩]
  intro hall
  obtain ⟨k, hk⟩ := hw
  have := solved (wave q) 3 helm H params .hasegawaWakatani w ⟨fun k => -w k / (q 0 ^ 2 + q 1 ^ 2 + q 2 ^ 2), fun k => by
    simp [source, h0, h1, h2, wave]; field_simp⟩
  have a := this k
  have b := hall k
  simp [source, h0, h1, h2, wave] at a b
  rcases b with b | b
  · exact hz b
  · rw [b] at a; simp at a; exact hk a.symm

/-- **LAPD**: with `d22 = 0` the vorticity is the polarisation `n_ref m / B² ∇⊥² φ` of the potential. -/
theorem lapd_3d (L : Fin 3 → (Fin N → ℝ) → (Fin N → ℝ)) (helm) (H : HelmSolves L 3 helm) (params : String → Option ℝ) (h0 : params "d00" = none) (h1 : params "d11" = none) (h2 : params "d22" = some 0)
    (B n m : ℝ) (hB : B ≠ 0) (hn : n ≠ 0) (hm : m ≠ 0) (w : Fin N → ℝ) (hs : ∃ u : Fin N → ℝ, ∀ k, n * m / B ^ 2 * (L 0 u k + L 1 u k) = w k) :
    ∀ k, n * m / B ^ 2 * (L 0 (solvePhi helm 3 params (.lapd B n m) w) k + L 1 (solvePhi helm 3 params (.lapd B n m) w) k) = w k := by
  have inv : ∀ {x y : ℝ}, n * m / B ^ 2 * x = y ↔ x = B ^ 2 / (n * m) * y := by
    intro x y
    constructor <;> intro h
    · rw [← h]; field_simp
    · rw [h]; field_simp
  obtain ⟨u, hu⟩ := hs
  have := solved L 3 helm H params (.lapd B n m) w ⟨u, fun k => by simp [source, h0, h1, h2, inv.1 (hu k)]⟩
  intro k
  have hk := this k
  simp [source, h0, h1, h2] at hk
  exact inv.2 hk

/-- **The drift plane**: `∇² φ = B² w` without a field for the ion pressure, and `∇² (φ + ph) = B² w` with one. -/
theorem drift_plane (dx dy : (Fin N → ℝ) →ₗ[ℝ] (Fin N → ℝ)) (L : Fin 3 → (Fin N → ℝ) → (Fin N → ℝ)) (hx : ∀ u, L 0 u = dx (dx u)) (hy : ∀ u, L 1 u = dy (dy u)) (helm) (H : HelmSolves L 2 helm)
    (p : PlaneFluid.Params) (w : Fin N → ℝ) (ph : Option (Fin N → ℝ)) (hs : ∃ u : Fin N → ℝ, ∀ k, dx (dx u) k + dy (dy u) k = p.B ^ 2 * w k) (total : Fin N → ℝ)
    (ht : total = solvePlane helm p dx dy w ph + ph.getD 0) : ∀ k, dx (dx total) k + dy (dy total) k = p.B ^ 2 * w k := by
  obtain ⟨u, hu⟩ := hs
  have key := H ⟨0, none, none, none⟩ (PlaneFluid.phiRhs p dx dy w ph) (by
    refine ⟨u - ph.getD 0, fun k => ?_⟩
    have := hu k
    cases ph with
    | none => simp [hx, hy, PlaneFluid.phiRhs]; linarith
    | some q => simp [hx, hy, PlaneFluid.phiRhs]; linarith)
  intro k
  have hk := key k
  rw [ht]
  unfold solvePlane
  cases ph with
  | none => simp [hx, hy, PlaneFluid.phiRhs] at hk ⊢; linarith
  | some q => simp [hx, hy, PlaneFluid.phiRhs] at hk ⊢; linarith

/-! ### The hypotheses are met -/

/-- A wave along the diagonal, for which there is a solver and a potential that is not zero. -/
example : ∃ helm, HelmSolves (N := 5) (wave fun _ => 1) 3 helm := contract_met _ _

example : (∃ u, Perpendicular (N := 5) (wave fun _ => 1) u fun k => k) := ⟨fun k => -k / 2, fun k => by simp [wave]; ring⟩

/-- The finding for this wave, and with `d22 = 0` in the session the potential is the documented one. -/
example (helm) (H : HelmSolves (N := 5) (wave fun _ => 1) 3 helm) :
    ¬ Perpendicular (wave fun _ => 1) (solvePhi helm 3 (fun _ => none) .hasegawaWakatani fun k => k) (fun k => k) ∧
      Perpendicular (wave fun _ => 1) (solvePhi helm 3 (fun n => if n = "d22" then some 0 else none) .hasegawaWakatani fun k => k) (fun k => k) := by
  refine ⟨(default_3d_wrong (fun _ => 1) (by norm_num) one_ne_zero helm H (fun _ => none) rfl rfl rfl _ ⟨1, by simp⟩).2, ?_⟩
  exact documented_3d_partial _ helm H (fun n => if n = "d22" then some 0 else none) (by simp) (by simp) (by simp) _ ⟨fun k => -k / 2, fun k => by simp [wave]; ring⟩

end Verif.Props.C122
