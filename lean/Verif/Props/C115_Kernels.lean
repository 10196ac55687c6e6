import Verif.Props.C115_FloatBasis
import Verif.Props.C114_Orders

/-! C115: evaluation and projection on quadrilaterals and hexahedra with the computed basis functions. -/

namespace Verif.Props.C115
open Verif.Lemmas.RoundingModes Verif.Lemmas.Rounding Verif.Lemmas.FloatExpansion Verif.Lemmas.FloatBasis Verif.Spec.Rounding Verif.Spec.FloatExpansion Verif.Spec.FloatBasis Verif.Spec Verif.Model
  Verif.Model.FloatKernels Verif.Model.FloatBasis Verif.Model.FloatExpansion Verif.Model.JacobiCoeff Verif.Model.ExpansionLooping Verif.Model.BasisReference Verif.Model.BasisEvaluation
  Verif.Model.BasisEvaluateBase Verif.Lemmas Verif.Props.C13 Verif.Props.C14 Verif.Props.C114

variable {rnd : ℝ → ℝ}

/-- How the code is compiled: the contractions of the recursion, of the constructor of the tables and of the start value of the recursion. -/
structure Compiled where
  ch : Choice
  table : Bool
  start : Bool

/-- The values the particle has in the local spaces of a quadrilateral or hexahedron are those `mod_A` writes there for the components of its reference position. -/
def Stored (rnd : ℝ → ℝ) (o : Compiled) (cells : List (Shape × ℕ)) (shape : Shape) (n : ℕ) (p : Particle) : Prop :=
  p.e = p.xi ∧ modAF rnd o.ch o.start (tablesF rnd o.table cells) n p.xi.1 (List.replicate n none) = some (p.l0.map some) ∧
  modAF rnd o.ch o.start (tablesF rnd o.table cells) n p.xi.2.1 (List.replicate n none) = some (p.l1.map some) ∧
  (shape = .quad ∧ p.l2 = [] ∨
    shape = .hex ∧ modAF rnd o.ch o.start (tablesF rnd o.table cells) n p.xi.2.2 (List.replicate n none) = some (p.l2.map some))

/-- The reference position is in the reference element or not far outside. -/
def Inside (p : Particle) : Prop := |p.xi.1| ≤ 9 / 8 ∧ |p.xi.2.1| ≤ 9 / 8 ∧ |p.xi.2.2| ≤ 9 / 8

/-- The error of the values of the basis functions. -/
noncomputable def basisError (n : ℕ) : ℝ := (ρ ^ (6 * n) - 1) * 4 ^ n

theorem basisError_nonneg (n : ℕ) : 0 ≤ basisError n := by
  have : 1 ≤ ρ ^ (6 * n) := one_le_pow₀ ρ_ge.2
  unfold basisError
  exact mul_nonneg (by linarith) (by positivity)

theorem mode_space (R : Rounding 53 (-1074) rnd) (o : Compiled) (cells : List (Shape × ℕ)) (shape : Shape) (n : ℕ) (hc : (shape, n) ∈ cells) (h2 : 2 ≤ n) (hn : n ≤ 100000) {z : ℝ}
    (hz : |z| ≤ 9 / 8) : ∃ l : List ℝ, modAF rnd o.ch o.start (tablesF rnd o.table cells) n z (List.replicate n none) = some (l.map some) ∧ Space (basisError n) (4 ^ n) l (listA n z) := by
  obtain ⟨k1, k2, -, -⟩ := Props.C12.tables_cover_kernels cells (shape, n) hc (by omega)
  dsimp only at k1
  obtain ⟨l, hl, e, hok⟩ := mod_A_error R o.ch o.table o.start (tableDims cells).1.toNat (tableDims cells).2.toNat n h2 hn (by omega) k2 hz (List.replicate n none) (by simp)
  refine ⟨l, ?_, ?_⟩
  · rw [List.drop_replicate, Nat.sub_self, List.replicate_zero, List.append_nil] at e
    exact e
  · unfold Space
    rw [List.forall₂_iff_get]
    refine ⟨by simp [hl, listA], fun k hk hk' x hx => ?_⟩
    simp only [listA, List.get_eq_getElem, List.getElem_map, List.getElem_range, Option.some.injEq] at hx
    obtain ⟨g1, g2⟩ := hok k l[k] (List.getElem?_eq_getElem hk)
    have hm : (17 / 16 : ℝ) * 4 ^ (k - 1) ≤ 4 ^ n := by
      have : (4 : ℝ) ^ (k - 1) ≤ 4 ^ (n - 1) := pow_le_pow_right₀ (by norm_num) (by omega)
      have e : (4 : ℝ) ^ n = 4 ^ (n - 1) * 4 := by rw [← pow_succ, Nat.sub_add_cancel (by omega)]
      have : (0 : ℝ) ≤ 4 ^ (n - 1) := by positivity
      rw [e]; linarith
    have := (show FloatBasis.Rel _ _ _ _ from ⟨g1, g2⟩).mono (l := 6 * n) (by omega) hm
    rw [← hx]
    exact ⟨this.2, this.1⟩

theorem fill_all {α : Type*} (l : List α) (n : ℕ) (x : α) (h : l.length = n) : fill l (List.replicate n x) = l := by
  unfold fill; rw [h, List.drop_replicate, Nat.sub_self, List.replicate_zero, List.append_nil]

/-- **C115.** On quadrilaterals and hexahedra the values the kernels store satisfy what C114 assumes of them, with the error of `6 n` roundings of values of magnitude `4^n`. -/
theorem stored_computed (R : Rounding 53 (-1074) rnd) (o : Compiled) (tol : ℝ) (cells : List (Shape × ℕ)) (shape : Shape) (n : ℕ) (hc : (shape, n) ∈ cells) (h2 : 2 ≤ n) (hn : n ≤ 100000)
    (p : Particle) (hp : Stored rnd o cells shape n p) (hi : Inside p) : Computed tol cells shape n (basisError n) (4 ^ n) p := by
  obtain ⟨he, s0, s1, s2⟩ := hp
  obtain ⟨i0, i1, i2⟩ := hi
  obtain ⟨k1, k2, -, -⟩ := Props.C12.tables_cover_kernels cells (shape, n) hc (by omega)
  dsimp only at k1
  have eA : ∀ (z : ℝ) (buf : List (Dbl ℝ)), n ≤ buf.length → modA (tables ℝ cells) n z buf = some (fill (listA n z) buf) :=
    fun z buf hb => modA_eq _ _ n z buf h2 hb (by omega) k2
  have hA : totalNumModesBasis .modA n = n := (Props.C12.basis_total_num_modes n).1
  have hlen : ∀ z : ℝ, (listA n z).length = n := fun z => by simp [listA]
  have hsp : ∀ z, |z| ≤ 9 / 8 → ∀ l, modAF rnd o.ch o.start (tablesF rnd o.table cells) n z (List.replicate n none) = some (l.map some) → Space (basisError n) (4 ^ n) l (listA n z) := by
    intro z hz l hl
    obtain ⟨l', e, h⟩ := mode_space R o cells shape n hc h2 hn hz
    rw [e] at hl
    have := List.map_injective_iff.mpr (Option.some_injective ℝ) (Option.some.inj hl)
    rw [← this]; exact h
  rcases s2 with ⟨rfl, s2⟩ | ⟨rfl, s2⟩
  · refine ⟨⟨by rw [he]; rfl, by rw [he]; rfl, fun _ h => absurd rfl h⟩, trivial, listA n p.xi.1, listA n p.xi.2.1, [], ?_, hsp _ i0 _ s0, hsp _ i1 _ s1, by rw [s2]; exact List.Forall₂.nil⟩
    unfold prepareBasis
    simp only [evaluateBasis, collapse, CoordMap.quadToCollapsed, spaceSize, hA, List.replicate_zero]
    rw [eA _ _ (by simp), Option.bind_some, eA _ _ (by simp), Option.bind_some, Option.bind_some, fill_all _ _ _ (hlen _), fill_all _ _ _ (hlen _)]
  · refine ⟨⟨by rw [he]; rfl, by rw [he]; rfl, fun _ _ => by rw [he]; rfl⟩, trivial, listA n p.xi.1, listA n p.xi.2.1, listA n p.xi.2.2, ?_, hsp _ i0 _ s0, hsp _ i1 _ s1, hsp _ i2 _ s2⟩
    unfold prepareBasis
    simp only [evaluateBasis, collapse, CoordMap.hexToCollapsed, spaceSize, hA]
    rw [eA _ _ (by simp), Option.bind_some, eA _ _ (by simp), Option.bind_some, eA _ _ (by simp), Option.bind_some, fill_all _ _ _ (hlen _), fill_all _ _ _ (hlen _), fill_all _ _ _ (hlen _)]

/-- For every reference position not far outside of the element the kernels store such values. -/
theorem stored_exists (R : Rounding 53 (-1074) rnd) (o : Compiled) (cells : List (Shape × ℕ)) (shape : Shape) (hsh : shape = .quad ∨ shape = .hex) (n : ℕ) (hc : (shape, n) ∈ cells)
    (h2 : 2 ≤ n) (hn : n ≤ 100000) (value : ℝ) (xi : ℝ × ℝ × ℝ) (h0 : |xi.1| ≤ 9 / 8) (h1 : |xi.2.1| ≤ 9 / 8) (h3 : |xi.2.2| ≤ 9 / 8) :
    ∃ p, p.value = value ∧ p.xi = xi ∧ Inside p ∧ Stored rnd o cells shape n p := by
  obtain ⟨l0, e0, -⟩ := mode_space R o cells shape n hc h2 hn h0
  obtain ⟨l1, e1, -⟩ := mode_space R o cells shape n hc h2 hn h1
  obtain ⟨l2, e2, -⟩ := mode_space R o cells shape n hc h2 hn h3
  rcases hsh with rfl | rfl
  · exact ⟨⟨value, xi, xi, l0, l1, []⟩, rfl, rfl, ⟨h0, h1, h3⟩, rfl, e0, e1, Or.inl ⟨rfl, rfl⟩⟩
  · exact ⟨⟨value, xi, xi, l0, l1, l2⟩, rfl, rfl, ⟨h0, h1, h3⟩, rfl, e0, e1, Or.inr ⟨rfl, e2⟩⟩

/-- **C115, evaluation.** On quadrilaterals and hexahedra the value of an expansion computed entirely in floating point arithmetic is its exact value at the reference position of
the particle, up to an explicit error. -/
theorem quad_hex_evaluation_error (R : Rounding 53 (-1074) rnd) (o : Compiled) (contract : ℕ → Bool) (cells : List (Shape × ℕ)) (shape : Shape) (n : ℕ) (hc : (shape, n) ∈ cells)
    (h2 : 2 ≤ n) (hn : n ≤ 100000) (p : Particle) (hp : Stored rnd o cells shape n p) (hi : Inside p) (dofs : List ℝ) (hd : dofs.length = (totalNumModesShape shape n).mode) :
    ∃ v, loopEvaluateF rnd contract shape n dofs p.l0 p.l1 p.l2 = some v ∧
      |v - dot dofs (evalModes shape n p.xi.1 p.xi.2.1 p.xi.2.2)| ≤ sumError (basisError n) (4 ^ n) dofs.length 0 (dofs.map (|·|)).sum := by
  have h := evaluation_error R contract (basisError_nonneg n) (one_le_pow₀ (by norm_num) : (1 : ℝ) ≤ 4 ^ n) 1 cells shape n hc h2 p (stored_computed R o 1 cells shape n hc h2 hn p hp hi) dofs hd
  unfold C114.basis at h
  rwa [hp.1] at h

/-- **C115, projection.** The same for the degrees of freedom after the particles of a cell have deposited in any order. -/
theorem quad_hex_projection_error (R : Rounding 53 (-1074) rnd) (o : Compiled) (cells : List (Shape × ℕ)) (shape : Shape) (n : ℕ) (hc : (shape, n) ∈ cells)
    (h2 : 2 ≤ n) (hn : n ≤ 100000) (ps : List Particle) (hp : ∀ p ∈ ps, Stored rnd o cells shape n p ∧ Inside p) :
    ∃ all : Particle → List (ℕ × ℝ), (∀ p ∈ ps, loopProjectF rnd shape n p.value p.l0 p.l1 p.l2 = some (all p)) ∧
      ∀ adds : List (ℕ × ℝ), adds.Perm (ps.flatMap all) → ∀ c : List ℝ, (totalNumModesShape shape n).mode ≤ c.length →
      ∃ out, applyAddsF rnd c adds = some out ∧ out.length = c.length ∧
        (∀ m < (totalNumModesShape shape n).mode,
          |out.getD m 0 - (c.getD m 0 + (ps.map fun p => p.value * (evalModes shape n p.xi.1 p.xi.2.1 p.xi.2.2).getD m 0).sum)| ≤
          sumError (basisError n) (4 ^ n) ps.length (c.getD m 0) (ps.map fun p => |p.value|).sum) ∧
        ∀ m, (totalNumModesShape shape n).mode ≤ m → out[m]? = c[m]? := by
  obtain ⟨all, h1, h⟩ := projection_error R (basisError_nonneg n) (one_le_pow₀ (by norm_num) : (1 : ℝ) ≤ 4 ^ n) 1 cells shape n hc h2 ps
    (fun p h => stored_computed R o 1 cells shape n hc h2 hn p (hp p h).1 (hp p h).2)
  refine ⟨all, h1, fun adds ha c hcl => ?_⟩
  obtain ⟨out, g1, g2, g3, g4⟩ := h adds ha c hcl
  refine ⟨out, g1, g2, fun m hm => ?_, g4⟩
  have e : (ps.map fun p => p.value * (C114.basis shape n p).getD m 0) = ps.map fun p => p.value * (evalModes shape n p.xi.1 p.xi.2.1 p.xi.2.2).getD m 0 := by
    refine List.map_congr_left fun p h => ?_
    unfold C114.basis
    rw [(hp p h).1.1]
  rw [← e]
  exact g3 m hm

/-! ### The size of the errors -/

/-- `k` roundings are a relative error of at most `4 k 2^-52`. -/
theorem accurate_size {k : ℕ} (hk : k ≤ 2 ^ 49) {m x X : ℝ} (hm : 0 ≤ m) (h : Accurate k m x X) : |x - X| ≤ 4 * k * (2 : ℝ) ^ (-52 : ℤ) * m := by
  refine h.trans (mul_le_mul_of_nonneg_right ?_ hm)
  have hu : (0 : ℝ) < (2 : ℝ) ^ (-52 : ℤ) := two_pos _
  have hηu : η ≤ (1 / 2) * (2 : ℝ) ^ (-52 : ℤ) := by
    have e : (1 / 2 : ℝ) * (2 : ℝ) ^ (-52 : ℤ) = 2 ^ (-53 : ℤ) := by norm_num
    rw [e]; unfold η
    exact zpow_le_zpow_right₀ (by norm_num) (by norm_num)
  have hη := η_pos
  have hk4 : (k : ℝ) * (2 : ℝ) ^ (-52 : ℤ) ≤ 1 / 8 := by
    have : (k : ℝ) ≤ 2 ^ 49 := by exact_mod_cast hk
    calc (k : ℝ) * (2 : ℝ) ^ (-52 : ℤ) ≤ 2 ^ 49 * (2 : ℝ) ^ (-52 : ℤ) := mul_le_mul_of_nonneg_right this hu.le
      _ = 1 / 8 := by norm_num
  have hu4 : (2 : ℝ) ^ (-52 : ℤ) ≤ 1 / 8 := by norm_num
  unfold ρ q
  generalize (2 : ℝ) ^ (-52 : ℤ) = u at *
  have hr : (1 + u) * (1 + η) ≤ 1 + 2 * u := by nlinarith
  have hr0 : 0 ≤ (1 + u) * (1 + η) := by positivity
  clear h hk
  suffices H : ((1 + u) * (1 + η)) ^ k ≤ 1 + 4 * k * u by linarith
  induction k with
  | zero => simp
  | succ k ih =>
    push_cast at hk4 ⊢
    have h1 := ih (by nlinarith)
    have h3 : (0 : ℝ) ≤ k * u := by positivity
    rw [pow_succ]
    have a1 := mul_le_mul h1 hr hr0 (by linarith)
    nlinarith

/-! ### The hypotheses can be met -/

/-- A mesh with a quadrilateral with eight modes in each direction and a hexahedron, round to nearest, whichever operations are contracted: two particles deposit, in any order. -/
example (o : Compiled) : ∃ ps : List Particle, ps.length = 2 ∧ (∀ p ∈ ps, p.value = 3 ∧ p.xi.1 = 1 / 3) ∧
    (∀ p ∈ ps, Stored (nearestEven 53 (-1074)) o [(.quad, 8), (.hex, 3)] .quad 8 p ∧ Inside p) ∧
    ∃ all : Particle → List (ℕ × ℝ), (∀ p ∈ ps, loopProjectF (nearestEven 53 (-1074)) .quad 8 p.value p.l0 p.l1 p.l2 = some (all p)) ∧
      ∃ out, applyAddsF (nearestEven 53 (-1074)) (List.replicate 64 0) (ps.reverse.flatMap all) = some out ∧ out.length = 64 := by
  have R := nearest_rounding (nearestEven_spec (p := 53) (emin := -1074) (by norm_num)).toNearest
  obtain ⟨a, a1, a2, a3, a4⟩ := stored_exists R o [(.quad, 8), (.hex, 3)] .quad (Or.inl rfl) 8 (by simp) (by norm_num) (by norm_num) 3 (1 / 3, -1, 0)
    (by rw [abs_le]; constructor <;> norm_num) (by rw [abs_le]; constructor <;> norm_num) (by rw [abs_le]; constructor <;> norm_num)
  obtain ⟨b, b1, b2, b3, b4⟩ := stored_exists R o [(.quad, 8), (.hex, 3)] .quad (Or.inl rfl) 8 (by simp) (by norm_num) (by norm_num) 3 (1 / 3, 1 / 7, 0)
    (by rw [abs_le]; constructor <;> norm_num) (by rw [abs_le]; constructor <;> norm_num) (by rw [abs_le]; constructor <;> norm_num)
  have hp : ∀ p ∈ [a, b], Stored (nearestEven 53 (-1074)) o [(.quad, 8), (.hex, 3)] .quad 8 p ∧ Inside p := by
    intro p hp
    rcases List.mem_pair.mp hp with rfl | rfl
    · exact ⟨a4, a3⟩
    · exact ⟨b4, b3⟩
  obtain ⟨all, h1, h⟩ := quad_hex_projection_error R o [(.quad, 8), (.hex, 3)] .quad 8 (by simp) (by norm_num) (by norm_num) [a, b] hp
  obtain ⟨out, h2, h3, -⟩ := h ([a, b].reverse.flatMap all) ((List.reverse_perm _).flatMap_right _) (List.replicate 64 0) (by simp [totalNumModesShape])
  refine ⟨[a, b], rfl, ?_, hp, all, h1, out, h2, by simpa using h3⟩
  intro p hp
  rcases List.mem_pair.mp hp with rfl | rfl
  · exact ⟨a1, by rw [a2]⟩
  · exact ⟨b1, by rw [b2]⟩

/-- The polynomial of order five with `alpha = 3` at one half has a small error. -/
example (ch : Choice) (ct ct' : Bool) : ∃ v, hostEvaluateF (nearestEven 53 (-1074)) ch ct' (mkF (nearestEven 53 (-1074)) ct 7 4) 5 3 (1 / 2) = .ok v ∧
    |v - jacobiP 5 3 1 (1 / 2)| ≤ 1 / 10 ^ 9 := by
  have R := nearest_rounding (nearestEven_spec (p := 53) (emin := -1074) (by norm_num)).toNearest
  obtain ⟨v, h1, h2⟩ := host_evaluate_error R ch ct ct' 7 4 5 3 (by norm_num) (by norm_num) (by norm_num) (z := 1 / 2) (by rw [abs_le]; constructor <;> norm_num)
  refine ⟨v, h1, (accurate_size (by norm_num) (by positivity) h2).trans ?_⟩
  push_cast
  norm_num

end Verif.Props.C115
