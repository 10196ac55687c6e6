import Verif.Lemmas.FloatCollapse
import Verif.Props.C115_Kernels
import Verif.Spec.RefElement

/-! C116: the one dimensional functions at the collapsed coordinates in floating point arithmetic, and evaluation and projection on all shapes with them. -/

namespace Verif.Props.C116
open Verif.Lemmas.RoundingModes Verif.Lemmas.Rounding Verif.Lemmas.FloatExpansion Verif.Spec.Rounding Verif.Spec.FloatExpansion Verif.Spec.FloatBasis Verif.Spec Verif.Model
  Verif.Model.FloatKernels Verif.Model.FloatBasis Verif.Model.FloatShapes Verif.Model.FloatExpansion Verif.Model.JacobiCoeff Verif.Model.ExpansionLooping Verif.Model.BasisReference
  Verif.Model.BasisEvaluation Verif.Model.BasisEvaluateBase Verif.Lemmas Verif.Lemmas.FloatShapes Verif.Props.C13 Verif.Props.C14 Verif.Props.C114
open Verif.Lemmas.FloatBasis hiding Rel

local notation "RelF" => Verif.Lemmas.FloatBasis.Rel

variable {rnd : ℝ → ℝ}

/-- The magnitude of the values of the one dimensional functions with `n` modes and of the intermediate results: a bound of the recursions. -/
noncomputable def bound (shape : Shape) (n : ℕ) : ℝ :=
  match shape with
  | .quad | .hex => 4 ^ n
  | .tri | .prism | .tet => ((2 * n + 2 : ℕ) : ℝ) ^ n
  | .pyr => ((4 * n : ℕ) : ℝ) ^ (2 * n)

/-- The number of roundings. -/
def roundings (shape : Shape) (n : ℕ) : ℕ := if shape = .pyr then 34 * n else 17 * n

/-- The error of the values of the one dimensional functions. -/
noncomputable def basisError (shape : Shape) (n : ℕ) : ℝ := (ρ ^ roundings shape n - 1) * bound shape n

theorem bound_ge (shape : Shape) {n : ℕ} (h : 1 ≤ n) : 1 ≤ bound shape n := by
  cases shape
  · exact one_le_pow₀ (by exact_mod_cast (by omega : 1 ≤ 2 * n + 2))
  · exact one_le_pow₀ (by norm_num)
  · exact one_le_pow₀ (by norm_num)
  · exact one_le_pow₀ (by exact_mod_cast (by omega : 1 ≤ 2 * n + 2))
  · exact one_le_pow₀ (by exact_mod_cast (by omega : 1 ≤ 4 * n))
  · exact one_le_pow₀ (by exact_mod_cast (by omega : 1 ≤ 2 * n + 2))

theorem basisError_nonneg (shape : Shape) {n : ℕ} (h : 1 ≤ n) : 0 ≤ basisError shape n := by
  have : 1 ≤ ρ ^ roundings shape n := one_le_pow₀ ρ_ge.2
  have := bound_ge shape h
  unfold basisError
  exact mul_nonneg (by linarith) (by linarith)

theorem roundings_ge (shape : Shape) (n : ℕ) : 17 * n ≤ roundings shape n := by unfold roundings; split <;> omega

/-! ### One direction -/

theorem all_some {C : ℕ} {B : ℝ} {l L : List (Dbl ℝ)} (h : List.Forall₂ (Ent C B) l L) (hf : ∀ x ∈ L, ∃ A, x = some A) :
    ∃ l' : List ℝ, l = l'.map some ∧ Space ((ρ ^ C - 1) * B) B l' L := by
  induction h with
  | nil => exact ⟨[], rfl, List.Forall₂.nil⟩
  | @cons x X l L hx _ ih =>
    obtain ⟨l', e, hl⟩ := ih fun y hy => hf y (by simp [hy])
    obtain ⟨A, hA⟩ := hf X (by simp)
    obtain ⟨a, ha, hr⟩ := hx A hA
    refine ⟨a :: l', by rw [e, ha]; rfl, List.Forall₂.cons ?_ hl⟩
    rintro y hy
    rw [hA] at hy
    rw [← Option.some.inj hy]
    exact ⟨hr.2, hr.1⟩

/-- What is to be shown for a direction: the kernel fills the local space with numbers that are close to what it computes in exact arithmetic. -/
def Good (shape : Shape) (n : ℕ) (x X : Option (List (Dbl ℝ))) : Prop := ∃ l L, x = some (l.map some) ∧ X = some L ∧ Space (basisError shape n) (bound shape n) l L

theorem good_of {shape : Shape} {n : ℕ} {x X : Option (List (Dbl ℝ))} {L : List (Dbl ℝ)} (h : Opt2 (List.Forall₂ (Ent (roundings shape n) (bound shape n))) x X) (hX : X = some L) (hf : ∀ x ∈ L, ∃ A, x = some A) : Good shape n x X := by
  subst hX
  cases x with
  | none => exact h.elim
  | some l =>
    obtain ⟨l', e, hl⟩ := all_some h hf
    exact ⟨l', L, by rw [e], rfl, hl⟩

theorem ent_replicate (C : ℕ) (B : ℝ) (n : ℕ) : List.Forall₂ (Ent C B) (List.replicate n none) (List.replicate n none) := by
  induction n with
  | zero => exact List.Forall₂.nil
  | succ n ih => exact List.Forall₂.cons (fun A h => by simp at h) ih

theorem finite_A (n : ℕ) (z : ℝ) : ∀ x ∈ listA n z, ∃ A, x = some A := by
  intro x hx
  obtain ⟨k, -, rfl⟩ := List.mem_map.mp hx
  exact ⟨_, rfl⟩

theorem finite_B (n : ℕ) {z : ℝ} (hz : z ≠ 1) : ∀ x ∈ listB n z, ∃ A, x = some A := by
  intro x hx
  simp only [listB, List.mem_flatMap, List.mem_map] at hx
  obtain ⟨p, -, q, -, rfl⟩ := hx
  simp [valB, hz]

theorem finite_C (n : ℕ) {z : ℝ} (hz : z ≠ 1) : ∀ x ∈ listC n z, ∃ A, x = some A := by
  intro x hx
  simp only [listC, List.mem_flatMap, List.mem_map] at hx
  obtain ⟨p, -, q, -, r, -, rfl⟩ := hx
  simp [valB, hz]

theorem finite_P (n : ℕ) {z : ℝ} (hz : z ≠ 1) : ∀ x ∈ listPyr n z, ∃ A, x = some A := by
  intro x hx
  simp only [listPyr, rowPyr, List.mem_flatMap, List.mem_map] at hx
  obtain ⟨p, -, q, -, r, -, rfl⟩ := hx
  simp [valPyr, hz]

theorem fill_all' {α : Type*} (l : List α) (n : ℕ) (x : α) (h : l.length = n) : fill l (List.replicate n x) = l := by
  unfold fill; rw [h, List.drop_replicate, Nat.sub_self, List.replicate_zero, List.append_nil]

theorem two_le (shape : Shape) (hq : shape ≠ .quad) (hh : shape ≠ .hex) {n : ℕ} (h : 2 ≤ n) : ((2 * n + 2 : ℕ) : ℝ) ^ n ≤ bound shape n := by
  cases shape
  · exact le_rfl
  · exact absurd rfl hq
  · exact absurd rfl hh
  · exact le_rfl
  · unfold bound
    calc ((2 * n + 2 : ℕ) : ℝ) ^ n ≤ ((4 * n : ℕ) : ℝ) ^ n := pow_le_pow_left₀ (by positivity) (by exact_mod_cast (by omega : 2 * n + 2 ≤ 4 * n)) n
      _ ≤ _ := pow_le_pow_right₀ (by exact_mod_cast (by omega : 1 ≤ 4 * n)) (by omega)
  · exact le_rfl

theorem four_le (shape : Shape) {n : ℕ} (h : 2 ≤ n) : (4 : ℝ) ^ n ≤ bound shape n := by
  by_cases hq : shape = .quad
  · subst hq; exact le_rfl
  by_cases hh : shape = .hex
  · subst hh; exact le_rfl
  refine le_trans ?_ (two_le shape hq hh h)
  exact pow_le_pow_left₀ (by norm_num) (by exact_mod_cast (by omega : 4 ≤ 2 * n + 2)) n

section
variable (R : Rounding 53 (-1074) rnd) (o : Build) (cells : List (Shape × ℕ)) (shape : Shape) (n : ℕ) (hc : (shape, n) ∈ cells) (h2 : 2 ≤ n) (hn : n ≤ 20000) {z Z : ℝ}
include R hc h2 hn

theorem good_A (hz : RelF 11 (9 / 8) z Z) (m : ℕ) (hm : m = totalNumModesBasis .modA n) :
    Good shape n (modAF rnd o.chA o.start (tablesF rnd o.table cells) n z (List.replicate m none)) (modA (tables ℝ cells) n Z (List.replicate m none)) := by
  obtain ⟨k1, k2, -, -⟩ := Props.C12.tables_cover_kernels cells (shape, n) hc (by omega)
  dsimp only at k1
  have hA : totalNumModesBasis .modA n = n := (Props.C12.basis_total_num_modes n).1
  refine good_of (modA_sim R o.chA o.table o.start _ _ n hz h2 (by have := roundings_ge shape n; omega) (four_le shape h2) (by omega) k2 hn (ent_replicate _ _ m)) (L := listA n Z) ?_ (finite_A n Z)
  rw [tables, modA_eq _ _ n Z _ h2 (by simp [hm, hA]) (by omega) k2, fill_all' _ _ _ (by simp [listA, hm, hA])]

theorem good_B (hq : shape ≠ .quad) (hh : shape ≠ .hex) (hz : RelF 11 (9 / 8) z Z) (ho : Off z Z) (m : ℕ) (hm : m = totalNumModesBasis .modB n) :
    Good shape n (modBF rnd o.chB o.start (tablesF rnd o.table cells) n z (List.replicate m none)) (modB (tables ℝ cells) n Z (List.replicate m none)) := by
  obtain ⟨k1, k2, k3, -⟩ := Props.C12.tables_cover_kernels cells (shape, n) hc (by omega)
  dsimp only at k1 k3
  have hB : (listB n Z).length = m := by rw [length_listB, hm, (Props.C12.basis_total_num_modes n).2.1]
  refine good_of (modB_sim R o.chB o.table o.start _ _ n hz ho (by have := roundings_ge shape n; omega) (two_le shape hq hh h2) (by omega) k2 (k3 hq hh) hn (ent_replicate _ _ m)) (L := listB n Z) ?_ (finite_B n ho.2.2.2)
  rw [tables, modB_eq _ _ n Z _ (by simp [hB]) (by omega) k2 (k3 hq hh), fill_all' _ _ _ hB]

theorem good_C (hq : shape ≠ .quad) (hh : shape ≠ .hex) (hz : RelF 11 (9 / 8) z Z) (ho : Off z Z) (m : ℕ) (hm : m = totalNumModesBasis .modC n) :
    Good shape n (modCF rnd o.chB o.start (tablesF rnd o.table cells) n z (List.replicate m none)) (modC (tables ℝ cells) n Z (List.replicate m none)) := by
  obtain ⟨k1, k2, k3, -⟩ := Props.C12.tables_cover_kernels cells (shape, n) hc (by omega)
  dsimp only at k1 k3
  have hC : (listC n Z).length = m := by rw [hm, (Props.C12.basis_total_num_modes n).2.2.2.2.1]; simp [listC, modesC, length_flatMap_range]
  refine good_of (modC_sim R o.chB o.table o.start _ _ n hz ho (by have := roundings_ge shape n; omega) (two_le shape hq hh h2) (by omega) k2 (k3 hq hh) hn (ent_replicate _ _ m)) (L := listC n Z) ?_ (finite_C n ho.2.2.2)
  rw [tables, modC_eq _ _ n Z _ (by simp [hC]) (by omega) k2 (k3 hq hh), fill_all' _ _ _ hC]

theorem good_P (hp : shape = .pyr) (hz : RelF 11 (9 / 8) z Z) (ho : Off z Z) (m : ℕ) (hm : m = totalNumModesBasis .modPyrC n) :
    Good shape n (modPyrCF rnd o.chB o.chP o.start (tablesF rnd o.table cells) n z (List.replicate m none)) (modPyrC (tables ℝ cells) n Z (List.replicate m none)) := by
  obtain ⟨k1, k2, k3, k4⟩ := Props.C12.tables_cover_kernels cells (shape, n) hc (by omega)
  dsimp only at k1 k3 k4
  have k3' := k3 (by rw [hp]; simp) (by rw [hp]; simp)
  have hP : (listPyr n Z).length = m := by rw [hm, (Props.C12.basis_total_num_modes n).2.2.2.2.2.2]; simp [listPyr, rowPyr, modesPyr, length_flatMap_range]
  refine good_of (modPyrC_sim R o.chB o.chP o.table o.start _ _ n hz ho (by rw [hp, roundings, if_pos rfl]; omega) (by rw [hp]; exact le_rfl) (by omega) (by omega) k2 k3' (k4 hp) hn (ent_replicate _ _ m)) (L := listPyr n Z) ?_ (finite_P n ho.2.2.2)
  rw [tables, modPyrC_eq _ _ n Z _ (by omega) (by simp [hP]) (by omega) k2 k3' (k4 hp), fill_all' _ _ _ hP]

end

/-! ### The hypotheses on a position -/

/-- The shape is three dimensional. -/
def ThreeD (shape : Shape) : Prop := shape ≠ .tri ∧ shape ≠ .quad

/-- The reference position consists of doubles and is in the reference element or not far outside, and its collapsed coordinates also. -/
structure NearElement (tol : ℝ) (shape : Shape) (xi : ℝ × ℝ × ℝ) : Prop where
  float : IsFloat 53 (-1074) xi.1 ∧ IsFloat 53 (-1074) xi.2.1 ∧ (ThreeD shape → IsFloat 53 (-1074) xi.2.2)
  near : |xi.1| ≤ 9 / 8 ∧ |xi.2.1| ≤ 9 / 8 ∧ (ThreeD shape → |xi.2.2| ≤ 9 / 8)
  collapsed : |(collapse tol shape xi.1 xi.2.1 xi.2.2).1| ≤ 9 / 8 ∧ |(collapse tol shape xi.1 xi.2.1 xi.2.2).2.1| ≤ 9 / 8

/-- Moreover neither the collapsed coordinates nor the computed ones are exactly at the collapsed end. -/
structure Position (rnd : ℝ → ℝ) (tol : ℝ) (shape : Shape) (xi : ℝ × ℝ × ℝ) : Prop extends NearElement tol shape xi where
  exactOff : OffCollapsed shape (collapse tol shape xi.1 xi.2.1 xi.2.2).2.1 (collapse tol shape xi.1 xi.2.1 xi.2.2).2.2
  computedOff : OffCollapsed shape (collapseF rnd tol shape xi.1 xi.2.1 xi.2.2).2.1 (collapseF rnd tol shape xi.1 xi.2.1 xi.2.2).2.2

/-- The tolerance of the guards against division by zero: a positive double. -/
def Tolerance (tol : ℝ) : Prop := IsFloat 53 (-1074) tol ∧ 0 < tol ∧ tol ≤ 1

theorem tri_guard (tol x0 x1 : ℝ) : CoordMap.triToCollapsed tol x0 x1 = (2 * (1 + x0) / CoordMap.zeroGuard tol (1 - x1) - 1, x1) := by
  unfold CoordMap.triToCollapsed CoordMap.zeroGuard
  by_cases h : |1 - x1| < tol <;> by_cases h0 : 1 - x1 ≥ 0
  · simp [h, h0]
  · have : 1 - x1 < 0 := lt_of_not_ge h0
    simp only [h, h0, this, true_and, and_self, if_true, if_false]
  · simp [h]
  · simp [h]

theorem ratio_one (R : Rounding 53 (-1074) rnd) {tol x y w : ℝ} (ht : Tolerance tol) (hx : IsFloat 53 (-1074) x) (hy : IsFloat 53 (-1074) y) (hw : IsFloat 53 (-1074) w) (hyw : |y - w| ≤ 3)
    (hr : |2 * (1 + x) / CoordMap.zeroGuard tol (y - w) - 1| ≤ 9 / 8) :
    RelF 11 (9 / 8) (ratioF rnd x (CoordMap.zeroGuard tol (rnd (y - w)))) (2 * (1 + x) / CoordMap.zeroGuard tol (y - w) - 1) := by
  obtain ⟨t1, t2, t3⟩ := ht
  have ne : ∀ d, CoordMap.zeroGuard tol d ≠ 0 := fun d h => by
    have := guard_ne (d := d) t2
    rw [h, abs_zero] at this
    linarith
  refine ratio_rel R hx (guard_rel R t1 hy hw) (ne _) ?_ (ne _) hr
  have f4 : IsFloat 53 (-1074) 4 := by have := float_int (p := 53) (emin := -1074) (by norm_num) (by norm_num) (m := 4) (by norm_num); simpa using this
  refine guard_le t2 (by linarith) ?_
  rw [abs_le] at *
  exact ⟨le_rnd R (float_neg f4) (by linarith [hyw.1]), rnd_le R f4 (by linarith [hyw.2])⟩

/-- **C116, collapsed coordinates.** Their error is that of eleven roundings. -/
theorem collapse_error (R : Rounding 53 (-1074) rnd) {tol : ℝ} (ht : Tolerance tol) {shape : Shape} {xi : ℝ × ℝ × ℝ} (h : NearElement tol shape xi) :
    RelF 11 (9 / 8) (collapseF rnd tol shape xi.1 xi.2.1 xi.2.2).1 (collapse tol shape xi.1 xi.2.1 xi.2.2).1 ∧
    RelF 11 (9 / 8) (collapseF rnd tol shape xi.1 xi.2.1 xi.2.2).2.1 (collapse tol shape xi.1 xi.2.1 xi.2.2).2.1 ∧
    (ThreeD shape → RelF 11 (9 / 8) (collapseF rnd tol shape xi.1 xi.2.1 xi.2.2).2.2 (collapse tol shape xi.1 xi.2.1 xi.2.2).2.2) := by
  obtain ⟨⟨f0, f1, f2⟩, ⟨n0, n1, n2⟩, ⟨c0, c1⟩⟩ := h
  obtain ⟨x0, x1, x2⟩ := xi
  dsimp only at *
  have self : ∀ x : ℝ, |x| ≤ 9 / 8 → RelF 11 (9 / 8) x x := fun x hx => (rel_self hx).mono (by norm_num) le_rfl
  have one : ∀ x : ℝ, |x| ≤ 9 / 8 → |1 - x| ≤ 3 := fun x hx => by rw [abs_le] at *; constructor <;> linarith [hx.1, hx.2]
  cases shape
  · simp only [collapse, tri_guard] at c0 c1 ⊢
    exact ⟨ratio_one R ht f0 float_one f1 (one _ n1) c0, self _ n1, fun h => self _ (n2 h)⟩
  · exact ⟨self _ n0, self _ n1, fun h => self _ (n2 h)⟩
  · exact ⟨self _ n0, self _ n1, fun h => self _ (n2 h)⟩
  · have h3 : ThreeD .prism := by simp [ThreeD]
    exact ⟨ratio_one R ht f0 float_one (f2 h3) (one _ (n2 h3)) c0, self _ n1, fun h => self _ (n2 h)⟩
  · have h3 : ThreeD .pyr := by simp [ThreeD]
    exact ⟨ratio_one R ht f0 float_one (f2 h3) (one _ (n2 h3)) c0, ratio_one R ht f1 float_one (f2 h3) (one _ (n2 h3)) c1, fun h => self _ (n2 h)⟩
  · have h3 : ThreeD .tet := by simp [ThreeD]
    have n2' := n2 h3
    have sum : |-x1 - x2| ≤ 3 := by rw [abs_le] at *; constructor <;> linarith [n1.1, n1.2, n2'.1, n2'.2]
    exact ⟨ratio_one R ht f0 (float_neg f1) (f2 h3) sum c0, ratio_one R ht f1 float_one (f2 h3) (one _ (n2 h3)) c1, fun h => self _ (n2 h)⟩

theorem off_of {z Z : ℝ} (hf : IsFloat 53 (-1074) z) (h : RelF 11 (9 / 8) z Z) (h1 : z ≠ 1) (h2 : Z ≠ 1) : Off z Z := ⟨hf, h1, rel_le_two h, h2⟩

/-! ### The local spaces -/

/-- The values the particle has in its local spaces are those the kernels write there. `p.e` are the exact collapsed coordinates. -/
def Stored (rnd : ℝ → ℝ) (o : Build) (tol : ℝ) (cells : List (Shape × ℕ)) (shape : Shape) (n : ℕ) (p : Particle) : Prop :=
  p.e = collapse tol shape p.xi.1 p.xi.2.1 p.xi.2.2 ∧
  prepareBasisF rnd o tol (tablesF rnd o.table cells) shape n p.xi (List.replicate (spaceSize shape n 0) none) (List.replicate (spaceSize shape n 1) none)
    (List.replicate (spaceSize shape n 2) none) = some (p.l0.map some, p.l1.map some, p.l2.map some)

/-- **C116, basis functions.** At every such position the kernels fill the local spaces with numbers, which are close to what they compute in exact arithmetic. -/
theorem basis_error (R : Rounding 53 (-1074) rnd) (o : Build) {tol : ℝ} (ht : Tolerance tol) (cells : List (Shape × ℕ)) (shape : Shape) (n : ℕ) (hc : (shape, n) ∈ cells) (h2 : 2 ≤ n)
    (hn : n ≤ 20000) {xi : ℝ × ℝ × ℝ} (h : Position rnd tol shape xi) :
    ∃ l0 l1 l2 L0 L1 L2, prepareBasisF rnd o tol (tablesF rnd o.table cells) shape n xi (List.replicate (spaceSize shape n 0) none) (List.replicate (spaceSize shape n 1) none)
        (List.replicate (spaceSize shape n 2) none) = some (l0.map some, l1.map some, l2.map some) ∧
      prepareBasis tol (tables ℝ cells) shape n xi (List.replicate (spaceSize shape n 0) none) (List.replicate (spaceSize shape n 1) none)
        (List.replicate (spaceSize shape n 2) none) = some (L0, L1, L2) ∧
      Space (basisError shape n) (bound shape n) l0 L0 ∧ Space (basisError shape n) (bound shape n) l1 L1 ∧ Space (basisError shape n) (bound shape n) l2 L2 := by
  obtain ⟨r0, r1, r2⟩ := collapse_error R ht h.toNearElement
  obtain ⟨⟨⟨f0, f1, f2⟩, -, -⟩, ho, hco⟩ := h
  obtain ⟨x0, x1, x2⟩ := xi
  dsimp only at *
  have fin : ∀ {a b c A B' C' : Option (List (Dbl ℝ))}, Good shape n a A → Good shape n b B' → Good shape n c C' →
      ∃ l0 l1 l2 L0 L1 L2, (a.bind fun l0 => b.bind fun l1 => c.bind fun l2 => some (l0, l1, l2)) = some (l0.map some, l1.map some, l2.map some) ∧
        (A.bind fun l0 => B'.bind fun l1 => C'.bind fun l2 => some (l0, l1, l2)) = some (L0, L1, L2) ∧
        Space (basisError shape n) (bound shape n) l0 L0 ∧ Space (basisError shape n) (bound shape n) l1 L1 ∧ Space (basisError shape n) (bound shape n) l2 L2 := by
    rintro a b c A B' C' ⟨l0, L0, rfl, rfl, s0⟩ ⟨l1, L1, rfl, rfl, s1⟩ ⟨l2, L2, rfl, rfl, s2⟩
    exact ⟨l0, l1, l2, L0, L1, L2, rfl, rfl, s0, s1, s2⟩
  have empty : Good shape n (some (List.replicate 0 none)) (some (List.replicate 0 none)) := ⟨[], [], rfl, rfl, List.Forall₂.nil⟩
  unfold prepareBasisF prepareBasis
  cases shape
  · exact fin (good_A R o cells .tri n hc h2 hn r0 _ rfl) (good_B R o cells .tri n hc h2 hn (by simp) (by simp) r1 (off_of f1 r1 hco ho) _ rfl) empty
  · exact fin (good_A R o cells .quad n hc h2 hn r0 _ rfl) (good_A R o cells .quad n hc h2 hn r1 _ rfl) empty
  · exact fin (good_A R o cells .hex n hc h2 hn r0 _ rfl) (good_A R o cells .hex n hc h2 hn r1 _ rfl) (good_A R o cells .hex n hc h2 hn (r2 (by simp [ThreeD])) _ rfl)
  · have h3 : ThreeD .prism := by simp [ThreeD]
    exact fin (good_A R o cells .prism n hc h2 hn r0 _ rfl) (good_A R o cells .prism n hc h2 hn r1 _ rfl)
      (good_B R o cells .prism n hc h2 hn (by simp) (by simp) (r2 h3) (off_of (f2 h3) (r2 h3) hco ho) _ rfl)
  · have h3 : ThreeD .pyr := by simp [ThreeD]
    exact fin (good_A R o cells .pyr n hc h2 hn r0 _ rfl) (good_A R o cells .pyr n hc h2 hn r1 _ rfl)
      (good_P R o cells .pyr n hc h2 hn rfl (r2 h3) (off_of (f2 h3) (r2 h3) hco ho) _ rfl)
  · have h3 : ThreeD .tet := by simp [ThreeD]
    exact fin (good_A R o cells .tet n hc h2 hn r0 _ rfl) (good_B R o cells .tet n hc h2 hn (by simp) (by simp) r1 (off_of (R.float _) r1 hco.1 ho.1) _ rfl)
      (good_C R o cells .tet n hc h2 hn (by simp) (by simp) (r2 h3) (off_of (f2 h3) (r2 h3) hco.2 ho.2) _ rfl)

theorem stored_computed (R : Rounding 53 (-1074) rnd) (o : Build) {tol : ℝ} (ht : Tolerance tol) (cells : List (Shape × ℕ)) (shape : Shape) (n : ℕ) (hc : (shape, n) ∈ cells) (h2 : 2 ≤ n)
    (hn : n ≤ 20000) (p : Particle) (hp : Stored rnd o tol cells shape n p) (h : Position rnd tol shape p.xi) : Computed tol cells shape n (basisError shape n) (bound shape n) p := by
  obtain ⟨l0, l1, l2, L0, L1, L2, e, E, s0, s1, s2⟩ := basis_error R o ht cells shape n hc h2 hn h
  obtain ⟨he, hs⟩ := hp
  rw [e] at hs
  obtain ⟨a0, a1, a2⟩ := (Prod.mk.injEq _ _ _ _ ▸ Option.some.inj hs : _ ∧ _) |>.imp id fun h => (Prod.mk.injEq _ _ _ _ ▸ h : _ ∧ _)
  have inj := List.map_injective_iff.mpr (Option.some_injective ℝ)
  have b0 := inj a0
  have b1 := inj a1
  have b2 := inj a2
  subst b0 b1 b2
  refine ⟨⟨by rw [he], by rw [he], fun _ _ => by rw [he]⟩, by rw [he]; exact h.exactOff, L0, L1, L2, E, s0, s1, s2⟩

/-- For every such position the kernels store such values. -/
theorem stored_exists (R : Rounding 53 (-1074) rnd) (o : Build) {tol : ℝ} (ht : Tolerance tol) (cells : List (Shape × ℕ)) (shape : Shape) (n : ℕ) (hc : (shape, n) ∈ cells) (h2 : 2 ≤ n)
    (hn : n ≤ 20000) (value : ℝ) (xi : ℝ × ℝ × ℝ) (h : Position rnd tol shape xi) : ∃ p, p.value = value ∧ p.xi = xi ∧ Stored rnd o tol cells shape n p := by
  obtain ⟨l0, l1, l2, L0, L1, L2, e, -⟩ := basis_error R o ht cells shape n hc h2 hn h
  exact ⟨⟨value, xi, collapse tol shape xi.1 xi.2.1 xi.2.2, l0, l1, l2⟩, rfl, rfl, rfl, e⟩

/-! ### Evaluation and projection -/

/-- **C116, evaluation.** On all shapes the value of an expansion computed entirely in floating point arithmetic is its exact value at the collapsed coordinates of the particle, up to an
explicit error. -/
theorem evaluation_error (R : Rounding 53 (-1074) rnd) (o : Build) (contract : ℕ → Bool) {tol : ℝ} (ht : Tolerance tol) (cells : List (Shape × ℕ)) (shape : Shape) (n : ℕ)
    (hc : (shape, n) ∈ cells) (h2 : 2 ≤ n) (hn : n ≤ 20000) (p : Particle) (hp : Stored rnd o tol cells shape n p) (hi : Position rnd tol shape p.xi) (dofs : List ℝ)
    (hd : dofs.length = (totalNumModesShape shape n).mode) :
    ∃ v, loopEvaluateF rnd contract shape n dofs p.l0 p.l1 p.l2 = some v ∧
      |v - dot dofs (evalModes shape n p.e.1 p.e.2.1 p.e.2.2)| ≤ sumError (basisError shape n) (bound shape n) dofs.length 0 (dofs.map (|·|)).sum :=
  C114.evaluation_error R contract (basisError_nonneg shape (by omega)) (bound_ge shape (by omega)) tol cells shape n hc h2 p (stored_computed R o ht cells shape n hc h2 hn p hp hi) dofs hd

/-- **C116, projection.** On all shapes the degrees of freedom after the particles of a cell have deposited in any order are their exact values up to an explicit error. -/
theorem projection_error (R : Rounding 53 (-1074) rnd) (o : Build) {tol : ℝ} (ht : Tolerance tol) (cells : List (Shape × ℕ)) (shape : Shape) (n : ℕ) (hc : (shape, n) ∈ cells)
    (h2 : 2 ≤ n) (hn : n ≤ 20000) (ps : List Particle) (hp : ∀ p ∈ ps, Stored rnd o tol cells shape n p ∧ Position rnd tol shape p.xi) :
    ∃ all : Particle → List (ℕ × ℝ), (∀ p ∈ ps, loopProjectF rnd shape n p.value p.l0 p.l1 p.l2 = some (all p)) ∧
      ∀ adds : List (ℕ × ℝ), adds.Perm (ps.flatMap all) → ∀ c : List ℝ, (totalNumModesShape shape n).mode ≤ c.length →
      ∃ out, applyAddsF rnd c adds = some out ∧ out.length = c.length ∧
        (∀ m < (totalNumModesShape shape n).mode,
          |out.getD m 0 - (c.getD m 0 + (ps.map fun p => p.value * (evalModes shape n p.e.1 p.e.2.1 p.e.2.2).getD m 0).sum)| ≤
          sumError (basisError shape n) (bound shape n) ps.length (c.getD m 0) (ps.map fun p => |p.value|).sum) ∧
        ∀ m, (totalNumModesShape shape n).mode ≤ m → out[m]? = c[m]? :=
  C114.projection_error R (basisError_nonneg shape (by omega)) (bound_ge shape (by omega)) tol cells shape n hc h2 ps
    (fun p h => stored_computed R o ht cells shape n hc h2 hn p (hp p h).1 (hp p h).2)

/-! ### The positions of the reference element -/

/-- The reference element of the shape. -/
def InElement : Shape → ℝ × ℝ × ℝ → Prop
  | .tri, x => InRef2 0 .tri x.1 x.2.1
  | .quad, x => InRef2 0 .quad x.1 x.2.1
  | .hex, x => InRef3 0 .hex x.1 x.2.1 x.2.2
  | .prism, x => InRef3 0 .prism x.1 x.2.1 x.2.2
  | .pyr, x => InRef3 0 .pyr x.1 x.2.1 x.2.2
  | .tet, x => InRef3 0 .tet x.1 x.2.1 x.2.2

theorem ratio_unit {tol x d : ℝ} (ht : 0 < tol) (h0 : -1 ≤ x) (h1 : 1 + x ≤ d) : |2 * (1 + x) / CoordMap.zeroGuard tol d - 1| ≤ 9 / 8 := by
  have hd : 0 ≤ d := by linarith
  have hg : d ≤ CoordMap.zeroGuard tol d ∧ 0 < CoordMap.zeroGuard tol d := by
    unfold CoordMap.zeroGuard
    rw [abs_of_nonneg hd]
    by_cases h : d < tol
    · rw [if_pos h, if_pos hd]; exact ⟨h.le, ht⟩
    · rw [if_neg h]; exact ⟨le_rfl, by linarith⟩
  have a1 : 0 ≤ 2 * (1 + x) / CoordMap.zeroGuard tol d := div_nonneg (by linarith) hg.2.le
  have a2 : 2 * (1 + x) / CoordMap.zeroGuard tol d ≤ 2 := by rw [div_le_iff₀ hg.2]; linarith [hg.1]
  rw [abs_le]; constructor <;> linarith

theorem inside_near {tol : ℝ} (ht : Tolerance tol) (shape : Shape) (xi : ℝ × ℝ × ℝ)
    (hf : IsFloat 53 (-1074) xi.1 ∧ IsFloat 53 (-1074) xi.2.1 ∧ (ThreeD shape → IsFloat 53 (-1074) xi.2.2)) (hin : InElement shape xi) : NearElement tol shape xi := by
  obtain ⟨x0, x1, x2⟩ := xi
  obtain ⟨-, t2, -⟩ := ht
  have ab : ∀ x : ℝ, -1 ≤ x → x ≤ 1 → |x| ≤ 9 / 8 := fun x h1 h2 => by rw [abs_le]; constructor <;> linarith
  refine ⟨hf, ?_, ?_⟩ <;> clear hf <;> cases shape <;> simp only [InElement, InRef2, InRef3] at hin <;> dsimp only
  all_goals try (refine ⟨ab _ (by linarith) (by linarith), ab _ (by linarith) (by linarith), fun h => ?_⟩; first | exact absurd rfl h.1 | exact absurd rfl h.2 | exact ab _ (by linarith) (by linarith))
  · simp only [collapse, tri_guard]
    exact ⟨ratio_unit t2 (by linarith) (by linarith), ab x1 (by linarith) (by linarith)⟩
  · exact ⟨ab x0 (by linarith) (by linarith), ab x1 (by linarith) (by linarith)⟩
  · exact ⟨ab x0 (by linarith) (by linarith), ab x1 (by linarith) (by linarith)⟩
  · exact ⟨ratio_unit t2 (by linarith) (by linarith), ab x1 (by linarith) (by linarith)⟩
  · exact ⟨ratio_unit t2 (by linarith) (by linarith), ratio_unit t2 (by linarith) (by linarith)⟩
  · exact ⟨ratio_unit t2 (by linarith) (by linarith), ratio_unit t2 (by linarith) (by linarith)⟩

/-- For tetrahedra: not closer than `2^-46` to the edge that is collapsed. -/
def AwayFromEdge (tol : ℝ) (shape : Shape) (xi : ℝ × ℝ × ℝ) : Prop := shape = .tet → (collapse tol shape xi.1 xi.2.1 xi.2.2).2.1 ≤ 1 - (2 : ℝ) ^ (-46 : ℤ)

/-- **C116.** All positions of the reference element whose coordinates are doubles, which are not exactly at the collapsed end, and for tetrahedra not closer than `2^-46` to it, satisfy the hypotheses. -/
theorem inside_position (R : Rounding 53 (-1074) rnd) {tol : ℝ} (ht : Tolerance tol) (shape : Shape) (xi : ℝ × ℝ × ℝ)
    (hf : IsFloat 53 (-1074) xi.1 ∧ IsFloat 53 (-1074) xi.2.1 ∧ (ThreeD shape → IsFloat 53 (-1074) xi.2.2)) (hin : InElement shape xi)
    (hoff : OffCollapsed shape (collapse tol shape xi.1 xi.2.1 xi.2.2).2.1 (collapse tol shape xi.1 xi.2.1 xi.2.2).2.2) (hedge : AwayFromEdge tol shape xi) : Position rnd tol shape xi := by
  have hn := inside_near ht shape xi hf hin
  refine ⟨hn, hoff, ?_⟩
  have he := collapse_error R ht hn
  cases shape
  · exact hoff
  · trivial
  · trivial
  · exact hoff
  · exact hoff
  · refine ⟨fun h => ?_, hoff.2⟩
    have h1 := C115.accurate_size (by norm_num) (by norm_num) he.2.1.2
    rw [h] at h1
    have h2 := (abs_le.mp h1).2
    have h3 := hedge rfl
    norm_num at h2 h3
    linarith

end Verif.Props.C116
