import Verif.Model.NanRegular
import Verif.Props.C40_Regular
import Mathlib.Tactic.NormNum
import Mathlib.Data.Real.Archimedean

/-! C119: positions with NaN and the tests of regular elements. -/

namespace Verif.Props.C119
open Verif.Model.NewtonKernel Verif.Model Verif.Spec

variable {rnd : ℝ → ℝ}

section
open NanRegular

theorem dot_nan {a b : V3 NanRegular.Num} (h : a.x = none ∨ a.y = none ∨ a.z = none) : dot3 rnd a b = none := by
  unfold dot3
  rcases h with h | h | h <;> rw [h] <;> simp [add, mul]

theorem sub_nan (a : NanRegular.Num) : sub rnd none a = none := rfl

/-- **C119, finding.** The test of regular elements in three dimensions takes every particle with a NaN coordinate to be in the element, whatever the element, and stores the reference position
`(NaN, NaN, NaN)`: the distance to the reference element is computed with comparisons that are false, so it is zero. -/
theorem nan_bound_regular_3d (tol0 ktol : ℝ) (hk : 0 ≤ ktol) (code : Shape3 → ℤ) (geomType : ℤ) (v0 v1 v2 v3 : V3 ℝ) (p : V3 NanRegular.Num) (hp : p.x = none ∨ p.y = none ∨ p.z = none) :
    accept3 rnd tol0 ktol code geomType v0 v1 v2 v3 p = some ⟨none, none, none⟩ := by
  have hd : ∀ b, dot3 rnd (sub3 rnd p (some3 v0)) b = none := fun b => dot_nan (by
    unfold sub3
    rcases hp with h | h | h <;> rw [h] <;> simp [sub_nan])
  have hx : xi3 rnd (some3 v0) (some3 v1) (some3 v2) (some3 v3) p = ⟨none, none, none⟩ := by
    simp only [xi3, hd, mul, sub, Option.bind_none]
  have he : ∃ e0 e1 : NanRegular.Num, dispatchTo3 rnd code tol0 geomType none none none = (e0, e1, none) ∧ e0 = none ∧ e1 = none := by
    refine ⟨_, _, rfl, ?_, ?_⟩
    · split_ifs <;> simp [sub, div, mul, add, NanRegular.zeroGuard]
    · split_ifs <;> simp [sub, div, mul, add, NanRegular.zeroGuard]
  obtain ⟨e0, e1, he, rfl, rfl⟩ := he
  have hex : NanRegular.excess rnd [none, none, none] = 0 := by
    unfold NanRegular.excess
    rw [if_neg (by intro h; exact (h none (by simp)).1)]
    simp [below, above, lt]
  simp only [accept3, hx, he, hex, if_pos hk]

/-- **C119, finding.** `contains_point_2d`, by which the mapping on the host tests regular elements in two dimensions, takes every position with a NaN coordinate to be in the element. -/
theorem nan_contained_2d (tol0 tol : ℝ) (ht : 0 ≤ tol) (s : Shape2) (c : ℕ → V3 ℝ) (p0 p1 : NanRegular.Num) (hp : p0 = none ∨ p1 = none) :
    NanRegular.containsPoint2 rnd tol0 tol s c p0 p1 = some (none, none) := by
  have hd : ∀ z b, dot3 rnd ⟨sub rnd p0 (some (c 0).x), sub rnd p1 (some (c 0).y), z⟩ b = none := fun z b => dot_nan (by
    rcases hp with h | h <;> rw [h] <;> simp [sub_nan])
  have hx : NanRegular.xi2 rnd (c 0) (c 1) (c (RegularMap.lastPoint s)) p0 p1 = (none, none) := by
    simp only [NanRegular.xi2, hd]
    rfl
  have he : NanRegular.eta0 rnd tol0 s none none = none := by cases s <;> simp [NanRegular.eta0, sub, div, mul, add, NanRegular.zeroGuard]
  have hex : NanRegular.excess rnd [none, none] = 0 := by
    unfold NanRegular.excess
    rw [if_neg (by intro h; exact (h none (by simp)).1)]
    simp [below, above, lt]
  simp only [NanRegular.containsPoint2, hx, he, hex, if_pos ht]

/-- **C119, what holds.** The test of regular elements in two dimensions on the device rejects every particle with a NaN coordinate. -/
theorem nan_rejected_regular_2d_partial (tol0 ktol : ℝ) (s : Shape2) (v0 v1 v2 : V3 ℝ) (p0 p1 : NanRegular.Num) (hp : p0 = none ∨ p1 = none) : NanRegular.accept2 rnd tol0 ktol s v0 v1 v2 p0 p1 = none := by
  have hd : ∀ z b, dot3 rnd ⟨sub rnd p0 (some v0.x), sub rnd p1 (some v0.y), z⟩ b = none := fun z b => dot_nan (by
    rcases hp with h | h <;> rw [h] <;> simp [sub_nan])
  have hx : NanRegular.xi2 rnd v0 v1 v2 p0 p1 = (none, none) := by
    simp only [NanRegular.xi2, hd]
    rfl
  simp only [NanRegular.accept2, hx]
  rw [if_neg]
  rintro ⟨-, -, h, -⟩
  rw [hx] at h
  exact h

/-! ### Numbers -/

/-- Without rounding and for positions that are numbers the test in three dimensions is the one of C40. -/
theorem regular_3d_of_numbers (tol0 ktol : ℝ) (h0 : 0 < tol0) (code : Shape3 → ℤ) (geomType : ℤ) (v0 v1 v2 v3 p : V3 ℝ)
    (hV : NewtonElements.dot (NewtonElements.sub v3 v0) (NewtonElements.cross (NewtonElements.sub v1 v0) (NewtonElements.sub v2 v0)) ≠ 0) :
    accept3 id tol0 ktol code geomType v0 v1 v2 v3 (some3 p) = (RegularMap.accept3 tol0 ktol code geomType v0 v1 v2 v3 p).map some3 := by
  have hs : ∀ a b : V3 ℝ, sub3 id (some3 a) (some3 b) = some3 (NewtonElements.sub a b) := fun _ _ => rfl
  have hc : ∀ a b : V3 ℝ, cross3 id (some3 a) (some3 b) = some3 (NewtonElements.cross a b) := fun _ _ => rfl
  have hd : ∀ a b : V3 ℝ, dot3 id (some3 a) (some3 b) = some (NewtonElements.dot a b) := fun _ _ => rfl
  have hdiv : ∀ a b : ℝ, b ≠ 0 → div id (some a) (some b) = some (a / b) := fun a b h => by simp [div, h]
  have hx : xi3 id (some3 v0) (some3 v1) (some3 v2) (some3 v3) (some3 p) = some3 (RegularMap.xi3 v0 v1 v2 v3 p) := by
    simp only [xi3, hs, hc, hd, hdiv _ _ hV]
    rfl
  have hg : ∀ d : ℝ, CoordMap.zeroGuard tol0 d ≠ 0 := fun d => by
    unfold CoordMap.zeroGuard
    split_ifs with h1 h2
    · exact h0.ne'
    · exact neg_ne_zero.2 h0.ne'
    · rintro rfl; exact h1 (by simpa using h0)
  have he : ∀ x0 x1 x2 : ℝ, dispatchTo3 id code tol0 geomType (some x0) (some x1) (some x2) =
      (some (CoordMap.dispatchTo3 code tol0 geomType x0 x1 x2).1, some (CoordMap.dispatchTo3 code tol0 geomType x0 x1 x2).2.1, some (CoordMap.dispatchTo3 code tol0 geomType x0 x1 x2).2.2) := by
    intro x0 x1 x2
    have h2 : div id (some 2) (NanRegular.zeroGuard tol0 (sub id (some 1) (some x2))) = some (2 / CoordMap.zeroGuard tol0 (1 - x2)) := hdiv _ _ (hg _)
    have h12 : ∀ a : ℝ, div id (some a) (NanRegular.zeroGuard tol0 (sub id ((some x1).map fun x => -x) (some x2))) = some (a / CoordMap.zeroGuard tol0 (-x1 - x2)) := fun a => hdiv _ _ (hg _)
    have hm : mul id (some 2) (add id (some 1) (some x0)) = some (2 * (1 + x0)) := rfl
    simp only [dispatchTo3, h2, hm, h12]
    simp only [CoordMap.dispatchTo3]
    refine Prod.ext ?_ (Prod.ext ?_ rfl) <;> dsimp only <;> split_ifs <;> rfl
  have hex : ∀ e0 e1 e2 : ℝ, NanRegular.excess id [some e0, some e1, some e2] = RegularMap.excess [e0, e1, e2] := by
    intro e0 e1 e2
    unfold NanRegular.excess RegularMap.excess
    have hb : ∀ e : ℝ, below id (some e) = if e < -1 then -1 - e else 0 := fun e => rfl
    have ha : ∀ e : ℝ, above id (some e) = if e > 1 then e - 1 else 0 := fun e => rfl
    simp only [List.forall_mem_cons, List.foldl_cons, List.foldl_nil, hb, ha, NanRegular.le]
    congr 1
    simp
  unfold accept3 RegularMap.accept3
  dsimp only
  rw [hx]
  have hy : ∀ v : V3 ℝ, dispatchTo3 id code tol0 geomType (some3 v).x (some3 v).y (some3 v).z = _ := fun v => he v.x v.y v.z
  rw [hy, hex]
  by_cases h : RegularMap.excess [(CoordMap.dispatchTo3 code tol0 geomType (RegularMap.xi3 v0 v1 v2 v3 p).x (RegularMap.xi3 v0 v1 v2 v3 p).y (RegularMap.xi3 v0 v1 v2 v3 p).z).1,
    (CoordMap.dispatchTo3 code tol0 geomType (RegularMap.xi3 v0 v1 v2 v3 p).x (RegularMap.xi3 v0 v1 v2 v3 p).y (RegularMap.xi3 v0 v1 v2 v3 p).z).2.1,
    (CoordMap.dispatchTo3 code tol0 geomType (RegularMap.xi3 v0 v1 v2 v3 p).x (RegularMap.xi3 v0 v1 v2 v3 p).y (RegularMap.xi3 v0 v1 v2 v3 p).z).2.2] ≤ ktol
  · rw [if_pos h, if_pos h]; rfl
  · rw [if_neg h, if_neg h]; rfl

/-- A particle at `(NaN, 0, 0)` and a hexahedron far from any such point. -/
example : accept3 id (1 / 10 ^ 12) (1 / 10 ^ 8) (fun s => match s with | .tet => 5 | .pyr => 6 | .prism => 7 | .hex => 8) 8 ⟨1, 1, 1⟩ ⟨2, 1, 1⟩ ⟨1, 2, 1⟩ ⟨1, 1, 2⟩ ⟨none, some 0, some 0⟩ =
    some ⟨none, none, none⟩ := nan_bound_regular_3d _ _ (by norm_num) _ _ _ _ _ _ _ (.inl rfl)

end

end Verif.Props.C119
