import Verif.Model.RegularMap
import Verif.Props.C41_Embedded
import Verif.Props.C33_FindCells

/-! C40: the test of regular elements. -/

namespace Verif.Props.C40
open Verif.Spec (Shape2 Shape3 InRef2 InRef3 InUnit)
open Verif.Spec.Embedded Verif.Model Verif.Model.NewtonKernel Verif.Model.NewtonElements Verif.Model.RegularMap Verif.Model.CoordMap
open Verif.Spec.LinearElements
open Verif.Props.C39 (AffineImage)

variable {K : Type*} [Field K] [LinearOrder K] [IsStrictOrderedRing K]

/-! ### Statement -/

/-- The map of a triangle or a quadrilateral of the plane. -/
def point2 (s : Shape2) (c : ℕ → V3 K) (a b : K) : K × K :=
  match s with
  | .tri => ((triPoint c a b).x, (triPoint c a b).y)
  | .quad => ((quadPoint c a b).x, (quadPoint c a b).y)

/-- A regular element of the plane: the edges at the first vertex are independent, and a quadrilateral is a parallelogram. -/
def Regular2 (s : Shape2) (c : ℕ → V3 K) : Prop :=
  ((c 1).x - (c 0).x) * ((c (lastPoint s)).y - (c 0).y) - ((c 1).y - (c 0).y) * ((c (lastPoint s)).x - (c 0).x) ≠ 0 ∧
    (s = .quad → (c 0).x + (c 2).x = (c 1).x + (c 3).x ∧ (c 0).y + (c 2).y = (c 1).y + (c 3).y)

/-- The point is in the element enlarged by `e` (in local coordinates). -/
def InElement2 (e : K) (s : Shape2) (c : ℕ → V3 K) (p0 p1 : K) : Prop := ∃ a b, InRef2 e s a b ∧ point2 s c a b = (p0, p1)

/-- As `InElement2` in three dimensions, for the image of the reference element under `ξ ↦ A ξ + b`. -/
def InElement3 (e : K) (s : Shape3) (A : Matrix (Fin 3) (Fin 3) K) (b : Fin 3 → K) (p : V3 K) : Prop :=
  ∃ w : V3 K, InRef3 e s w.x w.y w.z ∧ V3.get p = A.mulVec (V3.get w) + b

/-- The shapes as used for the maps of elements. -/
def shape : Shape3 → Verif.Spec.LinearElements.Shape
  | .tet => .tet
  | .pyr => .pyr
  | .prism => .prism
  | .hex => .hex

/-! ### Local coordinates -/

theorem xi2_eq (s : Shape2) (c : ℕ → V3 K) (h : Regular2 s c) (a b : K) :
    xi2 (c 0) (c 1) (c (lastPoint s)) (point2 s c a b).1 (point2 s c a b).2 = (a, b) := by
  obtain ⟨hd, hp⟩ := h
  have e : (point2 s c a b).1 - (c 0).x = (1 + a) / 2 * ((c 1).x - (c 0).x) + (1 + b) / 2 * ((c (lastPoint s)).x - (c 0).x) ∧
      (point2 s c a b).2 - (c 0).y = (1 + a) / 2 * ((c 1).y - (c 0).y) + (1 + b) / 2 * ((c (lastPoint s)).y - (c 0).y) := by
    cases s with
    | tri =>
      simp only [point2, triPoint, weightedFrom, lastPoint]
      constructor <;> ring
    | quad =>
      obtain ⟨h1, h2⟩ := hp rfl
      simp only [point2, quadPoint, X, weights, weightedFrom, lastPoint]
      constructor
      · linear_combination (1 + a) / 2 * ((1 + b) / 2) * h1
      · linear_combination (1 + a) / 2 * ((1 + b) / 2) * h2
  unfold xi2
  dsimp only
  rw [e.1, e.2]
  generalize (c 1).x - (c 0).x = ux at hd ⊢
  generalize (c 1).y - (c 0).y = uy at hd ⊢
  generalize (c (lastPoint s)).x - (c 0).x = vx at hd ⊢
  generalize (c (lastPoint s)).y - (c 0).y = vy at hd ⊢
  have d0 : dot (⟨ux, uy, 0⟩ : V3 K) (cross (cross ⟨ux, uy, 0⟩ ⟨vx, vy, 0⟩) ⟨vx, vy, 0⟩) = -(ux * vy - uy * vx) ^ 2 := by
    simp only [dot, cross]; ring
  have d1 : dot (⟨vx, vy, 0⟩ : V3 K) (cross (cross ⟨ux, uy, 0⟩ ⟨vx, vy, 0⟩) ⟨ux, uy, 0⟩) = (ux * vy - uy * vx) ^ 2 := by
    simp only [dot, cross]; ring
  have n0 : dot (⟨(1 + a) / 2 * ux + (1 + b) / 2 * vx, (1 + a) / 2 * uy + (1 + b) / 2 * vy, 0⟩ : V3 K) (cross (cross ⟨ux, uy, 0⟩ ⟨vx, vy, 0⟩) ⟨vx, vy, 0⟩) =
      (1 + a) / 2 * (-(ux * vy - uy * vx) ^ 2) := by simp only [dot, cross]; ring
  have n1 : dot (⟨(1 + a) / 2 * ux + (1 + b) / 2 * vx, (1 + a) / 2 * uy + (1 + b) / 2 * vy, 0⟩ : V3 K) (cross (cross ⟨ux, uy, 0⟩ ⟨vx, vy, 0⟩) ⟨ux, uy, 0⟩) =
      (1 + b) / 2 * (ux * vy - uy * vx) ^ 2 := by simp only [dot, cross]; ring
  have hsq : (ux * vy - uy * vx) ^ 2 ≠ 0 := pow_ne_zero 2 hd
  rw [d0, d1, n0, n1, mul_div_assoc, div_self (neg_ne_zero.2 hsq), mul_div_assoc, div_self hsq]
  simp only [Prod.mk.injEq]
  constructor <;> ring

/-- Every point of the plane is the image of its local coordinates. -/
theorem point2_surj (s : Shape2) (c : ℕ → V3 K) (h : Regular2 s c) (p0 p1 : K) : ∃ a b, point2 s c a b = (p0, p1) := by
  obtain ⟨hd, hp⟩ := h
  set D := ((c 1).x - (c 0).x) * ((c (lastPoint s)).y - (c 0).y) - ((c 1).y - (c 0).y) * ((c (lastPoint s)).x - (c 0).x) with hD
  obtain ⟨y, hy⟩ : ∃ y, y * D = 1 := ⟨D⁻¹, inv_mul_cancel₀ hd⟩
  refine ⟨2 * (y * ((p0 - (c 0).x) * ((c (lastPoint s)).y - (c 0).y) - (p1 - (c 0).y) * ((c (lastPoint s)).x - (c 0).x))) - 1,
    2 * (y * (((c 1).x - (c 0).x) * (p1 - (c 0).y) - ((c 1).y - (c 0).y) * (p0 - (c 0).x))) - 1, ?_⟩
  rw [hD] at hy
  cases s with
  | tri =>
    simp only [point2, triPoint, weightedFrom, lastPoint, Prod.mk.injEq] at hy ⊢
    constructor
    · linear_combination (p0 - (c 0).x) * hy
    · linear_combination (p1 - (c 0).y) * hy
  | quad =>
    obtain ⟨h1, h2⟩ := hp rfl
    simp only [point2, quadPoint, X, weights, weightedFrom, lastPoint, Prod.mk.injEq] at hy ⊢
    set a := y * ((p0 - (c 0).x) * ((c 3).y - (c 0).y) - (p1 - (c 0).y) * ((c 3).x - (c 0).x)) with ha
    set b := y * (((c 1).x - (c 0).x) * (p1 - (c 0).y) - ((c 1).y - (c 0).y) * (p0 - (c 0).x)) with hb
    constructor
    · linear_combination a * b * h1 + (p0 - (c 0).x) * hy + ((c 1).x - (c 0).x) * ha + ((c 3).x - (c 0).x) * hb
    · linear_combination a * b * h2 + (p1 - (c 0).y) * hy + ((c 1).y - (c 0).y) * ha + ((c 3).y - (c 0).y) * hb

/-- **C40, two dimensions, reference position.** The local coordinates computed for a point of the plane are mapped back to it, and are the only ones. -/
theorem xi2_iff (s : Shape2) (c : ℕ → V3 K) (h : Regular2 s c) (p0 p1 a b : K) :
    xi2 (c 0) (c 1) (c (lastPoint s)) p0 p1 = (a, b) ↔ point2 s c a b = (p0, p1) := by
  constructor
  · intro he
    obtain ⟨a', b', hp⟩ := point2_surj s c h p0 p1
    have := xi2_eq s c h a' b'
    rw [hp] at this
    rw [this] at he
    simp only [Prod.mk.injEq] at he
    rw [← he.1, ← he.2, hp]
  · intro hp
    have := xi2_eq s c h a b
    rwa [hp] at this

theorem xi3_eq (s : Shape3) {A : Matrix (Fin 3) (Fin 3) K} {b : Fin 3 → K} {c : ℕ → V3 K} (h : AffineImage (shape s) A b c) (hdet : A.det ≠ 0) (w p : V3 K)
    (hp : V3.get p = A.mulVec (V3.get w) + b) : xi3 (c ((indexV s).getD 0 0)) (c ((indexV s).getD 1 0)) (c ((indexV s).getD 2 0)) (c ((indexV s).getD 3 0)) p = w := by
  have e0 : c ((indexV s).getD 0 0) = _ := Verif.Props.C39.components (h ((indexV s).getD 0 0) ⟨-1, -1, -1⟩ (by cases s <;> rfl))
  have e1 : c ((indexV s).getD 1 0) = _ := Verif.Props.C39.components (h ((indexV s).getD 1 0) ⟨1, -1, -1⟩ (by cases s <;> rfl))
  have e2 : c ((indexV s).getD 2 0) = _ := Verif.Props.C39.components (h ((indexV s).getD 2 0) ⟨-1, 1, -1⟩ (by cases s <;> rfl))
  have e3 : c ((indexV s).getD 3 0) = _ := Verif.Props.C39.components (h ((indexV s).getD 3 0) ⟨-1, -1, 1⟩ (by cases s <;> rfl))
  have ep := Verif.Props.C39.components hp
  rw [e0, e1, e2, e3, ep]
  rw [Matrix.det_fin_three] at hdet
  obtain ⟨w0, w1, w2⟩ := w
  simp only [xi3]
  set D := dot (sub (⟨A 0 0 * -1 + A 0 1 * -1 + A 0 2 * 1 + b 0, A 1 0 * -1 + A 1 1 * -1 + A 1 2 * 1 + b 1, A 2 0 * -1 + A 2 1 * -1 + A 2 2 * 1 + b 2⟩ : V3 K) ⟨A 0 0 * -1 + A 0 1 * -1 + A 0 2 * -1 + b 0, A 1 0 * -1 + A 1 1 * -1 + A 1 2 * -1 + b 1, A 2 0 * -1 + A 2 1 * -1 + A 2 2 * -1 + b 2⟩)
    (cross (sub ⟨A 0 0 * 1 + A 0 1 * -1 + A 0 2 * -1 + b 0, A 1 0 * 1 + A 1 1 * -1 + A 1 2 * -1 + b 1, A 2 0 * 1 + A 2 1 * -1 + A 2 2 * -1 + b 2⟩ ⟨A 0 0 * -1 + A 0 1 * -1 + A 0 2 * -1 + b 0, A 1 0 * -1 + A 1 1 * -1 + A 1 2 * -1 + b 1, A 2 0 * -1 + A 2 1 * -1 + A 2 2 * -1 + b 2⟩)
      (sub ⟨A 0 0 * -1 + A 0 1 * 1 + A 0 2 * -1 + b 0, A 1 0 * -1 + A 1 1 * 1 + A 1 2 * -1 + b 1, A 2 0 * -1 + A 2 1 * 1 + A 2 2 * -1 + b 2⟩ ⟨A 0 0 * -1 + A 0 1 * -1 + A 0 2 * -1 + b 0, A 1 0 * -1 + A 1 1 * -1 + A 1 2 * -1 + b 1, A 2 0 * -1 + A 2 1 * -1 + A 2 2 * -1 + b 2⟩)) with hD
  have hD' : D = 8 * (A 0 0 * A 1 1 * A 2 2 - A 0 0 * A 1 2 * A 2 1 - A 0 1 * A 1 0 * A 2 2 + A 0 1 * A 1 2 * A 2 0 + A 0 2 * A 1 0 * A 2 1
      - A 0 2 * A 1 1 * A 2 0) := by
    rw [hD]
    simp only [dot, cross, sub]
    ring
  have hne : D ≠ 0 := by rw [hD']; exact mul_ne_zero (by norm_num) hdet
  obtain ⟨y, hy⟩ : ∃ y, y * D = 1 := ⟨D⁻¹, inv_mul_cancel₀ hne⟩
  have h2 : 2 / D = 2 * y := by rw [div_eq_iff hne, mul_assoc, hy, mul_one]
  rw [h2]
  rw [hD'] at hy
  clear_value D
  simp only [dot, cross, sub, V3.mk.injEq]
  refine ⟨?_, ?_, ?_⟩
  · linear_combination (w0 + 1) * hy
  · linear_combination (w1 + 1) * hy
  · linear_combination (w2 + 1) * hy

/-- **C40, three dimensions, reference position.** -/
theorem xi3_iff (s : Shape3) {A : Matrix (Fin 3) (Fin 3) K} {b : Fin 3 → K} {c : ℕ → V3 K} (h : AffineImage (shape s) A b c) (hdet : A.det ≠ 0) (w p : V3 K) :
    xi3 (c ((indexV s).getD 0 0)) (c ((indexV s).getD 1 0)) (c ((indexV s).getD 2 0)) (c ((indexV s).getD 3 0)) p = w ↔ V3.get p = A.mulVec (V3.get w) + b := by
  constructor
  · intro he
    have hu : IsUnit A.det := isUnit_iff_ne_zero.2 hdet
    let w' : V3 K := ⟨A⁻¹.mulVec (V3.get p - b) 0, A⁻¹.mulVec (V3.get p - b) 1, A⁻¹.mulVec (V3.get p - b) 2⟩
    have hw' : V3.get w' = A⁻¹.mulVec (V3.get p - b) := by
      funext i
      fin_cases i <;> rfl
    have hp : V3.get p = A.mulVec (V3.get w') + b := by
      rw [hw', Matrix.mulVec_mulVec, Matrix.mul_nonsing_inv _ hu, Matrix.one_mulVec, sub_add_cancel]
    rw [xi3_eq s h hdet w' p hp] at he
    rw [← he]
    exact hp
  · exact xi3_eq s h hdet w p

/-! ### Containment -/

/-- The excess is within `t` exactly when all coordinates are in `[-1 - t, 1 + t]`. -/
theorem excess_le (l : List K) (t : K) (ht : 0 ≤ t) : excess l ≤ t ↔ ∀ e ∈ l, -1 - t ≤ e ∧ e ≤ 1 + t := by
  have key : ∀ (l : List K) (d : K), l.foldl (fun d e => max (max d (if e < -1 then -1 - e else 0)) (if e > 1 then e - 1 else 0)) d ≤ t ↔
      d ≤ t ∧ ∀ e ∈ l, -1 - t ≤ e ∧ e ≤ 1 + t := by
    intro l
    induction l with
    | nil => simp
    | cons x l ih =>
      intro d
      rw [List.foldl_cons, ih, max_le_iff, max_le_iff]
      have h1 : (if x < -1 then -1 - x else 0) ≤ t ↔ -1 - t ≤ x := by
        split_ifs with h
        · constructor <;> intro <;> linarith
        · constructor
          · intro; linarith [not_lt.1 h]
          · intro; exact ht
      have h2 : (if x > 1 then x - 1 else 0) ≤ t ↔ x ≤ 1 + t := by
        split_ifs with h
        · constructor <;> intro <;> linarith
        · constructor
          · intro; linarith [not_lt.1 h]
          · intro; exact ht
      rw [h1, h2]
      simp only [List.mem_cons, forall_eq_or_imp]
      tauto
  unfold excess
  split_ifs with h
  · constructor
    · intro _ e he
      have := h e he
      constructor <;> linarith [this.1, this.2]
    · intro _; exact ht
  · rw [key]
    simp [ht]

theorem eta2_eq (tol0 : K) (s : Shape2) (a b : K) : eta2 tol0 s a b = toCollapsed2 tol0 s a b := by
  cases s with
  | quad => rfl
  | tri =>
    simp only [eta2, toCollapsed2, Verif.Props.C07.triTo_eq, zeroGuard]

/-- Host and device agree: `contains_point_2d` accepts exactly when the kernel does, with the same position. -/
theorem host_device_agree (tol0 t : K) (ht : 0 ≤ t) (s : Shape2) (c : ℕ → V3 K) (p0 p1 : K) :
    containsPoint2 tol0 t s c p0 p1 = accept2 tol0 t s (c 0, c 1, c (lastPoint s)) p0 p1 := by
  unfold containsPoint2 accept2 getLocalCoords2
  dsimp only
  refine if_congr ?_ rfl rfl
  rw [excess_le _ t ht]
  simp only [List.mem_cons, List.not_mem_nil, or_false, forall_eq_or_imp, forall_eq]
  tauto

/-- Bounds for a coordinate computed from a collapsed coordinate within tolerance `t`. -/
theorem collapsed_bounds (tol0 t a d y : K) (h0 : 0 < tol0) (ht : 0 ≤ t) (ha : tol0 ≤ a) (hta : t ≤ a) (h1 : t ≤ 1) (h2 : tol0 ≤ 1) (hd : -a ≤ d) (hd6 : d ≤ 6)
    (hlo : -1 - t ≤ 2 * y / zeroGuard tol0 d - 1) (hhi : 2 * y / zeroGuard tol0 d - 1 ≤ 1 + t) : -(4 * a) ≤ y ∧ y ≤ d + 5 * a := by
  set g := zeroGuard tol0 d with hg
  have hgne : g ≠ 0 := by
    rcases Verif.Props.C08.zeroGuard_cases tol0 d h0 with ⟨h, h' | h'⟩ | ⟨h, _, _⟩ | ⟨h, _, _⟩ <;> rw [hg, h] <;> intro hz <;> linarith
  have hcase : (0 < g ∧ g ≤ d + tol0 ∧ g ≤ 7) ∨ (g < 0 ∧ -a ≤ g) := by
    rcases Verif.Props.C08.zeroGuard_cases tol0 d h0 with ⟨h, h' | h'⟩ | ⟨h, h', h''⟩ | ⟨h, h', h''⟩ <;> rw [hg, h]
    · exact Or.inl ⟨by linarith, by linarith, by linarith⟩
    · exact Or.inr ⟨by linarith, by linarith⟩
    · exact Or.inl ⟨by linarith, by linarith, by linarith⟩
    · exact Or.inr ⟨by linarith, by linarith⟩
  obtain ⟨e, he⟩ : ∃ e, 2 * y / g = e := ⟨_, rfl⟩
  rw [he] at hlo hhi
  have hy : y = e * g / 2 := by
    rw [← he]
    field_simp
  rcases hcase with ⟨hp, hq, h7⟩ | ⟨hn, hq⟩
  · have k1 : -t * g ≤ e * g := mul_le_mul_of_nonneg_right (by linarith) hp.le
    have k2 : e * g ≤ (2 + t) * g := mul_le_mul_of_nonneg_right (by linarith) hp.le
    have k3 : t * g ≤ t * 7 := mul_le_mul_of_nonneg_left h7 ht
    constructor
    · rw [hy]; nlinarith
    · rw [hy]; nlinarith
  · have k1 : (2 + t) * g ≤ e * g := mul_le_mul_of_nonpos_right (by linarith) hn.le
    have k2 : e * g ≤ -t * g := mul_le_mul_of_nonpos_right (by linarith) hn.le
    have k3 : t * -g ≤ 1 * -g := mul_le_mul_of_nonneg_right h1 (by linarith)
    constructor
    · rw [hy]; nlinarith
    · rw [hy]; nlinarith

/-- Local coordinates whose collapsed coordinates are within tolerance are in the enlarged reference element. -/
theorem tolerance_2d (tol0 t : K) (h0 : 0 < tol0) (ht : 0 ≤ t) (hs : t + tol0 ≤ 1 / 10) (s : Shape2) (x0 x1 : K)
    (h : (fun e : K × K => (-1 - t ≤ e.1 ∧ e.1 ≤ 1 + t) ∧ (-1 - t ≤ e.2 ∧ e.2 ≤ 1 + t)) (toCollapsed2 tol0 s x0 x1)) : InRef2 (5 * (t + tol0)) s x0 x1 := by
  cases s with
  | quad =>
    simp only [toCollapsed2, quadToCollapsed] at h
    exact ⟨⟨by linarith [h.1.1], by linarith [h.1.2]⟩, ⟨by linarith [h.2.1], by linarith [h.2.2]⟩⟩
  | tri =>
    simp only [toCollapsed2, Verif.Props.C07.triTo_eq] at h
    have := collapsed_bounds tol0 t (t + tol0) (1 - x1) (1 + x0) h0 ht (by linarith) (by linarith) (by linarith) (by linarith)
      (by linarith [h.2.2]) (by linarith [h.2.1]) h.1.1 h.1.2
    exact ⟨by linarith [this.1], by linarith [h.2.1], by linarith [this.2]⟩

theorem tolerance_3d (tol0 t : K) (h0 : 0 < tol0) (ht : 0 ≤ t) (hs : t + tol0 ≤ 1 / 10) (s : Shape3) (x0 x1 x2 : K)
    (h : (fun e : K × K × K => (-1 - t ≤ e.1 ∧ e.1 ≤ 1 + t) ∧ (-1 - t ≤ e.2.1 ∧ e.2.1 ≤ 1 + t) ∧ (-1 - t ≤ e.2.2 ∧ e.2.2 ≤ 1 + t)) (toCollapsed3 tol0 s x0 x1 x2)) :
    InRef3 (25 * (t + tol0)) s x0 x1 x2 := by
  have cb := fun d y => collapsed_bounds tol0 t (t + tol0) d y h0 ht (by linarith) (by linarith) (by linarith) (by linarith)
  cases s with
  | hex =>
    simp only [toCollapsed3, hexToCollapsed] at h
    exact ⟨⟨by linarith [h.1.1], by linarith [h.1.2]⟩, ⟨by linarith [h.2.1.1], by linarith [h.2.1.2]⟩, ⟨by linarith [h.2.2.1], by linarith [h.2.2.2]⟩⟩
  | prism =>
    simp only [toCollapsed3, prismToCollapsed] at h
    obtain ⟨a, b, c⟩ := h
    have := cb (1 - x2) (1 + x0) (by linarith [c.2]) (by linarith [c.1]) a.1 a.2
    exact ⟨by linarith [this.1], ⟨by linarith [b.1], by linarith [b.2]⟩, by linarith [c.1], by linarith [this.2]⟩
  | pyr =>
    simp only [toCollapsed3, pyrToCollapsed] at h
    obtain ⟨a, b, c⟩ := h
    have k0 := cb (1 - x2) (1 + x0) (by linarith [c.2]) (by linarith [c.1]) a.1 a.2
    have k1 := cb (1 - x2) (1 + x1) (by linarith [c.2]) (by linarith [c.1]) b.1 b.2
    exact ⟨by linarith [k0.1], by linarith [k1.1], by linarith [c.1], by linarith [k0.2], by linarith [k1.2]⟩
  | tet =>
    simp only [toCollapsed3, tetToCollapsed] at h
    obtain ⟨a, b, c⟩ := h
    have k1 := cb (1 - x2) (1 + x1) (by linarith [c.2]) (by linarith [c.1]) b.1 b.2
    have k0 := collapsed_bounds tol0 t (5 * (t + tol0)) (-x1 - x2) (1 + x0) h0 ht (by linarith) (by linarith) (by linarith) (by linarith)
      (by linarith [k1.2]) (by linarith [k1.1, c.1]) a.1 a.2
    exact ⟨by linarith [k0.1], by linarith [k1.1], by linarith [c.1], by linarith [k0.2]⟩

/-- **C40, two dimensions.** For all regular triangles and quadrilaterals, tolerances and points: a point of the element is accepted; an accepted
point is in the element enlarged by `5 (tol + kNekZeroTol)`; the position written is mapped to the point. -/
theorem regular_2d (tol0 t : K) (h0 : 0 < tol0) (ht : 0 ≤ t) (s : Shape2) (c : ℕ → V3 K) (h : Regular2 s c) (p0 p1 : K) :
    (InElement2 0 s c p0 p1 → (accept2 tol0 t s (c 0, c 1, c (lastPoint s)) p0 p1).isSome) ∧
    (t + tol0 ≤ 1 / 10 → (accept2 tol0 t s (c 0, c 1, c (lastPoint s)) p0 p1).isSome → InElement2 (5 * (t + tol0)) s c p0 p1) ∧
    ∀ x, accept2 tol0 t s (c 0, c 1, c (lastPoint s)) p0 p1 = some x → point2 s c x.1 x.2 = (p0, p1) := by
  obtain ⟨a, b, hp⟩ := point2_surj s c h p0 p1
  have hx := (xi2_iff s c h p0 p1 a b).2 hp
  unfold accept2
  dsimp only
  rw [hx]
  dsimp only
  rw [eta2_eq]
  refine ⟨?_, ?_, ?_⟩
  · rintro ⟨a', b', hr, hp'⟩
    have := (xi2_iff s c h p0 p1 a' b').2 hp'
    rw [hx, Prod.mk.injEq] at this
    obtain ⟨rfl, rfl⟩ := this
    have hu := (Verif.Props.C08.element_unit_collapsed_2d tol0 h0 s a b).1 hr
    rw [if_pos]
    · simp
    · exact ⟨by linarith [hu.1.1], by linarith [hu.1.2], by linarith [hu.2.1], by linarith [hu.2.2]⟩
  · intro hs hsome
    split_ifs at hsome with hc
    · exact ⟨a, b, tolerance_2d tol0 t h0 ht hs s a b ⟨⟨hc.1, hc.2.1⟩, hc.2.2.1, hc.2.2.2⟩, hp⟩
    · simp at hsome
  · intro x hsome
    split_ifs at hsome with hc
    rw [Option.some.injEq] at hsome
    subst hsome
    exact hp

/-- **C40, three dimensions.** As `regular_2d` for the affine tetrahedra, pyramids, prisms and hexahedra; the codes of the shapes are distinct. -/
theorem regular_3d (tol0 t : K) (h0 : 0 < tol0) (ht : 0 ≤ t) (code : Shape3 → ℤ) (hcode : Function.Injective code) (s : Shape3)
    {A : Matrix (Fin 3) (Fin 3) K} {b : Fin 3 → K} {c : ℕ → V3 K} (h : AffineImage (shape s) A b c) (hdet : A.det ≠ 0) (p : V3 K) :
    let r := accept3 tol0 t code (code s) (c ((indexV s).getD 0 0)) (c ((indexV s).getD 1 0)) (c ((indexV s).getD 2 0)) (c ((indexV s).getD 3 0)) p
    (InElement3 0 s A b p → r.isSome) ∧ (t + tol0 ≤ 1 / 10 → r.isSome → InElement3 (25 * (t + tol0)) s A b p) ∧
    ∀ x, r = some x → V3.get p = A.mulVec (V3.get x) + b := by
  intro r
  obtain ⟨w, hw⟩ : ∃ w, xi3 (c ((indexV s).getD 0 0)) (c ((indexV s).getD 1 0)) (c ((indexV s).getD 2 0)) (c ((indexV s).getD 3 0)) p = w := ⟨_, rfl⟩
  have hp := (xi3_iff s h hdet w p).1 hw
  have hr : r = if excess [(toCollapsed3 tol0 s w.x w.y w.z).1, (toCollapsed3 tol0 s w.x w.y w.z).2.1, (toCollapsed3 tol0 s w.x w.y w.z).2.2] ≤ t
      then some w else none := by
    have hc2 : Function.Injective (fun s : Shape2 => if s = .tri then (0 : ℤ) else 1) := by intro a b hab; cases a <;> cases b <;> simp at hab ⊢
    have hd := ((Verif.Props.C07.dispatch_selects_shape tol0 code hcode _ hc2).1 s w.x w.y w.z).1
    show accept3 _ _ _ _ _ _ _ _ _ = _
    unfold accept3
    dsimp only
    rw [hw, hd]
  rw [hr]
  refine ⟨?_, ?_, ?_⟩
  · rintro ⟨w', hr, hp'⟩
    have := (xi3_iff s h hdet w' p).2 hp'
    rw [hw] at this
    subst this
    have hu := Verif.Props.C08.element_has_unit_collapsed_3d tol0 h0 s w.x w.y w.z hr
    rw [if_pos]
    · simp
    · rw [excess_le _ t ht]
      simp only [List.mem_cons, List.not_mem_nil, or_false, forall_eq_or_imp, forall_eq]
      exact ⟨⟨by linarith [hu.1.1], by linarith [hu.1.2]⟩, ⟨by linarith [hu.2.1.1], by linarith [hu.2.1.2]⟩, by linarith [hu.2.2.1], by linarith [hu.2.2.2]⟩
  · intro hs hsome
    split_ifs at hsome with hc
    · rw [excess_le _ t ht] at hc
      simp only [List.mem_cons, List.not_mem_nil, or_false, forall_eq_or_imp, forall_eq] at hc
      exact ⟨w, tolerance_3d tol0 t h0 ht hs s _ _ _ hc, hp⟩
    · simp at hsome
  · intro x hsome
    split_ifs at hsome with hc
    rw [Option.some.injEq] at hsome
    subst hsome
    exact hp

/-- With the default tolerance `0` of the 3D mapping the test is exact away from the collapsed vertex or edge. -/
theorem regular_3d_exact (tol0 : K) (h0 : 0 < tol0) (code : Shape3 → ℤ) (hcode : Function.Injective code) (s : Shape3)
    {A : Matrix (Fin 3) (Fin 3) K} {b : Fin 3 → K} {c : ℕ → V3 K} (h : AffineImage (shape s) A b c) (hdet : A.det ≠ 0) (w p : V3 K)
    (hp : V3.get p = A.mulVec (V3.get w) + b) (hr : Verif.Props.C07.Regular3 tol0 s w.x w.y w.z) :
    accept3 tol0 0 code (code s) (c ((indexV s).getD 0 0)) (c ((indexV s).getD 1 0)) (c ((indexV s).getD 2 0)) (c ((indexV s).getD 3 0)) p = some w ↔
      InRef3 0 s w.x w.y w.z := by
  have hw := (xi3_iff s h hdet w p).2 hp
  have hc2 : Function.Injective (fun s : Shape2 => if s = .tri then (0 : ℤ) else 1) := by intro a b hab; cases a <;> cases b <;> simp at hab ⊢
  have hd := ((Verif.Props.C07.dispatch_selects_shape tol0 code hcode _ hc2).1 s w.x w.y w.z).1
  rw [Verif.Props.C08.element_iff_unit_collapsed_3d tol0 h0 s w.x w.y w.z hr]
  unfold accept3
  dsimp only
  rw [hw, hd]
  have hex := excess_le [(toCollapsed3 tol0 s w.x w.y w.z).1, (toCollapsed3 tol0 s w.x w.y w.z).2.1, (toCollapsed3 tol0 s w.x w.y w.z).2.2] 0 le_rfl
  simp only [List.mem_cons, List.not_mem_nil, or_false, forall_eq_or_imp, forall_eq, sub_zero, add_zero] at hex
  constructor
  · intro hx
    split_ifs at hx with hc
    exact hex.1 hc
  · intro hx
    rw [if_pos (hex.2 hx)]

/-! ### The buffers of vertices -/

theorem get_set_ne' {α : Type*} (l : List α) (i j : ℕ) (v : α) (h : i ≠ j) : (l.set i v)[j]? = l[j]? := by
  rw [List.getElem?_set_ne h]

omit [Field K] [LinearOrder K] [IsStrictOrderedRing K] in
/-- A sequence of writes at consecutive places. -/
theorem write_seq (base : ℕ) : ∀ (vals : List K) (o : List K), base + vals.length ≤ o.length →
    ∃ o', vals.zipIdx.foldlM (fun o (v : K × ℕ) => Mem.write o ((base + v.2 : ℕ) : ℤ) v.1) o = some o' ∧ o'.length = o.length ∧
      (∀ k, k < vals.length → o'[base + k]? = vals[k]?) ∧ ∀ j, (j < base ∨ base + vals.length ≤ j) → o'[j]? = o[j]? := by
  intro vals
  induction vals using List.reverseRecOn with
  | nil => intro o _; exact ⟨o, rfl, rfl, by simp, by simp⟩
  | append_singleton l v ih =>
    intro o ho
    rw [List.length_append, List.length_singleton] at ho
    obtain ⟨o1, h1, h2, h3, h4⟩ := ih o (by omega)
    refine ⟨o1.set (base + l.length) v, ?_, by simp [h2], ?_, ?_⟩
    · rw [List.zipIdx_append, List.foldlM_append, h1]
      simp only [List.zipIdx_singleton, List.foldlM_cons, List.foldlM_nil, Option.bind_eq_bind, Option.bind_some, zero_add]
      rw [Verif.Props.C33.write_nat _ _ _ (by omega)]
      rfl
    · intro k hk
      rw [List.length_append, List.length_singleton] at hk
      by_cases hkl : k = l.length
      · subst hkl
        rw [List.getElem?_set_self (by omega)]
        simp
      · rw [get_set_ne' _ _ _ _ (by omega), h3 k (by omega), List.getElem?_append_left (by omega)]
    · intro j hj
      rw [List.length_append, List.length_singleton] at hj
      rw [get_set_ne' _ _ _ _ (by omega)]
      exact h4 j (by omega)

omit [LinearOrder K] [IsStrictOrderedRing K] in
/-- **C40, vertices, two dimensions.** In a buffer for `n` geometries, writing the vertices of geometry `i` is in range; they are then read for index
`i`, and the vertices read for all other indices are unchanged. -/
theorem vertices_2d (s : Shape2) (c : ℕ → V3 K) (n i : ℕ) (hi : i < n) (buf : List K) (hb : buf.length = n * 6) :
    ∃ buf', writeVertices2 s c i buf = some buf' ∧ buf'.length = n * 6 ∧
      readVertices2 buf' i = some (⟨(c 0).x, (c 0).y, 0⟩, ⟨(c 1).x, (c 1).y, 0⟩, ⟨(c (lastPoint s)).x, (c (lastPoint s)).y, 0⟩) ∧
      ∀ j, j ≠ i → readVertices2 buf' j = readVertices2 buf j := by
  obtain ⟨o', h1, h2, h3, h4⟩ := write_seq (i * 6) [(c 0).x, (c 0).y, (c 1).x, (c 1).y, (c (lastPoint s)).x, (c (lastPoint s)).y] buf
    (by simp only [List.length_cons, List.length_nil]; omega)
  have e : ∀ (x k : ℕ), ((x : ℤ) * 6 + (k : ℤ)) = ((x * 6 + k : ℕ) : ℤ) := by intro x k; push_cast; rfl
  refine ⟨o', ?_, by omega, ?_, ?_⟩
  · simp only [List.zipIdx_cons, List.zipIdx_nil, List.foldlM_cons, List.foldlM_nil, Option.bind_eq_bind, zero_add, Nat.reduceAdd] at h1
    have e0 := e i 0
    have e1 := e i 1
    have e2 := e i 2
    have e3 := e i 3
    have e4 := e i 4
    have e5 := e i 5
    norm_num at e0 e1 e2 e3 e4 e5 h1
    unfold writeVertices2
    norm_num
    exact h1
  · have hr : ∀ k : ℕ, Mem.read o' ((i : ℤ) * 6 + (k : ℤ)) = o'[i * 6 + k]? := by intro k; rw [e, Verif.Props.C33.read_nat]
    have r0 := (hr 0).trans (h3 0 (by simp))
    have r1 := (hr 1).trans (h3 1 (by simp))
    have r2 := (hr 2).trans (h3 2 (by simp))
    have r3 := (hr 3).trans (h3 3 (by simp))
    have r4 := (hr 4).trans (h3 4 (by simp))
    have r5 := (hr 5).trans (h3 5 (by simp))
    simp only [Nat.cast_zero, Nat.cast_one, Nat.cast_ofNat, List.getElem?_cons_zero, List.getElem?_cons_succ] at r0 r1 r2 r3 r4 r5
    unfold readVertices2
    simp only [r0, r1, r2, r3, r4, r5, Option.bind_some]
  · intro j hj
    have hr : ∀ k : ℕ, k < 6 → Mem.read o' ((j : ℤ) * 6 + (k : ℤ)) = Mem.read buf ((j : ℤ) * 6 + (k : ℤ)) := by
      intro k hk
      rw [e, Verif.Props.C33.read_nat, Verif.Props.C33.read_nat]
      apply h4
      simp only [List.length_cons, List.length_nil]
      omega
    have r0 := hr 0 (by omega)
    have r1 := hr 1 (by omega)
    have r2 := hr 2 (by omega)
    have r3 := hr 3 (by omega)
    have r4 := hr 4 (by omega)
    have r5 := hr 5 (by omega)
    simp only [Nat.cast_zero, Nat.cast_one, Nat.cast_ofNat] at r0 r1 r2 r3 r4 r5
    unfold readVertices2
    simp only [r0, r1, r2, r3, r4, r5]

omit [LinearOrder K] [IsStrictOrderedRing K] in
/-- **C40, vertices, three dimensions.** -/
theorem vertices_3d (s : Shape3) (c : ℕ → V3 K) (n i : ℕ) (hi : i < n) (buf : List K) (hb : buf.length = n * 12) :
    ∃ buf', writeVertices3 s c i buf = some buf' ∧ buf'.length = n * 12 ∧
      (∀ k, k < 4 → readVertex3 buf' i k = some (c ((indexV s).getD k 0))) ∧ ∀ j, j ≠ i → ∀ k, k < 4 → readVertex3 buf' j k = readVertex3 buf j k := by
  obtain ⟨o', h1, h2, h3, h4⟩ := write_seq (i * 12) ([0, 1, 2, 3].flatMap fun k => [(c ((indexV s).getD k 0)).x, (c ((indexV s).getD k 0)).y, (c ((indexV s).getD k 0)).z]) buf
    (by simp only [List.flatMap_cons, List.flatMap_nil, List.length_append, List.length_cons, List.length_nil]; omega)
  have e : ∀ (x y k : ℕ), ((x : ℤ) * 12 + (y : ℤ) * 3 + (k : ℤ)) = ((x * 12 + (y * 3 + k) : ℕ) : ℤ) := by intro x y k; push_cast; ring
  have e' : ∀ (x y : ℕ), ((x : ℤ) * 12 + (y : ℤ) * 3) = ((x * 12 + (y * 3 + 0) : ℕ) : ℤ) := by intro x y; push_cast; ring
  have e1 : ∀ (x y : ℕ), ((x : ℤ) * 12 + (y : ℤ) * 3 + 1) = ((x * 12 + (y * 3 + 1) : ℕ) : ℤ) := by intro x y; push_cast; ring
  have e2 : ∀ (x y : ℕ), ((x : ℤ) * 12 + (y : ℤ) * 3 + 2) = ((x * 12 + (y * 3 + 2) : ℕ) : ℤ) := by intro x y; push_cast; ring
  simp only [List.flatMap_cons, List.flatMap_nil, List.cons_append, List.nil_append, List.length_cons, List.length_nil] at h1 h3 h4
  refine ⟨o', ?_, by omega, ?_, ?_⟩
  · simp only [List.zipIdx_cons, List.zipIdx_nil, List.foldlM_cons, List.foldlM_nil, Option.bind_eq_bind, zero_add, Nat.reduceAdd] at h1
    unfold writeVertices3
    simp only [forLoop, add_zero, e', e1, e2, zero_mul, one_mul, Nat.reduceMul, Nat.reduceAdd, zero_add, Option.bind_some]
    simp only [add_zero, Option.bind_assoc] at h1 ⊢
    have a1 : ∀ x : ℤ, x + 3 + 1 = x + 4 := fun x => by ring
    have a2 : ∀ x : ℤ, x + 3 + 2 = x + 5 := fun x => by ring
    have a3 : ∀ x : ℤ, x + 6 + 1 = x + 7 := fun x => by ring
    have a4 : ∀ x : ℤ, x + 6 + 2 = x + 8 := fun x => by ring
    have a5 : ∀ x : ℤ, x + 9 + 1 = x + 10 := fun x => by ring
    have a6 : ∀ x : ℤ, x + 9 + 2 = x + 11 := fun x => by ring
    convert h1 using 1
    simp [a1, a2, a3, a4, a5, a6]
  · intro k hk
    unfold readVertex3
    rw [e1, e2, e', Verif.Props.C33.read_nat, Verif.Props.C33.read_nat, Verif.Props.C33.read_nat, h3 _ (by omega), h3 _ (by omega), h3 _ (by omega)]
    interval_cases k <;> rfl
  · intro j hj k hk
    unfold readVertex3
    rw [e1, e2, e', Verif.Props.C33.read_nat, Verif.Props.C33.read_nat, Verif.Props.C33.read_nat, Verif.Props.C33.read_nat, Verif.Props.C33.read_nat,
      Verif.Props.C33.read_nat, h4 _ (by omega), h4 _ (by omega), h4 _ (by omega)]

/-! ### Examples -/

def exTri : ℕ → V3 ℚ := fun k => ([⟨1, 0, 0⟩, ⟨3, 1, 0⟩, ⟨0, 2, 0⟩] : List (V3 ℚ)).getD k ⟨0, 0, 0⟩
def exPar : ℕ → V3 ℚ := fun k => ([⟨1, 0, 0⟩, ⟨3, 1, 0⟩, ⟨2, 3, 0⟩, ⟨0, 2, 0⟩] : List (V3 ℚ)).getD k ⟨0, 0, 0⟩
def exPrism : ℕ → V3 ℚ := fun k =>
  ([⟨0, 0, 0⟩, ⟨2, 0, 1⟩, ⟨2, 4, 1⟩, ⟨0, 4, 0⟩, ⟨0, 1, 2⟩, ⟨0, 5, 2⟩] : List (V3 ℚ)).getD k ⟨0, 0, 0⟩

example : Regular2 .tri exTri ∧ Regular2 .quad exPar ∧
    accept2 (1 / 1000000000000) (1 / 1000000000000) .tri (exTri 0, exTri 1, exTri 2) (4 / 3) 1 = some (-1 / 3, -1 / 3) ∧
    accept2 (1 / 1000000000000) (1 / 1000000000000) .quad (exPar 0, exPar 1, exPar 3) 2 3 = some (1, 1) ∧
    accept2 (1 / 1000000000000) (1 / 1000000000000) .tri (exTri 0, exTri 1, exTri 2) 2 3 = none := by
  refine ⟨⟨by decide +kernel, by simp⟩, ⟨by decide +kernel, fun _ => by decide +kernel⟩, ?_⟩
  decide +kernel

example : AffineImage (shape .prism) !![1, 0, 0; 0, 2, 1 / 2; 1 / 2, 0, 1] ![1, 5 / 2, 3 / 2] exPrism := by
  intro k v hv
  have hk : k < 6 := by
    have := (List.getElem?_eq_some_iff.1 hv).1
    simpa [shape, Verif.Spec.LinearElements.refVerts] using this
  interval_cases k <;> simp only [shape, Verif.Spec.LinearElements.refVerts, List.getElem?_cons_zero, List.getElem?_cons_succ, Option.some.injEq] at hv <;> subst hv <;>
    (funext i; fin_cases i <;> simp [exPrism, Matrix.mulVec, dotProduct, Fin.sum_univ_three, Verif.Spec.LinearElements.V3.get] <;> norm_num)

end Verif.Props.C40
