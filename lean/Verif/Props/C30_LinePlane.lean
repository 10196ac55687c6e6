import Verif.Model.LinePlane
import Mathlib.Tactic.Linarith
import Mathlib.Tactic.Ring
import Mathlib.Tactic.FieldSimp
import Mathlib.Tactic.NormNum
import Mathlib.Tactic.LinearCombination

/-! C30: the intersection of a segment and a plane. -/

namespace Verif.Props.C30
open Verif.Model.LinePlane

variable {K : Type*} [Field K] [LinearOrder K] [IsStrictOrderedRing K]

/-- The point a fraction `t` of the way from `p0` to `p1`. -/
def along (p0 p1 : V3 K) (t : K) : V3 K := ⟨(1 - t) * p0.x + t * p1.x, (1 - t) * p0.y + t * p1.y, (1 - t) * p0.z + t * p1.z⟩

/-- The points of the plane. -/
def OnPlane (p : Plane K) (q : V3 K) : Prop :=
  p.normal.x * (q.x - p.point.x) + p.normal.y * (q.y - p.point.y) + p.normal.z * (q.z - p.point.z) = 0

theorem onPlane_along (p : Plane K) (p0 p1 : V3 K) (t : K) :
    OnPlane p (along p0 p1 t) ↔ t * dot (sub p1 p0) p.normal = dot (sub p.point p0) p.normal := by
  unfold OnPlane along dot sub
  dsimp only
  constructor <;> intro h <;> linear_combination h

/-- The function answers true exactly if the segment has a point on the plane; the point returned then is on the segment and on the plane, and no other
point of the segment on the plane is nearer to the start of the segment. -/
theorem intersection_exact (p : Plane K) (p0 p1 : V3 K) :
    ((lineSegmentIntersection p p0 p1).1 = true ↔ ∃ t, 0 ≤ t ∧ t ≤ 1 ∧ OnPlane p (along p0 p1 t)) ∧
    ((lineSegmentIntersection p p0 p1).1 = true → ∃ t, 0 ≤ t ∧ t ≤ 1 ∧ OnPlane p (along p0 p1 t) ∧
      (lineSegmentIntersection p p0 p1).2 = along p0 p1 t ∧ ∀ s, 0 ≤ s → OnPlane p (along p0 p1 s) → t ≤ s) := by
  have key : (∃ t, 0 ≤ t ∧ t ≤ 1 ∧ OnPlane p (along p0 p1 t)) → (lineSegmentIntersection p p0 p1).1 = true := by
    rintro ⟨t, h0, h1, h⟩
    rw [onPlane_along] at h
    unfold lineSegmentIntersection
    dsimp only
    rw [if_neg]
    by_cases hl : dot (sub p1 p0) p.normal = 0
    · rw [if_pos hl]
      rw [hl, mul_zero] at h
      simp [← h]
    · rw [if_neg hl]
      have e : dot (sub p.point p0) p.normal / dot (sub p1 p0) p.normal = t := by rw [← h]; field_simp
      rw [e]
      simp only [hl, false_and, false_or, not_or, not_lt]
      exact ⟨h0, h1⟩
  have key2 : (lineSegmentIntersection p p0 p1).1 = true → ∃ t, 0 ≤ t ∧ t ≤ 1 ∧ OnPlane p (along p0 p1 t) ∧
      (lineSegmentIntersection p p0 p1).2 = along p0 p1 t ∧ ∀ s, 0 ≤ s → OnPlane p (along p0 p1 s) → t ≤ s := by
    intro h
    unfold lineSegmentIntersection at h ⊢
    dsimp only at h ⊢
    by_cases hl : dot (sub p1 p0) p.normal = 0
    · rw [if_pos hl] at h ⊢
      by_cases hp : dot (sub p.point p0) p.normal = 0
      · refine ⟨0, le_rfl, zero_le_one, ?_, ?_, fun s hs _ => hs⟩
        · rw [onPlane_along, hp, zero_mul]
        · ext <;> simp [along]
      · rw [if_pos (Or.inl ⟨hl, hp⟩)] at h; cases h
    · rw [if_neg hl] at h ⊢
      split_ifs at h with hc
      push Not at hc
      refine ⟨_, hc.2.1, hc.2.2, ?_, ?_, fun s _ hs => ?_⟩
      · rw [onPlane_along]; field_simp
      · unfold along sub
        ext <;> dsimp only <;> ring
      · rw [onPlane_along] at hs
        rw [← hs]
        field_simp
        exact le_rfl
  refine ⟨⟨fun h => ?_, key⟩, key2⟩
  obtain ⟨t, a, b, c, _⟩ := key2 h
  exact ⟨t, a, b, c⟩

/-- A segment in the plane is reported at its start. -/
theorem in_plane_reported_at_start (p : Plane K) (p0 p1 : V3 K) (h0 : OnPlane p p0) (h1 : OnPlane p p1) :
    lineSegmentIntersection p p0 p1 = (true, p0) := by
  have e0 : along p0 p1 0 = p0 := by ext <;> simp [along]
  obtain ⟨h, h2⟩ := intersection_exact p p0 p1
  have ht := h.mpr ⟨0, le_rfl, zero_le_one, by rw [e0]; exact h0⟩
  obtain ⟨t, ht0, _, _, hp, hm⟩ := h2 ht
  have : t = 0 := le_antisymm (hm 0 le_rfl (by rw [e0]; exact h0)) ht0
  refine Prod.ext ht ?_
  rw [hp, this, e0]

/-! ### The plane of a geometry -/

/-- Unit length and orthogonal to the two edges at the first vertex. -/
theorem normal_spec (vs : List (V3 ℝ)) (n v0 v1 v2 : V3 ℝ) (h0 : vs[0]? = some v0) (h1 : vs[1]? = some v1) (h2 : vs[vs.length - 1]? = some v2) :
    (normal2D vs = none ↔ cross (sub v1 v0) (sub v2 v0) = ⟨0, 0, 0⟩) ∧
    (normal2D vs = some n → dot n n = 1 ∧ dot n (sub v1 v0) = 0 ∧ dot n (sub v2 v0) = 0) := by
  unfold normal2D
  rw [h0, h1, h2]
  dsimp only
  generalize hc : cross (sub v1 v0) (sub v2 v0) = nt
  have hnn : 0 ≤ dot nt nt := by unfold dot; nlinarith [sq_nonneg nt.x, sq_nonneg nt.y, sq_nonneg nt.z]
  have hz : Real.sqrt (dot nt nt) = 0 ↔ nt = ⟨0, 0, 0⟩ := by
    rw [Real.sqrt_eq_zero hnn]
    constructor
    · intro h
      unfold dot at h
      have hx : nt.x * nt.x = 0 := by nlinarith [mul_self_nonneg nt.x, mul_self_nonneg nt.y, mul_self_nonneg nt.z]
      have hy : nt.y * nt.y = 0 := by nlinarith [mul_self_nonneg nt.x, mul_self_nonneg nt.y, mul_self_nonneg nt.z]
      have hz : nt.z * nt.z = 0 := by nlinarith [mul_self_nonneg nt.x, mul_self_nonneg nt.y, mul_self_nonneg nt.z]
      ext
      · exact mul_self_eq_zero.mp hx
      · exact mul_self_eq_zero.mp hy
      · exact mul_self_eq_zero.mp hz
    · rintro rfl; simp [dot]
  by_cases hl : Real.sqrt (dot nt nt) = 0
  · rw [if_pos hl]; exact ⟨iff_of_true rfl (hz.mp hl), fun h => by cases h⟩
  · rw [if_neg hl]
    refine ⟨iff_of_false (by simp) (fun h => hl (hz.mpr h)), ?_⟩
    intro h
    simp only [Option.some.injEq] at h
    subst h
    have hs := Real.mul_self_sqrt hnn
    set s := Real.sqrt (dot nt nt) with hsd
    unfold dot at hs ⊢
    dsimp only
    refine ⟨?_, ?_, ?_⟩
    · field_simp
      linear_combination -hs
    · rw [← hc]; unfold cross sub; dsimp only; ring
    · rw [← hc]; unfold cross sub; dsimp only; ring

/-- The plane of a triangle contains the whole triangle: the constructor does not fail for a triangle with corners not on a line, and a segment that meets
the triangle meets the plane. -/
theorem triangle_in_plane (v0 v1 v2 : V3 ℝ) (p : Plane ℝ) (h : construct [v0, v1, v2] = some p) (a b c : ℝ) (habc : a + b + c = 1) :
    OnPlane p ⟨a * v0.x + b * v1.x + c * v2.x, a * v0.y + b * v1.y + c * v2.y, a * v0.z + b * v1.z + c * v2.z⟩ := by
  unfold construct at h
  cases hn : normal2D [v0, v1, v2] with
  | none => rw [hn] at h; cases h
  | some n =>
    rw [hn] at h
    simp only [Option.some.injEq] at h
    subst h
    obtain ⟨_, e1, e2⟩ := (normal_spec [v0, v1, v2] n v0 v1 v2 rfl rfl rfl).2 hn
    unfold OnPlane vertexAverage
    unfold dot sub at e1 e2
    simp only [List.foldl_cons, List.foldl_nil, List.length_cons, List.length_nil] at e1 e2 ⊢
    push_cast
    have ha : a = 1 - b - c := by linarith
    rw [ha]
    linear_combination (b - 1 / 3) * e1 + (c - 1 / 3) * e2

/-- The plane of a quadrilateral contains the quadrilateral if its four corners are in a plane. -/
theorem quad_in_plane (v0 v1 v2 v3 : V3 ℝ) (p : Plane ℝ) (h : construct [v0, v1, v2, v3] = some p)
    (hflat : dot (cross (sub v1 v0) (sub v3 v0)) (sub v2 v0) = 0) (a b c d : ℝ) (habc : a + b + c + d = 1) :
    OnPlane p ⟨a * v0.x + b * v1.x + c * v2.x + d * v3.x, a * v0.y + b * v1.y + c * v2.y + d * v3.y, a * v0.z + b * v1.z + c * v2.z + d * v3.z⟩ := by
  unfold construct at h
  cases hn : normal2D [v0, v1, v2, v3] with
  | none => rw [hn] at h; cases h
  | some n =>
    rw [hn] at h
    simp only [Option.some.injEq] at h
    subst h
    obtain ⟨_, e1, e2⟩ := (normal_spec [v0, v1, v2, v3] n v0 v1 v3 rfl rfl rfl).2 hn
    have e3 : dot n (sub v2 v0) = 0 := by
      unfold normal2D at hn
      simp only [List.getElem?_cons_zero, List.getElem?_cons_succ, List.length_cons, List.length_nil] at hn
      split_ifs at hn with hl
      simp only [Option.some.injEq] at hn
      rw [← hn]
      have e3 : ∀ s : ℝ, dot (⟨(cross (sub v1 v0) (sub v3 v0)).x * s, (cross (sub v1 v0) (sub v3 v0)).y * s, (cross (sub v1 v0) (sub v3 v0)).z * s⟩ : V3 ℝ)
          (sub v2 v0) = s * dot (cross (sub v1 v0) (sub v3 v0)) (sub v2 v0) := by intro s; unfold dot; ring
      rw [e3, hflat, mul_zero]
    unfold OnPlane vertexAverage
    unfold dot sub at e1 e2 e3
    simp only [List.foldl_cons, List.foldl_nil, List.length_cons, List.length_nil] at e1 e2 e3 ⊢
    push_cast
    have ha : a = 1 - b - c - d := by linarith
    rw [ha]
    linear_combination (b - 1 / 4) * e1 + (c - 1 / 4) * e3 + (d - 1 / 4) * e2

/-- A segment that crosses a triangle is found, and the point found is the crossing point. -/
theorem triangle_crossing_found (v0 v1 v2 : V3 ℝ) (p : Plane ℝ) (h : construct [v0, v1, v2] = some p) (p0 p1 : V3 ℝ) (t a b c : ℝ)
    (ht : 0 ≤ t ∧ t ≤ 1) (habc : a + b + c = 1)
    (hq : along p0 p1 t = ⟨a * v0.x + b * v1.x + c * v2.x, a * v0.y + b * v1.y + c * v2.y, a * v0.z + b * v1.z + c * v2.z⟩)
    (hp0 : ¬ OnPlane p p0) : lineSegmentIntersection p p0 p1 = (true, along p0 p1 t) := by
  have hon : OnPlane p (along p0 p1 t) := hq ▸ triangle_in_plane v0 v1 v2 p h a b c habc
  obtain ⟨h1, h2⟩ := intersection_exact p p0 p1
  have htrue := h1.mpr ⟨t, ht.1, ht.2, hon⟩
  obtain ⟨s, hs0, hs1, hson, hpt, hmin⟩ := h2 htrue
  refine Prod.ext htrue ?_
  rw [hpt]
  congr 1
  rw [onPlane_along] at hon hson
  have hne : dot (sub p1 p0) p.normal ≠ 0 := by
    intro h0
    rw [h0, mul_zero] at hon
    refine hp0 ?_
    unfold OnPlane
    unfold dot sub at hon
    dsimp only at hon
    linear_combination hon
  exact mul_right_cancel₀ hne (hson.trans hon.symm)

/-- The normal of a segment: unit length and the direction of the segment turned by a right angle. -/
theorem segment_normal (ax ay bx «by» : ℝ) (h : ¬ (ax = bx ∧ ay = «by»)) :
    let n := normal1D ax ay bx «by»
    n.1 * n.1 + n.2 * n.2 = 1 ∧ n.1 * (bx - ax) + n.2 * («by» - ay) = 0 ∧ 0 < (bx - ax) * n.2 - («by» - ay) * n.1 := by
  have hpos : 0 < (-(«by» - ay)) * (-(«by» - ay)) + (bx - ax) * (bx - ax) := by
    by_cases hx : bx - ax = 0
    · have hy : «by» - ay ≠ 0 := fun hy => h ⟨by linarith, by linarith⟩
      have := mul_self_pos.mpr hy
      nlinarith
    · have := mul_self_pos.mpr hx
      nlinarith [mul_self_nonneg («by» - ay)]
  have hs := Real.mul_self_sqrt hpos.le
  have hsp := Real.sqrt_pos.mpr hpos
  unfold normal1D
  dsimp only
  set s := Real.sqrt ((-(«by» - ay)) * (-(«by» - ay)) + (bx - ax) * (bx - ax)) with hsd
  refine ⟨?_, by ring, ?_⟩
  · field_simp
    linear_combination -hs
  · have : (bx - ax) * ((bx - ax) * (1 / s)) - («by» - ay) * (-(«by» - ay) * (1 / s)) = s := by
      field_simp
      linear_combination -hs
    rw [this]; exact hsp

/-- A slanted plane and three segments: crossing, too short, in the plane. -/
def exPlane : Plane ℚ := ⟨⟨1, 0, 0⟩, ⟨1, 1, 0⟩, 1⟩
example : lineSegmentIntersection exPlane ⟨0, 0, 0⟩ ⟨2, 2, 4⟩ = (true, ⟨1 / 2, 1 / 2, 1⟩) := by
  norm_num [lineSegmentIntersection, exPlane, dot, sub]
example : (lineSegmentIntersection exPlane ⟨0, 0, 0⟩ ⟨1 / 4, 1 / 4, 4⟩).1 = false := by
  norm_num [lineSegmentIntersection, exPlane, dot, sub]
example : lineSegmentIntersection exPlane ⟨0, 1, 0⟩ ⟨1, 0, 4⟩ = (true, ⟨0, 1, 0⟩) := by
  norm_num [lineSegmentIntersection, exPlane, dot, sub]
/-- The constructor succeeds for a right-angled triangle. -/
example : construct [⟨0, 0, 0⟩, ⟨2, 0, 0⟩, ⟨0, 2, 0⟩] ≠ none := by
  unfold construct
  have h := (normal_spec [⟨0, 0, 0⟩, ⟨2, 0, 0⟩, ⟨0, 2, 0⟩] ⟨0, 0, 0⟩ ⟨0, 0, 0⟩ ⟨2, 0, 0⟩ ⟨0, 2, 0⟩ rfl rfl rfl).1
  cases hn : normal2D [⟨0, 0, 0⟩, ⟨2, 0, 0⟩, ⟨0, 2, 0⟩] with
  | none => have := h.mp hn; norm_num [cross, sub] at this
  | some n => simp

end Verif.Props.C30
