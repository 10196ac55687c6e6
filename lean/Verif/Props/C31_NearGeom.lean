import Verif.Model.LinePlane
import Mathlib.Tactic.Linarith
import Mathlib.Tactic.Ring
import Mathlib.Tactic.NormNum
import Mathlib.Tactic.LinearCombination
import Mathlib.Algebra.BigOperators.Group.List.Basic

/-! C31: `point_near_to_geom` accepts all points of the geometry. -/

namespace Verif.Props.C31
open Verif.Model.LinePlane

variable {K : Type*} [Field K] [LinearOrder K] [IsStrictOrderedRing K]

/-- The sum of the weights times a coordinate. -/
def combine (f : V3 K → K) (wv : List (K × V3 K)) : K := (wv.map fun p => p.1 * f p.2).sum

/-- The convex hull: weighted averages of the vertices with weights that are not negative and add up to one. -/
def InHull (vs : List (V3 K)) (p : V3 K) : Prop :=
  ∃ wv : List (K × V3 K), wv.map Prod.snd = vs ∧ (∀ q ∈ wv, 0 ≤ q.1) ∧ (wv.map Prod.fst).sum = 1 ∧
    p = ⟨combine V3.x wv, combine V3.y wv, combine V3.z wv⟩

theorem radius_bound (point : V3 K) (vs : List (V3 K)) : 0 ≤ radiusSquared point vs ∧
    (∀ v ∈ vs, distanceFromCentreSquared point v ≤ radiusSquared point vs) ∧
    (radiusSquared point vs = 0 ∨ ∃ v ∈ vs, distanceFromCentreSquared point v = radiusSquared point vs) := by
  unfold radiusSquared
  have key : ∀ (vs : List (V3 K)) (r : K), r ≤ vs.foldl (fun r v => max r (distanceFromCentreSquared point v)) r ∧
      (∀ v ∈ vs, distanceFromCentreSquared point v ≤ vs.foldl (fun r v => max r (distanceFromCentreSquared point v)) r) ∧
      (vs.foldl (fun r v => max r (distanceFromCentreSquared point v)) r = r ∨
        ∃ v ∈ vs, distanceFromCentreSquared point v = vs.foldl (fun r v => max r (distanceFromCentreSquared point v)) r) := by
    intro vs
    induction vs with
    | nil => intro r; simp
    | cons v vs ih =>
      intro r
      obtain ⟨h1, h2, h3⟩ := ih (max r (distanceFromCentreSquared point v))
      rw [List.foldl_cons]
      refine ⟨(le_max_left _ _).trans h1, fun w hw => ?_, ?_⟩
      · rcases List.mem_cons.mp hw with rfl | hw
        · exact (le_max_right _ _).trans h1
        · exact h2 w hw
      · rcases h3 with h3 | ⟨w, hw, h3⟩
        · rcases max_choice r (distanceFromCentreSquared point v) with h | h
          · exact Or.inl (h3.trans h)
          · exact Or.inr ⟨v, by simp, (h3.trans h).symm⟩
        · exact Or.inr ⟨w, by simp [hw], h3⟩
  exact key vs 0

/-- Jensen's inequality for the square. -/
theorem jensen (wv : List (K × V3 K)) (f : V3 K → K) (c : K) (h0 : ∀ q ∈ wv, 0 ≤ q.1) (h1 : (wv.map Prod.fst).sum = 1) :
    (c - combine f wv) * (c - combine f wv) ≤ combine (fun v => (c - f v) * (c - f v)) wv := by
  -- the variance is not negative
  have hvar : ∀ (m : K) (wv : List (K × V3 K)), (∀ q ∈ wv, 0 ≤ q.1) → 0 ≤ combine (fun v => (f v - m) * (f v - m)) wv := by
    intro m wv h
    unfold combine
    induction wv with
    | nil => simp
    | cons q wv ih =>
      rw [List.map_cons, List.sum_cons]
      exact add_nonneg (mul_nonneg (h q (by simp)) (mul_self_nonneg _)) (ih fun r hr => h r (by simp [hr]))
  have hexp : ∀ (m : K) (wv : List (K × V3 K)), combine (fun v => (f v - m) * (f v - m)) wv =
      combine (fun v => f v * f v) wv - 2 * m * combine f wv + m * m * (wv.map Prod.fst).sum := by
    intro m wv
    unfold combine
    induction wv with
    | nil => simp
    | cons q wv ih => simp only [List.map_cons, List.sum_cons, ih]; ring
  have hexp2 : combine (fun v => (c - f v) * (c - f v)) wv = combine (fun v => f v * f v) wv - 2 * c * combine f wv + c * c * (wv.map Prod.fst).sum := by
    rw [← hexp]
    congr 1
    funext v; ring
  have := hvar (combine f wv) wv h0
  rw [hexp, h1] at this
  rw [hexp2, h1]
  nlinarith

/-- All points of the convex hull of the vertices are accepted, for any number of vertices, whatever the centre. -/
theorem hull_near (n point : V3 K) (vs : List (V3 K)) (p : V3 K) (h : InHull vs p) :
    pointNearToGeom ⟨point, n, radiusSquared point vs⟩ p = true := by
  obtain ⟨wv, rfl, h0, h1, rfl⟩ := h
  unfold pointNearToGeom
  rw [decide_eq_true_eq]
  have hx := jensen wv V3.x point.x h0 h1
  have hy := jensen wv V3.y point.y h0 h1
  have hz := jensen wv V3.z point.z h0 h1
  have hsum : combine (fun v => (point.x - v.x) * (point.x - v.x)) wv + combine (fun v => (point.y - v.y) * (point.y - v.y)) wv +
      combine (fun v => (point.z - v.z) * (point.z - v.z)) wv = combine (distanceFromCentreSquared point) wv := by
    unfold combine distanceFromCentreSquared
    clear h0 h1 hx hy hz
    induction wv with
    | nil => simp
    | cons q wv ih => simp only [List.map_cons, List.sum_cons, ← ih]; ring
  have hb := (radius_bound point (wv.map Prod.snd)).2.1
  generalize radiusSquared point (wv.map Prod.snd) = R at hb
  have hle : combine (distanceFromCentreSquared point) wv ≤ R := by
    have : ∀ l : List (K × V3 K), (∀ q ∈ l, 0 ≤ q.1) → (∀ v ∈ l.map Prod.snd, distanceFromCentreSquared point v ≤ R) →
        combine (distanceFromCentreSquared point) l ≤ R * (l.map Prod.fst).sum := by
      intro l
      unfold combine
      induction l with
      | nil => intro _ _; simp
      | cons q l ih =>
        intro a b
        have := ih (fun r hr => a r (by simp [hr])) (fun v hv => b v (by simp only [List.map_cons, List.mem_cons]; exact Or.inr hv))
        have h2 := mul_le_mul_of_nonneg_left (b q.2 (by simp)) (a q (by simp))
        simp only [List.map_cons, List.sum_cons]
        linarith
    have := this wv h0 hb
    rwa [h1, mul_one] at this
  simp only [distanceFromCentreSquared]
  linarith

/-- For the objects the constructor makes. -/
theorem hull_near_constructed (vs : List (V3 ℝ)) (pl : Plane ℝ) (h : construct vs = some pl) (p : V3 ℝ) (hp : InHull vs p) :
    pointNearToGeom pl p = true := by
  unfold construct at h
  cases hn : normal2D vs with
  | none => rw [hn] at h; cases h
  | some n =>
    rw [hn] at h
    simp only [Option.some.injEq] at h
    subst h
    exact hull_near n _ vs p hp

/-- The radius is the least for which this holds with the given centre: some vertex is at the distance of the radius. -/
theorem radius_attained (point : V3 K) (vs : List (V3 K)) (hne : vs ≠ []) : ∃ v ∈ vs, distanceFromCentreSquared point v = radiusSquared point vs := by
  obtain ⟨h0, h1, h2⟩ := radius_bound point vs
  rcases h2 with h2 | h2
  · obtain ⟨v, l, rfl⟩ := List.exists_cons_of_ne_nil hne
    refine ⟨v, by simp, le_antisymm (h1 v (by simp)) ?_⟩
    rw [h2]
    unfold distanceFromCentreSquared
    nlinarith [mul_self_nonneg (point.x - v.x), mul_self_nonneg (point.y - v.y), mul_self_nonneg (point.z - v.z)]
  · exact h2

/-- The centre is the centroid of the vertices, a point of the hull. -/
theorem average_in_hull (vs : List (V3 K)) (hne : vs ≠ []) : InHull vs (vertexAverage vs) := by
  have hlen : (0 : K) < vs.length := by
    have := List.length_pos_iff.mpr hne
    exact_mod_cast this
  refine ⟨vs.map fun v => (1 / (vs.length : K), v), by simp [Function.comp_def], ?_, ?_, ?_⟩
  · intro q hq
    obtain ⟨v, _, rfl⟩ := List.mem_map.mp hq
    exact (one_div_pos.mpr hlen).le
  · simp only [List.map_map, Function.comp_def, List.map_const', List.sum_replicate, nsmul_eq_mul]
    exact mul_one_div_cancel hlen.ne'
  · have key : ∀ (l : List (V3 K)) (s : V3 K), l.foldl (fun (a : V3 K) v => ⟨a.x + v.x, a.y + v.y, a.z + v.z⟩) s =
        ⟨s.x + (l.map V3.x).sum, s.y + (l.map V3.y).sum, s.z + (l.map V3.z).sum⟩ := by
      intro l
      induction l with
      | nil => intro s; simp
      | cons v l ih => intro s; rw [List.foldl_cons, ih]; simp [add_assoc]
    unfold vertexAverage
    rw [key]
    have hc : ∀ f : V3 K → K, combine f (vs.map fun v => (1 / (vs.length : K), v)) = (vs.map f).sum / vs.length := by
      intro f
      unfold combine
      rw [List.map_map]
      generalize (vs.length : K) = L
      clear hlen hne
      induction vs with
      | nil => simp
      | cons v l ih => simp only [List.map_cons, List.sum_cons, ih, Function.comp]; ring
    rw [hc, hc, hc]
    simp

example : InHull [⟨0, 0, 0⟩, ⟨2, 0, 0⟩, ⟨0, 2, 0⟩] (⟨1 / 2, 1, 0⟩ : V3 ℚ) :=
  ⟨[(1 / 4, ⟨0, 0, 0⟩), (1 / 4, ⟨2, 0, 0⟩), (1 / 2, ⟨0, 2, 0⟩)], rfl, by
    intro q hq
    simp only [List.mem_cons, List.not_mem_nil, or_false] at hq
    rcases hq with rfl | rfl | rfl <;> norm_num, by norm_num, by simp only [combine]; norm_num⟩

end Verif.Props.C31
