import Verif.Model.MeshConstruct
import Mathlib.Algebra.BigOperators.Field
import Mathlib.Tactic.Linarith
import Mathlib.Tactic.FieldSimp
import Mathlib.Tactic.NormNum

/-! C77: `get_point_in_subdomain` gives a point of an element of this rank. -/

namespace Verif.Props.C77
open Verif.Model.MeshConstruct

/-- The elements of a rank: the objects of the mesh graph with the dimension of the mesh. -/
def elements (ndim : ℕ) (g : Graph) : List PointGeom := if ndim = 2 then g.quads ++ g.tris else g.tets ++ g.pyrs ++ g.prisms ++ g.hexes

/-- The element whose point is returned. -/
noncomputable def chosen (ndim : ℕ) (g : Graph) : Option PointGeom := if ndim = 2 then getElement2d g else getElement3d g

theorem chosen_mem {ndim : ℕ} {g : Graph} {e : PointGeom} (h : chosen ndim g = some e) : e ∈ elements ndim g := by
  unfold chosen at h
  unfold elements
  by_cases hd : ndim = 2
  · rw [if_pos hd] at h ⊢
    unfold getElement2d at h
    split_ifs at h
    · exact List.mem_append_left _ (List.mem_of_head? h)
    · exact List.mem_append_right _ (List.mem_of_head? h)
  · rw [if_neg hd] at h ⊢
    unfold getElement3d at h
    simp only [List.mem_append]
    split_ifs at h
    · exact Or.inl (Or.inl (Or.inl (List.mem_of_head? h)))
    · exact Or.inl (Or.inl (Or.inr (List.mem_of_head? h)))
    · exact Or.inl (Or.inr (List.mem_of_head? h))
    · exact Or.inr (List.mem_of_head? h)

theorem chosen_none {ndim : ℕ} {g : Graph} : chosen ndim g = none ↔ elements ndim g = [] := by
  unfold chosen elements
  by_cases hd : ndim = 2
  · rw [if_pos hd, if_pos hd]
    unfold getElement2d
    cases g.quads <;> cases g.tris <;> simp
  · rw [if_neg hd, if_neg hd]
    unfold getElement3d
    cases g.tets <;> cases g.pyrs <;> cases g.prisms <;> cases g.hexes <;> simp

/-- The mean of the vertices of an element in one dimension. -/
noncomputable def mean (e : PointGeom) (d : ℕ) : ℝ := (e.verts.map fun v => v d).sum / e.verts.length

theorem foldl_sum (l : List (ℕ → ℝ)) (d : ℕ) (s : ℝ) : l.foldl (fun s v => s + v d) s = s + (l.map fun v => v d).sum := by
  induction l generalizing s with
  | nil => simp
  | cons v l ih => rw [List.foldl_cons, ih, List.map_cons, List.sum_cons]; ring

theorem vertexAverage_eq {e : PointGeom} (h : e.coordim < 4) : vertexAverage e = some ((List.range e.coordim).map (mean e)) := by
  unfold vertexAverage
  rw [if_pos h]
  congr 1
  apply List.map_congr_left
  intro d _
  rw [foldl_sum, zero_add, mean]

/-- The mean of the vertices with the missing coordinates 0. -/
noncomputable def centre (ndim : ℕ) (e : PointGeom) : ℕ → ℝ := fun d => if d < ndim then mean e d else 0

/-- The result: the mean of the vertices of the chosen element if Nektar++ says that the element contains it, otherwise its first vertex. -/
theorem point_eq {ndim : ℕ} (hd : ndim = 2 ∨ ndim = 3) {g : Graph} {e : PointGeom} (he : chosen ndim g = some e) (h4 : e.coordim < 4) (hc : ndim ≤ e.coordim) :
    pointInSubdomain ndim g = if e.contains (centre ndim e) then some ((List.range ndim).map (centre ndim e)) else
      e.verts.head?.bind fun v0 => if e.contains v0 then some ((List.range ndim).map v0) else none := by
  unfold pointInSubdomain
  rw [if_pos hd]
  unfold chosen at he
  rw [he, Option.bind_some, vertexAverage_eq h4, Option.bind_some]
  rw [if_neg (by simpa using hc)]
  have : (fun d => if d < ndim then ((List.range e.coordim).map (mean e)).getD d 0 else 0) = centre ndim e := by
    funext d
    unfold centre
    by_cases hd : d < ndim
    · rw [if_pos hd, if_pos hd, List.getD_eq_getElem?_getD, List.getElem?_map, List.getElem?_range (by omega)]; rfl
    · rw [if_neg hd, if_neg hd]
  dsimp only
  rw [this]

/-- **C77 (soundness).** A returned point has as many components as the mesh has dimensions, and they are the first coordinates of a point which an element of this rank
contains: a vertex of the element, or the mean of its vertices. -/
theorem point_sound {ndim : ℕ} {g : Graph} {p : List ℝ} (h : pointInSubdomain ndim g = some p) :
    (ndim = 2 ∨ ndim = 3) ∧ p.length = ndim ∧ ∃ e ∈ elements ndim g, ∃ x : ℕ → ℝ, e.contains x = true ∧ (∀ d < ndim, p[d]? = some (x d)) ∧
      (x ∈ e.verts ∨ ∀ d < ndim, x d = (e.verts.map fun v => v d).sum / e.verts.length) := by
  have hd : ndim = 2 ∨ ndim = 3 := by
    by_contra hd
    unfold pointInSubdomain at h
    rw [if_neg hd] at h
    simp at h
  refine ⟨hd, ?_⟩
  cases he : chosen ndim g with
  | none =>
    unfold pointInSubdomain at h
    unfold chosen at he
    rw [if_pos hd, he] at h
    simp at h
  | some e =>
    have hc : e.coordim < 4 ∧ ndim ≤ e.coordim := by
      have he' := he
      unfold pointInSubdomain at h
      unfold chosen at he
      rw [if_pos hd, he, Option.bind_some] at h
      by_cases h4 : e.coordim < 4
      · rw [vertexAverage_eq h4, Option.bind_some] at h
        by_cases hl : ((List.range e.coordim).map (mean e)).length < ndim
        · rw [if_pos hl] at h; simp at h
        · exact ⟨h4, by simpa using hl⟩
      · unfold vertexAverage at h
        rw [if_neg h4] at h; simp at h
    rw [point_eq hd he hc.1 hc.2] at h
    by_cases hin : e.contains (centre ndim e) = true
    · rw [if_pos hin] at h
      obtain rfl := Option.some.inj h
      refine ⟨by simp, e, chosen_mem he, centre ndim e, hin, fun d hd' => by simp [hd'], Or.inr fun d hd' => ?_⟩
      unfold centre mean; rw [if_pos hd']
    · rw [if_neg hin] at h
      obtain ⟨v0, hv, h⟩ := Option.bind_eq_some_iff.mp h
      by_cases hv0 : e.contains v0 = true
      · rw [if_pos hv0] at h
        obtain rfl := Option.some.inj h
        exact ⟨by simp, e, chosen_mem he, v0, hv0, fun d hd' => by simp [hd'], Or.inl (List.mem_of_head? hv)⟩
      · rw [if_neg hv0] at h; simp at h

/-- **C77 (success).** If elements contain their vertices and have the coordinates of the mesh, a point is found exactly on the ranks which have an element. -/
theorem point_found_iff {ndim : ℕ} (hd : ndim = 2 ∨ ndim = 3) {g : Graph}
    (hok : ∀ e ∈ elements ndim g, ndim ≤ e.coordim ∧ e.coordim < 4 ∧ e.verts ≠ [] ∧ ∀ v ∈ e.verts, e.contains v = true) :
    (pointInSubdomain ndim g).isSome ↔ elements ndim g ≠ [] := by
  constructor
  · intro h e
    obtain ⟨p, hp⟩ := Option.isSome_iff_exists.mp h
    obtain ⟨_, _, x, hx, _⟩ := point_sound hp
    rw [e] at hx; simp at hx
  · intro hne
    cases he : chosen ndim g with
    | none => exact absurd (chosen_none.mp he) hne
    | some e =>
      obtain ⟨h1, h2, h3, h4⟩ := hok e (chosen_mem he)
      rw [point_eq hd he h2 h1]
      by_cases hin : e.contains (centre ndim e) = true
      · rw [if_pos hin]; rfl
      · rw [if_neg hin]
        obtain ⟨v, l, hv⟩ := List.exists_cons_of_ne_nil h3
        rw [hv, List.head?_cons, Option.bind_some, if_pos (h4 v (by simp [hv]))]; rfl

/-- The mean of numbers is between bounds of all of them. -/
theorem mean_bounds {e : PointGeom} (hne : e.verts ≠ []) {d : ℕ} {a b : ℝ} (h : ∀ v ∈ e.verts, a ≤ v d ∧ v d ≤ b) : a ≤ mean e d ∧ mean e d ≤ b := by
  have hl : (0 : ℝ) < e.verts.length := by exact_mod_cast List.length_pos_of_ne_nil hne
  have : ∀ l : List (ℕ → ℝ), (∀ v ∈ l, a ≤ v d ∧ v d ≤ b) → (l.length : ℝ) * a ≤ (l.map fun v => v d).sum ∧ (l.map fun v => v d).sum ≤ l.length * b := by
    intro l; induction l with
    | nil => simp
    | cons v l ih =>
      intro hv
      have h1 := ih fun w hw => hv w (by simp [hw])
      have h2 := hv v (by simp)
      rw [List.map_cons, List.sum_cons, List.length_cons]
      push_cast
      constructor <;> linarith [h1.1, h1.2, h2.1, h2.2]
  have := this _ h
  unfold mean
  rw [le_div_iff₀ hl, div_le_iff₀ hl]
  constructor <;> linarith [this.1, this.2]

/-- **C77 (convex elements).** If the element which is looked at contains exactly the points satisfying linear inequalities that its vertices satisfy (a convex polytope), the point is
the mean of its vertices. Here for one inequality: the mean satisfies it. -/
theorem mean_halfplane {e : PointGeom} (hne : e.verts ≠ []) (n : ℕ) (a : ℕ → ℝ) (b : ℝ) (h : ∀ v ∈ e.verts, (∑ d ∈ Finset.range n, a d * v d) ≤ b) :
    (∑ d ∈ Finset.range n, a d * mean e d) ≤ b := by
  have hl : (0 : ℝ) < e.verts.length := by exact_mod_cast List.length_pos_of_ne_nil hne
  have key : ∀ l : List (ℕ → ℝ), (∑ d ∈ Finset.range n, a d * (l.map fun v => v d).sum) = (l.map fun v => ∑ d ∈ Finset.range n, a d * v d).sum := by
    intro l; induction l with
    | nil => simp
    | cons v l ih => simp only [List.map_cons, List.sum_cons, mul_add, Finset.sum_add_distrib, ih]
  have bound : ∀ l : List (ℕ → ℝ), (∀ v ∈ l, (∑ d ∈ Finset.range n, a d * v d) ≤ b) → (l.map fun v => ∑ d ∈ Finset.range n, a d * v d).sum ≤ l.length * b := by
    intro l; induction l with
    | nil => simp
    | cons v l ih =>
      intro hv
      have h1 := ih fun w hw => hv w (by simp [hw])
      have h2 := hv v (by simp)
      rw [List.map_cons, List.sum_cons, List.length_cons]
      push_cast
      linarith
  have : (∑ d ∈ Finset.range n, a d * mean e d) = (e.verts.map fun v => ∑ d ∈ Finset.range n, a d * v d).sum / e.verts.length := by
    rw [← key, Finset.sum_div]
    exact Finset.sum_congr rfl fun d _ => by unfold mean; ring
  rw [this, div_le_iff₀ hl]
  linarith [bound _ h]

/-- A convex element: it contains the points of an intersection of half spaces. -/
def Convex (n : ℕ) (e : PointGeom) (planes : List ((ℕ → ℝ) × ℝ)) : Prop :=
  ∀ x : ℕ → ℝ, e.contains x = true ↔ ∀ p ∈ planes, (∑ d ∈ Finset.range n, p.1 d * x d) ≤ p.2

/-- For a convex element which contains its vertices, the point is the mean of the vertices. -/
theorem point_of_convex {ndim : ℕ} (hd : ndim = 2 ∨ ndim = 3) {g : Graph} {e : PointGeom} (he : chosen ndim g = some e) (h4 : e.coordim < 4) (hc : ndim ≤ e.coordim)
    (hne : e.verts ≠ []) {planes : List ((ℕ → ℝ) × ℝ)} (hconv : Convex ndim e planes) (hv : ∀ v ∈ e.verts, e.contains v = true) :
    pointInSubdomain ndim g = some ((List.range ndim).map fun d => (e.verts.map fun v => v d).sum / e.verts.length) := by
  have hin : e.contains (centre ndim e) = true := by
    rw [hconv]
    intro p hp
    have := mean_halfplane hne ndim p.1 p.2 fun v hv' => (hconv v).mp (hv v hv') p hp
    refine le_of_eq_of_le (Finset.sum_congr rfl fun d hd' => ?_) this
    unfold centre; rw [if_pos (Finset.mem_range.mp hd')]
  rw [point_eq hd he h4 hc, if_pos hin]
  congr 1
  apply List.map_congr_left
  intro d hd'
  unfold centre mean; rw [if_pos (List.mem_range.mp hd')]

/-- The unit square. -/
noncomputable def exQuad : PointGeom where
  verts := [fun _ => 0, fun d => if d = 0 then 1 else 0, fun d => if d < 2 then 1 else 0, fun d => if d = 1 then 1 else 0]
  coordim := 2
  contains := fun x => decide (0 ≤ x 0 ∧ x 0 ≤ 1 ∧ 0 ≤ x 1 ∧ x 1 ≤ 1)

example : (pointInSubdomain 2 { quads := [exQuad] }).isSome := by
  rw [point_found_iff (Or.inl rfl)]
  · simp [elements]
  · intro e he
    simp only [elements, List.append_nil, if_true, List.mem_singleton] at he
    subst he
    refine ⟨le_rfl, by norm_num [exQuad], by simp [exQuad], ?_⟩
    intro v hv
    simp only [exQuad, List.mem_cons, List.not_mem_nil, or_false] at hv
    rcases hv with rfl | rfl | rfl | rfl <;> simp [exQuad]

end Verif.Props.C77
