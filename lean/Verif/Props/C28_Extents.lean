import Verif.Model.Periodic
import Mathlib.Algebra.Order.Field.Basic
import Mathlib.Data.Rat.Floor
import Mathlib.Tactic.Linarith
import Mathlib.Tactic.Ring
import Mathlib.Tactic.FieldSimp
import Mathlib.Tactic.NormNum
import Mathlib.Tactic.Positivity

/-! C28: the extents of the periodic boundary. -/

namespace Verif.Props.C28
open Verif.Model Verif.Model.Periodic

variable {K : Type*} [Field K] [LinearOrder K] [IsStrictOrderedRing K] [FloorRing K]

/-- `m` is the least value of the set. -/
def IsMin (S : K → Prop) (m : K) : Prop := S m ∧ ∀ x, S x → m ≤ x
/-- `m` is the largest value of the set. -/
def IsMax (S : K → Prop) (m : K) : Prop := S m ∧ ∀ x, S x → x ≤ m

/-- The coordinates of the vertices of all ranks. -/
def Coord (f : Vertex K → K) (first : List (Vertex K)) (others : List (List (Vertex K))) (x : K) : Prop :=
  ∃ vs ∈ first :: others, ∃ v ∈ vs, f v = x

theorem foldl_min (l : List K) (a : K) : IsMin (fun x => x = a ∨ x ∈ l) (l.foldl min a) := by
  induction l generalizing a with
  | nil => exact ⟨Or.inl rfl, by rintro x (rfl | h); exact le_rfl; simp at h⟩
  | cons b l ih =>
    obtain ⟨h1, h2⟩ := ih (min a b)
    rw [List.foldl_cons]
    constructor
    · rcases h1 with h1 | h1
      · rcases min_choice a b with h | h
        · exact Or.inl (h1.trans h)
        · exact Or.inr (by rw [h1.trans h]; simp)
      · exact Or.inr (by simp [h1])
    · rintro x (rfl | hx)
      · exact (h2 _ (Or.inl rfl)).trans (min_le_left _ _)
      · rcases List.mem_cons.mp hx with rfl | hx
        · exact (h2 _ (Or.inl rfl)).trans (min_le_right _ _)
        · exact h2 x (Or.inr hx)

theorem foldl_max (l : List K) (a : K) : IsMax (fun x => x = a ∨ x ∈ l) (l.foldl max a) := by
  induction l generalizing a with
  | nil => exact ⟨Or.inl rfl, by rintro x (rfl | h); exact le_rfl; simp at h⟩
  | cons b l ih =>
    obtain ⟨h1, h2⟩ := ih (max a b)
    rw [List.foldl_cons]
    constructor
    · rcases h1 with h1 | h1
      · rcases max_choice a b with h | h
        · exact Or.inl (h1.trans h)
        · exact Or.inr (by rw [h1.trans h]; simp)
      · exact Or.inr (by simp [h1])
    · rintro x (rfl | hx)
      · exact (le_max_left _ _).trans (h2 _ (Or.inl rfl))
      · rcases List.mem_cons.mp hx with rfl | hx
        · exact (le_max_right _ _).trans (h2 _ (Or.inl rfl))
        · exact h2 x (Or.inr hx)

theorem local_fold (dM dm : K) (vs : List (Vertex K)) : localExtents dM dm vs =
    (⟨(vs.map Vertex.x).foldl min dM, (vs.map Vertex.y).foldl min dM, (vs.map Vertex.z).foldl min dM⟩,
     ⟨(vs.map Vertex.x).foldl max dm, (vs.map Vertex.y).foldl max dm, (vs.map Vertex.z).foldl max dm⟩) := by
  unfold localExtents
  have : ∀ (vs : List (Vertex K)) (s : Arr3 K × Arr3 K), vs.foldl (fun s v =>
      ((⟨min s.1.a0 v.x, min s.1.a1 v.y, min s.1.a2 v.z⟩, ⟨max s.2.a0 v.x, max s.2.a1 v.y, max s.2.a2 v.z⟩) : Arr3 K × Arr3 K)) s =
      (⟨(vs.map Vertex.x).foldl min s.1.a0, (vs.map Vertex.y).foldl min s.1.a1, (vs.map Vertex.z).foldl min s.1.a2⟩,
       ⟨(vs.map Vertex.x).foldl max s.2.a0, (vs.map Vertex.y).foldl max s.2.a1, (vs.map Vertex.z).foldl max s.2.a2⟩) := by
    intro vs
    induction vs with
    | nil => intro s; rfl
    | cons v vs ih => intro s; rw [List.foldl_cons, ih]; rfl
  exact this vs _

theorem allreduce_fold (f : K → K → K) (a : Arr3 K) (l : List (Arr3 K)) : allreduce f a l =
    ⟨(l.map Arr3.a0).foldl f a.a0, (l.map Arr3.a1).foldl f a.a1, (l.map Arr3.a2).foldl f a.a2⟩ := by
  unfold allreduce
  induction l generalizing a with
  | nil => rfl
  | cons b l ih => rw [List.foldl_cons, ih]; rfl

/-- The reduced minimum is the least of the initial value and the coordinates. -/
theorem reduced_min (d : K) (f : Vertex K → K) (first : List (Vertex K)) (others : List (List (Vertex K))) :
    IsMin (fun x => x = d ∨ Coord f first others x) ((others.map fun vs => (vs.map f).foldl min d).foldl min ((first.map f).foldl min d)) := by
  obtain ⟨h1, h2⟩ := foldl_min (others.map fun vs => (vs.map f).foldl min d) ((first.map f).foldl min d)
  constructor
  · rcases h1 with h1 | h1
    · obtain ⟨a, _⟩ := foldl_min (first.map f) d
      rw [← h1] at a
      rcases a with a | a
      · exact Or.inl a
      · obtain ⟨v, hv, e⟩ := List.mem_map.mp a
        exact Or.inr ⟨first, by simp, v, hv, e⟩
    · obtain ⟨vs, hvs, e⟩ := List.mem_map.mp h1
      obtain ⟨a, _⟩ := foldl_min (vs.map f) d
      rw [e] at a
      rcases a with a | a
      · exact Or.inl a
      · obtain ⟨v, hv, e⟩ := List.mem_map.mp a
        exact Or.inr ⟨vs, by simp [hvs], v, hv, e⟩
  · rintro x (rfl | ⟨vs, hvs, v, hv, rfl⟩)
    · exact (h2 _ (Or.inl rfl)).trans ((foldl_min (first.map f) _).2 _ (Or.inl rfl))
    · rcases List.mem_cons.mp hvs with rfl | hvs
      · exact (h2 _ (Or.inl rfl)).trans ((foldl_min _ _).2 _ (Or.inr (List.mem_map_of_mem hv)))
      · exact (h2 _ (Or.inr (List.mem_map_of_mem hvs))).trans ((foldl_min _ _).2 _ (Or.inr (List.mem_map_of_mem hv)))

/-- The reduced maximum is the largest of the initial value and the coordinates. -/
theorem reduced_max (d : K) (f : Vertex K → K) (first : List (Vertex K)) (others : List (List (Vertex K))) :
    IsMax (fun x => x = d ∨ Coord f first others x) ((others.map fun vs => (vs.map f).foldl max d).foldl max ((first.map f).foldl max d)) := by
  obtain ⟨h1, h2⟩ := foldl_max (others.map fun vs => (vs.map f).foldl max d) ((first.map f).foldl max d)
  constructor
  · rcases h1 with h1 | h1
    · obtain ⟨a, _⟩ := foldl_max (first.map f) d
      rw [← h1] at a
      rcases a with a | a
      · exact Or.inl a
      · obtain ⟨v, hv, e⟩ := List.mem_map.mp a
        exact Or.inr ⟨first, by simp, v, hv, e⟩
    · obtain ⟨vs, hvs, e⟩ := List.mem_map.mp h1
      obtain ⟨a, _⟩ := foldl_max (vs.map f) d
      rw [e] at a
      rcases a with a | a
      · exact Or.inl a
      · obtain ⟨v, hv, e⟩ := List.mem_map.mp a
        exact Or.inr ⟨vs, by simp [hvs], v, hv, e⟩
  · rintro x (rfl | ⟨vs, hvs, v, hv, rfl⟩)
    · exact ((foldl_max (first.map f) _).2 _ (Or.inl rfl)).trans (h2 _ (Or.inl rfl))
    · rcases List.mem_cons.mp hvs with rfl | hvs
      · exact ((foldl_max _ _).2 _ (Or.inr (List.mem_map_of_mem hv))).trans (h2 _ (Or.inl rfl))
      · exact ((foldl_max _ _).2 _ (Or.inr (List.mem_map_of_mem hv))).trans (h2 _ (Or.inr (List.mem_map_of_mem hvs)))

theorem globalExtents_eq (dM dm : K) (first : List (Vertex K)) (others : List (List (Vertex K))) :
    let lo := fun f : Vertex K → K => (others.map fun vs => (vs.map f).foldl min dM).foldl min ((first.map f).foldl min dM)
    let hi := fun f : Vertex K → K => (others.map fun vs => (vs.map f).foldl max dm).foldl max ((first.map f).foldl max dm)
    globalExtents dM dm first others =
      (⟨lo Vertex.x, lo Vertex.y, lo Vertex.z⟩, ⟨hi Vertex.x - lo Vertex.x, hi Vertex.y - lo Vertex.y, hi Vertex.z - lo Vertex.z⟩) := by
  simp only [globalExtents, allreduce_fold, local_fold, List.map_map, Function.comp_def]

/-- Of one coordinate: the origin is the least coordinate of all vertices of all ranks and the extent the distance to the largest. -/
def IsBox (f : Vertex K → K) (first : List (Vertex K)) (others : List (List (Vertex K))) (origin extent : K) : Prop :=
  IsMin (Coord f first others) origin ∧ IsMax (Coord f first others) (origin + extent)

theorem isBox_of {dM dm : K} (f : Vertex K → K) (first : List (Vertex K)) (others : List (List (Vertex K)))
    (hM : ∀ x, Coord f first others x → x ≤ dM) (hm : ∃ x, Coord f first others x ∧ dm ≤ x) :
    IsBox f first others ((others.map fun vs => (vs.map f).foldl min dM).foldl min ((first.map f).foldl min dM))
      ((others.map fun vs => (vs.map f).foldl max dm).foldl max ((first.map f).foldl max dm) -
        (others.map fun vs => (vs.map f).foldl min dM).foldl min ((first.map f).foldl min dM)) := by
  have h1 := reduced_min dM f first others
  have h2 := reduced_max dm f first others
  obtain ⟨y, hy, hdy⟩ := hm
  constructor
  · refine ⟨?_, fun x hx => h1.2 x (Or.inr hx)⟩
    rcases h1.1 with h | h
    · have : dM = y := le_antisymm (h ▸ h1.2 y (Or.inr hy)) (hM y hy)
      rw [h, this]; exact hy
    · exact h
  · rw [add_sub_cancel]
    refine ⟨?_, fun x hx => h2.2 x (Or.inr hx)⟩
    rcases h2.1 with h | h
    · have : dm = y := le_antisymm hdy (h ▸ h2.2 y (Or.inr hy))
      rw [h, this]; exact hy
    · exact h

/-- The partial form of C28: the box is right if in each dimension some vertex has a coordinate of at least the smallest positive number. Missing: meshes
with no positive coordinate in a dimension, for which the claim is false (`negative_domain_wrong`). -/
theorem extents_exact_partial (dM dm : K) (first : List (Vertex K)) (others : List (List (Vertex K)))
    (hM : ∀ vs ∈ first :: others, ∀ v ∈ vs, v.x ≤ dM ∧ v.y ≤ dM ∧ v.z ≤ dM)
    (hx : ∃ vs ∈ first :: others, ∃ v ∈ vs, dm ≤ v.x) (hy : ∃ vs ∈ first :: others, ∃ v ∈ vs, dm ≤ v.y)
    (hz : ∃ vs ∈ first :: others, ∃ v ∈ vs, dm ≤ v.z) :
    let r := globalExtents dM dm first others
    IsBox Vertex.x first others r.1.a0 r.2.a0 ∧ IsBox Vertex.y first others r.1.a1 r.2.a1 ∧ IsBox Vertex.z first others r.1.a2 r.2.a2 := by
  dsimp only
  rw [globalExtents_eq]
  dsimp only
  refine ⟨isBox_of _ _ _ ?_ ?_, isBox_of _ _ _ ?_ ?_, isBox_of _ _ _ ?_ ?_⟩
  · rintro x ⟨vs, hvs, v, hv, rfl⟩; exact (hM vs hvs v hv).1
  · obtain ⟨vs, hvs, v, hv, h⟩ := hx; exact ⟨_, ⟨vs, hvs, v, hv, rfl⟩, h⟩
  · rintro x ⟨vs, hvs, v, hv, rfl⟩; exact (hM vs hvs v hv).2.1
  · obtain ⟨vs, hvs, v, hv, h⟩ := hy; exact ⟨_, ⟨vs, hvs, v, hv, rfl⟩, h⟩
  · rintro x ⟨vs, hvs, v, hv, rfl⟩; exact (hM vs hvs v hv).2.2
  · obtain ⟨vs, hvs, v, hv, h⟩ := hz; exact ⟨_, ⟨vs, hvs, v, hv, rfl⟩, h⟩

/-- Finding: whenever all the x coordinates are negative the extent is wrong (and too large), for every decomposition. -/
theorem negative_domain_wrong (dM dm : K) (hd : 0 < dm) (first : List (Vertex K)) (others : List (List (Vertex K)))
    (hM : ∀ x, Coord Vertex.x first others x → x ≤ dM) (hne : ∃ x, Coord Vertex.x first others x) (hneg : ∀ x, Coord Vertex.x first others x → x ≤ 0) :
    let r := globalExtents dM dm first others
    IsMin (Coord Vertex.x first others) r.1.a0 ∧ r.1.a0 + r.2.a0 = dm ∧ ¬ IsBox Vertex.x first others r.1.a0 r.2.a0 := by
  dsimp only
  rw [globalExtents_eq]
  dsimp only
  have h1 := reduced_min dM Vertex.x first others
  have h2 := reduced_max dm Vertex.x first others
  obtain ⟨y, hy⟩ := hne
  have e : (others.map fun vs => (vs.map Vertex.x).foldl max dm).foldl max ((first.map Vertex.x).foldl max dm) = dm := by
    rcases h2.1 with h | h
    · exact h
    · have := h2.2 dm (Or.inl rfl)
      have := hneg _ h
      linarith
  rw [e]
  refine ⟨⟨?_, fun x hx => h1.2 x (Or.inr hx)⟩, by ring, ?_⟩
  · rcases h1.1 with h | h
    · have : dM = y := le_antisymm (h ▸ h1.2 y (Or.inr hy)) (hM y hy)
      rw [h, this]; exact hy
    · exact h
  · rintro ⟨_, h, _⟩
    rw [add_sub_cancel] at h
    have := hneg _ h
    linarith

/-- A mesh on two ranks. -/
example : globalExtents (1000000 : ℚ) (1 / 1000000) [⟨-1, 2, 1⟩, ⟨3, 0, 2⟩] [[], [⟨2, 5, 4⟩]] = (⟨-1, 0, 1⟩, ⟨4, 5, 3⟩) := by
  norm_num [globalExtents, allreduce, localExtents, Arr3.map2]
/-- A mesh between -2 and -1: the extent is more than two instead of one. -/
example : (globalExtents (1000000 : ℚ) (1 / 1000000) [⟨-2, 2, 1⟩, ⟨-1, 3, 2⟩] []).2.a0 = 2 + 1 / 1000000 := by
  norm_num [globalExtents, allreduce, localExtents, Arr3.map2]

end Verif.Props.C28
