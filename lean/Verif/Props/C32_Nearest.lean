import Verif.Props.C29_Collections
import Verif.Props.C33_FindCells

/-! C32: the intersection reported for the step of a particle is the nearest. -/

namespace Verif.Props.C32
open Verif.Model Verif.Model.MeshHierarchy Verif.Model.HaloCells Verif.Model.Claims Verif.Model.CompositeCollections Verif.Model.LinePlane
open Verif.Model.CompositeIntersection Verif.Spec Verif.Props.C33

variable {K : Type} [Field K] [LinearOrder K]

/-! ### One geometry -/

def anyGuess (T : Tests K) (g : Geo K) (i : V3 K) : Bool :=
  (List.range (T.gridY + 1)).any fun g1 => (List.range (T.gridX + 1)).any fun g0 => T.quadFound g i g0 g1

theorem guesses_spec (T : Tests K) (p0 i : V3 K) (data : Geo K) (group geom : ℤ) (b : Best K) :
    guesses T p0 i data group geom b = if anyGuess T data i then b.update p0 i group geom else b := by
  have inner : ∀ (g1 n : ℕ) (s : Bool × Best K), loop n (fun g0 (s : Bool × Best K) =>
      if s.1 then s else (T.quadFound data i g0 g1, if T.quadFound data i g0 g1 then s.2.update p0 i group geom else s.2)) s =
      if s.1 then s else ((List.range n).any fun g0 => T.quadFound data i g0 g1,
        if ((List.range n).any fun g0 => T.quadFound data i g0 g1) then s.2.update p0 i group geom else s.2) := by
    intro g1 n s
    induction n with
    | zero =>
      obtain ⟨s1, s2⟩ := s
      cases s1 <;> simp [loop]
    | succ n ih =>
      rw [loop, ih]
      by_cases hs : s.1 = true
      · simp [hs]
      · simp only [hs, List.range_succ, List.any_append]
        by_cases ha : ((List.range n).any fun g0 => T.quadFound data i g0 g1) = true
        · simp only [ha, Bool.true_or]
          simp
        · simp [ha]
  unfold guesses anyGuess
  have outer : ∀ n, loop n (fun g1 (s : Bool × Best K) => if s.1 then s else loop (T.gridX + 1) (fun g0 (s : Bool × Best K) =>
      if s.1 then s else (T.quadFound data i g0 g1, if T.quadFound data i g0 g1 then s.2.update p0 i group geom else s.2)) s) (false, b) =
      ((List.range n).any fun g1 => (List.range (T.gridX + 1)).any fun g0 => T.quadFound data i g0 g1,
        if ((List.range n).any fun g1 => (List.range (T.gridX + 1)).any fun g0 => T.quadFound data i g0 g1) then b.update p0 i group geom else b) := by
    intro n
    induction n with
    | zero => simp [loop]
    | succ n ih =>
      rw [loop, ih, inner]
      simp only [List.range_succ (n := n), List.any_append]
      by_cases ha : ((List.range n).any fun g1 => (List.range (T.gridX + 1)).any fun g0 => T.quadFound data i g0 g1) = true
      · simp only [ha, Bool.true_or]
        simp
      · simp [ha]
  rw [outer]

/-- The point at which a geometry is hit. -/
def hitPoint (T : Tests K) (p0 p1 : V3 K) (g : Geo K) : Option (V3 K) :=
  match g.shape with
  | .seg => if (T.lli g p0 p1).1 then some (T.lli g p0 p1).2 else none
  | .tri => if (lineSegmentIntersection (T.plane g) p0 p1).1 ∧ pointNearToGeom (T.plane g) (lineSegmentIntersection (T.plane g) p0 p1).2 ∧
      T.triFound g (lineSegmentIntersection (T.plane g) p0 p1).2 then some (lineSegmentIntersection (T.plane g) p0 p1).2 else none
  | .quad => if (lineSegmentIntersection (T.plane g) p0 p1).1 ∧ pointNearToGeom (T.plane g) (lineSegmentIntersection (T.plane g) p0 p1).2 ∧
      anyGuess T g (lineSegmentIntersection (T.plane g) p0 p1).2 then some (lineSegmentIntersection (T.plane g) p0 p1).2 else none
  | .other => none

theorem hitPoint_iff (T : Tests K) (p0 p1 : V3 K) (g : Geo K) (i : V3 K) : hitPoint T p0 p1 g = some i ↔ HitsGeom T g p0 p1 i := by
  unfold hitPoint HitsGeom
  cases g.shape with
  | seg =>
    dsimp only
    rw [Option.ite_none_right_eq_some, Prod.ext_iff]
    simp
  | tri =>
    dsimp only
    rw [Option.ite_none_right_eq_some, Prod.ext_iff]
    constructor
    · rintro ⟨⟨a, b, c⟩, h⟩
      cases h
      exact ⟨⟨a, rfl⟩, b, c⟩
    · rintro ⟨⟨a, rfl⟩, b, c⟩
      exact ⟨⟨a, b, c⟩, rfl⟩
  | quad =>
    dsimp only
    rw [Option.ite_none_right_eq_some, Prod.ext_iff]
    have e : ∀ i, anyGuess T g i = true ↔ ∃ g0 ≤ T.gridX, ∃ g1 ≤ T.gridY, T.quadFound g i g0 g1 = true := by
      intro i
      simp only [anyGuess, List.any_eq_true, List.mem_range, Nat.lt_succ_iff]
      constructor
      · rintro ⟨g1, h1, g0, h0, h⟩; exact ⟨g0, h0, g1, h1, h⟩
      · rintro ⟨g0, h0, g1, h1, h⟩; exact ⟨g1, h1, g0, h0, h⟩
    constructor
    · rintro ⟨⟨a, b, c⟩, h⟩
      cases h
      exact ⟨⟨a, rfl⟩, b, (e _).mp c⟩
    · rintro ⟨⟨a, rfl⟩, b, c⟩
      exact ⟨⟨a, b, (e _).mpr c⟩, rfl⟩
  | other => simp

/-- The step of the loops for one geometry. -/
def geomStep (T : Tests K) (group : ℤ → Option ℤ) (p0 p1 : V3 K) (b : Best K) (r : RG K) : Best K :=
  match hitPoint T p0 p1 r.geom with
  | none => b
  | some i => b.update p0 i ((group r.composite).getD 0) r.id

/-! ### The geometries of a cell -/

theorem loop_list {σ α : Type*} (l : List α) (f : σ → α → σ) (body : ℕ → σ → Option σ) (s : σ)
    (h : ∀ i a, l[i]? = some a → ∀ s, body i s = some (f s a)) : forLoop l.length body s = some (l.foldl f s) := by
  have := forLoop_eq l.length body (fun i => (l.take i).foldl f s) s (by simp) (by
    intro i hi
    rw [h i l[i] (List.getElem?_eq_getElem hi), List.take_add_one, List.foldl_append, List.getElem?_eq_getElem hi]
    simp)
  simpa using this

section cell
variable (T : Tests K) (group : ℤ → Option ℤ) (p0 p1 : V3 K) (l : List (RG K)) (b : Best K)

theorem quads_spec : quadsOfCell T p0 p1 (collectionOf group l) b = some ((ofShape .quad l).foldl (geomStep T group p0 p1) b) := by
  unfold quadsOfCell
  have hn : (collectionOf group l).numQuads = (ofShape .quad l).length := rfl
  rw [hn]
  refine loop_list _ _ _ _ fun i r hr s => ?_
  have hshape : r.geom.shape = .quad := ((C29.mem_ofShape _ _ _).mp (List.mem_of_getElem? hr)).2
  have h1 : (collectionOf group l).lpi[i]? = some r.geom := by
    simp only [collectionOf, List.map_append]
    rw [List.getElem?_append_left (by rw [List.length_map]; exact (List.getElem?_eq_some_iff.mp hr).1), List.getElem?_map, hr]; rfl
  have h2 : (collectionOf group l).bufQuads[i]? = some r.geom := by simp only [collectionOf]; rw [List.getElem?_map, hr]; rfl
  have h3 : (collectionOf group l).groupQuads[i]? = some ((group r.composite).getD 0) := by simp only [collectionOf]; rw [List.getElem?_map, hr]; rfl
  have h4 : (collectionOf group l).geomIds[i]? = some r.id := by
    simp only [collectionOf, List.map_append]
    rw [List.getElem?_append_left (by rw [List.length_map]; exact (List.getElem?_eq_some_iff.mp hr).1), List.getElem?_map, hr]; rfl
  rw [read_nat, h1, Option.bind_some]
  dsimp only
  rw [read_nat, read_nat, read_nat, h2, h3, h4]
  simp only [Option.bind_some, guesses_spec]
  unfold geomStep hitPoint
  rw [hshape]
  dsimp only
  by_cases h5 : (lineSegmentIntersection (T.plane r.geom) p0 p1).1 = true ∧
      pointNearToGeom (T.plane r.geom) (lineSegmentIntersection (T.plane r.geom) p0 p1).2 = true
  · rw [if_pos h5]
    by_cases h6 : anyGuess T r.geom (lineSegmentIntersection (T.plane r.geom) p0 p1).2 = true
    · rw [if_pos h6, if_pos ⟨h5.1, h5.2, h6⟩]
    · rw [if_neg h6, if_neg fun h => h6 h.2.2]
  · rw [if_neg h5, if_neg fun h => h5 ⟨h.1, h.2.1⟩]

theorem tris_spec : trisOfCell T p0 p1 (collectionOf group l) b = some ((ofShape .tri l).foldl (geomStep T group p0 p1) b) := by
  unfold trisOfCell
  have hn : (collectionOf group l).numTris = (ofShape .tri l).length := rfl
  have hq : (collectionOf group l).numQuads = (ofShape .quad l).length := rfl
  rw [hn]
  refine loop_list _ _ _ _ fun i r hr s => ?_
  have hshape : r.geom.shape = .tri := ((C29.mem_ofShape _ _ _).mp (List.mem_of_getElem? hr)).2
  have h1 : (collectionOf group l).lpi[(collectionOf group l).numQuads + i]? = some r.geom := by
    simp only [collectionOf, List.map_append]
    rw [List.getElem?_append_right (by rw [List.length_map]; omega), List.length_map, Nat.add_sub_cancel_left, List.getElem?_map, hr]; rfl
  have h2 : (collectionOf group l).bufTris[i]? = some r.geom := by simp only [collectionOf]; rw [List.getElem?_map, hr]; rfl
  have h3 : (collectionOf group l).groupTris[i]? = some ((group r.composite).getD 0) := by simp only [collectionOf]; rw [List.getElem?_map, hr]; rfl
  have h4 : (collectionOf group l).geomIds[(collectionOf group l).numQuads + i]? = some r.id := by
    simp only [collectionOf, List.map_append]
    rw [List.getElem?_append_right (by rw [List.length_map]; omega), List.length_map, Nat.add_sub_cancel_left, List.getElem?_map, hr]; rfl
  rw [read_nat, h1, Option.bind_some]
  dsimp only
  rw [read_nat, read_nat, read_nat, h2, h3, h4]
  simp only [Option.bind_some]
  unfold geomStep hitPoint
  rw [hshape]
  dsimp only
  by_cases h5 : (lineSegmentIntersection (T.plane r.geom) p0 p1).1 = true ∧
      pointNearToGeom (T.plane r.geom) (lineSegmentIntersection (T.plane r.geom) p0 p1).2 = true
  · rw [if_pos h5]
    by_cases h6 : T.triFound r.geom (lineSegmentIntersection (T.plane r.geom) p0 p1).2 = true
    · rw [if_pos h6, if_pos ⟨h5.1, h5.2, h6⟩]
    · rw [if_neg h6, if_neg fun h => h6 h.2.2]
  · rw [if_neg h5, if_neg fun h => h5 ⟨h.1, h.2.1⟩]

theorem segs_spec : segsOfCell T p0 p1 (collectionOf group l) b = some ((ofShape .seg l).foldl (geomStep T group p0 p1) b) := by
  unfold segsOfCell
  have hn : (collectionOf group l).numSegments = (ofShape .seg l).length := rfl
  rw [hn]
  refine loop_list _ _ _ _ fun i r hr s => ?_
  have hshape : r.geom.shape = .seg := ((C29.mem_ofShape _ _ _).mp (List.mem_of_getElem? hr)).2
  have h1 : (collectionOf group l).lliSegments[i]? = some r.geom := by simp only [collectionOf]; rw [List.getElem?_map, hr]; rfl
  have h3 : (collectionOf group l).groupSegments[i]? = some ((group r.composite).getD 0) := by
    simp only [collectionOf]; rw [List.getElem?_map, hr]; rfl
  have h4 : (collectionOf group l).geomIdsSegments[i]? = some r.id := by simp only [collectionOf]; rw [List.getElem?_map, hr]; rfl
  rw [read_nat, h1, Option.bind_some]
  dsimp only
  rw [read_nat, read_nat, h3, h4]
  simp only [Option.bind_some]
  unfold geomStep hitPoint
  rw [hshape]
  dsimp only
  by_cases h5 : (T.lli r.geom p0 p1).1 = true
  · rw [if_pos h5, if_pos h5]
  · rw [if_neg h5, if_neg h5]

end cell

theorem overCells_spec (tree : ℤ → Option (CC K)) (data : ℤ → List (RG K)) (group : ℤ → Option ℤ) (s : Shape) (step : Best K → RG K → Best K)
    (ofCell : CC K → Best K → Option (Best K)) (hof : ∀ l b, ofCell (collectionOf group l) b = some ((ofShape s l).foldl step b)) (cells : List ℤ)
    (htree : ∀ c ∈ cells, tree c = if data c ≠ [] then some (collectionOf group (data c)) else none) (b : Best K) :
    overCells tree ofCell cells b = some ((cells.flatMap fun c => ofShape s (data c)).foldl step b) := by
  unfold overCells
  induction cells generalizing b with
  | nil => rfl
  | cons c l ih =>
    rw [List.foldlM_cons, htree c (by simp), List.flatMap_cons, List.foldl_append]
    by_cases hd : data c = []
    · rw [hd]
      simp only [ne_eq, not_true_eq_false, if_false]
      refine (ih (fun x hx => htree x (by simp [hx])) b).trans ?_
      simp [ofShape]
    · rw [if_pos hd]
      dsimp only
      rw [hof]
      exact ih (fun x hx => htree x (by simp [hx])) _

/-! ### The nearest -/

theorem dist2_eq (a b : V3 K) : dist2 a b = sqDist a b := by unfold dist2 sqDist; ring

theorem fold_nearest (T : Tests K) (group : ℤ → Option ℤ) (p0 p1 : V3 K) : ∀ (l : List (RG K)) (b : Best K),
    (l.foldl (geomStep T group p0 p1) b = b ∧ ∀ r ∈ l, ∀ i, hitPoint T p0 p1 r.geom = some i → b.dist ≤ sqDist p0 i) ∨
    ∃ r ∈ l, ∃ i, hitPoint T p0 p1 r.geom = some i ∧ l.foldl (geomStep T group p0 p1) b = ⟨true, sqDist p0 i, i, (group r.composite).getD 0, r.id⟩ ∧
      sqDist p0 i < b.dist ∧ ∀ r' ∈ l, ∀ i', hitPoint T p0 p1 r'.geom = some i' → sqDist p0 i ≤ sqDist p0 i' := by
  intro l
  induction l with
  | nil => intro b; left; simp
  | cons a l ih =>
    intro b
    rw [List.foldl_cons]
    cases ha : hitPoint T p0 p1 a.geom with
    | none =>
      have e : geomStep T group p0 p1 b a = b := by unfold geomStep; rw [ha]
      rw [e]
      rcases ih b with ⟨h1, h2⟩ | ⟨r, hr, i, h1, h2, h3, h4⟩
      · left
        refine ⟨h1, fun r hr i hi => ?_⟩
        rcases List.mem_cons.mp hr with rfl | hr
        · rw [ha] at hi; cases hi
        · exact h2 r hr i hi
      · right
        refine ⟨r, by simp [hr], i, h1, h2, h3, fun r' hr' i' hi' => ?_⟩
        rcases List.mem_cons.mp hr' with rfl | hr'
        · rw [ha] at hi'; cases hi'
        · exact h4 r' hr' i' hi'
    | some ia =>
      by_cases hlt : sqDist p0 ia < b.dist
      · have e : geomStep T group p0 p1 b a = ⟨true, sqDist p0 ia, ia, (group a.composite).getD 0, a.id⟩ := by
          unfold geomStep; rw [ha]; dsimp only; unfold Best.update; rw [dist2_eq, if_pos hlt]
        rw [e]
        right
        rcases ih ⟨true, sqDist p0 ia, ia, (group a.composite).getD 0, a.id⟩ with ⟨h1, h2⟩ | ⟨r, hr, i, h1, h2, h3, h4⟩
        · refine ⟨a, by simp, ia, ha, h1, hlt, fun r' hr' i' hi' => ?_⟩
          rcases List.mem_cons.mp hr' with rfl | hr'
          · rw [ha] at hi'; cases hi'; exact le_rfl
          · exact h2 r' hr' i' hi'
        · refine ⟨r, by simp [hr], i, h1, h2, lt_trans h3 hlt, fun r' hr' i' hi' => ?_⟩
          rcases List.mem_cons.mp hr' with rfl | hr'
          · rw [ha] at hi'; cases hi'; exact h3.le
          · exact h4 r' hr' i' hi'
      · have e : geomStep T group p0 p1 b a = b := by
          unfold geomStep; rw [ha]; dsimp only; unfold Best.update; rw [dist2_eq, if_neg hlt]
        rw [e]
        push Not at hlt
        rcases ih b with ⟨h1, h2⟩ | ⟨r, hr, i, h1, h2, h3, h4⟩
        · left
          refine ⟨h1, fun r hr i hi => ?_⟩
          rcases List.mem_cons.mp hr with rfl | hr
          · rw [ha] at hi; cases hi; exact hlt
          · exact h2 r hr i hi
        · right
          refine ⟨r, by simp [hr], i, h1, h2, h3, fun r' hr' i' hi' => ?_⟩
          rcases List.mem_cons.mp hr' with rfl | hr'
          · rw [ha] at hi'; cases hi'; exact le_trans h3.le hlt
          · exact h4 r' hr' i' hi'

/-! ### The buffers -/

/-- What the buffers hold for the particle with index `j`. -/
structure Slot (K : Type) where
  flag : Option ℤ
  group : Option ℤ
  geom : Option ℤ
  x : Option K
  y : Option K
  z : Option K

def slot (ndim npart : ℕ) (o : Out K) (j : ℕ) : Slot K :=
  ⟨o.int[j]?, o.int[npart + j]?, o.int[npart * 2 + j]?, o.real[j]?, o.real[npart + j]?, if ndim = 3 then o.real[npart * 2 + j]? else none⟩

/-- The buffers are large enough. -/
def Sized (ndim npart : ℕ) (o : Out K) : Prop := npart * 3 ≤ o.int.length ∧ npart * ndim ≤ o.real.length

theorem writeFlag_spec {ndim npart : ℕ} (hnd : ndim = 2 ∨ ndim = 3) (o : Out K) (hs : Sized ndim npart o) (i : ℕ) (hi : i < npart) (v : ℤ) :
    ∃ int, Mem.write o.int (i : ℤ) v = some int ∧ Sized ndim npart ⟨int, o.real⟩ ∧
      slot ndim npart ⟨int, o.real⟩ i = { slot ndim npart o i with flag := some v } ∧
      ∀ j < npart, j ≠ i → slot ndim npart ⟨int, o.real⟩ j = slot ndim npart o j := by
  have h1 : i < o.int.length := by have := hs.1; omega
  refine ⟨_, write_nat _ _ _ h1, ⟨by simp [hs.1], hs.2⟩, ?_, ?_⟩
  · simp only [slot]
    rw [List.getElem?_set_self h1, List.getElem?_set_ne (by omega), List.getElem?_set_ne (by omega)]
  · intro j hj hji
    simp only [slot]
    rw [List.getElem?_set_ne (by omega), List.getElem?_set_ne (by omega), List.getElem?_set_ne (by omega)]

theorem writeHit_spec {ndim npart : ℕ} (hnd : ndim = 2 ∨ ndim = 3) (o : Out K) (hs : Sized ndim npart o) (i : ℕ) (hi : i < npart) (b : Best K) :
    ∃ o', writeHit ndim npart o i b = some o' ∧ Sized ndim npart o' ∧
      slot ndim npart o' i = ⟨o.int[i]?, some b.group, some b.geom, some b.point.x, some b.point.y, if ndim = 3 then some b.point.z else none⟩ ∧
      ∀ j < npart, j ≠ i → slot ndim npart o' j = slot ndim npart o j := by
  unfold writeHit
  obtain ⟨hs1, hs2⟩ := hs
  have hl : npart * ndim = npart + npart ∨ (ndim = 3 ∧ npart * ndim = npart + npart + npart) := by
    rcases hnd with rfl | rfl
    · left; ring
    · right; exact ⟨rfl, by ring⟩
  rw [write_nat _ _ _ (by omega), Option.bind_some, write_nat _ _ _ (by rw [List.length_set]; omega), Option.bind_some,
    write_nat _ _ _ (by omega), Option.bind_some, write_nat _ _ _ (by rw [List.length_set]; omega), Option.bind_some]
  rcases hnd with rfl | rfl
  · rw [if_neg (by omega)]
    refine ⟨_, rfl, ⟨by simp; omega, by simp; omega⟩, ?_, ?_⟩
    · simp only [slot]
      rw [if_neg (by omega), if_neg (by omega), List.getElem?_set_ne (by omega), List.getElem?_set_ne (by omega),
        List.getElem?_set_ne (by omega), List.getElem?_set_self (by omega), List.getElem?_set_self (by rw [List.length_set]; omega),
        List.getElem?_set_ne (by omega), List.getElem?_set_self (by omega), List.getElem?_set_self (by rw [List.length_set]; omega)]
    · intro j hj hji
      simp only [slot]
      rw [if_neg (by omega), if_neg (by omega), List.getElem?_set_ne (by omega), List.getElem?_set_ne (by omega),
        List.getElem?_set_ne (by omega), List.getElem?_set_ne (by omega), List.getElem?_set_ne (by omega), List.getElem?_set_ne (by omega),
        List.getElem?_set_ne (by omega), List.getElem?_set_ne (by omega), List.getElem?_set_ne (by omega), List.getElem?_set_ne (by omega)]
  · rw [if_pos rfl, write_nat _ _ _ (by rw [List.length_set, List.length_set]; omega)]
    refine ⟨_, rfl, ⟨by simp; omega, by simp; omega⟩, ?_, ?_⟩
    · simp only [slot, if_true]
      rw [List.getElem?_set_ne (by omega), List.getElem?_set_ne (by omega),
        List.getElem?_set_ne (by omega), List.getElem?_set_self (by omega), List.getElem?_set_self (by rw [List.length_set]; omega),
        List.getElem?_set_ne (by omega), List.getElem?_set_ne (by omega), List.getElem?_set_self (by omega),
        List.getElem?_set_ne (by omega), List.getElem?_set_self (by rw [List.length_set]; omega),
        List.getElem?_set_self (by rw [List.length_set, List.length_set]; omega)]
    · intro j hj hji
      simp only [slot, if_true]
      rw [List.getElem?_set_ne (by omega), List.getElem?_set_ne (by omega), List.getElem?_set_ne (by omega),
        List.getElem?_set_ne (by omega), List.getElem?_set_ne (by omega), List.getElem?_set_ne (by omega), List.getElem?_set_ne (by omega),
        List.getElem?_set_ne (by omega), List.getElem?_set_ne (by omega), List.getElem?_set_ne (by omega), List.getElem?_set_ne (by omega),
        List.getElem?_set_ne (by omega), List.getElem?_set_ne (by omega), List.getElem?_set_ne (by omega), List.getElem?_set_ne (by omega)]

/-- A particle loop whose kernel works on the data of its particle only. -/
theorem particleLoop {ndim npart : ℕ} (kernel : Out K → Particle K → Option (Out K)) (F : Particle K → Slot K → Slot K) (particles : List (Particle K))
    (hidx : ∀ q ∈ particles, q.index < npart) (hnd : (particles.map Particle.index).Nodup)
    (hk : ∀ q ∈ particles, ∀ o, Sized ndim npart o → ∃ o', kernel o q = some o' ∧ Sized ndim npart o' ∧
      slot ndim npart o' q.index = F q (slot ndim npart o q.index) ∧ ∀ j < npart, j ≠ q.index → slot ndim npart o' j = slot ndim npart o j)
    (o : Out K) (ho : Sized ndim npart o) :
    ∃ o', particles.foldlM kernel o = some o' ∧ Sized ndim npart o' ∧
      (∀ q ∈ particles, slot ndim npart o' q.index = F q (slot ndim npart o q.index)) ∧
      ∀ j < npart, (∀ q ∈ particles, q.index ≠ j) → slot ndim npart o' j = slot ndim npart o j := by
  induction particles generalizing o with
  | nil => exact ⟨o, rfl, ho, by simp, fun _ _ _ => rfl⟩
  | cons q l ih =>
    obtain ⟨o1, h1, h2, h3, h4⟩ := hk q (by simp) o ho
    rw [List.map_cons, List.nodup_cons] at hnd
    obtain ⟨o', h5, h6, h7, h8⟩ := ih (fun x hx => hidx x (by simp [hx])) hnd.2 (fun x hx => hk x (by simp [hx])) o1 h2
    have hne : ∀ x ∈ l, x.index ≠ q.index := fun x hx he => hnd.1 (List.mem_map.mpr ⟨x, hx, he⟩)
    refine ⟨o', by rw [List.foldlM_cons, h1]; exact h5, h6, fun x hx => ?_, fun j hj hx => ?_⟩
    · rcases List.mem_cons.mp hx with rfl | hx
      · rw [h8 _ (hidx x (by simp)) hne, h3]
      · rw [h7 x hx, h4 _ (hidx x (by simp [hx])) (hne x hx)]
    · rw [h8 j hj fun x hx' => hx x (by simp [hx']), h4 j hj fun he => hx q (by simp) he.symm]

/-! ### The kernels -/

/-- What is stored for a hit. -/
def hitSlot (ndim : ℕ) (group geom : ℤ) (i : V3 K) : Slot K :=
  ⟨some 1, some group, some geom, some i.x, some i.y, if ndim = 3 then some i.z else none⟩

/-- The slot holds the nearest of the hits of `l`, closer than `lim`. -/
def Res (T : Tests K) (ndim : ℕ) (group : ℤ → Option ℤ) (p0 p1 : V3 K) (l : List (RG K)) (s : Slot K) : Prop :=
  (s.flag = some 0 ∧ ∀ r ∈ l, ∀ i, hitPoint T p0 p1 r.geom = some i → T.realMax ≤ sqDist p0 i) ∨
    ∃ r ∈ l, ∃ i, hitPoint T p0 p1 r.geom = some i ∧ s = hitSlot ndim ((group r.composite).getD 0) r.id i ∧ sqDist p0 i < T.realMax ∧
      ∀ r' ∈ l, ∀ i', hitPoint T p0 p1 r'.geom = some i' → sqDist p0 i ≤ sqDist p0 i'

section kernels
variable (T : Tests K) (group : ℤ → Option ℤ) (data : ℤ → List (RG K)) (tree : ℤ → Option (CC K)) (m : MH) (cart : ℕ → K → ℤ) (npart : ℕ)

/-- The candidates of a shape. -/
def cands (s : Shape) (q : Particle K) : List (RG K) := (examined m cart q).flatMap fun c => ofShape s (data c)

def bestOf (ndim : ℕ) (s : Shape) (lim : K) (q : Particle K) : Best K :=
  (cands data m cart s q).foldl (geomStep T group (point ndim q.pp) (point ndim q.p)) ⟨false, lim, ⟨0, 0, 0⟩, 0, 0⟩

theorem bestOf_spec (ndim : ℕ) (s : Shape) (lim : K) (q : Particle K) :
    ((bestOf T group data m cart ndim s lim q).found = false ∧ ∀ r ∈ cands data m cart s q, ∀ i,
      hitPoint T (point ndim q.pp) (point ndim q.p) r.geom = some i → lim ≤ sqDist (point ndim q.pp) i) ∨
    ∃ r ∈ cands data m cart s q, ∃ i, hitPoint T (point ndim q.pp) (point ndim q.p) r.geom = some i ∧
      bestOf T group data m cart ndim s lim q = ⟨true, sqDist (point ndim q.pp) i, i, (group r.composite).getD 0, r.id⟩ ∧
      sqDist (point ndim q.pp) i < lim ∧
      ∀ r' ∈ cands data m cart s q, ∀ i', hitPoint T (point ndim q.pp) (point ndim q.p) r'.geom = some i' →
        sqDist (point ndim q.pp) i ≤ sqDist (point ndim q.pp) i' := by
  rcases fold_nearest T group (point ndim q.pp) (point ndim q.p) (cands data m cart s q) ⟨false, lim, ⟨0, 0, 0⟩, 0, 0⟩ with ⟨h, h'⟩ | h
  · left
    exact ⟨by unfold bestOf; rw [h], h'⟩
  · right
    exact h

/-- The kernels with the loops over the geometries replaced. -/
def slotStep (ndim : ℕ) (b : Best K) (s : Slot K) : Slot K := if b.found then hitSlot ndim b.group b.geom b.point else s

theorem write_found {ndim : ℕ} (hnd : ndim = 2 ∨ ndim = 3) (o : Out K) (hs : Sized ndim npart o) (i : ℕ) (hi : i < npart) (b : Best K) :
    ∃ o', ((Mem.write o.int (i : ℤ) 1).bind fun int => writeHit ndim npart ⟨int, o.real⟩ i b) = some o' ∧ Sized ndim npart o' ∧
      slot ndim npart o' i = hitSlot ndim b.group b.geom b.point ∧ ∀ j < npart, j ≠ i → slot ndim npart o' j = slot ndim npart o j := by
  obtain ⟨int, h1, h2, h3, h4⟩ := writeFlag_spec hnd o hs i hi 1
  obtain ⟨o', h5, h6, h7, h8⟩ := writeHit_spec hnd ⟨int, o.real⟩ h2 i hi b
  refine ⟨o', by rw [h1]; exact h5, h6, ?_, fun j hj hji => by rw [h8 j hj hji, h4 j hj hji]⟩
  rw [h7]
  have : int[i]? = some 1 := congrArg Slot.flag h3
  rw [hitSlot]; simp only [this]

end kernels

section kernels2
variable (T : Tests K) (group : ℤ → Option ℤ) (data : ℤ → List (RG K)) (tree : ℤ → Option (CC K)) (m : MH) (cart : ℕ → K → ℤ) (npart : ℕ)
  (q : Particle K) (hq : q.index < npart)
  (htree : ∀ c ∈ examined m cart q, tree c = if data c ≠ [] then some (collectionOf group (data c)) else none)
include hq htree

theorem kernel2d_spec (o : Out K) (ho : Sized 2 npart o) : ∃ o', kernel2d m cart T tree npart o q = some o' ∧ Sized 2 npart o' ∧
    slot 2 npart o' q.index = slotStep 2 (bestOf T group data m cart 2 .seg T.realMax q) { slot 2 npart o q.index with flag := some 0 } ∧
    ∀ j < npart, j ≠ q.index → slot 2 npart o' j = slot 2 npart o j := by
  unfold kernel2d
  rw [overCells_spec tree data group .seg _ _ (segs_spec T group (point 2 q.pp) (point 2 q.p)) _ htree, Option.bind_some]
  change ∃ o', (Mem.write o.int (q.index : ℤ) (if (bestOf T group data m cart 2 .seg T.realMax q).found then 1 else 0)).bind (fun int =>
    if (bestOf T group data m cart 2 .seg T.realMax q).found then
      writeHit 2 npart ⟨int, o.real⟩ q.index (bestOf T group data m cart 2 .seg T.realMax q) else some ⟨int, o.real⟩) = some o' ∧ _
  unfold slotStep
  by_cases hf : (bestOf T group data m cart 2 .seg T.realMax q).found = true
  · simp only [hf, if_true]
    exact write_found npart (Or.inl rfl) o ho q.index hq _
  · simp only [hf]
    obtain ⟨int, h1, h2, h3, h4⟩ := writeFlag_spec (Or.inl rfl) o ho q.index hq 0
    exact ⟨⟨int, o.real⟩, by simp [h1], h2, by simpa using h3, h4⟩

theorem kernelQuads_spec (o : Out K) (ho : Sized 3 npart o) : ∃ o', kernelQuads m cart T tree npart o q = some o' ∧ Sized 3 npart o' ∧
    slot 3 npart o' q.index = slotStep 3 (bestOf T group data m cart 3 .quad T.realMax q) (slot 3 npart o q.index) ∧
    ∀ j < npart, j ≠ q.index → slot 3 npart o' j = slot 3 npart o j := by
  unfold kernelQuads
  rw [overCells_spec tree data group .quad _ _ (quads_spec T group (point 3 q.pp) (point 3 q.p)) _ htree, Option.bind_some]
  change ∃ o', (if (bestOf T group data m cart 3 .quad T.realMax q).found then (Mem.write o.int (q.index : ℤ) 1).bind (fun int =>
      writeHit 3 npart ⟨int, o.real⟩ q.index (bestOf T group data m cart 3 .quad T.realMax q)) else some o) = some o' ∧ _
  unfold slotStep
  by_cases hf : (bestOf T group data m cart 3 .quad T.realMax q).found = true
  · simp only [hf, if_true]
    exact write_found npart (Or.inr rfl) o ho q.index hq _
  · simp only [hf]
    exact ⟨o, rfl, ho, rfl, fun _ _ _ => rfl⟩

/-- The distance the second kernel starts from. -/
def startDist (q : Particle K) (s : Slot K) : K :=
  if s.flag.getD 0 ≠ 0 then sqDist (point 3 q.pp) ⟨s.x.getD 0, s.y.getD 0, s.z.getD 0⟩ else T.realMax

theorem kernelTris_spec (o : Out K) (ho : Sized 3 npart o) : ∃ o', kernelTris m cart T tree npart o q = some o' ∧ Sized 3 npart o' ∧
    slot 3 npart o' q.index =
      slotStep 3 (bestOf T group data m cart 3 .tri (startDist T q (slot 3 npart o q.index)) q) (slot 3 npart o q.index) ∧
    ∀ j < npart, j ≠ q.index → slot 3 npart o' j = slot 3 npart o j := by
  unfold kernelTris
  have hi : q.index < o.int.length := by have := ho.1; omega
  have h0 : q.index < o.real.length := by have := ho.2; omega
  have h1 : npart + q.index < o.real.length := by have := ho.2; omega
  have h2 : npart * 2 + q.index < o.real.length := by have := ho.2; omega
  rw [read_nat, read_nat, read_nat, read_nat, List.getElem?_eq_getElem hi, List.getElem?_eq_getElem h0, List.getElem?_eq_getElem h1,
    List.getElem?_eq_getElem h2, Option.bind_some, Option.bind_some, Option.bind_some, Option.bind_some]
  dsimp only
  have hd : (if o.int[q.index] ≠ 0 then (o.real[q.index] - q.pp 0) * (o.real[q.index] - q.pp 0) +
      (o.real[npart + q.index] - q.pp 1) * (o.real[npart + q.index] - q.pp 1) +
      (o.real[npart * 2 + q.index] - q.pp 2) * (o.real[npart * 2 + q.index] - q.pp 2) else T.realMax) = startDist T q (slot 3 npart o q.index) := by
    simp only [startDist, slot, List.getElem?_eq_getElem hi, List.getElem?_eq_getElem h0, List.getElem?_eq_getElem h1,
      List.getElem?_eq_getElem h2, Option.getD_some, if_true, sqDist, point]
    congr 1
    ring
  rw [hd, overCells_spec tree data group .tri _ _ (tris_spec T group (point 3 q.pp) (point 3 q.p)) _ htree, Option.bind_some]
  generalize startDist T q (slot 3 npart o q.index) = lim
  change ∃ o', (if (bestOf T group data m cart 3 .tri lim q).found then (Mem.write o.int (q.index : ℤ) 1).bind (fun int =>
      writeHit 3 npart ⟨int, o.real⟩ q.index (bestOf T group data m cart 3 .tri lim q)) else some o) = some o' ∧ _
  unfold slotStep
  by_cases hf : (bestOf T group data m cart 3 .tri lim q).found = true
  · simp only [hf, if_true]
    exact write_found npart (Or.inr rfl) o ho q.index hq _
  · simp only [hf]
    exact ⟨o, rfl, ho, rfl, fun _ _ _ => rfl⟩

end kernels2

/-! ### The passes together -/

section passes
variable (T : Tests K) (group : ℤ → Option ℤ) (data : ℤ → List (RG K)) (m : MH) (cart : ℕ → K → ℤ) (q : Particle K)

theorem res_first (ndim : ℕ) (sh : Shape) (s : Slot K) (hs : s.flag = some 0) :
    Res T ndim group (point ndim q.pp) (point ndim q.p) (cands data m cart sh q) (slotStep ndim (bestOf T group data m cart ndim sh T.realMax q) s) := by
  unfold slotStep
  rcases bestOf_spec T group data m cart ndim sh T.realMax q with ⟨h1, h2⟩ | ⟨r, hr, i, h1, h2, h3, h4⟩
  · left
    rw [h1]
    exact ⟨hs, h2⟩
  · right
    rw [h2]
    exact ⟨r, hr, i, h1, rfl, h3, h4⟩

theorem res_second (l : List (RG K)) (s : Slot K) (hs : Res T 3 group (point 3 q.pp) (point 3 q.p) l s) :
    Res T 3 group (point 3 q.pp) (point 3 q.p) (l ++ cands data m cart .tri q)
      (slotStep 3 (bestOf T group data m cart 3 .tri (startDist T q s) q) s) := by
  unfold slotStep
  rcases hs with ⟨hf, hl⟩ | ⟨r0, hr0, i0, a1, a2, a3, a4⟩
  · have hd : startDist T q s = T.realMax := by unfold startDist; rw [hf]; simp
    rw [hd]
    rcases bestOf_spec T group data m cart 3 .tri T.realMax q with ⟨h1, h2⟩ | ⟨r, hr, i, h1, h2, h3, h4⟩
    · left
      rw [h1]
      refine ⟨hf, fun r hr i hi => ?_⟩
      rcases List.mem_append.mp hr with hr | hr
      · exact hl r hr i hi
      · exact h2 r hr i hi
    · right
      rw [h2]
      refine ⟨r, List.mem_append_right _ hr, i, h1, rfl, h3, fun r' hr' i' hi' => ?_⟩
      rcases List.mem_append.mp hr' with hr' | hr'
      · exact le_trans h3.le (hl r' hr' i' hi')
      · exact h4 r' hr' i' hi'
  · have hd : startDist T q s = sqDist (point 3 q.pp) i0 := by unfold startDist; rw [a2]; simp [hitSlot]
    rw [hd]
    right
    rcases bestOf_spec T group data m cart 3 .tri (sqDist (point 3 q.pp) i0) q with ⟨h1, h2⟩ | ⟨r, hr, i, h1, h2, h3, h4⟩
    · rw [h1]
      refine ⟨r0, List.mem_append_left _ hr0, i0, a1, a2, a3, fun r' hr' i' hi' => ?_⟩
      rcases List.mem_append.mp hr' with hr' | hr'
      · exact a4 r' hr' i' hi'
      · exact h2 r' hr' i' hi'
    · rw [h2]
      refine ⟨r, List.mem_append_right _ hr, i, h1, rfl, lt_trans h3 a3, fun r' hr' i' hi' => ?_⟩
      rcases List.mem_append.mp hr' with hr' | hr'
      · exact le_trans h3.le (a4 r' hr' i' hi')
      · exact h4 r' hr' i' hi'

end passes

/-- What the buffers hold for a particle after the kernels. -/
def Reported (T : Tests K) (ndim npart : ℕ) (group : ℤ → Option ℤ) (data : ℤ → List (RG K)) (cells : List ℤ) (q : Particle K) (o : Out K) : Prop :=
  (IsHit T ndim data cells q ∧ ∃ r i, Nearest T ndim data cells q r i ∧ o.int[q.index]? = some 1 ∧
    o.int[npart + q.index]? = some ((group r.composite).getD 0) ∧ o.int[npart * 2 + q.index]? = some r.id ∧
    ∀ d < ndim, o.real[d * npart + q.index]? = (coords ndim i)[d]?) ∨
  (¬IsHit T ndim data cells q ∧ o.int[q.index]? = some 0)

theorem reported_of_res {T : Tests K} {ndim npart : ℕ} {group : ℤ → Option ℤ} {data : ℤ → List (RG K)} {cells : List ℤ} {q : Particle K} {o : Out K}
    (hnd : ndim = 2 ∨ ndim = 3) (l : List (RG K)) (hl : ∀ r, r ∈ l ↔ ∃ c ∈ cells, r ∈ data c)
    (h : Res T ndim group (point ndim q.pp) (point ndim q.p) l (slot ndim npart o q.index)) : Reported T ndim npart group data cells q o := by
  have hhit : ∀ r i, Hit T ndim data cells q r i ↔ r ∈ l ∧ hitPoint T (point ndim q.pp) (point ndim q.p) r.geom = some i := by
    intro r i
    unfold Hit
    rw [hl, hitPoint_iff]
  rcases h with ⟨h1, h2⟩ | ⟨r, hr, i, h1, h2, h3, h4⟩
  · right
    refine ⟨?_, h1⟩
    rintro ⟨r, i, h, hlt⟩
    have := (hhit r i).mp h
    exact absurd (h2 r this.1 i this.2) (not_le.mpr hlt)
  · left
    refine ⟨⟨r, i, (hhit r i).mpr ⟨hr, h1⟩, h3⟩, r, i, ⟨(hhit r i).mpr ⟨hr, h1⟩, fun r' i' h' => ?_⟩, ?_⟩
    · have := (hhit r' i').mp h'
      exact h4 r' this.1 i' this.2
    · simp only [slot, hitSlot, Slot.mk.injEq] at h2
      obtain ⟨e1, e2, e3, e4, e5, e6⟩ := h2
      refine ⟨e1, e2, e3, fun d hd => ?_⟩
      rcases hnd with rfl | rfl
      · have : d = 0 ∨ d = 1 := by omega
        rcases this with rfl | rfl
        · simpa [coords] using e4
        · simpa [coords] using e5
      · have : d = 0 ∨ d = 1 ∨ d = 2 := by omega
        rcases this with rfl | rfl | rfl
        · simpa [coords] using e4
        · simpa [coords] using e5
        · simpa [coords, mul_comm] using e6

section final
variable {T : Tests K} {group : ℤ → Option ℤ} {data : ℤ → List (RG K)} {m : MH} {cart : ℕ → K → ℤ} {npart : ℕ} {asked : List ℤ} {rank : Rank K}
  {particles : List (Particle K)}

theorem mem_cands (q : Particle K) (s : Shape) (r : RG K) :
    r ∈ cands data m cart s q ↔ (∃ c ∈ examined m cart q, r ∈ data c) ∧ r.geom.shape = s := by
  unfold cands
  simp only [List.mem_flatMap, C29.mem_ofShape]
  constructor
  · rintro ⟨c, hc, hr, hs⟩; exact ⟨⟨c, hc, hr⟩, hs⟩
  · rintro ⟨⟨c, hc, hr⟩, hs⟩; exact ⟨c, hc, hr, hs⟩

/-- After `find_intersections_2d` or `find_intersections_3d`, for each particle: the flag is 1 exactly if the step hits a geometry of the cells looked
at, and then the stored boundary group, geometry and point are those of a hit with the least distance from the start of the step. -/
theorem find_intersections_nearest (hnd : m.ndim = 2 ∨ m.ndim = 3) (hcoll : Collected m.ndim data group asked rank)
    (hshape : ∀ c ∈ asked, ∀ r ∈ data c, BoundaryShape m.ndim r.geom.shape) (hex : ∀ q ∈ particles, ∀ c ∈ examined m cart q, c ∈ asked)
    (hidx : ∀ q ∈ particles, q.index < npart) (hdist : (particles.map Particle.index).Nodup) (o : Out K) (ho : Sized m.ndim npart o)
    (hzero : ∀ q ∈ particles, o.int[q.index]? = some 0) :
    ∃ o', findIntersections m cart T rank.coll.tree npart particles o = some o' ∧ Sized m.ndim npart o' ∧
      ∀ q ∈ particles, Reported T m.ndim npart group data (examined m cart q) q o' := by
  have htree : ∀ q ∈ particles, ∀ c ∈ examined m cart q, rank.coll.tree c = if data c ≠ [] then some (collectionOf group (data c)) else none := by
    intro q hq c hc
    rw [hcoll.tree]
    simp [hex q hq c hc]
  unfold findIntersections
  rcases hnd with hn | hn
  · rw [if_neg (by omega)]
    rw [hn] at ho hshape ⊢
    obtain ⟨o', h1, h2, h3, h4⟩ := particleLoop (ndim := 2) (kernel2d m cart T rank.coll.tree npart)
      (fun q s => slotStep 2 (bestOf T group data m cart 2 .seg T.realMax q) { s with flag := some 0 }) particles hidx hdist
      (fun q hq o ho => kernel2d_spec T group data rank.coll.tree m cart npart q (hidx q hq) (htree q hq) o ho) o ho
    refine ⟨o', h1, h2, fun q hq => reported_of_res (Or.inl rfl) (cands data m cart .seg q) (fun r => ?_) ?_⟩
    · rw [mem_cands]
      refine ⟨fun h => h.1, fun h => ⟨h, ?_⟩⟩
      obtain ⟨c, hc, hr⟩ := h
      have := hshape c (hex q hq c hc) r hr
      unfold BoundaryShape at this
      simpa using this
    · rw [h3 q hq]
      exact res_first T group data m cart q 2 .seg _ rfl
  · rw [if_pos hn]
    rw [hn] at ho hshape ⊢
    obtain ⟨o1, h1, h2, h3, h4⟩ := particleLoop (ndim := 3) (kernelQuads m cart T rank.coll.tree npart)
      (fun q s => slotStep 3 (bestOf T group data m cart 3 .quad T.realMax q) s) particles hidx hdist
      (fun q hq o ho => kernelQuads_spec T group data rank.coll.tree m cart npart q (hidx q hq) (htree q hq) o ho) o ho
    obtain ⟨o', h5, h6, h7, h8⟩ := particleLoop (ndim := 3) (kernelTris m cart T rank.coll.tree npart)
      (fun q s => slotStep 3 (bestOf T group data m cart 3 .tri (startDist T q s) q) s) particles hidx hdist
      (fun q hq o ho => kernelTris_spec T group data rank.coll.tree m cart npart q (hidx q hq) (htree q hq) o ho) o1 h2
    refine ⟨o', by rw [h1, Option.bind_some]; exact h5, h6,
      fun q hq => reported_of_res (Or.inr rfl) (cands data m cart .quad q ++ cands data m cart .tri q) (fun r => ?_) ?_⟩
    · rw [List.mem_append, mem_cands, mem_cands]
      constructor
      · rintro (h | h) <;> exact h.1
      · intro h
        obtain ⟨c, hc, hr⟩ := h
        have := hshape c (hex q hq c hc) r hr
        unfold BoundaryShape at this
        rcases this with ⟨h, -⟩ | ⟨-, h | h⟩
        · omega
        · right; exact ⟨⟨c, hc, hr⟩, h⟩
        · left; exact ⟨⟨c, hc, hr⟩, h⟩
    · rw [h7 q hq, h3 q hq]
      exact res_second T group data m cart q _ _ (res_first T group data m cart q 3 .quad _ (hzero q hq))

/-! ### `get_intersections` -/

theorem subGroup_spec (f : Particle K → Option Bool) (g : Particle K → Bool) : ∀ (l : List (Particle K)), (∀ q ∈ l, f q = some (g q)) →
    subGroup f l = some (l.filter g) := by
  intro l
  induction l with
  | nil => intro _; rfl
  | cons q l ih =>
    intro h
    rw [subGroup, h q (by simp), ih fun x hx => h x (by simp [hx])]
    simp only [Option.bind_some, Option.map_some, List.filter_cons]

theorem mapM_reads (mem : List K) (ix : ℕ → ℕ) (v : List K) (n : ℕ) (hv : v.length = n) (h : ∀ d < n, mem[ix d]? = v[d]?) :
    ((List.range n).mapM fun dx => Mem.read mem (ix dx : ℕ)) = some v := by
  rw [mapM_some _ (fun d => v.getD d 0)]
  · rw [Option.some_inj]
    apply List.ext_getElem
    · simp [hv]
    · intro i h1 h2
      simp [List.getD_eq_getElem?_getD, List.getElem?_eq_getElem h2]
  · intro d hd
    rw [List.mem_range] at hd
    rw [read_nat, h d hd, List.getD_eq_getElem?_getD, List.getElem?_eq_getElem (by omega)]
    rfl

theorem length_coords {ndim : ℕ} (hnd : ndim = 2 ∨ ndim = 3) (i : V3 K) : (coords ndim i).length = ndim := by
  rcases hnd with rfl | rfl <;> rfl

/-- An entry reported for a particle describes a nearest hit. -/
def Describes (T : Tests K) (ndim : ℕ) (group : ℤ → Option ℤ) (data : ℤ → List (RG K)) (cells : List ℤ) (label : ℤ) (e : Entry K) : Prop :=
  IsHit T ndim data cells e.particle ∧ ∃ r i, Nearest T ndim data cells e.particle r i ∧ group r.composite = some label ∧
    e.metadata = (label, r.id) ∧ e.point = coords ndim i ∧ e.normal = r.geom.normal

/-- `get_intersections` returns one group of particles for each boundary group. Each entry is a particle whose step hits the boundary, with the boundary
group, geometry, point and normal of a nearest hit. A particle whose step hits the boundary is in exactly one group, once. -/
theorem get_intersections_exact (hnd : m.ndim = 2 ∨ m.ndim = 3) (hcoll : Collected m.ndim data group asked rank)
    (hgood : ∀ c ∈ asked, ∀ r ∈ data c, GoodGeom m.ndim group r)
    (hid : ∀ c ∈ asked, ∀ c' ∈ asked, ∀ g ∈ data c, ∀ g' ∈ data c', g.id = g'.id → g = g')
    (labels : List ℤ) (hlabels : ∀ c ∈ asked, ∀ r ∈ data c, ∀ l, group r.composite = some l → l ∈ labels)
    (hex : ∀ q ∈ particles, ∀ c ∈ examined m cart q, c ∈ asked)
    (hidx : ∀ q ∈ particles, q.index < npart) (hdist : (particles.map Particle.index).Nodup) (o : Out K) (ho : Sized m.ndim npart o)
    (hzero : ∀ q ∈ particles, o.int[q.index]? = some 0) :
    ∃ res, getIntersections m cart T rank.coll labels npart particles o = some res ∧ res.map Prod.fst = labels ∧
      (∀ x ∈ res, ∀ e ∈ x.2, e.particle ∈ particles ∧ Describes T m.ndim group data (examined m cart e.particle) x.1 e) ∧
      (∀ x ∈ res, (x.2.map fun e => e.particle.index).Nodup) ∧
      (∀ q ∈ particles, IsHit T m.ndim data (examined m cart q) q → ∃ x ∈ res, ∃ e ∈ x.2, e.particle = q) ∧
      ∀ x ∈ res, ∀ y ∈ res, ∀ e ∈ x.2, ∀ e' ∈ y.2, e.particle.index = e'.particle.index → x.1 = y.1 := by
  obtain ⟨o', h1, h2, h3⟩ := find_intersections_nearest (T := T) hnd hcoll (fun c hc r hr => (hgood c hc r hr).1) hex hidx hdist o ho hzero
  unfold getIntersections
  rw [h1, Option.bind_some]
  -- the flag and the group read for a particle
  have hflag : ∀ q ∈ particles, (Mem.read o'.int (q.index : ℕ)).map (fun f => decide (f = 1)) = some (decide (o'.int[q.index]? = some 1)) := by
    intro q hq
    have : q.index < o'.int.length := by have := h2.1; have := hidx q hq; omega
    rw [read_nat, List.getElem?_eq_getElem this]
    simp
  have hgroup : ∀ label, ∀ q ∈ particles, (Mem.read o'.int (npart + q.index : ℕ)).map (fun g => decide (g = label)) =
      some (decide (o'.int[npart + q.index]? = some label)) := by
    intro label q hq
    have : npart + q.index < o'.int.length := by have := h2.1; have := hidx q hq; omega
    rw [read_nat, List.getElem?_eq_getElem this]
    simp
  rw [subGroup_spec _ _ particles hflag, Option.bind_some]
  -- a particle that hits
  have hhit : ∀ q ∈ particles, o'.int[q.index]? = some 1 → IsHit T m.ndim data (examined m cart q) q ∧ ∃ r i,
      Nearest T m.ndim data (examined m cart q) q r i ∧
      (∃ l ∈ labels, group r.composite = some l ∧ o'.int[npart + q.index]? = some l ∧
        entry m.ndim npart rank.coll.normals o' q = some ⟨q, coords m.ndim i, (l, r.id), r.geom.normal⟩) := by
    intro q hq hf
    rcases h3 q hq with ⟨hh, r, i, hn, e1, e2, e3, e4⟩ | ⟨-, e⟩
    · refine ⟨hh, r, i, hn, ?_⟩
      obtain ⟨c, hc, hr⟩ := hn.1.1
      have hca := hex q hq c hc
      have hg := hgood c hca r hr
      obtain ⟨l, hl⟩ := Option.isSome_iff_exists.mp hg.2.1
      rw [hl, Option.getD_some] at e2
      refine ⟨l, hlabels c hca r hr l hl, hl, e2, ?_⟩
      obtain ⟨ptr, hp⟩ := hcoll.normals.1 r ⟨c, hca, hr⟩
      obtain ⟨r', ⟨c', hc', hr'⟩, hid', hval⟩ := hcoll.normals.2 r.id ptr hp
      have : r' = r := hid c' hc' c hca r' hr' r hr hid'
      rw [this] at hval
      unfold entry
      rw [mapM_reads o'.real (fun d => d * npart + q.index) (coords m.ndim i) m.ndim (length_coords hnd i) e4, Option.bind_some,
        read_nat, e2, Option.bind_some, read_nat, e3, Option.bind_some, hp, Option.bind_some,
        mapM_reads ptr.data (fun d => ptr.offset + d) r.geom.normal m.ndim hg.2.2]
      · rfl
      · intro d hd
        rw [← hval, List.getElem?_take_of_lt hd, List.getElem?_drop]
    · rw [e] at hf; simp at hf
  let qs := fun label => (particles.filter fun q => decide (o'.int[q.index]? = some 1)).filter fun q => decide (o'.int[npart + q.index]? = some label)
  have hqs : ∀ label q, q ∈ qs label ↔ q ∈ particles ∧ o'.int[q.index]? = some 1 ∧ o'.int[npart + q.index]? = some label := by
    intro label q
    simp only [qs, List.mem_filter, decide_eq_true_eq, and_assoc]
  let ent := fun q => (entry m.ndim npart rank.coll.normals o' q).getD ⟨q, [], (0, 0), []⟩
  rw [mapM_some _ (fun label => (label, (qs label).map ent)) labels]
  · have hent : ∀ label, ∀ e ∈ (qs label).map ent, ∃ q ∈ particles, o'.int[q.index]? = some 1 ∧ o'.int[npart + q.index]? = some label ∧
        e.particle = q ∧ Describes T m.ndim group data (examined m cart q) label e := by
      intro label e he
      obtain ⟨q, hqm, rfl⟩ := List.mem_map.mp he
      obtain ⟨hq, hf, hg⟩ := (hqs label q).mp hqm
      obtain ⟨hh, r, i, hn, l, hl, hl2, hl3, hl4⟩ := hhit q hq hf
      have : l = label := by rw [hl3] at hg; exact Option.some_inj.mp hg
      subst this
      have hE : ent q = ⟨q, coords m.ndim i, (l, r.id), r.geom.normal⟩ := by simp only [ent]; rw [hl4]; rfl
      refine ⟨q, hq, hf, hg, by rw [hE], ?_⟩
      rw [hE]
      exact ⟨hh, r, i, hn, hl2, rfl, rfl, rfl⟩
    refine ⟨_, rfl, by rw [List.map_map]; exact List.map_id' labels, ?_, ?_, ?_, ?_⟩
    · intro x hx e he
      obtain ⟨label, hlab, rfl⟩ := List.mem_map.mp hx
      obtain ⟨q, hq, -, -, rfl, hd⟩ := hent label e he
      exact ⟨hq, hd⟩
    · intro x hx
      obtain ⟨label, hlab, rfl⟩ := List.mem_map.mp hx
      have : ((qs label).map ent).map (fun e => e.particle.index) = (qs label).map Particle.index := by
        rw [List.map_map]
        refine List.map_congr_left fun q hq => ?_
        obtain ⟨hq, hf, hg⟩ := (hqs label q).mp hq
        obtain ⟨hh, r, i, hn, l, hl, hl2, hl3, hl4⟩ := hhit q hq hf
        simp only [Function.comp, ent, hl4, Option.getD_some]
      dsimp only
      rw [this]
      exact hdist.sublist (((List.filter_sublist).trans List.filter_sublist).map _)
    · intro q hq hh
      rcases h3 q hq with ⟨-, r, i, hn, e1, -⟩ | ⟨hn, -⟩
      · obtain ⟨-, r, i, hn, l, hl, hl2, hl3, hl4⟩ := hhit q hq e1
        refine ⟨(l, (qs l).map ent), List.mem_map.mpr ⟨l, hl, rfl⟩, ent q, List.mem_map.mpr ⟨q, (hqs l q).mpr ⟨hq, e1, hl3⟩, rfl⟩, ?_⟩
        simp only [ent, hl4, Option.getD_some]
      · exact absurd hh hn
    · intro x hx y hy e he e' he' hee
      obtain ⟨a, ha, rfl⟩ := List.mem_map.mp hx
      obtain ⟨b, hb, rfl⟩ := List.mem_map.mp hy
      obtain ⟨q, hq, -, hg, rfl, -⟩ := hent a e he
      obtain ⟨q', hq', -, hg', rfl, -⟩ := hent b e' he'
      rw [hee, hg'] at hg
      exact (Option.some_inj.mp hg).symm
  · intro label hl
    rw [subGroup_spec _ _ _ (fun q hq => hgroup label q (List.mem_filter.mp hq).1), Option.bind_some]
    rw [mapM_some _ ent]
    · rfl
    · intro q hq
      obtain ⟨hq, hf, hg⟩ := (hqs label q).mp hq
      obtain ⟨hh, r, i, hn, l, hl, hl2, hl3, hl4⟩ := hhit q hq hf
      simp only [ent, hl4, Option.getD_some]

end final

/-! ### A step through the boundary is found -/

/-- A step that crosses a geometry of the boundary is a hit: if the geometry is given for the cells its enlarged bounding box meets (C29,
`given_exact`), and the step, which starts in the grid, hits it at a point that is in the grid and in its bounding box. -/
theorem crossing_is_hit [IsStrictOrderedRing K] [FloorRing K] {T : Tests K} {data : ℤ → List (RG K)} {g : MHGeom K} (hm : GridGeom g) (hnd : g.ndim = 2 ∨ g.ndim = 3)
    {cart : ℕ → K → ℤ} (hcart : CartOk g cart) (q : Particle K) (hq : InGrid g.toMH fun d => cart d (q.pp d)) (r : RG K) (len : K) (hlen : 0 < len)
    (hdata : ∀ c, BoxMeets g (fun d => r.geom.lo d - len / 50) (fun d => r.geom.hi d + len / 50) c → r ∈ data c)
    (i : V3 K) (hhit : HitsGeom T r.geom (point g.ndim q.pp) (point g.ndim q.p) i) (hfin : sqDist (point g.ndim q.pp) i < T.realMax)
    (s : K) (hs0 : 0 ≤ s) (hs1 : s ≤ 1) (hi : ∀ d < g.ndim, (coords g.ndim i)[d]? = some (q.pp d + s * (q.p d - q.pp d)))
    (hgrid : ∀ d < g.ndim, ∀ x, (coords g.ndim i)[d]? = some x → g.origin d ≤ x ∧ x ≤ g.origin d + ((g.dims d * g.ncf : ℤ) : K) * g.width)
    (hbox : ∀ d < g.ndim, ∀ x, (coords g.ndim i)[d]? = some x → r.geom.lo d ≤ x ∧ x ≤ r.geom.hi d) :
    IsHit T g.ndim data (examined g.toMH cart q) q := by
  obtain ⟨t, c, h1, h2, h3, h4⟩ := step_examined hm hcart q hq s hs0 hs1 fun d hd => hgrid d hd _ (hi d hd)
  exact ⟨r, i, ⟨⟨c, h3, hdata c (C29.touching_cell_meets hm _ _ len hlen t h1 c h2 _ (fun d hd => hbox d hd _ (hi d hd)) h4)⟩, hhit⟩, hfin⟩

/-! ### A concrete case -/

/-- Two cells in a row, with the segments of C29: segment 1 is hit at `x = 3/2`, segment 2 at `x = 1`. -/
def exTests : Tests ℚ where
  plane _ := ⟨⟨0, 0, 0⟩, ⟨0, 0, 1⟩, 0⟩
  quadFound _ _ _ _ := false
  triFound _ _ := false
  lli g p0 _ := (true, ⟨if g.id = 1 then 3 / 2 else 1, p0.y, 0⟩)
  gridX := 1
  gridY := 1
  realMax := 1000

def exMH : MH := ⟨2, fun d => if d = 0 then 2 else 1, 1⟩
def exParticle : Particle ℚ := ⟨0, 0, fun d => if d = 0 then 9 / 5 else 1 / 2, fun _ => 1 / 2⟩

/-- All hypotheses of `get_intersections_exact` hold for this case, and the particle, for which segments of both groups are hit, is reported for
group 200, at `x = 1`. -/
example : ∃ rank res, Collected 2 C29.exData C29.exGroup [0, 1] rank ∧
    getIntersections exMH (fun _ x => ⌊x⌋) exTests rank.coll [100, 200] 1 [exParticle] ⟨[0, 7, 7], [0, 0]⟩ = some res ∧
    ∃ e, (200, [e]) ∈ res ∧ e.metadata = (200, 2) ∧ e.point = [1, 1 / 2] ∧ e.normal = [1, 0] := by
  have hgood : ∀ x, ∀ g ∈ C29.exData x, GoodGeom 2 C29.exGroup g := by
    intro x g hg
    unfold C29.exData at hg
    split_ifs at hg
    · simp only [List.mem_singleton] at hg
      subst hg
      exact ⟨Or.inl ⟨rfl, rfl⟩, by simp [C29.exGroup], rfl⟩
    · simp only [List.mem_cons, List.not_mem_nil, or_false] at hg
      rcases hg with rfl | rfl
      · exact ⟨Or.inl ⟨rfl, rfl⟩, by simp [C29.exGroup], rfl⟩
      · exact ⟨Or.inl ⟨rfl, rfl⟩, by simp [C29.exGroup], rfl⟩
    · simp at hg
  obtain ⟨ranks, -, hl, hr⟩ := C29.after_any_history 2 C29.exData (fun _ => []) C29.exGroup 1 [[[0, 1]]] (by simp)
    (fun _ _ _ _ x _ g hg => hgood x g hg)
  have h0 : ranks[0]? = some (ranks[0]'(by omega)) := List.getElem?_eq_getElem (by omega)
  generalize ranks[0]'(by omega) = rank at h0
  have hc : Collected 2 C29.exData C29.exGroup [0, 1] rank := by simpa using hr 0 rank h0
  have hex : examined exMH (fun _ x => ⌊x⌋) exParticle = [0, 1] := by decide +kernel
  have hmem : ∀ c g, g ∈ C29.exData c → g = ⟨7, 1, C29.exSeg 1⟩ ∨ g = ⟨8, 2, C29.exSeg 2⟩ := by
    intro c g hg
    unfold C29.exData at hg
    split_ifs at hg <;> simp at hg <;> simp [hg]
  obtain ⟨res, h1, h2, h3, h4, h5, h6⟩ := get_intersections_exact (m := exMH) (T := exTests) (cart := fun _ x => ⌊x⌋) (npart := 1)
    (particles := [exParticle]) (Or.inl rfl) hc (fun c _ r hr => hgood c r hr) (fun c _ c' _ g hg g' hg' he => by
      rcases hmem c g hg with rfl | rfl <;> rcases hmem c' g' hg' with rfl | rfl <;> simp_all) [100, 200]
    (fun c _ r hr l hl => by rcases hmem c r hr with rfl | rfl <;> simp [C29.exGroup] at hl <;> simp [hl])
    (fun q hq c hc => by rw [List.mem_singleton.mp hq, hex] at hc; exact hc) (by simp [exParticle]) (by simp) ⟨[0, 7, 7], [0, 0]⟩
    ⟨by simp, by simp [exMH]⟩ (by simp [exParticle])
  refine ⟨rank, res, hc, h1, ?_⟩
  -- segment 2 is the nearest
  have hs1 : Hit exTests 2 C29.exData [0, 1] exParticle ⟨7, 1, C29.exSeg 1⟩ ⟨3 / 2, 1 / 2, 0⟩ :=
    ⟨⟨0, by simp, by simp [C29.exData]⟩, by simp [HitsGeom, C29.exSeg, exTests, point, exParticle]⟩
  have hs2 : Hit exTests 2 C29.exData [0, 1] exParticle ⟨8, 2, C29.exSeg 2⟩ ⟨1, 1 / 2, 0⟩ :=
    ⟨⟨1, by simp, by simp [C29.exData]⟩, by simp [HitsGeom, C29.exSeg, exTests, point, exParticle]⟩
  obtain ⟨x, hx, e, he, hep⟩ := h5 exParticle (by simp) (by
    rw [hex]
    exact ⟨_, _, hs1, by norm_num [sqDist, point, exParticle, exTests, exMH]⟩)
  obtain ⟨-, -, r, i, hn, hg, hm, hp, hnor⟩ := h3 x hx e he
  rw [hep, hex] at hn
  have hr : r = ⟨8, 2, C29.exSeg 2⟩ ∧ i = ⟨1, 1 / 2, 0⟩ := by
    have hhit := hn.1.2
    obtain ⟨c, hc, hr⟩ := hn.1.1
    rcases hmem c r hr with rfl | rfl
    · exfalso
      have hi : i = ⟨3 / 2, 1 / 2, 0⟩ := by
        simp [HitsGeom, C29.exSeg, exTests, point, exParticle, exMH] at hhit
        rw [← hhit]; norm_num
      have := hn.2 _ _ hs2
      rw [hi] at this
      norm_num [sqDist, point, exParticle, exMH] at this
    · refine ⟨rfl, ?_⟩
      simp [HitsGeom, C29.exSeg, exTests, point, exParticle, exMH] at hhit
      rw [← hhit]; norm_num
  obtain ⟨rfl, rfl⟩ := hr
  simp [C29.exGroup] at hg
  obtain ⟨lab, es⟩ := x
  dsimp only at hg
  subst hg
  have hone : es = [e] := by
    have hnod := h4 _ hx
    dsimp only at hnod he
    have hall : ∀ e' ∈ es, e'.particle.index = 0 := fun e' he' => by
      have := (h3 _ hx e' he').1
      rw [List.mem_singleton] at this
      rw [this]; rfl
    match es, he, hnod, hall with
    | [a], he, _, _ => simp at he; rw [he]
    | a :: b :: l, _, hnod, hall =>
      have ha := hall a (by simp)
      have hb := hall b (by simp)
      simp [ha, hb] at hnod
  exact ⟨e, hone ▸ hx, hm, by rw [hp]; rfl, by rw [hnor]; rfl⟩

end Verif.Props.C32
