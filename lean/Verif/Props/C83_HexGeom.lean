import Verif.Model.HexGeom
import Verif.Spec.HexGeom
import Mathlib.Algebra.Order.Field.Basic
import Mathlib.Tactic.Linarith
import Mathlib.Tactic.Ring
import Mathlib.Tactic.FieldSimp
import Mathlib.Tactic.NormNum
import Mathlib.Tactic.IntervalCases

/-!
C83. `make_hex_geom`: the curves of the edges are the map on the edges of the cube; two of the six faces have wrong curves.

`Z` are the points of `PolyEPoints` (evenly spaced in `[-1, 1]`, from -1 to 1).
-/

namespace Verif.Props.C83
open Verif.Spec.HexGeom Verif.Model.HexGeom

variable {K : Type*} [Field K]

/-- The index of the corner of the cube with the given signs. -/
theorem vertices_are_corners (xmap : P3 K → P3 K) :
    (vertices xmap).map Point.pos = [(-1, -1, -1), (1, -1, -1), (1, 1, -1), (-1, 1, -1), (-1, -1, 1), (1, -1, 1), (1, 1, 1), (-1, 1, 1)].map xmap ∧
      (vertices xmap).map Point.id = List.range 8 := by
  constructor <;> rfl

/-- The numbers of the edges of a face close up to a cycle, and its corners are these. -/
theorem corners (fx : ℕ) (h : fx < 6) : CornersOf (fun e => mapEdgeToVertices.getD e (0, 0)) (mapFaceToEdges.getD fx [])
    (([[0, 1, 2, 3], [0, 1, 5, 4], [1, 2, 6, 5], [2, 3, 7, 6], [3, 0, 4, 7], [4, 5, 6, 7]] : List (List ℕ)).getD fx []) := by
  unfold CornersOf
  interval_cases fx <;> decide

theorem cornersOf_unique (ev : ℕ → ℕ × ℕ) (fe v w : List ℕ) (hv : CornersOf ev fe v) (hw : CornersOf ev fe w) (hd : v.Nodup) : v = w := by
  obtain ⟨l1, _, h1⟩ := hv
  obtain ⟨l2, _, h2⟩ := hw
  obtain ⟨a, b, c, d, rfl⟩ : ∃ a b c d, v = [a, b, c, d] := by
    match v, l1 with
    | [a, b, c, d], _ => exact ⟨a, b, c, d, rfl⟩
  obtain ⟨a', b', c', d', rfl⟩ : ∃ a b c d, w = [a, b, c, d] := by
    match w, l2 with
    | [a, b, c, d], _ => exact ⟨a, b, c, d, rfl⟩
  have e0 := h1 0 (by omega); have e1 := h1 1 (by omega); have e2 := h1 2 (by omega); have e3 := h1 3 (by omega)
  have f0 := h2 0 (by omega); have f1 := h2 1 (by omega); have f2 := h2 2 (by omega); have f3 := h2 3 (by omega)
  simp only [List.getD_cons_zero, List.getD_cons_succ, Nat.reduceAdd, Nat.reduceMod] at e0 e1 e2 e3 f0 f1 f2 f3
  simp only [List.nodup_cons, List.mem_cons, List.not_mem_nil, or_false, not_or] at hd
  obtain ⟨⟨n1, n2, n3⟩, ⟨n4, n5⟩, n6, _⟩ := hd
  have g0 : (a' = a ∧ b' = b) ∨ (a' = b ∧ b' = a) := by
    rcases e0 with e | e <;> rcases f0 with f | f <;> rw [e, Prod.mk.injEq] at f <;> omega
  have g1 : (b' = b ∧ c' = c) ∨ (b' = c ∧ c' = b) := by
    rcases e1 with e | e <;> rcases f1 with f | f <;> rw [e, Prod.mk.injEq] at f <;> omega
  have g2 : (c' = c ∧ d' = d) ∨ (c' = d ∧ d' = c) := by
    rcases e2 with e | e <;> rcases f2 with f | f <;> rw [e, Prod.mk.injEq] at f <;> omega
  have : a' = a ∧ b' = b ∧ c' = c ∧ d' = d := by omega
  rw [this.1, this.2.1, this.2.2.1, this.2.2.2]

/-- **C83, edges.** For every map and every number of modes: edge `e` joins its two corners, and its curve consists of the images of the points `Z` on the straight edge of the cube. -/
theorem edges_exact [CharZero K] (n : ℕ) (Z : ℕ → K) (xmap : P3 K → P3 K) (ex : ℕ) (h : ex < 12) :
    ∃ a b : ℕ, a < 8 ∧ b < 8 ∧ ((edges n Z xmap)[ex]?).map (fun e => e.verts.map Point.pos) = some [xmap (vertex a), xmap (vertex b)] ∧
      mapEdgeToVertices[ex]? = some (a, b) ∧
      ((edges n Z xmap)[ex]?).map (fun e => e.curve.map Point.pos) =
        some ((List.range n).map fun i => xmap (onLine (vertex a) (vertex b) ((1 + Z i) / 2))) := by
  have hv : ∀ k : ℕ, ∀ i, qpoint1 (normalised Z) i (vertex (mapEdgeToVertices.getD k (0, 0)).1) (vertex (mapEdgeToVertices.getD k (0, 0)).2) =
      onLine (vertex (mapEdgeToVertices.getD k (0, 0)).1) (vertex (mapEdgeToVertices.getD k (0, 0)).2) ((1 + Z i) / 2) := by
    intro k i
    simp only [qpoint1, onLine, normalised, Prod.mk.injEq]
    refine ⟨?_, ?_, ?_⟩ <;> ring
  refine ⟨(mapEdgeToVertices.getD ex (0, 0)).1, (mapEdgeToVertices.getD ex (0, 0)).2, ?_, ?_, ?_, ?_, ?_⟩
  · interval_cases ex <;> decide
  · interval_cases ex <;> decide
  · unfold edges
    rw [List.getElem?_map, List.getElem?_range h]
    rfl
  · interval_cases ex <;> rfl
  · unfold edges
    rw [List.getElem?_map, List.getElem?_range h]
    simp only [Option.map_some, points, edgeRefs, List.map_map, Option.some.injEq]
    rw [show ((fun p : Point K => p.pos) ∘ fun r : P3 K × ℕ => (⟨8 + ex * n + r.2, xmap r.1⟩ : Point K)) = fun r => xmap r.1 from rfl]
    rw [show (fun r : P3 K × ℕ => xmap r.1) = xmap ∘ Prod.fst from rfl, ← List.map_map, List.zipIdx_map_fst, List.map_map]
    refine List.map_congr_left fun i _ => ?_
    simp only [Function.comp]
    rw [hv]

/-- The vertices of an edge are vertices of the element: the same points, with the same ids. -/
theorem edge_vertices_shared (n : ℕ) (Z : ℕ → K) (xmap : P3 K → P3 K) (ex : ℕ) (h : ex < 12) (a b : ℕ) (hab : mapEdgeToVertices[ex]? = some (a, b)) :
    ∃ va vb, (vertices xmap)[a]? = some va ∧ (vertices xmap)[b]? = some vb ∧ ((edges n Z xmap)[ex]?).map Edge.verts = some [va, vb] := by
  refine ⟨⟨a, xmap (vertex a)⟩, ⟨b, xmap (vertex b)⟩, ?_, ?_, ?_⟩
  · interval_cases ex <;> (simp only [mapEdgeToVertices, List.getElem?_cons_zero, List.getElem?_cons_succ, Option.some.injEq, Prod.mk.injEq] at hab; obtain ⟨rfl, rfl⟩ := hab; rfl)
  · interval_cases ex <;> (simp only [mapEdgeToVertices, List.getElem?_cons_zero, List.getElem?_cons_succ, Option.some.injEq, Prod.mk.injEq] at hab; obtain ⟨rfl, rfl⟩ := hab; rfl)
  · unfold edges
    rw [List.getElem?_map, List.getElem?_range h]
    simp only [Option.map_some, List.getD_eq_getElem?_getD, hab, Option.getD_some]

/-- All points have different ids, from zero on. -/
theorem ids_distinct (n : ℕ) (Z : ℕ → K) (xmap : P3 K → P3 K) :
    ((vertices xmap).map Point.id ++ ((edges n Z xmap).flatMap fun e => e.curve.map Point.id) ++ ((faces n Z xmap).flatMap fun f => f.curve.map Point.id)) =
      List.range (8 + 12 * n + 6 * (n * n)) := by
  have hids : ∀ (first : ℕ) (l : List (P3 K)), (points xmap first l).map Point.id = (List.range l.length).map (first + ·) := by
    intro first l
    unfold points
    refine List.ext_getElem? fun i => ?_
    by_cases hi : i < l.length
    · simp [hi, List.getElem?_eq_getElem hi]
    · simp [List.getElem?_eq_none (not_lt.1 hi), not_lt.1 hi]
  have hblock : ∀ (m w first : ℕ) (b : ℕ → List ℕ), (∀ k, b k = (List.range w).map (first + k * w + ·)) →
      (List.range m).flatMap b = (List.range (m * w)).map (first + ·) := by
    intro m w first b hb
    induction m with
    | zero => simp
    | succ m ih =>
      rw [List.range_succ, List.flatMap_append, ih, List.flatMap_cons, List.flatMap_nil, List.append_nil, hb, Nat.succ_mul, List.range_add, List.map_append, List.map_map]
      congr 1
      refine List.map_congr_left fun i _ => ?_
      simp only [Function.comp]
      omega
  have e2 : (edges n Z xmap).flatMap (fun e => e.curve.map Point.id) = (List.range (12 * n)).map (8 + ·) := by
    unfold edges
    rw [List.flatMap_map]
    refine hblock 12 n 8 _ fun k => ?_
    rw [hids]
    simp [edgeRefs]
  have e3 : (faces n Z xmap).flatMap (fun f => f.curve.map Point.id) = (List.range (6 * (n * n))).map (8 + 12 * n + ·) := by
    unfold faces
    rw [List.flatMap_map]
    refine hblock 6 (n * n) (8 + 12 * n) _ fun k => ?_
    rw [hids]
    simp [faceRefs, List.length_flatMap]
  rw [(vertices_are_corners xmap).2, e2, e3, List.range_add, List.range_add]

theorem faceRefs_get (n : ℕ) (Z : ℕ → K) (fx i j : ℕ) (hi : i < n) (hj : j < n) :
    (faceRefs n Z fx)[i * n + j]? = some (qpoint2 (normalised Z) i j (vertex ((mapFaceToVertices.getD fx []).getD 0 0)) (vertex ((mapFaceToVertices.getD fx []).getD 1 0))
      (vertex ((mapFaceToVertices.getD fx []).getD 3 0))) := by
  unfold faceRefs
  dsimp only
  generalize hf : (fun mx my => qpoint2 (normalised Z) mx my (vertex ((mapFaceToVertices.getD fx []).getD 0 0)) (vertex ((mapFaceToVertices.getD fx []).getD 1 0))
      (vertex ((mapFaceToVertices.getD fx []).getD 3 0))) = f
  have key : ∀ m i, i < m → ((List.range m).flatMap fun mx => (List.range n).map fun my => f mx my)[i * n + j]? = some (f i j) := by
    intro m
    induction m with
    | zero => intro i hi; omega
    | succ m ih =>
      intro i hi
      rw [List.range_succ, List.flatMap_append, List.flatMap_cons, List.flatMap_nil, List.append_nil]
      have hl : ((List.range m).flatMap fun mx => (List.range n).map fun my => f mx my).length = m * n := by
        simp [List.length_flatMap]
      rcases Nat.lt_succ_iff_lt_or_eq.1 hi with h | rfl
      · rw [List.getElem?_append_left, ih i h]
        rw [hl]
        calc i * n + j < i * n + n := by omega
          _ = (i + 1) * n := by ring
          _ ≤ m * n := Nat.mul_le_mul_right n h
      · rw [List.getElem?_append_right (by omega), hl, Nat.add_sub_cancel_left, List.getElem?_map, List.getElem?_range hj]
        rfl
  have := key n i hi
  subst hf
  exact this

/-- The point with indices `(i, j)` of the curve of a face. -/
def facePoint (n : ℕ) (Z : ℕ → K) (xmap : P3 K → P3 K) (fx k : ℕ) : Option (P3 K) := ((faces n Z xmap)[fx]?).bind fun f => f.curve[k]?.map Point.pos

theorem facePoint_eq (n : ℕ) (Z : ℕ → K) (xmap : P3 K → P3 K) (fx : ℕ) (h : fx < 6) (i j : ℕ) (hi : i < n) (hj : j < n) :
    facePoint n Z xmap fx (i * n + j) = some (xmap (qpoint2 (normalised Z) i j (vertex ((mapFaceToVertices.getD fx []).getD 0 0))
      (vertex ((mapFaceToVertices.getD fx []).getD 1 0)) (vertex ((mapFaceToVertices.getD fx []).getD 3 0)))) := by
  unfold facePoint faces
  rw [List.getElem?_map, List.getElem?_range h]
  simp only [Option.map_some, Option.bind_some, points, List.getElem?_map, List.getElem?_zipIdx, faceRefs_get n Z fx i j hi hj]

/-- **C83, four of the six faces.** On the faces 0, 2, 3 and 5 the curve has the images of the points with fractions `(1 + Z i) / 2`, `(1 + Z j) / 2` between the corners of the face, for every map
and number of modes; the index of the first direction is the slow one. -/
theorem faces_exact_partial [CharZero K] (n : ℕ) (Z : ℕ → K) (xmap : P3 K → P3 K) (fx : ℕ) (h : fx = 0 ∨ fx = 2 ∨ fx = 3 ∨ fx = 5) (v : List ℕ)
    (hv : CornersOf (fun e => mapEdgeToVertices.getD e (0, 0)) (mapFaceToEdges.getD fx []) v) (i j : ℕ) (hi : i < n) (hj : j < n) :
    facePoint n Z xmap fx (i * n + j) =
      some (xmap (onFace (vertex (v.getD 0 0)) (vertex (v.getD 1 0)) (vertex (v.getD 3 0)) ((1 + Z i) / 2) ((1 + Z j) / 2))) := by
  have hlt : fx < 6 := by omega
  have hu := cornersOf_unique _ _ _ _ (corners fx hlt) hv (by rcases h with rfl | rfl | rfl | rfl <;> decide)
  rw [facePoint_eq n Z xmap fx hlt i j hi hj, ← hu]
  have e : ∀ a b c : P3 K, qpoint2 (normalised Z) i j a b c = onFace a b c ((1 + Z i) / 2) ((1 + Z j) / 2) := by
    intro a b c
    simp only [qpoint2, onFace, normalised, add_comm (1 : K)]
  rw [e]
  rcases h with rfl | rfl | rfl | rfl <;> rfl

/-- The full claim for the faces: every face has the images of the points between its corners, in the order of the comment or in the order of the loops. It is false, see `wrong_faces`. -/
def FacesClaim (n : ℕ) (Z : ℕ → K) (xmap : P3 K → P3 K) : Prop :=
  ∀ fx < 6, ∀ v, CornersOf (fun e => mapEdgeToVertices.getD e (0, 0)) (mapFaceToEdges.getD fx []) v → ∀ i < n, ∀ j < n,
    facePoint n Z xmap fx (i * n + j) =
      some (xmap (onFace (vertex (v.getD 0 0)) (vertex (v.getD 1 0)) (vertex (v.getD 3 0)) ((1 + Z i) / 2) ((1 + Z j) / 2)))

/-- The hypotheses are satisfied: face 2 of a hexahedron with three modes. -/
example : facePoint (K := ℚ) 3 (fun i => (i : ℚ) - 1) (fun p => (2 * p.1, p.2.1, p.2.2)) 2 (1 * 3 + 2) = some (2, 0, 1) := by
  have := faces_exact_partial (K := ℚ) 3 (fun i => (i : ℚ) - 1) (fun p => (2 * p.1, p.2.1, p.2.2)) 2 (by omega) [1, 2, 6, 5] (corners 2 (by omega)) 1 2 (by omega) (by omega)
  rw [this]
  simp [onFace, vertex, coordsVertices]
  norm_num

section order
variable [LinearOrder K] [IsStrictOrderedRing K]

/-- **Finding: faces 1 and 4.** With the identity as map and two or more points from `-1` to `1`, the curves of the faces 1 and 4 contain the points `(3, -1, 1)` and `(-3, 1, 1)`, which are not on
the cube (the table of the vertices has two vertices of face 1 exchanged, and a wrong vertex in face 4). -/
theorem wrong_faces (n : ℕ) (hn : 2 ≤ n) (Z : ℕ → K) (h1 : Z (n - 1) = 1) :
    facePoint n Z id 1 ((n - 1) * n + (n - 1)) = some (3, -1, 1) ∧ ¬ OnCubeSurface ((3, -1, 1) : P3 K) ∧
      facePoint n Z id 4 ((n - 1) * n + (n - 1)) = some (-3, 1, 1) ∧ ¬ OnCubeSurface ((-3, 1, 1) : P3 K) := by
  refine ⟨?_, ?_, ?_, ?_⟩
  · rw [facePoint_eq n Z id 1 (by omega) _ _ (by omega) (by omega)]
    simp [qpoint2, normalised, h1, vertex, coordsVertices, mapFaceToVertices]
    norm_num
  · rintro ⟨⟨_, h⟩, _⟩
    norm_num at h
  · rw [facePoint_eq n Z id 4 (by omega) _ _ (by omega) (by omega)]
    simp [qpoint2, normalised, h1, vertex, coordsVertices, mapFaceToVertices]
    norm_num
  · rintro ⟨⟨h, _⟩, _⟩
    norm_num at h

/-- The full claim fails for the identity. -/
theorem facesClaim_false (n : ℕ) (hn : 2 ≤ n) (Z : ℕ → K) (h1 : Z (n - 1) = 1) : ¬ FacesClaim n Z id := by
  intro h
  have := h 1 (by omega) _ (corners 1 (by omega)) (n - 1) (by omega) (n - 1) (by omega)
  rw [(wrong_faces n hn Z h1).1] at this
  simp [onFace, vertex, coordsVertices, h1] at this

/-- **Finding: order of the points.** The comment in the function says that the first direction of a face is the fast one; on no face of the identity the points are in this order (if `Z 0 = -1` is not `Z 1`). -/
theorem slow_first_direction (n : ℕ) (hn : 2 ≤ n) (Z : ℕ → K) (h0 : Z 0 = -1) (h1 : Z 1 ≠ -1) (fx : ℕ) (h : fx = 0 ∨ fx = 2 ∨ fx = 3 ∨ fx = 5) (v : List ℕ)
    (hv : CornersOf (fun e => mapEdgeToVertices.getD e (0, 0)) (mapFaceToEdges.getD fx []) v) :
    facePoint n Z id fx 1 ≠ some (onFace (vertex (v.getD 0 0)) (vertex (v.getD 1 0)) (vertex (v.getD 3 0)) ((1 + Z 1) / 2) ((1 + Z 0) / 2)) := by
  have := faces_exact_partial n Z id fx h v hv 0 1 (by omega) (by omega)
  rw [Nat.zero_mul, Nat.zero_add] at this
  rw [this]
  have hu := cornersOf_unique _ _ _ _ (corners fx (by omega)) hv (by rcases h with rfl | rfl | rfl | rfl <;> decide)
  rw [← hu]
  have hne : (1 + Z 1) / 2 ≠ 0 := by
    intro e
    apply h1
    linarith [(div_eq_zero_iff.1 e).resolve_right two_ne_zero]
  rw [h0]
  generalize (1 + Z 1) / 2 = s at hne
  rw [Ne, Option.some.injEq]
  rcases h with rfl | rfl | rfl | rfl <;>
    (simp [onFace, vertex, coordsVertices]
     intros
     first
       | exact fun h => hne (by linarith)
       | exact ⟨hne, by norm_num⟩
       | exact ⟨by norm_num, hne⟩)

end order

end Verif.Props.C83
