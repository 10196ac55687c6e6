import Verif.Props.C84_Regular
import Verif.Props.C57_Halo2D
import Verif.Props.C60_Halo3D

/-!
C85. Halos and mapping together: on the rank that owns the cell of the mesh hierarchy of its position, each particle is bound to the element of the distributed mesh that contains it.
-/

namespace Verif.Props.C85
open Verif.Model Verif.Model.CartesianMesh Verif.Model.CoarseLookup Verif.Model.MapChain Verif.Model.DeviceMapper Verif.Spec Verif.Spec.Mapping Verif.Props.C34
  Verif.Props.C35 Verif.Props.C55 Verif.Props.C40 Verif.Model.RegularMap Verif.Model.NewtonKernel Verif.Model.NewtonElements Verif.Props.C84
open Verif.Model.MeshHierarchy Verif.Model.Claims
open Verif.Spec.LinearElements
open Verif.Props.C39 (AffineImage)

/-! ### Cells and elements -/

section cells
variable {K : Type} [Field K] [LinearOrder K] [IsStrictOrderedRing K]

/-- The position is in the cell, and on an upper bound of the cell only if this is the upper bound of the domain; the interior of the cell meets the domain. -/
def InCell (m : MHGeom K) (ghi : ℕ → K) (c : ℕ → ℤ) (p : ℕ → K) : Prop :=
  ∀ d < m.ndim, m.origin d + (c d : K) * m.width ≤ p d ∧ p d ≤ m.origin d + ((c d : K) + 1) * m.width ∧
    (p d = m.origin d + ((c d : K) + 1) * m.width → p d = ghi d) ∧ m.origin d + (c d : K) * m.width < ghi d

/-- The position is in a cell that the rank owns. -/
def InOwnedCell (m : MHGeom K) (owner : ℤ → ℤ) (ghi : ℕ → K) (r : ℤ) (p : ℕ → K) : Prop :=
  ∃ c id, InGrid m.toMH c ∧ HasLinearIndex m.toMH c id ∧ owner id = r ∧ InCell m ghi c p

/-- A position in a domain that is covered by closed elements: an element contains it whose bounding box meets the cell of the position. -/
theorem cell_element {ι : Type*} [Finite ι] (m : MHGeom K) (hm : GridGeom m) (glo ghi : ℕ → K) (hlh : ∀ d < m.ndim, glo d < ghi d) (region : ι → Set (ℕ → K))
    (hc : Covers m.ndim glo ghi region) (hcl : ∀ i, RayClosed (region i)) (box : ι → ℕ → K)
    (hbox : ∀ i, ∀ p ∈ region i, ∀ d < m.ndim, box i d ≤ p d ∧ p d ≤ box i (d + 3)) (c : ℕ → ℤ) (id : ℤ) (hcg : InGrid m.toMH c) (hid : HasLinearIndex m.toMH c id) (p : ℕ → K)
    (hp : ∀ d < m.ndim, glo d ≤ p d ∧ p d ≤ ghi d) (hpc : InCell m ghi c p) :
    ∃ i, p ∈ region i ∧ BoxMeets m (box i) (fun d => box i (d + 3)) id ∧
      ∀ d < m.ndim, box i d < box i (d + 3) ∧ box i d ≤ p d ∧ p d ≤ box i (d + 3) ∧ (p d = box i (d + 3) → p d = ghi d) := by
  obtain ⟨i, h1, h2, x, h3⟩ := region_with_room m.ndim (fun d => max (glo d) (m.origin d + (c d : K) * m.width)) (fun d => min (ghi d) (m.origin d + ((c d : K) + 1) * m.width))
    (by
      intro d hd
      obtain ⟨a1, a2, a3, a4⟩ := hpc d hd
      have hw := hm.2.2.1
      refine max_lt (lt_min (hlh d hd) ?_) (lt_min a4 (by linarith))
      rcases eq_or_lt_of_le a2 with h | h
      · rw [← h, a3 h]
        exact hlh d hd
      · exact (hp d hd).1.trans_lt h) region (by
      intro q hq
      refine hc q fun d hd => ?_
      obtain ⟨b1, b2⟩ := hq d hd
      exact ⟨(le_max_left _ _).trans b1, b2.trans (min_le_left _ _)⟩) hcl box hbox p (by
      intro d hd
      obtain ⟨a1, a2, _⟩ := hpc d hd
      exact ⟨max_le (hp d hd).1 a1, le_min (hp d hd).2 a2⟩)
  refine ⟨i, h1, ⟨c, hcg, hid, x, fun d hd => ?_⟩, fun d hd => ?_⟩
  · obtain ⟨b1, b2, b3⟩ := h3 d hd
    exact ⟨b1, (le_max_right _ _).trans_lt b2, b3.trans_le (min_le_right _ _)⟩
  · obtain ⟨b1, b2, b3, b4⟩ := h2 d hd
    refine ⟨b1, b2, b3, fun h => ?_⟩
    have := b4 h
    rcases min_choice (ghi d) (m.origin d + ((c d : K) + 1) * m.width) with h' | h'
    · rw [this, h']
    · rw [h'] at this
      exact (hpc d hd).2.2.1 this

/-- Positions below the upper bounds of the domain are in the cell given by rounding down. -/
theorem inCell_floor [FloorRing K] (m : MHGeom K) (hm : GridGeom m) (ghi : ℕ → K) (p : ℕ → K) (h : ∀ d < m.ndim, p d < ghi d) :
    InCell m ghi (fun d => ⌊(p d - m.origin d) * m.invWidth⌋) p := by
  intro d hd
  have hw := hm.2.2.1
  have hi := hm.2.2.2
  have hx : (p d - m.origin d) * m.invWidth * m.width = p d - m.origin d := by rw [mul_assoc, hi, mul_one]
  have f1 := mul_le_mul_of_nonneg_right (Int.floor_le ((p d - m.origin d) * m.invWidth)) hw.le
  have f2 := mul_lt_mul_of_pos_right (Int.lt_floor_add_one ((p d - m.origin d) * m.invWidth)) hw
  rw [hx] at f1 f2
  have := h d hd
  exact ⟨by linarith, by linarith, fun e => by linarith, by linarith⟩

end cells

/-! ### One mapper for known elements -/

section known
variable {K : Type*} [Field K] [LinearOrder K] [IsStrictOrderedRing K] [FloorRing K]

/-- The regular mapper of 2D: particles in elements of the mapper are found. -/
theorem regular_found_2d (big : K) (hbig : 0 < big) (scaling : K → ℤ) (hsc : ∀ f, 1 < f → 0 < scaling f ∧ f ≤ (scaling f : K) ^ 2) (tol0 t : K) (h0 : 0 < tol0) (ht : 0 ≤ t)
    (E : List (Elem2 K)) (hE : ∀ e ∈ E, Regular2 e.shape e.c) (hadm : Admissible 2 big (E.map Elem2.geom)) :
    ∃ m, mkMapper 2 big scaling (E.map Elem2.geom) = some m ∧ ∀ (mc : ℤ) (g : Cells K), (∀ d < 2, m.lookup.mesh.cellCounts d < 2147483648) →
      (∀ q, Searched mc g q → ∃ e ∈ E, q.pos ∈ e.region ∧ InBox 2 (E.map Elem2.geom) e.geom.box q.pos) →
      ∃ g', map2D (some (m.stage (test2d tol0 t E))) none mc g = some g' ∧ AllSel mc (fun q => 0 ≤ q.rank) g' ∧
        Related (fun q q' => q' = q ∨ (q.rank < 0 ∧ ∃ e ∈ E, ∃ x y : K, q' = { q with rank := e.geom.rank, cell := e.geom.gid, ref := [x, y] } ∧
          point2 e.shape e.c x y = (q.pos 0, q.pos 1))) g g' := by
  obtain ⟨m, hm, _⟩ := mapper_correct 2 (by omega) (by omega) big hbig scaling hsc _ hadm
  refine ⟨m, hm, fun mc g hfit hp => ?_⟩
  let b : Built 2 big scaling := ⟨E.map Elem2.geom, m, hm, test2d tol0 t E, test2d tol0 t E, fun _ => ∅⟩
  set P : (ℕ → K) → Prop := fun p => ∃ e ∈ E, p ∈ e.region ∧ InBox 2 (E.map Elem2.geom) e.geom.box p with hP
  have hrange : ∀ p, P p → InRange m p := by
    rintro p ⟨e, he, _, hin⟩
    refine inRange_of_bounds 2 (by omega) (by omega) big hbig scaling hsc _ hadm m hm hfit p fun d hd => ?_
    obtain ⟨_, h1, h2, _⟩ := hin d hd
    exact ⟨⟨_, List.mem_map_of_mem he, h1⟩, _, List.mem_map_of_mem he, h2⟩
  obtain ⟨g', e1, e2⟩ := map2D_complete P (some b.stage1) none mc g (by
      intro s hs
      rw [Option.mem_def, Option.some.injEq] at hs
      subst hs
      exact ⟨fun q hq hp => (built_total (by omega) (by omega) hbig hsc b hadm b.test1).ends q hq (hrange _ hp), fun q hq => kernel_mapped m _ q hq⟩) (by simp) hp (by
      rintro p ⟨e, he, hreg, hin⟩
      obtain ⟨k, hk, rfl⟩ := List.getElem_of_mem he
      refine Or.inl ⟨_, rfl, built_finds (by omega) (by omega) hbig hsc b hadm b.test1 p (hrange p ⟨_, he, hreg, hin⟩) k (by simpa [b] using hk) ?_ ?_⟩
      · simpa [b] using hin
      · show (test2d tol0 t E p k).isSome
        unfold test2d
        rw [List.getElem?_eq_getElem hk, Option.bind_some, Option.isSome_map]
        exact (regular_2d tol0 t h0 ht _ _ (hE _ he) (p 0) (p 1)).1 hreg)
  refine ⟨g', e1, e2, ?_⟩
  have hs := built_sound (by omega) (by omega) hbig hsc b hadm b.test1
  have e3 := (map2D_correct (acc := assignments b.geoms b.test1) (some b.stage1) none mc g g' (by
      intro s hs'
      rw [Option.some.injEq] at hs'
      subst hs'
      exact hs) (by simp) e1).1
  refine List.Forall₂.imp (fun c c' hcc => List.Forall₂.imp (fun q q' hqq => ?_) hcc) e3
  rcases hqq with h | ⟨hq, a, ha', _, rfl⟩
  · exact Or.inl h
  · refine Or.inr ⟨hq, ?_⟩
    obtain ⟨k, hkl, a1, a2, a3⟩ := ha'
    have hkl' : k < E.length := by simpa [b] using hkl
    have hge : (b.geoms[k]) = (E[k]).geom := by simp [b]
    have a3' : test2d tol0 t E q.pos k = some a.ref := a3
    unfold test2d at a3'
    rw [List.getElem?_eq_getElem hkl', Option.bind_some, Option.map_eq_some_iff] at a3'
    obtain ⟨x, hx, hr⟩ := a3'
    refine ⟨E[k], List.getElem_mem hkl', x.1, x.2, by rw [a1, a2, hge, ← hr], ?_⟩
    exact (regular_2d tol0 t h0 ht _ _ (hE _ (List.getElem_mem hkl')) (q.pos 0) (q.pos 1)).2.2 x hx

/-- As `regular_found_2d` for the regular mapper of 3D (`host`: what the host mapper does). -/
theorem regular_found_3d (big : K) (hbig : 0 < big) (scaling : K → ℤ) (hsc : ∀ f, 1 < f → 0 < scaling f ∧ f ≤ (scaling f : K) ^ 3) (tol0 t : K) (h0 : 0 < tol0) (ht : 0 ≤ t)
    (code : Shape3 → ℤ) (hcode : Function.Injective code) (E : List (Elem3 K)) (hE : ∀ e ∈ E, AffineImage (shape e.shape) e.A e.b e.c ∧ e.A.det ≠ 0) (hadm : Admissible 3 big (E.map Elem3.geom)) :
    ∃ m, mkMapper 3 big scaling (E.map Elem3.geom) = some m ∧ ∀ (newton : List (Option (Stage K × Stage K))) (_ : ∀ s ∈ newton, s = none) (host : Stage K)
      (hostAcc : (ℕ → K) → Set (Assignment K)) (_ : Sound hostAcc host) (mc : ℤ) (g : Cells K), (∀ d < 3, m.lookup.mesh.cellCounts d < 2147483648) →
      (∀ q, Searched mc g q → ∃ e ∈ E, q.pos ∈ e.region ∧ InBox 3 (E.map Elem3.geom) e.geom.box q.pos) →
      (-1 < mc → ∀ (i : ℕ) (h : i < g.length), selected mc i = false → ∀ q ∈ g[i], 0 ≤ q.rank) →
      ∃ g', map3D (some (m.stage (test3d tol0 t code E))) newton host mc g = some g' ∧ AllSel mc (fun q => 0 ≤ q.rank) g' ∧
        Related (fun q q' => q' = q ∨ (q.rank < 0 ∧ ∃ e ∈ E, ∃ w : V3 K, q' = { q with rank := e.geom.rank, cell := e.geom.gid, ref := [w.x, w.y, w.z] } ∧
          V3.get ⟨q.pos 0, q.pos 1, q.pos 2⟩ = e.A.mulVec (V3.get w) + e.b) ∨ ∃ a ∈ hostAcc q.pos, q' = { q with rank := a.rank, cell := a.cell, ref := a.ref }) g g' := by
  obtain ⟨m, hm, _⟩ := mapper_correct 3 (by omega) (by omega) big hbig scaling hsc _ hadm
  refine ⟨m, hm, fun newton hnewton host hostAcc hhost mc g hfit hp hother => ?_⟩
  let b : Built 3 big scaling := ⟨E.map Elem3.geom, m, hm, test3d tol0 t code E, test3d tol0 t code E, fun _ => ∅⟩
  set P : (ℕ → K) → Prop := fun p => ∃ e ∈ E, p ∈ e.region ∧ InBox 3 (E.map Elem3.geom) e.geom.box p with hP
  have hrange : ∀ p, P p → InRange m p := by
    rintro p ⟨e, he, _, hin⟩
    refine inRange_of_bounds 3 (by omega) (by omega) big hbig scaling hsc _ hadm m hm hfit p fun d hd => ?_
    obtain ⟨_, h1, h2, _⟩ := hin d hd
    exact ⟨⟨_, List.mem_map_of_mem he, h1⟩, _, List.mem_map_of_mem he, h2⟩
  obtain ⟨g', e1, e2⟩ := map3D_complete P (some b.stage1) newton host mc g (by
      intro s hs
      rw [Option.mem_def, Option.some.injEq] at hs
      subst hs
      exact ⟨fun q hq hp => (built_total (by omega) (by omega) hbig hsc b hadm b.test1).ends q hq (hrange _ hp), fun q hq => kernel_mapped m _ q hq⟩) (by
      intro s hs d hd
      rw [hnewton s hs] at hd
      cases hd) hp (by
      rintro p ⟨e, he, hreg, hin⟩
      obtain ⟨k, hk, rfl⟩ := List.getElem_of_mem he
      refine Or.inl ⟨_, rfl, built_finds (by omega) (by omega) hbig hsc b hadm b.test1 p (hrange p ⟨_, he, hreg, hin⟩) k (by simpa [b] using hk) ?_ ?_⟩
      · simpa [b] using hin
      · show (test3d tol0 t code E p k).isSome
        unfold test3d
        rw [List.getElem?_eq_getElem hk, Option.bind_some, Option.isSome_map]
        exact (regular_3d tol0 t h0 ht code hcode _ (hE _ he).1 (hE _ he).2 ⟨p 0, p 1, p 2⟩).1 hreg) hother
  refine ⟨g', e1, e2, ?_⟩
  have hs := built_sound (by omega) (by omega) hbig hsc b hadm b.test1
  have e3 := (map3D_correct (acc := fun p => {a | a ∈ hostAcc p ∨ a ∈ assignments b.geoms b.test1 p}) (some b.stage1) newton host mc g g' (by
      intro s hs'
      rw [Option.some.injEq] at hs'
      subst hs'
      exact fun q q' e => KeptOrAssigned.mono (fun p a ha => Or.inr ha) (hs q q' e)) (by
      intro s hs' d hd
      rw [hnewton s hs'] at hd
      cases hd) (fun q q' e => KeptOrAssigned.mono (fun p a ha => Or.inl ha) (hhost q q' e)) e1).1
  refine List.Forall₂.imp (fun c c' hcc => List.Forall₂.imp (fun q q' hqq => ?_) hcc) e3
  rcases hqq with h | ⟨hq, a, ha', _, rfl⟩
  · exact Or.inl h
  · rcases ha' with ha' | ha'
    · exact Or.inr (Or.inr ⟨a, ha', rfl⟩)
    refine Or.inr (Or.inl ⟨hq, ?_⟩)
    obtain ⟨k, hkl, a1, a2, a3⟩ := ha'
    have hkl' : k < E.length := by simpa [b] using hkl
    have hge : (b.geoms[k]) = (E[k]).geom := by simp [b]
    have a3' : test3d tol0 t code E q.pos k = some a.ref := a3
    unfold test3d at a3'
    rw [List.getElem?_eq_getElem hkl', Option.bind_some, Option.map_eq_some_iff] at a3'
    obtain ⟨x, hx, hr⟩ := a3'
    refine ⟨E[k], List.getElem_mem hkl', x, by rw [a1, a2, hge, ← hr], ?_⟩
    exact (regular_3d tol0 t h0 ht code hcode _ (hE _ (List.getElem_mem hkl')).1 (hE _ (List.getElem_mem hkl')).2 ⟨q.pos 0, q.pos 1, q.pos 2⟩).2.2 x hx

end known

/-! ### The distributed mesh, 2D -/

section two
open Verif.Model.Bytes Verif.Model.PackedGeom2D Verif.Model.Mpi Verif.Model.HaloExchange Verif.Lemmas.Mpi Verif.Props.C57
variable {K : Type} [Field K] [LinearOrder K] [IsStrictOrderedRing K] [FloorRing K] {n : ℕ}

/-- What is computed from the data of a geometry: vertices and `GetBoundingBox`. The data of an element and of its copies on other ranks is the same (C18). -/
structure View2 (K : Type) where
  verts : Shape2 → Geom → ℕ → V3 K
  box : Shape2 → Geom → ℕ → K

/-- A geometry of the mesh of rank `r` in the mapper, map_particles_2d_regular.cpp:77-92. -/
def localElem (V : View2 K) (r : Fin n) (sh : Shape2) (e : ℤ × LGeom K) : Elem2 K := ⟨⟨e.1, r.val, V.box sh e.2.geom⟩, sh, V.verts sh e.2.geom⟩

/-- A remote geometry in the mapper, map_particles_2d_regular.cpp:93-108. -/
def remoteElem (V : View2 K) (sh : Shape2) (x : Remote) : Elem2 K := ⟨⟨x.id.toInt, x.rank.toInt, V.box sh x.geom⟩, sh, V.verts sh x.geom⟩

/-- The elements of a rank. -/
def elementsOf (mesh : Mesh2d K) : List (Shape2 × ℤ × LGeom K) := (mesh.tris.map fun e => (.tri, e)) ++ mesh.quads.map fun e => (.quad, e)

/-- The geometries given to the mapper of a rank after the construction of the halos, map_particles_2d_regular.cpp:16-46 (all of them are regular). -/
def known (V : View2 K) (mesh : Mesh2d K) (r : Fin n) (out : List Remote × List Remote) : List (Elem2 K) :=
  ((elementsOf mesh).map fun x => localElem V r x.1 x.2) ++ (out.1.map (remoteElem V .tri) ++ out.2.map (remoteElem V .quad))

/-- A distributed mesh of triangles and parallelograms that cover a box. -/
structure Mesh2Ok (V : View2 K) (big : K) (m : MHGeom K) (owner : ℤ → ℤ) (glo ghi : ℕ → K) (mesh : Fin n → Mesh2d K) : Prop where
  input : InputOk m owner mesh
  ndim : m.ndim = 2
  domain : ∀ d < 2, glo d < ghi d
  /-- The bounding boxes that claimed the cells are those of the mapper. -/
  boxes : ∀ s, ∀ x ∈ elementsOf (mesh s), ∀ d < 2, x.2.2.lo d = V.box x.1 x.2.2.geom d ∧ x.2.2.hi d = V.box x.1 x.2.2.geom (d + 3)
  finite : ∀ s, ∀ x ∈ elementsOf (mesh s), ∀ i < 6, -big ≤ V.box x.1 x.2.2.geom i ∧ V.box x.1 x.2.2.geom i ≤ big
  width : ∀ s, ∀ x ∈ elementsOf (mesh s), ∀ d < 2, V.box x.1 x.2.2.geom d < V.box x.1 x.2.2.geom (d + 3)
  regular : ∀ s, ∀ x ∈ elementsOf (mesh s), Regular2 x.1 (V.verts x.1 x.2.2.geom)
  /-- Each bounding box contains its element and does not exceed the domain, or has a margin. -/
  contains : ∀ s, ∀ x ∈ elementsOf (mesh s), ∀ p ∈ (localElem V s x.1 x.2).region, ∀ d < 2, V.box x.1 x.2.2.geom d ≤ p d ∧ p d ≤ V.box x.1 x.2.2.geom (d + 3)
  margin : ∀ d < 2, (∀ s, ∀ x ∈ elementsOf (mesh s), V.box x.1 x.2.2.geom (d + 3) ≤ ghi d) ∨
    ∀ s, ∀ x ∈ elementsOf (mesh s), ∀ p ∈ (localElem V s x.1 x.2).region, p d < V.box x.1 x.2.2.geom (d + 3)
  /-- The ids are those of the whole mesh. -/
  unique : ∀ s s', ∀ x ∈ elementsOf (mesh s), ∀ x' ∈ elementsOf (mesh s'), x.2.1 = x'.2.1 → s = s' ∧ x = x'
  covers : ∀ p : ℕ → K, (∀ d < 2, glo d ≤ p d ∧ p d ≤ ghi d) → ∃ s, ∃ x ∈ elementsOf (mesh s), p ∈ (localElem V s x.1 x.2).region

omit [Field K] [LinearOrder K] [IsStrictOrderedRing K] [FloorRing K] in
theorem remoteElem_asRemote (V : View2 K) (sh : Shape2) (hn : n ≤ 2 ^ 31) (s : Fin n) (e : ℤ × LGeom K) (he : -2 ^ 31 ≤ e.1 ∧ e.1 < 2 ^ 31) :
    remoteElem V sh (asRemote s e) = localElem V s sh e := by
  unfold remoteElem localElem asRemote
  have h1 : (BitVec.ofInt 32 e.1).toInt = e.1 := by rw [BitVec.toInt_ofInt, Int.bmod_eq_of_le (by omega) (by omega)]
  have h2 : (BitVec.ofNat 32 s.val).toInt = s.val := Verif.Lemmas.toInt_ofNat32 _ (by have := s.isLt; omega)
  simp only [h1, h2]

omit [IsStrictOrderedRing K] [FloorRing K] in
theorem boxMeets_congr {m : MHGeom K} {lo hi lo' hi' : ℕ → K} (h : ∀ d < m.ndim, lo d = lo' d ∧ hi d = hi' d) (c : ℤ) : BoxMeets m lo hi c ↔ BoxMeets m lo' hi' c := by
  unfold BoxMeets BoxMeetsCell
  refine exists_congr fun t => and_congr_right fun _ => and_congr_right fun _ => exists_congr fun x => forall_congr' fun d => ?_
  constructor
  · intro hx hd
    rw [← (h d hd).1, ← (h d hd).2]
    exact hx hd
  · intro hx hd
    rw [(h d hd).1, (h d hd).2]
    exact hx hd

omit [IsStrictOrderedRing K] [FloorRing K] in
/-- What a rank knows: elements of the mesh with the rank that has them, among them all that meet its cells, each once. -/
theorem known_spec {V : View2 K} {big : K} {m : MHGeom K} {owner : ℤ → ℤ} {glo ghi : ℕ → K} {mesh : Fin n → Mesh2d K} (h : Mesh2Ok V big m owner glo ghi mesh) (r : Fin n)
    (out : List Remote × List Remote) (ho : Post m owner mesh r out) :
    ((known V (mesh r) r out).map fun e => e.geom.gid).Nodup ∧ (∀ E ∈ known V (mesh r) r out, ∃ s, ∃ x ∈ elementsOf (mesh s), E = localElem V s x.1 x.2) ∧
    ∀ s, ∀ x ∈ elementsOf (mesh s), ∀ c, owner c = r.val → BoxMeets m x.2.2.lo x.2.2.hi c → localElem V s x.1 x.2 ∈ known V (mesh r) r out := by
  have tri : ∀ s, ∀ e ∈ (mesh s).tris, ((Shape2.tri, e) : Shape2 × ℤ × LGeom K) ∈ elementsOf (mesh s) := by
    intro s e he
    exact List.mem_append_left _ (List.mem_map_of_mem he)
  have quad : ∀ s, ∀ e ∈ (mesh s).quads, ((Shape2.quad, e) : Shape2 × ℤ × LGeom K) ∈ elementsOf (mesh s) := by
    intro s e he
    exact List.mem_append_right _ (List.mem_map_of_mem he)
  have back : ∀ s, ∀ x ∈ elementsOf (mesh s), (x.1 = .tri ∧ x.2 ∈ (mesh s).tris) ∨ (x.1 = .quad ∧ x.2 ∈ (mesh s).quads) := by
    intro s x hx
    rcases List.mem_append.1 hx with h | h
    · obtain ⟨e, he, rfl⟩ := List.mem_map.1 h
      exact Or.inl ⟨rfl, he⟩
    · obtain ⟨e, he, rfl⟩ := List.mem_map.1 h
      exact Or.inr ⟨rfl, he⟩
  have hn := h.input.ranks
  have rt : ∀ z ∈ out.1, ∃ s, s ≠ r ∧ ∃ e ∈ (mesh s).tris, z = asRemote s e ∧ remoteElem V .tri z = localElem V s .tri e := by
    intro z hz
    obtain ⟨s, hs, e, he, rfl, _⟩ := (ho.1.2 z).1 hz
    exact ⟨s, hs, e, he, rfl, remoteElem_asRemote V .tri hn s e (h.input.tris.range s e he)⟩
  have rq : ∀ z ∈ out.2, ∃ s, s ≠ r ∧ ∃ e ∈ (mesh s).quads, z = asRemote s e ∧ remoteElem V .quad z = localElem V s .quad e := by
    intro z hz
    obtain ⟨s, hs, e, he, rfl, _⟩ := (ho.2.2 z).1 hz
    exact ⟨s, hs, e, he, rfl, remoteElem_asRemote V .quad hn s e (h.input.quads.range s e he)⟩
  refine ⟨?_, ?_, ?_⟩
  · unfold known
    rw [List.map_append, List.map_append, List.nodup_append, List.nodup_append]
    simp only [List.map_map]
    refine ⟨?_, ⟨?_, ?_, ?_⟩, ?_⟩
    · refine List.Nodup.map_on ?_ ?_
      · intro x hx y hy hxy
        exact (h.unique r r x hx y hy hxy).2
      · unfold elementsOf
        rw [List.nodup_append]
        refine ⟨(List.Nodup.of_map _ (h.input.tris.ids r)).map fun a b hab => (Prod.mk.inj hab).2, (List.Nodup.of_map _ (h.input.quads.ids r)).map fun a b hab => (Prod.mk.inj hab).2, ?_⟩
        intro a ha b hb hab
        obtain ⟨_, _, rfl⟩ := List.mem_map.1 ha
        obtain ⟨_, _, rfl⟩ := List.mem_map.1 hb
        simp at hab
    · refine List.Nodup.map_on ?_ (List.Nodup.of_map _ ho.1.1)
      intro z hz z' hz' hzz
      obtain ⟨s, _, e, he, rfl, e1⟩ := rt z hz
      obtain ⟨s', _, e', he', rfl, e2⟩ := rt z' hz'
      simp only [Function.comp_apply, e1, e2] at hzz
      obtain ⟨rfl, hx⟩ := h.unique s s' _ (tri s e he) _ (tri s' e' he') hzz
      rw [(Prod.mk.inj hx).2]
    · refine List.Nodup.map_on ?_ (List.Nodup.of_map _ ho.2.1)
      intro z hz z' hz' hzz
      obtain ⟨s, _, e, he, rfl, e1⟩ := rq z hz
      obtain ⟨s', _, e', he', rfl, e2⟩ := rq z' hz'
      simp only [Function.comp_apply, e1, e2] at hzz
      obtain ⟨rfl, hx⟩ := h.unique s s' _ (quad s e he) _ (quad s' e' he') hzz
      rw [(Prod.mk.inj hx).2]
    · intro a ha b hb hab
      obtain ⟨z, hz, rfl⟩ := List.mem_map.1 ha
      obtain ⟨z', hz', rfl⟩ := List.mem_map.1 hb
      obtain ⟨s, _, e, he, rfl, e1⟩ := rt z hz
      obtain ⟨s', _, e', he', rfl, e2⟩ := rq z' hz'
      simp only [Function.comp_apply, e1, e2] at hab
      obtain ⟨rfl, hx⟩ := h.unique s s' _ (tri s e he) _ (quad s' e' he') hab
      simp at hx
    · intro a ha b hb hab
      obtain ⟨x, hx, rfl⟩ := List.mem_map.1 ha
      rcases List.mem_append.1 hb with hb | hb
      · obtain ⟨z', hz', rfl⟩ := List.mem_map.1 hb
        obtain ⟨s', hs', e', he', rfl, e2⟩ := rt z' hz'
        simp only [Function.comp_apply, e2] at hab
        exact hs' (h.unique r s' x hx _ (tri s' e' he') hab).1.symm
      · obtain ⟨z', hz', rfl⟩ := List.mem_map.1 hb
        obtain ⟨s', hs', e', he', rfl, e2⟩ := rq z' hz'
        simp only [Function.comp_apply, e2] at hab
        exact hs' (h.unique r s' x hx _ (quad s' e' he') hab).1.symm
  · intro E hE
    rcases List.mem_append.1 hE with hE | hE
    · obtain ⟨x, hx, rfl⟩ := List.mem_map.1 hE
      exact ⟨r, x, hx, rfl⟩
    · rcases List.mem_append.1 hE with hE | hE
      · obtain ⟨z, hz, rfl⟩ := List.mem_map.1 hE
        obtain ⟨s, _, e, he, rfl, e1⟩ := rt z hz
        exact ⟨s, _, tri s e he, e1⟩
      · obtain ⟨z, hz, rfl⟩ := List.mem_map.1 hE
        obtain ⟨s, _, e, he, rfl, e1⟩ := rq z hz
        exact ⟨s, _, quad s e he, e1⟩
  · intro s x hx c hc hb
    by_cases hs : s = r
    · subst hs
      exact List.mem_append_left _ (List.mem_map_of_mem (f := fun x : Shape2 × ℤ × LGeom K => localElem V s x.1 x.2) hx)
    · refine List.mem_append_right _ ?_
      obtain ⟨sh, e⟩ := x
      rcases back s _ hx with ⟨h1, h2⟩ | ⟨h1, h2⟩
      · simp only at h1 h2
        subst h1
        rw [← remoteElem_asRemote V .tri hn s e (h.input.tris.range s e h2)]
        exact List.mem_append_left _ (List.mem_map_of_mem ((ho.1.2 _).2 ⟨s, hs, e, h2, rfl, c, hc, hb⟩))
      · simp only at h1 h2
        subst h1
        rw [← remoteElem_asRemote V .quad hn s e (h.input.quads.range s e h2)]
        exact List.mem_append_right _ (List.mem_map_of_mem ((ho.2.2 _).2 ⟨s, hs, e, h2, rfl, c, hc, hb⟩))

/-- What a rank knows can be given to a mapper. -/
theorem known_admissible {V : View2 K} {big : K} {m : MHGeom K} {owner : ℤ → ℤ} {glo ghi : ℕ → K} {mesh : Fin n → Mesh2d K} (h : Mesh2Ok V big m owner glo ghi mesh) (r : Fin n)
    (out : List Remote × List Remote) (ho : Post m owner mesh r out) (E : List (Elem2 K)) (hE : E.Perm (known V (mesh r) r out)) (hne : E ≠ []) : Admissible 2 big (E.map Elem2.geom) := by
  obtain ⟨k1, k2, k3⟩ := known_spec h r out ho
  have hmem : ∀ e ∈ E, ∃ s, ∃ x ∈ elementsOf (mesh s), e = localElem V s x.1 x.2 := fun e he => k2 e (hE.mem_iff.1 he)
  exact {
    ids := by
      rw [List.map_map]
      exact (hE.map _).nodup_iff.2 k1
    ranks := by
      intro g hg
      obtain ⟨e, he, rfl⟩ := List.mem_map.1 hg
      obtain ⟨s, x, _, rfl⟩ := hmem e he
      show (0 : ℤ) ≤ (s.val : ℤ)
      omega
    finite := by
      intro g hg
      obtain ⟨e, he, rfl⟩ := List.mem_map.1 hg
      obtain ⟨s, x, hx, rfl⟩ := hmem e he
      exact h.finite s x hx
    ordered := by
      intro g hg d hd
      obtain ⟨e, he, rfl⟩ := List.mem_map.1 hg
      obtain ⟨s, x, hx, rfl⟩ := hmem e he
      exact (h.width s x hx d hd).le
    extended := by
      intro d hd
      obtain ⟨e, he⟩ := List.exists_mem_of_ne_nil E hne
      obtain ⟨s, x, hx, rfl⟩ := hmem e he
      exact ⟨_, List.mem_map_of_mem he, h.width s x hx d hd⟩ }

/-- **C85, 2D.** A mesh of triangles and parallelograms that cover a box is distributed over any number of ranks. In every execution of the construction of the halos, let rank `r` have returned, and let its
mapper have been made with what it knows then (in any order). For every group of particles in the domain, with positions in cells of the mesh hierarchy that `r` owns: the mapping completes and maps all
particles of the selected cells; each particle is unchanged, or was unmapped and has the id of an element of the mesh and the rank that has this element, with a reference position that the element maps to
the position of the particle. -/
theorem distributed_2d {V : View2 K} {big : K} (hbig : 0 < big) {scaling : K → ℤ} (hsc : ∀ f, 1 < f → 0 < scaling f ∧ f ≤ (scaling f : K) ^ 2) {tol0 t : K} (h0 : 0 < tol0) (ht : 0 ≤ t)
    {m : MHGeom K} {owner : ℤ → ℤ} {glo ghi : ℕ → K} {mesh : Fin n → Mesh2d K} (h : Mesh2Ok V big m owner glo ghi mesh) (w : Fin n → ℤ) {S : Sys n Msg (List Remote × List Remote)}
    (hS : Reachable (Sys.init (fun r => halos2d m owner (mesh r) r) w) S) (r : Fin n) (out : List Remote × List Remote) (hr : S.prog r = .done out)
    (E : List (Elem2 K)) (hE : E.Perm (known V (mesh r) r out)) (hne : E ≠ []) :
    ∃ mapper, mkMapper 2 big scaling (E.map Elem2.geom) = some mapper ∧ ∀ (mc : ℤ) (g : Cells K), (∀ d < 2, mapper.lookup.mesh.cellCounts d < 2147483648) →
      (∀ q, Searched mc g q → (∀ d < 2, glo d ≤ q.pos d ∧ q.pos d ≤ ghi d) ∧ InOwnedCell m owner ghi r.val q.pos) →
      ∃ g', map2D (some (mapper.stage (test2d tol0 t E))) none mc g = some g' ∧ AllSel mc (fun q => 0 ≤ q.rank) g' ∧
        Related (fun q q' => q' = q ∨ (q.rank < 0 ∧ ∃ s, ∃ x ∈ elementsOf (mesh s), ∃ a b : K, q' = { q with rank := s.val, cell := x.2.1, ref := [a, b] } ∧
          point2 x.1 (V.verts x.1 x.2.2.geom) a b = (q.pos 0, q.pos 1))) g g' := by
  obtain ⟨k1, k2, k3⟩ := known_spec h r out ((halos2d_spec h.input w hS).2.1 r out hr)
  have hmem : ∀ e ∈ E, ∃ s, ∃ x ∈ elementsOf (mesh s), e = localElem V s x.1 x.2 := fun e he => k2 e (hE.mem_iff.1 he)
  have hadm : Admissible 2 big (E.map Elem2.geom) := known_admissible h r out ((halos2d_spec h.input w hS).2.1 r out hr) E hE hne
  obtain ⟨mapper, hm, hmap⟩ := regular_found_2d big hbig scaling hsc tol0 t h0 ht E (by
    intro e he
    obtain ⟨s, x, hx, rfl⟩ := hmem e he
    exact h.regular s x hx) hadm
  refine ⟨mapper, hm, fun mc g hfit hp => ?_⟩
  obtain ⟨g', e1, e2, e3⟩ := hmap mc g hfit (by
    intro q hq
    obtain ⟨hdom, c, id, hc, hid, how, hcell⟩ := hp q hq
    let ι := (s : Fin n) × Fin (elementsOf (mesh s)).length
    have hmemι : ∀ i : ι, (elementsOf (mesh i.1))[i.2] ∈ elementsOf (mesh i.1) := fun i => List.getElem_mem _
    obtain ⟨i, i1, i2, i3⟩ := cell_element (ι := ι) m h.input.grid glo ghi (by rw [h.ndim]; exact h.domain)
      (fun i => (localElem V i.1 ((elementsOf (mesh i.1))[i.2]).1 ((elementsOf (mesh i.1))[i.2]).2).region) (by
        rw [h.ndim]
        intro p hpp
        obtain ⟨s, x, hx, hin⟩ := h.covers p hpp
        obtain ⟨k, hk, rfl⟩ := List.getElem_of_mem hx
        exact ⟨⟨s, k, hk⟩, hin⟩) (fun i => region2_closed _ (h.regular i.1 _ (hmemι i)))
      (fun i => V.box ((elementsOf (mesh i.1))[i.2]).1 ((elementsOf (mesh i.1))[i.2]).2.2.geom)
      (fun i p hpp => by rw [h.ndim]; exact h.contains i.1 _ (hmemι i) p hpp) c id hc hid q.pos (by rw [h.ndim]; exact hdom) hcell
    have hk := k3 i.1 _ (hmemι i) id how ((boxMeets_congr (fun d hd => h.boxes i.1 _ (hmemι i) d (by rw [h.ndim] at hd; exact hd)) id).2 i2)
    refine ⟨_, hE.mem_iff.2 hk, i1, fun d hd => ?_⟩
    obtain ⟨b1, b2, b3, b4⟩ := i3 d (by rw [h.ndim]; exact hd)
    refine ⟨b1, b2, b3, fun heq g hg => ?_⟩
    rcases h.margin d hd with hh | hh
    · obtain ⟨e, he, rfl⟩ := List.mem_map.1 hg
      obtain ⟨s, x, hx, rfl⟩ := hmem e he
      rw [b4 heq]
      exact hh s x hx
    · exact absurd heq (hh i.1 _ (hmemι i) q.pos i1).ne)
  refine ⟨g', e1, e2, ?_⟩
  refine List.Forall₂.imp (fun c c' hcc => List.Forall₂.imp (fun q q' hqq => ?_) hcc) e3
  rcases hqq with hq | ⟨hq, e, he, a, b, e4, e5⟩
  · exact Or.inl hq
  · obtain ⟨s, x, hx, rfl⟩ := hmem e he
    exact Or.inr ⟨hq, s, x, hx, a, b, e4, e5⟩

end two

/-! ### The distributed mesh, 3D -/

section three
open Verif.Model.Bytes Verif.Model.PackedGeom2D Verif.Model.Mpi Verif.Model.HaloExchange Verif.Model.HaloExchange3D Verif.Model.GeomTransport3D Verif.Lemmas.Mpi Verif.Props.C60
variable {K : Type} [Field K] [LinearOrder K] [IsStrictOrderedRing K] [FloorRing K] {n : ℕ}

/-- As `View2`; the element is the image of the reference element under `ξ ↦ A ξ + b`. -/
structure View3 (K : Type) where
  shape : GeomTransport3D.Geom3 Geom → Shape3
  verts : GeomTransport3D.Geom3 Geom → ℕ → V3 K
  box : GeomTransport3D.Geom3 Geom → ℕ → K
  A : GeomTransport3D.Geom3 Geom → Matrix (Fin 3) (Fin 3) K
  b : GeomTransport3D.Geom3 Geom → Fin 3 → K

/-- A geometry in the mapper with its id and its rank, map_particles_3d_regular.cpp:70-102. -/
def elem3 (V : View3 K) (rank id : ℤ) (g : GeomTransport3D.Geom3 Geom) : Elem3 K := ⟨⟨id, rank, V.box g⟩, V.shape g, V.verts g, V.A g, V.b g⟩

/-- The geometries given to the mapper of a rank after the construction of the halos, map_particles_3d_regular.cpp:14-39 (all of them are regular). -/
def known3 (V : View3 K) (mesh : Mesh3d K) (r : Fin n) (out : Halos3d) : List (Elem3 K) :=
  (mesh.elements.map fun e => elem3 V r.val e.1 e.2.geom) ++ out.geoms.map fun x => elem3 V x.rank x.id x.geom

/-- A distributed mesh of affine elements that cover a box. -/
structure Mesh3Ok (V : View3 K) (big : K) (m : MHGeom K) (owner : ℤ → ℤ) (glo ghi : ℕ → K) (mesh : Fin n → Mesh3d K) : Prop where
  input : Input3Ok m owner mesh
  ndim : m.ndim = 3
  domain : ∀ d < 3, glo d < ghi d
  boxes : ∀ s, ∀ e ∈ (mesh s).elements, ∀ d < 3, e.2.lo d = V.box e.2.geom d ∧ e.2.hi d = V.box e.2.geom (d + 3)
  finite : ∀ s, ∀ e ∈ (mesh s).elements, ∀ i < 6, -big ≤ V.box e.2.geom i ∧ V.box e.2.geom i ≤ big
  width : ∀ s, ∀ e ∈ (mesh s).elements, ∀ d < 3, V.box e.2.geom d < V.box e.2.geom (d + 3)
  affine : ∀ s, ∀ e ∈ (mesh s).elements, AffineImage (shape (V.shape e.2.geom)) (V.A e.2.geom) (V.b e.2.geom) (V.verts e.2.geom) ∧ (V.A e.2.geom).det ≠ 0
  contains : ∀ s, ∀ e ∈ (mesh s).elements, ∀ p ∈ (elem3 V s.val e.1 e.2.geom).region, ∀ d < 3, V.box e.2.geom d ≤ p d ∧ p d ≤ V.box e.2.geom (d + 3)
  margin : ∀ d < 3, (∀ s, ∀ e ∈ (mesh s).elements, V.box e.2.geom (d + 3) ≤ ghi d) ∨
    ∀ s, ∀ e ∈ (mesh s).elements, ∀ p ∈ (elem3 V s.val e.1 e.2.geom).region, p d < V.box e.2.geom (d + 3)
  unique : ∀ s s', ∀ e ∈ (mesh s).elements, ∀ e' ∈ (mesh s').elements, e.1 = e'.1 → s = s' ∧ e = e'
  covers : ∀ p : ℕ → K, (∀ d < 3, glo d ≤ p d ∧ p d ≤ ghi d) → ∃ s, ∃ e ∈ (mesh s).elements, p ∈ (elem3 V s.val e.1 e.2.geom).region

omit [IsStrictOrderedRing K] [FloorRing K] in
/-- As `known_spec`. -/
theorem known3_spec {V : View3 K} {big : K} {m : MHGeom K} {owner : ℤ → ℤ} {glo ghi : ℕ → K} {mesh : Fin n → Mesh3d K} (h : Mesh3Ok V big m owner glo ghi mesh) (r : Fin n)
    (out : Halos3d) (ho : Post3 m owner mesh r out) :
    ((known3 V (mesh r) r out).map fun e => e.geom.gid).Nodup ∧ (∀ E ∈ known3 V (mesh r) r out, ∃ s : Fin n, ∃ e ∈ (mesh s).elements, E = elem3 V s.val e.1 e.2.geom) ∧
    ∀ s : Fin n, ∀ e ∈ (mesh s).elements, ∀ c, owner c = r.val → BoxMeets m e.2.lo e.2.hi c → elem3 V s.val e.1 e.2.geom ∈ known3 V (mesh r) r out := by
  have rt : ∀ z ∈ out.geoms, ∃ s, s ≠ r ∧ ∃ e ∈ (mesh s).elements, z = asRemote3 s e := by
    intro z hz
    obtain ⟨s, hs, e, he, rfl, _⟩ := (ho.1.2 z).1 hz
    exact ⟨s, hs, e, he, rfl⟩
  refine ⟨?_, ?_, ?_⟩
  · unfold known3
    rw [List.map_append, List.nodup_append]
    simp only [List.map_map]
    refine ⟨?_, ?_, ?_⟩
    · exact h.input.ids r
    · refine List.Nodup.map_on ?_ (List.Nodup.of_map _ ho.1.1)
      intro z hz z' hz' hzz
      obtain ⟨s, _, e, he, rfl⟩ := rt z hz
      obtain ⟨s', _, e', he', rfl⟩ := rt z' hz'
      obtain ⟨rfl, rfl⟩ := h.unique s s' _ he _ he' hzz
      rfl
    · intro a ha b hb hab
      obtain ⟨x, hx, rfl⟩ := List.mem_map.1 ha
      obtain ⟨z', hz', rfl⟩ := List.mem_map.1 hb
      obtain ⟨s', hs', e', he', rfl⟩ := rt z' hz'
      exact hs' (h.unique r s' x hx _ he' hab).1.symm
  · intro E hE
    rcases List.mem_append.1 hE with hE | hE
    · obtain ⟨x, hx, rfl⟩ := List.mem_map.1 hE
      exact ⟨r, x, hx, rfl⟩
    · obtain ⟨z, hz, rfl⟩ := List.mem_map.1 hE
      obtain ⟨s, _, e, he, rfl⟩ := rt z hz
      exact ⟨s, e, he, rfl⟩
  · intro s e he c hc hb
    by_cases hs : s = r
    · subst hs
      exact List.mem_append_left _ (List.mem_map_of_mem (f := fun e : ℤ × LGeom3 K => elem3 V s.val e.1 e.2.geom) he)
    · refine List.mem_append_right _ ?_
      exact List.mem_map_of_mem (f := fun x : Remote3 Geom => elem3 V x.rank x.id x.geom) ((ho.1.2 (asRemote3 s e)).2 ⟨s, hs, e, he, rfl, c, hc, hb⟩)

/-- What a rank knows can be given to a mapper. -/
theorem known3_admissible {V : View3 K} {big : K} {m : MHGeom K} {owner : ℤ → ℤ} {glo ghi : ℕ → K} {mesh : Fin n → Mesh3d K} (h : Mesh3Ok V big m owner glo ghi mesh) (r : Fin n)
    (out : Halos3d) (ho : Post3 m owner mesh r out) (E : List (Elem3 K)) (hE : E.Perm (known3 V (mesh r) r out)) (hne : E ≠ []) : Admissible 3 big (E.map Elem3.geom) := by
  obtain ⟨k1, k2, k3⟩ := known3_spec h r out ho
  have hmem : ∀ e ∈ E, ∃ s, ∃ x ∈ (mesh s).elements, e = elem3 V s.val x.1 x.2.geom := fun e he => k2 e (hE.mem_iff.1 he)
  exact {
    ids := by
      rw [List.map_map]
      exact (hE.map _).nodup_iff.2 k1
    ranks := by
      intro g hg
      obtain ⟨e, he, rfl⟩ := List.mem_map.1 hg
      obtain ⟨s, x, _, rfl⟩ := hmem e he
      show (0 : ℤ) ≤ (s.val : ℤ)
      omega
    finite := by
      intro g hg
      obtain ⟨e, he, rfl⟩ := List.mem_map.1 hg
      obtain ⟨s, x, hx, rfl⟩ := hmem e he
      exact h.finite s x hx
    ordered := by
      intro g hg d hd
      obtain ⟨e, he, rfl⟩ := List.mem_map.1 hg
      obtain ⟨s, x, hx, rfl⟩ := hmem e he
      exact (h.width s x hx d hd).le
    extended := by
      intro d hd
      obtain ⟨e, he⟩ := List.exists_mem_of_ne_nil E hne
      obtain ⟨s, x, hx, rfl⟩ := hmem e he
      exact ⟨_, List.mem_map_of_mem he, h.width s x hx d hd⟩ }

/-- **C85, 3D.** As `distributed_3d` for a mesh of affine tetrahedra, pyramids, prisms and hexahedra. A call for one cell needs the particles of the other cells to be mapped; `hostAcc` is what the host mapper
assigns. -/
theorem distributed_3d {V : View3 K} {big : K} (hbig : 0 < big) {scaling : K → ℤ} (hsc : ∀ f, 1 < f → 0 < scaling f ∧ f ≤ (scaling f : K) ^ 3) {tol0 t : K} (h0 : 0 < tol0) (ht : 0 ≤ t)
    {m : MHGeom K} {owner : ℤ → ℤ} {glo ghi : ℕ → K} {mesh : Fin n → Mesh3d K} (h : Mesh3Ok V big m owner glo ghi mesh) (w : Fin n → ℤ) {S : Sys n Msg Halos3d}
    (hS : Reachable (Sys.init (fun r => halos3d m owner (mesh r) r) w) S) (r : Fin n) (out : Halos3d) (hr : S.prog r = .done out)
    (code : Shape3 → ℤ) (hcode : Function.Injective code) (E : List (Elem3 K)) (hE : E.Perm (known3 V (mesh r) r out)) (hne : E ≠ []) :
    ∃ mapper, mkMapper 3 big scaling (E.map Elem3.geom) = some mapper ∧ ∀ (newton : List (Option (Stage K × Stage K))) (_ : ∀ s ∈ newton, s = none) (host : Stage K)
      (hostAcc : (ℕ → K) → Set (Assignment K)) (_ : Sound hostAcc host) (mc : ℤ) (g : Cells K), (∀ d < 3, mapper.lookup.mesh.cellCounts d < 2147483648) →
      (∀ q, Searched mc g q → (∀ d < 3, glo d ≤ q.pos d ∧ q.pos d ≤ ghi d) ∧ InOwnedCell m owner ghi r.val q.pos) →
      (-1 < mc → ∀ (i : ℕ) (h : i < g.length), selected mc i = false → ∀ q ∈ g[i], 0 ≤ q.rank) →
      ∃ g', map3D (some (mapper.stage (test3d tol0 t code E))) newton host mc g = some g' ∧ AllSel mc (fun q => 0 ≤ q.rank) g' ∧
        Related (fun q q' => q' = q ∨ (q.rank < 0 ∧ ∃ s, ∃ x ∈ (mesh s).elements, ∃ v : V3 K, q' = { q with rank := s.val, cell := x.1, ref := [v.x, v.y, v.z] } ∧
          V3.get ⟨q.pos 0, q.pos 1, q.pos 2⟩ = (V.A x.2.geom).mulVec (V3.get v) + V.b x.2.geom) ∨
          ∃ a ∈ hostAcc q.pos, q' = { q with rank := a.rank, cell := a.cell, ref := a.ref }) g g' := by
  obtain ⟨k1, k2, k3⟩ := known3_spec h r out ((halos3d_spec h.input w hS).2.1 r out hr)
  have hmem : ∀ e ∈ E, ∃ s, ∃ x ∈ (mesh s).elements, e = elem3 V s.val x.1 x.2.geom := fun e he => k2 e (hE.mem_iff.1 he)
  have hadm : Admissible 3 big (E.map Elem3.geom) := known3_admissible h r out ((halos3d_spec h.input w hS).2.1 r out hr) E hE hne
  obtain ⟨mapper, hm, hmap⟩ := regular_found_3d big hbig scaling hsc tol0 t h0 ht code hcode E (by
    intro e he
    obtain ⟨s, x, hx, rfl⟩ := hmem e he
    exact h.affine s x hx) hadm
  refine ⟨mapper, hm, fun newton hnewton host hostAcc hhost mc g hfit hp hother => ?_⟩
  obtain ⟨g', e1, e2, e3⟩ := hmap newton hnewton host hostAcc hhost mc g hfit (by
    intro q hq
    obtain ⟨hdom, c, id, hc, hid, how, hcell⟩ := hp q hq
    let ι := (s : Fin n) × Fin ((mesh s).elements).length
    have hmemι : ∀ i : ι, ((mesh i.1).elements)[i.2] ∈ (mesh i.1).elements := fun i => List.getElem_mem _
    obtain ⟨i, i1, i2, i3⟩ := cell_element (ι := ι) m h.input.grid glo ghi (by rw [h.ndim]; exact h.domain)
      (fun i => (elem3 V i.1.val (((mesh i.1).elements)[i.2]).1 (((mesh i.1).elements)[i.2]).2.geom).region) (by
        rw [h.ndim]
        intro p hpp
        obtain ⟨s, x, hx, hin⟩ := h.covers p hpp
        obtain ⟨k, hk, rfl⟩ := List.getElem_of_mem hx
        exact ⟨⟨s, k, hk⟩, hin⟩) (fun i => region3_closed _ (h.affine i.1 _ (hmemι i)).2)
      (fun i => V.box (((mesh i.1).elements)[i.2]).2.geom)
      (fun i p hpp => by rw [h.ndim]; exact h.contains i.1 _ (hmemι i) p hpp) c id hc hid q.pos (by rw [h.ndim]; exact hdom) hcell
    have hk := k3 i.1 _ (hmemι i) id how ((boxMeets_congr (fun d hd => h.boxes i.1 _ (hmemι i) d (by rw [h.ndim] at hd; exact hd)) id).2 i2)
    refine ⟨_, hE.mem_iff.2 hk, i1, fun d hd => ?_⟩
    obtain ⟨b1, b2, b3, b4⟩ := i3 d (by rw [h.ndim]; exact hd)
    refine ⟨b1, b2, b3, fun heq g hg => ?_⟩
    rcases h.margin d hd with hh | hh
    · obtain ⟨e, he, rfl⟩ := List.mem_map.1 hg
      obtain ⟨s, x, hx, rfl⟩ := hmem e he
      rw [b4 heq]
      exact hh s x hx
    · exact absurd heq (hh i.1 _ (hmemι i) q.pos i1).ne) hother
  refine ⟨g', e1, e2, ?_⟩
  refine List.Forall₂.imp (fun c c' hcc => List.Forall₂.imp (fun q q' hqq => ?_) hcc) e3
  rcases hqq with hq | ⟨hq, e, he, v, e4, e5⟩ | hq
  · exact Or.inl hq
  · obtain ⟨s, x, hx, rfl⟩ := hmem e he
    exact Or.inr (Or.inl ⟨hq, s, x, hx, v, e4, e5⟩)
  · exact Or.inr (Or.inr hq)

end three

/-! ### An example -/

section example2
open Verif.Model.Bytes Verif.Model.PackedGeom2D Verif.Model.Mpi Verif.Model.HaloExchange Verif.Lemmas.Mpi Verif.Props.C57 Verif.Props.C26

/-- Every geometry is the rectangle of `C57.exQuad`. -/
def exView : View2 ℚ where
  verts := fun _ _ i => if i = 0 then ⟨-1/2, 1/4, 0⟩ else if i = 1 then ⟨3, 1/4, 0⟩ else if i = 2 then ⟨3, 3/4, 0⟩ else ⟨-1/2, 3/4, 0⟩
  box := fun _ _ i => if i = 0 then -1/2 else if i = 1 then 1/4 else if i = 2 then 0 else if i = 3 then 3 else if i = 4 then 3/4 else 0

theorem exElements (s : Fin 2) (x : Shape2 × ℤ × LGeom ℚ) (hx : x ∈ elementsOf (C57.exMesh s)) : s = 0 ∧ x = (.quad, 7, exQuad) := by
  fin_cases s
  · simpa [elementsOf, C57.exMesh] using hx
  · simp [elementsOf, C57.exMesh] at hx

theorem exRegion (s : Fin 2) (p : ℕ → ℚ) : p ∈ (localElem exView s .quad (7, exQuad)).region ↔ (-1/2 ≤ p 0 ∧ p 0 ≤ 3) ∧ 1/4 ≤ p 1 ∧ p 1 ≤ 3/4 := by
  have e : p ∈ (localElem exView s .quad (7, exQuad)).region ↔ ∃ a b, InRef2 0 .quad a b ∧ point2 .quad (exView.verts .quad C18.quad) a b = (p 0, p 1) := Iff.rfl
  have hp : ∀ a b : ℚ, point2 .quad (exView.verts .quad C18.quad) a b = (5/4 + 7/4 * a, 1/2 + 1/4 * b) := by
    intro a b
    simp only [point2, Verif.Spec.Embedded.quadPoint, X, weights, weightedFrom, exView]
    norm_num
    constructor <;> ring
  simp only [e, hp, InRef2]
  constructor
  · rintro ⟨a, b, ⟨⟨h1, h2⟩, h3, h4⟩, h⟩
    obtain ⟨h5, h6⟩ := Prod.mk.inj h
    refine ⟨⟨?_, ?_⟩, ?_, ?_⟩ <;> linarith
  · rintro ⟨⟨h1, h2⟩, h3, h4⟩
    exact ⟨(p 0 - 5/4) * (4/7), (p 1 - 1/2) * 4, ⟨⟨by linarith, by linarith⟩, by linarith, by linarith⟩, by rw [Prod.mk.injEq]; constructor <;> ring⟩

/-- The hypotheses of `distributed_2d` hold for a rectangle of rank 0 that meets a cell of rank 1. -/
theorem exOk2 : Mesh2Ok exView 100 exampleMesh (fun c => c) (fun d => if d = 0 then -1/2 else 1/4) (fun d => if d = 0 then 3 else 3/4) C57.exMesh where
  input := exOk
  ndim := rfl
  domain := by intro d hd; interval_cases d <;> norm_num
  boxes := by
    intro s x hx d hd
    obtain ⟨rfl, rfl⟩ := exElements s x hx
    interval_cases d <;> simp [exView, exQuad]
  finite := by
    intro s x hx i hi
    obtain ⟨rfl, rfl⟩ := exElements s x hx
    simp only [exView]
    split_ifs <;> norm_num
  width := by
    intro s x hx d hd
    obtain ⟨rfl, rfl⟩ := exElements s x hx
    interval_cases d <;> norm_num [exView]
  regular := by
    intro s x hx
    obtain ⟨rfl, rfl⟩ := exElements s x hx
    constructor
    · norm_num [exView, lastPoint]
    · intro _
      norm_num [exView]
  contains := by
    intro s x hx p hp d hd
    obtain ⟨rfl, rfl⟩ := exElements s x hx
    obtain ⟨⟨h1, h2⟩, h3, h4⟩ := (exRegion _ p).1 hp
    interval_cases d
    · simp [exView]; exact ⟨h1, h2⟩
    · simp [exView]; exact ⟨by linarith, h4⟩
  margin := by
    intro d hd
    left
    intro s x hx
    obtain ⟨rfl, rfl⟩ := exElements s x hx
    interval_cases d <;> simp [exView]
  unique := by
    intro s s' x hx x' hx' _
    obtain ⟨rfl, rfl⟩ := exElements s x hx
    obtain ⟨rfl, rfl⟩ := exElements s' x' hx'
    exact ⟨rfl, rfl⟩
  covers := by
    intro p hp
    refine ⟨0, (.quad, 7, exQuad), by simp [elementsOf, C57.exMesh], (exRegion _ p).2 ?_⟩
    have h0 := hp 0 (by omega)
    have h1 := hp 1 (by omega)
    simp only [if_pos, if_neg one_ne_zero] at h0 h1
    exact ⟨h0, h1⟩

/-- A position in the cell of rank 1. -/
example : InOwnedCell exampleMesh (fun c => c) (fun d => if d = 0 then 3 else 3/4) 1 (fun _ => 1/2) := by
  refine ⟨fun d => if d = 0 then 1 else 0, 1, ?_, ?_, rfl, ?_⟩
  · intro d hd
    have : d < 2 := hd
    interval_cases d <;> simp [exampleMesh]
  · refine ⟨fun d => if d = 0 then 1 else 0, fun d hd => ?_, by decide⟩
    have : d < 2 := hd
    interval_cases d <;> simp [exampleMesh]
  · intro d hd
    have : d < 2 := hd
    interval_cases d <;> norm_num [exampleMesh]

end example2

end Verif.Props.C85
