import Verif.Lemmas.HaloExtension3DChain
import Verif.Props.C58_ExtendHalos
import Verif.Props.C60_Halo3D
import Mathlib.Tactic.IntervalCases

/-! C61: the halos of a 3D mesh after calls of `extend_halos_fixed_offset`. -/

namespace Verif.Props.C61
open Verif.Model Verif.Model.Bytes Verif.Model.PackedGeom2D Verif.Model.RemoteGeom Verif.Model.GeomTransport3D Verif.Model.MeshHierarchy Verif.Model.Mpi
  Verif.Model.Claims Verif.Model.HaloCells Verif.Model.HaloExchange Verif.Model.HaloExchange3D Verif.Model.HaloExtension Verif.Model.HaloExtension3D
  Verif.Spec Verif.Lemmas Verif.Lemmas.Mpi Verif.Lemmas.HaloExchange Verif.Lemmas.HaloExchange3D Verif.Lemmas.HaloExtension Verif.Lemmas.HaloExtension3D
  Verif.Props.C26

variable {K : Type} [Field K] [LinearOrder K] [IsStrictOrderedRing K] [FloorRing K] {n : ℕ}

/-- The meshes of the ranks with the bounding boxes. -/
def meshOf (box : Geom3 Geom → (ℕ → K) × (ℕ → K)) (faces : Fin n → List (ℤ × Geom2 Geom)) (els : Fin n → List (ℤ × Geom3 Geom)) (s : Fin n) : Mesh3d K :=
  withBoxes3 box (faces s) (els s)

/-- The conditions on the input: all of the ranks have the same mesh hierarchy, whose number of cells is an `int`; ids are those of the geometries and
unique on their rank; each element has the faces of its shape, which are in the mesh of the rank; the sizes of the buffers are `int`s; every cell met
by an element has an owner. -/
structure Interface3Ok (m : MHGeom K) (owner : ℤ → ℤ) (box : Geom3 Geom → (ℕ → K) × (ℕ → K)) (faces : Fin n → List (ℤ × Geom2 Geom))
    (els : Fin n → List (ℤ × Geom3 Geom)) : Prop where
  grid : GridGeom m
  ranks : n ≤ 2 ^ 31
  ncells : ncellsGlobal m.toMH < 2 ^ 31
  ids : ∀ s, ((els s).map Prod.fst).Nodup
  gid : ∀ s, ∀ e ∈ els s, e.2.gid = e.1
  wf : ∀ s, ∀ e ∈ els s, C20.WellFormed e.2
  faceIds : ∀ s, ((faces s).map Prod.fst).Nodup
  faceGid : ∀ s, ∀ x ∈ faces s, x.2.data.id.toInt = x.1
  faceWf : ∀ s, ∀ x ∈ faces s, GeomOk (edgesOfFace x.2.shape) x.2.data
  hasFaces : ∀ s, ∀ e ∈ els s, ∀ f ∈ e.2.faces, (f.gid, f) ∈ faces s
  count : ((List.finRange n).flatMap faces).length < 2 ^ 31
  sizeTris : n * (packRemotes 3 ((List.finRange n).flatMap (C60.facesOf .tri (meshOf box faces els)))).length < 2 ^ 31
  sizeQuads : n * (packRemotes 4 ((List.finRange n).flatMap (C60.facesOf .quad (meshOf box faces els)))).length < 2 ^ 31
  sizeInts : n * (C20.message ((List.finRange n).flatMap fun s => (els s).map (remote3Of s))).length < 2 ^ 31
  owner : ∀ s, ∀ e ∈ els s, ∀ c, BoxMeets m (box e.2).1 (box e.2).2 c → 0 ≤ owner c ∧ owner c < n

variable {m : MHGeom K} {owner : ℤ → ℤ} {box : Geom3 Geom → (ℕ → K) × (ℕ → K)} {faces : Fin n → List (ℤ × Geom2 Geom)} {els : Fin n → List (ℤ × Geom3 Geom)}

/-- The state of a rank after the constructor, with these halos. -/
def stateOf (m : MHGeom K) (owner : ℤ → ℤ) (box : Geom3 Geom → (ℕ → K) × (ℕ → K)) (faces : Fin n → List (ℤ × Geom2 Geom))
    (els : Fin n → List (ℤ × Geom3 Geom)) (s : Fin n) (out : Halos3d) : Pmi3d :=
  ⟨faces s, els s, ownedCells owner s (localClaims3d m (meshOf box faces els s)).1, unownedCells owner s (localClaims3d m (meshOf box faces els s)).1, out⟩

omit [IsStrictOrderedRing K] [FloorRing K] in
theorem mem_meshOf (s : Fin n) (x : ℤ × LGeom3 K) : x ∈ (meshOf box faces els s).elements ↔ ∃ e ∈ els s, x = (e.1, ⟨e.2, (box e.2).1, (box e.2).2⟩) := by
  unfold meshOf withBoxes3
  simp only [List.mem_map]
  constructor
  · rintro ⟨e, he, rfl⟩; exact ⟨e, he, rfl⟩
  · rintro ⟨e, he, rfl⟩; exact ⟨e, he, rfl⟩

theorem mem_cells (hm : GridGeom m) (s : Fin n) (c : ℤ) (out : Halos3d) :
    c ∈ (stateOf m owner box faces els s out).owned ++ (stateOf m owner box faces els s out).unowned ↔
      ∃ e ∈ els s, BoxMeets m (box e.2).1 (box e.2).2 c := by
  obtain ⟨_, _, h1, h2⟩ := C60.cells_split3 hm owner (meshOf box faces els s) s
  rw [List.mem_append]
  unfold stateOf
  simp only
  rw [h1, h2]
  have : (∃ e ∈ (meshOf box faces els s).elements, BoxMeets m e.2.lo e.2.hi c) ↔ ∃ e ∈ els s, BoxMeets m (box e.2).1 (box e.2).2 c := by
    constructor
    · rintro ⟨x, hx, hb⟩
      obtain ⟨e, he, rfl⟩ := (mem_meshOf s x).mp hx
      exact ⟨e, he, hb⟩
    · rintro ⟨e, he, hb⟩
      exact ⟨_, (mem_meshOf s _).mpr ⟨e, he, rfl⟩, hb⟩
  rw [this, ← or_and_right]
  exact and_iff_right (em _)

theorem packed_part {α : Type} (shape : I32) (l : List α) (f : α → List Remote) {a : α} (ha : a ∈ l) :
    (packRemotes shape (f a)).length ≤ (packRemotes shape (l.flatMap f)).length := by
  rw [C57.packRemotes_length, C57.packRemotes_length]
  exact Nat.add_le_add_left (C57.sum_le_of_subperm (fun g : Remote => (packGeom shape g.rank g.id g.geom).length) (C58.flatMap_sublist f ha).subperm) _

theorem Interface3Ok.input (h : Interface3Ok m owner box faces els) : C60.Input3Ok m owner (meshOf box faces els) where
  grid := h.grid
  ranks := h.ranks
  ids s := by simpa [meshOf, withBoxes3, List.map_map, Function.comp_def] using h.ids s
  gid s x hx := by obtain ⟨e, he, rfl⟩ := (mem_meshOf s x).mp hx; exact h.gid s e he
  wf s x hx := by obtain ⟨e, he, rfl⟩ := (mem_meshOf s x).mp hx; exact h.wf s e he
  faceIds := h.faceIds
  faceGid := h.faceGid
  faceWf := h.faceWf
  faces s x hx := by obtain ⟨e, he, rfl⟩ := (mem_meshOf s x).mp hx; exact h.hasFaces s e he
  count s := lt_of_le_of_lt (C58.flatMap_sublist faces (List.mem_finRange s)).length_le h.count
  sizeTris s := lt_of_le_of_lt (Nat.mul_le_mul_left _ (packed_part 3 _ (C60.facesOf .tri (meshOf box faces els)) (List.mem_finRange s))) h.sizeTris
  sizeQuads s := lt_of_le_of_lt (Nat.mul_le_mul_left _ (packed_part 4 _ (C60.facesOf .quad (meshOf box faces els)) (List.mem_finRange s))) h.sizeQuads
  sizeInts s := by
    refine lt_of_le_of_lt (Nat.mul_le_mul_left _ ?_) h.sizeInts
    refine C60.message_length_le (List.Sublist.subperm ?_)
    have := C58.flatMap_sublist (fun s => (els s).map (remote3Of s)) (List.mem_finRange s)
    have he : (meshOf box faces els s).elements.map (asRemote3 s) = (els s).map (remote3Of s) := by
      unfold meshOf withBoxes3; rw [List.map_map]; rfl
    rw [he]; exact this
  owned s x hx := by obtain ⟨e, he, rfl⟩ := (mem_meshOf s x).mp hx; exact h.owner s e he

omit [IsStrictOrderedRing K] in
theorem allOf_state (sh : Shape2) (out : Fin n → Halos3d) : (allOf sh fun s => flat (stateOf m owner box faces els s (out s))) =
    (List.finRange n).flatMap (C60.facesOf (faceShape sh) (meshOf box faces els)) := by
  unfold allOf
  refine congrArg (fun f => List.flatMap f (List.finRange n)) (funext fun s => ?_)
  rw [elsOf_flat]
  unfold facesWith C60.facesOf
  rw [List.map_map]
  rfl

theorem Interface3Ok.mesh (h : Interface3Ok m owner box faces els) (out : Fin n → Halos3d) :
    Mesh3Ok m owner box fun s => stateOf m owner box faces els s (out s) where
  grid := h.grid
  ranks := h.ranks
  ncells := h.ncells
  ids := h.ids
  gid := h.gid
  wf := h.wf
  faceIds := h.faceIds
  faceGid := h.faceGid
  faceWf := h.faceWf
  faces := h.hasFaces
  count sh := by
    rw [allOf_state]
    refine lt_of_le_of_lt ?_ h.count
    rw [List.length_flatMap, List.length_flatMap]
    refine List.sum_le_sum fun s _ => ?_
    unfold C60.facesOf
    rw [List.length_map]
    exact List.length_filter_le _ _
  size sh := by
    rw [allOf_state]
    cases sh
    · exact h.sizeTris
    · exact h.sizeQuads
  sizeInts := h.sizeInts
  cells s c hc := by
    obtain ⟨e, _, hb⟩ := (mem_cells h.grid s c (out s)).mp hc
    exact C58.range_of_boxMeets h.grid hb
  owned s c hc := (((C60.cells_split3 h.grid owner (meshOf box faces els s) s).2.2.1 c).mp hc).1
  owner := h.owner

/-- The halo as C60 describes it. -/
theorem halo_of_post {r : Fin n} {out : Halos3d} (h : C60.Post3 m owner (meshOf box faces els) r out) :
    (out.geoms.map key3).Nodup ∧ ∀ x, x ∈ out.geoms ↔ ∃ s, s ≠ r ∧ ∃ e ∈ els s, x = remote3Of s e ∧
      ∃ c, owner c = r.val ∧ BoxMeets m (box e.2).1 (box e.2).2 c := by
  refine ⟨h.1.1, fun x => ?_⟩
  rw [h.1.2]
  constructor
  · rintro ⟨s, hs, y, hy, rfl, hc⟩
    obtain ⟨e, he, rfl⟩ := (mem_meshOf s y).mp hy
    exact ⟨s, hs, e, he, rfl, hc⟩
  · rintro ⟨s, hs, e, he, rfl, hc⟩
    exact ⟨s, hs, _, (mem_meshOf s _).mpr ⟨e, he, rfl⟩, rfl, hc⟩

theorem facesOk_of_post {r : Fin n} {out : Halos3d} (h : C60.Post3 m owner (meshOf box faces els) r out) (sh : Shape2) :
    IsFaces (faceShape sh) out.geoms (remsOf sh (flat (stateOf m owner box faces els r out))) := by
  cases sh
  · exact h.2.1
  · exact h.2.2

theorem halosOk_of_post {out : Fin n → Halos3d} (h : ∀ r, C60.Post3 m owner (meshOf box faces els) r (out r)) :
    Halos3Ok m owner box fun s => stateOf m owner box faces els s (out s) where
  sound r x hx := by
    obtain ⟨s, hs, e, he, hx, _⟩ := ((halo_of_post (h r)).2 x).mp hx
    exact ⟨s, hs, e, he, hx⟩
  once r := (halo_of_post (h r)).1
  knows r c hc s hs e he hb := ((halo_of_post (h r)).2 _).mpr ⟨s, hs, e, he, rfl, c, hc, hb⟩
  faces r sh := facesOk_of_post (h r) sh

/-- The halos which a rank has at the end: the elements, and all of their faces. -/
def Ext3Post (m : MHGeom K) (owner : ℤ → ℤ) (box : Geom3 Geom → (ℕ → K) × (ℕ → K)) (els : Fin n → List (ℤ × Geom3 Geom)) (calls : List (ℤ × Bool))
    (r : Fin n) (out : Halos3d) : Prop :=
  IsExtendedHalo3 m owner box calls els r out.geoms ∧ IsFaces .tri out.geoms out.tris ∧ IsFaces .quad out.geoms out.quads

/-- The construction of the mesh interface of a 3D mesh on all of the ranks, followed by any number of calls of `extend_halos_fixed_offset` with
offsets up to the size of the mesh. In every state of every execution: no rank has failed; a rank which has returned holds, each once, exactly the
elements of the other ranks which meet its cells or a cell within the offset of a cell it touches, and exactly the faces of these elements, each
once; and if not all of the ranks have returned then some rank can make a step, even when sends are not buffered. -/
theorem interface3_spec (h : Interface3Ok m owner box faces els) (calls : List (ℤ × Bool)) (hcalls : ∀ c ∈ calls, ∀ d < m.ndim, c.1 ≤ m.dims d * m.ncf)
    (w : Fin n → ℤ) {S : Sys n Msg Halos3d} (hS : Reachable (Sys.init (fun r => meshInterface3 m owner box (faces r) (els r) calls r) w) S) :
    (∀ r, S.prog r ≠ .fail) ∧ (∀ r out, S.prog r = .done out → Ext3Post m owner box els calls r out) ∧ (S.Finished ∨ ∃ S', Step true S S') := by
  -- the halos of one execution of the constructor stand for those of all
  obtain ⟨S₁, hS₁, hf⟩ := C60.halos3d_completes h.input w Relation.ReflTransGen.refl
  have hS₁' : Reachable (Sys.init (fun r => halos3d m owner (meshOf box faces els r) r) w) S₁ := by
    clear hf
    induction hS₁ with
    | refl => exact Relation.ReflTransGen.refl
    | tail _ h2 ih => exact ih.tail (step_of_sync h2)
  choose out₀ hout₀ using hf
  have hpost₀ : ∀ r, C60.Post3 m owner (meshOf box faces els) r (out₀ r) := fun r => (C60.halos3d_spec h.input w hS₁').2.1 r _ (hout₀ r)
  obtain ⟨blk₁, hk₁, hc₁⟩ := C60.conf_createHalos3d h.input
  obtain ⟨blk₂, hk₂, hc₂⟩ := conf_many3 calls _ (h.mesh out₀) (halosOk_of_post hpost₀) hcalls
  have hl₁ : blk₁.length = 12 := by rw [← List.length_map (f := Phase.kind), hk₁]; rfl
  have hb₁ : blk₁.map Phase.kind = kindsOf [[45, 46], [45, 46], [45, 135]] := hk₁
  refine correct (ofPhases (blk₁ ++ blk₂) (Ext3Post m owner box els calls)) _ w (fun r => ?_) hS
  unfold meshInterface3
  refine hc₁ [] blk₂ [] _ rfl hk₂ r none ?_
  intro out hout
  have hsame : Same3 (stateOf m owner box faces els r out) (stateOf m owner box faces els r (out₀ r)) :=
    { mesh := rfl, elements := rfl, owned := rfl, unowned := rfl
      geoms := fun x => by
        show x ∈ out.geoms ↔ x ∈ (out₀ r).geoms
        rw [(halo_of_post hout).2, (halo_of_post (hpost₀ r)).2]
      once := (halo_of_post hout).1
      faces := fun sh => facesOk_of_post hout sh }
  have := hc₂ (post := Ext3Post m owner box els calls) blk₁ [[45, 46], [45, 46], [45, 135]] hb₁ r (some (0, 0 + 8)) _ hsame (k := .done)
  rw [hl₁] at this
  refine this ?_
  intro o base ho
  refine conf_done ?_
  obtain ⟨_, a2, a3, a4, a5⟩ := ho
  refine ⟨⟨a2, fun x => ?_⟩, a4, a5⟩
  rw [a3]
  have hnear : ∀ (w : ℤ) (pbc : Bool) (c : ℤ), Near m.toMH w pbc
      ((stateOf m owner box faces els r (out₀ r)).owned ++ (stateOf m owner box faces els r (out₀ r)).unowned) c ↔
      ∃ e' ∈ els r, ∃ b, BoxMeets m (box e'.2).1 (box e'.2).2 b ∧ NearCell m.toMH w pbc b c := by
    intro w pbc c
    unfold Near
    simp only [mem_cells h.grid]
    constructor
    · rintro ⟨b, ⟨e', he', hb⟩, hn⟩; exact ⟨e', he', b, hb, hn⟩
    · rintro ⟨e', he', b, hb, hn⟩; exact ⟨b, ⟨e', he', hb⟩, hn⟩
  simp only [hnear]
  constructor
  · rintro ⟨s, hs, e, he, hx, hor⟩
    refine ⟨s, hs, e, he, hx, ?_⟩
    rcases hor with hx' | ⟨call, hcall, h0, c, hn, hb⟩
    · obtain ⟨s', _, e', he', hx'', c, hc, hb⟩ := ((halo_of_post hout).2 x).mp hx'
      obtain ⟨rfl, hi⟩ := key3_inj (by rw [← hx, ← hx''] : key3 (remote3Of s e) = key3 (remote3Of s' e'))
      have := (h.mesh out₀).elem_unique he he' hi
      subst this
      exact ⟨c, hb, Or.inl hc⟩
    · exact ⟨c, hb, Or.inr ⟨call, hcall, h0, hn⟩⟩
  · rintro ⟨s, hs, e, he, hx, c, hb, hor⟩
    refine ⟨s, hs, e, he, hx, ?_⟩
    rcases hor with hc | ⟨call, hcall, h0, hn⟩
    · exact Or.inl (((halo_of_post hout).2 x).mpr ⟨s, hs, e, he, hx, c, hc, hb⟩)
    · exact Or.inr ⟨call, hcall, h0, c, hn, hb⟩

/-- Every element of the mesh which meets a cell within the offset of a cell touched by a rank is known to that rank. -/
theorem interface3_cover (h : Interface3Ok m owner box faces els) (calls : List (ℤ × Bool)) (hcalls : ∀ c ∈ calls, ∀ d < m.ndim, c.1 ≤ m.dims d * m.ncf)
    (w : Fin n → ℤ) {S : Sys n Msg Halos3d} (hS : Reachable (Sys.init (fun r => meshInterface3 m owner box (faces r) (els r) calls r) w) S) {r : Fin n}
    {out : Halos3d} (hr : S.prog r = .done out) {call : ℤ × Bool} (hcall : call ∈ calls) (h0 : 0 ≤ call.1)
    {e' : ℤ × Geom3 Geom} (he' : e' ∈ els r) {b c : ℤ} (hb : BoxMeets m (box e'.2).1 (box e'.2).2 b) (hbc : NearCell m.toMH call.1 call.2 b c)
    (s : Fin n) (e : ℤ × Geom3 Geom) (he : e ∈ els s) (hc : BoxMeets m (box e.2).1 (box e.2).2 c) : e ∈ els r ∨ remote3Of s e ∈ out.geoms := by
  obtain ⟨hg, _⟩ := (interface3_spec h calls hcalls w hS).2.1 r out hr
  by_cases hs : s = r
  · subst hs; exact Or.inl he
  · exact Or.inr ((hg.2 _).mpr ⟨s, hs, e, he, rfl, c, hc, Or.inr ⟨call, hcall, h0, e', he', b, hb, hbc⟩⟩)

/-- Every execution can be completed, also without buffering. -/
theorem interface3_completes (h : Interface3Ok m owner box faces els) (calls : List (ℤ × Bool))
    (hcalls : ∀ c ∈ calls, ∀ d < m.ndim, c.1 ≤ m.dims d * m.ncf)
    (w : Fin n → ℤ) {S : Sys n Msg Halos3d} (hS : Reachable (Sys.init (fun r => meshInterface3 m owner box (faces r) (els r) calls r) w) S) :
    ∃ S', Relation.ReflTransGen (Step true) S S' ∧ S'.Finished :=
  completes (fun _ h' => (interface3_spec h calls hcalls w h').2.2) S hS

/-- There is no infinite execution: with `interface3_spec`, all of the ranks return. -/
theorem interface3_terminates (f : ℕ → Sys n Msg Halos3d) : ¬ ∀ i, Step false (f i) (f (i + 1)) := no_infinite false f

omit [IsStrictOrderedRing K] in
/-- A negative offset changes nothing and does not communicate; an offset larger than the mesh in some dimension fails. -/
theorem offset_limits3 (hm : Grid m.toMH) (pbc : Bool) (w : ℤ) (r : Fin n) (p : Pmi3d) {O : Type} (k : Halos3d → Prog n Msg O) :
    (w < 0 → extendHalos3d m owner box w pbc r p k = k p.halos) ∧
    ((∃ d < m.ndim, m.dims d * m.ncf < w) → extendHalos3d m owner box w pbc r p k = .fail) := by
  obtain ⟨h1, h2⟩ := C23.offset_limits m.toMH hm pbc p.owned p.unowned w
  constructor
  · intro h; unfold extendHalos3d; rw [h1 h]
  · intro h; unfold extendHalos3d; rw [h2 h]

/-! ### An example -/

/-- Rank 0 has the pyramid 7, rank 1 the pyramid 8, with the same base and sides. -/
def exPyr (i : ℤ) : Geom3 Geom := ⟨.pyr, i, [C60.exBase, C60.exTri 1, C60.exTri 2, C60.exTri 3, C60.exTri 4]⟩
/-- The pyramid 7 is in cell 0 of `C60.exGrid`, the others in cell 1. -/
def exBox (g : Geom3 Geom) : (ℕ → ℚ) × (ℕ → ℚ) :=
  (fun d => if d = 0 then (if g.gid = 7 then -3/4 else 1/4) else 1/4, fun d => if d = 0 then (if g.gid = 7 then -1/4 else 3/4) else 3/4)
def exFaces : Fin 2 → List (ℤ × Geom2 Geom) := fun _ =>
  [(12, C60.exBase), (1, C60.exTri 1), (2, C60.exTri 2), (3, C60.exTri 3), (4, C60.exTri 4)]
def exEls : Fin 2 → List (ℤ × Geom3 Geom) := fun r => if r = 0 then [(7, exPyr 7)] else [(8, exPyr 8)]

theorem exMap (g : Geom3 Geom) : boundingBoxMap C60.exGrid (exBox g).1 (exBox g).2 0 = [(if g.gid = 7 then 0 else 1, 1/8)] := by
  unfold exBox
  by_cases h : g.gid = 7
  · simp only [h, if_true]; decide +kernel
  · simp only [h, if_false]; decide +kernel

theorem exMeets (g : Geom3 Geom) (c : ℤ) : BoxMeets C60.exGrid (exBox g).1 (exBox g).2 c ↔ c = if g.gid = 7 then 0 else 1 := by
  rw [← mem_boundingBoxMap C60.exGrid_ok, exMap]; simp

theorem exEls_mem {s : Fin 2} {e : ℤ × Geom3 Geom} (he : e ∈ exEls s) : e = (if s = 0 then 7 else 8, exPyr (if s = 0 then 7 else 8)) := by
  fin_cases s
  · simpa [exEls] using he
  · simpa [exEls] using he

theorem exOk : Interface3Ok C60.exGrid (fun c => c) exBox exFaces exEls where
  grid := C60.exGrid_ok
  ranks := by decide
  ncells := by decide +kernel
  ids s := by fin_cases s <;> simp [exEls]
  gid s e he := by rw [exEls_mem he]; rfl
  wf s e he := by rw [exEls_mem he]; rfl
  faceIds s := by simp [exFaces]
  faceGid s x hx := by
    simp [exFaces] at hx
    rcases hx with rfl | rfl | rfl | rfl | rfl <;> rfl
  faceWf s x hx := by
    have ht : ∀ i, GeomOk 3 (C60.exTri i).data := fun i => C18.tri_ok
    simp [exFaces] at hx
    rcases hx with rfl | rfl | rfl | rfl | rfl
    · exact C18.quad_ok
    all_goals exact ht _
  hasFaces s e he f hf := by
    rw [exEls_mem he] at hf
    simp [exPyr] at hf
    rcases hf with rfl | rfl | rfl | rfl | rfl <;> simp [exFaces, C60.exBase, C60.exTri]
  count := by decide
  sizeTris := by decide +kernel
  sizeQuads := by decide +kernel
  sizeInts := by decide +kernel
  owner s e _ c hb := by
    rw [exMeets] at hb
    rw [hb]
    split_ifs <;> decide

/-- The cells are neighbours. -/
theorem exNear : NearCell C60.exGrid.toMH 1 false 0 1 := by
  refine ⟨fun d => if d = 0 then 1 else 0, ?_, ⟨fun d => if d = 0 then 1 else 0, ?_, by decide +kernel⟩, fun _ => 0, ?_, ⟨fun _ => 0, ?_, by decide +kernel⟩, ?_⟩
  all_goals
    intro d hd
    have hd : d < 3 := hd
    interval_cases d <;> simp [C60.exGrid]

/-- With the offset 1 rank 0 knows the pyramid of rank 1 and its base; without the call it does not. -/
example (w : Fin 2 → ℤ) {S : Sys 2 Msg Halos3d}
    (hS : Reachable (Sys.init (fun r => meshInterface3 C60.exGrid (fun c => c) exBox (exFaces r) (exEls r) [(-1, true), (1, false)] r) w) S)
    {out : Halos3d} (hr : S.prog 0 = .done out) :
    (⟨1, 8, exPyr 8⟩ : Remote3 Geom) ∈ out.geoms ∧ (⟨1, 12, C18.quad⟩ : Remote) ∈ out.quads := by
  have hcalls : ∀ c ∈ [((-1 : ℤ), true), (1, false)], ∀ d < C60.exGrid.ndim, c.1 ≤ C60.exGrid.dims d * C60.exGrid.ncf := by
    intro c hc d hd
    have hd : d < 3 := hd
    have : c.1 ≤ 1 := by simp at hc; rcases hc with rfl | rfl <;> decide
    have : (1 : ℤ) ≤ C60.exGrid.dims d * C60.exGrid.ncf := by interval_cases d <;> simp [C60.exGrid]
    omega
  have := interface3_cover exOk [(-1, true), (1, false)] hcalls w hS hr (call := (1, false)) (by simp) (by decide)
    (e' := (7, exPyr 7)) (by simp [exEls]) (b := 0) (c := 1) ((exMeets _ _).mpr (by decide +kernel)) exNear 1 (8, exPyr 8) (by simp [exEls])
    ((exMeets _ _).mpr (by decide +kernel))
  have h1 : (⟨1, 8, exPyr 8⟩ : Remote3 Geom) ∈ out.geoms := by
    rcases this with h | h
    · simp [exEls] at h
    · exact h
  obtain ⟨_, _, hq⟩ := (interface3_spec exOk _ hcalls w hS).2.1 0 out hr
  exact ⟨h1, (hq.2 _).mpr ⟨_, h1, C60.exBase, by simp [exPyr], rfl, rfl⟩⟩

example (w : Fin 2 → ℤ) {S : Sys 2 Msg Halos3d}
    (hS : Reachable (Sys.init (fun r => meshInterface3 C60.exGrid (fun c => c) exBox (exFaces r) (exEls r) [] r) w) S)
    {out : Halos3d} (hr : S.prog 0 = .done out) : out.geoms = [] := by
  obtain ⟨ht, _⟩ := (interface3_spec exOk [] (by simp) w hS).2.1 0 out hr
  rw [List.eq_nil_iff_forall_not_mem]
  intro x hx
  obtain ⟨s, hs, e, he, -, c, hc, h | ⟨_, h, _⟩⟩ := (ht.2 x).mp hx
  · rw [exMeets, exEls_mem he, if_neg hs] at hc
    simp [exPyr] at hc h
    omega
  · cases h

end Verif.Props.C61
