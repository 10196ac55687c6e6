import Verif.Lemmas.HaloExtensionChain
import Verif.Props.C57_Halo2D
import Mathlib.Tactic.IntervalCases

/-! C58: the halos of a 2D mesh after calls of `extend_halos_fixed_offset`. -/

namespace Verif.Props.C58
open Verif.Model Verif.Model.Bytes Verif.Model.PackedGeom2D Verif.Model.Mpi Verif.Model.Claims Verif.Model.HaloCells Verif.Model.HaloExchange
  Verif.Model.HaloExtension Verif.Model.MeshHierarchy Verif.Spec Verif.Lemmas.Mpi Verif.Lemmas Verif.Lemmas.HaloExchange Verif.Lemmas.HaloExtension
  Verif.Props.C26 Verif.Props.C57

variable {K : Type} [Field K] [LinearOrder K] [IsStrictOrderedRing K] [FloorRing K] {n : ℕ}

/-- The elements of a rank. -/
def mine (els : Shape2 → Fin n → List (ℤ × Geom)) (r : Fin n) : List (ℤ × Geom) := els .tri r ++ els .quad r

/-- The conditions on the input: all of the ranks have the same mesh hierarchy, whose number of cells is an `int`; ids are `int`s, those of
the geometries and unique on their rank; geometries are well formed; the sizes of the buffers are `int`s; every cell met by an element has an owner. -/
structure InterfaceOk (m : MHGeom K) (owner : ℤ → ℤ) (box : Geom → (ℕ → K) × (ℕ → K)) (els : Shape2 → Fin n → List (ℤ × Geom)) : Prop where
  grid : GridGeom m
  ranks : n ≤ 2 ^ 31
  ncells : ncellsGlobal m.toMH < 2 ^ 31
  ids : ∀ s, ((mine els s).map Prod.fst).Nodup
  range : ∀ s, ∀ e ∈ mine els s, -2 ^ 31 ≤ e.1 ∧ e.1 < 2 ^ 31
  gid : ∀ s, ∀ e ∈ mine els s, e.2.id.toInt = e.1
  wfTris : ∀ s, ∀ e ∈ els .tri s, GeomOk 3 e.2
  wfQuads : ∀ s, ∀ e ∈ els .quad s, GeomOk 4 e.2
  count : ∀ sh, ((List.finRange n).flatMap fun s => els sh s).length < 2 ^ 31
  sizeTris : n * (packRemotes 3 ((List.finRange n).flatMap fun s => (els .tri s).map (remoteOf s))).length < 2 ^ 31
  sizeQuads : n * (packRemotes 4 ((List.finRange n).flatMap fun s => (els .quad s).map (remoteOf s))).length < 2 ^ 31
  owner : ∀ s, ∀ e ∈ mine els s, ∀ c, BoxMeets m (box e.2).1 (box e.2).2 c → 0 ≤ owner c ∧ owner c < n

variable {m : MHGeom K} {owner : ℤ → ℤ} {box : Geom → (ℕ → K) × (ℕ → K)} {els : Shape2 → Fin n → List (ℤ × Geom)}

theorem mem_mine (sh : Shape2) {s : Fin n} {e : ℤ × Geom} (h : e ∈ els sh s) : e ∈ mine els s := by
  cases sh
  · exact List.mem_append_left _ h
  · exact List.mem_append_right _ h

/-- The meshes of the ranks with the bounding boxes. -/
def meshOf (box : Geom → (ℕ → K) × (ℕ → K)) (els : Shape2 → Fin n → List (ℤ × Geom)) (s : Fin n) : Mesh2d K := withBoxes box (els .tri s) (els .quad s)

/-- The state of a rank after the constructor, with these halos. -/
def stateOf (m : MHGeom K) (owner : ℤ → ℤ) (box : Geom → (ℕ → K) × (ℕ → K)) (els : Shape2 → Fin n → List (ℤ × Geom)) (s : Fin n)
    (out : List Remote × List Remote) : Pmi2d :=
  ⟨els .tri s, els .quad s, ownedCells owner s (localClaims m (meshOf box els s)).1, unownedCells owner s (localClaims m (meshOf box els s)).1, out.1, out.2⟩

omit [IsStrictOrderedRing K] in
theorem elsOf_state (sh : Shape2) (s : Fin n) (out : List Remote × List Remote) : elsOf sh (stateOf m owner box els s out) = els sh s := by
  cases sh <;> rfl
omit [IsStrictOrderedRing K] in
theorem remsOf_state (sh : Shape2) (s : Fin n) (out : List Remote × List Remote) : remsOf sh (stateOf m owner box els s out) = shapeOf sh out := by
  cases sh <;> rfl

omit [IsStrictOrderedRing K] [FloorRing K] in
theorem mem_meshOf (s : Fin n) (x : ℤ × LGeom K) : x ∈ (meshOf box els s).tris ++ (meshOf box els s).quads ↔
    ∃ e ∈ mine els s, x = (e.1, ⟨e.2, (box e.2).1, (box e.2).2⟩) := by
  unfold meshOf withBoxes mine
  rw [← List.map_append, List.mem_map]
  constructor
  · rintro ⟨e, he, rfl⟩; exact ⟨e, he, rfl⟩
  · rintro ⟨e, he, rfl⟩; exact ⟨e, he, rfl⟩

theorem mem_cells (hm : GridGeom m) (s : Fin n) (c : ℤ) (out : List Remote × List Remote) :
    c ∈ (stateOf m owner box els s out).owned ++ (stateOf m owner box els s out).unowned ↔
      ∃ e ∈ mine els s, BoxMeets m (box e.2).1 (box e.2).2 c := by
  obtain ⟨_, _, h1, h2⟩ := cells_split hm owner (meshOf box els s) s
  rw [List.mem_append]
  unfold stateOf
  simp only
  rw [h1, h2]
  have : (∃ e ∈ (meshOf box els s).tris ++ (meshOf box els s).quads, BoxMeets m e.2.lo e.2.hi c) ↔
      ∃ e ∈ mine els s, BoxMeets m (box e.2).1 (box e.2).2 c := by
    constructor
    · rintro ⟨x, hx, hb⟩
      obtain ⟨e, he, rfl⟩ := (mem_meshOf s x).mp hx
      exact ⟨e, he, hb⟩
    · rintro ⟨e, he, hb⟩
      exact ⟨_, (mem_meshOf s _).mpr ⟨e, he, rfl⟩, hb⟩
  rw [this, ← or_and_right]
  exact and_iff_right (em _)

theorem range_of_boxMeets (hm : GridGeom m) {lo hi : ℕ → K} {c : ℤ} (h : BoxMeets m lo hi c) : 0 ≤ c ∧ c < ncellsGlobal m.toMH := by
  obtain ⟨x, h1, h2, _⟩ := h
  rw [← (C23.hasLinearIndex_iff hm.1 h1 c).mp h2]
  exact ((C25.cell_index_bijective m.toMH hm.1).1 x h1).2

theorem flatMap_sublist {α β : Type} (f : α → List β) {a : α} {l : List α} (h : a ∈ l) : (f a).Sublist (l.flatMap f) := by
  obtain ⟨u, v, rfl⟩ := List.append_of_mem h
  rw [List.flatMap_append, List.flatMap_cons]
  exact (List.sublist_append_left _ _).trans (List.sublist_append_right _ _)

theorem InterfaceOk.input (h : InterfaceOk m owner box els) : InputOk m owner (meshOf box els) where
  grid := h.grid
  ranks := h.ranks
  tris := by
    refine ⟨?_, ?_, ?_, ?_, ?_⟩
    · intro s
      have := h.ids s
      unfold mine at this
      rw [List.map_append] at this
      simpa [meshOf, withBoxes, List.map_map, Function.comp_def] using this.of_append_left
    · intro s e he
      obtain ⟨x, hx, rfl⟩ := List.mem_map.mp he
      exact h.range s x (List.mem_append_left _ hx)
    · intro s e he
      obtain ⟨x, hx, rfl⟩ := List.mem_map.mp he
      exact h.wfTris s x hx
    · intro s
      refine lt_of_le_of_lt ?_ (h.count .tri)
      have := (flatMap_sublist (fun s => els .tri s) (List.mem_finRange s)).length_le
      simpa [meshOf, withBoxes] using this
    · intro s
      refine lt_of_le_of_lt (Nat.mul_le_mul_left _ ?_) h.sizeTris
      have hl := (flatMap_sublist (fun s => (els .tri s).map (remoteOf s)) (List.mem_finRange s))
      rw [C57.packRemotes_length, C57.packRemotes_length]
      refine Nat.add_le_add_left ?_ _
      have := C57.sum_le_of_subperm (fun g : Remote => (packGeom 3 g.rank g.id g.geom).length) hl.subperm
      refine le_trans (le_of_eq ?_) this
      simp [meshOf, withBoxes, List.map_map, Function.comp_def, asRemote, remoteOf]
  quads := by
    refine ⟨?_, ?_, ?_, ?_, ?_⟩
    · intro s
      have := h.ids s
      unfold mine at this
      rw [List.map_append] at this
      simpa [meshOf, withBoxes, List.map_map, Function.comp_def] using this.of_append_right
    · intro s e he
      obtain ⟨x, hx, rfl⟩ := List.mem_map.mp he
      exact h.range s x (List.mem_append_right _ hx)
    · intro s e he
      obtain ⟨x, hx, rfl⟩ := List.mem_map.mp he
      exact h.wfQuads s x hx
    · intro s
      refine lt_of_le_of_lt ?_ (h.count .quad)
      have := (flatMap_sublist (fun s => els .quad s) (List.mem_finRange s)).length_le
      simpa [meshOf, withBoxes] using this
    · intro s
      refine lt_of_le_of_lt (Nat.mul_le_mul_left _ ?_) h.sizeQuads
      have hl := (flatMap_sublist (fun s => (els .quad s).map (remoteOf s)) (List.mem_finRange s))
      rw [C57.packRemotes_length, C57.packRemotes_length]
      refine Nat.add_le_add_left ?_ _
      have := C57.sum_le_of_subperm (fun g : Remote => (packGeom 4 g.rank g.id g.geom).length) hl.subperm
      refine le_trans (le_of_eq ?_) this
      simp [meshOf, withBoxes, List.map_map, Function.comp_def, asRemote, remoteOf]
  owned := by
    intro s x hx c hb
    obtain ⟨e, he, rfl⟩ := (mem_meshOf s x).mp hx
    exact h.owner s e he c hb

theorem InterfaceOk.mesh (h : InterfaceOk m owner box els) (out : Fin n → List Remote × List Remote) :
    MeshOk m owner box fun s => stateOf m owner box els s (out s) where
  grid := h.grid
  ranks := h.ranks
  ncells := h.ncells
  ids := h.ids
  range s sh e he := by rw [elsOf_state] at he; exact h.range s e (mem_mine sh he)
  gid s sh e he := by rw [elsOf_state] at he; exact h.gid s e (mem_mine sh he)
  wf s sh e he := by
    rw [elsOf_state] at he
    cases sh
    · exact h.wfTris s e he
    · exact h.wfQuads s e he
  count sh := by
    have := h.count sh
    simp only [allOf, elsOf_state]
    simpa [List.length_flatMap] using this
  size sh := by
    simp only [allOf, elsOf_state]
    cases sh
    · exact h.sizeTris
    · exact h.sizeQuads
  cells s c hc := by
    obtain ⟨e, _, hb⟩ := (mem_cells h.grid s c (out s)).mp hc
    exact range_of_boxMeets h.grid hb
  owned s c hc := (((cells_split h.grid owner (meshOf box els s) s).2.2.1 c).mp hc).1
  owner s sh e he c hb := by rw [elsOf_state] at he; exact h.owner s e (mem_mine sh he) c hb

theorem keyOf_nodup {out : List Remote} (h : (out.map fun x => (x.rank, x.id)).Nodup) : (out.map keyOf).Nodup := by
  have : out.map keyOf = (out.map fun x => (x.rank, x.id)).map fun p => (toLex (p.1.toInt, p.2.toInt) : HaloExtension.Key) := by
    rw [List.map_map]; rfl
  rw [this]
  refine h.map ?_
  rintro ⟨a, b⟩ ⟨c, d⟩ heq
  have heq' : (a.toInt, b.toInt) = (c.toInt, d.toInt) := heq
  simp only [Prod.mk.injEq] at heq'
  exact Prod.ext (BitVec.eq_of_toInt_eq heq'.1) (BitVec.eq_of_toInt_eq heq'.2)

theorem rank_id_nodup {out : List Remote} (h : (out.map keyOf).Nodup) : (out.map fun x => (x.rank, x.id)).Nodup := by
  have : out.map keyOf = (out.map fun x => (x.rank, x.id)).map fun p => (toLex (p.1.toInt, p.2.toInt) : HaloExtension.Key) := by
    rw [List.map_map]; rfl
  rw [this] at h
  exact h.of_map _

/-- The halo of a shape as C57 describes it. -/
theorem halo_of_post {r : Fin n} {out : List Remote × List Remote} (h : Post m owner (meshOf box els) r out) (sh : Shape2) :
    ((shapeOf sh out).map keyOf).Nodup ∧ ∀ x, x ∈ shapeOf sh out ↔ ∃ s, s ≠ r ∧ ∃ e ∈ els sh s, x = remoteOf s e ∧
      ∃ c, owner c = r.val ∧ BoxMeets m (box e.2).1 (box e.2).2 c := by
  have key : ∀ (l : Fin n → List (ℤ × Geom)) (o : List Remote),
      IsHalo m owner (fun s => (l s).map fun e => (e.1, (⟨e.2, (box e.2).1, (box e.2).2⟩ : LGeom K))) r o →
      (o.map keyOf).Nodup ∧ ∀ x, x ∈ o ↔ ∃ s, s ≠ r ∧ ∃ e ∈ l s, x = remoteOf s e ∧
        ∃ c, owner c = r.val ∧ BoxMeets m (box e.2).1 (box e.2).2 c := by
    intro l o ho
    refine ⟨keyOf_nodup ho.1, fun x => ?_⟩
    rw [ho.2]
    constructor
    · rintro ⟨s, hs, y, hy, rfl, hc⟩
      obtain ⟨e, he, rfl⟩ := List.mem_map.mp hy
      exact ⟨s, hs, e, he, rfl, hc⟩
    · rintro ⟨s, hs, e, he, rfl, hc⟩
      exact ⟨s, hs, _, List.mem_map.mpr ⟨e, he, rfl⟩, rfl, hc⟩
  cases sh
  · exact key _ _ h.1
  · exact key _ _ h.2

theorem halosOk_of_post {out : Fin n → List Remote × List Remote} (h : ∀ r, Post m owner (meshOf box els) r (out r)) :
    HalosOk m owner box fun s => stateOf m owner box els s (out s) where
  sound r sh x hx := by
    rw [remsOf_state] at hx
    obtain ⟨s, hs, e, he, hx, _⟩ := ((halo_of_post (h r) sh).2 x).mp hx
    exact ⟨s, hs, e, by rwa [elsOf_state], hx⟩
  once r sh := by rw [remsOf_state]; exact (halo_of_post (h r) sh).1
  knows r sh c hc s hs e he hb := by
    rw [elsOf_state] at he
    rw [remsOf_state]
    exact ((halo_of_post (h r) sh).2 _).mpr ⟨s, hs, e, he, rfl, c, hc, hb⟩

/-- The halos which a rank has at the end. -/
def ExtPost (m : MHGeom K) (owner : ℤ → ℤ) (box : Geom → (ℕ → K) × (ℕ → K)) (els : Shape2 → Fin n → List (ℤ × Geom)) (calls : List (ℤ × Bool))
    (r : Fin n) (out : List Remote × List Remote) : Prop :=
  IsExtendedHalo m owner box calls (mine els r) (els .tri) r out.1 ∧ IsExtendedHalo m owner box calls (mine els r) (els .quad) r out.2

/-- The construction of the mesh interface on all of the ranks, followed by any number of calls of `extend_halos_fixed_offset` with offsets up to
the size of the mesh. In every state of every execution: no rank has failed; a rank which has returned holds, each once, exactly the elements of the
other ranks which meet its cells or a cell within the offset of a cell it touches; and if not all of the ranks have returned then some rank can
make a step, even when sends are not buffered. -/
theorem interface_spec (h : InterfaceOk m owner box els) (calls : List (ℤ × Bool)) (hcalls : ∀ c ∈ calls, ∀ d < m.ndim, c.1 ≤ m.dims d * m.ncf)
    (w : Fin n → ℤ) {S : Sys n Msg (List Remote × List Remote)}
    (hS : Reachable (Sys.init (fun r => meshInterface m owner box (els .tri r) (els .quad r) calls r) w) S) :
    (∀ r, S.prog r ≠ .fail) ∧ (∀ r out, S.prog r = .done out → ExtPost m owner box els calls r out) ∧ (S.Finished ∨ ∃ S', Step true S S') := by
  -- the halos of one execution of the constructor stand for those of all
  obtain ⟨S₁, hS₁, hf⟩ := halos2d_completes h.input w Relation.ReflTransGen.refl
  have hS₁' : Reachable (Sys.init (fun r => halos2d m owner (meshOf box els r) r) w) S₁ := by
    clear hf
    induction hS₁ with
    | refl => exact Relation.ReflTransGen.refl
    | tail _ h2 ih => exact ih.tail (step_of_sync h2)
  choose out₀ hout₀ using hf
  have hpost₀ : ∀ r, Post m owner (meshOf box els) r (out₀ r) := fun r => (halos2d_spec h.input w hS₁').2.1 r _ (hout₀ r)
  obtain ⟨blk₁, hk₁, hc₁⟩ := conf_createHalos2d h.input
  obtain ⟨blk₂, hk₂, hc₂⟩ := conf_many calls _ (h.mesh out₀) (halosOk_of_post hpost₀) hcalls
  have hl₁ : blk₁.length = 8 := by rw [← List.length_map (f := Phase.kind), hk₁]; rfl
  have hb₁ : blk₁.map Phase.kind = kindsOf [[45, 46], [45, 46]] := hk₁
  have hkinds : (blk₁ ++ blk₂).map Phase.kind = kindsOf ([] ++ [45, 46] :: [45, 46] :: List.replicate (activeCalls calls) extTags) := by
    rw [List.map_append, hb₁, hk₂, ← kindsOf_append]; rfl
  have hkinds' : (blk₁ ++ blk₂).map Phase.kind = kindsOf ([[45, 46]] ++ [45, 46] :: List.replicate (activeCalls calls) extTags) := hkinds
  refine correct (ofPhases (blk₁ ++ blk₂) (ExtPost m owner box els calls)) _ w (fun r => ?_) hS
  unfold meshInterface
  refine hc₁ (p := 0) r (fun i hi => by rw [Nat.zero_add, List.getElem?_append_left (by omega)]) ?_ ?_ ?_ ?_ ?_ ?_ ?_
  · rw [hkinds]; exact quiet_block_start [] _ _
  · rw [hkinds]; exact quiet_block_msgs [] _ _
  · rw [hkinds']; exact quiet_block_start [[45, 46]] _ _
  · rw [hkinds']; exact quiet_block_msgs [[45, 46]] _ _
  · rw [hkinds]; exact any_block [] [46] _ 45 (by decide)
  · rw [hkinds']; exact any_block [[45, 46]] [46] _ 45 (by decide)
  intro out hout
  have hsame : Same (stateOf m owner box els r out) (stateOf m owner box els r (out₀ r)) :=
    { tris := rfl, quads := rfl, owned := rfl, unowned := rfl
      rems := fun sh x => by rw [remsOf_state, remsOf_state, (halo_of_post hout sh).2, (halo_of_post (hpost₀ r) sh).2]
      once := fun sh => by rw [remsOf_state]; exact (halo_of_post hout sh).1 }
  have := hc₂ (post := ExtPost m owner box els calls) blk₁ [[45, 46], [45, 46]] hb₁ r (some (0, 0 + 4)) _ hsame (k := .done)
  rw [hl₁] at this
  refine this ?_
  intro o base ho
  refine conf_done ?_
  have key : ∀ sh, IsExtendedHalo m owner box calls (mine els r) (els sh) r (shapeOf sh o) := by
    intro sh
    obtain ⟨_, a2, a3⟩ := ho sh
    refine ⟨rank_id_nodup a2, fun x => ?_⟩
    rw [a3]
    simp only [elsOf_state, remsOf_state]
    have hnear : ∀ (w : ℤ) (pbc : Bool) (c : ℤ), Near m.toMH w pbc
        ((stateOf m owner box els r (out₀ r)).owned ++ (stateOf m owner box els r (out₀ r)).unowned) c ↔
        ∃ e' ∈ mine els r, ∃ b, BoxMeets m (box e'.2).1 (box e'.2).2 b ∧ NearCell m.toMH w pbc b c := by
      intro w pbc c
      unfold Near
      simp only [mem_cells h.grid]
      constructor
      · rintro ⟨b, ⟨e', he', hb⟩, hn⟩; exact ⟨e', he', b, hb, hn⟩
      · rintro ⟨e', he', b, hb, hn⟩; exact ⟨b, ⟨e', he', hb⟩, hn⟩
    simp only [hnear]
    constructor
    · rintro ⟨s, hs, e, he, hx, hor⟩
      refine ⟨s, hs, e, he, hx, ?_⟩
      rcases hor with hx' | ⟨call, hcall, h0, c, hn, hb⟩
      · obtain ⟨s', _, e', he', hx'', c, hc, hb⟩ := ((halo_of_post hout sh).2 x).mp hx'
        have := (h.mesh out₀).remote_inj (sh := sh) (sh' := sh) (s := s) (s' := s') (e := e) (e' := e') (by rwa [elsOf_state]) (by rwa [elsOf_state])
          (by rw [← hx, ← hx''])
        obtain ⟨rfl, -, rfl⟩ := this
        exact ⟨c, hb, Or.inl hc⟩
      · exact ⟨c, hb, Or.inr ⟨call, hcall, h0, hn⟩⟩
    · rintro ⟨s, hs, e, he, hx, c, hb, hor⟩
      refine ⟨s, hs, e, he, hx, ?_⟩
      rcases hor with hc | ⟨call, hcall, h0, hn⟩
      · exact Or.inl (((halo_of_post hout sh).2 x).mpr ⟨s, hs, e, he, hx, c, hc, hb⟩)
      · exact Or.inr ⟨call, hcall, h0, c, hn, hb⟩
  exact ⟨key .tri, key .quad⟩

/-- Every element of the mesh which meets a cell within the offset of a cell touched by a rank is known to that rank. -/
theorem interface_cover (h : InterfaceOk m owner box els) (calls : List (ℤ × Bool)) (hcalls : ∀ c ∈ calls, ∀ d < m.ndim, c.1 ≤ m.dims d * m.ncf)
    (w : Fin n → ℤ) {S : Sys n Msg (List Remote × List Remote)}
    (hS : Reachable (Sys.init (fun r => meshInterface m owner box (els .tri r) (els .quad r) calls r) w) S) {r : Fin n}
    {out : List Remote × List Remote} (hr : S.prog r = .done out) {call : ℤ × Bool} (hcall : call ∈ calls) (h0 : 0 ≤ call.1)
    {e' : ℤ × Geom} (he' : e' ∈ mine els r) {b c : ℤ} (hb : BoxMeets m (box e'.2).1 (box e'.2).2 b) (hbc : NearCell m.toMH call.1 call.2 b c)
    (s : Fin n) (e : ℤ × Geom) (hc : BoxMeets m (box e.2).1 (box e.2).2 c) :
    (e ∈ els .tri s → e ∈ els .tri r ∨ remoteOf s e ∈ out.1) ∧ (e ∈ els .quad s → e ∈ els .quad r ∨ remoteOf s e ∈ out.2) := by
  obtain ⟨ht, hq⟩ := (interface_spec h calls hcalls w hS).2.1 r out hr
  by_cases hs : s = r
  · subst hs; exact ⟨Or.inl, Or.inl⟩
  · exact ⟨fun he => Or.inr ((ht.2 _).mpr ⟨s, hs, e, he, rfl, c, hc, Or.inr ⟨call, hcall, h0, e', he', b, hb, hbc⟩⟩),
      fun he => Or.inr ((hq.2 _).mpr ⟨s, hs, e, he, rfl, c, hc, Or.inr ⟨call, hcall, h0, e', he', b, hb, hbc⟩⟩)⟩

/-- Every execution can be completed, also without buffering. -/
theorem interface_completes (h : InterfaceOk m owner box els) (calls : List (ℤ × Bool)) (hcalls : ∀ c ∈ calls, ∀ d < m.ndim, c.1 ≤ m.dims d * m.ncf)
    (w : Fin n → ℤ) {S : Sys n Msg (List Remote × List Remote)}
    (hS : Reachable (Sys.init (fun r => meshInterface m owner box (els .tri r) (els .quad r) calls r) w) S) :
    ∃ S', Relation.ReflTransGen (Step true) S S' ∧ S'.Finished :=
  completes (fun _ h' => (interface_spec h calls hcalls w h').2.2) S hS

/-- There is no infinite execution: with `interface_spec`, all of the ranks return. -/
theorem interface_terminates (f : ℕ → Sys n Msg (List Remote × List Remote)) : ¬ ∀ i, Step false (f i) (f (i + 1)) := no_infinite false f

omit [IsStrictOrderedRing K] in
/-- A negative offset changes nothing and does not communicate; an offset larger than the mesh in some dimension fails. -/
theorem offset_limits (hm : Grid m.toMH) (pbc : Bool) (w : ℤ) (r : Fin n) (p : Pmi2d) {O : Type} (k : List Remote × List Remote → Prog n Msg O) :
    (w < 0 → extendHalos2d m owner box w pbc r p k = k (p.remoteTris, p.remoteQuads)) ∧
    ((∃ d < m.ndim, m.dims d * m.ncf < w) → extendHalos2d m owner box w pbc r p k = .fail) := by
  obtain ⟨h1, h2⟩ := C23.offset_limits m.toMH hm pbc p.owned p.unowned w
  constructor
  · intro h; unfold extendHalos2d; rw [h1 h]
  · intro h; unfold extendHalos2d; rw [h2 h]

/-! ### An example -/

/-- The triangle is in cell 1 of `C26.exampleMesh`, the quadrilateral in cell 0. -/
def exBox (g : Geom) : (ℕ → ℚ) × (ℕ → ℚ) :=
  (fun d => if d = 0 then (if g = C18.tri then 1/4 else -3/4) else 1/4, fun d => if d = 0 then (if g = C18.tri then 3/4 else -1/4) else 3/4)
/-- Rank 0 has the quadrilateral and owns cell 0, rank 1 has the triangle and owns cell 1. -/
def exEls : Shape2 → Fin 2 → List (ℤ × Geom)
  | .tri, r => if r = 1 then [(11, C18.tri)] else []
  | .quad, r => if r = 0 then [(12, C18.quad)] else []

theorem exGrid : GridGeom exampleMesh :=
  ⟨⟨by decide, fun d _ => by dsimp only [exampleMesh]; split_ifs <;> omega, by decide⟩, by decide, by simp [exampleMesh], by simp [exampleMesh]⟩

theorem exMap (g : Geom) : boundingBoxMap exampleMesh (exBox g).1 (exBox g).2 0 = [(if g = C18.tri then 1 else 0, 1/4)] := by
  unfold exBox
  by_cases h : g = C18.tri
  · simp only [h, if_true]; decide +kernel
  · simp only [h, if_false]; decide +kernel

theorem exMeets (g : Geom) (c : ℤ) : BoxMeets exampleMesh (exBox g).1 (exBox g).2 c ↔ c = if g = C18.tri then 1 else 0 := by
  rw [← mem_boundingBoxMap exGrid, exMap]; simp

theorem exOk : InterfaceOk exampleMesh (fun c => c) exBox exEls where
  grid := exGrid
  ranks := by decide
  ncells := by decide +kernel
  ids s := by fin_cases s <;> simp [mine, exEls]
  range s e he := by
    have : e.1 = 11 ∨ e.1 = 12 := by
      fin_cases s
      · have : e = (12, C18.quad) := by simpa [mine, exEls] using he
        rw [this]; exact Or.inr rfl
      · have : e = (11, C18.tri) := by simpa [mine, exEls] using he
        rw [this]; exact Or.inl rfl
    omega
  gid s e he := by
    fin_cases s
    · have : e = (12, C18.quad) := by simpa [mine, exEls] using he
      rw [this]; rfl
    · have : e = (11, C18.tri) := by simpa [mine, exEls] using he
      rw [this]; rfl
  wfTris s e he := by
    fin_cases s
    · simp [exEls] at he
    · have : e = (11, C18.tri) := by simpa [exEls] using he
      rw [this]; exact C18.tri_ok
  wfQuads s e he := by
    fin_cases s
    · have : e = (12, C18.quad) := by simpa [exEls] using he
      rw [this]; exact C18.quad_ok
    · simp [exEls] at he
  count sh := by cases sh <;> decide +kernel
  sizeTris := by decide +kernel
  sizeQuads := by decide +kernel
  owner s e _ c hb := by
    rw [exMeets] at hb
    rw [hb]
    split_ifs <;> decide

/-- The cells are neighbours. -/
theorem exNear : NearCell exampleMesh.toMH 1 false 0 1 := by
  refine ⟨fun d => if d = 0 then 1 else 0, ?_, ⟨fun d => if d = 0 then 1 else 0, ?_, by decide +kernel⟩, fun _ => 0, ?_, ⟨fun _ => 0, ?_, by decide +kernel⟩, ?_⟩
  all_goals
    intro d hd
    have hd : d < 2 := hd
    interval_cases d <;> simp [exampleMesh]

/-- With the offset 1 rank 0 knows the triangle of rank 1; without the call it does not. -/
example (w : Fin 2 → ℤ) {S : Sys 2 Msg (List Remote × List Remote)}
    (hS : Reachable (Sys.init (fun r => meshInterface exampleMesh (fun c => c) exBox (exEls .tri r) (exEls .quad r) [(-1, true), (1, false)] r) w) S)
    {out : List Remote × List Remote} (hr : S.prog 0 = .done out) : (⟨1, 11, C18.tri⟩ : Remote) ∈ out.1 := by
  have := (interface_cover exOk [(-1, true), (1, false)] (by
      intro c hc d hd
      have hd : d < 2 := hd
      have : c.1 ≤ 1 := by simp at hc; rcases hc with rfl | rfl <;> decide
      have : (1 : ℤ) ≤ exampleMesh.dims d * exampleMesh.ncf := by interval_cases d <;> simp [exampleMesh]
      omega) w hS hr (call := (1, false)) (by simp) (by decide)
    (e' := (12, C18.quad)) (by simp [mine, exEls]) (b := 0) (c := 1) ((exMeets _ _).mpr (by decide +kernel)) exNear 1 (11, C18.tri)
    ((exMeets _ _).mpr (by simp))).1 (by simp [exEls])
  rcases this with h | h
  · simp [exEls] at h
  · exact h

example (w : Fin 2 → ℤ) {S : Sys 2 Msg (List Remote × List Remote)}
    (hS : Reachable (Sys.init (fun r => meshInterface exampleMesh (fun c => c) exBox (exEls .tri r) (exEls .quad r) [] r) w) S)
    {out : List Remote × List Remote} (hr : S.prog 0 = .done out) : out.1 = [] := by
  obtain ⟨ht, _⟩ := (interface_spec exOk [] (by simp) w hS).2.1 0 out hr
  rw [List.eq_nil_iff_forall_not_mem]
  intro x hx
  obtain ⟨s, hs, e, he, -, c, hc, h | ⟨_, h, _⟩⟩ := (ht.2 x).mp hx
  · rw [exMeets] at hc
    have : e = (11, C18.tri) := by
      fin_cases s
      · simp [exEls] at he
      · simpa [exEls] using he
    rw [this] at hc
    simp at hc h
    omega
  · cases h

end Verif.Props.C58
