import Verif.Spec.Halo3D
import Verif.Lemmas.HaloExchange3D
import Verif.Lemmas.MpiBlocks
import Verif.Lemmas.MpiTermination
import Verif.Props.C57_Halo2D

/-! C60: the halo of a 3D mesh. -/

namespace Verif.Props.C60
open Verif.Model Verif.Model.Bytes Verif.Model.PackedGeom2D Verif.Model.RemoteGeom Verif.Model.GeomTransport3D Verif.Model.Mpi Verif.Model.Claims
  Verif.Model.HaloExchange Verif.Model.HaloExchange3D Verif.Spec Verif.Lemmas.Mpi Verif.Lemmas Verif.Lemmas.HaloExchange Verif.Lemmas.HaloExchange3D
  Verif.Props.C24 Verif.Props.C26

variable {K : Type} [Field K] [LinearOrder K] [IsStrictOrderedRing K] [FloorRing K] {n : ℕ}

/-- The faces of a rank with one shape, as they are sent. -/
def facesOf (sh : FaceShape) (mesh : Fin n → Mesh3d K) (s : Fin n) : List Remote :=
  ((mesh s).faces.filter fun x => decide (x.2.shape = sh)).map fun x => ⟨BitVec.ofNat 32 s.val, BitVec.ofInt 32 x.1, x.2.data⟩

/-- The conditions on the input. All of the ranks have the same mesh hierarchy; every claimed cell has an owner; ids are unique on their rank; each
element has the faces of its shape, which are in the mesh of the rank; the sizes of the buffers are `int`s. -/
structure Input3Ok (m : MHGeom K) (owner : ℤ → ℤ) (mesh : Fin n → Mesh3d K) : Prop where
  grid : GridGeom m
  ranks : n ≤ 2 ^ 31
  ids : ∀ s, ((mesh s).elements.map Prod.fst).Nodup
  gid : ∀ s, ∀ e ∈ (mesh s).elements, e.2.geom.gid = e.1
  wf : ∀ s, ∀ e ∈ (mesh s).elements, C20.WellFormed e.2.geom
  faceIds : ∀ s, ((mesh s).faces.map Prod.fst).Nodup
  faceGid : ∀ s, ∀ x ∈ (mesh s).faces, x.2.data.id.toInt = x.1
  faceWf : ∀ s, ∀ x ∈ (mesh s).faces, GeomOk (edgesOfFace x.2.shape) x.2.data
  faces : ∀ s, ∀ e ∈ (mesh s).elements, ∀ f ∈ e.2.geom.faces, (f.gid, f) ∈ (mesh s).faces
  count : ∀ s, (mesh s).faces.length < 2 ^ 31
  sizeTris : ∀ s, n * (packRemotes 3 (facesOf .tri mesh s)).length < 2 ^ 31
  sizeQuads : ∀ s, n * (packRemotes 4 (facesOf .quad mesh s)).length < 2 ^ 31
  sizeInts : ∀ s, n * (C20.message ((mesh s).elements.map (asRemote3 s))).length < 2 ^ 31
  owned : ∀ s, ∀ e ∈ (mesh s).elements, ∀ c, BoxMeets m e.2.lo e.2.hi c → 0 ≤ owner c ∧ owner c < n

/-! ### The claims -/

theorem mem_claims {m : MHGeom K} (hm : GridGeom m) (mesh : Mesh3d K) (c : ℤ) :
    c ∈ (localClaims3d m mesh).1.cells ↔ ∃ e ∈ mesh.elements, BoxMeets m e.2.lo e.2.hi c := by
  unfold localClaims3d
  rw [claimed_iff hm]
  constructor
  · rintro ⟨e, he, h⟩
    obtain ⟨x, hx, rfl⟩ := List.mem_map.mp he
    exact ⟨x, hx, h⟩
  · rintro ⟨x, hx, h⟩
    exact ⟨_, List.mem_map.mpr ⟨x, hx, rfl⟩, h⟩

theorem nodup_claims (m : MHGeom K) (mesh : Mesh3d K) : (localClaims3d m mesh).1.cells.Nodup := by
  have h1 : (localClaims3d m mesh).1 = claims (callsOf m (mesh.elements.map fun x => ⟨x.1, x.2.lo, x.2.hi⟩)) := by
    unfold localClaims3d claims
    simp only [claimCells_calls]
  rw [h1]
  exact (claimed_cells _).1

/-- `get_unowned_cells` for a 3D mesh: the claimed cells are split by their owner, each cell once. -/
theorem cells_split3 {m : MHGeom K} (hm : GridGeom m) (owner : ℤ → ℤ) (mesh : Mesh3d K) (rank : Fin n) :
    (ownedCells owner rank (localClaims3d m mesh).1).Nodup ∧ (unownedCells owner rank (localClaims3d m mesh).1).Nodup ∧
    (∀ c, c ∈ ownedCells owner rank (localClaims3d m mesh).1 ↔ owner c = rank.val ∧ ∃ e ∈ mesh.elements, BoxMeets m e.2.lo e.2.hi c) ∧
    (∀ c, c ∈ unownedCells owner rank (localClaims3d m mesh).1 ↔ owner c ≠ rank.val ∧ ∃ e ∈ mesh.elements, BoxMeets m e.2.lo e.2.hi c) := by
  unfold ownedCells unownedCells
  have hn := nodup_claims m mesh
  refine ⟨List.nodup_reverse.mpr (hn.filter _), List.nodup_reverse.mpr (hn.filter _), fun c => ?_, fun c => ?_⟩ <;>
    rw [List.mem_reverse, List.mem_filter, mem_claims hm, decide_eq_true_eq, and_comm]

theorem mem_geomMap {m : MHGeom K} (hm : GridGeom m) (mesh : Mesh3d K) (c i : ℤ) :
    i ∈ (localClaims3d m mesh).2 c ↔ ∃ e ∈ mesh.elements, e.1 = i ∧ BoxMeets m e.2.lo e.2.hi c := by
  classical
  unfold localClaims3d
  rw [geom_map_exact hm]
  simp only [List.nil_append, List.mem_map, List.mem_filter, decide_eq_true_eq]
  constructor
  · rintro ⟨_, ⟨⟨x, hx, rfl⟩, h⟩, rfl⟩; exact ⟨x, hx, rfl, h⟩
  · rintro ⟨x, hx, rfl, h⟩; exact ⟨_, ⟨⟨x, hx, rfl⟩, h⟩, rfl⟩

/-! ### What is sent -/

/-- What `exchange_get_send_ranks` computes on all of the ranks. -/
structure Sends3 (m : MHGeom K) (owner : ℤ → ℤ) (mesh : Fin n → Mesh3d K) (ranks : Fin n → List (Fin n))
    (rem : Fin n → Fin n → List (ℤ × Geom3 Geom)) : Prop where
  eq : ∀ s, exchangeGetSendRanks s owner ((mesh s).elements.map fun x => (x.1, x.2.geom)) (localClaims3d m (mesh s)).2
    (unownedCells owner s (localClaims3d m (mesh s)).1) = some (ranks s, rem s)
  nodup : ∀ s, (ranks s).Nodup
  mem : ∀ s d, d ∈ ranks s ↔ s ≠ d ∧ ∃ e ∈ (mesh s).elements, ∃ c, owner c = d.val ∧ BoxMeets m e.2.lo e.2.hi c
  sorted : ∀ s d, Sorted (rem s d)
  sent : ∀ s d x, x ∈ rem s d ↔ s ≠ d ∧ ∃ e ∈ (mesh s).elements, x = (e.1, e.2.geom) ∧ ∃ c, owner c = d.val ∧ BoxMeets m e.2.lo e.2.hi c

variable {m : MHGeom K} {owner : ℤ → ℤ} {mesh : Fin n → Mesh3d K}

theorem exists_sends3 (h : Input3Ok m owner mesh) : ∃ ranks rem, Sends3 m owner mesh ranks rem := by
  have hm := h.grid
  have key : ∀ s : Fin n, _ := fun s => sendRanks_spec (elementMap := (mesh s).elements.map fun x => (x.1, x.2.geom)) s owner
    (localClaims3d m (mesh s)).2 (by rw [List.map_map]; exact h.ids s) (unownedCells owner s (localClaims3d m (mesh s)).1)
    (by
      intro c hc
      obtain ⟨ho, e, he, hb⟩ := ((cells_split3 hm owner (mesh s) s).2.2.2 c).mp hc
      exact ⟨(h.owned s e he c hb).1, (h.owned s e he c hb).2, ho⟩)
    (by
      intro c _ i hi
      obtain ⟨e, he, rfl, _⟩ := (mem_geomMap hm (mesh s) c i).mp hi
      rw [List.map_map]
      exact List.mem_map.mpr ⟨e, he, rfl⟩)
  choose ranks rem h1 h2 h3 h4 h5 using key
  have hne : ∀ {s d : Fin n} {c : ℤ}, owner c = d.val → (owner c ≠ s.val ↔ s ≠ d) := by
    intro s d c hc
    rw [hc, ne_eq, ne_eq, Fin.ext_iff]
    omega
  refine ⟨ranks, rem, h1, h2, fun s d => ?_, h4, fun s d x => ?_⟩
  · rw [h3]
    constructor
    · rintro ⟨c, hc, ho⟩
      obtain ⟨ho', e, he, hb⟩ := ((cells_split3 hm owner (mesh s) s).2.2.2 c).mp hc
      exact ⟨(hne ho).mp ho', e, he, c, ho, hb⟩
    · rintro ⟨hsd, e, he, c, ho, hb⟩
      exact ⟨c, ((cells_split3 hm owner (mesh s) s).2.2.2 c).mpr ⟨(hne ho).mpr hsd, e, he, hb⟩, ho⟩
  · rw [h5]
    constructor
    · rintro ⟨c, hc, ho, hi, hx⟩
      obtain ⟨ho', _⟩ := ((cells_split3 hm owner (mesh s) s).2.2.2 c).mp hc
      obtain ⟨e, he, hid, hb⟩ := (mem_geomMap hm (mesh s) c x.1).mp hi
      obtain ⟨e', he', rfl⟩ := List.mem_map.mp hx
      have : e = e' := List.inj_on_of_nodup_map (h.ids s) he he' hid
      subst this
      exact ⟨(hne ho).mp ho', e, he, rfl, c, ho, hb⟩
    · rintro ⟨hsd, e, he, rfl, c, ho, hb⟩
      exact ⟨c, ((cells_split3 hm owner (mesh s) s).2.2.2 c).mpr ⟨(hne ho).mpr hsd, e, he, hb⟩, ho, (mem_geomMap hm (mesh s) c _).mpr ⟨e, he, rfl, hb⟩,
        List.mem_map.mpr ⟨e, he, rfl⟩⟩

variable {ranks : Fin n → List (Fin n)} {rem : Fin n → Fin n → List (ℤ × Geom3 Geom)}

/-- The elements which `s` sends to `d`. -/
def sent3 (rem : Fin n → Fin n → List (ℤ × Geom3 Geom)) (s d : Fin n) : List (Remote3 Geom) := (rem s d).map fun g => ⟨s.val, g.1, g.2⟩

theorem Sends3.hasFaces (S : Sends3 m owner mesh ranks rem) (h : Input3Ok m owner mesh) (s d : Fin n) :
    ∀ g ∈ rem s d, ∀ f ∈ g.2.faces, mapGet (mesh s).faces f.gid = some f := by
  intro g hg f hf
  obtain ⟨_, e, he, rfl, _⟩ := (S.sent s d g).mp hg
  exact (mapGet_eq (h.faceIds s) _ _).mpr (h.faces s e he f hf)

theorem message_length_le {a b : List (Remote3 Geom)} (h : a.Subperm b) : (C20.message a).length ≤ (C20.message b).length := by
  unfold C20.message
  rw [List.length_flatMap, List.length_flatMap]
  exact C57.sum_le_of_subperm _ h

theorem Sends3.subperm (S : Sends3 m owner mesh ranks rem) (s d : Fin n) : (sent3 rem s d).Subperm ((mesh s).elements.map (asRemote3 s)) := by
  refine List.subperm_of_subset ?_ ?_
  · refine List.Nodup.map ?_ (List.Nodup.of_map _ (S.sorted s d).nodup)
    rintro ⟨a, b⟩ ⟨c, e⟩ hh
    simp only [Remote3.mk.injEq] at hh
    exact Prod.ext hh.2.1 hh.2.2
  · intro x hx
    obtain ⟨g, hg, rfl⟩ := List.mem_map.mp hx
    obtain ⟨_, e, he, rfl, _⟩ := (S.sent s d g).mp hg
    exact List.mem_map.mpr ⟨e, he, rfl⟩

theorem packed_size (sh : FaceShape) (shape : I32) (h : Input3Ok m owner mesh) (s : Fin n) (l : List (ℤ × Geom)) (hl : Sorted l)
    (hm : ∀ x ∈ l, ∃ f : Geom2 Geom, (f.gid, f) ∈ (mesh s).faces ∧ f.shape = sh ∧ x = (f.gid, f.data))
    (hs : n * (packRemotes shape (facesOf sh mesh s)).length < 2 ^ 31) :
    (∀ x ∈ l, GeomOk (edgesOfFace sh) x.2) ∧ l.length < 2 ^ 31 ∧
      n * (packRemotes shape (l.map fun g => ⟨BitVec.ofNat 32 s.val, BitVec.ofInt 32 g.1, g.2⟩)).length < 2 ^ 31 := by
  have hsub : l.Subperm (((mesh s).faces.filter fun x => decide (x.2.shape = sh)).map fun x => (x.1, x.2.data)) := by
    refine List.subperm_of_subset (List.Nodup.of_map _ hl.nodup) ?_
    intro x hx
    obtain ⟨f, hf, hsh, rfl⟩ := hm x hx
    exact List.mem_map.mpr ⟨(f.gid, f), List.mem_filter.mpr ⟨hf, by simpa using hsh⟩, rfl⟩
  refine ⟨?_, ?_, ?_⟩
  · intro x hx
    obtain ⟨f, hf, hsh, rfl⟩ := hm x hx
    have := h.faceWf s _ hf
    rw [← hsh]; exact this
  · have h1 := hsub.length_le
    rw [List.length_map] at h1
    exact lt_of_le_of_lt (h1.trans (List.length_filter_le _ _)) (h.count s)
  · refine lt_of_le_of_lt (Nat.mul_le_mul_left _ ?_) hs
    rw [C57.packRemotes_length, C57.packRemotes_length]
    refine Nat.add_le_add_left ?_ _
    have := C57.sum_le_of_subperm (fun g : ℤ × Geom => (packGeom shape (BitVec.ofNat 32 s.val) (BitVec.ofInt 32 g.1) g.2).length) hsub
    simpa only [facesOf, List.map_map, Function.comp_def] using this

theorem toInt_ofInt_id (i : I32) : (BitVec.ofInt 32 i.toInt) = i := BitVec.ofInt_toInt

/-- A face of an element: its id is an `int`. -/
theorem face_id (h : Input3Ok m owner mesh) {s : Fin n} {e : ℤ × LGeom3 K} (he : e ∈ (mesh s).elements) {f : Geom2 Geom} (hf : f ∈ e.2.geom.faces) :
    f.data.id.toInt = f.gid ∧ (BitVec.ofInt 32 f.gid).toInt = f.gid := by
  have h1 := h.faceGid s _ (h.faces s e he f hf)
  refine ⟨h1, ?_⟩
  dsimp only at h1
  rw [← h1, toInt_ofInt_id]

theorem toInt_rank (h : Input3Ok m owner mesh) (s : Fin n) : (BitVec.ofNat 32 s.val : I32).toInt = s.val := by
  have := s.isLt
  have := h.ranks
  exact Verif.Lemmas.toInt_ofNat32 _ (by omega)

/-! ### The result -/

/-- The specification of the result: the elements of the halo, and the triangles and quadrilaterals of their faces. -/
def Post3 (m : MHGeom K) (owner : ℤ → ℤ) (mesh : Fin n → Mesh3d K) (r : Fin n) (out : Halos3d) : Prop :=
  IsHalo3 m owner (fun s => (mesh s).elements) r out.geoms ∧ IsFaces .tri out.geoms out.tris ∧ IsFaces .quad out.geoms out.quads

theorem Sends3.isHalo (S : Sends3 m owner mesh ranks rem) (r : Fin n) {recv : List (Fin n)}
    (h1 : recv.Nodup) (h2 : ∀ s, s ∈ recv ↔ r ∈ ranks s) : IsHalo3 m owner (fun s => (mesh s).elements) r (recv.flatMap fun s => sent3 rem s r) := by
  constructor
  · rw [List.map_flatMap, List.nodup_flatMap]
    constructor
    · intro s _
      unfold sent3
      rw [List.map_map]
      have := (S.sorted s r).nodup
      have := List.Nodup.map (f := fun i : ℤ => ((s.val : ℤ), i)) (fun a b hab => (Prod.mk.inj hab).2) this
      rw [List.map_map] at this
      exact this
    · refine h1.imp fun {a b} hab => ?_
      intro x hx hy
      unfold sent3 at hx hy
      simp only [List.map_map, List.mem_map] at hx hy
      obtain ⟨u, _, rfl⟩ := hx
      obtain ⟨v, _, hv⟩ := hy
      have : (b.val : ℤ) = a.val := (Prod.ext_iff.mp hv).1
      exact hab (Fin.ext (by omega))
  · intro x
    simp only [List.mem_flatMap, sent3, List.mem_map]
    constructor
    · rintro ⟨s, _, y, hy, rfl⟩
      obtain ⟨hsr, e, he, rfl, hc⟩ := (S.sent s r y).mp hy
      exact ⟨s, hsr, e, he, rfl, hc⟩
    · rintro ⟨s, hsr, e, he, rfl, c, ho, hb⟩
      exact ⟨s, (h2 s).mpr ((S.mem s r).mpr ⟨hsr, e, he, c, ho, hb⟩), (e.1, e.2.geom), (S.sent s r _).mpr ⟨hsr, e, he, rfl, c, ho, hb⟩, rfl⟩

/-- The faces which arrive. -/
theorem Sends3.isFaces (S : Sends3 m owner mesh ranks rem) (h : Input3Ok m owner mesh) (sh : FaceShape) (r : Fin n)
    {face : Fin n → Fin n → List (ℤ × Geom)} (hsort : ∀ s d, Sorted (face s d))
    (hface : ∀ s d x, x ∈ face s d ↔ ∃ g ∈ rem s d, ∃ f ∈ g.2.faces, f.shape = sh ∧ x = (f.gid, f.data))
    {recv recv1 : List (Fin n)} (h1 : recv1.Nodup) (h2 : ∀ s, s ∈ recv1 ↔ r ∈ sendRanks2d (ranks s) (face s))
    (h3 : ∀ s, s ∈ recv ↔ r ∈ ranks s) :
    IsFaces sh (recv.flatMap fun s => sent3 rem s r) (recv1.flatMap fun s => contents face s r) := by
  constructor
  · rw [List.map_flatMap, List.nodup_flatMap]
    constructor
    · intro s _
      unfold contents
      rw [List.map_map]
      refine List.Nodup.map_on ?_ (List.Nodup.of_map _ (hsort s r).nodup)
      intro x hx y hy hxy
      have hxy' : BitVec.ofInt 32 x.1 = BitVec.ofInt 32 y.1 := (Prod.ext_iff.mp hxy).2
      obtain ⟨g, hg, f, hf, _, rfl⟩ := (hface s r x).mp hx
      obtain ⟨g', hg', f', hf', _, rfl⟩ := (hface s r y).mp hy
      obtain ⟨_, e, he, rfl, _⟩ := (S.sent s r g).mp hg
      obtain ⟨_, e', he', rfl, _⟩ := (S.sent s r g').mp hg'
      have hid : f.gid = f'.gid := by
        rw [← (face_id h he hf).2, ← (face_id h he' hf').2]
        exact congrArg BitVec.toInt hxy'
      exact List.inj_on_of_nodup_map (hsort s r).nodup hx hy hid
    · refine h1.imp fun {a b} hab => ?_
      intro x hx hy
      unfold contents at hx hy
      simp only [List.map_map, List.mem_map] at hx hy
      obtain ⟨u, _, rfl⟩ := hx
      obtain ⟨v, _, hv⟩ := hy
      have : BitVec.ofNat 32 b.val = BitVec.ofNat 32 a.val := (Prod.ext_iff.mp hv).1
      have := congrArg BitVec.toInt this
      rw [toInt_rank h, toInt_rank h] at this
      exact hab (Fin.ext (by omega))
  · intro x
    simp only [List.mem_flatMap, contents, List.mem_map]
    constructor
    · rintro ⟨s, hs, y, hy, rfl⟩
      obtain ⟨g, hg, f, hf, hsh, rfl⟩ := (hface s r y).mp hy
      have hrs : r ∈ ranks s := (List.mem_filter.mp ((h2 s).mp hs)).1
      refine ⟨⟨s.val, g.1, g.2⟩, ⟨s, (h3 s).mpr hrs, List.mem_map.mpr ⟨g, hg, rfl⟩⟩, f, hf, hsh, ?_⟩
      rw [BitVec.ofInt_natCast]
    · rintro ⟨g, ⟨s, hs, hg⟩, f, hf, hsh, rfl⟩
      obtain ⟨y, hy, rfl⟩ := List.mem_map.mp hg
      have hx := (hface s r (f.gid, f.data)).mpr ⟨y, hy, f, hf, hsh, rfl⟩
      refine ⟨s, (h2 s).mpr ?_, (f.gid, f.data), hx, ?_⟩
      · unfold sendRanks2d
        refine List.mem_filter.mpr ⟨(h3 s).mp hs, ?_⟩
        cases hf' : face s r with
        | nil => rw [hf'] at hx; cases hx
        | cons _ _ => rfl
      · dsimp only
        rw [BitVec.ofInt_natCast]

/-- The received elements can be rebuilt from the received faces. -/
theorem rebuildable (h : Input3Ok m owner mesh) {r : Fin n} {geoms : List (Remote3 Geom)} {tris quads : List Remote}
    (hg : IsHalo3 m owner (fun s => (mesh s).elements) r geoms) (ht : IsFaces .tri geoms tris) (hq : IsFaces .quad geoms quads) :
    ∀ g ∈ geoms, C20.Rebuildable (elementMap2d tris quads) g := by
  -- an entry is a face of the mesh of its rank
  have hent : ∀ y ∈ faceEntries tris quads, ∃ s : Fin n, y.1.1 = s.val ∧ (y.1.2, y.2) ∈ (mesh s).faces := by
    intro y hy
    have hone : ∀ (l : List Remote) (sh : FaceShape), IsFaces sh geoms l → ∀ x ∈ l,
        ∃ s : Fin n, x.rank.toInt = s.val ∧ (x.id.toInt, (⟨sh, x.geom.id.toInt, x.geom⟩ : Geom2 Geom)) ∈ (mesh s).faces := by
      intro l sh hl x hx
      obtain ⟨g, hgm, f, hf, hsh, rfl⟩ := (hl.2 x).mp hx
      obtain ⟨s, _, e, he, rfl, _⟩ := (hg.2 g).mp hgm
      obtain ⟨i1, i2⟩ := face_id h he hf
      refine ⟨s, ?_, ?_⟩
      · dsimp only [asRemote3]
        rw [BitVec.ofInt_natCast, toInt_rank h]
      · dsimp only
        rw [i1, i2]
        have := h.faces s e he f hf
        rwa [show (⟨sh, f.gid, f.data⟩ : Geom2 Geom) = f by rw [← hsh]]
    unfold faceEntries at hy
    rcases List.mem_append.mp hy with hy | hy
    · obtain ⟨x, hx, rfl⟩ := List.mem_map.mp hy
      exact hone tris .tri ht x hx
    · obtain ⟨x, hx, rfl⟩ := List.mem_map.mp hy
      exact hone quads .quad hq x hx
  intro g hgm
  obtain ⟨s, _, e, he, rfl, _⟩ := (hg.2 g).mp hgm
  refine ⟨h.gid s e he, h.wf s e he, fun f hf => ?_⟩
  obtain ⟨i1, i2⟩ := face_id h he hf
  have hmem : (((s.val : ℤ), f.gid), f) ∈ faceEntries tris quads := by
    have hone : ∀ (l : List Remote), IsFaces f.shape geoms l → (⟨BitVec.ofInt 32 s.val, BitVec.ofInt 32 f.gid, f.data⟩ : Remote) ∈ l :=
      fun l hl => (hl.2 _).mpr ⟨asRemote3 s e, hgm, f, hf, rfl, rfl⟩
    have heq : ∀ sh, f.shape = sh → (((s.val : ℤ), f.gid), f) =
        (((BitVec.ofInt 32 (s.val : ℤ) : I32).toInt, (BitVec.ofInt 32 f.gid).toInt), (⟨sh, f.data.id.toInt, f.data⟩ : Geom2 Geom)) := by
      intro sh hsh
      rw [i2, BitVec.ofInt_natCast, toInt_rank h, i1, ← hsh]
    unfold faceEntries
    cases hsh : f.shape with
    | tri =>
      rw [hsh] at hone
      exact List.mem_append_left _ (List.mem_map.mpr ⟨_, hone tris ht, (heq .tri hsh).symm⟩)
    | quad =>
      rw [hsh] at hone
      exact List.mem_append_right _ (List.mem_map.mpr ⟨_, hone quads hq, (heq .quad hsh).symm⟩)
  refine elementMap2d_spec tris quads hmem fun y hy hk => ?_
  obtain ⟨s', h1, h2⟩ := hent y hy
  rw [hk] at h1 h2
  have : s' = s := by
    refine Fin.ext ?_
    have h1' : (s.val : ℤ) = s'.val := h1
    omega
  subst this
  have := List.inj_on_of_nodup_map (h.faceIds s') h2 (h.faces s' e he f hf) rfl
  exact (Prod.mk.inj this).2

/-- The constructor as a part of a larger program. -/
theorem conf_createHalos3d (h : Input3Ok m owner mesh) : ∃ blk : List (Phase n Msg),
    blk.map Phase.kind = kindsOf [[45, 46], [45, 46], [45, 135]] ∧
    ∀ {O : Type} {post : Fin n → O → Prop} (pre suf : List (Phase n Msg)) (a b : List (List ℕ)), pre.map Phase.kind = kindsOf a →
    suf.map Phase.kind = kindsOf b → ∀ (r : Fin n) (base : Option (ℤ × ℕ)) {k : Halos3d → Prog n Msg O},
    (∀ out, Post3 m owner mesh r out → Conf (ofPhases (pre ++ (blk ++ suf)) post) r (k out) (.at (pre.length + 12) (some (0, pre.length + 8)))) →
    Conf (ofPhases (pre ++ (blk ++ suf)) post) r (createHalos3d m owner (mesh r) r k) (.at pre.length base) := by
  obtain ⟨ranks, rem, S⟩ := exists_sends3 h
  have P := fun s d => part_spec s (mesh s).faces (rem s d) (S.hasFaces h s d)
  let ft : Fin n → Fin n → List (ℤ × Geom) := fun s d => partTris s (mesh s).faces (rem s d)
  let fq : Fin n → Fin n → List (ℤ × Geom) := fun s d => partQuads s (mesh s).faces (rem s d)
  have hfmem : ∀ s d (f : Geom2 Geom), (∃ g ∈ rem s d, f ∈ g.2.faces) → (f.gid, f) ∈ (mesh s).faces := by
    rintro s d f ⟨g, hg, hf⟩
    obtain ⟨_, e, he, rfl, _⟩ := (S.sent s d g).mp hg
    exact h.faces s e he f hf
  have szt := fun s d => packed_size .tri 3 h s (ft s d) (P s d).2.2.1 (by
    intro x hx
    obtain ⟨g, hg, f, hf, hsh, rfl⟩ := ((P s d).2.2.2.2.1 x).mp hx
    exact ⟨f, hfmem s d f ⟨g, hg, hf⟩, hsh, rfl⟩) (h.sizeTris s)
  have szq := fun s d => packed_size .quad 4 h s (fq s d) (P s d).2.2.2.1 (by
    intro x hx
    obtain ⟨g, hg, f, hf, hsh, rfl⟩ := ((P s d).2.2.2.2.2 x).mp hx
    exact ⟨f, hfmem s d f ⟨g, hg, hf⟩, hsh, rfl⟩) (h.sizeQuads s)
  let rt : Fin n → List (Fin n) := fun s => sendRanks2d (ranks s) (ft s)
  let rq : Fin n → List (Fin n) := fun s => sendRanks2d (ranks s) (fq s)
  refine ⟨packedPhases 3 rt ft ++ (packedPhases 4 rq fq ++ geomPhases ranks fun s d => C20.message (sent3 rem s d)), rfl, ?_⟩
  intro O post pre suf a b hpre hsuf r base k hK
  generalize hps : pre ++ ((packedPhases 3 rt ft ++ (packedPhases 4 rq fq ++ geomPhases ranks fun s d => C20.message (sent3 rem s d))) ++ suf) = ps at hK ⊢
  have hl : pre.length = (kindsOf a).length := by rw [← hpre, List.length_map]
  have hk : ps.map Phase.kind = kindsOf (a ++ [45, 46] :: [45, 46] :: [45, 135] :: b) := by
    rw [← hps, List.map_append, List.map_append, hpre, hsuf, show a ++ [45, 46] :: [45, 46] :: [45, 135] :: b = a ++ ([[45, 46], [45, 46], [45, 135]] ++ b) from rfl,
      kindsOf_append, kindsOf_append]
    rfl
  have hk1 : ps.map Phase.kind = kindsOf ((a ++ [[45, 46]]) ++ [45, 46] :: [45, 135] :: b) := by rw [hk, List.append_assoc]; rfl
  have hk2 : ps.map Phase.kind = kindsOf ((a ++ [[45, 46], [45, 46]]) ++ [45, 135] :: b) := by rw [hk, List.append_assoc]; rfl
  have hl1 : pre.length + 4 = (kindsOf (a ++ [[45, 46]])).length := by rw [kindsOf_append, List.length_append, hl]; rfl
  have hl2 : pre.length + 8 = (kindsOf (a ++ [[45, 46], [45, 46]])).length := by rw [kindsOf_append, List.length_append, hl]; rfl
  have hget : ∀ i, i < 12 → ps[pre.length + i]? =
      (packedPhases 3 rt ft ++ (packedPhases 4 rq fq ++ geomPhases ranks fun s d => C20.message (sent3 rem s d)))[i]? := by
    intro i hi
    rw [← hps, List.getElem?_append_right (by omega), Nat.add_sub_cancel_left, List.getElem?_append_left (by exact hi)]
  unfold createHalos3d
  simp only [S.eq r]
  rw [if_neg (by
    rw [List.any_eq_true]
    rintro ⟨d, _, hd⟩
    rw [(P r d).1] at hd
    cases hd)]
  have e0 : (kindsOf a).length = pre.length := hl.symm
  refine conf_exchangePacked 3 3 rt ft (p := pre.length) ?_ ?_ ?_ ?_ ((S.nodup r).filter _) (fun s d => (szt s d).1) (fun s d => (szt s d).2.1) h.ranks
    (fun s d => (szt s d).2.2) ?_
  · intro i hi
    rw [hget i (by omega), List.getElem?_append_left (by exact hi)]
  · rw [hk, hl]; exact quiet_block_start _ _ _
  · rw [hk, hl]; exact quiet_block_msgs _ _ _
  · rw [hk, hl]; exact any_block _ _ _ 45 (by decide)
  intro recv1 a1 a2
  refine conf_exchangePacked 4 4 rq fq (p := pre.length + 4) ?_ ?_ ?_ ?_ ((S.nodup r).filter _) (fun s d => (szq s d).1) (fun s d => (szq s d).2.1) h.ranks
    (fun s d => (szq s d).2.2) ?_
  · intro i hi
    rw [Nat.add_assoc, hget (4 + i) (by omega), List.getElem?_append_right (by exact Nat.le_add_right 4 i),
      show 4 + i - (packedPhases 3 rt ft).length = i by exact Nat.add_sub_cancel_left 4 i, List.getElem?_append_left (by exact hi)]
  · rw [hk1, hl1]; exact quiet_block_start _ _ _
  · rw [hk1, hl1]; exact quiet_block_msgs _ _ _
  · rw [hk1, hl1]; exact any_block _ _ _ 45 (by decide)
  intro recv2 b1 b2
  simp only [List.nil_append]
  have hints : ((ranks r).map fun d => partInts r (mesh r).faces (rem r d)) = (ranks r).map fun d => C20.message (sent3 rem r d) :=
    List.map_congr_left fun d _ => (P r d).2.1
  rw [hints]
  -- any complete list of senders stands for the one which is received
  have hpost : ∀ recv : List (Fin n), recv.Nodup → (∀ s, s ∈ recv ↔ r ∈ ranks s) →
      Post3 m owner mesh r ⟨recv1.flatMap fun s => contents ft s r, recv2.flatMap fun s => contents fq s r, recv.flatMap fun s => sent3 rem s r⟩ := by
    intro recv c1 c2
    exact ⟨S.isHalo r c1 c2, S.isFaces h .tri r (fun s d => (P s d).2.2.1) (fun s d => (P s d).2.2.2.2.1) a1 a2 c2,
      S.isFaces h .quad r (fun s d => (P s d).2.2.2.1) (fun s d => (P s d).2.2.2.2.2) b1 b2 c2⟩
  refine conf_exchangeGeoms3d ranks (sent3 rem) (p := pre.length + 8) ?_ ?_ ?_ ?_ (S.nodup r) ?_ ?_ ?_
  · intro i hi
    rw [Nat.add_assoc, hget (8 + i) (by omega), List.getElem?_append_right (by show 4 ≤ 8 + i; omega),
      show 8 + i - (packedPhases 3 rt ft).length = 4 + i by show 8 + i - 4 = 4 + i; omega,
      List.getElem?_append_right (by show 4 ≤ 4 + i; omega), show 4 + i - (packedPhases 4 rq fq).length = i by exact Nat.add_sub_cancel_left 4 i]
  · rw [hk2, hl2]; exact quiet_block_start _ _ _
  · rw [hk2, hl2]; exact quiet_block_msgs _ _ _
  · rw [hk2, hl2]; exact any_block _ _ _ 45 (by decide)
  · intro s d
    exact lt_of_le_of_lt (Nat.mul_le_mul_left _ (message_length_le (S.subperm s d))) (h.sizeInts s)
  · intro s hs g hg
    obtain ⟨p1, p2, p3⟩ := hpost ((List.finRange n).filter fun s => decide (r ∈ ranks s)) ((List.nodup_finRange n).filter _) (by simp)
    refine rebuildable h p1 p2 p3 g ?_
    exact List.mem_flatMap.mpr ⟨s, by simpa using hs, hg⟩
  · intro recv c1 c2
    exact hK _ (hpost recv c1 c2)

/-- In every state of every execution: no rank has failed; a rank which has returned holds, each once, the elements of the other ranks which meet
its cells, with their faces; and if not all of the ranks have returned then some rank can make a step, even when sends are not buffered. -/
theorem halos3d_spec (h : Input3Ok m owner mesh) (w : Fin n → ℤ) {S : Sys n Msg Halos3d}
    (hS : Reachable (Sys.init (fun r => halos3d m owner (mesh r) r) w) S) :
    (∀ r, S.prog r ≠ .fail) ∧ (∀ r out, S.prog r = .done out → Post3 m owner mesh r out) ∧ (S.Finished ∨ ∃ S', Step true S S') := by
  obtain ⟨blk, hk, hc⟩ := conf_createHalos3d h
  have hl : blk.length = 12 := by rw [← List.length_map (f := Phase.kind), hk]; rfl
  have he : [] ++ (blk ++ []) = blk := by simp
  refine correct (ofPhases ([] ++ (blk ++ [])) (Post3 m owner mesh)) _ w (fun r => ?_) hS
  refine hc [] [] [] [] rfl rfl r none ?_
  intro out hout
  have := conf_done (ps := [] ++ (blk ++ [])) (post := Post3 m owner mesh) (r := r) (base := some (0, 0 + 8)) hout
  have hlen : (([] : List (Phase n Msg)) ++ (blk ++ [])).length = 0 + 12 := by rw [he, hl]
  rw [hlen] at this
  exact this

/-- Every element of the mesh whose bounding box meets a cell owned by a rank is known to that rank: it is its own or in its halo. -/
theorem halos3d_cover (h : Input3Ok m owner mesh) (w : Fin n → ℤ) {S : Sys n Msg Halos3d}
    (hS : Reachable (Sys.init (fun r => halos3d m owner (mesh r) r) w) S) {r : Fin n} {out : Halos3d} (hr : S.prog r = .done out)
    {c : ℤ} (hc : owner c = r.val) (s : Fin n) (e : ℤ × LGeom3 K) (he : e ∈ (mesh s).elements) (hb : BoxMeets m e.2.lo e.2.hi c) :
    e ∈ (mesh r).elements ∨ asRemote3 s e ∈ out.geoms := by
  obtain ⟨hg, _⟩ := (halos3d_spec h w hS).2.1 r out hr
  by_cases hs : s = r
  · subst hs; exact Or.inl he
  · exact Or.inr ((hg.2 _).mpr ⟨s, hs, e, he, rfl, c, hc, hb⟩)

/-- Every execution can be completed, also without buffering. -/
theorem halos3d_completes (h : Input3Ok m owner mesh) (w : Fin n → ℤ) {S : Sys n Msg Halos3d}
    (hS : Reachable (Sys.init (fun r => halos3d m owner (mesh r) r) w) S) :
    ∃ S', Relation.ReflTransGen (Step true) S S' ∧ S'.Finished :=
  completes (fun _ h' => (halos3d_spec h w h').2.2) S hS

/-- There is no infinite execution: with `halos3d_spec`, all of the ranks return. -/
theorem halos3d_terminates (f : ℕ → Sys n Msg Halos3d) : ¬ ∀ i, Step false (f i) (f (i + 1)) := no_infinite false f

/-- `collect_neighbour_ranks`: the ranks of the elements of the halo, in order and each once. -/
theorem neighbourRanks3d_spec (geoms : List (Remote3 Geom)) :
    (neighbourRanks3d geoms).Pairwise (· < ·) ∧ ∀ i, i ∈ neighbourRanks3d geoms ↔ ∃ x ∈ geoms, x.rank = i := by
  unfold neighbourRanks3d
  have : ∀ (l : List (Remote3 Geom)) (s : List ℤ), s.Pairwise (· < ·) → (l.foldl (fun s g => setAdd g.rank s) s).Pairwise (· < ·) ∧
      ∀ i, i ∈ l.foldl (fun s g => setAdd g.rank s) s ↔ i ∈ s ∨ ∃ x ∈ l, x.rank = i := by
    intro l
    induction l with
    | nil => intro s hs; exact ⟨hs, by simp⟩
    | cons g l ih =>
      intro s hs
      obtain ⟨h1, h2⟩ := ih _ (sorted_setAdd g.rank s hs)
      refine ⟨h1, fun i => ?_⟩
      rw [List.foldl_cons, h2, mem_setAdd, eq_comm (a := i)]
      simp only [List.mem_cons, exists_eq_or_imp]
      tauto
  obtain ⟨h1, h2⟩ := this geoms [] List.Pairwise.nil
  exact ⟨h1, fun i => by rw [h2]; simp⟩

/-- The neighbours of a rank are the other ranks with an element which meets its cells. -/
theorem neighbours3d (h : Input3Ok m owner mesh) (w : Fin n → ℤ) {S : Sys n Msg Halos3d}
    (hS : Reachable (Sys.init (fun r => halos3d m owner (mesh r) r) w) S) {r : Fin n} {out : Halos3d} (hr : S.prog r = .done out)
    (i : ℤ) : i ∈ neighbourRanks3d out.geoms ↔
      ∃ s : Fin n, i = s.val ∧ s ≠ r ∧ ∃ e ∈ (mesh s).elements, ∃ c, owner c = r.val ∧ BoxMeets m e.2.lo e.2.hi c := by
  obtain ⟨hg, _⟩ := (halos3d_spec h w hS).2.1 r out hr
  rw [(neighbourRanks3d_spec out.geoms).2]
  constructor
  · rintro ⟨x, hx, rfl⟩
    obtain ⟨s, h1, e, he, rfl, h2⟩ := (hg.2 x).mp hx
    exact ⟨s, rfl, h1, e, he, h2⟩
  · rintro ⟨s, rfl, h1, e, he, h2⟩
    exact ⟨asRemote3 s e, (hg.2 _).mpr ⟨s, h1, e, he, rfl, h2⟩, rfl⟩

/-! ### An example -/

/-- Two cells side by side. -/
def exGrid : MHGeom ℚ :=
  { ndim := 3, dims := fun d => if d = 0 then 2 else 1, ncf := 1, origin := fun d => if d = 0 then -1 else 0, width := 1, invWidth := 1 }
theorem exGrid_ok : GridGeom exGrid :=
  ⟨⟨by decide, fun d _ => by dsimp only [exGrid]; split_ifs <;> omega, by decide⟩, by decide, by simp [exGrid], by simp [exGrid]⟩

/-- A triangle with the id `i`. -/
def exTri (i : I32) : Geom2 Geom := ⟨.tri, i.toInt, { C18.tri with id := i }⟩
/-- The base of a pyramid. -/
def exBase : Geom2 Geom := ⟨.quad, 12, C18.quad⟩
/-- A pyramid which covers both cells of `exGrid`. -/
def exPyr : LGeom3 ℚ := ⟨⟨.pyr, 7, [exBase, exTri 1, exTri 2, exTri 3, exTri 4]⟩, fun d => if d = 0 then -1/2 else 1/4, fun d => if d = 0 then 3 else 3/4⟩
/-- Rank 0 has the pyramid, rank 1 nothing. Rank 1 owns cell 1. -/
def exMesh : Fin 2 → Mesh3d ℚ := fun r =>
  if r = 0 then ⟨[(12, exBase), (1, exTri 1), (2, exTri 2), (3, exTri 3), (4, exTri 4)], [(7, exPyr)]⟩ else ⟨[], []⟩

theorem exOk : Input3Ok exGrid (fun c => c) exMesh where
  grid := exGrid_ok
  ranks := by decide
  ids s := by fin_cases s <;> simp [exMesh]
  gid s e he := by
    fin_cases s
    · simp [exMesh] at he; subst he; rfl
    · simp [exMesh] at he
  wf s e he := by
    fin_cases s
    · simp [exMesh] at he; subst he; rfl
    · simp [exMesh] at he
  faceIds s := by fin_cases s <;> simp [exMesh]
  faceGid s x hx := by
    fin_cases s
    · simp [exMesh] at hx
      rcases hx with rfl | rfl | rfl | rfl | rfl <;> rfl
    · simp [exMesh] at hx
  faceWf s x hx := by
    have ht : ∀ i, GeomOk 3 (exTri i).data := fun i => C18.tri_ok
    fin_cases s
    · simp [exMesh] at hx
      rcases hx with rfl | rfl | rfl | rfl | rfl
      · exact C18.quad_ok
      all_goals exact ht _
    · simp [exMesh] at hx
  faces s e he f hf := by
    fin_cases s
    · simp [exMesh] at he
      subst he
      simp [exPyr] at hf
      rcases hf with rfl | rfl | rfl | rfl | rfl <;> simp [exMesh, exBase, exTri]
    · simp [exMesh] at he
  count s := by fin_cases s <;> simp [exMesh]
  sizeTris s := by fin_cases s <;> decide +kernel
  sizeQuads s := by fin_cases s <;> decide +kernel
  sizeInts s := by fin_cases s <;> decide +kernel
  owned := by
    intro s e he c hb
    fin_cases s
    · simp [exMesh] at he
      subst he
      obtain ⟨c', h1, h2, h3⟩ := hb
      have hmem := ((map_exact exGrid_ok exPyr.lo exPyr.hi 0 le_rfl).1 c _).mpr ⟨c', h1, h2, h3, rfl⟩
      have he : boundingBoxMap exGrid exPyr.lo exPyr.hi 0 = [(0, 1/8), (1, 1/4)] := by decide +kernel
      rw [he] at hmem
      simp at hmem
      rcases hmem with ⟨rfl, _⟩ | ⟨rfl, _⟩ <;> decide
    · simp [exMesh] at he

theorem exMeets : BoxMeets exGrid exPyr.lo exPyr.hi 1 := by
  have he : ((1 : ℤ), (1/4 : ℚ)) ∈ boundingBoxMap exGrid exPyr.lo exPyr.hi 0 := by decide +kernel
  obtain ⟨c, h1, h2, h3, _⟩ := ((map_exact exOk.grid exPyr.lo exPyr.hi 0 le_rfl).1 1 (1/4)).mp he
  exact ⟨c, h1, h2, h3⟩

/-- Rank 1 receives the pyramid of rank 0 with its faces. -/
example (w : Fin 2 → ℤ) {S : Sys 2 Msg Halos3d}
    (hS : Reachable (Sys.init (fun r => halos3d exGrid (fun c => c) (exMesh r) r) w) S) {out : Halos3d} (hr : S.prog 1 = .done out) :
    (⟨0, 7, exPyr.geom⟩ : Remote3 Geom) ∈ out.geoms ∧ (⟨0, 12, C18.quad⟩ : Remote) ∈ out.quads ∧ out.tris.length = 4 := by
  have h1 : (⟨0, 7, exPyr.geom⟩ : Remote3 Geom) ∈ out.geoms := by
    rcases halos3d_cover exOk w hS hr (c := 1) rfl 0 (7, exPyr) (by simp [exMesh]) exMeets with h | h
    · simp [exMesh] at h
    · exact h
  obtain ⟨hg, ht, hq⟩ := (halos3d_spec exOk w hS).2.1 1 out hr
  refine ⟨h1, (hq.2 _).mpr ⟨_, h1, exBase, by simp [exPyr], rfl, rfl⟩, ?_⟩
  have hp : out.tris.Perm ([1, 2, 3, 4].map fun i => (⟨0, i, (exTri i).data⟩ : Remote)) := by
    refine (List.perm_ext_iff_of_nodup (List.Nodup.of_map _ ht.1) (by decide)).mpr fun x => ?_
    rw [ht.2]
    constructor
    · rintro ⟨g, hgm, f, hf, hsh, rfl⟩
      obtain ⟨s, hs, e, he, rfl, _⟩ := (hg.2 g).mp hgm
      fin_cases s
      · simp [exMesh] at he
        subst he
        simp [asRemote3, exPyr] at hf
        rcases hf with rfl | rfl | rfl | rfl | rfl
        · cases hsh
        all_goals simp [asRemote3, exTri]
      · exact absurd rfl hs
    · intro hx
      simp only [List.map_cons, List.map_nil, List.mem_cons, List.not_mem_nil, or_false] at hx
      rcases hx with rfl | rfl | rfl | rfl
      · exact ⟨_, h1, exTri 1, by simp [exPyr], rfl, rfl⟩
      · exact ⟨_, h1, exTri 2, by simp [exPyr], rfl, rfl⟩
      · exact ⟨_, h1, exTri 3, by simp [exPyr], rfl, rfl⟩
      · exact ⟨_, h1, exTri 4, by simp [exPyr], rfl, rfl⟩
  rw [hp.length_eq]; rfl

end Verif.Props.C60
