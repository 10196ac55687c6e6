import Verif.Lemmas.HaloExtension2D
import Verif.Lemmas.HaloExchange3D
import Verif.Model.HaloExtension3D
import Verif.Spec.Halo3D

/-! One call of `extend_halos_fixed_offset` on a 3D mesh. -/

namespace Verif.Lemmas.HaloExtension3D
open Verif.Model Verif.Model.Bytes Verif.Model.PackedGeom2D Verif.Model.RemoteGeom Verif.Model.GeomTransport3D Verif.Model.MeshHierarchy Verif.Model.Mpi
  Verif.Model.Claims Verif.Model.HaloCells Verif.Model.HaloExchange Verif.Model.HaloExchange3D Verif.Model.HaloExtension Verif.Model.HaloExtension3D
  Verif.Spec Verif.Lemmas Verif.Lemmas.Mpi Verif.Lemmas.HaloExchange Verif.Lemmas.HaloExchange3D Verif.Lemmas.HaloExtension Verif.Props

variable {n : ℕ}

/-! ### Sets and maps -/

theorem foldlM_option {α β : Type} {f : β → α → Option β} {g : β → α → β} (l : List α) (h : ∀ b, ∀ a ∈ l, f b a = some (g b a)) :
    ∀ b, l.foldlM f b = some (l.foldl g b) := by
  induction l with
  | nil => intro b; rfl
  | cons a l ih =>
    intro b
    rw [List.foldlM_cons, h b a List.mem_cons_self]
    exact ih (fun b a ha => h b a (List.mem_cons_of_mem _ ha)) _

/-- What is added for an element. -/
def addGeom' (known : RankGeoms3) (st : List Key × List Key) (key : Key) : List Key × List Key :=
  (setAdd key st.1, (((mapGet known key).map Geom3.faces).getD []).foldl (fun s f => setAdd (toLex ((ofLex key).1, f.gid)) s) st.2)

theorem sendSets_spec {known : RankGeoms3} (hs : Sorted known) (toGeoms : ℤ → List Key) (cells : List ℤ)
    (hk : ∀ c ∈ cells, ∀ key ∈ toGeoms c, ∃ v, (key, v) ∈ known) : ∃ a b, sendSets known toGeoms cells = some (a, b) ∧
    a.Pairwise (· < ·) ∧ b.Pairwise (· < ·) ∧ (∀ key, key ∈ a ↔ ∃ c ∈ cells, key ∈ toGeoms c) ∧
    ∀ key, key ∈ b ↔ ∃ c ∈ cells, ∃ k ∈ toGeoms c, ∃ g, (k, g) ∈ known ∧ ∃ f ∈ g.faces, key = toLex ((ofLex k).1, f.gid) := by
  have h1 : sendSets known toGeoms cells = some (cells.foldl (fun st c => (toGeoms c).foldl (addGeom' known) st) ([], [])) := by
    unfold sendSets
    refine foldlM_option cells (fun st c hc => ?_) _
    refine foldlM_option (toGeoms c) (fun st key hkey => ?_) _
    obtain ⟨v, hv⟩ := hk c hc key hkey
    have := (mapGet_eq hs.nodup _ _).mpr hv
    unfold addGeom addGeom'
    rw [this]
    rfl
  rw [h1, ← List.foldl_flatMap]
  have hkk : ∀ key ∈ cells.flatMap toGeoms, ∃ v, (key, v) ∈ known := by
    intro key hkey
    obtain ⟨c, hc, hkey⟩ := List.mem_flatMap.mp hkey
    exact hk c hc key hkey
  have gen : ∀ (l : List Key) (st : List Key × List Key), (∀ key ∈ l, ∃ v, (key, v) ∈ known) → st.1.Pairwise (· < ·) → st.2.Pairwise (· < ·) →
      (l.foldl (addGeom' known) st).1.Pairwise (· < ·) ∧ (l.foldl (addGeom' known) st).2.Pairwise (· < ·) ∧
      (∀ key, key ∈ (l.foldl (addGeom' known) st).1 ↔ key ∈ st.1 ∨ key ∈ l) ∧
      ∀ key, key ∈ (l.foldl (addGeom' known) st).2 ↔ key ∈ st.2 ∨ ∃ k ∈ l, ∃ g, (k, g) ∈ known ∧ ∃ f ∈ g.faces, key = toLex ((ofLex k).1, f.gid) := by
    intro l
    induction l with
    | nil => intro st _ a b; exact ⟨a, b, by simp, by simp⟩
    | cons k l ih =>
      intro st hl a b
      obtain ⟨v, hv⟩ := hl k List.mem_cons_self
      have hget := (mapGet_eq hs.nodup _ _).mpr hv
      have hst : addGeom' known st k = (setAdd k st.1, (v.faces.map fun f => (toLex ((ofLex k).1, f.gid) : Key)).foldl (fun s c => setAdd c s) st.2) := by
        unfold addGeom'
        rw [hget, List.foldl_map]
        rfl
      obtain ⟨c1, c2⟩ := foldl_setAdd (v.faces.map fun f => (toLex ((ofLex k).1, f.gid) : Key)) st.2 b
      obtain ⟨i1, i2, i3, i4⟩ := ih (addGeom' known st k) (fun key hkey => hl key (List.mem_cons_of_mem _ hkey)) (by rw [hst]; exact sorted_setAdd _ _ a)
        (by rw [hst]; exact c1)
      refine ⟨i1, i2, fun key => ?_, fun key => ?_⟩
      · rw [List.foldl_cons, i3, hst, mem_setAdd, List.mem_cons]; tauto
      · rw [List.foldl_cons, i4, hst, c2, List.mem_map]
        constructor
        · rintro ((h | ⟨f, hf, rfl⟩) | ⟨k', hk', g, hg, hf⟩)
          · exact Or.inl h
          · exact Or.inr ⟨k, List.mem_cons_self, v, hv, f, hf, rfl⟩
          · exact Or.inr ⟨k', List.mem_cons_of_mem _ hk', g, hg, hf⟩
        · rintro (h | ⟨k', hk', g, hg, f, hf, rfl⟩)
          · exact Or.inl (Or.inl h)
          · rcases List.mem_cons.mp hk' with rfl | hk'
            · have := hs.inj hg hv
              subst this
              exact Or.inl (Or.inr ⟨f, hf, rfl⟩)
            · exact Or.inr ⟨k', hk', g, hg, f, hf, rfl⟩
  obtain ⟨g1, g2, g3, g4⟩ := gen (cells.flatMap toGeoms) ([], []) hkk List.Pairwise.nil List.Pairwise.nil
  refine ⟨_, _, rfl, g1, g2, fun key => ?_, fun key => ?_⟩
  · rw [g3, List.mem_flatMap]; simp
  · rw [g4]
    simp only [List.mem_flatMap, List.not_mem_nil, false_or]
    constructor
    · rintro ⟨k, ⟨c, hc, hk⟩, h⟩; exact ⟨c, hc, k, hk, h⟩
    · rintro ⟨c, hc, k, hk, h⟩; exact ⟨k, ⟨c, hc, hk⟩, h⟩

theorem toSend3_spec {known : RankGeoms3} (hs : Sorted known) (keys : List Key) (hk : ∀ key ∈ keys, ∃ v, (key, v) ∈ known) :
    ∃ l, toSend3 known keys = some l ∧ l.map key3 = keys ∧
      ∀ x, x ∈ l ↔ ∃ key ∈ keys, ∃ g, (key, g) ∈ known ∧ x = ⟨(ofLex key).1, (ofLex key).2, g⟩ := by
  unfold toSend3
  induction keys with
  | nil => exact ⟨[], rfl, rfl, by simp⟩
  | cons key keys ih =>
    obtain ⟨l, h1, h2, h3⟩ := ih fun k h => hk k (List.mem_cons_of_mem _ h)
    obtain ⟨v, hv⟩ := hk key List.mem_cons_self
    have hg : mapGet known key = some v := (mapGet_eq hs.nodup _ _).mpr hv
    refine ⟨⟨(ofLex key).1, (ofLex key).2, v⟩ :: l, ?_, ?_, fun x => ?_⟩
    · rw [List.mapM_cons, hg, h1]; rfl
    · rw [List.map_cons, h2]; rfl
    · rw [List.mem_cons, h3]
      constructor
      · rintro (rfl | ⟨k, hk', h⟩)
        · exact ⟨key, List.mem_cons_self, v, hv, rfl⟩
        · exact ⟨k, List.mem_cons_of_mem _ hk', h⟩
      · rintro ⟨k, hk', g, hg', rfl⟩
        rcases List.mem_cons.mp hk' with rfl | hk'
        · have := hs.inj hg' hv
          subst this
          exact Or.inl rfl
        · exact Or.inr ⟨k, hk', g, hg', rfl⟩

theorem unpack3d_eq (tmp : List (Remote3 Geom)) (h : ∀ x ∈ tmp, x.geom.gid = x.id) (st : RankGeoms3 × List (Remote3 Geom)) :
    unpack3d st tmp = some (unpackG key3 Remote3.geom st tmp) := by
  unfold unpack3d unpackG
  refine foldlM_option tmp (fun st x hx => ?_) st
  rw [if_neg (not_not.mpr (h x hx)), h x hx]
  unfold key3
  split_ifs <;> rfl

/-! ### The states -/

/-- A box which meets no cell. -/
def noBox {K : Type} [Field K] (_ : Geom) : (ℕ → K) × (ℕ → K) := (fun _ => 0, fun _ => 0)

section
variable {K : Type} [Field K] [LinearOrder K]

/-- An element meets a cell. -/
def Meets3 (m : MHGeom K) (box : Geom3 Geom → (ℕ → K) × (ℕ → K)) (g : Geom3 Geom) (c : ℤ) : Prop := BoxMeets m (box g).1 (box g).2 c

/-- The conditions on the mesh. -/
structure Mesh3Ok (m : MHGeom K) (owner : ℤ → ℤ) (box : Geom3 Geom → (ℕ → K) × (ℕ → K)) (pmi : Fin n → Pmi3d) : Prop where
  grid : GridGeom m
  ranks : n ≤ 2 ^ 31
  ncells : ncellsGlobal m.toMH < 2 ^ 31
  ids : ∀ s, ((pmi s).elements.map Prod.fst).Nodup
  gid : ∀ s, ∀ e ∈ (pmi s).elements, e.2.gid = e.1
  wf : ∀ s, ∀ e ∈ (pmi s).elements, C20.WellFormed e.2
  faceIds : ∀ s, ((pmi s).faces.map Prod.fst).Nodup
  faceGid : ∀ s, ∀ x ∈ (pmi s).faces, x.2.data.id.toInt = x.1
  faceWf : ∀ s, ∀ x ∈ (pmi s).faces, GeomOk (edgesOfFace x.2.shape) x.2.data
  faces : ∀ s, ∀ e ∈ (pmi s).elements, ∀ f ∈ e.2.faces, (f.gid, f) ∈ (pmi s).faces
  count : ∀ sh, (allOf sh fun s => flat (pmi s)).length < 2 ^ 31
  size : ∀ sh, n * (packRemotes (codeOf sh) (allOf sh fun s => flat (pmi s))).length < 2 ^ 31
  sizeInts : n * (C20.message ((List.finRange n).flatMap fun s => (pmi s).elements.map (remote3Of s))).length < 2 ^ 31
  cells : ∀ s, ∀ c ∈ (pmi s).owned ++ (pmi s).unowned, 0 ≤ c ∧ c < ncellsGlobal m.toMH
  owned : ∀ s, ∀ c ∈ (pmi s).owned, owner c = s.val
  owner : ∀ s, ∀ e ∈ (pmi s).elements, ∀ c, Meets3 m box e.2 c → 0 ≤ owner c ∧ owner c < n

/-- The conditions on the halos. -/
structure Halos3Ok (m : MHGeom K) (owner : ℤ → ℤ) (box : Geom3 Geom → (ℕ → K) × (ℕ → K)) (pmi : Fin n → Pmi3d) : Prop where
  sound : ∀ r, ∀ x ∈ (pmi r).halos.geoms, ∃ s, s ≠ r ∧ ∃ e ∈ (pmi s).elements, x = remote3Of s e
  once : ∀ r, ((pmi r).halos.geoms.map key3).Nodup
  knows : ∀ r c, owner c = r.val → ∀ s, s ≠ r → ∀ e ∈ (pmi s).elements, Meets3 m box e.2 c → remote3Of s e ∈ (pmi r).halos.geoms
  faces : ∀ r sh, IsFaces (faceShape sh) (pmi r).halos.geoms (remsOf sh (flat (pmi r)))

/-- The state of a rank up to the order of the halos. -/
structure Same3 (a b : Pmi3d) : Prop where
  mesh : a.faces = b.faces
  elements : a.elements = b.elements
  owned : a.owned = b.owned
  unowned : a.unowned = b.unowned
  geoms : ∀ x, x ∈ a.halos.geoms ↔ x ∈ b.halos.geoms
  once : (a.halos.geoms.map key3).Nodup
  faces : ∀ sh, IsFaces (faceShape sh) a.halos.geoms (remsOf sh (flat a))

variable {m : MHGeom K} {owner : ℤ → ℤ} {box : Geom3 Geom → (ℕ → K) × (ℕ → K)} {pmi : Fin n → Pmi3d}

theorem noBox_meets [IsStrictOrderedRing K] (hm : GridGeom m) (g : Geom) (c : ℤ) : ¬ Meets m noBox g c := by
  rintro ⟨x, _, _, y, hy⟩
  obtain ⟨⟨h1, h2⟩, _⟩ := hy 0 hm.1.1
  exact absurd (h1.trans h2) (lt_irrefl _)

theorem mem_facesWith (sh : FaceShape) (faces : List (ℤ × Geom2 Geom)) (i : ℤ) (g : Geom) :
    (i, g) ∈ facesWith sh faces ↔ ∃ f : Geom2 Geom, (i, f) ∈ faces ∧ f.shape = sh ∧ f.data = g := by
  unfold facesWith
  simp only [List.mem_map, List.mem_filter, decide_eq_true_eq, Prod.mk.injEq]
  constructor
  · rintro ⟨x, ⟨h1, h2⟩, rfl, rfl⟩; exact ⟨x.2, h1, h2, rfl⟩
  · rintro ⟨f, h1, h2, rfl⟩; exact ⟨(i, f), ⟨h1, h2⟩, rfl, rfl⟩

theorem elsOf_flat (sh : Shape2) (p : Pmi3d) : elsOf sh (flat p) = facesWith (faceShape sh) p.faces := by cases sh <;> rfl

theorem mem_flat (sh : Shape2) (p : Pmi3d) (e : ℤ × Geom) :
    e ∈ elsOf sh (flat p) ↔ ∃ f : Geom2 Geom, (e.1, f) ∈ p.faces ∧ f.shape = faceShape sh ∧ f.data = e.2 := by
  rw [elsOf_flat]; exact mem_facesWith _ _ _ _

theorem edgesOf_face (sh : Shape2) : edgesOf sh = edgesOfFace (faceShape sh) := by cases sh <;> rfl

theorem facesWith_ids (faces : List (ℤ × Geom2 Geom)) (h : (faces.map Prod.fst).Nodup) :
    ((facesWith .tri faces ++ facesWith .quad faces).map Prod.fst).Nodup := by
  rw [List.map_append, List.nodup_append]
  have key : ∀ sh, ((facesWith sh faces).map Prod.fst).Nodup := by
    intro sh
    unfold facesWith
    rw [List.map_map]
    exact h.sublist (List.Sublist.map _ List.filter_sublist)
  refine ⟨key _, key _, ?_⟩
  rintro i hi j hj rfl
  obtain ⟨⟨_, g⟩, hx, rfl⟩ := List.mem_map.mp hi
  obtain ⟨⟨_, g'⟩, hy, hxy⟩ := List.mem_map.mp hj
  dsimp only at hxy
  subst hxy
  obtain ⟨f, hf, hs, _⟩ := (mem_facesWith _ _ _ _).mp hx
  obtain ⟨f', hf', hs', _⟩ := (mem_facesWith _ _ _ _).mp hy
  have := List.inj_on_of_nodup_map h hf hf' rfl
  rw [(Prod.mk.inj this).2, hs'] at hs
  cases hs

theorem Mesh3Ok.flat [IsStrictOrderedRing K] (h : Mesh3Ok m owner box pmi) : MeshOk m owner noBox fun s => flat (pmi s) where
  grid := h.grid
  ranks := h.ranks
  ncells := h.ncells
  ids s := facesWith_ids _ (h.faceIds s)
  range s sh e he := by
    obtain ⟨f, hf, -, -⟩ := (mem_flat _ _ _).mp he
    have := h.faceGid s _ hf
    dsimp only at this
    rw [← this]
    have h1 := BitVec.toInt_lt (x := f.data.id)
    have h2 := BitVec.le_toInt f.data.id
    exact ⟨by simpa using h2, by simpa using h1⟩
  gid s sh e he := by
    obtain ⟨f, hf, -, h2⟩ := (mem_flat _ _ _).mp he
    rw [← h2]; exact h.faceGid s _ hf
  wf s sh e he := by
    obtain ⟨f, hf, h1, h2⟩ := (mem_flat _ _ _).mp he
    rw [← h2, edgesOf_face, ← h1]; exact h.faceWf s _ hf
  count := h.count
  size := h.size
  cells := h.cells
  owned := h.owned
  owner s sh e he c hb := absurd hb (noBox_meets h.grid _ _)

/-- A face of an element of a rank as it is sent. -/
theorem Mesh3Ok.face (h : Mesh3Ok m owner box pmi) {s : Fin n} {e : ℤ × Geom3 Geom} (he : e ∈ (pmi s).elements) {f : Geom2 Geom} (hf : f ∈ e.2.faces) :
    (⟨BitVec.ofInt 32 (remote3Of s e).rank, BitVec.ofInt 32 f.gid, f.data⟩ : Remote) = remoteOf s (f.gid, f.data) ∧
    (∀ sh, f.shape = faceShape sh → (f.gid, f.data) ∈ elsOf sh (HaloExtension3D.flat (pmi s))) := by
  refine ⟨?_, fun sh hsh => (mem_flat _ _ _).mpr ⟨f, h.faces s e he f hf, hsh, rfl⟩⟩
  unfold remoteOf remote3Of
  simp only [BitVec.ofInt_natCast]

theorem faceShape_surj (sh : FaceShape) : ∃ s, sh = faceShape s := by
  cases sh
  exacts [⟨.tri, rfl⟩, ⟨.quad, rfl⟩]

theorem faceShape_inj {a b : Shape2} (h : faceShape a = faceShape b) : a = b := by
  cases a <;> cases b <;> first | rfl | cases h

theorem keyOf_nodup {out : List Remote} (h : (out.map fun x => (x.rank, x.id)).Nodup) : (out.map keyOf).Nodup := by
  have : out.map keyOf = (out.map fun x => (x.rank, x.id)).map fun p => (toLex (p.1.toInt, p.2.toInt) : HaloExtension.Key) := by
    rw [List.map_map]; rfl
  rw [this]
  refine h.map ?_
  rintro ⟨a, b⟩ ⟨c, d⟩ heq
  have heq' : (a.toInt, b.toInt) = (c.toInt, d.toInt) := heq
  simp only [Prod.mk.injEq] at heq'
  exact Prod.ext (BitVec.eq_of_toInt_eq heq'.1) (BitVec.eq_of_toInt_eq heq'.2)

theorem rank_id_nodup {out : List Remote} (h : (out.map keyOf).Nodup) : (out.map fun x => (x.rank, x.id)).Nodup := by
  have : out.map keyOf = (out.map fun x => (x.rank, x.id)).map fun p => (toLex (p.1.toInt, p.2.toInt) : HaloExtension.Key) := by
    rw [List.map_map]; rfl
  rw [this] at h
  exact h.of_map _

theorem Halos3Ok.flat [IsStrictOrderedRing K] (h : Mesh3Ok m owner box pmi) (hh : Halos3Ok m owner box pmi) :
    HalosOk m owner noBox fun s => HaloExtension3D.flat (pmi s) where
  sound r sh x hx := by
    obtain ⟨g, hg, f, hf, hsh, rfl⟩ := ((hh.faces r sh).2 x).mp hx
    obtain ⟨s, hs, e, he, rfl⟩ := hh.sound r g hg
    obtain ⟨h1, h2⟩ := h.face he hf
    exact ⟨s, hs, _, h2 sh hsh, h1⟩
  once r sh := keyOf_nodup (hh.faces r sh).1
  knows r sh c hc s hs e he hb := absurd hb (noBox_meets h.grid _ _)

theorem Same3.flat {a b : Pmi3d} (h : Same3 a b) (hb : ∀ sh, IsFaces (faceShape sh) b.halos.geoms (remsOf sh (flat b))) :
    Same (flat a) (HaloExtension3D.flat b) where
  tris := by unfold HaloExtension3D.flat; rw [h.mesh]
  quads := by unfold HaloExtension3D.flat; rw [h.mesh]
  owned := h.owned
  unowned := h.unowned
  rems sh x := by
    rw [(h.faces sh).2, (hb sh).2]
    simp only [h.geoms]
  once sh := keyOf_nodup (h.faces sh).1

theorem Mesh3Ok.elem_unique (h : Mesh3Ok m owner box pmi) {s : Fin n} {e e' : ℤ × Geom3 Geom} (he : e ∈ (pmi s).elements)
    (he' : e' ∈ (pmi s).elements) (hi : e.1 = e'.1) : e = e' := List.inj_on_of_nodup_map (h.ids s) he he' hi

theorem key3_inj {s s' : Fin n} {e e' : ℤ × Geom3 Geom} (h : key3 (remote3Of s e) = key3 (remote3Of s' e')) : s = s' ∧ e.1 = e'.1 := key_inj h

/-- What a rank knows of the elements. -/
theorem mem_known3 (h : Mesh3Ok m owner box pmi) (hh : Halos3Ok m owner box pmi) {r : Fin n} {st : Pmi3d} (hs : Same3 st (pmi r)) :
    Sorted (rankToGeoms3d r.val st) ∧ ∀ key g, (key, g) ∈ rankToGeoms3d r.val st ↔
      ∃ s i, (i, g) ∈ (pmi s).elements ∧ key = toLex ((s.val : ℤ), i) ∧ (s = r ∨ remote3Of s (i, g) ∈ (pmi r).halos.geoms) := by
  let ent : RankGeoms3 := st.elements.map (fun e => (toLex ((r.val : ℤ), e.1), e.2)) ++ st.halos.geoms.map (fun x => (key3 x, x.geom))
  have heq : rankToGeoms3d r.val st = ent.foldl (fun s x => mapSet x.1 x.2 s) [] := by
    unfold rankToGeoms3d
    simp only [ent, List.foldl_append, List.foldl_map]
  have hmem : ∀ key g, (key, g) ∈ ent ↔
      ∃ s i, (i, g) ∈ (pmi s).elements ∧ key = toLex ((s.val : ℤ), i) ∧ (s = r ∨ remote3Of s (i, g) ∈ (pmi r).halos.geoms) := by
    intro key g
    simp only [ent, List.mem_append, List.mem_map, Prod.mk.injEq, hs.elements]
    constructor
    · rintro (⟨e, he, rfl, rfl⟩ | ⟨x, hx, rfl, rfl⟩)
      · exact ⟨r, e.1, he, rfl, Or.inl rfl⟩
      · rw [hs.geoms] at hx
        obtain ⟨s, _, e, he, rfl⟩ := hh.sound r x hx
        exact ⟨s, e.1, he, rfl, Or.inr hx⟩
    · rintro ⟨s, i, hi, rfl, rfl | hx⟩
      · exact Or.inl ⟨(i, g), hi, rfl, rfl⟩
      · exact Or.inr ⟨_, (hs.geoms _).mpr hx, rfl, rfl⟩
  have hfun : Functional ent := by
    rintro ⟨k, g⟩ hx ⟨k', g'⟩ hy hk
    obtain ⟨s, i, h1, rfl, _⟩ := (hmem _ _).mp hx
    obtain ⟨s', i', h1', rfl, _⟩ := (hmem _ _).mp hy
    obtain ⟨rfl, rfl⟩ := key_inj hk
    have h2 := h.elem_unique h1 h1' rfl
    obtain ⟨-, rfl⟩ := Prod.mk.inj h2
    rfl
  obtain ⟨h1, h2⟩ := foldl_mapSet ent [] List.Pairwise.nil (by simpa using hfun)
  rw [heq]
  exact ⟨h1, fun key g => by rw [h2, ← hmem]; simp⟩

theorem Same3.refl {r : Fin n} (hh : Halos3Ok m owner box pmi) : Same3 (pmi r) (pmi r) :=
  ⟨rfl, rfl, rfl, rfl, fun _ => Iff.rfl, hh.once r, hh.faces r⟩

theorem known3_eq (h : Mesh3Ok m owner box pmi) (hh : Halos3Ok m owner box pmi) {r : Fin n} {st : Pmi3d} (hs : Same3 st (pmi r)) :
    rankToGeoms3d r.val st = rankToGeoms3d r.val (pmi r) := by
  obtain ⟨a1, a2⟩ := mem_known3 h hh hs
  obtain ⟨b1, b2⟩ := mem_known3 h hh (Same3.refl (r := r) hh)
  refine map_sorted_ext a1 b1 ?_
  rintro ⟨k, g⟩
  rw [a2, b2]

end

/-! ### The plan of a call -/

variable {K : Type} [Field K] [LinearOrder K] [IsStrictOrderedRing K] [FloorRing K] {m : MHGeom K} {owner : ℤ → ℤ}
  {box : Geom3 Geom → (ℕ → K) × (ℕ → K)} {pmi : Fin n → Pmi3d}

/-- The sets of what `q` sends to `d`. -/
def setsOf (m : MHGeom K) (owner : ℤ → ℤ) (box : Geom3 Geom → (ℕ → K) × (ℕ → K)) (w : ℤ) (pbc : Bool) (pmi : Fin n → Pmi3d) (q d : Fin n) :
    List Key × List Key :=
  (sendSets (rankToGeoms3d q.val (pmi q)) (cellsToGeoms m (info3d box) (rankToGeoms3d q.val (pmi q)) (csetOf m owner w pbc (fun s => flat (pmi s)) q))
    (wantedOf m owner w pbc (fun s => flat (pmi s)) d q)).getD ([], [])
/-- The elements `q` sends to `d`. -/
def contG (m : MHGeom K) (owner : ℤ → ℤ) (box : Geom3 Geom → (ℕ → K) × (ℕ → K)) (w : ℤ) (pbc : Bool) (pmi : Fin n → Pmi3d) (q d : Fin n) :
    List (Remote3 Geom) := (toSend3 (rankToGeoms3d q.val (pmi q)) (setsOf m owner box w pbc pmi q d).1).getD []
/-- The faces of a shape `q` sends to `d`. -/
def contF (m : MHGeom K) (owner : ℤ → ℤ) (box : Geom3 Geom → (ℕ → K) × (ℕ → K)) (w : ℤ) (pbc : Bool) (pmi : Fin n → Pmi3d) (sh : Shape2) (q d : Fin n) :
    List Remote := (toSend sh (rankToGeoms2d q.val (flat (pmi q))) (setsOf m owner box w pbc pmi q d).2).getD []

variable (h : Mesh3Ok m owner box pmi) (hh : Halos3Ok m owner box pmi) {w : ℤ} (hw0 : 0 ≤ w) (hw : ∀ d < m.ndim, w ≤ m.dims d * m.ncf) (pbc : Bool)
include h hh hw0 hw

theorem sets_spec (q d : Fin n) :
    sendSets (rankToGeoms3d q.val (pmi q)) (cellsToGeoms m (info3d box) (rankToGeoms3d q.val (pmi q)) (csetOf m owner w pbc (fun s => flat (pmi s)) q))
      (wantedOf m owner w pbc (fun s => flat (pmi s)) d q) = some (setsOf m owner box w pbc pmi q d) ∧
    (setsOf m owner box w pbc pmi q d).1.Pairwise (· < ·) ∧ (setsOf m owner box w pbc pmi q d).2.Pairwise (· < ·) ∧
    (∀ key, key ∈ (setsOf m owner box w pbc pmi q d).1 ↔ ∃ s, ∃ e ∈ (pmi s).elements, key = toLex ((s.val : ℤ), e.1) ∧
      (key, e.2) ∈ rankToGeoms3d q.val (pmi q) ∧ ∃ c ∈ wantedOf m owner w pbc (fun s => flat (pmi s)) d q, Meets3 m box e.2 c) ∧
    ∀ key, key ∈ (setsOf m owner box w pbc pmi q d).2 ↔ ∃ s, ∃ e ∈ (pmi s).elements,
      (toLex ((s.val : ℤ), e.1), e.2) ∈ rankToGeoms3d q.val (pmi q) ∧
      (∃ c ∈ wantedOf m owner w pbc (fun s => flat (pmi s)) d q, Meets3 m box e.2 c) ∧ ∃ f ∈ e.2.faces, key = toLex ((s.val : ℤ), f.gid) := by
  obtain ⟨ks, km⟩ := mem_known3 h hh (Same3.refl (r := q) hh)
  have hcs : ∀ c ∈ wantedOf m owner w pbc (fun s => flat (pmi s)) d q, c ∈ csetOf m owner w pbc (fun s => flat (pmi s)) q := by
    intro c hc
    unfold csetOf
    rw [mem_setFrom, List.mem_flatMap]
    exact ⟨d, List.mem_finRange d, hc⟩
  have hid : ∀ k v, (k, v) ∈ rankToGeoms3d q.val (pmi q) → (info3d box v).1 = (ofLex k).2 := by
    intro k v hv
    obtain ⟨s, i, hi, rfl, _⟩ := (km _ _).mp hv
    exact h.gid s _ hi
  have hct := mem_cellsToGeoms_key h.grid (info3d box) (rankToGeoms3d q.val (pmi q)) hid (csetOf m owner w pbc (fun s => flat (pmi s)) q)
  have hct' : ∀ c ∈ wantedOf m owner w pbc (fun s => flat (pmi s)) d q, ∀ key,
      key ∈ cellsToGeoms m (info3d box) (rankToGeoms3d q.val (pmi q)) (csetOf m owner w pbc (fun s => flat (pmi s)) q) c ↔
      ∃ s, ∃ e ∈ (pmi s).elements, key = toLex ((s.val : ℤ), e.1) ∧ (key, e.2) ∈ rankToGeoms3d q.val (pmi q) ∧ Meets3 m box e.2 c := by
    intro c hc key
    rw [hct]
    constructor
    · rintro ⟨_, v, hv, hb⟩
      obtain ⟨s, i, hi, hk, _⟩ := (km _ _).mp hv
      exact ⟨s, (i, v), hi, hk, hv, hb⟩
    · rintro ⟨s, e, he, _, hv, hb⟩
      exact ⟨hcs c hc, e.2, hv, hb⟩
  obtain ⟨a, b, h1, h2, h3, h4, h5⟩ := sendSets_spec ks (cellsToGeoms m (info3d box) (rankToGeoms3d q.val (pmi q))
    (csetOf m owner w pbc (fun s => flat (pmi s)) q)) (wantedOf m owner w pbc (fun s => flat (pmi s)) d q) (by
      intro c _ key hk
      obtain ⟨_, v, hv, _⟩ := (hct c key).mp hk
      exact ⟨v, hv⟩)
  have hsets : setsOf m owner box w pbc pmi q d = (a, b) := by unfold setsOf; rw [h1]; rfl
  rw [hsets]
  refine ⟨h1, h2, h3, fun key => ?_, fun key => ?_⟩
  · rw [h4]
    constructor
    · rintro ⟨c, hc, hk⟩
      obtain ⟨s, e, he, hke, hv, hb⟩ := (hct' c hc key).mp hk
      exact ⟨s, e, he, hke, hv, c, hc, hb⟩
    · rintro ⟨s, e, he, hke, hv, c, hc, hb⟩
      exact ⟨c, hc, (hct' c hc key).mpr ⟨s, e, he, hke, hv, hb⟩⟩
  · rw [h5]
    constructor
    · rintro ⟨c, hc, k, hk, g, hg, f, hf, rfl⟩
      obtain ⟨s, e, he, rfl, hv, hb⟩ := (hct' c hc k).mp hk
      have := ks.inj hg hv
      subst this
      exact ⟨s, e, he, hv, ⟨c, hc, hb⟩, f, hf, rfl⟩
    · rintro ⟨s, e, he, hv, ⟨c, hc, hb⟩, f, hf, rfl⟩
      exact ⟨c, hc, _, (hct' c hc _).mpr ⟨s, e, he, rfl, hv, hb⟩, e.2, hv, f, hf, rfl⟩

/-- The elements which are sent. -/
theorem contG_spec (q d : Fin n) : toSend3 (rankToGeoms3d q.val (pmi q)) (setsOf m owner box w pbc pmi q d).1 = some (contG m owner box w pbc pmi q d) ∧
    ((contG m owner box w pbc pmi q d).map key3).Nodup ∧
    (∀ x, x ∈ contG m owner box w pbc pmi q d ↔ ∃ s, ∃ e ∈ (pmi s).elements, x = remote3Of s e ∧
      ∃ c ∈ wantedOf m owner w pbc (fun s => flat (pmi s)) d q, Meets3 m box e.2 c) := by
  obtain ⟨ks, km⟩ := mem_known3 h hh (Same3.refl (r := q) hh)
  obtain ⟨s1, s2, s3, s4, s5⟩ := sets_spec h hh hw0 hw pbc q d
  obtain ⟨_, _, _, _, _, wm, _⟩ := req_spec h.flat hw0 hw pbc d
  obtain ⟨l, l1, l2, l3⟩ := toSend3_spec ks (setsOf m owner box w pbc pmi q d).1 (by
    intro key hk
    obtain ⟨s, e, _, _, hv, _⟩ := (s4 key).mp hk
    exact ⟨_, hv⟩)
  have hcont : contG m owner box w pbc pmi q d = l := by unfold contG; rw [l1]; rfl
  rw [hcont]
  refine ⟨l1, by rw [l2]; exact nodup_of_sorted s2, fun x => ?_⟩
  rw [l3]
  constructor
  · rintro ⟨key, hk, g, hg, rfl⟩
    obtain ⟨s, e, he, rfl, hv, hc⟩ := (s4 key).mp hk
    have := ks.inj hg hv
    subst this
    exact ⟨s, e, he, rfl, hc⟩
  · rintro ⟨s, e, he, rfl, c, hc, hb⟩
    have hv : (toLex ((s.val : ℤ), e.1), e.2) ∈ rankToGeoms3d q.val (pmi q) := by
      refine (km _ _).mpr ⟨s, e.1, he, rfl, ?_⟩
      by_cases hsq : s = q
      · exact Or.inl hsq
      · exact Or.inr (hh.knows q c ((wm q c).mp hc).2.1 s hsq e he hb)
    exact ⟨_, (s4 _).mpr ⟨s, e, he, rfl, hv, c, hc, hb⟩, e.2, hv, rfl⟩

/-- A face of an element which a rank knows is known. -/
theorem face_known {q s : Fin n} {e : ℤ × Geom3 Geom} (he : e ∈ (pmi s).elements) (hk : s = q ∨ remote3Of s e ∈ (pmi q).halos.geoms)
    {f : Geom2 Geom} (hf : f ∈ e.2.faces) {sh : Shape2} (hsh : f.shape = faceShape sh) :
    (toLex ((s.val : ℤ), f.gid), sh, f.data) ∈ rankToGeoms2d q.val (flat (pmi q)) := by
  obtain ⟨_, km⟩ := mem_known h.flat (hh.flat h) q
  obtain ⟨h1, h2⟩ := h.face he hf
  refine (km _ _ _).mpr ⟨s, f.gid, h2 sh hsh, rfl, ?_⟩
  rcases hk with hk | hk
  · exact Or.inl hk
  · exact Or.inr (((hh.faces q sh).2 _).mpr ⟨_, hk, f, hf, hsh, h1.symm⟩)

/-- The faces which are sent. -/
theorem contF_spec (sh : Shape2) (q d : Fin n) :
    toSend sh (rankToGeoms2d q.val (flat (pmi q))) (setsOf m owner box w pbc pmi q d).2 = some (contF m owner box w pbc pmi sh q d) ∧
    (contF m owner box w pbc pmi sh q d).Nodup ∧
    (∀ x, x ∈ contF m owner box w pbc pmi sh q d ↔ ∃ s, ∃ e ∈ (pmi s).elements, remote3Of s e ∈ contG m owner box w pbc pmi q d ∧
      ∃ f ∈ e.2.faces, f.shape = faceShape sh ∧ x = remoteOf s (f.gid, f.data)) := by
  obtain ⟨ks3, km3⟩ := mem_known3 h hh (Same3.refl (r := q) hh)
  obtain ⟨ks, km⟩ := mem_known h.flat (hh.flat h) q
  obtain ⟨s1, s2, s3, s4, s5⟩ := sets_spec h hh hw0 hw pbc q d
  obtain ⟨_, _, g3⟩ := contG_spec h hh hw0 hw pbc q d
  obtain ⟨_, _, _, _, _, wm, _⟩ := req_spec h.flat hw0 hw pbc d
  have hkn : ∀ {s : Fin n} {e : ℤ × Geom3 Geom}, e ∈ (pmi s).elements → (toLex ((s.val : ℤ), e.1), e.2) ∈ rankToGeoms3d q.val (pmi q) →
      s = q ∨ remote3Of s e ∈ (pmi q).halos.geoms := by
    intro s e he hv
    obtain ⟨s', i', hi', hk', hor⟩ := (km3 _ _).mp hv
    obtain ⟨rfl, rfl⟩ := key_inj hk'
    exact hor
  have hfk : ∀ key ∈ (setsOf m owner box w pbc pmi q d).2, ∃ s, ∃ e ∈ (pmi s).elements, remote3Of s e ∈ contG m owner box w pbc pmi q d ∧
      ∃ f ∈ e.2.faces, key = toLex ((s.val : ℤ), f.gid) ∧ (s = q ∨ remote3Of s e ∈ (pmi q).halos.geoms) := by
    intro key hk
    obtain ⟨s, e, he, hv, hc, f, hf, rfl⟩ := (s5 key).mp hk
    exact ⟨s, e, he, (g3 _).mpr ⟨s, e, he, rfl, hc⟩, f, hf, rfl, hkn he hv⟩
  obtain ⟨l, l1, l2, l3⟩ := toSend_spec sh ks (setsOf m owner box w pbc pmi q d).2 (by
    intro key hk
    obtain ⟨s, e, he, _, f, hf, rfl, hor⟩ := hfk key hk
    obtain ⟨sh', hsh'⟩ := faceShape_surj f.shape
    exact ⟨_, face_known h hh hw0 hw he hor hf hsh'⟩)
  have hcont : contF m owner box w pbc pmi sh q d = l := by unfold contF; rw [l1]; rfl
  rw [hcont]
  refine ⟨l1, ?_, fun x => ?_⟩
  · refine l3 ?_ (nodup_of_sorted s3)
    intro k1 hk1 k2 hk2 g1 g2 heq
    obtain ⟨s1, e1, he1, _, f1, hf1, rfl, _⟩ := hfk k1 hk1
    obtain ⟨s2, e2, he2, _, f2, hf2, rfl, _⟩ := hfk k2 hk2
    rw [remoteAt_key s1 (f1.gid, g1), remoteAt_key s2 (f2.gid, g2)] at heq
    have := congrArg keyOf heq
    obtain ⟨sh1, hsh1⟩ := faceShape_surj f1.shape
    obtain ⟨sh2, hsh2⟩ := faceShape_surj f2.shape
    rwa [key_remoteOf h.ranks s1 (e := (f1.gid, g1)) (h.flat.range s1 sh1 (f1.gid, f1.data) ((h.face he1 hf1).2 sh1 hsh1)),
      key_remoteOf h.ranks s2 (e := (f2.gid, g2)) (h.flat.range s2 sh2 (f2.gid, f2.data) ((h.face he2 hf2).2 sh2 hsh2))] at this
  · rw [l2]
    constructor
    · rintro ⟨key, hk, g, hg, rfl⟩
      obtain ⟨s, e, he, hcg, f, hf, rfl, hor⟩ := hfk key hk
      obtain ⟨sh', hsh'⟩ := faceShape_surj f.shape
      have := ks.inj hg (face_known h hh hw0 hw he hor hf hsh')
      obtain ⟨rfl, rfl⟩ := Prod.mk.inj this
      exact ⟨s, e, he, hcg, f, hf, hsh', remoteAt_key s (f.gid, f.data)⟩
    · rintro ⟨s, e, he, hcg, f, hf, hsh, rfl⟩
      obtain ⟨s', e', he', hx, c, hc, hb⟩ := (g3 _).mp hcg
      obtain ⟨rfl, hi⟩ := key3_inj (congrArg key3 hx)
      have := h.elem_unique he he' hi
      subst this
      have hor : s = q ∨ remote3Of s e ∈ (pmi q).halos.geoms := by
        by_cases hsq : s = q
        · exact Or.inl hsq
        · exact Or.inr (hh.knows q c ((wm q c).mp hc).2.1 s hsq e he hb)
      have hv : (toLex ((s.val : ℤ), e.1), e.2) ∈ rankToGeoms3d q.val (pmi q) := (km3 _ _).mpr ⟨s, e.1, he, rfl, hor⟩
      exact ⟨_, (s5 _).mpr ⟨s, e, he, hv, ⟨c, hc, hb⟩, f, hf, rfl⟩, f.data, face_known h hh hw0 hw he hor hf hsh, (remoteAt_key s (f.gid, f.data)).symm⟩

theorem contF_ok (sh : Shape2) (q d : Fin n) : (∀ x ∈ contF m owner box w pbc pmi sh q d, RemoteOk (edgesOf sh) x) ∧
    (contF m owner box w pbc pmi sh q d).length < 2 ^ 31 ∧ n * (packRemotes (codeOf sh) (contF m owner box w pbc pmi sh q d)).length < 2 ^ 31 := by
  obtain ⟨_, c2, c3⟩ := contF_spec h hh hw0 hw pbc sh q d
  have hsp : (contF m owner box w pbc pmi sh q d).Subperm (allOf sh fun s => flat (pmi s)) := by
    refine List.subperm_of_subset c2 ?_
    intro x hx
    obtain ⟨s, e, he, _, f, hf, hsh, rfl⟩ := (c3 x).mp hx
    unfold allOf
    rw [List.mem_flatMap]
    exact ⟨s, List.mem_finRange s, List.mem_map_of_mem ((h.face he hf).2 sh hsh)⟩
  refine ⟨?_, lt_of_le_of_lt hsp.length_le (h.count sh), ?_⟩
  · intro x hx
    obtain ⟨s, e, he, _, f, hf, hsh, rfl⟩ := (c3 x).mp hx
    refine ⟨?_, h.flat.wf s sh _ ((h.face he hf).2 sh hsh)⟩
    have := s.isLt
    have := h.ranks
    unfold remoteOf
    simp only
    rw [toInt_ofNat32 _ (by omega)]
    omega
  · refine lt_of_le_of_lt (Nat.mul_le_mul_left _ ?_) (h.size sh)
    have hl : ∀ gs : List Remote, (packRemotes (codeOf sh) gs).length = 4 + (gs.map fun g => (packGeom (codeOf sh) g.rank g.id g.geom).length).sum := by
      intro gs
      unfold packRemotes
      rw [List.length_append, length_enc32, List.length_flatMap]
    rw [hl, hl]
    exact Nat.add_le_add_left (sum_le_of_subperm _ hsp) _

theorem contG_size (q d : Fin n) : n * (C20.message (contG m owner box w pbc pmi q d)).length < 2 ^ 31 := by
  obtain ⟨_, c2, c3⟩ := contG_spec h hh hw0 hw pbc q d
  have hsp : (contG m owner box w pbc pmi q d).Subperm ((List.finRange n).flatMap fun s => (pmi s).elements.map (remote3Of s)) := by
    refine List.subperm_of_subset (List.Nodup.of_map _ c2) ?_
    intro x hx
    obtain ⟨s, e, he, rfl, _⟩ := (c3 x).mp hx
    rw [List.mem_flatMap]
    exact ⟨s, List.mem_finRange s, List.mem_map_of_mem he⟩
  refine lt_of_le_of_lt (Nat.mul_le_mul_left _ ?_) h.sizeInts
  unfold C20.message
  rw [List.length_flatMap, List.length_flatMap]
  exact sum_le_of_subperm _ hsp

/-- What a call does to the elements of the halo. -/
def Extended3 (m : MHGeom K) (box : Geom3 Geom → (ℕ → K) × (ℕ → K)) (pmi : Fin n → Pmi3d) (w : ℤ) (pbc : Bool) (r : Fin n)
    (old out : Halos3d) : Prop :=
  (old.geoms <+: out.geoms ∧ old.tris <+: out.tris ∧ old.quads <+: out.quads) ∧ (out.geoms.map key3).Nodup ∧
  (∀ x, x ∈ out.geoms ↔ ∃ s, s ≠ r ∧ ∃ e ∈ (pmi s).elements, x = remote3Of s e ∧
    (x ∈ old.geoms ∨ ∃ c, Near m.toMH w pbc ((pmi r).owned ++ (pmi r).unowned) c ∧ Meets3 m box e.2 c)) ∧
  IsFaces .tri out.geoms out.tris ∧ IsFaces .quad out.geoms out.quads

/-- The received elements. -/
theorem mem_tmpG {r : Fin n} {recv : List (Fin n)} (hrecv : ∀ q, q ∈ recv ↔ q ∈ recvOf m owner w pbc (fun s => flat (pmi s)) r) (x : Remote3 Geom) :
    x ∈ recv.flatMap (fun q => contG m owner box w pbc pmi q r) ↔ ∃ s, ∃ e ∈ (pmi s).elements, x = remote3Of s e ∧
      ∃ q, ∃ c ∈ wantedOf m owner w pbc (fun s => flat (pmi s)) r q, Meets3 m box e.2 c := by
  obtain ⟨_, _, _, _, rm, wm, _⟩ := req_spec h.flat hw0 hw pbc r
  rw [List.mem_flatMap]
  constructor
  · rintro ⟨q, _, hx⟩
    obtain ⟨s, e, he, rfl, hc⟩ := ((contG_spec h hh hw0 hw pbc q r).2.2 x).mp hx
    exact ⟨s, e, he, rfl, q, hc⟩
  · rintro ⟨s, e, he, rfl, q, c, hc, hb⟩
    exact ⟨q, (hrecv q).mpr ((rm q).mpr ⟨((wm q c).mp hc).1, c, hc⟩), ((contG_spec h hh hw0 hw pbc q r).2.2 _).mpr ⟨s, e, he, rfl, c, hc, hb⟩⟩

/-- The received faces. -/
theorem mem_tmpF (sh : Shape2) {r : Fin n} {recv : List (Fin n)} (x : Remote) :
    x ∈ recv.flatMap (fun q => contF m owner box w pbc pmi sh q r) ↔ ∃ s, ∃ e ∈ (pmi s).elements,
      remote3Of s e ∈ recv.flatMap (fun q => contG m owner box w pbc pmi q r) ∧
      ∃ f ∈ e.2.faces, f.shape = faceShape sh ∧ x = remoteOf s (f.gid, f.data) := by
  simp only [List.mem_flatMap]
  constructor
  · rintro ⟨q, hq, hx⟩
    obtain ⟨s, e, he, hg, hf⟩ := ((contF_spec h hh hw0 hw pbc sh q r).2.2 x).mp hx
    exact ⟨s, e, he, ⟨q, hq, hg⟩, hf⟩
  · rintro ⟨s, e, he, ⟨q, hq, hg⟩, hf⟩
    exact ⟨q, hq, ((contF_spec h hh hw0 hw pbc sh q r).2.2 x).mpr ⟨s, e, he, hg, hf⟩⟩

/-- The new elements. -/
theorem unpackG_extended {r : Fin n} {st : Pmi3d} (hs : Same3 st (pmi r)) {recv : List (Fin n)}
    (hrecv : ∀ q, q ∈ recv ↔ q ∈ recvOf m owner w pbc (fun s => flat (pmi s)) r) :
    ∃ new, (unpackG key3 Remote3.geom (rankToGeoms3d r.val (pmi r), st.halos.geoms) (recv.flatMap fun q => contG m owner box w pbc pmi q r)).2 =
        st.halos.geoms ++ new ∧ ((st.halos.geoms ++ new).map key3).Nodup ∧
      (∀ x, x ∈ new ↔ x ∈ recv.flatMap (fun q => contG m owner box w pbc pmi q r) ∧ x ∉ (pmi r).halos.geoms ∧
        ∀ e ∈ (pmi r).elements, x ≠ remote3Of r e) ∧
      (∀ x, x ∈ st.halos.geoms ++ new ↔ ∃ s, s ≠ r ∧ ∃ e ∈ (pmi s).elements, x = remote3Of s e ∧
        (x ∈ st.halos.geoms ∨ ∃ c, Near m.toMH w pbc ((pmi r).owned ++ (pmi r).unowned) c ∧ Meets3 m box e.2 c)) := by
  obtain ⟨ks, km⟩ := mem_known3 h hh (Same3.refl (r := r) hh)
  obtain ⟨_, _, _, _, rm, wm, _⟩ := req_spec h.flat hw0 hw pbc r
  have htmp := mem_tmpG h hh hw0 hw pbc hrecv
  generalize recv.flatMap (fun q => contG m owner box w pbc pmi q r) = tmp at htmp ⊢
  have hent : ∀ y ∈ rankToGeoms3d r.val (pmi r) ++ tmp.map (fun x => (key3 x, x.geom)), ∃ s i, (i, y.2) ∈ (pmi s).elements ∧ y.1 = toLex ((s.val : ℤ), i) := by
    rintro ⟨k, g⟩ hy
    rcases List.mem_append.mp hy with hy | hy
    · obtain ⟨s, i, h1, h2, _⟩ := (km _ _).mp hy
      exact ⟨s, i, h1, h2⟩
    · obtain ⟨x, hx, hxe⟩ := List.mem_map.mp hy
      obtain ⟨rfl, rfl⟩ := Prod.mk.inj hxe
      obtain ⟨s, e, he, rfl, _⟩ := (htmp x).mp hx
      exact ⟨s, e.1, he, rfl⟩
  have hfun : Functional (rankToGeoms3d r.val (pmi r) ++ tmp.map fun x => (key3 x, x.geom)) := by
    rintro ⟨k1, g1⟩ hx ⟨k2, g2⟩ hy hk
    obtain ⟨s1, i1, a1, b1⟩ := hent _ hx
    obtain ⟨s2, i2, a2, b2⟩ := hent _ hy
    simp only at hk a1 b1 a2 b2
    subst b1 b2
    obtain ⟨rfl, rfl⟩ := key_inj hk
    have he := h.elem_unique a1 a2 rfl
    obtain ⟨-, rfl⟩ := Prod.mk.inj he
    rfl
  have hinj : ∀ x ∈ tmp, ∀ y ∈ tmp, key3 x = key3 y → x = y := by
    intro x hx y hy hk
    obtain ⟨s, e, he, rfl, _⟩ := (htmp x).mp hx
    obtain ⟨s', e', he', rfl, _⟩ := (htmp y).mp hy
    obtain ⟨rfl, hi⟩ := key3_inj hk
    rw [h.elem_unique he he' hi]
  obtain ⟨-, -, new, u3, u4, u5⟩ := unpackG_spec key3 Remote3.geom tmp (rankToGeoms3d r.val (pmi r), st.halos.geoms) ks hfun hinj
  -- an element is unknown if it is neither in the halo nor of the rank
  have hunk : ∀ {s : Fin n} {e : ℤ × Geom3 Geom}, e ∈ (pmi s).elements →
      ((∀ v, (key3 (remote3Of s e), v) ∉ rankToGeoms3d r.val (pmi r)) ↔ remote3Of s e ∉ (pmi r).halos.geoms ∧ s ≠ r) := by
    intro s e he
    constructor
    · intro hv
      refine ⟨fun hm => hv e.2 ((km _ _).mpr ⟨s, e.1, he, rfl, Or.inr hm⟩), fun hsr => hv e.2 ((km _ _).mpr ⟨s, e.1, he, rfl, Or.inl hsr⟩)⟩
    · rintro ⟨h1, h2⟩ v hv
      obtain ⟨s', i', hi', hk', hor⟩ := (km _ _).mp hv
      obtain ⟨rfl, hii⟩ := key_inj hk'
      have := h.elem_unique he hi' hii
      subst this
      rcases hor with hor | hor
      · exact h2 hor
      · exact h1 hor
  have hnew : ∀ x, x ∈ new ↔ x ∈ tmp ∧ x ∉ (pmi r).halos.geoms ∧ ∀ e ∈ (pmi r).elements, x ≠ remote3Of r e := by
    intro x
    rw [u5]
    refine and_congr_right fun hx => ?_
    obtain ⟨s, e, he, rfl, _⟩ := (htmp x).mp hx
    rw [hunk he]
    refine and_congr_right fun _ => ?_
    constructor
    · intro hsr e' _ heq
      exact hsr (key3_inj (congrArg key3 heq)).1
    · rintro hne rfl
      exact hne e he rfl
  refine ⟨new, u3, ?_, hnew, fun x => ?_⟩
  · rw [List.map_append, List.nodup_append]
    refine ⟨hs.once, u4, ?_⟩
    intro a ha b hb hab
    subst hab
    obtain ⟨x, hx, rfl⟩ := List.mem_map.mp ha
    obtain ⟨y, hy, hxy⟩ := List.mem_map.mp hb
    rw [hs.geoms] at hx
    obtain ⟨s, _, e, he, rfl⟩ := hh.sound r x hx
    refine ((u5 y).mp hy).2 e.2 ?_
    rw [hxy, km]
    exact ⟨s, e.1, he, rfl, Or.inr hx⟩
  · rw [List.mem_append, hnew]
    constructor
    · rintro (hx | ⟨hx, hxg, hxe⟩)
      · obtain ⟨s, hsr, e, he, rfl⟩ := hh.sound r x ((hs.geoms x).mp hx)
        exact ⟨s, hsr, e, he, rfl, Or.inl hx⟩
      · obtain ⟨s, e, he, rfl, q, c, hc, hb⟩ := (htmp x).mp hx
        refine ⟨s, ?_, e, he, rfl, Or.inr ⟨c, ((wm q c).mp hc).2.2.2, hb⟩⟩
        rintro rfl
        exact hxe e he rfl
    · rintro ⟨s, hsr, e, he, rfl, hx | ⟨c, hc, hb⟩⟩
      · exact Or.inl hx
      · obtain ⟨o1, o2⟩ := h.owner s e he c hb
        by_cases hor : owner c = r.val
        · exact Or.inl ((hs.geoms _).mpr (hh.knows r c hor s hsr e he hb))
        · by_cases hk : remote3Of s e ∈ (pmi r).halos.geoms
          · exact Or.inl ((hs.geoms _).mpr hk)
          · refine Or.inr ⟨(htmp _).mpr ⟨s, e, he, rfl, ⟨(owner c).toNat, by omega⟩, c, (wm _ c).mpr ⟨?_, by simp only; omega, ?_, hc⟩, hb⟩, hk, ?_⟩
            · intro heq
              have := congrArg Fin.val heq
              simp only at this
              omega
            · exact fun hco => hor (h.owned r c hco)
            · intro e' _ heq
              exact hsr (key3_inj (congrArg key3 heq)).1

/-- The new faces. `known` is what the rank knows when it unpacks the faces of this shape. -/
theorem unpackF_extended (sh : Shape2) {r : Fin n} {st : Pmi3d} (hs : Same3 st (pmi r)) {recv : List (Fin n)} {known : RankGeoms} (hks : Sorted known)
    (hkm : ∀ key g, (key, sh, g) ∈ known ↔ (key, sh, g) ∈ rankToGeoms2d r.val (flat (pmi r)))
    (hke : ∀ key sh' g, (key, sh', g) ∈ known → ∃ s i, (i, g) ∈ elsOf sh' (flat (pmi s)) ∧ key = toLex ((s.val : ℤ), i)) :
    ∃ new, (unpack2d sh (known, remsOf sh (flat st)) (recv.flatMap fun q => contF m owner box w pbc pmi sh q r)).2 = remsOf sh (flat st) ++ new ∧
    (∀ {newG : List (Remote3 Geom)}, (∀ x, x ∈ newG ↔ x ∈ recv.flatMap (fun q => contG m owner box w pbc pmi q r) ∧ x ∉ (pmi r).halos.geoms ∧
        ∀ e ∈ (pmi r).elements, x ≠ remote3Of r e) →
      IsFaces (faceShape sh) (st.halos.geoms ++ newG) (remsOf sh (flat st) ++ new)) ∧
    Sorted (unpack2d sh (known, remsOf sh (flat st)) (recv.flatMap fun q => contF m owner box w pbc pmi sh q r)).1 ∧
    (∀ key sh' g, (key, sh', g) ∈ (unpack2d sh (known, remsOf sh (flat st)) (recv.flatMap fun q => contF m owner box w pbc pmi sh q r)).1 ↔
      (key, sh', g) ∈ known ∨ sh' = sh ∧ ∃ x ∈ recv.flatMap (fun q => contF m owner box w pbc pmi sh q r), key = keyOf x ∧ g = x.geom) := by
  obtain ⟨ks, km⟩ := mem_known h.flat (hh.flat h) r
  have htmp := mem_tmpF h hh hw0 hw pbc sh (r := r) (recv := recv)
  have hgen : ∀ g ∈ recv.flatMap (fun q => contG m owner box w pbc pmi q r), ∃ s, ∃ e ∈ (pmi s).elements, g = remote3Of s e := by
    intro g hg
    obtain ⟨q, _, hg⟩ := List.mem_flatMap.mp hg
    obtain ⟨s, e, he, hge, _⟩ := ((contG_spec h hh hw0 hw pbc q r).2.2 g).mp hg
    exact ⟨s, e, he, hge⟩
  generalize recv.flatMap (fun q => contF m owner box w pbc pmi sh q r) = tmp at htmp ⊢
  generalize recv.flatMap (fun q => contG m owner box w pbc pmi q r) = tmpG at htmp hgen ⊢
  have helem : ∀ x ∈ tmp, ∃ s i, (i, x.geom) ∈ elsOf sh (flat (pmi s)) ∧ keyOf x = toLex ((s.val : ℤ), i) ∧ x = remoteOf s (i, x.geom) := by
    intro x hx
    obtain ⟨s, e, he, _, f, hf, hsh, rfl⟩ := (htmp x).mp hx
    have hmem := (h.face he hf).2 sh hsh
    exact ⟨s, f.gid, hmem, key_remoteOf h.ranks s (h.flat.range s sh _ hmem), rfl⟩
  have hfe : ∀ e ∈ known ++ tmp.map (fun x => (keyOf x, sh, x.geom)), ∃ s i, (i, e.2.2) ∈ elsOf e.2.1 (flat (pmi s)) ∧ e.1 = toLex ((s.val : ℤ), i) := by
    rintro ⟨k, sh', g⟩ he
    rcases List.mem_append.mp he with he | he
    · exact hke k sh' g he
    · obtain ⟨x, hx, hxe⟩ := List.mem_map.mp he
      simp only [Prod.mk.injEq] at hxe
      obtain ⟨rfl, rfl, rfl⟩ := hxe
      obtain ⟨s, i, h1, h2, _⟩ := helem x hx
      exact ⟨s, i, h1, h2⟩
  have hfun : Functional (known ++ tmp.map fun x => (keyOf x, sh, x.geom)) := by
    rintro ⟨k1, sh1, g1⟩ hx ⟨k2, sh2, g2⟩ hy hk
    obtain ⟨s1, i1, a1, b1⟩ := hfe _ hx
    obtain ⟨s2, i2, a2, b2⟩ := hfe _ hy
    simp only at hk a1 b1 a2 b2
    subst b1 b2
    obtain ⟨rfl, rfl⟩ := key_inj hk
    obtain ⟨rfl, he⟩ := h.flat.elem_unique a1 a2 rfl
    obtain ⟨-, rfl⟩ := Prod.mk.inj he
    rfl
  have hinj : ∀ x ∈ tmp, ∀ y ∈ tmp, keyOf x = keyOf y → x = y := by
    intro x hx y hy hk
    obtain ⟨s, i, a1, b1, c1⟩ := helem x hx
    obtain ⟨s', i', a2, b2, c2⟩ := helem y hy
    rw [b1, b2] at hk
    obtain ⟨rfl, rfl⟩ := key_inj hk
    obtain ⟨_, he⟩ := h.flat.elem_unique a1 a2 rfl
    rw [c1, c2, (Prod.mk.inj he).2]
  obtain ⟨u1, u2, new, u3, u4, u5⟩ := unpack2d_spec sh tmp (known, remsOf sh (flat st)) hks hfun hinj
  have hsf := hs.flat (hh.faces r)
  refine ⟨new, u3, ?_, u1, ?_⟩
  · intro newG hnewG
    refine ⟨rank_id_nodup ?_, fun x => ?_⟩
    · rw [List.map_append, List.nodup_append]
      refine ⟨hsf.once sh, u4, ?_⟩
      intro a ha b hb hab
      subst hab
      obtain ⟨x, hx, rfl⟩ := List.mem_map.mp ha
      obtain ⟨y, hy, hxy⟩ := List.mem_map.mp hb
      rw [hsf.rems] at hx
      obtain ⟨s, _, e, he, rfl⟩ := (hh.flat h).sound r sh x hx
      refine ((u5 y).mp hy).2 (sh, e.2) ?_
      rw [hxy, hkm, km]
      exact ⟨s, e.1, he, key_remoteOf h.ranks s (h.flat.range s sh e he), Or.inr hx⟩
    · rw [List.mem_append, u5]
      constructor
      · rintro (hx | ⟨hx, hk⟩)
        · obtain ⟨g, hg, hf⟩ := ((hs.faces sh).2 x).mp hx
          exact ⟨g, List.mem_append_left _ hg, hf⟩
        · obtain ⟨s, e, he, hg, f, hf, hsh, rfl⟩ := (htmp x).mp hx
          have hmem := (h.face he hf).2 sh hsh
          have hnk : ¬ (s = r ∨ remote3Of s e ∈ (pmi r).halos.geoms) := by
            intro hor
            refine hk (sh, f.data) ?_
            rw [key_remoteOf h.ranks s (h.flat.range s sh _ hmem), hkm]
            exact face_known h hh hw0 hw he hor hf hsh
          push Not at hnk
          refine ⟨remote3Of s e, List.mem_append_right _ ((hnewG _).mpr ⟨hg, hnk.2, ?_⟩), f, hf, hsh, ((h.face he hf).1).symm⟩
          intro e' _ heq
          exact hnk.1 (key3_inj (congrArg key3 heq)).1
      · rintro ⟨g, hg, f, hf, hsh, rfl⟩
        rcases List.mem_append.mp hg with hg | hg
        · exact Or.inl (((hs.faces sh).2 _).mpr ⟨g, hg, f, hf, hsh, rfl⟩)
        · obtain ⟨hgt, hgh, hgr⟩ := (hnewG g).mp hg
          obtain ⟨s, e, he, rfl⟩ := hgen g hgt
          have hf' : f ∈ e.2.faces := hf
          obtain ⟨e1, e2⟩ := h.face he hf'
          rw [e1]
          have hx := (htmp _).mpr ⟨s, e, he, hgt, f, hf', hsh, rfl⟩
          have hmem := e2 sh hsh
          have hsr : s ≠ r := by rintro rfl; exact hgr e he rfl
          by_cases hk : ∃ v, (keyOf (remoteOf s (f.gid, f.data)), v) ∈ known
          · obtain ⟨⟨sh', g⟩, hv⟩ := hk
            obtain ⟨s', i, hi, hki⟩ := hke _ _ _ hv
            rw [key_remoteOf h.ranks s (h.flat.range s sh _ hmem)] at hki
            obtain ⟨rfl, hii⟩ := key_inj hki
            obtain ⟨rfl, hg⟩ := h.flat.elem_unique hmem hi hii
            rw [hkm, km] at hv
            obtain ⟨s'', i', hi', hk', hor'⟩ := hv
            rw [key_remoteOf h.ranks s (h.flat.range s sh _ hmem)] at hk'
            obtain ⟨rfl, hii'⟩ := key_inj hk'
            rcases hor' with rfl | hx
            · exact absurd rfl hsr
            · left
              rw [hsf.rems]
              obtain ⟨_, hg'⟩ := h.flat.elem_unique hmem hi' hii'
              rw [← hg'] at hx
              exact hx
          · push Not at hk
            exact Or.inr ⟨hx, hk⟩
  · intro key sh' g
    rw [u2]
    refine or_congr Iff.rfl ?_
    rw [List.mem_map]
    constructor
    · rintro ⟨x, hx, hxe⟩
      simp only [Prod.mk.injEq] at hxe
      obtain ⟨rfl, rfl, rfl⟩ := hxe
      exact ⟨rfl, x, hx, rfl, rfl⟩
    · rintro ⟨rfl, x, hx, rfl, rfl⟩
      exact ⟨x, hx, rfl⟩

end Verif.Lemmas.HaloExtension3D
