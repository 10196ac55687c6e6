import Verif.Spec.VtkWriter
import Verif.Lemmas.HaloExtensionPure

namespace Verif.Props.C88
open Verif.Model.VtkWriter Verif.Model.HaloExchange Verif.Spec.VtkWriter Verif.Lemmas Verif.Lemmas.HaloExtension

variable {K : Type}

theorem parse_flat (l : List (List ℕ)) : parseCells l.length (l.flatMap fun c => c.length :: c) = some l := by
  induction l with
  | nil => rfl
  | cons c l ih =>
    rw [List.length_cons, List.flatMap_cons, List.cons_append, parseCells, if_pos (by simp)]
    simp [ih]

theorem collect_eq (geoms : List (Geom K)) (h2 : ∀ e ∈ allEdges geoms, e.verts.length = 2) :
    collect geoms = some (((allVerts geoms).map fun v => (v.gid, v)).foldl (fun s x => mapSet x.1 x.2 s) [],
      ((allEdges geoms).map fun e => (e.gid, e)).foldl (fun s x => mapSet x.1 x.2 s) []) := by
  have edges : ∀ (es : List (Edge K)) (s : List (ℤ × Vertex K) × List (ℤ × Edge K)), (∀ e ∈ es, e.verts.length = 2) →
      es.foldlM collectEdge s = some (((es.flatMap (·.verts)).map fun v => (v.gid, v)).foldl (fun s x => mapSet x.1 x.2 s) s.1,
        (es.map fun e => (e.gid, e)).foldl (fun s x => mapSet x.1 x.2 s) s.2) := by
    intro es
    induction es with
    | nil => intro s _; rfl
    | cons e es ih =>
      intro s h
      rw [List.foldlM_cons, collectEdge, if_pos (h e (by simp))]
      change es.foldlM collectEdge _ = _
      rw [ih _ (fun x hx => h x (by simp [hx]))]
      simp [List.foldl_append, List.foldl_map]
  unfold collect
  suffices H : ∀ (gs : List (Geom K)) (s : List (ℤ × Vertex K) × List (ℤ × Edge K)), (∀ e ∈ allEdges gs, e.verts.length = 2) →
      gs.foldlM (fun s g => g.edges.foldlM collectEdge s) s = some (((allVerts gs).map fun v => (v.gid, v)).foldl (fun s x => mapSet x.1 x.2 s) s.1,
        ((allEdges gs).map fun e => (e.gid, e)).foldl (fun s x => mapSet x.1 x.2 s) s.2) from H geoms ([], []) h2
  intro gs
  induction gs with
  | nil => intro s _; rfl
  | cons g gs ih =>
    intro s h
    rw [List.foldlM_cons, edges g.edges s (fun e he => h e (by simp [allEdges, he]))]
    change gs.foldlM (fun s g => g.edges.foldlM collectEdge s) _ = _
    rw [ih _ (fun e he => h e (by simp [allEdges] at he ⊢; exact Or.inr he))]
    simp [allVerts, allEdges, List.foldl_append]

theorem gidToVid_get (verts : List (ℤ × Vertex K)) (hs : Sorted verts) (i : ℕ) (v : ℤ × Vertex K) (hi : verts[i]? = some v) :
    mapGet (gidToVid verts) v.1 = some i := by
  have key : ∀ (l : List (ℤ × Vertex K)) (m : List (ℤ × ℕ)) (k : ℕ),
      (l.foldl (fun (s : List (ℤ × ℕ) × ℕ) v => (mapSet v.1 s.2 s.1, s.2 + 1)) (m, k)).1 =
        ((l.zipIdx k).map fun x => (x.1.1, x.2)).foldl (fun s x => mapSet x.1 x.2 s) m := by
    intro l
    induction l with
    | nil => intro m k; rfl
    | cons a l ih => intro m k; rw [List.foldl_cons, ih]; rfl
  unfold gidToVid
  rw [key]
  have hf : Functional ([] ++ (verts.zipIdx 0).map fun x => (x.1.1, x.2)) := by
    intro x hx y hy hxy
    simp only [List.nil_append, List.mem_map] at hx hy
    obtain ⟨⟨a, ka⟩, ha, rfl⟩ := hx
    obtain ⟨⟨b, kb⟩, hb, rfl⟩ := hy
    rw [List.mem_zipIdx_iff_getElem?] at ha hb
    simp only at hxy ha hb
    have hnd := hs.nodup
    have e1 : (verts.map Prod.fst)[ka]? = some a.1 := by rw [List.getElem?_map, ha]; rfl
    have e2 : (verts.map Prod.fst)[kb]? = some b.1 := by rw [List.getElem?_map, hb]; rfl
    have : ka = kb := by
      refine (List.nodup_iff_getElem?_ne_getElem?.1 hnd |> fun h => ?_)
      by_contra hne
      rcases Nat.lt_or_gt_of_ne hne with hlt | hlt
      · exact h ka kb hlt (List.getElem?_eq_some_iff.1 e2).1 (by rw [e1, e2, hxy])
      · exact h kb ka hlt (List.getElem?_eq_some_iff.1 e1).1 (by rw [e1, e2, hxy])
    simp only [hxy, this]
  obtain ⟨h1, h2⟩ := foldl_mapSet ((verts.zipIdx 0).map fun x => (x.1.1, x.2)) [] List.Pairwise.nil hf
  rw [mapGet_eq h1.nodup]
  rw [h2]
  right
  exact List.mem_map.2 ⟨(v, i), List.mem_zipIdx_iff_getElem?.2 hi, rfl⟩

theorem printedPoint_eq [Zero K] (v : Vertex K) : printedPoint v = position v := by
  unfold printedPoint position
  by_cases h1 : v.coordim = 1
  · simp [h1]
  · by_cases h2 : v.coordim = 2 <;> simp [h1, h2]

theorem mapM_some {α β : Type} (f : α → Option β) (g : α → β) (l : List α) (h : ∀ x ∈ l, f x = some (g x)) : l.mapM f = some (l.map g) := by
  induction l with
  | nil => rfl
  | cons a l ih =>
    rw [List.mapM_cons, h a (by simp), ih (fun x hx => h x (by simp [hx]))]
    rfl

variable [Zero K]

theorem addEdges_eq (vid : List (ℤ × ℕ)) (idx : Vertex K → ℕ) (es : List (Edge K)) (c : Cells K)
    (h2 : ∀ e ∈ es, e.verts.length = 2) (hv : ∀ e ∈ es, ∀ v ∈ e.verts, mapGet vid v.gid = some (idx v)) :
    es.foldlM (addEdge vid) c = some ⟨c.ints ++ (es.map (·.verts)).flatMap (fun vs => vs.length :: vs.map idx), c.types ++ List.replicate es.length 3,
      c.props ++ List.replicate es.length 0⟩ := by
  induction es generalizing c with
  | nil => simp
  | cons e es ih =>
    have h := h2 e (by simp)
    have hve := hv e (by simp)
    obtain ⟨gid, verts⟩ := e
    obtain ⟨v0, v1, rfl⟩ := List.length_eq_two.1 h
    have e0 := hve v0 (by simp)
    have e1 := hve v1 (by simp)
    rw [List.foldlM_cons]
    have : addEdge vid c ⟨gid, [v0, v1]⟩ = some ⟨c.ints ++ [2, idx v0, idx v1], c.types ++ [3], c.props ++ [0]⟩ := by
      simp [addEdge, e0, e1]
    rw [this]
    change es.foldlM (addEdge vid) _ = _
    rw [ih _ (fun x hx => h2 x (by simp [hx])) (fun x hx => hv x (by simp [hx]))]
    simp [List.replicate_succ]

theorem addGeoms_eq (w : Writer K) (vid : List (ℤ × ℕ)) (idx : Vertex K → ℕ) (gs : List (Geom K)) (c : Cells K)
    (hv : ∀ g ∈ gs, ∀ v ∈ g.verts, mapGet vid v.gid = some (idx v)) :
    gs.foldl (addGeom w vid) c = ⟨c.ints ++ ((gs.filter fun g => g.coordim = 2).map (·.verts)).flatMap (fun vs => vs.length :: vs.map idx),
      c.types ++ (gs.filter fun g => g.coordim = 2).map (fun g => shapeToVtk g.shape), c.props ++ gs.map w.getProperty⟩ := by
  induction gs generalizing c with
  | nil => simp
  | cons g gs ih =>
    rw [List.foldl_cons, ih _ (fun x hx => hv x (by simp [hx]))]
    have hm : g.verts.map (fun v => (mapGet vid v.gid).getD 0) = g.verts.map idx :=
      List.map_congr_left fun v hv' => by rw [hv g (by simp) v hv']; rfl
    by_cases hc : g.coordim = 2
    · simp [addGeom, hc, hm]
    · simp [addGeom, hc]

/-- The writer after a sequence of `push_back`. -/
def pushed (rank : ℤ) (l : List (Geom K × K)) : Writer K := l.foldl (fun w x => w.pushBack x.1 x.2) (Writer.new rank)

omit [Zero K] in
theorem pushed_geoms (rank : ℤ) (l : List (Geom K × K)) : (pushed rank l).geoms = l.map Prod.fst ∧ (pushed rank l).rank = rank := by
  unfold pushed
  suffices H : ∀ w : Writer K, (l.foldl (fun w x => w.pushBack x.1 x.2) w).geoms = w.geoms ++ l.map Prod.fst ∧
      (l.foldl (fun w x => w.pushBack x.1 x.2) w).rank = w.rank by simpa [Writer.new] using H (Writer.new rank)
  induction l with
  | nil => intro w; simp
  | cons x l ih =>
    intro w
    rw [List.foldl_cons]
    obtain ⟨h1, h2⟩ := ih (w.pushBack x.1 x.2)
    rw [h1, h2]
    simp [Writer.pushBack]

/-- **C88, the properties.** An object has the property that was given last for it. -/
theorem property_of_last_push (rank : ℤ) (l : List (Geom K × K)) (g : Geom K) :
    (pushed rank l).getProperty g = ((l.filter fun x => x.1.ptr = g.ptr).getLast?.map Prod.snd).getD 0 := by
  unfold pushed Writer.getProperty
  congr 1
  suffices H : ∀ w : Writer K, Sorted w.props → mapGet (l.foldl (fun w x => w.pushBack x.1 x.2) w).props g.ptr =
      (((l.filter fun x => x.1.ptr = g.ptr).getLast?.map Prod.snd).or (mapGet w.props g.ptr)) by
    rw [H (Writer.new rank) List.Pairwise.nil]
    simp [Writer.new, mapGet]
  induction l with
  | nil => intro w _; simp
  | cons x l ih =>
    intro w hw
    rw [List.foldl_cons, ih (w.pushBack x.1 x.2) (sorted_mapSet _ _ _ hw)]
    have hget : mapGet (w.pushBack x.1 x.2).props g.ptr = if x.1.ptr = g.ptr then some x.2 else mapGet w.props g.ptr := by
      have hs := sorted_mapSet x.1.ptr x.2 w.props hw
      change mapGet (mapSet x.1.ptr x.2 w.props) g.ptr = _
      apply Option.ext
      intro v
      rw [mapGet_eq hs.nodup, mem_mapSet _ _ _ hw]
      split_ifs with h
      · simp [h, eq_comm]
      · rw [mapGet_eq hw.nodup]
        simp [Ne.symm h]
    rw [hget]
    by_cases h : x.1.ptr = g.ptr
    · rw [if_pos h, List.filter_cons_of_pos (by simpa using h)]
      cases hl : (l.filter fun x => decide (x.1.ptr = g.ptr)) with
      | nil => simp
      | cons y ys =>
        rw [List.getLast?_cons_cons, List.getLast?_eq_some_getLast (l := y :: ys) (by simp)]
        rfl
    · rw [if_neg h, List.filter_cons_of_neg (by simpa using h)]

/-- **C88.** For all collections of a mesh that are two dimensional, or of which no object is: writing succeeds, and a reader finds first the edges, each once and in the order of their ids, with the positions
of their vertices and the property zero, and then, in two dimensions, the objects in the order in which they were added, with the positions of their vertices in order, their type
and their property; each cell has the rank. -/
theorem read_back_partial (w : Writer K) (hm : MeshLike w.geoms) (hd : (∀ g ∈ w.geoms, g.coordim = 2) ∨ (∀ g ∈ w.geoms, g.coordim ≠ 2)) :
    ∃ (f : File K) (es : List (Edge K)), w.write = some f ∧ IsEdgeList w.geoms es ∧
      readBack f = some (es.map (fun e => ⟨VTK_LINE, e.verts.map position, w.rank, 0⟩) ++
        (w.geoms.filter fun g => g.coordim = 2).map fun g => ⟨shapeToVtk g.shape, g.verts.map position, w.rank, w.getProperty g⟩) ∧
      f.points.length = ((allVerts w.geoms).map (·.gid)).dedup.length := by
  have hfv : Functional ([] ++ (allVerts w.geoms).map fun v => (v.gid, v)) := by
    intro x hx y hy hxy
    simp only [List.nil_append, List.mem_map] at hx hy
    obtain ⟨a, ha, rfl⟩ := hx
    obtain ⟨b, hb, rfl⟩ := hy
    rw [hm.vertex a ha b hb hxy]
  have hfe : Functional ([] ++ (allEdges w.geoms).map fun e => (e.gid, e)) := by
    intro x hx y hy hxy
    simp only [List.nil_append, List.mem_map] at hx hy
    obtain ⟨a, ha, rfl⟩ := hx
    obtain ⟨b, hb, rfl⟩ := hy
    rw [hm.edge a ha b hb hxy]
  obtain ⟨sv, mv⟩ := foldl_mapSet _ [] List.Pairwise.nil hfv
  obtain ⟨se, me⟩ := foldl_mapSet _ [] List.Pairwise.nil hfe
  have hcol := collect_eq w.geoms hm.two
  set V := ((allVerts w.geoms).map fun v => (v.gid, v)).foldl (fun s x => mapSet x.1 x.2 s) [] with hV
  set E := ((allEdges w.geoms).map fun e => (e.gid, e)).foldl (fun s x => mapSet x.1 x.2 s) [] with hE
  have memV : ∀ x, x ∈ V ↔ x.2 ∈ allVerts w.geoms ∧ x.1 = x.2.gid := by
    intro x
    rw [mv]
    obtain ⟨k, v⟩ := x
    simp only [List.not_mem_nil, false_or, List.mem_map, Prod.mk.injEq]
    constructor
    · rintro ⟨a, ha, rfl, rfl⟩; exact ⟨ha, rfl⟩
    · rintro ⟨h, h'⟩; exact ⟨v, h, h'.symm, rfl⟩
  have memE : ∀ x, x ∈ E ↔ x.2 ∈ allEdges w.geoms ∧ x.1 = x.2.gid := by
    intro x
    rw [me]
    obtain ⟨k, v⟩ := x
    simp only [List.not_mem_nil, false_or, List.mem_map, Prod.mk.injEq]
    constructor
    · rintro ⟨a, ha, rfl, rfl⟩; exact ⟨ha, rfl⟩
    · rintro ⟨h, h'⟩; exact ⟨v, h, h'.symm, rfl⟩
  -- indices
  let idx : Vertex K → ℕ := fun v => (mapGet (gidToVid V) v.gid).getD 0
  have hidx : ∀ v ∈ allVerts w.geoms, mapGet (gidToVid V) v.gid = some (idx v) ∧ V[idx v]? = some (v.gid, v) := by
    intro v hv
    have : (v.gid, v) ∈ V := (memV _).2 ⟨hv, rfl⟩
    obtain ⟨i, hi⟩ := List.mem_iff_getElem?.1 this
    have h := gidToVid_get V sv i _ hi
    have h' : mapGet (gidToVid V) v.gid = some i := h
    have e : idx v = i := by simp [idx, h']
    rw [e]
    exact ⟨h', hi⟩
  set es := E.map Prod.snd with hes
  have hedges : ∀ e, e ∈ es ↔ e ∈ allEdges w.geoms := by
    intro e
    simp only [hes, List.mem_map]
    constructor
    · rintro ⟨x, hx, rfl⟩; exact ((memE x).1 hx).1
    · intro h; exact ⟨(e.gid, e), (memE _).2 ⟨h, rfl⟩, rfl⟩
  have hsorted : es.Pairwise fun a b => a.gid < b.gid := by
    rw [hes, List.pairwise_map]
    refine se.imp_of_mem fun {a b} ha hb hab => ?_
    rw [← ((memE a).1 ha).2, ← ((memE b).1 hb).2]
    exact hab
  clear_value es
  have vertOfEdge : ∀ e ∈ es, ∀ v ∈ e.verts, v ∈ allVerts w.geoms := fun e he v hv =>
    List.mem_flatMap.2 ⟨e, (hedges e).1 he, hv⟩
  have vertOfGeom : ∀ g ∈ w.geoms, ∀ v ∈ g.verts, v ∈ allVerts w.geoms := by
    intro g hg v hv
    obtain ⟨e, he, hve⟩ := hm.verts g hg v hv
    exact List.mem_flatMap.2 ⟨e, List.mem_flatMap.2 ⟨g, hg, he⟩, hve⟩
  have hE1 := addEdges_eq (gidToVid V) idx es ⟨[], [], []⟩ (fun e he => hm.two e ((hedges e).1 he)) (fun e he v hv => (hidx v (vertOfEdge e he v hv)).1)
  have hG := addGeoms_eq w (gidToVid V) idx w.geoms
  set gs2 := w.geoms.filter fun g => g.coordim = 2 with hgs2
  have hgs2mem : ∀ g ∈ gs2, g ∈ w.geoms := fun g hg => (List.mem_filter.1 hg).1
  set cells : List (List (Vertex K)) := es.map (·.verts) ++ gs2.map (·.verts) with hcells
  have hvert : ∀ c ∈ cells, ∀ v ∈ c, v ∈ allVerts w.geoms := by
    intro c hc v hv
    rcases List.mem_append.1 hc with h | h
    · obtain ⟨e, he, rfl⟩ := List.mem_map.1 h; exact vertOfEdge e he v hv
    · obtain ⟨g, hg, rfl⟩ := List.mem_map.1 h; exact vertOfGeom g (hgs2mem g hg) v hv
  have hprops : (List.replicate es.length (0 : K) ++ w.geoms.map w.getProperty).take (es.length + gs2.length) =
      List.replicate es.length 0 ++ gs2.map w.getProperty := by
    rcases hd with h | h
    · have : gs2 = w.geoms := List.filter_eq_self.2 fun g hg => by simpa using h g hg
      rw [this, List.take_of_length_le (by simp)]
    · have : gs2 = [] := List.filter_eq_nil_iff.2 fun g hg => by simpa using h g hg
      rw [this]
      simp
  have hlen : gs2.length ≤ w.geoms.length := List.length_filter_le _ _
  refine ⟨⟨V.length, V.map fun v => printedPoint v.2, es.length + gs2.length, (cells.flatMap fun vs => vs.length :: vs.map idx).length,
      cells.flatMap fun vs => vs.length :: vs.map idx, es.length + gs2.length, List.replicate es.length 3 ++ gs2.map (fun g => shapeToVtk g.shape),
      es.length + gs2.length, List.replicate (es.length + gs2.length) w.rank, List.replicate es.length 0 ++ gs2.map w.getProperty⟩, es, ?_, ⟨hsorted, hedges⟩, ?_, ?_⟩
  · unfold Writer.write
    rw [hcol]
    simp only [Option.bind_some]
    rw [← hes, hE1]
    simp only [Option.bind_some]
    rw [hG _ (fun g hg v hv => (hidx v (vertOfGeom g hg v hv)).1)]
    simp only [List.nil_append, List.length_append, List.length_replicate, List.length_map]
    rw [if_pos (by omega), hprops]
    simp [hcells]
  · unfold readBack
    simp only
    rw [if_pos (by simp)]
    have hp : parseCells (es.length + gs2.length) (cells.flatMap fun vs => vs.length :: vs.map idx) = some (cells.map fun vs => vs.map idx) := by
      have := parse_flat (cells.map fun vs => vs.map idx)
      rw [List.length_map, List.flatMap_map] at this
      rw [show es.length + gs2.length = cells.length by simp [hcells]]
      simpa using this
    rw [hp, Option.bind_some, mapM_some _ (fun c => c.map fun i => ((V.map fun v => printedPoint v.2)[i]?).getD (0, 0, 0))]
    · simp only [Option.map_some, Option.some.injEq]
      have hpts : (cells.map fun vs => vs.map idx).map (fun c => c.map fun i => ((V.map fun v => printedPoint v.2)[i]?).getD (0, 0, 0)) =
          cells.map fun vs => vs.map position := by
        rw [List.map_map]
        refine List.map_congr_left fun c hc => ?_
        simp only [Function.comp, List.map_map]
        refine List.map_congr_left fun v hv => ?_
        simp only [Function.comp, List.getElem?_map]
        rw [(hidx v (hvert c hc v hv)).2]
        simp [printedPoint_eq]
      rw [hpts, hcells, List.map_append, List.map_map, List.map_map]
      have l1 : (List.replicate es.length 3).length = (es.map ((fun vs => vs.map position) ∘ fun x => x.verts)).length := by simp
      rw [List.zip_append (by simp)]
      rw [show List.replicate (es.length + gs2.length) w.rank = List.replicate es.length w.rank ++ List.replicate gs2.length w.rank by
        rw [List.replicate_add]]
      rw [List.zip_append (by simp), List.zip_append (by simp), List.map_append]
      congr 1
      · apply List.ext_getElem
        · simp
        · intro i h1 h2
          simp [VTK_LINE]
      · apply List.ext_getElem
        · simp
        · intro i h1 h2
          simp
    · intro c hc
      obtain ⟨vs, hvs, rfl⟩ := List.mem_map.1 hc
      refine mapM_some _ _ _ fun i hi => ?_
      obtain ⟨v, hv, rfl⟩ := List.mem_map.1 hi
      rw [List.getElem?_map, (hidx v (hvert vs hvs v hv)).2]
      rfl
  · simp only [List.length_map]
    have hperm : (V.map Prod.fst).Perm (((allVerts w.geoms).map (·.gid)).dedup) := by
      rw [List.perm_ext_iff_of_nodup sv.nodup (List.nodup_dedup _)]
      intro a
      rw [List.mem_dedup]
      simp only [List.mem_map]
      constructor
      · rintro ⟨x, hx, rfl⟩
        obtain ⟨h1, h2⟩ := (memV x).1 hx
        exact ⟨x.2, h1, h2.symm⟩
      · rintro ⟨v, hv, rfl⟩
        exact ⟨(v.gid, v), (memV _).2 ⟨hv, rfl⟩, rfl⟩
    simpa using hperm.length_eq


/-- **C88, the type of the cells.** In two dimensions the cells are triangles and quadrilaterals of VTK with as many points as the shape has. -/
theorem cell_types : shapeToVtk .triangle = VTK_TRIANGLE ∧ shapeToVtk .quadrilateral = VTK_QUAD ∧ shapeToVtk .segment = VTK_LINE := ⟨rfl, rfl, rfl⟩

/-- **C88, the type of the other shapes.** -/
theorem cell_types_3d : shapeToVtk .point = VTK_VERTEX ∧ shapeToVtk .tetrahedron = VTK_TETRA ∧ shapeToVtk .hexahedron = VTK_HEXAHEDRON ∧
    shapeToVtk .prism = VTK_WEDGE ∧ shapeToVtk .pyramid = VTK_PYRAMID := ⟨rfl, rfl, rfl, rfl, rfl⟩

/-- **C88, invalid edges.** If an edge does not have two vertices then nothing is written. -/
theorem edge_without_two (w : Writer K) (h : ∃ e ∈ allEdges w.geoms, e.verts.length ≠ 2) : w.write = none := by
  have key : ∀ (gs : List (Geom K)) (s : List (ℤ × Vertex K) × List (ℤ × Edge K)), (∃ e ∈ allEdges gs, e.verts.length ≠ 2) →
      gs.foldlM (fun s g => g.edges.foldlM collectEdge s) s = none := by
    have edges : ∀ (es : List (Edge K)) (s : List (ℤ × Vertex K) × List (ℤ × Edge K)), (∃ e ∈ es, e.verts.length ≠ 2) → es.foldlM collectEdge s = none := by
      intro es
      induction es with
      | nil => rintro s ⟨e, he, _⟩; simp at he
      | cons e es ih =>
        intro s h
        rw [List.foldlM_cons, collectEdge]
        split_ifs with h2
        · change es.foldlM collectEdge _ = none
          refine ih _ ?_
          obtain ⟨x, hx, hx'⟩ := h
          rcases List.mem_cons.1 hx with rfl | hx
          · exact absurd h2 hx'
          · exact ⟨x, hx, hx'⟩
        · rfl
    intro gs
    induction gs with
    | nil => rintro s ⟨e, he, _⟩; simp [allEdges] at he
    | cons g gs ih =>
      intro s h
      rw [List.foldlM_cons]
      cases hg : g.edges.foldlM collectEdge s with
      | none => rfl
      | some t =>
        refine ih t ?_
        obtain ⟨x, hx, hx'⟩ := h
        rw [allEdges, List.flatMap_cons, List.mem_append] at hx
        rcases hx with hx | hx
        · rw [edges g.edges s ⟨x, hx, hx'⟩] at hg
          cases hg
        · exact ⟨x, hx, hx'⟩
  unfold Writer.write collect
  rw [key w.geoms _ h]
  rfl

/-- **C88, the owned elements.** The file of the owned elements of a two dimensional mesh has the edges and the elements in order, all with the property zero. -/
theorem owned (rank : ℤ) (elements : List (Geom K)) (hm : MeshLike elements) (hd : ∀ g ∈ elements, g.coordim = 2) :
    ∃ (f : File K) (es : List (Edge K)), writeOwned rank elements = some f ∧ IsEdgeList elements es ∧
      readBack f = some (es.map (fun e => ⟨VTK_LINE, e.verts.map position, rank, 0⟩) ++
        elements.map fun g => ⟨shapeToVtk g.shape, g.verts.map position, rank, 0⟩) := by
  have hw : writeOwned rank elements = (pushed rank (elements.map fun g => (g, 0))).write := by
    unfold writeOwned pushed
    rw [List.foldl_map]
  obtain ⟨hg, hr⟩ := pushed_geoms rank (elements.map fun g => (g, (0 : K)))
  have hg' : (pushed rank (elements.map fun g => (g, (0 : K)))).geoms = elements := by rw [hg]; simp [Function.comp_def]
  obtain ⟨f, es, h1, h2, h3, -⟩ := read_back_partial (pushed rank (elements.map fun g => (g, (0 : K)))) (by rw [hg']; exact hm) (by rw [hg']; exact Or.inl hd)
  rw [hg'] at h2 h3
  refine ⟨f, es, hw.trans h1, h2, ?_⟩
  rw [h3, hr, List.filter_eq_self.2 (fun g hg => by simpa using hd g hg)]
  congr 2
  refine List.map_congr_left fun g _ => ?_
  rw [property_of_last_push]
  congr 1
  cases hl : ((elements.map fun g => (g, (0 : K))).filter fun x => decide (x.1.ptr = g.ptr)).getLast? with
  | none => rfl
  | some y =>
    have := List.mem_of_getLast? hl
    obtain ⟨a, _, rfl⟩ := List.mem_map.1 (List.mem_filter.1 this).1
    rfl

/-- **C88, three dimensions.** The file of the owned elements of a mesh in three dimensions consists of its edges. -/
theorem owned_three (rank : ℤ) (elements : List (Geom K)) (hm : MeshLike elements) (hd : ∀ g ∈ elements, g.coordim = 3) :
    ∃ (f : File K) (es : List (Edge K)), writeOwned rank elements = some f ∧ IsEdgeList elements es ∧
      readBack f = some (es.map fun e => ⟨VTK_LINE, e.verts.map position, rank, 0⟩) := by
  have hw : writeOwned rank elements = (pushed rank (elements.map fun g => (g, 0))).write := by
    unfold writeOwned pushed
    rw [List.foldl_map]
  obtain ⟨hg, hr⟩ := pushed_geoms rank (elements.map fun g => (g, (0 : K)))
  have hg' : (pushed rank (elements.map fun g => (g, (0 : K)))).geoms = elements := by rw [hg]; simp [Function.comp_def]
  obtain ⟨f, es, h1, h2, h3, -⟩ := read_back_partial (pushed rank (elements.map fun g => (g, (0 : K)))) (by rw [hg']; exact hm)
    (by rw [hg']; exact Or.inr fun g hg => by rw [hd g hg]; decide)
  rw [hg'] at h2 h3
  refine ⟨f, es, hw.trans h1, h2, ?_⟩
  rw [h3, hr, List.filter_eq_nil_iff.2 (fun g hg => by simp [hd g hg])]
  simp

/-- **C88, the halo.** The file of the halo of a two dimensional mesh has the edges and the remote elements in order, each one with its rank as property. -/
theorem halo {R : Type} [Ring R] (rank : ℤ) (remote : List (Geom R × ℤ)) (hm : MeshLike (remote.map Prod.fst)) (hd : ∀ g ∈ remote, g.1.coordim = 2)
    (hp : (remote.map fun g => g.1.ptr).Nodup) :
    ∃ (f : File R) (es : List (Edge R)), writeHalo rank remote = some f ∧ IsEdgeList (remote.map Prod.fst) es ∧
      readBack f = some (es.map (fun e => ⟨VTK_LINE, e.verts.map position, rank, 0⟩) ++
        remote.map fun g => ⟨shapeToVtk g.1.shape, g.1.verts.map position, rank, (g.2 : R)⟩) := by
  have hw : writeHalo rank remote = (pushed rank (remote.map fun g => (g.1, (g.2 : R)))).write := by
    unfold writeHalo pushed
    rw [List.foldl_map]
  obtain ⟨hg0, hr⟩ := pushed_geoms rank (remote.map fun g => (g.1, (g.2 : R)))
  have hg' : (pushed rank (remote.map fun g => (g.1, (g.2 : R)))).geoms = remote.map Prod.fst := by rw [hg0]; simp [Function.comp_def]
  have hd' : ∀ g ∈ remote.map Prod.fst, g.coordim = 2 := by
    intro g hg
    obtain ⟨x, hx, rfl⟩ := List.mem_map.1 hg
    exact hd x hx
  obtain ⟨f, es, h1, h2, h3, -⟩ := read_back_partial (pushed rank (remote.map fun g => (g.1, (g.2 : R)))) (by rw [hg']; exact hm) (by rw [hg']; exact Or.inl hd')
  rw [hg'] at h2 h3
  refine ⟨f, es, hw.trans h1, h2, ?_⟩
  rw [h3, hr, List.filter_eq_self.2 (fun g hg => by simpa using hd' g hg), List.map_map]
  congr 2
  refine List.map_congr_left fun g hg => ?_
  simp only [Function.comp]
  rw [property_of_last_push]
  congr 1
  have hfil : ((remote.map fun g => (g.1, (g.2 : R))).filter fun x => decide (x.1.ptr = g.1.ptr)) = [(g.1, (g.2 : R))] := by
    rw [List.filter_map]
    have : (remote.filter ((fun x : Geom R × R => decide (x.1.ptr = g.1.ptr)) ∘ fun g => (g.1, (g.2 : R)))) = [g] := by
      clear h1 h2 h3 hd' hg' hw hm hd f es hr hg0
      induction remote with
      | nil => simp at hg
      | cons a l ih =>
        rw [List.map_cons, List.nodup_cons] at hp
        rcases List.mem_cons.1 hg with rfl | hg
        · rw [List.filter_cons_of_pos (by simp), List.filter_eq_nil_iff.2]
          intro x hx hx'
          simp only [Function.comp, decide_eq_true_eq] at hx'
          exact hp.1 (List.mem_map.2 ⟨x, hx, hx'⟩)
        · rw [List.filter_cons_of_neg, ih hp.2 hg]
          simp only [Function.comp, decide_eq_true_eq]
          intro h
          exact hp.1 (List.mem_map.2 ⟨g, hg, h.symm⟩)
    rw [this]
    rfl
  rw [hfil]
  rfl

/-- Full statement for all collections of a mesh: the cell of each two dimensional object carries the property of that object. -/
def PropertiesOfObjects (K : Type) [Zero K] : Prop :=
  ∀ w : Writer K, MeshLike w.geoms → ∃ (f : File K) (es : List (Edge K)), w.write = some f ∧ IsEdgeList w.geoms es ∧
    readBack f = some (es.map (fun e => ⟨VTK_LINE, e.verts.map position, w.rank, 0⟩) ++
      (w.geoms.filter fun g => g.coordim = 2).map fun g => ⟨shapeToVtk g.shape, g.verts.map position, w.rank, w.getProperty g⟩)

section Example
def v0 : Vertex ℤ := ⟨10, 2, 0, 0, 77⟩
def v1 : Vertex ℤ := ⟨11, 2, 1, 0, 77⟩
def v2 : Vertex ℤ := ⟨3, 2, 0, 1, 77⟩
def v3 : Vertex ℤ := ⟨7, 2, 1, 1, 77⟩
def e01 : Edge ℤ := ⟨5, [v0, v1]⟩
def e12 : Edge ℤ := ⟨4, [v1, v2]⟩
def e20 : Edge ℤ := ⟨9, [v2, v0]⟩
def e13 : Edge ℤ := ⟨2, [v1, v3]⟩
def e32 : Edge ℤ := ⟨1, [v3, v2]⟩
/-- Two triangles that share an edge. -/
def t0 : Geom ℤ := ⟨100, .triangle, 2, [v0, v1, v2], [e01, e12, e20]⟩
def t1 : Geom ℤ := ⟨50, .triangle, 2, [v1, v3, v2], [e13, e32, e12]⟩

theorem example_meshLike : MeshLike [t0, t1] where
  two := by simp [allEdges, t0, t1, e01, e12, e20, e13, e32]
  verts := by simp [t0, t1, e01, e12, e20, e13, e32]
  vertex := by simp [allVerts, allEdges, t0, t1, e01, e12, e20, e13, e32, v0, v1, v2, v3]
  edge := by simp [allEdges, t0, t1, e01, e12, e20, e13, e32, v0, v1, v2, v3]

/-- The points are in the order of the ids, the edges too, then the triangles with their properties. -/
example : ((pushed 6 [(t0, 8), (t1, 9)]).write.map fun f => (f.points, f.cellInts, f.types, f.props)) =
    some ([(0, 1, 0), (1, 1, 0), (0, 0, 0), (1, 0, 0)], [2, 1, 0, 2, 3, 1, 2, 3, 0, 2, 2, 3, 2, 0, 2, 3, 2, 3, 0, 3, 3, 1, 0], [3, 3, 3, 3, 3, 5, 5], [0, 0, 0, 0, 0, 8, 9]) := by
  decide

/-- An object in another dimension. -/
def u3 : Geom ℤ := ⟨1, .tetrahedron, 3, [], []⟩

/-- **C88, finding.** A property is appended for each object, a cell only for two dimensional ones: after an object of another dimension the cells carry the properties of other objects. -/
theorem properties_of_objects_fails : ¬ PropertiesOfObjects ℤ := by
  intro h
  have hm : MeshLike (pushed 0 [(u3, 4), (t0, 8)]).geoms := by
    rw [(pushed_geoms 0 [(u3, (4 : ℤ)), (t0, 8)]).1]
    exact { two := by simp [allEdges, u3, t0, e01, e12, e20], verts := by simp [u3, t0, e01, e12, e20],
            vertex := by simp [allVerts, allEdges, u3, t0, e01, e12, e20, v0, v1, v2],
            edge := by simp [allEdges, u3, t0, e01, e12, e20, v0, v1, v2] }
  obtain ⟨f, es, h1, -, h3⟩ := h _ hm
  have hw : (pushed 0 [(u3, (4 : ℤ)), (t0, 8)]).write.map (fun f => ((readBack f).map fun l => l.map (·.prop)).getD []) = some [0, 0, 0, 4] := by decide
  rw [h1] at hw
  simp only [Option.map_some, h3, Option.getD_some, Option.some.injEq] at hw
  have hl := congrArg List.getLast? hw
  rw [List.map_append, (pushed_geoms 0 [(u3, (4 : ℤ)), (t0, 8)]).1] at hl
  simp [u3, t0] at hl
  rw [property_of_last_push] at hl
  simp at hl
end Example

end Verif.Props.C88
