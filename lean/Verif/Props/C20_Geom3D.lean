import Verif.Model.GeomTransport3D
import Mathlib.Data.List.Perm.Basic
import Mathlib.Data.List.Range
import Mathlib.Algebra.BigOperators.Group.List.Basic

/-! C20: 3D geometries sent as lists of face ids. -/

namespace Verif.Props.C20
open Verif.Model.Bytes Verif.Model.RemoteGeom Verif.Model.GeomTransport3D

variable {V : Type}

/-- A hexahedron has six quadrilaterals, a prism and a pyramid five faces, a tetrahedron four triangles. -/
def WellFormed (g : Geom3 V) : Prop :=
  match g.shape with
  | .hex => g.faces.length = 6 ∧ ∀ f ∈ g.faces, f.shape = .quad
  | .prism => g.faces.length = 5
  | .pyr => g.faces.length = 5
  | .tet => g.faces.length = 4 ∧ ∀ f ∈ g.faces, f.shape = .tri

/-- The message for a list of geometries. -/
def message (gs : List (Remote3 V)) : List ℤ := gs.flatMap fun g => deconstruct g.rank g.id g.geom

/-- What a receiver can rebuild: the geometry has the faces of its shape, and the receiver has its faces under the rank of the geometry. -/
def Rebuildable (elements : ElementMap V) (g : Remote3 V) : Prop :=
  g.geom.gid = g.id ∧ WellFormed g.geom ∧ ∀ f ∈ g.geom.faces, elements g.rank f.gid = some f

theorem wellFormed_iff (g : Geom3 V) : WellFormed g ↔ g.faces.length = g.shape.numFaces ∧ ∀ f ∈ g.faces, faceShapeOk g.shape f.shape = true := by
  obtain ⟨s, i, fs⟩ := g
  unfold WellFormed
  have key : ∀ f : Geom2 V, (faceShapeOk .hex f.shape = true ↔ f.shape = .quad) ∧ (faceShapeOk .tet f.shape = true ↔ f.shape = .tri) ∧
      faceShapeOk .pyr f.shape = true ∧ faceShapeOk .prism f.shape = true := by
    intro f; cases h : f.shape <;> simp [faceShapeOk]
  cases s <;> simp [PolyShape.numFaces, (key _).1, (key _).2.1, (key _).2.2.1, (key _).2.2.2]

theorem shapeOfInt_shapeInt (s : PolyShape) : shapeOfInt (shapeInt s) = some s := by cases s <;> rfl
theorem shapeOfInt_some {i : ℤ} {s : PolyShape} (h : shapeOfInt i = some s) : i = shapeInt s := by
  unfold shapeOfInt at h
  split_ifs at h <;> simp only [Option.some.injEq] at h <;> subst h <;> assumption

theorem readFaces_iff (shape : PolyShape) (el : ℤ → Option (Geom2 V)) (n : ℕ) (ptr rest : List ℤ) (fs : List (Geom2 V)) :
    readFaces shape el n ptr = .ok (fs, rest) ↔
      ptr = fs.map Geom2.gid ++ rest ∧ fs.length = n ∧ ∀ f ∈ fs, el f.gid = some f ∧ faceShapeOk shape f.shape = true := by
  induction n generalizing ptr fs with
  | zero =>
    simp only [readFaces, Res.ok.injEq, Prod.mk.injEq, List.length_eq_zero_iff]
    constructor
    · rintro ⟨rfl, rfl⟩; simp
    · rintro ⟨rfl, rfl, _⟩; simp
  | succ n ih =>
    cases ptr with
    | nil =>
      simp only [readFaces, next, Res.bind]
      constructor
      · intro h; cases h
      · rintro ⟨h, hl, _⟩
        cases fs with
        | nil => simp at hl
        | cons f fs => simp at h
    | cons i l =>
      simp only [readFaces, next, Res.bind]
      cases he : el i with
      | none =>
        simp only
        constructor
        · intro h; cases h
        · rintro ⟨h, hl, hf⟩
          cases fs with
          | nil => simp at hl
          | cons f fs =>
            simp only [List.map_cons, List.cons_append, List.cons.injEq] at h
            have := (hf f (by simp)).1
            rw [← h.1, he] at this; cases this
      | some face =>
        simp only
        by_cases hg : face.gid ≠ i
        · rw [if_pos hg]
          constructor
          · intro h; cases h
          · rintro ⟨h, hl, hf⟩
            cases fs with
            | nil => simp at hl
            | cons f fs =>
              simp only [List.map_cons, List.cons_append, List.cons.injEq] at h
              have := (hf f (by simp)).1
              rw [← h.1, he, Option.some.injEq] at this
              rw [this] at hg; exact absurd h.1.symm hg
        · rw [if_neg hg]
          push Not at hg
          by_cases hs : faceShapeOk shape face.shape = true
          · rw [if_neg (not_not.mpr hs)]
            cases hr : readFaces shape el n l with
            | ok a =>
              obtain ⟨fs', rest'⟩ := a
              simp only [Res.ok.injEq, Prod.mk.injEq]
              constructor
              · rintro ⟨rfl, rfl⟩
                obtain ⟨a, b, c⟩ := (ih l fs').mp hr
                refine ⟨by rw [a, List.map_cons, hg]; rfl, by simp [b], fun f hf => ?_⟩
                rcases List.mem_cons.mp hf with rfl | hf
                · rw [hg]; exact ⟨he, hs⟩
                · exact c f hf
              · rintro ⟨h, hl, hf⟩
                cases fs with
                | nil => simp at hl
                | cons f fs =>
                  simp only [List.map_cons, List.cons_append, List.cons.injEq] at h
                  have h1 := (hf f (by simp)).1
                  rw [← h.1, he, Option.some.injEq] at h1
                  have h2 := (ih l fs).mpr ⟨h.2, by simpa using hl, fun g hg => hf g (by simp [hg])⟩
                  rw [hr, Res.ok.injEq, Prod.mk.injEq] at h2
                  exact ⟨by rw [h1, h2.1], h2.2⟩
            | assertFail =>
              constructor
              · intro h; cases h
              · rintro ⟨h, hl, hf⟩
                cases fs with
                | nil => simp at hl
                | cons f fs =>
                  simp only [List.map_cons, List.cons_append, List.cons.injEq] at h
                  have h2 := (ih l fs).mpr ⟨h.2, by simpa using hl, fun g hg => hf g (by simp [hg])⟩
                  rw [hr] at h2; cases h2
            | outOfBounds =>
              constructor
              · intro h; cases h
              · rintro ⟨h, hl, hf⟩
                cases fs with
                | nil => simp at hl
                | cons f fs =>
                  simp only [List.map_cons, List.cons_append, List.cons.injEq] at h
                  have h2 := (ih l fs).mpr ⟨h.2, by simpa using hl, fun g hg => hf g (by simp [hg])⟩
                  rw [hr] at h2; cases h2
          · rw [if_pos hs]
            constructor
            · intro h; cases h
            · rintro ⟨h, hl, hf⟩
              cases fs with
              | nil => simp at hl
              | cons f fs =>
                simp only [List.map_cons, List.cons_append, List.cons.injEq] at h
                have h1 := hf f (by simp)
                rw [← h.1, he, Option.some.injEq] at h1
                rw [h1.1] at hs; exact absurd h1.2 hs

theorem reconstructGeom_iff (el : ElementMap V) (ptr rest : List ℤ) (g : Remote3 V) :
    reconstructGeom el ptr = .ok (g, rest) ↔ ptr = deconstruct g.rank g.id g.geom ++ rest ∧ Rebuildable el g := by
  unfold Rebuildable
  rw [wellFormed_iff]
  obtain ⟨rank, id, shape, gid, faces⟩ := g
  dsimp only
  constructor
  · intro h
    rcases ptr with _ | ⟨a, _ | ⟨b, _ | ⟨c, ptr⟩⟩⟩ <;> simp only [reconstructGeom, next, Res.bind] at h <;> try cases h
    cases hs : shapeOfInt c with
    | none => rw [hs] at h; cases h
    | some s =>
      rw [hs] at h
      simp only at h
      cases hr : readFaces s (el a) s.numFaces ptr with
      | ok x =>
        obtain ⟨fs, rest'⟩ := x
        rw [hr] at h
        simp only [Res.ok.injEq, Prod.mk.injEq, Remote3.mk.injEq, Geom3.mk.injEq] at h
        obtain ⟨⟨rfl, rfl, rfl, rfl, rfl⟩, rfl⟩ := h
        obtain ⟨e, l, f⟩ := (readFaces_iff _ _ _ _ _ _).mp hr
        refine ⟨?_, rfl, ⟨l, fun x hx => (f x hx).2⟩, fun x hx => (f x hx).1⟩
        rw [e, shapeOfInt_some hs]; simp [deconstruct]
      | assertFail => rw [hr] at h; cases h
      | outOfBounds => rw [hr] at h; cases h
  · rintro ⟨rfl, rfl, ⟨hl, hs⟩, hf⟩
    have hr := (readFaces_iff shape (el rank) shape.numFaces (faces.map Geom2.gid ++ rest) rest faces).mpr
      ⟨rfl, hl, fun x hx => ⟨hf x hx, hs x hx⟩⟩
    simp only [reconstructGeom, deconstruct, List.cons_append, next, Res.bind, shapeOfInt_shapeInt, hr]

theorem reconstructLoop_iff (el : ElementMap V) (n : ℕ) (ptr : List ℤ) (hn : ptr.length ≤ n) (out res : List (Remote3 V)) :
    reconstructLoop el n ptr out = .ok res ↔ ∃ gs, res = out ++ gs ∧ ptr = message gs ∧ ∀ g ∈ gs, Rebuildable el g := by
  induction n generalizing ptr out with
  | zero =>
    obtain rfl : ptr = [] := List.eq_nil_of_length_eq_zero (by omega)
    simp only [reconstructLoop, Res.ok.injEq]
    constructor
    · rintro rfl; exact ⟨[], by simp, rfl, by simp⟩
    · rintro ⟨gs, rfl, h, _⟩
      cases gs with
      | nil => simp
      | cons g gs => simp [message, deconstruct] at h
  | succ n ih =>
    cases ptr with
    | nil =>
      simp only [reconstructLoop, Res.ok.injEq]
      constructor
      · rintro rfl; exact ⟨[], by simp, rfl, by simp⟩
      · rintro ⟨gs, rfl, h, _⟩
        cases gs with
        | nil => simp
        | cons g gs => simp [message, deconstruct] at h
    | cons i l =>
      rw [reconstructLoop]
      constructor
      · intro h
        cases hr : reconstructGeom el (i :: l) with
        | ok a =>
          obtain ⟨g, rest⟩ := a
          rw [hr] at h
          simp only [Res.bind] at h
          obtain ⟨e, hg⟩ := (reconstructGeom_iff _ _ _ _).mp hr
          have hlen : rest.length ≤ n := by
            have := congrArg List.length e
            simp only [deconstruct, List.length_cons, List.length_append, List.length_map] at this hn
            omega
          obtain ⟨gs, h1, h2, h3⟩ := (ih rest hlen _).mp h
          refine ⟨g :: gs, by rw [h1]; simp, by rw [e, h2]; simp [message], fun x hx => ?_⟩
          rcases List.mem_cons.mp hx with rfl | hx
          · exact hg
          · exact h3 x hx
        | assertFail => rw [hr] at h; cases h
        | outOfBounds => rw [hr] at h; cases h
      · rintro ⟨gs, rfl, h, hall⟩
        cases gs with
        | nil => simp [message] at h
        | cons g gs =>
          have hr : reconstructGeom el (i :: l) = .ok (g, message gs) :=
            (reconstructGeom_iff _ _ _ _).mpr ⟨by rw [h]; simp [message], hall g (by simp)⟩
          rw [hr]
          simp only [Res.bind]
          have hlen : (message gs).length ≤ n := by
            have := congrArg List.length h
            simp only [message, List.flatMap_cons, deconstruct, List.length_cons, List.length_append, List.length_map] at this hn ⊢
            omega
          exact (ih _ hlen _).mpr ⟨gs, by simp, rfl, fun x hx => hall x (by simp [hx])⟩

/-- What `reconstruct_geoms_3d` accepts, for every message and every set of faces: the result is a list of geometries exactly if the message is
the one of these geometries and the receiver has all their faces. Everything else ends in an assertion or a read past the end. -/
theorem reconstruct_iff (el : ElementMap V) (packed : List ℤ) (out res : List (Remote3 V)) :
    reconstructGeoms el packed out = .ok res ↔ ∃ gs, res = out ++ gs ∧ packed = message gs ∧ ∀ g ∈ gs, Rebuildable el g :=
  reconstructLoop_iff el _ packed le_rfl out res

/-- The round trip: any number of geometries, with the faces at the receiver, arrive as they were sent and in order. -/
theorem round_trip (el : ElementMap V) (gs out : List (Remote3 V)) (h : ∀ g ∈ gs, Rebuildable el g) :
    reconstructGeoms el (message gs) out = .ok (out ++ gs) := (reconstruct_iff el _ out _).mpr ⟨gs, rfl, rfl, h⟩

/-- A geometry with a face the receiver does not have is not accepted. -/
theorem missing_face_refused (el : ElementMap V) (gs out : List (Remote3 V)) (g : Remote3 V) (hg : g ∈ gs) (hw : ∀ g ∈ gs, WellFormed g.geom)
    (f : Geom2 V) (hf : f ∈ g.geom.faces) (hel : el g.rank f.gid = none) (res : List (Remote3 V)) :
    reconstructGeoms el (message gs) out ≠ .ok res := by
  intro h
  obtain ⟨gs', rfl, he, hall⟩ := (reconstruct_iff el _ out _).mp h
  -- the two messages are equal, so their geometries have the same ranks and face ids
  have key : ∀ (as bs : List (Remote3 V)), (∀ g ∈ as, WellFormed g.geom) → (∀ g ∈ bs, WellFormed g.geom) → message as = message bs →
      ∀ a ∈ as, ∃ b ∈ bs, b.rank = a.rank ∧ b.geom.faces.map Geom2.gid = a.geom.faces.map Geom2.gid := by
    intro as
    induction as with
    | nil => intro bs _ _ _ a ha; simp at ha
    | cons a as ih =>
      intro bs ha hb hm x hx
      cases bs with
      | nil => simp [message, deconstruct] at hm
      | cons b bs =>
        have wa := (wellFormed_iff _).mp (ha a (by simp))
        have wb := (wellFormed_iff _).mp (hb b (by simp))
        simp only [message, List.flatMap_cons, deconstruct, List.cons_append, List.cons.injEq] at hm
        obtain ⟨h1, h2, h3, h4⟩ := hm
        have hsh : a.geom.shape = b.geom.shape := by
          have := congrArg shapeOfInt h3
          rwa [shapeOfInt_shapeInt, shapeOfInt_shapeInt, Option.some.injEq] at this
        have hlen : (a.geom.faces.map Geom2.gid).length = (b.geom.faces.map Geom2.gid).length := by
          rw [List.length_map, List.length_map, wa.1, wb.1, hsh]
        obtain ⟨h5, h6⟩ := List.append_inj h4 hlen
        rcases List.mem_cons.mp hx with rfl | hx
        · exact ⟨b, by simp, h1.symm, h5.symm⟩
        · obtain ⟨c, hc, e⟩ := ih bs (fun g hg => ha g (by simp [hg])) (fun g hg => hb g (by simp [hg])) h6 x hx
          exact ⟨c, by simp [hc], e⟩
  obtain ⟨b, hb, hr, hfs⟩ := key gs gs' hw (fun g hg => (hall g hg).2.1) he g hg
  have : f.gid ∈ b.geom.faces.map Geom2.gid := by rw [hfs]; exact List.mem_map_of_mem hf
  obtain ⟨f', hf', e⟩ := List.mem_map.mp this
  have := (hall b hb).2.2 f' hf'
  rw [hr, e, hel] at this
  cases this

/-! ### The faces to send -/

theorem mem_setInsert (l : List ℤ) (a x : ℤ) : x ∈ setInsert l a ↔ x ∈ l ∨ x = a := by
  unfold setInsert
  split_ifs with h
  · exact ⟨Or.inl, fun h' => h'.elim id fun e => e ▸ h⟩
  · simp

theorem nodup_setInsert {l : List ℤ} (h : l.Nodup) (a : ℤ) : (setInsert l a).Nodup := by
  unfold setInsert
  split_ifs with ha
  · exact h
  · rw [List.nodup_append]
    exact ⟨h, by simp, fun x hx y hy => by rw [List.mem_singleton] at hy; subst hy; rintro rfl; exact ha hx⟩

theorem insertFaces_spec (g : Geom3 V) (s : List ℤ) (hs : s.Nodup) :
    (insertFaces g s).Nodup ∧ ∀ i, i ∈ insertFaces g s ↔ i ∈ s ∨ ∃ f ∈ g.faces, f.gid = i := by
  unfold insertFaces
  generalize g.faces = fs
  induction fs generalizing s with
  | nil => simp [hs]
  | cons f fs ih =>
    obtain ⟨h1, h2⟩ := ih (setInsert s f.gid) (nodup_setInsert hs _)
    refine ⟨h1, fun i => ?_⟩
    rw [List.foldl_cons, h2, mem_setInsert]
    rw [eq_comm (a := i)]
    simp only [List.mem_cons, exists_eq_or_imp, or_assoc]

theorem deconstructRank_spec (r : ℤ) (gs : List (ℤ × Geom3 V)) :
    (deconstructRank r gs).1 = gs.flatMap (fun g => deconstruct r g.1 g.2) ∧ (deconstructRank r gs).2.Nodup ∧
      ∀ i, i ∈ (deconstructRank r gs).2 ↔ ∃ g ∈ gs, ∃ f ∈ g.2.faces, f.gid = i := by
  unfold deconstructRank
  have key : ∀ (gs : List (ℤ × Geom3 V)) (s : List ℤ × List ℤ), s.2.Nodup →
      (gs.foldl (fun s g => (s.1 ++ deconstruct r g.1 g.2, insertFaces g.2 s.2)) s).1 = s.1 ++ gs.flatMap (fun g => deconstruct r g.1 g.2) ∧
      (gs.foldl (fun s g => (s.1 ++ deconstruct r g.1 g.2, insertFaces g.2 s.2)) s).2.Nodup ∧
      ∀ i, i ∈ (gs.foldl (fun s g => (s.1 ++ deconstruct r g.1 g.2, insertFaces g.2 s.2)) s).2 ↔ i ∈ s.2 ∨ ∃ g ∈ gs, ∃ f ∈ g.2.faces, f.gid = i := by
    intro gs
    induction gs with
    | nil => intro s hs; simp [hs]
    | cons g gs ih =>
      intro s hs
      obtain ⟨i1, i2⟩ := insertFaces_spec g.2 s.2 hs
      obtain ⟨h1, h2, h3⟩ := ih (s.1 ++ deconstruct r g.1 g.2, insertFaces g.2 s.2) i1
      rw [List.foldl_cons]
      refine ⟨by rw [h1]; simp, h2, fun i => ?_⟩
      rw [h3, i2]
      simp only [List.mem_cons, exists_eq_or_imp, or_assoc]
  obtain ⟨h1, h2, h3⟩ := key gs ([], []) List.nodup_nil
  exact ⟨by simpa using h1, h2, fun i => by rw [h3]; simp⟩

theorem splitFaces_spec (g2 : ℤ → Option (Geom2 V)) (ids : List ℤ) (tris quads : List (ℤ × Geom2 V)) :
    ((∃ i ∈ ids, g2 i = none) → splitFaces g2 ids tris quads = none) ∧
    ((∀ i ∈ ids, g2 i ≠ none) → ∃ t q, splitFaces g2 ids tris quads = some (tris ++ t, quads ++ q) ∧
      (∀ x, x ∈ t ↔ x.1 ∈ ids ∧ g2 x.1 = some x.2 ∧ x.2.shape = .tri) ∧ (∀ x, x ∈ q ↔ x.1 ∈ ids ∧ g2 x.1 = some x.2 ∧ x.2.shape = .quad) ∧
      (t.map Prod.fst).Sublist ids ∧ (q.map Prod.fst).Sublist ids) := by
  induction ids generalizing tris quads with
  | nil => refine ⟨by simp, fun _ => ⟨[], [], by simp [splitFaces], by simp, by simp, by simp, by simp⟩⟩
  | cons i l ih =>
    constructor
    · rintro ⟨j, hj, he⟩
      rw [splitFaces]
      cases hi : g2 i with
      | none => rfl
      | some g =>
        have hj' : j ∈ l := by
          rcases List.mem_cons.mp hj with rfl | h
          · rw [hi] at he; cases he
          · exact h
        cases hs : g.shape with
        | quad => simp only [hs]; exact (ih _ _).1 ⟨j, hj', he⟩
        | tri => simp only [hs]; exact (ih _ _).1 ⟨j, hj', he⟩
    · intro hall
      rw [splitFaces]
      cases hi : g2 i with
      | none => exact absurd hi (hall i (by simp))
      | some g =>
        have hsub : ∀ {x : ℤ × Geom2 V} {sh}, (x = (i, g) ∨ x.1 ∈ l ∧ g2 x.1 = some x.2 ∧ x.2.shape = sh) → g.shape = sh →
            (x.1 ∈ i :: l ∧ g2 x.1 = some x.2 ∧ x.2.shape = sh) := by
          rintro x sh (rfl | ⟨a, b, c⟩) hs
          · exact ⟨by simp, hi, hs⟩
          · exact ⟨by simp [a], b, c⟩
        have hsup : ∀ {x : ℤ × Geom2 V} {sh}, (x.1 ∈ i :: l ∧ g2 x.1 = some x.2 ∧ x.2.shape = sh) →
            ((x = (i, g) ∧ g.shape = sh) ∨ x.1 ∈ l ∧ g2 x.1 = some x.2 ∧ x.2.shape = sh) := by
          rintro ⟨x1, x2⟩ sh ⟨a, b, c⟩
          rcases List.mem_cons.mp a with h | a
          · dsimp only at h b c; subst h
            rw [hi, Option.some.injEq] at b
            subst b; exact Or.inl ⟨rfl, c⟩
          · exact Or.inr ⟨a, b, c⟩
        cases hs : g.shape with
        | quad =>
          simp only [hs]
          obtain ⟨t, q, h1, h2, h3, h4, h5⟩ := (ih tris (quads ++ [(i, g)])).2 fun j hj => hall j (by simp [hj])
          refine ⟨t, (i, g) :: q, by rw [h1]; simp, fun x => ?_, fun x => ?_, h4.trans (List.sublist_cons_self _ _), by simpa using h5⟩
          · rw [h2]
            constructor
            · rintro ⟨a, b, c⟩; exact ⟨by simp [a], b, c⟩
            · intro h
              rcases hsup h with ⟨_, h⟩ | h
              · rw [hs] at h; cases h
              · exact h
          · rw [List.mem_cons, h3]
            exact ⟨fun h => hsub h hs, fun h => (hsup h).imp And.left id⟩
        | tri =>
          simp only [hs]
          obtain ⟨t, q, h1, h2, h3, h4, h5⟩ := (ih (tris ++ [(i, g)]) quads).2 fun j hj => hall j (by simp [hj])
          refine ⟨(i, g) :: t, q, by rw [h1]; simp, fun x => ?_, fun x => ?_, by simpa using h4, h5.trans (List.sublist_cons_self _ _)⟩
          · rw [List.mem_cons, h2]
            exact ⟨fun h => hsub h hs, fun h => (hsup h).imp And.left id⟩
          · rw [h3]
            constructor
            · rintro ⟨a, b, c⟩; exact ⟨by simp [a], b, c⟩
            · intro h
              rcases hsup h with ⟨_, h⟩ | h
              · rw [hs] at h; cases h
              · exact h

/-- `deconstuct_per_rank_geoms_3d`: the triangles and quads to send to a rank are the faces of the geometries to send, each once, and the message
lists the geometries in order. A missing face is refused. -/
theorem per_rank_faces (r : ℤ) (g2 : ℤ → Option (Geom2 V)) (gs : List (ℤ × Geom3 V)) :
    ((∃ g ∈ gs, ∃ f ∈ g.2.faces, g2 f.gid = none) → perRank r g2 gs = none) ∧
    ((∀ g ∈ gs, ∀ f ∈ g.2.faces, g2 f.gid = some f) → ∃ p, perRank r g2 gs = some p ∧
      p.ints = message (gs.map fun g => ⟨r, g.1, g.2⟩) ∧
      (∀ x, x ∈ p.tris ↔ x.2.shape = .tri ∧ x.1 = x.2.gid ∧ ∃ g ∈ gs, x.2 ∈ g.2.faces) ∧
      (∀ x, x ∈ p.quads ↔ x.2.shape = .quad ∧ x.1 = x.2.gid ∧ ∃ g ∈ gs, x.2 ∈ g.2.faces) ∧
      (p.tris.map Prod.fst).Nodup ∧ (p.quads.map Prod.fst).Nodup) := by
  obtain ⟨d1, d2, d3⟩ := deconstructRank_spec r gs
  unfold perRank
  dsimp only
  constructor
  · rintro ⟨g, hg, f, hf, h⟩
    rw [(splitFaces_spec g2 _ [] []).1 ⟨f.gid, (d3 _).mpr ⟨g, hg, f, hf, rfl⟩, h⟩]; rfl
  · intro hall
    have hids : ∀ i ∈ (deconstructRank r gs).2, ∃ g ∈ gs, ∃ f ∈ g.2.faces, f.gid = i ∧ g2 i = some f := by
      intro i hi
      obtain ⟨g, hg, f, hf, rfl⟩ := (d3 i).mp hi
      exact ⟨g, hg, f, hf, rfl, hall g hg f hf⟩
    obtain ⟨t, q, h1, h2, h3, h4, h5⟩ := (splitFaces_spec g2 (deconstructRank r gs).2 [] []).2 fun i hi => by
      obtain ⟨_, _, _, _, _, h⟩ := hids i hi; rw [h]; simp
    have key : ∀ (x : ℤ × Geom2 V) sh, (x.1 ∈ (deconstructRank r gs).2 ∧ g2 x.1 = some x.2 ∧ x.2.shape = sh) ↔
        x.2.shape = sh ∧ x.1 = x.2.gid ∧ ∃ g ∈ gs, x.2 ∈ g.2.faces := by
      intro x sh
      constructor
      · rintro ⟨a, b, c⟩
        obtain ⟨g, hg, f, hf, e, h⟩ := hids _ a
        rw [b, Option.some.injEq] at h
        rw [h] at c ⊢
        exact ⟨c, e.symm, g, hg, hf⟩
      · rintro ⟨a, b, g, hg, hf⟩
        exact ⟨(d3 _).mpr ⟨g, hg, x.2, hf, b.symm⟩, by rw [b]; exact hall g hg _ hf, a⟩
    rw [h1]
    refine ⟨_, rfl, ?_, fun x => ?_, fun x => ?_, ?_, ?_⟩
    · rw [d1]; unfold message; rw [List.flatMap_map]
    · simpa using (h2 x).trans (key x _)
    · simpa using (h3 x).trans (key x _)
    · simpa using d2.sublist h4
    · simpa using d2.sublist h5

/-! ### The exchange of the messages -/

theorem recvOffsets_spec (sizes : List ℕ) (t : ℕ) : (recvOffsets sizes t).2 = t + sizes.sum ∧
    ∀ i, i < sizes.length → (recvOffsets sizes t).1[i]? = some (t + (sizes.take i).sum) := by
  induction sizes generalizing t with
  | nil => simp [recvOffsets]
  | cons s l ih =>
    obtain ⟨h1, h2⟩ := ih (t + s)
    simp only [recvOffsets]
    refine ⟨by rw [h1]; simp [add_assoc], fun i hi => ?_⟩
    cases i with
    | zero => simp
    | succ i =>
      rw [List.getElem?_cons_succ, h2 i (by simpa using hi)]
      simp [add_assoc]

theorem deliver_get (buf msg : List ℤ) (o : ℕ) (h : o + msg.length ≤ buf.length) :
    ∃ b, deliver buf o msg = some b ∧ b.length = buf.length ∧
      ∀ p, b[p]? = if o ≤ p ∧ p < o + msg.length then msg[p - o]? else buf[p]? := by
  refine ⟨_, by unfold deliver; rw [if_pos h], by simp; omega, fun p => ?_⟩
  by_cases h1 : p < o
  · rw [if_neg (by omega), List.append_assoc, List.getElem?_append_left (by simp; omega), List.getElem?_take_of_lt h1]
  · by_cases h2 : p < o + msg.length
    · rw [if_pos ⟨by omega, h2⟩, List.append_assoc, List.getElem?_append_right (by simp; omega), List.getElem?_append_left (by simp; omega)]
      congr 1; simp; omega
    · rw [if_neg (by omega), List.getElem?_append_right (by simp; omega), List.getElem?_drop]
      congr 1; simp; omega

theorem take_sum_mono (l : List ℕ) {i j : ℕ} (h : i < j) (hj : j ≤ l.length) : (l.take i).sum + l[i]?.getD 0 ≤ (l.take j).sum := by
  induction l generalizing i j with
  | nil => simp at hj; omega
  | cons a l ih =>
    cases j with
    | zero => omega
    | succ j =>
      cases i with
      | zero => simp
      | succ i =>
        have := ih (i := i) (j := j) (by omega) (by simpa using hj)
        simp only [List.take_succ_cons, List.sum_cons, List.getElem?_cons_succ]
        omega

theorem flatten_get (msgs : List (List ℤ)) (i k : ℕ) (hi : i < msgs.length) (hk : k < (msgs[i]).length) :
    msgs.flatten[((msgs.map List.length).take i).sum + k]? = (msgs[i])[k]? := by
  induction msgs generalizing i with
  | nil => simp at hi
  | cons m l ih =>
    cases i with
    | zero =>
      simp only [List.map_cons, List.take_zero, List.sum_nil, List.flatten_cons, zero_add, List.getElem_cons_zero] at hk ⊢
      rw [List.getElem?_append_left hk]
    | succ i =>
      simp only [List.map_cons, List.take_succ_cons, List.sum_cons, List.flatten_cons, List.getElem_cons_succ] at hk ⊢
      rw [List.getElem?_append_right (by omega), ← ih i (by simpa using hi) hk]
      congr 1; omega

theorem cover (msgs : List (List ℤ)) (p : ℕ) (hp : p < (msgs.map List.length).sum) :
    ∃ i k, ∃ hi : i < msgs.length, k < (msgs[i]).length ∧ p = ((msgs.map List.length).take i).sum + k := by
  induction msgs generalizing p with
  | nil => simp at hp
  | cons m l ih =>
    by_cases h : p < m.length
    · exact ⟨0, p, by simp, h, by simp⟩
    · obtain ⟨i, k, hi, hk, e⟩ := ih (p - m.length) (by simp at hp; omega)
      refine ⟨i + 1, k, by simpa using hi, hk, ?_⟩
      simp only [List.map_cons, List.take_succ_cons, List.sum_cons]; omega

/-- `sendrecv_geoms_3d`: in whatever order the messages arrive, the receiver has them one after the other in the order of its list of ranks. -/
theorem messages_in_order (msgs : List (List ℤ)) (order : List ℕ) (h : order.Perm (List.range msgs.length)) :
    sendrecv (msgs.map List.length) msgs order = some msgs.flatten := by
  obtain ⟨ho2, ho1⟩ := recvOffsets_spec (msgs.map List.length) 0
  unfold sendrecv
  dsimp only
  rw [ho2, Nat.zero_add]
  set sizes := msgs.map List.length with hsz
  have hlen : sizes.length = msgs.length := by simp [hsz]
  have hsi : ∀ i (hi : i < msgs.length), sizes[i]? = some (msgs[i]).length := by intro i hi; simp [hsz, hi]
  have htot : ∀ i, ∀ hi : i < msgs.length, (sizes.take i).sum + (msgs[i]).length ≤ sizes.sum := by
    intro i hi
    have := take_sum_mono sizes (i := i) (j := sizes.length) (by omega) le_rfl
    rw [List.take_length, hsi i hi] at this; exact this
  have key : ∀ (order : List ℕ) (buf : List ℤ) (done : List ℕ), buf.length = sizes.sum → (∀ i ∈ order, i < msgs.length) →
      (∀ i ∈ done, ∀ hi : i < msgs.length, ∀ k, k < (msgs[i]).length → buf[(sizes.take i).sum + k]? = (msgs[i])[k]?) →
      ∃ b, order.foldlM (fun buf i =>
        match (recvOffsets sizes 0).1[i]?, sizes[i]?, msgs[i]? with
        | some o, some s, some m => if m.length ≤ s then deliver buf o m else none
        | _, _, _ => none) buf = some b ∧ b.length = sizes.sum ∧
        (∀ i ∈ done ++ order, ∀ hi : i < msgs.length, ∀ k, k < (msgs[i]).length → b[(sizes.take i).sum + k]? = (msgs[i])[k]?) := by
    intro order
    induction order with
    | nil => intro buf done hb _ hd; exact ⟨buf, rfl, hb, by simpa using hd⟩
    | cons i order ih =>
      intro buf done hb hlt hd
      have hi : i < msgs.length := hlt i (by simp)
      obtain ⟨b1, hb1, hl1, hg1⟩ := deliver_get buf (msgs[i]) (sizes.take i).sum (by rw [hb]; exact htot i hi)
      obtain ⟨b, hb2, hl2, hg2⟩ := ih b1 (done ++ [i]) (by rw [hl1, hb]) (fun j hj => hlt j (by simp [hj])) (by
        intro j hj hj' k hk
        rw [hg1]
        by_cases hji : j = i
        · subst hji
          rw [if_pos ⟨by omega, by omega⟩]; congr 1; omega
        · rw [if_neg]
          · rcases List.mem_append.mp hj with hj | hj
            · exact hd j hj hj' k hk
            · exact absurd (List.mem_singleton.mp hj) hji
          · rintro ⟨h1, h2⟩
            rcases Nat.lt_or_gt_of_ne hji with hlt' | hlt'
            · have := take_sum_mono sizes hlt' (by omega)
              rw [hsi j hj'] at this; simp only [Option.getD_some] at this; omega
            · have := take_sum_mono sizes hlt' (by omega)
              rw [hsi i hi] at this; simp only [Option.getD_some] at this; omega)
      refine ⟨b, ?_, hl2, by simpa using hg2⟩
      rw [List.foldlM_cons]
      have h3 := ho1 i (by omega)
      rw [Nat.zero_add] at h3
      simp only [h3, hsi i hi, List.getElem?_eq_getElem hi, le_refl, if_true, hb1]
      exact hb2
  obtain ⟨b, h1, h2, h3⟩ := key order (List.replicate sizes.sum 0) [] (by simp) (fun i hi => List.mem_range.mp (h.mem_iff.mp hi)) (by simp)
  refine h1.trans ?_
  congr 1
  have hfl : msgs.flatten.length = sizes.sum := by rw [List.length_flatten]
  refine List.ext_getElem? fun p => ?_
  by_cases hp : p < sizes.sum
  · obtain ⟨i, k, hi, hk, rfl⟩ := cover msgs p hp
    rw [flatten_get msgs i k hi hk]
    exact h3 i (by simpa using h.mem_iff.mpr (List.mem_range.mpr hi)) hi k hk
  · rw [List.getElem?_eq_none (by omega), List.getElem?_eq_none (by omega)]

/-- The whole exchange on the receiver: the geometries of all senders arrive, in the order of the list of ranks. -/
theorem exchange_round_trip (el : ElementMap V) (sent : List (List (Remote3 V))) (hr : ∀ gs ∈ sent, ∀ g ∈ gs, Rebuildable el g)
    (order : List ℕ) (h : order.Perm (List.range sent.length)) :
    ∃ packed, sendrecv ((sent.map message).map List.length) (sent.map message) order = some packed ∧
      reconstructGeoms el packed [] = .ok sent.flatten := by
  refine ⟨_, messages_in_order _ _ (by simpa using h), ?_⟩
  have : (sent.map message).flatten = message sent.flatten := by
    clear hr h
    unfold message
    induction sent with
    | nil => rfl
    | cons a l ih => simp [ih]
  rw [this]
  exact round_trip el _ [] fun g hg => by
    obtain ⟨gs, h1, h2⟩ := List.mem_flatten.mp hg
    exact hr gs h1 g h2

def exFaces : ElementMap Unit := fun r i =>
  if r = 3 ∧ 1 ≤ i ∧ i ≤ 4 then some ⟨.tri, i, ()⟩ else if r = 3 ∧ i = 5 then some ⟨.quad, 5, ()⟩ else none
def exTet : Remote3 Unit := ⟨3, 11, .tet, 11, [⟨.tri, 1, ()⟩, ⟨.tri, 2, ()⟩, ⟨.tri, 3, ()⟩, ⟨.tri, 4, ()⟩]⟩
def exPyr : Remote3 Unit := ⟨3, 12, .pyr, 12, [⟨.quad, 5, ()⟩, ⟨.tri, 4, ()⟩, ⟨.tri, 1, ()⟩, ⟨.tri, 2, ()⟩, ⟨.tri, 3, ()⟩]⟩
example : message [exTet, exPyr] = [3, 11, 5, 1, 2, 3, 4, 3, 12, 6, 5, 4, 1, 2, 3] := by decide
example : ∀ g ∈ [exTet, exPyr], Rebuildable exFaces g := by
  intro g hg
  simp only [List.mem_cons, List.not_mem_nil, or_false] at hg
  rcases hg with rfl | rfl <;> refine ⟨rfl, ?_, ?_⟩ <;> simp [WellFormed, exTet, exPyr, exFaces]
example : reconstructGeoms exFaces [3, 11, 5, 1, 2, 3, 4, 3, 12, 6, 5, 4, 1, 2, 3] [] = .ok [exTet, exPyr] := by decide
/-- A message cut short is read past its end. -/
example : reconstructGeoms exFaces [3, 11, 5, 1, 2, 3] [] = .outOfBounds := by decide
example : sendrecv [2, 3] [[1, 2], [3, 4, 5]] [1, 0] = some [1, 2, 3, 4, 5] := by decide

end Verif.Props.C20
