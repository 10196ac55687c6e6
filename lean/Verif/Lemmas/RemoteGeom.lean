import Verif.Lemmas.PackedGeom2D
import Verif.Spec.GeometryAny

namespace Verif.Lemmas
open Verif.Model.Bytes Verif.Model.PackedGeom2D Verif.Model.RemoteGeom Verif.Spec

/-! The bytes of a geometry -/
def encE (e : Seg) : List Byte :=
  enc32 e.id ++ (enc32 e.coordim ++ (enc32 (BitVec.ofNat 32 e.verts.length) ++ (e.verts.flatMap encPoint ++ encSpec ⟨0, 0, -1⟩)))
def encF (f : Face) : List Byte :=
  enc32 f.id ++ (enc32 (BitVec.ofNat 32 f.edges.length) ++ (f.edges.flatMap encE ++ encSpec ⟨0, 0, -1⟩))
def encSF (f : Face) : List Byte := enc32 f.shape.toI32 ++ encF f
def encP (p : Poly) : List Byte :=
  enc32 p.id ++ (enc32 (BitVec.ofNat 32 p.faces.length) ++ p.faces.flatMap encSF)
def encG : Geo → List Byte
  | .seg e => encE e
  | .face f => encF f
  | .poly p => encP p
def encR (g : RGeom) : List Byte := enc32 g.rank ++ (enc32 g.id ++ (enc32 g.geom.shapeI32 ++ encG g.geom))

/-! Writers -/

/-- Appends `bs` if it fits, and otherwise writes outside of the buffer. -/
def Puts (cap : ℕ) (wr : List Byte → Res (List Byte)) (bs : List Byte) : Prop :=
  ∀ w, w.length ≤ cap → wr w = if w.length + bs.length ≤ cap then .ok (w ++ bs) else .outOfBounds

theorem puts_push (cap : ℕ) (bs : List Byte) : Puts cap (push cap bs) bs := fun _ _ => rfl

theorem Puts.bind {cap : ℕ} {w1 w2 : List Byte → Res (List Byte)} {b1 b2 : List Byte} (h1 : Puts cap w1 b1) (h2 : Puts cap w2 b2) :
    Puts cap (fun w => Res.bind (w1 w) w2) (b1 ++ b2) := by
  intro w hw
  simp only
  rw [h1 w hw]
  simp only [List.length_append]
  by_cases hf : w.length + b1.length ≤ cap
  · rw [if_pos hf]
    simp only [Res.bind]
    rw [h2 _ (by simpa using hf)]
    simp only [List.length_append, List.append_assoc, Nat.add_assoc]
  · rw [if_neg hf, if_neg (by omega)]; rfl

theorem Puts.nil (cap : ℕ) : Puts cap (fun w => Res.ok w) [] := by
  intro w hw
  rw [if_pos (by simpa using hw), List.append_nil]

theorem Puts.noCurve (cap : ℕ) {c : Option Curve} (h : c = none) : Puts cap (fun w => assertNoCurve c w) [] := by
  subst h; exact Puts.nil cap

theorem Puts.forEach {α : Type} {cap : ℕ} {body : α → List Byte → Res (List Byte)} {enc : α → List Byte} (l : List α)
    (h : ∀ a ∈ l, Puts cap (body a) (enc a)) : Puts cap (forEach l body) (l.flatMap enc) := by
  induction l with
  | nil => exact Puts.nil cap
  | cons a l ih =>
    rw [List.flatMap_cons]
    exact Puts.bind (h a (by simp)) (ih fun b hb => h b (by simp [hb]))

theorem puts_pushEdge (cap : ℕ) {e : Seg} (h : StraightSeg e) : Puts cap (pushEdge cap e) (encE e) := by
  refine Puts.bind (puts_push _ _) (Puts.bind (puts_push _ _) (Puts.bind (puts_push _ _)
    (Puts.bind (Puts.forEach _ fun a _ => puts_push _ _) ?_)))
  exact Puts.bind (b1 := []) (Puts.noCurve cap h.2) (puts_push _ _)

theorem puts_pushFace (cap : ℕ) {f : Face} (h : StraightFace f) : Puts cap (pushFace cap f) (encF f) := by
  refine Puts.bind (puts_push _ _) (Puts.bind (puts_push _ _)
    (Puts.bind (Puts.forEach _ fun a ha => puts_pushEdge _ (h.2.1 a ha)) ?_))
  exact Puts.bind (b1 := []) (Puts.noCurve cap h.2.2) (puts_push _ _)

theorem puts_pushPoly (cap : ℕ) {p : Poly} (h : StraightPoly p) : Puts cap (pushPoly cap p) (encP p) :=
  Puts.bind (puts_push _ _) (Puts.bind (puts_push _ _)
    (Puts.forEach _ fun a ha => Puts.bind (puts_push _ _) (puts_pushFace _ (h.2.1 a ha))))

theorem serialise_eq (g : RGeom) (h : StraightGeo g.geom) (n : ℕ) :
    serialise g n = if n < (encR g).length then .outOfBounds else if (encR g).length = n then .ok (encR g) else .assertFail := by
  have hp : Puts n (fun w => Res.bind (push n (enc32 g.rank) w) fun w =>
      Res.bind (push n (enc32 g.id) w) fun w =>
      Res.bind (push n (enc32 g.geom.shapeI32) w) fun w =>
      (match g.geom with
        | .seg e => pushEdge n e w
        | .face f => pushFace n f w
        | .poly p => pushPoly n p w)) (encR g) := by
    refine Puts.bind (puts_push _ _) (Puts.bind (puts_push _ _) (Puts.bind (puts_push _ _) ?_))
    obtain ⟨rk, id, geom⟩ := g
    cases geom with
    | seg e => exact puts_pushEdge _ h
    | face f => exact puts_pushFace _ h
    | poly p => exact puts_pushPoly _ h
  have assoc : ∀ {α β γ : Type} (x : Res α) (f : α → Res β) (k : β → Res γ),
      Res.bind (Res.bind x f) k = Res.bind x fun a => Res.bind (f a) k := by
    intro α β γ x f k; cases x <;> rfl
  have e : serialise g n = Res.bind ((fun w => Res.bind (push n (enc32 g.rank) w) fun w =>
      Res.bind (push n (enc32 g.id) w) fun w =>
      Res.bind (push n (enc32 g.geom.shapeI32) w) fun w =>
      (match g.geom with
        | .seg e => pushEdge n e w
        | .face f => pushFace n f w
        | .poly p => pushPoly n p w)) []) fun w => if w.length = n then .ok w else .assertFail := by
    unfold serialise
    simp only [assoc]
    obtain ⟨rk, id, geom⟩ := g
    cases geom <;> rfl
  rw [e, hp [] (by simp)]
  simp only [List.length_nil, Nat.zero_add, List.nil_append]
  by_cases hn : n < (encR g).length
  · rw [if_neg (by omega), if_pos hn]; rfl
  · rw [if_pos (by omega), if_neg hn]; rfl

/-! Sizes -/

def Adds (f : ℕ → Res ℕ) (n : ℕ) : Prop := ∀ off, f off = .ok (off + n)

theorem Adds.forEach {α : Type} {body : α → ℕ → Res ℕ} {enc : α → List Byte} (l : List α) (h : ∀ a ∈ l, Adds (body a) (enc a).length) :
    Adds (forEach l body) (l.flatMap enc).length := by
  induction l with
  | nil => intro off; simp [Verif.Model.RemoteGeom.forEach]
  | cons a l ih =>
    intro off
    unfold Verif.Model.RemoteGeom.forEach
    rw [h a (by simp) off]
    simp only [Res.bind]
    rw [ih (fun b hb => h b (by simp [hb])) _]
    simp only [List.flatMap_cons, List.length_append, Nat.add_assoc]

theorem length_encPoint (p : Point) : (encPoint p).length = 32 := by simp [encPoint]
theorem length_encSpec (g : GeomPackSpec) : (encSpec g).length = 12 := by simp [encSpec]

theorem sizeEdge_eq {e : Seg} (h : StraightSeg e) : Adds (sizeEdge e) (encE e).length := by
  intro off
  unfold sizeEdge
  simp only
  rw [Adds.forEach (enc := encPoint) e.verts (fun a _ o => by simp [length_encPoint]) _]
  simp only [Res.bind, assertNoCurve, h.2, Option.isNone_none, if_true, encE, List.length_append, length_enc32, length_encSpec]
  congr 1; omega

theorem sizeFace_eq {f : Face} (h : StraightFace f) : Adds (sizeFace f) (encF f).length := by
  intro off
  unfold sizeFace
  simp only
  rw [Adds.forEach (enc := encE) f.edges (fun a ha => sizeEdge_eq (h.2.1 a ha)) _]
  simp only [Res.bind, assertNoCurve, h.2.2, Option.isNone_none, if_true, encF, List.length_append, length_enc32, length_encSpec]
  congr 1; omega

theorem sizePoly_eq {p : Poly} (h : StraightPoly p) : Adds (sizePoly p) (encP p).length := by
  intro off
  unfold sizePoly
  simp only
  rw [Adds.forEach (enc := encSF) p.faces (fun a ha => ?_) _]
  · simp only [encP, List.length_append, length_enc32]
    congr 1; omega
  · intro o
    dsimp only
    rw [sizeFace_eq (h.2.1 a ha)]
    simp only [encSF, List.length_append, length_enc32]
    congr 1; omega

theorem getNumBytes_eq (g : RGeom) (h : StraightGeo g.geom) : getNumBytes g = .ok (encR g).length := by
  obtain ⟨rk, id, geom⟩ := g
  unfold getNumBytes encR
  simp only [List.length_append, length_enc32]
  cases geom with
  | seg e => simp only [sizeEdge_eq h _, encG]; congr 1; omega
  | face f => simp only [sizeFace_eq h _, encG]; congr 1; omega
  | poly p => simp only [sizePoly_eq h _, encG]; congr 1; omega

/-! Readers -/

theorem reads_popEdge {e : Seg} (h : StraightSeg e) : Reads popEdge (encE e) e := by
  obtain ⟨h2, hc⟩ := h
  have hi := toInt_ofNat32 e.verts.length (by omega)
  refine Reads.bind (reads_popI32 _) (Reads.bind (reads_popI32 _) (Reads.bind (reads_popI32 _) ?_))
  rw [hi, Int.toNat_natCast]
  refine Reads.bind (Reads.repeat e.verts fun p _ => reads_popPoint p) ?_
  have hb : Reads (Reader.bind popSpec fun gs => (Reader.check (decide (gs.nPoints.toInt = -1))).bind fun _ =>
      if e.verts.length < 2 then Reader.fault else Reader.pure (⟨e.id, e.coordim, e.verts.take 2, none⟩ : Seg))
      (encSpec ⟨0, 0, -1⟩ ++ []) e := by
    refine Reads.bind (reads_popSpec _) (Reads.check_bind (by decide) ?_)
    rw [if_neg (by omega), List.take_of_length_le (by omega), ← hc]
    exact Reads.pure _
  rwa [List.append_nil] at hb

theorem reads_popFace {f : Face} (h : StraightFace f) : Reads (popFace f.shape.toI32) (encF f) f := by
  obtain ⟨h2, he, hc⟩ := h
  have hlen : f.edges.length = f.shape.numEdges := by rw [h2]; cases f.shape <;> rfl
  have hi := toInt_ofNat32 f.edges.length (by rw [hlen]; cases f.shape <;> simp [FaceShape.numEdges])
  have hsh : (if f.shape.toI32 = 3 then FaceShape.tri else FaceShape.quad) = f.shape := by cases f.shape <;> rfl
  refine Reads.bind (reads_popI32 _) (Reads.bind (reads_popI32 _) (Reads.check_bind (by simp [hi]) ?_))
  rw [hi, Int.toNat_natCast]
  refine Reads.bind (Reads.repeat f.edges fun e hm => reads_popEdge (he e hm)) ?_
  have hb : Reads (Reader.bind popSpec fun gs => (Reader.check (decide (gs.nPoints.toInt = -1))).bind fun _ =>
      if f.edges.length < f.shape.numEdges then Reader.fault else
        Reader.pure (⟨f.shape, f.id, f.edges.take f.shape.numEdges, none⟩ : Face)) (encSpec ⟨0, 0, -1⟩ ++ []) f := by
    refine Reads.bind (reads_popSpec _) (Reads.check_bind (by decide) ?_)
    rw [if_neg (by omega), List.take_of_length_le (by omega), ← hc]
    exact Reads.pure _
  rw [List.append_nil] at hb
  simp only [hsh]
  exact hb

theorem reads_popPoly {p : Poly} (h : StraightPoly p) : Reads (popPoly p.shape.toI32) (encP p) p := by
  obtain ⟨h2, hf, ht, hh⟩ := h
  have hlen : p.faces.length = p.shape.numFaces := by rw [h2]; cases p.shape <;> rfl
  have hi := toInt_ofNat32 p.faces.length (by rw [hlen]; cases p.shape <;> simp [PolyShape.numFaces])
  have hsh : (if p.shape.toI32 = 5 then PolyShape.tet else if p.shape.toI32 = 6 then PolyShape.pyr else
    if p.shape.toI32 = 7 then PolyShape.prism else PolyShape.hex) = p.shape := by cases p.shape <;> rfl
  refine Reads.bind (reads_popI32 _) (Reads.bind (reads_popI32 _) (Reads.check_bind (by simp [hi]) ?_))
  rw [hi, Int.toNat_natCast]
  have hr : Reads (Reader.repeat (popI32.bind popFace) p.faces.length) (p.faces.flatMap encSF) p.faces :=
    Reads.repeat p.faces fun f hm => Reads.bind (reads_popI32 _) (reads_popFace (hf f hm))
  have hm : Reads (makePoly p.shape p.id p.faces) [] p := by
    unfold makePoly
    rw [if_neg (by omega), List.take_of_length_le (by omega)]
    obtain ⟨s, i, fs⟩ := p
    cases s with
    | tet => simp only; rw [if_pos (by simpa using ht rfl)]; exact Reads.pure _
    | pyr => exact Reads.pure _
    | prism => exact Reads.pure _
    | hex => simp only; rw [if_pos (by simpa using hh rfl)]; exact Reads.pure _
  simp only [hsh]
  have := Reads.bind hr (q := fun faces => makePoly p.shape p.id faces) hm
  rwa [List.append_nil] at this

theorem reads_popGeom {g : RGeom} (h : StraightGeo g.geom) : Reads popGeom (encR g) g := by
  obtain ⟨rk, id, geom⟩ := g
  refine Reads.bind (reads_popI32 _) (Reads.bind (reads_popI32 _) (Reads.bind (reads_popI32 _) ?_))
  cases geom with
  | seg e =>
    refine Reads.map (f := fun geom => (⟨rk, id, geom⟩ : RGeom)) ?_
    simp only [Geo.shapeI32, if_pos, encG]
    exact Reads.map (reads_popEdge h)
  | face f =>
    refine Reads.map (f := fun geom => (⟨rk, id, geom⟩ : RGeom)) ?_
    rw [if_neg (by simp only [Geo.shapeI32]; cases f.shape <;> decide), if_pos (by simp only [Geo.shapeI32]; cases f.shape <;> decide)]
    exact Reads.map (reads_popFace h)
  | poly p =>
    refine Reads.map (f := fun geom => (⟨rk, id, geom⟩ : RGeom)) ?_
    rw [if_neg (by simp only [Geo.shapeI32]; cases p.shape <;> decide), if_neg (by simp only [Geo.shapeI32]; cases p.shape <;> decide)]
    exact Reads.map (reads_popPoly h)

/-! Curves -/

theorem forEach_assert {α σ : Type} {l : List α} {body : α → σ → Res σ} (hb : ∀ a ∈ l, ∀ s, body a s ≠ .outOfBounds)
    (h : ∃ a ∈ l, ∀ s, body a s = .assertFail) (s : σ) : forEach l body s = .assertFail := by
  induction l generalizing s with
  | nil => obtain ⟨a, ha, _⟩ := h; simp at ha
  | cons b l ih =>
    obtain ⟨a, ha, hf⟩ := h
    unfold forEach
    rcases List.mem_cons.mp ha with rfl | ha
    · rw [hf s]; rfl
    · cases hbs : body b s with
      | ok t => exact ih (fun c hc => hb c (by simp [hc])) ⟨a, ha, hf⟩ t
      | assertFail => rfl
      | outOfBounds => exact absurd hbs (hb b (by simp) s)

theorem forEach_no_oob {α σ : Type} {l : List α} {body : α → σ → Res σ} (hb : ∀ a ∈ l, ∀ s, body a s ≠ .outOfBounds) (s : σ) :
    forEach l body s ≠ .outOfBounds := by
  induction l generalizing s with
  | nil => simp [forEach]
  | cons b l ih =>
    unfold forEach
    cases hbs : body b s with
    | ok t => exact ih (fun c hc => hb c (by simp [hc])) t
    | assertFail => simp [Res.bind]
    | outOfBounds => exact absurd hbs (hb b (by simp) s)

theorem noCurve_ne {c : Option Curve} (off : ℕ) : assertNoCurve c off ≠ .outOfBounds := by
  unfold assertNoCurve; split_ifs <;> simp

theorem sizeEdge_ne (e : Seg) (off : ℕ) : sizeEdge e off ≠ .outOfBounds := by
  unfold sizeEdge
  simp only
  have h1 := forEach_no_oob (l := e.verts) (body := fun _ (off : ℕ) => Res.ok (off + 32)) (by simp) (off + 4 + 4 + 4)
  cases hf : forEach e.verts (fun _ (off : ℕ) => Res.ok (off + 32)) (off + 4 + 4 + 4) with
  | ok t => simp only [Res.bind]; cases hc : assertNoCurve e.curve t <;> simp; exact noCurve_ne t hc
  | assertFail => simp [Res.bind]
  | outOfBounds => exact absurd hf h1

theorem sizeFace_ne (f : Face) (off : ℕ) : sizeFace f off ≠ .outOfBounds := by
  unfold sizeFace
  simp only
  have h1 := forEach_no_oob (l := f.edges) (body := sizeEdge) (fun e _ s => sizeEdge_ne e s) (off + 4 + 4)
  cases hf : forEach f.edges sizeEdge (off + 4 + 4) with
  | ok t => simp only [Res.bind]; cases hc : assertNoCurve f.curve t <;> simp; exact noCurve_ne t hc
  | assertFail => simp [Res.bind]
  | outOfBounds => exact absurd hf h1

theorem assertNoCurve_some {σ : Type} {c : Option Curve} (h : c ≠ none) (s : σ) : assertNoCurve c s = .assertFail := by
  cases c with
  | none => exact absurd rfl h
  | some c => rfl

theorem sizeEdge_curved {e : Seg} (h : CurvedSeg e) (off : ℕ) : sizeEdge e off = .assertFail := by
  unfold sizeEdge
  simp only
  cases hf : forEach e.verts (fun _ (off : ℕ) => Res.ok (off + 32)) (off + 4 + 4 + 4) with
  | ok t => simp only [Res.bind, assertNoCurve_some h]
  | assertFail => simp [Res.bind]
  | outOfBounds => exact absurd hf (forEach_no_oob (by simp) _)

theorem sizeFace_curved {f : Face} (h : CurvedFace f) (off : ℕ) : sizeFace f off = .assertFail := by
  unfold sizeFace
  simp only
  rcases h with h | h
  · cases hf : forEach f.edges sizeEdge (off + 4 + 4) with
    | ok t => simp only [Res.bind, assertNoCurve_some h]
    | assertFail => simp [Res.bind]
    | outOfBounds => exact absurd hf (forEach_no_oob (fun e _ s => sizeEdge_ne e s) _)
  · obtain ⟨e, he, hc⟩ := h
    rw [forEach_assert (fun e _ s => sizeEdge_ne e s) ⟨e, he, fun s => sizeEdge_curved hc s⟩]
    rfl

end Verif.Lemmas
