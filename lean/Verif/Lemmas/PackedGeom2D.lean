import Verif.Lemmas.Bytes
import Verif.Spec.Geometry2D

namespace Verif.Lemmas
open Verif.Model.Bytes Verif.Model.PackedGeom2D Verif.Spec

variable {α β : Type}

theorem Reads.map {p : Reader α} {f : α → β} {bs : List Byte} {v : α} (h : Reads p bs v) :
    Reads (p.bind fun a => Reader.pure (f a)) bs (f v) := by
  have := Reads.bind h (q := fun a => Reader.pure (f a)) (Reads.pure _)
  rwa [List.append_nil] at this

theorem Overruns.map {p : Reader α} {f : α → β} {bs : List Byte} {v : α} (r : Reads p bs v) (h : Overruns p bs) :
    Overruns (p.bind fun a => Reader.pure (f a)) bs := by
  have := Overruns.bind r h (q := fun a => Reader.pure (f a)) (Overruns.nil _)
  rwa [List.append_nil] at this

theorem Reads.check_bind {c : Bool} {q : Unit → Reader β} {bs : List Byte} {w : β} (h : c = true) (h2 : Reads (q ()) bs w) :
    Reads ((Reader.check c).bind q) bs w := Reads.bind (Reads.check h) h2

theorem Overruns.check_bind {c : Bool} {q : Unit → Reader β} {bs : List Byte} (h : c = true) (h2 : Overruns (q ()) bs) :
    Overruns ((Reader.check c).bind q) bs := Overruns.bind (b1 := []) (Reads.check h) (Overruns.nil _) h2

theorem unpackCurve_ok {c : Option Curve} (h : CurveOk c) :
    Reads unpackCurve (packCurve c) c ∧ Overruns unpackCurve (packCurve c) := by
  cases c with
  | none =>
    have e : packCurve none = encSpec ⟨0, 0, -1⟩ ++ [] := by simp [packCurve]
    rw [e]
    constructor
    · refine Reads.bind (reads_popSpec _) ?_
      rw [if_pos (by decide)]; exact Reads.pure _
    · exact Overruns.bind (reads_popSpec _) (overruns_popSpec _) (Overruns.nil _)
  | some c =>
    have e := toInt_ofNat32 _ h
    constructor
    · refine Reads.bind (reads_popSpec _) ?_
      dsimp only
      rw [e, if_neg (by omega), Int.toNat_natCast]
      exact Reads.map (Reads.repeat c.points fun p _ => reads_popPoint p)
    · refine Overruns.bind (reads_popSpec _) (overruns_popSpec _) ?_
      dsimp only
      rw [e, if_neg (by omega), Int.toNat_natCast]
      exact Overruns.map (Reads.repeat c.points fun p _ => reads_popPoint p)
        (Overruns.repeat c.points (fun p _ => reads_popPoint p) fun p _ => overruns_popPoint p)

theorem unpackEdge_ok {e : Seg} (h : SegOk e) : Reads unpackEdge (packEdge e) e ∧ Overruns unpackEdge (packEdge e) := by
  obtain ⟨h2, hc⟩ := h
  have hi := toInt_ofNat32 e.verts.length (by omega)
  have hr := Reads.repeat e.verts (p := popPoint) (enc := encPoint) fun p _ => reads_popPoint p
  have hov := Overruns.repeat e.verts (p := popPoint) (enc := encPoint) (fun p _ => reads_popPoint p) fun p _ => overruns_popPoint p
  have et : e.verts.take 2 = e.verts := List.take_of_length_le (by omega)
  constructor
  · refine Reads.bind (reads_popSpec _) (Reads.check_bind (by simp [hi, h2]) ?_)
    dsimp only
    rw [hi, Int.toNat_natCast]
    refine Reads.bind hr ?_
    have := Reads.map (f := fun curve => (⟨e.id, e.coordim, e.verts.take 2, curve⟩ : Seg)) (unpackCurve_ok hc).1
    rwa [et] at this ⊢
  · refine Overruns.bind (reads_popSpec _) (overruns_popSpec _) (Overruns.check_bind (by simp [hi, h2]) ?_)
    dsimp only
    rw [hi, Int.toNat_natCast]
    refine Overruns.bind hr hov ?_
    exact Overruns.map (unpackCurve_ok hc).1 (unpackCurve_ok hc).2

theorem unpackGeom_ok {k : ℕ} {r : Remote} (shape : I32) (h : RemoteOk k r) :
    Reads (unpackGeom k) (packGeom shape r.rank r.id r.geom) r ∧ Overruns (unpackGeom k) (packGeom shape r.rank r.id r.geom) := by
  obtain ⟨hrk, hk, hl, he, hc⟩ := h
  have hi := toInt_ofNat32 r.geom.edges.length (by omega)
  have h34 : decide ((BitVec.ofNat 32 r.geom.edges.length).toInt = 4 ∨ (BitVec.ofNat 32 r.geom.edges.length).toInt = 3) = true := by
    rw [hi]; simp only [decide_eq_true_eq]; omega
  have h0 : decide (0 ≤ r.rank.toInt) = true := by simpa using hrk
  have et : r.geom.edges.take k = r.geom.edges := List.take_of_length_le (by omega)
  have hlt : ¬ r.geom.edges.length < k := by omega
  have hr := Reads.repeat r.geom.edges (p := unpackEdge) (enc := packEdge) fun e hm => (unpackEdge_ok (he e hm)).1
  have hov := Overruns.repeat r.geom.edges (p := unpackEdge) (enc := packEdge) (fun e hm => (unpackEdge_ok (he e hm)).1)
    fun e hm => (unpackEdge_ok (he e hm)).2
  constructor
  · unfold unpackGeom packGeom
    refine Reads.bind (reads_popI32 _) (Reads.bind (reads_popI32 _) (Reads.bind (reads_popI32 _) (Reads.bind (reads_popI32 _)
      (Reads.bind (reads_popI32 _) (Reads.check_bind h0 (Reads.check_bind h34 ?_))))))
    rw [hi, Int.toNat_natCast]
    refine Reads.bind hr ?_
    simp only [if_neg hlt]
    have := Reads.map (f := fun curve => (⟨r.rank, r.id, ⟨r.geom.id, r.geom.edges.take k, curve⟩⟩ : Remote)) (unpackCurve_ok hc).1
    rwa [et] at this ⊢
  · unfold unpackGeom packGeom
    refine Overruns.bind (reads_popI32 _) (overruns_popI32 _) (Overruns.bind (reads_popI32 _) (overruns_popI32 _)
      (Overruns.bind (reads_popI32 _) (overruns_popI32 _) (Overruns.bind (reads_popI32 _) (overruns_popI32 _)
      (Overruns.bind (reads_popI32 _) (overruns_popI32 _) (Overruns.check_bind h0 (Overruns.check_bind h34 ?_))))))
    rw [hi, Int.toNat_natCast]
    refine Overruns.bind hr hov ?_
    simp only [if_neg hlt]
    exact Overruns.map (unpackCurve_ok hc).1 (unpackCurve_ok hc).2

theorem inBounds_unpackCurve : InBounds unpackCurve := by
  refine inBounds_popSpec.bind fun gs => ?_
  split_ifs
  · exact InBounds.pure _
  · exact (inBounds_popPoint.repeat _).bind fun _ => InBounds.pure _

theorem inBounds_unpackEdge : InBounds unpackEdge :=
  inBounds_popSpec.bind fun _ => (InBounds.check _).bind fun _ => (inBounds_popPoint.repeat _).bind fun _ =>
    inBounds_unpackCurve.bind fun _ => InBounds.pure _

theorem length_repeat {p : Reader α} {n : ℕ} {buf : List Byte} {len : ℤ} {off off' : ℕ} {l : List α}
    (h : Reader.repeat p n buf len off = .ok (l, off')) : l.length = n := by
  induction n generalizing off off' l with
  | zero => simp [Reader.repeat, Reader.pure] at h; simp [← h.1]
  | succ n ih =>
    unfold Reader.repeat Reader.bind at h
    cases h1 : p buf len off with
    | assertFail => simp [h1] at h
    | outOfBounds => simp [h1] at h
    | ok r =>
      rw [h1] at h
      dsimp only [Reader.bind] at h
      cases h2 : Reader.repeat p n buf len r.2 with
      | assertFail => simp [h2] at h
      | outOfBounds => simp [h2] at h
      | ok r2 =>
        rw [h2] at h
        simp only [Reader.pure, Res.ok.injEq, Prod.mk.injEq] at h
        rw [← h.1, List.length_cons, ih h2]

theorem InBounds.bind' {p : Reader α} {q : α → Reader β} (P : α → Prop) (h1 : InBounds p)
    (hP : ∀ buf len off r, p buf len off = .ok r → P r.1) (h2 : ∀ v, P v → InBounds (q v)) : InBounds (p.bind q) := by
  intro buf len off hn hl
  unfold Reader.bind
  have := h1 buf len off hn hl
  cases hp : p buf len off with
  | ok r => exact h2 r.1 (hP _ _ _ _ hp) buf len r.2 hn hl
  | assertFail => simp
  | outOfBounds => exact absurd hp this

theorem inBounds_unpackGeom {k : ℕ} (hk : k ≤ 3) : InBounds (unpackGeom k) := by
  unfold unpackGeom
  refine inBounds_popI32.bind fun _ => inBounds_popI32.bind fun _ => inBounds_popI32.bind fun _ => inBounds_popI32.bind fun _ =>
    inBounds_popI32.bind fun ne => (InBounds.check _).bind fun _ => ?_
  refine InBounds.bind' (fun _ => ne.toInt = 4 ∨ ne.toInt = 3) (InBounds.check _) ?_ fun _ h34 => ?_
  · intro buf len off r h
    unfold Reader.check at h
    split_ifs at h with hd
    exact of_decide_eq_true hd
  · refine InBounds.bind' (fun l => l.length = ne.toInt.toNat) (inBounds_unpackEdge.repeat _)
      (fun buf len off r h => length_repeat (off' := r.2) h) fun l hl => ?_
    refine inBounds_unpackCurve.bind fun _ => ?_
    rw [if_neg (by omega)]
    exact InBounds.pure _

end Verif.Lemmas

namespace Verif.Lemmas
open Verif.Model.Bytes Verif.Model.PackedGeom2D Verif.Spec
variable {α β : Type}

/-- What a reader accepts it accepts with more bytes and without the check, and it used only bytes that exist. -/
def Mono (p : Reader α) : Prop :=
  ∀ buf len off r, off ≤ buf.length → p buf len off = .ok r →
    r.2 ≤ buf.length ∧ ∀ more, p (buf ++ more) (-1) off = .ok r

theorem Mono.pure (v : α) : Mono (Reader.pure v) := by
  intro buf len off r ho h
  simp only [Reader.pure, Res.ok.injEq] at h ⊢
  subst h
  exact ⟨ho, fun _ => rfl⟩

theorem Mono.check (c : Bool) : Mono (Reader.check c) := by
  intro buf len off r ho h
  unfold Reader.check at h ⊢
  split_ifs at h ⊢
  simp only [Res.ok.injEq] at h ⊢
  subst h
  exact ⟨ho, fun _ => rfl⟩

theorem Mono.fault : Mono (Reader.fault : Reader α) := by
  intro buf len off r ho h; simp [Reader.fault] at h

theorem Mono.bind {p : Reader α} {q : α → Reader β} (h1 : Mono p) (h2 : ∀ v, Mono (q v)) : Mono (p.bind q) := by
  intro buf len off r ho h
  unfold Reader.bind at h ⊢
  cases hp : p buf len off with
  | assertFail => simp [hp] at h
  | outOfBounds => simp [hp] at h
  | ok r1 =>
    rw [hp] at h
    obtain ⟨a, b⟩ := h1 _ _ _ _ ho hp
    obtain ⟨c, d⟩ := h2 r1.1 _ _ _ _ a h
    refine ⟨c, fun more => ?_⟩
    rw [b more]
    exact d more

theorem mono_popBytes (n : ℕ) : Mono (popBytes n) := by
  intro buf len off r ho h
  unfold popBytes at h ⊢
  split_ifs at h with h1 h2
  simp only [Res.ok.injEq] at h
  subst h
  refine ⟨h2, fun more => ?_⟩
  rw [if_neg (by simp), if_pos (by simp; omega), List.drop_append_of_le_length (by omega),
    List.take_append_of_le_length (by simp; omega)]

theorem Mono.repeat {p : Reader α} (h : Mono p) (n : ℕ) : Mono (Reader.repeat p n) := by
  induction n with
  | zero => exact Mono.pure _
  | succ n ih => exact h.bind fun a => ih.bind fun l => Mono.pure _

theorem mono_popI32 : Mono popI32 := (mono_popBytes 4).bind fun _ => Mono.pure _
theorem mono_popPoint : Mono popPoint := (mono_popBytes 32).bind fun _ => Mono.pure _
theorem mono_popSpec : Mono popSpec := (mono_popBytes 12).bind fun _ => Mono.pure _

theorem mono_unpackCurve : Mono unpackCurve := by
  refine mono_popSpec.bind fun gs => ?_
  split_ifs
  · exact Mono.pure _
  · exact (mono_popPoint.repeat _).bind fun _ => Mono.pure _

theorem mono_unpackEdge : Mono unpackEdge :=
  mono_popSpec.bind fun _ => (Mono.check _).bind fun _ => (mono_popPoint.repeat _).bind fun _ =>
    mono_unpackCurve.bind fun _ => Mono.pure _

theorem mono_unpackGeom (k : ℕ) : Mono (unpackGeom k) := by
  unfold unpackGeom
  refine mono_popI32.bind fun _ => mono_popI32.bind fun _ => mono_popI32.bind fun _ => mono_popI32.bind fun _ =>
    mono_popI32.bind fun ne => (Mono.check _).bind fun _ => (Mono.check _).bind fun _ => (mono_unpackEdge.repeat _).bind fun _ =>
    mono_unpackCurve.bind fun _ => ?_
  split_ifs
  · exact Mono.fault
  · exact Mono.pure _

/-- A cut buffer is not accepted. -/
theorem Reads.cut_not_ok {p : Reader α} {bs : List Byte} {v : α} (h : Reads p bs v) (hm : Mono p) {cut : List Byte}
    (hc : cut <+: bs) (hl : cut.length < bs.length) (len : ℤ) (r : α × ℕ) : p cut len 0 ≠ .ok r := by
  intro he
  obtain ⟨rest, rfl⟩ := hc
  obtain ⟨a, b⟩ := hm _ _ _ _ (by omega) he
  have h1 := b rest
  have h2 := h [] [] (-1) (Or.inr rfl)
  simp only [List.nil_append, List.append_nil, List.length_nil, Nat.zero_add] at h2
  rw [h1] at h2
  simp only [Res.ok.injEq] at h2
  rw [h2] at a
  simp only at a
  omega

theorem length_packGeom_pos (shape rank id : I32) (g : Geom) : 20 ≤ (packGeom shape rank id g).length := by
  unfold packGeom
  simp only [List.length_append, length_enc32]
  omega

theorem length_flatMap_ge (shape : I32) (l : List Remote) :
    l.length ≤ (l.flatMap fun g => packGeom shape g.rank g.id g.geom).length := by
  induction l with
  | nil => simp
  | cons a l ih =>
    rw [List.flatMap_cons, List.length_append, List.length_cons]
    have := length_packGeom_pos shape a.rank a.id a.geom
    omega

/-- The loop of the reader on a buffer of packed geometries, followed by anything. -/
theorem unpackLoop_ok {k : ℕ} (shape : I32) (count : List Byte) (h4 : count.length = 4) (rs : List Remote) (hrs : ∀ r ∈ rs, RemoteOk k r)
    (len : ℤ) (pre trailing : List Byte) (hlen : ((rs.flatMap fun g => packGeom shape g.rank g.id g.geom).length : ℤ) ≤ len)
    (acc : List Remote) (n : ℕ) :
    unpackLoop k (count ++ (pre ++ ((rs.flatMap fun g => packGeom shape g.rank g.id g.geom) ++ trailing))) len (rs.length + n) pre.length acc
      = unpackLoop k (count ++ (pre ++ ((rs.flatMap fun g => packGeom shape g.rank g.id g.geom) ++ trailing))) len n
        (pre.length + (rs.flatMap fun g => packGeom shape g.rank g.id g.geom).length) (acc ++ rs) := by
  induction rs generalizing pre acc with
  | nil => simp
  | cons r rs ih =>
    rw [List.flatMap_cons] at hlen ⊢
    rw [List.length_append] at hlen
    push_cast at hlen
    rw [show (r :: rs).length + n = (rs.length + n) + 1 by simp; omega]
    conv_lhs => unfold unpackLoop
    have hr := (unpackGeom_ok shape (hrs r (by simp))).1 [] ((rs.flatMap fun g => packGeom shape g.rank g.id g.geom) ++ trailing) len
      (by simp only [List.length_nil]; push_cast; omega)
    have hd : (count ++ (pre ++ (packGeom shape r.rank r.id r.geom ++ (rs.flatMap fun g => packGeom shape g.rank g.id g.geom) ++ trailing))).drop
        (4 + pre.length) = packGeom shape r.rank r.id r.geom ++ ((rs.flatMap fun g => packGeom shape g.rank g.id g.geom) ++ trailing) := by
      rw [← List.append_assoc count pre, List.append_assoc (packGeom _ _ _ _)]
      exact List.drop_left' (by simp [h4])
    rw [hd]
    simp only [List.nil_append, List.length_nil, Nat.zero_add] at hr
    rw [hr]
    simp only
    have := ih (fun x hx => hrs x (by simp [hx])) (pre ++ packGeom shape r.rank r.id r.geom) (by omega) (acc ++ [r])
    simp only [List.append_assoc, List.length_append, List.cons_append, List.nil_append] at this ⊢
    rw [this, Nat.add_assoc]

end Verif.Lemmas

namespace Verif.Lemmas
open Verif.Model.Bytes Verif.Model.PackedGeom2D Verif.Spec
variable {α β : Type}

/-- Reading `bs` ends in an access outside of an array. -/
def Faults (p : Reader α) (bs : List Byte) : Prop :=
  ∀ pre post len, ((pre.length + bs.length : ℤ) ≤ len ∨ len = -1) → p (pre ++ (bs ++ post)) len pre.length = .outOfBounds

theorem Faults.bind {p : Reader α} {q : α → Reader β} {b1 b2 : List Byte} {v : α} (h1 : Reads p b1 v) (h2 : Faults (q v) b2) :
    Faults (p.bind q) (b1 ++ b2) := by
  intro pre post len hlen
  unfold Reader.bind
  have e1 := h1 pre (b2 ++ post) len (by rw [List.length_append] at hlen; push_cast at hlen; omega)
  have e2 := h2 (pre ++ b1) post len (by
    simp only [List.length_append] at hlen ⊢; push_cast at hlen ⊢; omega)
  simp only [List.append_assoc, List.length_append] at e1 e2 ⊢
  rw [e1]
  simp only [e2]

theorem Faults.fault : Faults (Reader.fault : Reader α) [] := fun _ _ _ _ => rfl

theorem faults_wrong_type {r : Remote} (shape : I32) (h : RemoteOk 3 r) : Faults (unpackGeom 4) (packGeom shape r.rank r.id r.geom) := by
  obtain ⟨hrk, hk, hl, he, hc⟩ := h
  have hi := toInt_ofNat32 r.geom.edges.length (by omega)
  have h34 : decide ((BitVec.ofNat 32 r.geom.edges.length).toInt = 4 ∨ (BitVec.ofNat 32 r.geom.edges.length).toInt = 3) = true := by
    rw [hi]; simp only [decide_eq_true_eq]; omega
  have h0 : decide (0 ≤ r.rank.toInt) = true := by simpa using hrk
  have hlt : r.geom.edges.length < 4 := by omega
  have hr := Reads.repeat r.geom.edges (p := unpackEdge) (enc := packEdge) fun e hm => (unpackEdge_ok (he e hm)).1
  unfold unpackGeom packGeom
  refine Faults.bind (reads_popI32 _) (Faults.bind (reads_popI32 _) (Faults.bind (reads_popI32 _) (Faults.bind (reads_popI32 _)
    (Faults.bind (reads_popI32 _) (Faults.bind (b1 := []) (Reads.check h0) (Faults.bind (b1 := []) (Reads.check h34) ?_))))))
  rw [hi, Int.toNat_natCast]
  refine Faults.bind hr ?_
  simp only [if_pos hlt]
  have := Faults.bind (q := fun _ => (Reader.fault : Reader Remote)) (unpackCurve_ok hc).1 Faults.fault
  rwa [List.append_nil] at this

end Verif.Lemmas
