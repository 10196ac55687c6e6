import Verif.Lemmas.PackedGeom2D

/-! C18: unpacking a packed set of 2D geometries gives the geometries. -/

namespace Verif.Props.C18
open Verif.Model.Bytes Verif.Model.PackedGeom2D Verif.Spec Verif.Lemmas

/-- One geometry: everything comes back and exactly the bytes written are consumed, wherever the bytes are in the buffer and whatever
follows them. -/
theorem unpack_one {k : ℕ} (shape : I32) (r : Remote) (h : RemoteOk k r) (before after : List Byte) (len : ℤ)
    (hlen : (before.length + (packGeom shape r.rank r.id r.geom).length : ℤ) ≤ len ∨ len = -1) :
    unpackGeom k (before ++ (packGeom shape r.rank r.id r.geom ++ after)) len before.length
      = .ok (r, before.length + (packGeom shape r.rank r.id r.geom).length) :=
  (unpackGeom_ok shape h).1 before after len hlen

/-- Any list of remote geometries is recovered in order, behind the geometries already in the output. `after` is the padding the
exchange adds to the messages. -/
theorem unpack_packRemotes {k : ℕ} (shape : I32) (rs : List Remote) (hrs : ∀ r ∈ rs, RemoteOk k r) (hn : rs.length < 2 ^ 31)
    (after : List Byte) (len : ℤ) (hlen : ((packRemotes shape rs).length : ℤ) ≤ len) (out : List Remote) :
    unpackGeoms k (packRemotes shape rs ++ after) len out = .ok (out ++ rs) := by
  unfold unpackGeoms packRemotes at *
  rw [List.length_append, length_enc32] at hlen
  push_cast at hlen
  have hge := length_flatMap_ge shape rs
  rw [if_neg (by omega), if_neg (by simp)]
  have ht : (enc32 (BitVec.ofNat 32 rs.length) ++ (rs.flatMap fun g => packGeom shape g.rank g.id g.geom) ++ after).take 4
      = enc32 (BitVec.ofNat 32 rs.length) := by
    rw [List.append_assoc]; exact List.take_left' (by simp)
  rw [ht, dec32_enc32, toInt_ofNat32 _ hn]
  simp only
  rw [if_neg (by omega), Int.toNat_natCast, List.append_assoc]
  have := unpackLoop_ok shape (enc32 (BitVec.ofNat 32 rs.length)) (by simp) rs hrs len [] after (by omega) out 0
  simp only [List.nil_append, Nat.add_zero, List.length_nil, Nat.zero_add] at this
  rw [this]
  simp only [unpackLoop]
  rw [if_pos (by omega)]

/-- The geometries of a mesh, packed with the rank of their owner. -/
theorem unpack_packGeoms {k : ℕ} (shape rank : I32) (gs : List (I32 × Geom)) (hr : 0 ≤ rank.toInt) (hgs : ∀ g ∈ gs, GeomOk k g.2)
    (hn : gs.length < 2 ^ 31) (after : List Byte) (len : ℤ) (hlen : ((packGeoms shape rank gs).length : ℤ) ≤ len)
    (out : List Remote) :
    unpackGeoms k (packGeoms shape rank gs ++ after) len out = .ok (out ++ gs.map fun g => ⟨rank, g.1, g.2⟩) := by
  have e : packGeoms shape rank gs = packRemotes shape (gs.map fun g => ⟨rank, g.1, g.2⟩) := by
    unfold packGeoms packRemotes
    rw [List.length_map, List.flatMap_map]
  rw [e] at hlen ⊢
  refine unpack_packRemotes shape _ ?_ (by simpa using hn) after len hlen out
  intro r h
  obtain ⟨g, hg, rfl⟩ := List.mem_map.mp h
  exact ⟨hr, hgs g hg⟩

def p (i : ℕ) : Point := ⟨2, BitVec.ofNat 32 i, 1#64, 2#64, 3#64⟩
def e (i : ℕ) : Seg := ⟨BitVec.ofNat 32 i, 2, [p i, p (i + 1)], if i = 1 then some ⟨7, 3, [p 1, p 8, p 2]⟩ else none⟩
/-- A triangle with a curved edge. -/
def tri : Geom := ⟨11, [e 0, e 1, e 2], none⟩
/-- A quadrilateral. -/
def quad : Geom := ⟨12, [e 0, e 1, e 2, e 3], some ⟨5, 4, [p 0]⟩⟩

theorem tri_ok : GeomOk 3 tri := by
  refine ⟨Or.inl rfl, rfl, ?_, trivial⟩
  intro s hs
  simp only [tri, List.mem_cons, List.not_mem_nil, or_false] at hs
  rcases hs with rfl | rfl | rfl <;> refine ⟨rfl, ?_⟩ <;> simp [e, CurveOk]

theorem quad_ok : GeomOk 4 quad := by
  refine ⟨Or.inr rfl, rfl, ?_, by simp [quad, CurveOk]⟩
  intro s hs
  simp only [quad, List.mem_cons, List.not_mem_nil, or_false] at hs
  rcases hs with rfl | rfl | rfl | rfl <;> refine ⟨rfl, ?_⟩ <;> simp [e, CurveOk]

example (out : List Remote) : unpackGeoms 3 (packGeoms 3 2 [(0, tri), (5, tri)] ++ [0, 0, 0]) 2000 out
    = .ok (out ++ [⟨2, 0, tri⟩, ⟨2, 5, tri⟩]) :=
  unpack_packGeoms 3 2 [(0, tri), (5, tri)] (by decide) (by simp [tri_ok]) (by simp) _ _ (by decide +kernel) _

example (out : List Remote) : unpackGeoms 4 (packRemotes 4 [⟨1, 9, quad⟩] ++ []) 4000 out = .ok (out ++ [⟨1, 9, quad⟩]) :=
  unpack_packRemotes 4 _ (by simp [RemoteOk, quad_ok]) (by simp) _ _ (by decide +kernel) _

end Verif.Props.C18
