import Verif.Lemmas.RemoteGeom
import Verif.Props.C18_PackedGeom2D

/-!
C21: serialisation of remote geometries.

"Refuses a buffer that is too small" does not hold: `serialise` compares the sizes only after it has written (`too_small_overrun`).
-/

namespace Verif.Props.C21
open Verif.Model.Bytes Verif.Model.PackedGeom2D Verif.Model.RemoteGeom Verif.Spec Verif.Lemmas

/-- Every geometry without curves: `serialise` fills exactly the `get_num_bytes` bytes, and `deserialise` of these bytes gives the
rank, the id and the geometry, whatever follows the bytes in memory. -/
theorem round_trip (g : RGeom) (h : StraightGeo g.geom) : ∃ n bytes, getNumBytes g = .ok n ∧ serialise g n = .ok bytes ∧
    bytes.length = n ∧ ∀ after, deserialise (bytes ++ after) n = .ok g := by
  refine ⟨(encR g).length, encR g, getNumBytes_eq g h, ?_, rfl, fun after => ?_⟩
  · rw [serialise_eq g h, if_neg (lt_irrefl _), if_pos rfl]
  · have := reads_popGeom h [] after (-1) (Or.inr rfl)
    simp only [List.nil_append, List.length_nil, Nat.zero_add] at this
    unfold deserialise
    rw [this]
    simp [Model.RemoteGeom.Res.bind]

/-- A buffer that is too large is refused. -/
theorem too_large_refused (g : RGeom) (h : StraightGeo g.geom) (n m : ℕ) (hn : getNumBytes g = .ok n) (hm : n < m) :
    serialise g m = .assertFail := by
  rw [getNumBytes_eq g h] at hn
  simp only [Res.ok.injEq] at hn
  rw [serialise_eq g h, if_neg (by omega), if_neg (by omega)]

/-- A buffer that is too small is overrun: the refusal comes after the writes. -/
theorem too_small_overrun (g : RGeom) (h : StraightGeo g.geom) (n m : ℕ) (hn : getNumBytes g = .ok n) (hm : m < n) :
    serialise g m = .outOfBounds := by
  rw [getNumBytes_eq g h] at hn
  simp only [Res.ok.injEq] at hn
  rw [serialise_eq g h, if_pos (by omega)]

/-- `deserialise` refuses every size that is not the size of the geometry. -/
theorem wrong_size_refused (g : RGeom) (h : StraightGeo g.geom) (n : ℕ) (bytes after : List Byte) (hs : serialise g n = .ok bytes) (m : ℕ)
    (hm : m ≠ n) : deserialise (bytes ++ after) m = .assertFail := by
  rw [serialise_eq g h] at hs
  split_ifs at hs with h1 h2
  simp only [Res.ok.injEq] at hs
  subst hs
  have := reads_popGeom h [] after (-1) (Or.inr rfl)
  simp only [List.nil_append, List.length_nil, Nat.zero_add] at this
  unfold deserialise
  rw [this]
  simp only [Model.RemoteGeom.Res.bind]
  rw [if_neg (by omega)]

/-- A geometry with a curve anywhere is refused: `get_num_bytes` stops with an assertion. -/
theorem curved_refused (g : RGeom) (h : CurvedGeo g.geom) : getNumBytes g = .assertFail := by
  obtain ⟨rk, id, geom⟩ := g
  unfold getNumBytes
  cases geom with
  | seg e => exact sizeEdge_curved h _
  | face f => exact sizeFace_curved h _
  | poly p =>
    obtain ⟨f, hf, hc⟩ := h
    exact forEach_assert (fun f _ s => sizeFace_ne f _) ⟨f, hf, fun s => sizeFace_curved hc _⟩ _

def pt (i : ℕ) : Point := ⟨3, BitVec.ofNat 32 i, 5#64, 6#64, 7#64⟩
def ed (i : ℕ) : Seg := ⟨BitVec.ofNat 32 i, 3, [pt i, pt (i + 1)], none⟩
def tri (i : ℕ) : Face := ⟨.tri, BitVec.ofNat 32 i, [ed 0, ed 1, ed 2], none⟩
def quad (i : ℕ) : Face := ⟨.quad, BitVec.ofNat 32 i, [ed 0, ed 1, ed 2, ed 3], none⟩
/-- A pyramid: one quadrilateral and four triangles. -/
def pyr : RGeom := ⟨3, 17, .poly ⟨.pyr, 17, [quad 0, tri 1, tri 2, tri 3, tri 4]⟩⟩

theorem pyr_ok : StraightGeo pyr.geom := by
  have hq : ∀ i, StraightFace (quad i) := by
    intro i; refine ⟨rfl, ?_, rfl⟩; intro e he; simp [quad] at he; rcases he with rfl | rfl | rfl | rfl <;> exact ⟨rfl, rfl⟩
  have ht : ∀ i, StraightFace (tri i) := by
    intro i; refine ⟨rfl, ?_, rfl⟩; intro e he; simp [tri] at he; rcases he with rfl | rfl | rfl <;> exact ⟨rfl, rfl⟩
  refine ⟨rfl, ?_, ?_, ?_⟩
  · intro f hf; simp at hf; rcases hf with rfl | rfl | rfl | rfl | rfl <;> simp [hq, ht]
  · intro h; cases h
  · intro h; cases h

example : ∃ n bytes, getNumBytes pyr = .ok n ∧ serialise pyr n = .ok bytes ∧ bytes.length = n ∧
    ∀ after, deserialise (bytes ++ after) n = .ok pyr := round_trip pyr pyr_ok
example : getNumBytes pyr = .ok 1548 := by decide +kernel
example : serialise pyr 1547 = .outOfBounds := too_small_overrun pyr pyr_ok 1548 1547 (by decide +kernel) (by omega)
example : getNumBytes ⟨0, 1, .seg ⟨1, 2, [pt 0, pt 1], some ⟨1, 1, []⟩⟩⟩ = .assertFail :=
  curved_refused _ (by simp [CurvedGeo, CurvedSeg])

end Verif.Props.C21
