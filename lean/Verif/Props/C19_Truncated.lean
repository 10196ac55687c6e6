import Verif.Props.C18_PackedGeom2D

/-!
C19: unpacking rejects truncated buffers.

The reader of the set hands each geometry the length of the whole buffer but a pointer into it (packed_geoms_2d.hpp:94-95), so the check
of a geometry allows reads up to `4 + offset` bytes behind the end of the buffer: the property does not hold. What holds is stated below.
-/

namespace Verif.Props.C19
open Verif.Model.Bytes Verif.Model.PackedGeom2D Verif.Spec Verif.Lemmas

/-- Every non-empty packed set with the last one to four bytes missing is read outside of the buffer. -/
theorem truncated_read_out_of_bounds {k : ℕ} (shape : I32) (rs : List Remote) (hne : rs ≠ []) (hrs : ∀ r ∈ rs, RemoteOk k r)
    (hn : rs.length < 2 ^ 31) (m : ℕ) (hm : 1 ≤ m ∧ m ≤ 4) (out : List Remote) :
    unpackGeoms k ((packRemotes shape rs).take ((packRemotes shape rs).length - m)) ((packRemotes shape rs).length - m : ℤ) out
      = .outOfBounds := by
  obtain ⟨init, last, rfl⟩ : ∃ init last, rs = init ++ [last] := ⟨rs.dropLast, rs.getLast hne, (List.dropLast_append_getLast hne).symm⟩
  set c := enc32 (BitVec.ofNat 32 (init ++ [last]).length) with hc
  have hcl : c.length = 4 := by simp [c]
  set A := init.flatMap fun g => packGeom shape g.rank g.id g.geom with hA
  set B := packGeom shape last.rank last.id last.geom with hB
  have hB20 : 20 ≤ B.length := length_packGeom_pos _ _ _ _
  have e : packRemotes shape (init ++ [last]) = c ++ (A ++ B) := by
    unfold packRemotes; simp [c, A, B, List.flatMap_append]
  rw [e]
  have hL : (c ++ (A ++ B)).length = 4 + (A.length + B.length) := by simp [hcl]
  rw [hL]
  have et : (c ++ (A ++ B)).take (4 + (A.length + B.length) - m) = c ++ (A ++ B.take (B.length - m)) := by
    rw [← List.append_assoc, List.take_append, List.take_of_length_le (by simp [hcl]; omega), List.append_assoc]
    congr 3
    simp only [List.length_append, hcl]
    omega
  rw [et]
  have hge : init.length ≤ A.length := length_flatMap_ge shape init
  unfold unpackGeoms
  push_cast
  rw [if_neg (by omega), if_neg (by simp [hcl])]
  rw [show (c ++ (A ++ B.take (B.length - m))).take 4 = c from List.take_left' hcl, hc, dec32_enc32, toInt_ofNat32 _ hn, ← hc]
  rw [if_neg (by simp only [List.length_append, List.length_singleton]; push_cast; omega), Int.toNat_natCast]
  have h1 := unpackLoop_ok shape c hcl init (fun r hr => hrs r (by simp [hr])) (4 + (A.length + B.length) - m : ℤ) []
    (B.take (B.length - m)) (by rw [← hA]; omega) out 1
  simp only [List.nil_append, List.length_nil, Nat.zero_add, ← hA] at h1
  rw [show (init ++ [last]).length = init.length + 1 by simp, h1]
  have hd : (c ++ (A ++ B.take (B.length - m))).drop (4 + A.length) = B.take (B.length - m) := by
    rw [← List.append_assoc]; exact List.drop_left' (by simp [hcl])
  have h2 := (unpackGeom_ok shape (hrs last (by simp))).2 [] (B.take (B.length - m)) (4 + (A.length + B.length) - m : ℤ)
    (List.take_prefix _ _) (by rw [← hB, List.length_take]; omega) (by rw [← hB]; simp only [List.length_nil]; push_cast; omega)
  simp only [List.nil_append, List.length_nil] at h2
  simp only [unpackLoop, hd, h2]

/-- A packed triangle read as a quadrilateral: the type is not compared, and the constructor reads a fourth edge that does not exist. -/
theorem wrong_type_out_of_bounds (shape : I32) (r : Remote) (h : RemoteOk 3 r) (after : List Byte) (len : ℤ)
    (hlen : ((packGeom shape r.rank r.id r.geom).length : ℤ) ≤ len) :
    unpackGeom 4 (packGeom shape r.rank r.id r.geom ++ after) len 0 = .outOfBounds := by
  have := faults_wrong_type shape h [] after len (by simp only [List.length_nil]; push_cast; omega)
  simpa using this

/-- One geometry read with the length of its own buffer: whatever the bytes are, nothing outside of the buffer is read (for triangles;
for quadrilaterals see `wrong_type_out_of_bounds`). -/
theorem unpack_one_in_bounds_partial (buf : List Byte) (off : ℕ) : unpackGeom 3 buf buf.length off ≠ .outOfBounds :=
  inBounds_unpackGeom (by omega) buf buf.length off (by omega) le_rfl

/-- A set cut short is never accepted: every proper prefix of a packed set ends in an assertion or in the read above, whatever length
is passed. -/
theorem truncated_never_accepted_partial {k : ℕ} (shape : I32) (rs : List Remote) (hrs : ∀ r ∈ rs, RemoteOk k r)
    (hn : rs.length < 2 ^ 31) (cut : List Byte) (hc : cut <+: packRemotes shape rs) (hl : cut.length < (packRemotes shape rs).length)
    (len : ℤ) (out res : List Remote) : unpackGeoms k cut len out ≠ .ok res := by
  intro h
  unfold unpackGeoms at h
  split_ifs at h with h1 h2
  obtain ⟨d, rfl⟩ : enc32 (BitVec.ofNat 32 rs.length) <+: cut :=
    List.prefix_of_prefix_length_le (List.prefix_append _ _) hc (by simp; omega)
  have hd : d <+: rs.flatMap fun g => packGeom shape g.rank g.id g.geom := (List.prefix_append_right_inj _).mp hc
  have hdl : d.length < (rs.flatMap fun g => packGeom shape g.rank g.id g.geom).length := by
    simp only [packRemotes, List.length_append] at hl; omega
  simp only [] at h
  rw [List.take_left' (by simp), dec32_enc32, toInt_ofNat32 _ hn] at h
  split_ifs at h with h3
  rw [Int.toNat_natCast] at h
  have loop : ∀ (rs : List Remote) (_ : ∀ r ∈ rs, RemoteOk k r) (c pre d : List Byte) (_ : c.length = 4) (acc : List Remote)
      (_ : d <+: rs.flatMap fun g => packGeom shape g.rank g.id g.geom)
      (_ : d.length < (rs.flatMap fun g => packGeom shape g.rank g.id g.geom).length) r,
      unpackLoop k (c ++ (pre ++ d)) len rs.length pre.length acc ≠ .ok r := by
    intro rs
    induction rs with
    | nil => intro _ c pre d _ acc _ hl; simp at hl
    | cons r rs ih =>
      intro hrs c pre d hc4 acc hd hl res h
      rw [List.flatMap_cons] at hd hl
      rw [List.length_cons] at h
      unfold unpackLoop at h
      rw [show (c ++ (pre ++ d)).drop (4 + pre.length) = d by
        rw [← List.append_assoc]; exact List.drop_left' (by simp [hc4])] at h
      have hR := (unpackGeom_ok shape (hrs r (by simp))).1
      cases hu : unpackGeom k d len 0 with
      | assertFail => simp [hu] at h
      | outOfBounds => simp [hu] at h
      | ok q =>
        by_cases hlt : d.length < (packGeom shape r.rank r.id r.geom).length
        · exact hR.cut_not_ok (mono_unpackGeom k) (List.prefix_of_prefix_length_le hd (List.prefix_append _ _) (by omega)) hlt len q hu
        · obtain ⟨d2, rfl⟩ : packGeom shape r.rank r.id r.geom <+: d :=
            List.prefix_of_prefix_length_le (List.prefix_append _ _) hd (by omega)
          have hq := (mono_unpackGeom k _ _ _ _ (by omega) hu).2 []
          have hq2 := hR [] d2 (-1) (Or.inr rfl)
          simp only [List.nil_append, List.append_nil, List.length_nil, Nat.zero_add] at hq hq2
          rw [hq] at hq2
          simp only [Res.ok.injEq] at hq2
          rw [hu, hq2] at h
          simp only at h
          have := ih (fun x hx => hrs x (by simp [hx])) c (pre ++ packGeom shape r.rank r.id r.geom) d2 hc4 (acc ++ [r])
            ((List.prefix_append_right_inj _).mp hd) (by simp only [List.length_append] at hl; omega) res
          simp only [List.append_assoc, List.length_append] at this
          exact this h
  have := loop rs hrs (enc32 (BitVec.ofNat 32 rs.length)) [] d (by simp) out hd hdl
  simp only [List.nil_append, List.length_nil] at this
  cases hu : unpackLoop k (enc32 (BitVec.ofNat 32 rs.length) ++ d) len rs.length 0 out with
  | assertFail => simp [hu] at h
  | outOfBounds => simp [hu] at h
  | ok q => exact this q hu

/-- The set of two triangles of C18 without its last byte. -/
example (out : List Remote) : unpackGeoms 3 ((packRemotes 3 [⟨1, 0, C18.tri⟩, ⟨1, 4, C18.tri⟩]).take
    ((packRemotes 3 [⟨1, 0, C18.tri⟩, ⟨1, 4, C18.tri⟩]).length - 1)) ((packRemotes 3 [⟨1, 0, C18.tri⟩, ⟨1, 4, C18.tri⟩]).length - (1 : ℕ) : ℤ) out
    = .outOfBounds :=
  truncated_read_out_of_bounds 3 _ (by simp) (by simp [RemoteOk, C18.tri_ok]) (by simp) 1 (by omega) out

end Verif.Props.C19
