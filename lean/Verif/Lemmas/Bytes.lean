import Verif.Model.PackedGeom2D
import Mathlib.Tactic.Ring
import Mathlib.Data.List.Basic

/-! Readers that undo writers. -/

namespace Verif.Lemmas
open Verif.Model.Bytes Verif.Model.PackedGeom2D

theorem length_natBytes (k n : ℕ) : (natBytes k n).length = k := by
  induction k generalizing n with
  | zero => rfl
  | succ k ih => rw [natBytes, List.length_cons, ih]

theorem bytesNat_natBytes (k n : ℕ) (h : n < 256 ^ k) : bytesNat (natBytes k n) = n := by
  induction k generalizing n with
  | zero => simp at h; subst h; rfl
  | succ k ih =>
    rw [natBytes, bytesNat, ih _ (by rw [Nat.div_lt_iff_lt_mul (by omega)]; rwa [pow_succ] at h)]
    omega

@[simp] theorem length_enc32 (v : I32) : (enc32 v).length = 4 := length_natBytes _ _
@[simp] theorem length_enc64 (v : F64) : (enc64 v).length = 8 := length_natBytes _ _

theorem dec32_enc32 (v : I32) : dec32 (enc32 v) = v := by
  rw [dec32, enc32, bytesNat_natBytes _ _ (by have := v.isLt; norm_num at this ⊢; exact this)]
  simp

theorem dec64_enc64 (v : F64) : dec64 (enc64 v) = v := by
  rw [dec64, enc64, bytesNat_natBytes _ _ (by have := v.isLt; norm_num at this ⊢; exact this)]
  simp

theorem toInt_ofNat32 (n : ℕ) (h : n < 2 ^ 31) : (BitVec.ofNat 32 n).toInt = n := by
  have h2 : n % 2 ^ 32 = n := Nat.mod_eq_of_lt (by omega)
  rw [BitVec.toInt_eq_toNat_cond, BitVec.toNat_ofNat, h2, if_pos (by omega)]

/-- Reading `bs` gives `v` and consumes exactly `bs`, whatever surrounds it. -/
def Reads {α : Type} (p : Reader α) (bs : List Byte) (v : α) : Prop :=
  ∀ pre post len, ((pre.length + bs.length : ℤ) ≤ len ∨ len = -1) →
    p (pre ++ (bs ++ post)) len pre.length = .ok (v, pre.length + bs.length)

/-- A buffer that ends inside of `bs` is read beyond its end if the length check allows `bs`. -/
def Overruns {α : Type} (p : Reader α) (bs : List Byte) : Prop :=
  ∀ pre cut len, cut <+: bs → cut.length < bs.length → ((pre.length + bs.length : ℤ) ≤ len ∨ len = -1) →
    p (pre ++ cut) len pre.length = .outOfBounds

/-- With a correct length no read is outside of the buffer. -/
def InBounds {α : Type} (p : Reader α) : Prop :=
  ∀ buf (len : ℤ) off, len ≠ -1 → len ≤ buf.length → p buf len off ≠ .outOfBounds

variable {α β : Type}

theorem Reads.pure (v : α) : Reads (Reader.pure v) [] v := fun pre post len _ => by simp [Reader.pure]

theorem Reads.bind {p : Reader α} {q : α → Reader β} {b1 b2 : List Byte} {v : α} {w : β} (h1 : Reads p b1 v)
    (h2 : Reads (q v) b2 w) : Reads (p.bind q) (b1 ++ b2) w := by
  intro pre post len hlen
  unfold Reader.bind
  have e1 := h1 pre (b2 ++ post) len (by rw [List.length_append] at hlen; push_cast at hlen; omega)
  have e2 := h2 (pre ++ b1) post len (by
    simp only [List.length_append] at hlen ⊢; push_cast at hlen ⊢; omega)
  simp only [List.append_assoc, List.length_append] at e1 e2 ⊢
  rw [e1]
  simp only [e2, Nat.add_assoc]

theorem Reads.check {c : Bool} (h : c = true) : Reads (Reader.check c) [] () := fun pre post len _ => by
  simp [Reader.check, h]

theorem reads_popBytes (bs : List Byte) : Reads (popBytes bs.length) bs bs := by
  intro pre post len h
  unfold popBytes
  rw [if_neg (not_not.mpr h), if_pos (by simp only [List.length_append]; omega)]
  simp

theorem Reads.repeat {p : Reader α} {enc : α → List Byte} (l : List α) (h : ∀ a ∈ l, Reads p (enc a) a) :
    Reads (Reader.repeat p l.length) (l.flatMap enc) l := by
  induction l with
  | nil => exact Reads.pure []
  | cons a l ih =>
    have h1 := h a (by simp)
    have h2 := ih fun b hb => h b (by simp [hb])
    rw [List.flatMap_cons]
    refine Reads.bind h1 ?_
    have := Reads.bind h2 (q := fun l => Reader.pure (a :: l)) (Reads.pure _)
    rwa [List.append_nil] at this

theorem Overruns.nil (p : Reader α) : Overruns p [] := by
  intro pre cut len h1 h2; simp at h2

theorem Overruns.bind {p : Reader α} {q : α → Reader β} {b1 b2 : List Byte} {v : α} (r1 : Reads p b1 v)
    (h1 : Overruns p b1) (h2 : Overruns (q v) b2) : Overruns (p.bind q) (b1 ++ b2) := by
  intro pre cut len hc hl hlen
  unfold Reader.bind
  simp only [List.length_append] at hl hlen
  push_cast at hlen
  by_cases hlt : cut.length < b1.length
  · have hc1 : cut <+: b1 := List.prefix_of_prefix_length_le hc (List.prefix_append b1 b2) (by omega)
    rw [h1 pre cut len hc1 hlt (by omega)]
  · obtain ⟨c2, rfl⟩ : b1 <+: cut := List.prefix_of_prefix_length_le (List.prefix_append b1 b2) hc (by omega)
    have hc2 : c2 <+: b2 := (List.prefix_append_right_inj b1).mp hc
    simp only [List.length_append] at hl
    rw [r1 pre c2 len (by omega)]
    have := h2 (pre ++ b1) c2 len hc2 (by omega) (by simp only [List.length_append]; push_cast; omega)
    simp only [List.append_assoc, List.length_append] at this
    exact this

theorem overruns_popBytes (bs : List Byte) : Overruns (popBytes bs.length) bs := by
  intro pre cut len _ hl hlen
  unfold popBytes
  rw [if_neg (not_not.mpr hlen), if_neg (by simp only [List.length_append]; omega)]

theorem Overruns.repeat {p : Reader α} {enc : α → List Byte} (l : List α) (h : ∀ a ∈ l, Reads p (enc a) a)
    (ho : ∀ a ∈ l, Overruns p (enc a)) : Overruns (Reader.repeat p l.length) (l.flatMap enc) := by
  induction l with
  | nil => exact Overruns.nil _
  | cons a l ih =>
    have h2 := ih (fun b hb => h b (by simp [hb])) fun b hb => ho b (by simp [hb])
    rw [List.flatMap_cons]
    refine Overruns.bind (h a (by simp)) (ho a (by simp)) ?_
    have := Overruns.bind (Reads.repeat l fun b hb => h b (by simp [hb])) h2 (q := fun l => Reader.pure (a :: l)) (Overruns.nil _)
    rwa [List.append_nil] at this

theorem InBounds.pure (v : α) : InBounds (Reader.pure v) := fun _ _ _ _ _ => by simp [Reader.pure]

theorem InBounds.bind {p : Reader α} {q : α → Reader β} (h1 : InBounds p) (h2 : ∀ v, InBounds (q v)) :
    InBounds (p.bind q) := by
  intro buf len off hn hl
  unfold Reader.bind
  have := h1 buf len off hn hl
  cases hp : p buf len off with
  | ok r => exact h2 r.1 buf len r.2 hn hl
  | assertFail => simp
  | outOfBounds => exact absurd hp this

theorem InBounds.check (c : Bool) : InBounds (Reader.check c) := by
  intro buf len off _ _; unfold Reader.check; split_ifs <;> simp

theorem inBounds_popBytes (n : ℕ) : InBounds (popBytes n) := by
  intro buf len off hn hl
  unfold popBytes
  split_ifs with h1 h2
  · simp
  · exfalso
    rcases h1 with h1 | h1
    · omega
    · exact hn h1
  · simp

theorem InBounds.repeat {p : Reader α} (h : InBounds p) (n : ℕ) : InBounds (Reader.repeat p n) := by
  induction n with
  | zero => exact InBounds.pure _
  | succ n ih => exact h.bind fun a => ih.bind fun l => InBounds.pure _

/-! The fields -/

theorem reads_of_pop {n : ℕ} {f : List Byte → α} {bs : List Byte} {v : α} (hn : bs.length = n) (hf : f bs = v) :
    Reads ((popBytes n).bind fun l => Reader.pure (f l)) bs v := by
  subst hn hf
  have := Reads.bind (reads_popBytes bs) (q := fun l => Reader.pure (f l)) (Reads.pure _)
  rwa [List.append_nil] at this

theorem overruns_of_pop {n : ℕ} {f : List Byte → α} {bs : List Byte} (hn : bs.length = n) :
    Overruns ((popBytes n).bind fun l => Reader.pure (f l)) bs := by
  subst hn
  have := Overruns.bind (reads_popBytes bs) (overruns_popBytes bs) (q := fun l => Reader.pure (f l)) (Overruns.nil _)
  rwa [List.append_nil] at this

theorem reads_popI32 (v : I32) : Reads popI32 (enc32 v) v := reads_of_pop (by simp) (dec32_enc32 v)
theorem overruns_popI32 (v : I32) : Overruns popI32 (enc32 v) := overruns_of_pop (by simp)
theorem inBounds_popI32 : InBounds popI32 := (inBounds_popBytes 4).bind fun _ => InBounds.pure _

theorem reads_popPoint (p : Point) : Reads popPoint (encPoint p) p := by
  refine reads_of_pop (f := fun l => (⟨dec32 (l.take 4), dec32 ((l.drop 4).take 4), dec64 ((l.drop 8).take 8),
    dec64 ((l.drop 16).take 8), dec64 ((l.drop 24).take 8)⟩ : Point)) (by simp [encPoint]) ?_
  have h1 : (encPoint p).take 4 = enc32 p.coordim := by simp [encPoint, List.take_append]
  have h2 : ((encPoint p).drop 4).take 4 = enc32 p.vid := by simp [encPoint, List.take_append, List.drop_append]
  have h3 : ((encPoint p).drop 8).take 8 = enc64 p.x := by
    rw [show (encPoint p).drop 8 = enc64 p.x ++ (enc64 p.y ++ enc64 p.z) by
      simp [encPoint, List.drop_append]]
    simp [List.take_append]
  have h4 : ((encPoint p).drop 16).take 8 = enc64 p.y := by
    rw [show (encPoint p).drop 16 = enc64 p.y ++ enc64 p.z by
      simp only [encPoint, List.drop_append, length_enc32, length_enc64]
      rw [List.drop_eq_nil_of_le (as := enc32 p.coordim) (by simp), List.drop_eq_nil_of_le (as := enc32 p.vid) (by simp),
        List.drop_eq_nil_of_le (as := enc64 p.x) (by simp)]
      simp]
    simp [List.take_append]
  have h5 : ((encPoint p).drop 24).take 8 = enc64 p.z := by
    rw [show (encPoint p).drop 24 = enc64 p.z by
      simp only [encPoint, List.drop_append, length_enc32, length_enc64]
      rw [List.drop_eq_nil_of_le (as := enc32 p.coordim) (by simp), List.drop_eq_nil_of_le (as := enc32 p.vid) (by simp),
        List.drop_eq_nil_of_le (as := enc64 p.x) (by simp), List.drop_eq_nil_of_le (as := enc64 p.y) (by simp)]
      simp]
    rw [List.take_of_length_le (by simp)]
  simp only [h1, h2, h3, h4, h5, dec32_enc32, dec64_enc64]

theorem overruns_popPoint (p : Point) : Overruns popPoint (encPoint p) := overruns_of_pop (by simp [encPoint])
theorem inBounds_popPoint : InBounds popPoint := (inBounds_popBytes 32).bind fun _ => InBounds.pure _

theorem reads_popSpec (g : GeomPackSpec) : Reads popSpec (encSpec g) g := by
  refine reads_of_pop (f := fun l => (⟨dec32 (l.take 4), dec32 ((l.drop 4).take 4), dec32 ((l.drop 8).take 4)⟩ : GeomPackSpec))
    (by simp [encSpec]) ?_
  have h1 : (encSpec g).take 4 = enc32 g.a := by simp [encSpec, List.take_append]
  have h2 : ((encSpec g).drop 4).take 4 = enc32 g.b := by simp [encSpec, List.take_append, List.drop_append]
  have h3 : ((encSpec g).drop 8).take 4 = enc32 g.nPoints := by
    rw [show (encSpec g).drop 8 = enc32 g.nPoints by
      simp only [encSpec, List.drop_append, length_enc32]
      rw [List.drop_eq_nil_of_le (as := enc32 g.a) (by simp), List.drop_eq_nil_of_le (as := enc32 g.b) (by simp)]
      simp]
    rw [List.take_of_length_le (by simp)]
  simp only [h1, h2, h3, dec32_enc32]

theorem overruns_popSpec (g : GeomPackSpec) : Overruns popSpec (encSpec g) := overruns_of_pop (by simp [encSpec])
theorem inBounds_popSpec : InBounds popSpec := (inBounds_popBytes 12).bind fun _ => InBounds.pure _

end Verif.Lemmas
