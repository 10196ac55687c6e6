import Verif.Model.Mem
import Verif.Model.Loop
import Mathlib.Data.List.Basic
import Mathlib.Data.List.Range
import Mathlib.Data.List.Lemmas

/-! A buffer whose first slots have been written in order. -/

namespace Verif.Lemmas
open Verif.Model

variable {α : Type*}

/-- The buffer `buf0` after its first `pre.length` slots have been overwritten by `pre`. -/
def fill (pre buf0 : List α) : List α := pre ++ buf0.drop pre.length

theorem fill_nil (buf0 : List α) : fill [] buf0 = buf0 := rfl

theorem length_fill (pre buf0 : List α) (h : pre.length ≤ buf0.length) : (fill pre buf0).length = buf0.length := by
  simp [fill]; omega

theorem write_fill (pre buf0 : List α) (v : α) (h : pre.length < buf0.length) :
    Mem.write (fill pre buf0) (pre.length : ℤ) v = some (fill (pre ++ [v]) buf0) := by
  rw [Mem.write, if_pos (by rw [length_fill _ _ (by omega)]; omega), Int.toNat_natCast, fill]
  congr 1
  rw [List.set_append, if_neg (by omega), Nat.sub_self, fill, List.length_append, List.length_singleton,
    List.drop_eq_getElem_cons h, List.set_cons_zero, List.append_assoc]
  rfl

theorem read_fill (pre buf0 : List α) (i : ℕ) (h : i < pre.length) :
    Mem.read (fill pre buf0) (i : ℤ) = some pre[i] := by
  rw [Mem.read_ofNat, fill, List.getElem?_append_left h, List.getElem?_eq_getElem h]

/-- Length of a list given by rows. -/
theorem length_flatMap_prefix {β : Type*} (g : ℕ → List β) (n p : ℕ) (h : p < n) :
    ((List.range p).flatMap g).length + (g p).length ≤ ((List.range n).flatMap g).length := by
  induction n with
  | zero => omega
  | succ n ih =>
    rw [List.range_succ, List.flatMap_append, List.length_append]
    rcases Nat.lt_or_ge p n with h' | h'
    · have := ih h'; omega
    · have : p = n := by omega
      subst this; simp

theorem flatMap_range_succ {β : Type*} (g : ℕ → List β) (n : ℕ) :
    (List.range (n + 1)).flatMap g = (List.range n).flatMap g ++ g n := by
  rw [List.range_succ, List.flatMap_append]; simp

theorem map_range_succ {β : Type*} (g : ℕ → β) (n : ℕ) :
    (List.range (n + 1)).map g = (List.range n).map g ++ [g n] := by
  rw [List.range_succ, List.map_append]; rfl

/-- Copying an initial segment of `pre.drop base` to the end of the written part. -/
theorem forLoop_copy (pre buf0 : List α) (base len : ℕ) (hb : base + len ≤ pre.length)
    (hl : pre.length + len ≤ buf0.length) :
    forLoop len (fun cx buf => (Mem.read buf ((base + cx : ℕ) : ℤ)).bind fun v =>
      Mem.write buf ((pre.length + cx : ℕ) : ℤ) v) (fill pre buf0) =
      some (fill (pre ++ (pre.drop base).take len) buf0) := by
  refine forLoop_eq len _ (fun cx => fill (pre ++ (pre.drop base).take cx) buf0) _ (by simp) ?_
  intro cx hcx
  have hlen : (pre ++ (pre.drop base).take cx).length = pre.length + cx := by simp; omega
  rw [read_fill _ _ _ (by omega), Option.bind_some]
  have := write_fill (pre ++ (pre.drop base).take cx) buf0 pre[base + cx] (by omega)
  rw [hlen] at this
  rw [List.getElem_append_left (by omega), this, List.append_assoc]
  congr 3
  rw [List.take_succ_eq_append_getElem (by simp; omega)]
  simp

theorem write_append_left (X Y : List α) (i : ℕ) (v : α) (h : i < X.length) :
    Mem.write (X ++ Y) (i : ℤ) v = (Mem.write X (i : ℤ) v).map (· ++ Y) := by
  rw [Mem.write, Mem.write, if_pos (by simp; omega), if_pos (by omega), Option.map_some, Int.toNat_natCast,
    List.set_append, if_pos h]

theorem write_append_right (X Y : List α) (i : ℕ) (v : α) :
    Mem.write (X ++ Y) ((X.length + i : ℕ) : ℤ) v = (Mem.write Y (i : ℤ) v).map (X ++ ·) := by
  by_cases h : i < Y.length
  · rw [Mem.write, Mem.write, if_pos (by simp; omega), if_pos (by omega), Option.map_some, Int.toNat_natCast,
      List.set_append, if_neg (by omega), Nat.add_sub_cancel_left, Int.toNat_natCast]
  · rw [Mem.write, Mem.write, if_neg (by simp; omega), if_neg (by omega), Option.map_none]

theorem read_append_left (X Y : List α) (i : ℕ) (h : i < X.length) :
    Mem.read (X ++ Y) (i : ℤ) = Mem.read X (i : ℤ) := by
  rw [Mem.read_ofNat, Mem.read_ofNat, List.getElem?_append_left h]

/-- Copying a segment of `pre` to two consecutive places at the end of the written part. -/
theorem forLoop_copyTwice (pre buf0 : List α) (base len : ℕ) (hb : base + len ≤ pre.length)
    (hl : pre.length + 2 * len ≤ buf0.length) :
    forLoop len (fun cx buf => (Mem.read buf ((base + cx : ℕ) : ℤ)).bind fun v =>
      (Mem.write buf ((pre.length + cx : ℕ) : ℤ) v).bind fun buf =>
      (Mem.read buf ((base + cx : ℕ) : ℤ)).bind fun v =>
      Mem.write buf ((pre.length + len + cx : ℕ) : ℤ) v) (fill pre buf0) =
      some (fill (pre ++ (pre.drop base).take len ++ (pre.drop base).take len) buf0) := by
  set seg := (pre.drop base).take len with hseg
  have hsl : seg.length = len := by simp [hseg]; omega
  set X0 := buf0.take (pre.length + len) with hX0
  set Y0 := buf0.drop (pre.length + len) with hY0
  have hX0l : X0.length = pre.length + len := by simp [hX0]; omega
  have hY0l : len ≤ Y0.length := by simp [hY0]; omega
  rw [forLoop_eq len _ (fun cx => fill (pre ++ seg.take cx) X0 ++ fill (seg.take cx) Y0)]
  · simp only [Option.some.injEq]
    rw [List.take_of_length_le (by omega)]
    unfold fill
    rw [List.drop_eq_nil_of_le (as := X0) (by simp; omega), hY0, List.drop_drop]
    simp [Nat.add_assoc, hsl]
  · unfold fill
    simp only [List.take_zero, List.append_nil, List.length_nil, List.drop_zero, List.nil_append, hX0, hY0,
      List.append_assoc]
    congr 1
    rw [List.drop_take, Nat.add_sub_cancel_left, ← List.drop_drop, List.take_append_drop]
  · intro cx hcx
    have hXl : (fill (pre ++ seg.take cx) X0).length = pre.length + len := by
      rw [length_fill _ _ (by simp; omega), hX0l]
    have hXl1 : (fill (pre ++ seg.take (cx + 1)) X0).length = pre.length + len := by
      rw [length_fill _ _ (by simp; omega), hX0l]
    have hg : seg[cx]'(by omega) = pre[base + cx]'(by omega) := by simp [hseg]
    have ht : seg.take (cx + 1) = seg.take cx ++ [pre[base + cx]'(by omega)] := by
      rw [List.take_succ_eq_append_getElem (by omega), hg]
    have hc1 : pre.length + cx = (pre ++ seg.take cx).length := by simp; omega
    have hc2 : cx = (seg.take cx).length := by simp; omega
    rw [read_append_left _ _ _ (by omega), read_fill _ _ _ (by simp; omega), Option.bind_some,
      List.getElem_append_left (by omega), write_append_left _ _ _ _ (by omega), hc1,
      write_fill _ _ _ (by omega), List.append_assoc, ← ht, Option.map_some, Option.bind_some,
      read_append_left _ _ _ (by omega), read_fill _ _ _ (by simp; omega), Option.bind_some,
      List.getElem_append_left (by omega), ← hXl1, write_append_right]
    have hw := write_fill (seg.take cx) Y0 (pre[base + cx]'(by omega)) (by omega)
    rw [← hc2, ← ht] at hw
    rw [hw, Option.map_some]

end Verif.Lemmas
