import Mathlib.Data.Nat.Notation
import Mathlib.Data.Int.Notation

/-!
Bytes and checked reads, used by the models of the geometry serialisation.

`int` is `BitVec 32` and `double` is its bit pattern, `BitVec 64`: copying with `memcpy` does not interpret it. The byte order
is little endian; the sender and the receiver are the same program on the same kind of machine.
-/

namespace Verif.Model.Bytes

/-- A byte of the buffers of packed_geom_2d.hpp:21-27. -/
abbrev Byte := ℕ
/-- `int`, packed_geom_2d.hpp:21-27. -/
abbrev I32 := BitVec 32
/-- `double`, packed_geom_2d.hpp:21-27. -/
abbrev F64 := BitVec 64

/-- The `k` bytes of a number. Representation in memory, no code. -/
def natBytes : ℕ → ℕ → List Byte
  | 0, _ => []
  | k + 1, n => n % 256 :: natBytes k (n / 256)

/-- The number of a list of bytes. Representation in memory, no code. -/
def bytesNat : List Byte → ℕ
  | [] => 0
  | b :: l => b + 256 * bytesNat l

/-- `memcpy(dst, &v, sizeof(int))`. packed_geom_2d.hpp:21-27. -/
def enc32 (v : I32) : List Byte := natBytes 4 v.toNat
/-- `memcpy(&v, src, sizeof(int))`, packed_geom_2d.hpp:30-37. -/
def dec32 (l : List Byte) : I32 := BitVec.ofNat 32 (bytesNat l)
/-- `memcpy(dst, &v, sizeof(double))`, packed_geom_2d.hpp:21-27. -/
def enc64 (v : F64) : List Byte := natBytes 8 v.toNat
/-- `memcpy(&v, src, sizeof(double))`, packed_geom_2d.hpp:30-37. -/
def dec64 (l : List Byte) : F64 := BitVec.ofNat 64 (bytesNat l)

/-- The outcome of code that may stop at an assertion or access memory outside of a buffer. No code: the outcomes of packed_geom_2d.hpp:30-37. -/
inductive Res (α : Type) where
  | ok (a : α)
  | assertFail
  | outOfBounds
  deriving DecidableEq

/-- Code that reads a buffer from an offset on: the bytes from the start pointer to the end of the allocation, the length the reader
was told (`-1`: no check) and the offset. `pop`, packed_geom_2d.hpp:30-37. -/
def Reader (α : Type) : Type := List Byte → ℤ → ℕ → Res (α × ℕ)

/-- No code: returning a value. -/
def Reader.pure {α : Type} (a : α) : Reader α := fun _ _ off => .ok (a, off)

/-- No code: one reader after the other. -/
def Reader.bind {α β : Type} (p : Reader α) (q : α → Reader β) : Reader β := fun buf len off =>
  match p buf len off with
  | .ok (a, off) => q a buf len off
  | .assertFail => .assertFail
  | .outOfBounds => .outOfBounds

/-- An assertion, packed_geom_2d.hpp:33-34. -/
def Reader.check (c : Bool) : Reader Unit := fun _ _ off => if c then .ok ((), off) else .assertFail

/-- An access outside of an array. No code. -/
def Reader.fault {α : Type} : Reader α := fun _ _ _ => .outOfBounds

/-- `n` repetitions. The `for` loops of packed_geom_2d.hpp:118-191. -/
def Reader.repeat {α : Type} (p : Reader α) : ℕ → Reader (List α)
  | 0 => Reader.pure []
  | n + 1 => p.bind fun a => (Reader.repeat p n).bind fun l => Reader.pure (a :: l)

/-- `pop`, packed_geom_2d.hpp:30-37, before the bytes are interpreted. -/
def popBytes (size : ℕ) : Reader (List Byte) := fun buf len off =>
  if ¬ ((off + size : ℤ) ≤ len ∨ len = -1) then .assertFail
  else if off + size ≤ buf.length then .ok ((buf.drop off).take size, off + size)
  else .outOfBounds

end Verif.Model.Bytes
