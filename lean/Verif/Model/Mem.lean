import Mathlib.Data.Int.Notation
import Mathlib.Data.Nat.Notation

/-!
Checked memory access. A C++ buffer is a `List`; an access outside of the buffer is
undefined behaviour and is modelled by the outcome `none`. A buffer that is allocated but not written is
a list of `Option`s whose unwritten entries are `none`.
-/

namespace Verif.Model.Mem

/-- `ptr[i]` for a buffer: `none` when `i` is outside the buffer. No code: an array access, as in bary_evaluation.hpp:32. -/
def read {α : Type*} (l : List α) (i : ℤ) : Option α :=
  if 0 ≤ i then l[i.toNat]? else none

/-- `ptr[i] = v`: `none` when `i` is outside the buffer. No code: an array access, as in bary_evaluation.hpp:29. -/
def write {α : Type*} (l : List α) (i : ℤ) (v : α) : Option (List α) :=
  if 0 ≤ i ∧ i < l.length then some (l.set i.toNat v) else none

theorem read_ofNat {α : Type*} (l : List α) (i : ℕ) : read l (i : ℤ) = l[i]? := by
  simp [read]

end Verif.Model.Mem
