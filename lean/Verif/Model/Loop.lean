import Mathlib.Data.List.Basic
import Mathlib.Data.List.Range

/-! Counted loops with a possible undefined outcome (`none`). -/

namespace Verif.Model

/-- `for (int i = 0; i < n; i++) s = body(i, s);`. The loop is undefined if an iteration is. No code: the `for` statement, as in bary_evaluation.hpp:28-30. -/
def forLoop {σ : Type*} : ℕ → (ℕ → σ → Option σ) → σ → Option σ
  | 0, _, s => some s
  | n + 1, body, s => (forLoop n body s).bind (body n)

/-- If `f i` is the state before iteration `i` then the loop ends in state `f n`. -/
theorem forLoop_eq {σ : Type*} (n : ℕ) (body : ℕ → σ → Option σ) (f : ℕ → σ) (s : σ) (h0 : s = f 0)
    (h : ∀ i < n, body i (f i) = some (f (i + 1))) : forLoop n body s = some (f n) := by
  induction n with
  | zero => rw [forLoop, h0]
  | succ n ih => rw [forLoop, ih fun i hi => h i (by omega), Option.bind_some, h n (by omega)]

end Verif.Model

namespace Verif.Model

/-- `for (int i = 0; i < n; i++) s = body(i, s);` for a body that is always defined. No code: the `for` statement, as in bary_evaluation.hpp:28-30. -/
def loop {σ : Type*} : ℕ → (ℕ → σ → σ) → σ → σ
  | 0, _, s => s
  | n + 1, body, s => body n (loop n body s)

theorem loop_eq {σ : Type*} (n : ℕ) (body : ℕ → σ → σ) (f : ℕ → σ) (s : σ) (h0 : s = f 0)
    (h : ∀ i < n, body i (f i) = f (i + 1)) : loop n body s = f n := by
  induction n with
  | zero => rw [loop, h0]
  | succ n ih => rw [loop, ih fun i hi => h i (by omega), h n (by omega)]

end Verif.Model
