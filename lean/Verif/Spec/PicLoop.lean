import Verif.Model.PicLoop

/-!
What a run of an electrostatic solver has to do, step by step: the trajectory, and when each output is due.
-/

namespace Verif.Spec.PicLoop
open Verif.Model.PicLoop

variable {P F V : Type}

/-- Particles and potential at the end of step `k` for the particles `p` at its begin, before the callbacks. -/
def moved (X : Ops P F V) (p : P) : P × F := (X.push2 (X.field (X.push1 p)).1, (X.field (X.push1 p)).2)

/-- The callbacks of step `k`, one after the other in the order of registration. -/
def called (X : Ops P F V) (k : ℕ) (s : P × F) : P × F := X.callbacks.foldl (fun s g => g k s.1 s.2) s

/-- The particles at the begin of step `k`. -/
def begin_ (X : Ops P F V) (p0 : P) : ℕ → P
  | 0 => p0
  | k + 1 => (called X k (moved X (begin_ X p0 k))).1

/-- What the diagnostics of step `k` see. -/
def at_ (X : Ops P F V) (p0 : P) (k : ℕ) : P × F := moved X (begin_ X p0 k)

/-- The steps below `n` that are multiples of a positive period. -/
def dueSteps (period : ℤ) (n : ℕ) : List ℕ := (List.range n).filter fun k => decide (0 < period ∧ period ∣ (k : ℤ))

end Verif.Spec.PicLoop
