import Mathlib.Data.List.Range

/-!
The documented ordering of the modes (see Nektar++): the first index runs slowest.
-/

namespace Verif.Spec

/-- The modes `(p, q)` with `p + q < n`. -/
def modesB (n : ℕ) : List (ℕ × ℕ) :=
  (List.range n).flatMap fun p => (List.range (n - p)).map fun q => (p, q)

/-- The modes `(p, q, r)` with `p + q + r < n`. -/
def modesC (n : ℕ) : List (ℕ × ℕ × ℕ) :=
  (List.range n).flatMap fun p => (List.range (n - p)).flatMap fun q =>
    (List.range (n - p - q)).map fun r => (p, q, r)

/-- The modes `(p, q, r)` with `max p q + r < n`. -/
def modesPyr (n : ℕ) : List (ℕ × ℕ × ℕ) :=
  (List.range n).flatMap fun p => (List.range n).flatMap fun q =>
    (List.range (n - max p q)).map fun r => (p, q, r)

end Verif.Spec
