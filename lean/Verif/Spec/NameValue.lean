import Mathlib.Data.List.Basic

/-! Specification of lines `name = value`. -/

namespace Verif.Spec.NameValue

/-- `t` is `s` without the spaces at both ends. -/
def Trimmed (s t : List Char) : Prop :=
  ∃ pre post, s = pre ++ t ++ post ∧ (∀ c ∈ pre, c = ' ') ∧ (∀ c ∈ post, c = ' ') ∧ t.head? ≠ some ' ' ∧ t.getLast? ≠ some ' '

/-- The line has exactly one `=`, with the name `l` before it and the value `r` after it, both not empty, and spaces around them. -/
def NameValue (line l r : List Char) : Prop :=
  ∃ a b, line = a ++ '=' :: b ∧ '=' ∉ a ∧ '=' ∉ b ∧ Trimmed a l ∧ Trimmed b r ∧ l ≠ [] ∧ r ≠ []

end Verif.Spec.NameValue
