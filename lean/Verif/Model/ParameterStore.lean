import Mathlib.Data.Int.Notation
import Mathlib.Data.Nat.Notation

/-! Model of `/repo/include/nektar_interface/parameter_store.hpp`. -/

namespace Verif.Model.ParameterStore

/-- `std::variant<INT, REAL>`, parameter_store.hpp line 21. -/
inductive Value (R : Type*) where
  | int (v : ℤ)
  | real (v : R)
deriving DecidableEq, Repr

/-- `std::map<std::string, std::variant<INT, REAL>> store`, line 21: one entry per key. -/
abbrev Store (R : Type*) := List (String × Value R)

variable {R : Type*}

/-- `store[name] = value` of line 64: overwrite the entry of an existing key, else add an entry
(the order of the entries is unobservable). -/
def setParam (s : Store R) (name : String) (value : Value R) : Store R :=
  match s with
  | [] => [(name, value)]
  | (k, v) :: rest => if k = name then (k, value) :: rest else (k, v) :: setParam rest name value

/-- `contains`, lines 73-75 (`store.count(name)`). -/
def contains (s : Store R) (name : String) : Bool := s.any (fun p => p.1 == name)

/-- `store[name]` for an existing key. parameter_store.hpp:85-97. -/
def find (s : Store R) (name : String) : Option (Value R) := s.lookup name

/-- Outcome of `get`: a value, or the `std::bad_variant_access` exception. parameter_store.hpp:85-97. -/
inductive Outcome (α : Type*) where
  | ok (v : α)
  | badVariantAccess
deriving DecidableEq, Repr

/-- `get<INT>(name, value)`, lines 85-94. -/
def getInt (s : Store R) (name : String) (value : ℤ := 0) : Outcome ℤ :=
  if contains s name then
    match find s name with
    | some (.int v) => .ok v
    | _ => .badVariantAccess
  else .ok value

/-- `get<REAL>(name, value)`, lines 85-94. -/
def getReal (s : Store R) (name : String) (value : R) : Outcome R :=
  if contains s name then
    match find s name with
    | some (.real v) => .ok v
    | _ => .badVariantAccess
  else .ok value

/-- `add_internal`, lines 23-28. -/
def addInternal (s : Store R) (m : List (String × Value R)) : Store R :=
  m.foldl (fun s p => setParam s p.1 p.2) s

/-- The constructors, lines 31-53 (zero, one and two input maps; each map is homogeneous in C++). -/
def mk0 : Store R := []
/-- parameter_store.hpp:38-46. -/
def mk1 (m : List (String × Value R)) : Store R := addInternal mk0 m
/-- parameter_store.hpp:48-54. -/
def mk2 (m0 m1 : List (String × Value R)) : Store R := addInternal (addInternal mk0 m0) m1

end Verif.Model.ParameterStore
