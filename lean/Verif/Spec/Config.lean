import Verif.Model.ParticleReader
import Verif.Spec.NameValue
import Mathlib.Data.Nat.Digits.Defs

/-! Specification of the sections of a particle configuration. -/

namespace Verif.Spec.Config
open Verif.Model.ParticleReader (Str Elem Interp)
open Verif.Spec.NameValue

/-- Names equal up to the case of letters. -/
def SameName (a b : Str) : Prop := List.Forall₂ (fun c d : Char => c.toUpper = d.toUpper) a b

/-- Equality up to case is decidable. -/
instance (a b : Str) : Decidable (SameName a b) := inferInstanceAs (Decidable (List.Forall₂ _ a b))

/-- The value of the last definition of a name in a list of definitions. -/
def lastDef {V : Type} (ds : List (Str × V)) (name : Str) : Option V := ((ds.filter fun d => SameName d.1 name).getLast?).map Prod.snd

/-- The definitions of a list of parameter elements: an element without text defines nothing; an element with the text `name = value` defines the value
in the state with all previous definitions. -/
inductive Defines {σ V : Type} (I : Interp σ V) : σ → List Elem → σ → List (Str × V) → Prop
  | nil (s) : Defines I s [] s []
  | skip (s e l s' ds) : e.firstText = none → Defines I s l s' ds → Defines I s (e :: l) s' ds
  | value (s e l s' ds line n r v) : e.firstText = some line → NameValue line n r → I.eval s r = some v → Defines I (I.set s n v) l s' ds →
      Defines I s (e :: l) s' ((n, v) :: ds)

/-- `n` is the integer nearest to `x`; of two, the one farther from zero. -/
def IsNearest {K : Type*} [Field K] [LinearOrder K] (x : K) (n : ℤ) : Prop := |x - n| ≤ 1 / 2 ∧ (|x - n| = 1 / 2 → |x| ≤ |(n : K)|)

/-- The definitions of a list of info elements: pairs of the attributes PROPERTY and VALUE, none of them missing or empty. -/
def InfoDefs : List Elem → Option (List (Str × Str))
  | [] => some []
  | e :: l => match e.attr "PROPERTY".toList, e.attr "VALUE".toList with
    | some p, some v => if p ≠ [] ∧ v ≠ [] then (InfoDefs l).map ((p, v) :: ·) else none
    | _, _ => none

/-! ### Numbers, boundaries, reactions -/

/-- The value of decimal digits. -/
def decimal (s : Str) : ℕ := Nat.ofDigits 10 (s.reverse.map fun c => c.toNat - 48)

/-- The string starts, after white space, with the integer `v` in decimal notation; what follows the digits is not a digit. -/
def StartsWithInt (s : Str) (v : ℤ) : Prop :=
  ∃ ws sign ds rest, s = ws ++ (sign ++ (ds ++ rest)) ∧ (∀ c ∈ ws, c.toNat ∈ [9, 10, 11, 12, 13, 32]) ∧ ds ≠ [] ∧ (∀ c ∈ ds, c.isDigit = true) ∧
    (∀ c, rest.head? = some c → c.isDigit = false) ∧
    ((sign = [] ∧ v = decimal ds) ∨ (sign = ['+'] ∧ v = decimal ds) ∨ (sign = ['-'] ∧ v = -(decimal ds : ℤ)))

/-- The string starts with the `int` `v`. -/
def ReadsInt (s : Str) (v : ℤ) : Prop := StartsWithInt s v ∧ -2 ^ 31 ≤ v ∧ v < 2 ^ 31

/-- The attribute of that name starts with the `int` `v`. -/
def AttrInt (e : Elem) (name : String) (v : ℤ) : Prop := ∃ d, e.attr name.toList = some d ∧ ReadsInt d v

/-- `e` is the last element of the list with the property. -/
def IsLast (l : List Elem) (Q : Elem → Prop) (e : Elem) : Prop := ∃ before after, l = before ++ e :: after ∧ Q e ∧ ∀ x ∈ after, ¬ Q x

/-- A boundary condition element: element name C is reflective, P is periodic. -/
def HasType (e : Elem) (t : Verif.Model.ParticleReader.BType) : Prop := (e.name = ['C'] ∧ t = .reflective) ∨ (e.name = ['P'] ∧ t = .periodic)

/-- The type of the last condition for species `id` in a list of elements. -/
def LastCondition (l : List Elem) (id : ℤ) (t : Verif.Model.ParticleReader.BType) : Prop :=
  ∃ e, IsLast l (fun x => AttrInt x "SPECIES" id ∧ ∃ t, HasType x t) e ∧ HasType e t

/-! ### Which documents are accepted -/

/-- The elements of a list from the first one with the given name on. -/
def FromFirst (all : List Elem) (name : Str) (l : List Elem) : Prop :=
  ∃ before, all = before ++ l ∧ (∀ x ∈ before, x.name ≠ name) ∧ ∀ x, l.head? = some x → x.name = name

/-- The pieces of a string between separators. -/
def IsSplit (c : Char) (s : Str) (l : List Str) : Prop := (∀ p ∈ l, c ∉ p) ∧ [c].intercalate l = s ∧ l ≠ []

open Verif.Model.ParticleReader (Parsers FunDef Map)

/-- The region a periodic condition names: the text between the first opening and the first closing bracket (if there is no opening bracket, the text
before the first closing bracket) is a sequence of one number. -/
def PeriodicRegion (P : Parsers) (s : Str) : Prop :=
  ∃ front mid back, s = front ++ mid ++ ']' :: back ∧ ']' ∉ front ++ mid ∧
    ((front = [] ∧ '[' ∉ s) ∨ ∃ f, front = f ++ ['['] ∧ '[' ∉ f) ∧ ∃ n, P.seq mid = some [n]

/-- A condition element that is accepted. -/
structure ConditionOk (P : Parsers) (e : Elem) : Prop where
  species : ∃ id, AttrInt e "SPECIES" id
  reflective : e.name = ['C'] → ∀ a ∈ e.attrs, a.1 = "SPECIES".toList ∨ (a.1 = "VALUE".toList ∧ a.2 ≠ [])
  periodic : e.name = ['P'] → ∀ a ∈ e.attrs, (a.1 = "user_definedTYPE".toList → a.2 ≠ []) ∧ (a.1 = "VALUE".toList → PeriodicRegion P a.2)

/-- What an entry of a function defines: an expression in the variables `evars`, or a file (with the names of the variables in the file), time dependent
or not. -/
def EntryDefines (P : Parsers) (v : Elem) (vars : List Str) (evars : Str) (fd : FunDef) (names : List Str) : Prop :=
  (v.name = ['E'] ∧ ∃ s, v.attr "VALUE".toList = some s ∧ s ≠ [] ∧ P.equation s evars = true ∧ fd = ⟨0, some (s, evars), [], []⟩ ∧ names = []) ∨
  (v.name = ['F'] ∧ ∃ (tr : Bool) (s file : Str),
    ((v.attr "TIMEDEPENDENT".toList = none ∧ tr = false) ∨ ∃ t, v.attr "TIMEDEPENDENT".toList = some t ∧ P.bool t = some tr) ∧
    v.attr "FILE".toList = some s ∧ s ≠ [] ∧ ':' ∉ file ∧ fd = ⟨if tr then 2 else 1, none, file, []⟩ ∧
    ((s = file ∧ names = []) ∨
      ∃ list v0, s = file ++ ':' :: list ∧ ':' ∉ list ∧ vars.head? = some v0 ∧ v0 ≠ ['*'] ∧ IsSplit ',' list names ∧ names.length = vars.length))

/-- The parameters of several elements are defined one after the other. -/
inductive DefinesAll {σ V : Type} (I : Interp σ V) : σ → List (List Elem) → σ → Prop
  | nil (s) : DefinesAll I s [] s
  | cons (s l s' ls s'' ds) : Defines I s l s' ds → DefinesAll I s' ls s'' → DefinesAll I s (l :: ls) s''

end Verif.Spec.Config
