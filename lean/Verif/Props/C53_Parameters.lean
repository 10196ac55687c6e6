import Verif.Props.C52_ParseEquals
import Verif.Spec.Config
import Mathlib.Tactic.Linarith
import Mathlib.Tactic.NormNum
import Mathlib.Data.Rat.Floor

/-! C53: parameters and info are maps that do not depend on the case of names. -/

namespace Verif.Props.C53
open Verif.Model.ParticleReader
open Verif.Spec.Config Verif.Spec.NameValue

theorem same_iff (a b : Str) : SameName a b ↔ upper a = upper b := by
  unfold SameName upper
  rw [← List.forall₂_eq_eq_eq, List.forall₂_map_left_iff, List.forall₂_map_right_iff]

theorem lastDef_cons {V : Type} (d : Str × V) (ds : List (Str × V)) (name : Str) :
    lastDef (d :: ds) name = (lastDef ds name).or (if SameName d.1 name then some d.2 else none) := by
  unfold lastDef
  by_cases h : SameName d.1 name
  · rw [List.filter_cons_of_pos (by simpa using h), if_pos h]
    cases hf : ds.filter fun d => decide (SameName d.1 name) with
    | nil => simp
    | cons a l => simp [List.getLast?_cons_cons, List.getLast?_cons]
  · rw [List.filter_cons_of_neg (by simpa using h), if_neg h, Option.or_none]

/-- The lines are shorter than the longest string. -/
def Short (l : List Elem) : Prop := ∀ e ∈ l, ∀ t, e.firstText = some t → t.length < npos

/-- The loop reads the definitions in order. -/
theorem loop_iff {σ V : Type} (I : Interp σ V) : ∀ (l : List Elem) (hl : Short l) (s : σ) (m : Map Str V) (s' : σ) (m' : Map Str V),
    readParamLoop I l (s, m) = some (s', m') ↔ ∃ ds, Defines I s l s' ds ∧ m' = fun k => (((ds.filter fun d => upper d.1 = k).getLast?).map Prod.snd).or (m k)
  | [], _, s, m, s', m' => by
    constructor
    · intro h
      simp only [readParamLoop, Option.some.injEq, Prod.mk.injEq] at h
      rw [← h.1, ← h.2]
      exact ⟨[], .nil s, by simp⟩
    · rintro ⟨ds, hd, rfl⟩
      cases hd
      simp [readParamLoop]
  | e :: l, hl, s, m, s', m' => by
    have hl' : Short l := fun x hx => hl x (by simp [hx])
    rw [readParamLoop, readParam]
    cases he : e.firstText with
    | none =>
      simp only [Option.bind_some]
      rw [loop_iff I l hl']
      constructor
      · rintro ⟨ds, hd, h⟩
        exact ⟨ds, .skip _ _ _ _ _ he hd, h⟩
      · rintro ⟨ds, hd, h⟩
        cases hd with
        | skip _ _ _ _ _ _ hd => exact ⟨ds, hd, h⟩
        | value _ _ _ _ _ _ _ _ _ h1 => rw [he] at h1; exact absurd h1 (by simp)
    | some line =>
      have hlen := hl e (by simp) line he
      dsimp only
      have put : ∀ (n : Str) (v : V) (ds : List (Str × V)),
          (fun k => (((ds.filter fun d => upper d.1 = k).getLast?).map Prod.snd).or (m.put (upper n) v k)) =
          fun k => ((((n, v) :: ds).filter fun d => upper d.1 = k).getLast?.map Prod.snd).or (m k) := by
        intro n v ds
        funext k
        by_cases hk : upper n = k
        · rw [List.filter_cons_of_pos (by simpa using hk)]
          cases hf : ds.filter fun d => decide (upper d.1 = k) with
          | nil => simp [Map.put, hk]
          | cons a l => simp [List.getLast?_cons_cons, List.getLast?_cons]
        · rw [List.filter_cons_of_neg (by simpa using hk)]
          simp [Map.put, Ne.symm hk]
      constructor
      · intro h
        cases hp : parseEquals line with
        | none => rw [hp] at h; simp at h
        | some nr =>
          obtain ⟨n, r⟩ := nr
          have hnv := (C52.parse_iff line n r hlen).1 hp
          have hne : n ≠ [] ∧ r ≠ [] := by
            obtain ⟨_, _, _, _, _, _, _, h1, h2⟩ := hnv
            exact ⟨h1, h2⟩
          rw [hp] at h
          simp only [if_pos hne] at h
          cases hv : I.eval s r with
          | none => rw [hv] at h; simp at h
          | some v =>
            rw [hv] at h
            simp only [Option.bind_some] at h
            obtain ⟨ds, hd, rfl⟩ := (loop_iff I l hl' _ _ _ _).1 h
            exact ⟨(n, v) :: ds, .value _ _ _ _ _ line n r v he hnv hv hd, put n v ds⟩
      · rintro ⟨ds, hd, rfl⟩
        cases hd with
        | skip _ _ _ _ _ h1 => rw [he] at h1; exact absurd h1 (by simp)
        | value _ _ _ _ ds line' n r v h1 hnv hv hd =>
          rw [he, Option.some.injEq] at h1
          subst h1
          have hne : n ≠ [] ∧ r ≠ [] := by
            obtain ⟨_, _, _, _, _, _, _, h1, h2⟩ := hnv
            exact ⟨h1, h2⟩
          rw [(C52.parse_iff line n r hlen).2 hnv]
          simp only [if_pos hne, hv, Option.bind_some]
          exact (loop_iff I l hl' _ _ _ _).2 ⟨ds, hd, (put n v ds).symm⟩

/-- The parameter elements of a document. -/
def paramElems (particles : Elem) : List Elem := match particles.first "PARAMETERS".toList with
  | none => []
  | some p => p.fromFirst ['P']

/-- **C53, parameters.** For every document: reading succeeds exactly if all parameter elements are definitions `name = value` that can be evaluated, and
then `get_parameter` of any name is the value of its last definition, up to case. -/
theorem parameters_spec {σ V : Type} (I : Interp σ V) (particles : Elem) (hl : Short (paramElems particles)) (s : σ) :
    (∀ s' m, readParameters I particles s = some (s', m) →
      ∃ ds, Defines I s (paramElems particles) s' ds ∧ ∀ name, getParameter m name = lastDef ds name) ∧
    (∀ s' ds, Defines I s (paramElems particles) s' ds →
      ∃ m, readParameters I particles s = some (s', m) ∧ ∀ name, getParameter m name = lastDef ds name) := by
  have e : readParameters I particles s = readParamLoop I (paramElems particles) (s, fun _ => none) := by
    unfold readParameters paramElems
    cases particles.first "PARAMETERS".toList <;> rfl
  have conv : ∀ (ds : List (Str × V)) (name : Str),
      getParameter (fun k => (((ds.filter fun d => upper d.1 = k).getLast?).map Prod.snd).or none) name = lastDef ds name := by
    intro ds name
    unfold getParameter lastDef
    simp only [Option.or_none, same_iff]
  constructor
  · intro s' m h
    rw [e] at h
    obtain ⟨ds, hd, rfl⟩ := (loop_iff I _ hl _ _ _ _).1 h
    exact ⟨ds, hd, conv ds⟩
  · intro s' ds hd
    rw [e]
    exact ⟨_, (loop_iff I _ hl _ _ _ _).2 ⟨ds, hd, rfl⟩, conv ds⟩

/-- **C53, case.** Names that differ only in case are the same parameter for every query; the value is available exactly if the parameter is defined; the
default is used exactly if it is not. -/
theorem queries_agree {V : Type} (m : Map Str V) (a b : Str) (h : SameName a b) (d : V) :
    definesParameter m a = definesParameter m b ∧ getParameter m a = getParameter m b ∧ loadDouble m a = loadDouble m b ∧
    loadDoubleDef m a d = loadDoubleDef m b d ∧ ((definesParameter m a = true ↔ ∃ v, getParameter m a = some v)) ∧
    (∀ v, getParameter m a = some v → loadDouble m a = some v ∧ loadDoubleDef m a d = v) ∧
    (definesParameter m a = false → loadDouble m a = none ∧ loadDoubleDef m a d = d) := by
  have e := (same_iff a b).1 h
  unfold definesParameter getParameter loadDouble loadDoubleDef
  rw [e]
  refine ⟨rfl, rfl, rfl, rfl, ?_, ?_, ?_⟩
  · rw [Option.isSome_iff_exists]
  · intro v hv; simp [hv]
  · intro hv; simp at hv; simp [hv]

section
variable {K : Type} [Field K] [LinearOrder K] [IsStrictOrderedRing K] [FloorRing K]

/-- C's `round`. -/
theorem round_nearest (x : K) (n : ℤ) : cround x = n ↔ IsNearest x n := by
  unfold cround IsNearest
  by_cases hx : 0 ≤ x
  · rw [if_pos hx, Int.floor_eq_iff]
    constructor
    · rintro ⟨h1, h2⟩
      refine ⟨abs_le.2 ⟨by linarith, by linarith⟩, fun he => ?_⟩
      have hn : (0 : K) ≤ n := by
        have h3 : (-1 : K) < n := by linarith
        have : (-1 : ℤ) < n := by exact_mod_cast h3
        exact_mod_cast (by omega : 0 ≤ n)
      rw [abs_of_nonneg hx, abs_of_nonneg hn]
      rcases abs_cases (x - n) with ⟨h, _⟩ | ⟨h, _⟩ <;> rw [h] at he <;> linarith
    · rintro ⟨h1, h2⟩
      obtain ⟨h3, h4⟩ := abs_le.1 h1
      refine ⟨by linarith, lt_of_le_of_ne (by linarith) fun he => ?_⟩
      have hd : x - n = 1 / 2 := by linarith
      have h5 := h2 (by rw [hd]; exact abs_of_pos (by norm_num))
      rw [abs_of_nonneg hx] at h5
      rcases abs_cases (n : K) with ⟨h, _⟩ | ⟨h, hneg⟩ <;> rw [h] at h5
      · linarith
      · have : n ≤ -1 := by
          have : n < 0 := by exact_mod_cast hneg
          omega
        have h6 : (n : K) ≤ -1 := by exact_mod_cast this
        linarith
  · rw [not_le] at hx
    rw [if_neg (not_le.2 hx), Int.ceil_eq_iff]
    constructor
    · rintro ⟨h1, h2⟩
      refine ⟨abs_le.2 ⟨by linarith, by linarith⟩, fun he => ?_⟩
      have hn : (n : K) ≤ 0 := by
        have h3 : (n : K) < 1 := by linarith
        have : n < 1 := by exact_mod_cast h3
        exact_mod_cast (by omega : n ≤ 0)
      rw [abs_of_neg hx, abs_of_nonpos hn]
      rcases abs_cases (x - n) with ⟨h, _⟩ | ⟨h, _⟩ <;> rw [h] at he <;> linarith
    · rintro ⟨h1, h2⟩
      obtain ⟨h3, h4⟩ := abs_le.1 h1
      refine ⟨lt_of_le_of_ne (by linarith) fun he => ?_, by linarith⟩
      have hd : x - n = -(1 / 2) := by linarith
      have h5 := h2 (by rw [hd, abs_neg]; exact abs_of_pos (by norm_num))
      rw [abs_of_neg hx] at h5
      rcases abs_cases (n : K) with ⟨h, hpos⟩ | ⟨h, _⟩ <;> rw [h] at h5
      · rcases (show n = 0 ∨ 1 ≤ n by have : (0 : ℤ) ≤ n := by exact_mod_cast hpos
                                      omega) with h0 | h0
        · subst h0; push_cast at h5; linarith
        · have h6 : (1 : K) ≤ n := by exact_mod_cast h0
          linarith
      · linarith

/-- **C53, integers.** Loading an `int` gives `n` exactly if the parameter is defined, `n` is the nearest integer to its value and is an `int`; with a
default, also if it is not defined and `n` is the default. -/
theorem load_int (m : Map Str K) (name : Str) (d n : ℤ) :
    (loadInt m name = some n ↔ ∃ v, getParameter m name = some v ∧ IsNearest v n ∧ -2 ^ 31 ≤ n ∧ n < 2 ^ 31) ∧
    (loadIntDef m name d = some n ↔ (∃ v, getParameter m name = some v ∧ IsNearest v n ∧ -2 ^ 31 ≤ n ∧ n < 2 ^ 31) ∨ (definesParameter m name = false ∧ n = d)) := by
  have cast : ∀ v : K, checkedCast (cround v) = some n ↔ IsNearest v n ∧ -2 ^ 31 ≤ n ∧ n < 2 ^ 31 := by
    intro v
    unfold checkedCast
    split_ifs with h
    · rw [Option.some.injEq, round_nearest]
      constructor
      · intro h'
        rw [(round_nearest v n).2 h'] at h
        exact ⟨h', h⟩
      · exact fun h' => h'.1
    · constructor
      · simp
      · rintro ⟨h1, h2⟩
        rw [(round_nearest v n).2 h1] at h
        exact absurd h2 h
  unfold loadInt loadIntDef getParameter definesParameter
  cases m (upper name) with
  | none => simp [eq_comm]
  | some v => simp [cast]

/-- Loading a `std::size_t` of a value that rounds to a non-negative `int` gives that integer. -/
theorem load_size_partial (m : Map Str K) (name : Str) (d : ℕ) (v : K) (n : ℕ) (hv : getParameter m name = some v) (hn : IsNearest v n) (hr : n < 2 ^ 31) :
    loadSize m name = some n ∧ loadSizeDef m name d = some n := by
  unfold getParameter at hv
  unfold loadSize loadSizeDef
  have : checkedCast (cround v) = some (n : ℤ) := by
    rw [(round_nearest v n).2 hn, checkedCast, if_pos (by constructor <;> omega)]
  have ht : toSizeT (n : ℤ) = n := by unfold toSizeT; omega
  simp [hv, this, ht]

/-- Loading a `std::size_t` that is not defined fails without a default, and gives the default otherwise. -/
theorem load_size_absent (m : Map Str K) (name : Str) (d : ℕ) (hv : getParameter m name = none) : loadSize m name = none ∧ loadSizeDef m name d = some d := by
  unfold getParameter at hv
  unfold loadSize loadSizeDef
  simp [hv]

end

/-- Finding: loading a `std::size_t` of the value -1 succeeds with the largest value of the type, and a value of 2^31 that the type can hold is rejected. -/
theorem load_size_negative : loadSize (K := ℚ) (fun _ => some (-1)) [] = some (2 ^ 64 - 1) ∧ loadSize (K := ℚ) (fun _ => some (2 ^ 31)) [] = none := by
  have h1 : cround (-1 : ℚ) = -1 := by rw [round_nearest]; exact ⟨by norm_num, by norm_num⟩
  have h2 : cround (2 ^ 31 : ℚ) = 2 ^ 31 := by rw [round_nearest]; exact ⟨by norm_num, by norm_num⟩
  constructor
  · simp [loadSize, h1, checkedCast, toSizeT]
  · simp [loadSize, h2, checkedCast]

/-! ### Info -/

theorem infoLoop_iff : ∀ (l : List Elem) (m m' : Map Str Str), readInfoLoop l m = some m' ↔
    ∃ ds, InfoDefs l = some ds ∧ m' = fun k => (((ds.filter fun d => upper d.1 = k).getLast?).map Prod.snd).or (m k)
  | [], m, m' => by
    simp [readInfoLoop, InfoDefs, eq_comm]
  | e :: l, m, m' => by
    rw [readInfoLoop, InfoDefs]
    cases h1 : e.attr "PROPERTY".toList with
    | none => simp
    | some p =>
      cases h2 : e.attr "VALUE".toList with
      | none => simp
      | some v =>
        dsimp only
        by_cases hp : p = []
        · simp [hp]
        · by_cases hv : v = []
          · simp [hv]
          · rw [if_neg hp, if_neg hv, if_pos ⟨hp, hv⟩, infoLoop_iff l]
            have put : ∀ ds : List (Str × Str),
                (fun k => (((ds.filter fun d => upper d.1 = k).getLast?).map Prod.snd).or (m.put (upper p) v k)) =
                fun k => ((((p, v) :: ds).filter fun d => upper d.1 = k).getLast?.map Prod.snd).or (m k) := by
              intro ds
              funext k
              by_cases hk : upper p = k
              · rw [List.filter_cons_of_pos (by simpa using hk)]
                cases hf : ds.filter fun d => decide (upper d.1 = k) with
                | nil => simp [Map.put, hk]
                | cons a l => simp [List.getLast?_cons_cons, List.getLast?_cons]
              · rw [List.filter_cons_of_neg (by simpa using hk)]
                simp [Map.put, Ne.symm hk]
            constructor
            · rintro ⟨ds, hd, rfl⟩
              exact ⟨(p, v) :: ds, by rw [hd]; rfl, put ds⟩
            · rintro ⟨ds, hd, rfl⟩
              rw [Option.map_eq_some_iff] at hd
              obtain ⟨ds', hd, rfl⟩ := hd
              exact ⟨ds', hd, (put ds').symm⟩

/-- The info elements of a document. -/
def infoElems (p : Elem) : List Elem := match p.first "INFO".toList with
  | none => []
  | some i => i.named ['I']

/-- **C53, info.** For every document with a PARTICLES section: reading succeeds exactly if no info element lacks a non-empty property and value;
`defines_info` holds exactly for the names that are defined, up to case. -/
theorem info_spec (p : Elem) (m m' : Map Str Str) : readInfo (some p) m = some m' →
    ∃ ds, InfoDefs (infoElems p) = some ds ∧ ∀ name, m' (upper name) = lastDef ds name ∧ (definesInfo m' name = true ↔ ∃ d ∈ ds, SameName d.1 name) := by
  intro h
  have e : readInfo (some p) m = readInfoLoop (infoElems p) fun _ => none := by
    unfold readInfo infoElems
    dsimp only
    cases p.first "INFO".toList <;> rfl
  rw [e] at h
  obtain ⟨ds, hd, rfl⟩ := (infoLoop_iff _ _ _).1 h
  refine ⟨ds, hd, fun name => ⟨?_, ?_⟩⟩
  · simp only [Option.or_none, lastDef, same_iff]
  · unfold definesInfo
    simp only [Option.or_none, Option.isSome_map, same_iff]
    cases hf : ds.filter fun d => decide (upper d.1 = upper name) with
    | nil =>
      rw [List.filter_eq_nil_iff] at hf
      simp only [List.getLast?_nil, Option.isSome_none, Bool.false_eq_true, false_iff, not_exists, not_and]
      exact fun d hd => by simpa using hf d hd
    | cons a l =>
      simp only [List.getLast?_cons, Option.isSome_some, true_iff]
      have : a ∈ ds.filter fun d => decide (upper d.1 = upper name) := by rw [hf]; simp
      rw [List.mem_filter] at this
      exact ⟨a, this.1, by simpa using this.2⟩

/-- `get_info` of a name in upper case is the value of its last definition, up to case. What is missing: the same for every name. -/
theorem get_info_partial (p : Elem) (m m' : Map Str Str) (h : readInfo (some p) m = some m') (name : Str) (hn : upper name = name) :
    ∃ ds, InfoDefs (infoElems p) = some ds ∧ getInfo m' name = lastDef ds name := by
  obtain ⟨ds, hd, hs⟩ := info_spec p m m' h
  refine ⟨ds, hd, ?_⟩
  rw [getInfo, ← (hs name).1, hn]

/-- Finding: `get_info` searches for the name as given in a map whose keys are in upper case: a defined name not in upper case is never found. -/
theorem get_info_fails (p : Elem) (m m' : Map Str Str) (h : readInfo (some p) m = some m') (name : Str) (hn : upper name ≠ name) : getInfo m' name = none := by
  have e : readInfo (some p) m = readInfoLoop (infoElems p) fun _ => none := by
    unfold readInfo infoElems
    dsimp only
    cases p.first "INFO".toList <;> rfl
  rw [e] at h
  obtain ⟨ds, hd, rfl⟩ := (infoLoop_iff _ _ _).1 h
  have upper_upper : ∀ s : Str, upper (upper s) = upper s := by
    intro s
    unfold upper
    rw [List.map_map]
    apply List.map_congr_left
    intro c _
    simp only [Function.comp]
    unfold Char.toUpper
    split_ifs with h1 h2
    · exfalso
      have h3 := h1.1
      have h4 := h1.2
      have h5 := h2.1
      simp only [ge_iff_le, UInt32.le_iff_toNat_le, UInt32.toNat_add] at h3 h4 h5
      have a1 : 'a'.val.toNat = 97 := rfl
      have a2 : 'z'.val.toNat = 122 := rfl
      have a3 : ('A'.val - 'a'.val).toNat = 4294967264 := rfl
      rw [a1] at h3 h5
      rw [a2] at h4
      rw [a3] at h5
      omega
    · rfl
    · rfl
  have hf : ds.filter (fun d => upper d.1 = name) = [] := by
    rw [List.filter_eq_nil_iff]
    intro d _ hc
    simp only [decide_eq_true_eq] at hc
    exact hn (by rw [← hc, upper_upper])
  simp [getInfo, hf]

/-- Finding: the claim that `get_info` succeeds exactly for the defined names fails. -/
theorem get_info_not_case_insensitive : ¬ ∀ (p : Elem) (m m' : Map Str Str) (name : Str), readInfo (some p) m = some m' →
    definesInfo m' name = true → (getInfo m' name).isSome = true := by
  intro h
  have := h ⟨[], [], [.elem "INFO".toList [] [.elem ['I'] [("PROPERTY".toList, "System".toList), ("VALUE".toList, "A".toList)] []]]⟩ (fun _ => none)
    (fun k => if k = "SYSTEM".toList then some "A".toList else none) "System".toList (by
      simp [readInfo, Elem.first, Elem.named, Elem.elems, readInfoLoop, Elem.attr]
      funext k
      simp only [Map.put]
      rfl) (by decide +kernel)
  exact absurd this (by decide +kernel)

/-! ### An example -/

/-- A toy interpreter: the state is the list of definitions, the value of an expression is its length or that of a name. -/
def toy : Interp (List (Str × ℚ)) ℚ where
  eval s e := if e = "bad".toList then none else some (((s.find? fun d => d.1 = e).map Prod.snd).getD e.length)
  set s n v := (n, v) :: s

def doc : Elem := ⟨"PARTICLES".toList, [], [.elem "PARAMETERS".toList [] [.other,
  .elem ['P'] [] [.other, .text " num = 12345".toList], .elem ['P'] [] [], .elem ['Q'] [] [.text "NuM = num".toList], .elem ['P'] [] [.text "dt = 12".toList]]]⟩

/-- The last definition of a name is found with any case. -/
example : ((readParameters toy doc []).map fun r => [getParameter r.2 "NUM".toList, getParameter r.2 "DT".toList, getParameter r.2 "x".toList]) =
    some [some 5, some 2, none] := by decide +kernel

/-- The text of an element is its first text node; an element without one has none. -/
theorem first_text (e : Elem) (s : Str) : e.firstText = some s ↔ ∃ pre post, e.children = pre ++ .text s :: post ∧ ∀ x ∈ pre, ∀ t, x ≠ .text t := by
  unfold Elem.firstText
  generalize e.children = l
  induction l with
  | nil => simp
  | cons a l ih =>
    cases a with
    | text t =>
      simp only [List.findSome?_cons]
      constructor
      · intro h
        cases h
        exact ⟨[], l, rfl, by simp⟩
      · rintro ⟨pre, post, h, hp⟩
        cases pre with
        | nil => simp only [List.nil_append, List.cons.injEq] at h; cases h.1; rfl
        | cons x pre =>
          simp only [List.cons_append, List.cons.injEq] at h
          exact absurd h.1.symm (hp x (List.mem_cons_self ..) t)
    | _ =>
      simp only [List.findSome?_cons]
      rw [ih]
      constructor
      · rintro ⟨pre, post, h, hp⟩
        refine ⟨_ :: pre, post, by rw [h]; rfl, fun x hx t => ?_⟩
        rcases List.mem_cons.1 hx with rfl | hx
        · simp
        · exact hp x hx t
      · rintro ⟨pre, post, h, hp⟩
        cases pre with
        | nil => simp at h
        | cons x pre =>
          simp only [List.cons_append, List.cons.injEq] at h
          exact ⟨pre, post, h.2, fun y hy => hp y (List.mem_cons_of_mem _ hy)⟩

end Verif.Props.C53
