import Verif.Model.ParameterStore

namespace Verif.Props.C05
open Verif.Model.ParameterStore

variable {R : Type*}

/-- Specification: the value most recently assigned to `k` in a history of `setParam` calls. -/
def lastSet : List (String × Value R) → String → Option (Value R)
  | [], _ => none
  | p :: rest, k =>
    match lastSet rest k with
    | some v => some v
    | none => if p.1 = k then some p.2 else none

theorem find_set (s : Store R) (n : String) (v : Value R) (k : String) :
    find (setParam s n v) k = if n = k then some v else find s k := by
  induction s with
  | nil =>
    simp only [setParam, find, List.lookup]
    by_cases h : n = k
    · subst h; simp
    · simp [h, beq_eq_false_iff_ne.2 (Ne.symm h)]
  | cons p rest ih =>
    obtain ⟨a, b⟩ := p
    simp only [find] at ih
    simp only [setParam, find]
    by_cases h1 : a = n
    · subst h1
      simp only [if_true, List.lookup]
      by_cases h : a = k
      · subst h; simp
      · simp [h, beq_eq_false_iff_ne.2 (Ne.symm h)]
    · rw [if_neg h1]
      simp only [List.lookup]
      by_cases h : k = a
      · subst h; simp [Ne.symm h1]
      · simp [beq_eq_false_iff_ne.2 h, ih]

theorem contains_iff (s : Store R) (k : String) : contains s k = true ↔ (find s k).isSome := by
  induction s with
  | nil => simp [contains, find]
  | cons p rest ih =>
    obtain ⟨a, b⟩ := p
    simp only [contains, find] at ih
    simp only [contains, find, List.any_cons, List.lookup, Bool.or_eq_true, beq_iff_eq]
    by_cases h : k = a
    · subst h; simp
    · simp [beq_eq_false_iff_ne.2 h, ih, Ne.symm h]

theorem find_addInternal (s : Store R) (m : List (String × Value R)) (k : String) :
    find (addInternal s m) k = (match lastSet m k with | some v => some v | none => find s k) := by
  induction m generalizing s with
  | nil => rfl
  | cons p rest ih =>
    simp only [addInternal, List.foldl_cons] at ih ⊢
    rw [ih, find_set, lastSet]
    cases lastSet rest k with
    | some v => rfl
    | none => by_cases h : p.1 = k <;> simp [h]

/-- **C05.** After any history of `setParam` calls on an empty store:
`contains` holds exactly for the keys that were set; `get<INT>` returns the last value set if it was an
`INT`, raises if the last value was a `REAL`, and returns the default exactly when the key was never set;
symmetrically for `get<REAL>`. -/
theorem store_behaves_as_map (history : List (String × Value R)) (k : String) (di : ℤ) (dr : R) :
    (contains (addInternal mk0 history) k = true ↔ ∃ p ∈ history, p.1 = k) ∧
    getInt (addInternal mk0 history) k di =
      (match lastSet history k with
        | none => .ok di
        | some (.int v) => .ok v
        | some (.real _) => .badVariantAccess) ∧
    getReal (addInternal mk0 history) k dr =
      (match lastSet history k with
        | none => .ok dr
        | some (.int _) => .badVariantAccess
        | some (.real v) => .ok v) := by
  have hf : find (addInternal mk0 history) k = lastSet history k := by
    rw [find_addInternal]; cases lastSet history k <;> rfl
  have hs : (lastSet history k).isSome ↔ ∃ p ∈ history, p.1 = k := by
    clear hf
    induction history with
    | nil => simp [lastSet]
    | cons p rest ih =>
      simp only [lastSet, List.mem_cons, exists_eq_or_imp, ← ih]
      cases lastSet rest k with
      | some v => simp
      | none => by_cases h : p.1 = k <;> simp [h]
  have hc : contains (addInternal mk0 history) k = true ↔ (lastSet history k).isSome := by
    rw [contains_iff, hf]
  refine ⟨hc.trans hs, ?_, ?_⟩
  · unfold getInt
    rw [hf]
    cases h : lastSet history k with
    | none =>
      rw [h] at hc; simp only [Option.isSome_none, Bool.false_eq_true, iff_false] at hc
      simp [hc]
    | some v =>
      rw [h] at hc; simp only [Option.isSome_some, iff_true] at hc
      simp only [hc, if_true]; cases v <;> rfl
  · unfold getReal
    rw [hf]
    cases h : lastSet history k with
    | none =>
      rw [h] at hc; simp only [Option.isSome_none, Bool.false_eq_true, iff_false] at hc
      simp [hc]
    | some v =>
      rw [h] at hc; simp only [Option.isSome_some, iff_true] at hc
      simp only [hc, if_true]; cases v <;> rfl

/-- **C05 (defaults).** Without a default the value of a key which was never set is zero. -/
theorem default_zero (history : List (String × Value R)) (k : String) (h : ∀ p ∈ history, p.1 ≠ k) : getInt (addInternal mk0 history) k = .ok 0 := by
  unfold getInt
  rw [if_neg]
  intro hc
  rw [contains_iff, find_addInternal] at hc
  have : lastSet history k = none := by
    clear hc
    induction history with
    | nil => rfl
    | cons p rest ih =>
      rw [lastSet, ih fun q hq => h q (List.mem_cons_of_mem _ hq), if_neg (h p List.mem_cons_self)]
  rw [this] at hc
  simp [find, mk0] at hc

/-- **C05 (frame).** Setting one key never affects another, and setting a key twice keeps the second
value. -/
theorem set_frame (s : Store R) (n k : String) (v w : Value R) :
    (n ≠ k → find (setParam s n v) k = find s k ∧ contains (setParam s n v) k = contains s k) ∧
    find (setParam (setParam s n v) n w) n = some w := by
  refine ⟨fun h => ⟨by rw [find_set, if_neg h], ?_⟩, by rw [find_set, if_pos rfl]⟩
  rw [Bool.eq_iff_iff, contains_iff, contains_iff, find_set, if_neg h]

/-- A store made from one map holds the values of that map. -/
theorem mk1_holds (m : List (String × Value R)) (k : String) : find (mk1 m) k = lastSet m k := by
  unfold mk1
  rw [find_addInternal]
  cases lastSet m k <;> rfl

/-- **C05 (two map constructor).** Entries of the second map take precedence over the first. -/
theorem mk2_second_wins (m0 m1 : List (String × Value R)) (k : String) :
    find (mk2 m0 m1) k =
      (match lastSet m1 k with | some v => some v | none => lastSet m0 k) := by
  unfold mk2
  rw [find_addInternal, find_addInternal]
  cases lastSet m1 k with
  | some v => rfl
  | none => cases lastSet m0 k <;> rfl

/-- Non-vacuity: an overwritten key, a key of the other type, an absent key. -/
example :
    let h : List (String × Value ℤ) := [("a", .int 1), ("b", .real 5), ("a", .int 2)]
    getInt (addInternal mk0 h) "a" 9 = .ok 2 ∧ getInt (addInternal mk0 h) "b" 9 = .badVariantAccess ∧
    getInt (addInternal mk0 h) "c" 9 = .ok 9 := by decide

end Verif.Props.C05
