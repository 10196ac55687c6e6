import Verif.Model.Utilities
import Mathlib.Data.List.Nodup
import Mathlib.Data.List.Induction
import Mathlib.Algebra.Order.Ring.Int
import Mathlib.Tactic.Ring

namespace Verif.Props.C43
open Verif.Model.Utilities

theorem lookup_filter_ne (m : List (String × ℤ)) (k n : String) (h : n ≠ k) :
    (m.filter (fun p => p.1 ≠ k)).lookup n = m.lookup n := by
  induction m with
  | nil => rfl
  | cons p ps ih =>
    obtain ⟨a, b⟩ := p
    by_cases hak : a = k
    · subst hak
      rw [List.filter_cons_of_neg (by simp), ih, List.lookup_cons, beq_eq_false_iff_ne.2 h]
    · rw [List.filter_cons_of_pos (by simpa using hak), List.lookup_cons, List.lookup_cons, ih]

theorem lookup_mapAssign (m : List (String × ℤ)) (k n : String) (v : ℤ) :
    (mapAssign m k v).lookup n = if n = k then some v else m.lookup n := by
  unfold mapAssign
  rw [List.lookup_cons]
  by_cases h : n = k
  · subst h; simp
  · rw [beq_eq_false_iff_ne.2 h, if_neg h, lookup_filter_ne m k n h]

theorem mkIndexMap_gen (names : List String) (m : List (String × ℤ)) (i : ℤ) (n : String) :
    ((names.foldl (fun (s : List (String × ℤ) × ℤ) n => (mapAssign s.1 n s.2, s.2 + 1)) (m, i)).1).lookup n
      = (match names.reverse.idxOf? n with
          | some j => some (i + (names.length - 1 - j : ℕ))
          | none => m.lookup n) := by
  induction names using List.reverseRecOn generalizing m i with
  | nil => rfl
  | append_singleton as a ih =>
    have hsnd : ∀ (l : List String) (m : List (String × ℤ)) (i : ℤ),
        (l.foldl (fun (s : List (String × ℤ) × ℤ) n => (mapAssign s.1 n s.2, s.2 + 1)) (m, i)).2
          = i + l.length := by
      intro l
      induction l with
      | nil => simp
      | cons b bs ih => intro m i; rw [List.foldl_cons, ih]; push_cast [List.length_cons]; ring
    rw [List.foldl_append, List.foldl_cons, List.foldl_nil, lookup_mapAssign, hsnd]
    rw [List.reverse_append, List.reverse_cons, List.reverse_nil, List.nil_append,
      List.singleton_append, List.idxOf?_cons]
    by_cases h : n = a
    · subst h; simp
    · rw [if_neg h, beq_eq_false_iff_ne.2 (Ne.symm h), ih]
      cases as.reverse.idxOf? n with
      | none => rfl
      | some j =>
        simp only [Bool.false_eq_true, if_false, Option.map_some, List.length_append,
          List.length_singleton]
        congr 3; omega

/-- **C43.** For pairwise distinct field names, looking a name up gives its position, both with
`get_idx` and `at`; a name that is not in the list gives `-1` with `get_idx` and an exception with
`at`/`[]`. -/
theorem field_index (names : List String) (hnd : names.Nodup) :
    (∀ (i : ℕ) (n : String), names[i]? = some n →
      getIdx (mkIndexMap names) n = i ∧ indexAt (mkIndexMap names) n = some (i : ℤ)) ∧
    (∀ n, n ∉ names →
      getIdx (mkIndexMap names) n = -1 ∧ indexAt (mkIndexMap names) n = none) := by
  have hlook : ∀ n, (mkIndexMap names).lookup n =
      (match names.reverse.idxOf? n with
        | some j => some ((names.length - 1 - j : ℕ) : ℤ)
        | none => none) := by
    intro n
    have := mkIndexMap_gen names [] 0 n
    simp only [zero_add] at this
    exact this
  constructor
  · intro i n hi
    obtain ⟨hil, hin⟩ := List.getElem?_eq_some_iff.1 hi
    have hmem : n ∈ names.reverse := by rw [List.mem_reverse, ← hin]; exact List.getElem_mem hil
    have hj : names.reverse.idxOf? n = some (names.length - 1 - i) := by
      rw [List.idxOf?_eq_some_iff]
      refine ⟨by simp; omega, ?_, ?_⟩
      · rw [List.getElem_reverse]
        simp only [← hin, List.length_reverse]; congr 1; omega
      · intro j hj heq
        rw [List.getElem_reverse] at heq
        rw [← hin] at heq
        have heq : names[names.length - 1 - j] = names[i] := by simpa using heq
        have := (List.Nodup.getElem_inj_iff hnd).1 heq
        omega
    have : (mkIndexMap names).lookup n = some (i : ℤ) := by
      rw [hlook, hj]; simp only [Option.some.injEq, Int.natCast_inj]; omega
    simp [getIdx, indexAt, this]
  · intro n hn
    have hj : names.reverse.idxOf? n = none := by
      rw [List.idxOf?_eq_none_iff]; simpa using hn
    have : (mkIndexMap names).lookup n = none := by rw [hlook, hj]
    simp [getIdx, indexAt, this]

/-- With duplicate names the last position wins (the name is still found). -/
theorem field_index_duplicate (pre post : List String) (n : String) (hpost : n ∉ post) :
    getIdx (mkIndexMap (pre ++ n :: post)) n = pre.length := by
  have := mkIndexMap_gen (pre ++ n :: post) [] 0 n
  have hj : (pre ++ n :: post).reverse.idxOf? n = some post.length := by
    rw [List.reverse_append, List.reverse_cons, List.append_assoc, List.singleton_append,
      List.idxOf?_eq_some_iff]
    refine ⟨by simp, ?_, ?_⟩
    · rw [List.getElem_append_right (by simp)]; simp
    · intro j hj heq
      rw [List.getElem_append_left (by simpa using hj)] at heq
      exact hpost (by rw [← List.mem_reverse, ← heq]; exact List.getElem_mem _)
  rw [hj] at this
  unfold getIdx mkIndexMap
  rw [this]; simp

example : ["ne", "phi", "w"].Nodup ∧ getIdx (mkIndexMap ["ne", "phi", "w"]) "phi" = 1 ∧
    getIdx (mkIndexMap ["ne", "phi", "w"]) "Te" = -1 := by decide

end Verif.Props.C43
