import Verif.Model.HaloExchange

/-! Sorted lists as maps and sets. -/

namespace Verif.Lemmas
open Verif.Model.HaloExchange

section
variable {κ α : Type} [LinearOrder κ]

/-- Sorted by key, without duplicate keys. -/
def Sorted (l : List (κ × α)) : Prop := l.Pairwise fun a b => a.1 < b.1

theorem Sorted.nodup {l : List (κ × α)} (h : Sorted l) : (l.map Prod.fst).Nodup := by
  unfold List.Nodup
  rw [List.pairwise_map]
  exact h.imp fun {a b} hab => ne_of_lt hab

theorem Sorted.inj {l : List (κ × α)} (h : Sorted l) {k : κ} {v w : α} (hv : (k, v) ∈ l) (hw : (k, w) ∈ l) : v = w := by
  have := List.inj_on_of_nodup_map h.nodup hv hw rfl
  simpa using this

theorem mem_mapSet (k : κ) (v : α) (l : List (κ × α)) (h : Sorted l) (k' : κ) (v' : α) :
    (k', v') ∈ mapSet k v l ↔ (k' = k ∧ v' = v) ∨ (k' ≠ k ∧ (k', v') ∈ l) := by
  induction l with
  | nil => simp [mapSet]
  | cons x l ih =>
    have hx := List.pairwise_cons.mp h
    unfold mapSet
    split_ifs with h1 h2
    · rw [List.mem_cons, Prod.mk.injEq]
      refine or_congr_right ⟨fun hm => ⟨?_, hm⟩, fun hm => hm.2⟩
      rintro rfl
      rcases List.mem_cons.mp hm with e | e
      · rw [← e] at h1; exact lt_irrefl _ h1
      · exact lt_irrefl _ (h1.trans (hx.1 _ e))
    · subst h2
      rw [List.mem_cons, Prod.mk.injEq]
      refine or_congr_right ⟨fun hm => ⟨?_, List.mem_cons_of_mem _ hm⟩, fun hm => ?_⟩
      · intro hk; have := hx.1 _ hm; dsimp only at this; rw [hk] at this; exact lt_irrefl _ this
      · rcases List.mem_cons.mp hm.2 with e | e
        · exact absurd (by rw [← e]) hm.1
        · exact e
    · rw [List.mem_cons, ih hx.2, List.mem_cons]
      constructor
      · rintro (e | e | e)
        · right; exact ⟨fun hk => h2 (by rw [← e]; exact hk.symm), Or.inl e⟩
        · left; exact e
        · right; exact ⟨e.1, Or.inr e.2⟩
      · rintro (e | ⟨e, e' | e'⟩)
        · right; left; exact e
        · left; exact e'
        · right; right; exact ⟨e, e'⟩

theorem sorted_mapSet (k : κ) (v : α) (l : List (κ × α)) (h : Sorted l) : Sorted (mapSet k v l) := by
  induction l with
  | nil => simp [mapSet, Sorted]
  | cons x l ih =>
    have hx := List.pairwise_cons.mp h
    unfold mapSet
    split_ifs with h1 h2
    · refine List.pairwise_cons.mpr ⟨fun y hy => ?_, h⟩
      rcases List.mem_cons.mp hy with e | e
      · rw [e]; exact h1
      · exact h1.trans (hx.1 _ e)
    · refine List.pairwise_cons.mpr ⟨fun y hy => ?_, hx.2⟩
      dsimp only; rw [h2]; exact hx.1 _ hy
    · refine List.pairwise_cons.mpr ⟨?_, ih hx.2⟩
      rintro ⟨k', v'⟩ hy
      rcases (mem_mapSet k v l hx.2 k' v').mp hy with ⟨rfl, _⟩ | ⟨_, hm⟩
      · exact lt_of_le_of_ne (not_lt.mp h1) (fun e => h2 e.symm)
      · exact hx.1 _ hm

theorem mem_setAdd (k : κ) (l : List κ) (k' : κ) : k' ∈ setAdd k l ↔ k' = k ∨ k' ∈ l := by
  induction l with
  | nil => simp [setAdd]
  | cons x l ih =>
    unfold setAdd
    split_ifs with h1 h2
    · simp
    · subst h2; simp
    · rw [List.mem_cons, ih, List.mem_cons]; tauto

theorem sorted_setAdd (k : κ) (l : List κ) (h : l.Pairwise (· < ·)) : (setAdd k l).Pairwise (· < ·) := by
  induction l with
  | nil => simp [setAdd]
  | cons x l ih =>
    have hx := List.pairwise_cons.mp h
    unfold setAdd
    split_ifs with h1 h2
    · refine List.pairwise_cons.mpr ⟨fun y hy => ?_, h⟩
      rcases List.mem_cons.mp hy with e | e
      · rw [e]; exact h1
      · exact h1.trans (hx.1 _ e)
    · exact h
    · refine List.pairwise_cons.mpr ⟨fun y hy => ?_, ih hx.2⟩
      rcases (mem_setAdd k l y).mp hy with rfl | hm
      · exact lt_of_le_of_ne (not_lt.mp h1) (fun e => h2 e.symm)
      · exact hx.1 _ hm

theorem nodup_of_sorted {l : List κ} (h : l.Pairwise (· < ·)) : l.Nodup := h.imp fun {a b} hab => ne_of_lt hab

theorem mapGet_eq {l : List (κ × α)} (h : (l.map Prod.fst).Nodup) (k : κ) (v : α) : mapGet l k = some v ↔ (k, v) ∈ l := by
  unfold mapGet
  induction l with
  | nil => simp
  | cons x l ih =>
    rw [List.map_cons, List.nodup_cons] at h
    rw [List.find?_cons]
    by_cases hx : x.1 = k
    · simp only [hx, decide_true, Option.map_some, Option.some.injEq, List.mem_cons]
      constructor
      · rintro rfl; left; rw [← hx]
      · rintro (e | e)
        · rw [← e]
        · exact absurd (List.mem_map_of_mem (f := Prod.fst) e) (by rw [← hx]; exact fun hh => h.1 hh)
    · simp only [hx, decide_false, ih h.2, List.mem_cons]
      constructor
      · exact Or.inr
      · rintro (e | e)
        · exact absurd (by rw [← e]) hx
        · exact e

theorem mapGet_isSome {l : List (κ × α)} (k : κ) : (mapGet l k).isSome = true ↔ k ∈ l.map Prod.fst := by
  unfold mapGet
  rw [Option.isSome_map, List.find?_isSome]
  simp only [decide_eq_true_eq, List.mem_map]

end
end Verif.Lemmas
