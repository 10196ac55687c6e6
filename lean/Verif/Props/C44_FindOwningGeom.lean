import Verif.Model.Utilities
import Verif.Lemmas.Fold
import Mathlib.Data.List.Basic
import Mathlib.Data.List.Induction
import Mathlib.Tactic.FinCases

namespace Verif.Props.C44
open Verif.Model.Utilities Verif.Lemmas

/-- The full property C44: if some rank has a candidate containing the point, a rank is reported which
has one, none below it has one, and the reported geometry contains the point. -/
def FindsOwner (contains : ℤ → Bool) (candidates : List (List ℤ)) : Prop :=
  ∀ (r : ℕ) (l : List ℤ), candidates[r]? = some l → (∃ g ∈ l, contains g) →
    (∀ (r' : ℕ) (l' : List ℤ), r' < r → candidates[r']? = some l' → ∀ g ∈ l', ¬ contains g) →
    let o := findOwningGeom contains candidates
    o.found = true ∧ o.rank = r ∧ ∃ g ∈ l, contains g ∧ o.geomId = some g

/-- **C44 is false of the code (Finding).** `geom_found` is overwritten by each candidate, so a
containing geometry that is not the last candidate of its rank is forgotten: here geometry 7 contains the
point, one geometry claimed it, yet "not found" is reported. -/
theorem find_owning_geom_misses_owner :
    ∃ (contains : ℤ → Bool) (candidates : List (List ℤ)),
      ¬ FindsOwner contains candidates ∧
      findOwningGeom contains candidates = ⟨false, -1, none, 1⟩ := by
  refine ⟨fun g => g = 7, [[7, 8]], ?_, by decide⟩
  intro h
  have := (h 0 [7, 8] rfl ⟨7, by simp, by simp⟩ (by intro r' l' h; omega)).1
  revert this; decide

theorem localLoop_append (contains : ℤ → Bool) (l : List ℤ) (a : ℤ) :
    localLoop contains (l ++ [a]) =
      if contains a then ⟨true, some a, (localLoop contains l).numGeoms + 1⟩
      else ⟨false, (localLoop contains l).geomId, (localLoop contains l).numGeoms⟩ := by
  unfold localLoop
  rw [List.foldl_append]
  simp only [List.foldl_cons, List.foldl_nil]
  split_ifs with h
  · simp [h]
  · simp [Bool.not_eq_true] at h; simp [h]

/-- The local flag reports the *last* candidate only. -/
theorem local_found_iff (contains : ℤ → Bool) (l : List ℤ) :
    (localLoop contains l).geomFound = true ↔ ∃ g, l.getLast? = some g ∧ contains g = true := by
  induction l using List.reverseRecOn with
  | nil => simp [localLoop]
  | append_singleton as a _ =>
    rw [localLoop_append]
    by_cases h : contains a <;> simp [h]

theorem local_geomId (contains : ℤ → Bool) (l : List ℤ)
    (h : (localLoop contains l).geomFound = true) :
    ∃ g, l.getLast? = some g ∧ contains g = true ∧ (localLoop contains l).geomId = some g := by
  induction l using List.reverseRecOn with
  | nil => simp [localLoop] at h
  | append_singleton as a _ =>
    rw [localLoop_append] at h ⊢
    by_cases hc : contains a <;> simp [hc] at h ⊢

theorem local_num (contains : ℤ → Bool) (l : List ℤ) :
    (localLoop contains l).numGeoms = l.countP (fun g => contains g) := by
  induction l using List.reverseRecOn with
  | nil => simp [localLoop]
  | append_singleton as a ih =>
    rw [localLoop_append, List.countP_append, List.countP_singleton]
    by_cases hc : contains a <;> simp [hc, ih]

/-- The reduction over the ranks. -/
theorem recv_spec (contains : ℤ → Bool) (candidates : List (List ℤ)) :
    let size := candidates.length
    let locals := candidates.map (localLoop contains)
    let recv := (locals.zipIdx.map (fun p => if p.1.geomFound then p.2 else size)).foldl min size
    (∀ (r : ℕ) (l : List ℤ), candidates[r]? = some l → (localLoop contains l).geomFound = true →
      recv ≤ r) ∧
    (recv = size ∨ ∃ l, candidates[recv]? = some l ∧ (localLoop contains l).geomFound = true) := by
  intro size locals recv
  have hle := foldl_min_le (fun x : ℕ => x)
    (locals.zipIdx.map (fun p => if p.1.geomFound then p.2 else size)) size
  have hmem := foldl_min_mem (fun x : ℕ => x)
    (locals.zipIdx.map (fun p => if p.1.geomFound then p.2 else size)) size
  constructor
  · intro r l hr hf
    refine hle.2 r ?_
    rw [List.mem_map]
    refine ⟨(localLoop contains l, r), ?_, by simp [hf]⟩
    rw [List.mk_mem_zipIdx_iff_getElem?]
    simp [locals, hr]
  · rcases hmem with h | ⟨b, hb, h⟩
    · exact Or.inl h
    · rw [List.mem_map] at hb
      obtain ⟨⟨x, r⟩, hx, hxr⟩ := hb
      rw [List.mk_mem_zipIdx_iff_getElem?] at hx
      dsimp only at hxr
      have hrecv : recv = b := h
      by_cases hf : x.geomFound = true
      · rw [if_pos hf] at hxr
        right
        simp only [locals, List.getElem?_map, Option.map_eq_some_iff] at hx
        obtain ⟨l, hl, hlx⟩ := hx
        exact ⟨l, by rw [hrecv, ← hxr]; exact hl, by rw [hlx]; exact hf⟩
      · rw [if_neg hf] at hxr
        left; rw [hrecv, ← hxr]

/-- **C44 (soundness, holds as is).** Whenever a rank is reported, it is a valid rank, the reported
geometry is one of its candidates and contains the point; all ranks see the same answer (a single value), and the
number of claims is the total number of containing candidates. -/
theorem find_owning_geom_sound (contains : ℤ → Bool) (candidates : List (List ℤ)) :
    let o := findOwningGeom contains candidates
    (o.found = true → ∃ (r : ℕ) (l : List ℤ) (g : ℤ), o.rank = r ∧ candidates[r]? = some l ∧
      g ∈ l ∧ contains g = true ∧ o.geomId = some g) ∧
    (o.found = false → o.rank = -1) ∧
    o.numGeoms = (candidates.map (fun l => l.countP (fun g => contains g))).sum := by
  intro o
  obtain ⟨-, h2⟩ := recv_spec contains candidates
  have hnum : o.numGeoms = (candidates.map (fun l => l.countP (fun g => contains g))).sum := by
    have : o.numGeoms = ((candidates.map (localLoop contains)).map Local.numGeoms).sum := by
      simp only [o, findOwningGeom]; split_ifs <;> rfl
    rw [this, List.map_map]
    congr 1
    exact List.map_congr_left fun l _ => local_num contains l
  refine ⟨?_, ?_, hnum⟩
  · intro hf
    simp only [o, findOwningGeom] at hf ⊢
    split_ifs at hf ⊢ with hsz
    · obtain ⟨l, hl, hlf⟩ := h2.resolve_left hsz
      obtain ⟨g, hg, hgc, hgid⟩ := local_geomId contains l hlf
      refine ⟨_, l, g, rfl, hl, List.mem_of_getLast? hg, hgc, ?_⟩
      simp only [List.getElem?_map, hl, Option.map_some, Option.bind_some, hgid]
  · intro hf
    simp only [o, findOwningGeom] at hf ⊢
    split_ifs at hf ⊢ <;> rfl

/-- **C44 (partial).** The full property holds when on every rank a containing candidate, if any, is the
last in the candidate list (e.g. at most one candidate per rank). Missing: all other candidate orders,
for which `find_owning_geom_misses_owner` shows the property fails. -/
theorem find_owning_geom_partial (contains : ℤ → Bool) (candidates : List (List ℤ))
    (hlast : ∀ l ∈ candidates, (∃ g ∈ l, contains g = true) →
      ∃ g, l.getLast? = some g ∧ contains g = true) :
    FindsOwner contains candidates := by
  intro r l hr hex hmin
  obtain ⟨h1, h2⟩ := recv_spec contains candidates
  have hrl : r < candidates.length := (List.getElem?_eq_some_iff.1 hr).1
  have hlf : (localLoop contains l).geomFound = true :=
    (local_found_iff contains l).2 (hlast l (List.mem_of_getElem? hr) hex)
  have hle := h1 r l hr hlf
  have hrecv : ((candidates.map (localLoop contains)).zipIdx.map
      (fun p => if p.1.geomFound then p.2 else candidates.length)).foldl min candidates.length = r := by
    rcases h2 with h | ⟨l', hl', hf'⟩
    · omega
    · by_contra hne
      have hlt := lt_of_le_of_ne hle hne
      obtain ⟨g, hg, hgc⟩ := (local_found_iff contains l').1 hf'
      exact hmin _ l' hlt hl' g (List.mem_of_getLast? hg) hgc
  obtain ⟨g, hg, hgc, hgid⟩ := local_geomId contains l hlf
  simp only [findOwningGeom, hrecv]
  rw [if_neg (by omega)]
  refine ⟨rfl, rfl, g, List.mem_of_getLast? hg, hgc, ?_⟩
  simp only [List.getElem?_map, hr, Option.map_some, Option.bind_some, hgid]

/-- Non-vacuity: three ranks, ranks 1 and 2 contain the point; rank 1 wins. -/
example : (∀ l ∈ ([[4], [5, 7], [7]] : List (List ℤ)), (∃ g ∈ l, (decide (g = 7)) = true) →
      ∃ g, l.getLast? = some g ∧ (decide (g = 7)) = true) ∧
    findOwningGeom (fun g => decide (g = 7)) [[4], [5, 7], [7]] = ⟨true, 1, some 7, 2⟩ := by
  refine ⟨?_, by decide⟩
  intro l hl hex
  fin_cases hl
  · simp at hex
  · exact ⟨7, rfl, by decide⟩
  · exact ⟨7, rfl, by decide⟩

end Verif.Props.C44
