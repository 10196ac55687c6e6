import Verif.Props.C54_Accepted

/-! C54: of several sections of the same name only the first is read. -/

namespace Verif.Props.C54
open Verif.Model.ParticleReader

/-- The first section: the elements before it have other names. -/
theorem first_iff (p : Elem) (name : Str) (s : Elem) : p.first name = some s ↔ s.name = name ∧ ∃ a b, p.elems = a ++ s :: b ∧ ∀ x ∈ a, x.name ≠ name := by
  unfold Elem.first Elem.named
  generalize p.elems = l
  induction l with
  | nil => simp
  | cons x l ih =>
    by_cases hx : x.name = name
    · rw [List.filter_cons_of_pos (by simpa using hx)]
      simp only [List.head?_cons, Option.some.injEq]
      constructor
      · rintro rfl
        exact ⟨hx, [], l, rfl, by simp⟩
      · rintro ⟨-, a, b, e, h⟩
        cases a with
        | nil => simpa using (List.cons.inj e).1
        | cons y a =>
          obtain ⟨rfl, -⟩ := List.cons.inj e
          exact absurd hx (h x (by simp))
    · rw [List.filter_cons_of_neg (by simpa using hx), ih]
      constructor
      · rintro ⟨hn, a, b, rfl, h⟩
        exact ⟨hn, x :: a, b, rfl, by simpa [hx] using h⟩
      · rintro ⟨hn, a, b, e, h⟩
        cases a with
        | nil =>
          obtain ⟨rfl, -⟩ := List.cons.inj e
          exact absurd hn hx
        | cons y a =>
          obtain ⟨rfl, rfl⟩ := List.cons.inj e
          exact ⟨hn, a, b, rfl, fun z hz => h z (by simp [hz])⟩

/-- There is no section of a name. -/
theorem first_none (p : Elem) (name : Str) : p.first name = none ↔ ∀ x ∈ p.elems, x.name ≠ name := by
  simp [Elem.first, Elem.named]

/-- The sections of a document that are read: for each name the first one. Whatever follows a section with the name of that section does not matter. -/
def SameFirst (p p' : Elem) (name : String) : Prop :=
  (∀ x ∈ p.elems ++ p'.elems, x.name ≠ name.toList) ∨
    ∃ a b a' b' s, s.name = name.toList ∧ p.elems = a ++ s :: b ∧ p'.elems = a' ++ s :: b' ∧ ∀ x ∈ a ++ a', x.name ≠ name.toList

theorem sameFirst (p p' : Elem) (name : String) (h : SameFirst p p' name) : p.first name.toList = p'.first name.toList := by
  rcases h with h | ⟨a, b, a', b', s, hs, e, e', h⟩
  · rw [(first_none p _).2 fun x hx => h x (by simp [hx]), (first_none p' _).2 fun x hx => h x (by simp [hx])]
  · rw [(first_iff p _ s).2 ⟨hs, a, b, e, fun x hx => h x (by simp [hx])⟩, (first_iff p' _ s).2 ⟨hs, a', b', e', fun x hx => h x (by simp [hx])⟩]

/-- **C54.** Two documents with the same first sections give the same result, whatever other sections they have: later sections of the same name and sections with other names are ignored. -/
theorem later_sections_ignored {σ V : Type} (P : Parsers) (I : Interp σ V) (keys : Map ℤ (Species V) → List ℤ) (p p' : Elem) (s : σ)
    (h : ∀ name ∈ ["PARAMETERS", "SPECIES", "BOUNDARYINTERACTION", "REACTIONS"], SameFirst p p' name) : readParticles P I keys p s = readParticles P I keys p' s := by
  simp only [List.mem_cons, List.not_mem_nil, or_false, forall_eq_or_imp, forall_eq] at h
  obtain ⟨h1, h2, h3, h4⟩ := h
  simp only [readParticles, readParameters, readSpecies, readBoundary, readReactions, sameFirst _ _ _ h1, sameFirst _ _ _ h2, sameFirst _ _ _ h3, sameFirst _ _ _ h4]

/-- The same for the INFO section. -/
theorem later_info_ignored (p p' : Elem) (m : Map Str Str) (h : SameFirst p p' "INFO") : readInfo (some p) m = readInfo (some p') m := by
  simp only [readInfo, sameFirst _ _ _ h]

/-- Boundary interactions that have been read are not read again: a second reading keeps them whatever the document has. -/
theorem boundaries_kept (P : Parsers) (all all' : List ℤ) (p p' : Elem) (m m1 : Map ℤ (Map ℤ BType)) (_ : readBoundary P all p false m = some m1) :
    readBoundary P all' p' true m1 = some m1 := rfl

/-- A document with two PARAMETERS sections, and one with the first of them: `parameters_spec` (C53) with the first section applies to both. -/
example (a b : List Xml) : SameFirst ⟨"PARTICLES".toList, [], [.elem "PARAMETERS".toList [] a, .elem "PARAMETERS".toList [] b]⟩ ⟨"PARTICLES".toList, [], [.elem "PARAMETERS".toList [] a]⟩ "PARAMETERS" :=
  Or.inr ⟨[], [⟨"PARAMETERS".toList, [], b⟩], [], [], ⟨"PARAMETERS".toList, [], a⟩, rfl, rfl, rfl, by simp⟩

end Verif.Props.C54
