import Verif.Model.Utilities
import Mathlib.Tactic.Ring
import Mathlib.Algebra.Order.Ring.Nat

namespace Verif.Props.C45
open Verif.Model.Utilities Verif.Model.Mem

variable {Elem Point Rng : Type*}

theorem sampleLoop_contains (draw : Rng → Elem → Point × Rng) (contains : Elem → Point → Bool)
    (e : Elem) (fuel : ℕ) (p : Point) (rng : Rng) (q : Point × Rng)
    (h : sampleLoop draw contains e fuel p rng = some q) : contains e q.1 = true := by
  induction fuel generalizing p rng with
  | zero =>
    simp only [sampleLoop] at h
    split_ifs at h with hc
    simp only [Option.some.injEq] at h; subst h; exact hc
  | succ n ih =>
    simp only [sampleLoop] at h
    split_ifs at h with hc
    · simp only [Option.some.injEq] at h; subst h; exact hc
    · exact ih _ _ h

/-- Invariant of the dispatch loops: `filled k` slots hold a point and a cell for the slot. -/
def Good (contains : Elem → Point → Bool) (elems : List Elem) (npart total : ℕ)
    (s : Disp Point Rng) : Prop :=
  s.positions.length = total ∧ s.cells.length = total ∧
  ∀ i < s.index, ∃ (e : Elem) (p : Point), elems[i / npart]? = some e ∧
    s.positions[i]? = some (some p) ∧ s.cells[i]? = some (some ((i / npart : ℕ) : ℤ)) ∧
    contains e p = true

theorem dispatchCell_good (draw : Rng → Elem → Point × Rng) (contains : Elem → Point → Bool)
    (limit : ℕ) (elems : List Elem) (npart total : ℕ) (hn : 0 < npart) (e : Elem) (ex : ℕ)
    (he : elems[ex]? = some e) (k j : ℕ) (hkj : j + k = npart) (s s' : Disp Point Rng)
    (hs : Good contains elems npart total s) (hidx : s.index = ex * npart + j)
    (h : dispatchCell draw contains limit e ex k s = some s') :
    Good contains elems npart total s' ∧ s'.index = (ex + 1) * npart := by
  induction k generalizing s j with
  | zero =>
    simp only [dispatchCell, Option.some.injEq] at h
    subst h
    refine ⟨hs, ?_⟩
    rw [hidx, ← hkj]; ring
  | succ k ih =>
    simp only [dispatchCell, Option.bind_eq_some_iff] at h
    obtain ⟨s1, h1, h2⟩ := h
    refine ih (j + 1) (by omega) s1 ?_ ?_ h2
    · simp only [dispatchOne, Option.bind_eq_some_iff] at h1
      obtain ⟨⟨p, rng⟩, hp, pos', hpos, cells', hcells, heq⟩ := h1
      simp only [Option.some.injEq] at heq
      subst heq
      have hc := sampleLoop_contains draw contains e _ _ _ _ hp
      simp only [write] at hpos hcells
      split_ifs at hpos with hb1
      split_ifs at hcells with hb2
      simp only [Option.some.injEq] at hpos hcells
      subst hpos; subst hcells
      obtain ⟨g1, g2, g3⟩ := hs
      refine ⟨by simpa using g1, by simpa using g2, ?_⟩
      intro i hi
      dsimp only at hi ⊢
      rcases Nat.lt_succ_iff_lt_or_eq.1 hi with hlt | rfl
      · obtain ⟨e', p', q1, q2, q3, q4⟩ := g3 i hlt
        refine ⟨e', p', q1, ?_, ?_, q4⟩
        · rw [List.getElem?_set_ne (by simp; omega)]; exact q2
        · rw [List.getElem?_set_ne (by simp; omega)]; exact q3
      · have hdiv : s.index / npart = ex := by
          rw [hidx]
          rw [Nat.mul_comm, Nat.mul_add_div hn, Nat.div_eq_of_lt (by omega), Nat.add_zero]
        refine ⟨e, p, by rw [hdiv]; exact he, ?_, ?_, hc⟩
        · have : ((s.index : ℤ)).toNat = s.index := by simp
          rw [this, List.getElem?_set_self (by omega)]
        · have : ((s.index : ℤ)).toNat = s.index := by simp
          rw [this, List.getElem?_set_self (by omega), hdiv]
    · simp only [dispatchOne, Option.bind_eq_some_iff] at h1
      obtain ⟨⟨p, rng⟩, -, pos', -, cells', -, heq⟩ := h1
      simp only [Option.some.injEq] at heq
      subst heq
      dsimp only; omega

theorem dispatchAll_good (draw : Rng → Elem → Point × Rng) (contains : Elem → Point → Bool)
    (limit : ℕ) (elems : List Elem) (npart total : ℕ) (hn : 0 < npart) (rest : List Elem) (ex : ℕ)
    (hrest : elems.drop ex = rest) (s s' : Disp Point Rng)
    (hs : Good contains elems npart total s) (hidx : s.index = ex * npart)
    (h : dispatchAll draw contains limit npart rest ex s = some s') :
    Good contains elems npart total s' ∧ s'.index = (ex + rest.length) * npart := by
  induction rest generalizing s ex with
  | nil =>
    simp only [dispatchAll, Option.some.injEq] at h; subst h
    exact ⟨hs, by simpa using hidx⟩
  | cons e es ih =>
    simp only [dispatchAll, Option.bind_eq_some_iff] at h
    obtain ⟨s1, h1, h2⟩ := h
    have he : elems[ex]? = some e := by
      have := congrArg List.head? hrest
      simpa using this
    obtain ⟨g1, g2⟩ := dispatchCell_good draw contains limit elems npart total hn e ex he npart 0
      (by omega) s s1 hs (by omega) h1
    have := ih (ex + 1) (by rw [← List.tail_drop, hrest]; rfl) s1 g1 g2 (by exact_mod_cast h2)
    refine ⟨this.1, ?_⟩
    rw [this.2, List.length_cons]; ring

/-- **C45.** Whenever `uniform_within_elements` returns (for any elements, any random generator and any
number of samples per cell, also 0), the outputs have exactly `npart` entries for each
element: slot `i` belongs to element `i / npart`, its cell index says so, and its position passed the
containment test of that element; no slot is left unset. -/
theorem uniform_within_elements_exact (draw : Rng → Elem → Point × Rng)
    (contains : Elem → Point → Bool) (limit npart : ℕ) (elems : List Elem) (rng : Rng)
    (out : Disp Point Rng)
    (h : uniformWithinElements draw contains limit npart elems rng = some out) :
    out.positions.length = elems.length * npart ∧ out.cells.length = elems.length * npart ∧
    ∀ i < elems.length * npart, ∃ (e : Elem) (p : Point), elems[i / npart]? = some e ∧
      out.positions[i]? = some (some p) ∧ out.cells[i]? = some (some ((i / npart : ℕ) : ℤ)) ∧
      contains e p = true := by
  rcases Nat.eq_zero_or_pos npart with rfl | hn
  · have hall : ∀ (es : List Elem) (ex : ℤ) (s : Disp Point Rng),
        dispatchAll draw contains limit 0 es ex s = some s := by
      intro es
      induction es with
      | nil => intros; rfl
      | cons e es ih => intro ex s; simp [dispatchAll, dispatchCell, ih]
    unfold uniformWithinElements at h
    rw [hall] at h
    simp only [Option.some.injEq] at h
    subst h
    simp
  · have := dispatchAll_good draw contains limit elems npart (elems.length * npart) hn elems 0
      (by simp) _ out (by refine ⟨by simp, by simp, by intro i hi; exact absurd hi (Nat.not_lt_zero i)⟩)
      (by simp) h
    obtain ⟨⟨g1, g2, g3⟩, g4⟩ := this
    rw [Nat.zero_add] at g4
    exact ⟨g1, g2, fun i hi => g3 i (by omega)⟩

theorem dispatch_total (draw : Rng → Elem → Point × Rng) (contains : Elem → Point → Bool) (limit : ℕ)
    (hs : ∀ rng e, ∃ q, sampleElem draw contains limit rng e = some q) (npart total : ℕ)
    (rest : List Elem) (ex : ℤ) (s : Disp Point Rng) (hp : s.positions.length = total)
    (hc : s.cells.length = total) (hi : s.index + rest.length * npart ≤ total) :
    ∃ s', dispatchAll draw contains limit npart rest ex s = some s' := by
  have hone : ∀ (e : Elem) (ex : ℤ) (s : Disp Point Rng), s.positions.length = total →
      s.cells.length = total → s.index < total →
      ∃ s', dispatchOne draw contains limit e ex s = some s' ∧ s'.positions.length = total ∧
        s'.cells.length = total ∧ s'.index = s.index + 1 := by
    intro e ex s h1 h2 h3
    obtain ⟨q, hq⟩ := hs s.rng e
    refine ⟨⟨q.2, s.index + 1, s.positions.set s.index (some q.1), s.cells.set s.index (some ex)⟩,
      ?_, by simpa using h1, by simpa using h2, rfl⟩
    have w1 : write s.positions s.index (some q.1) = some (s.positions.set s.index (some q.1)) := by
      unfold write; rw [if_pos (by constructor <;> omega)]; simp
    have w2 : write s.cells s.index (some ex) = some (s.cells.set s.index (some ex)) := by
      unfold write; rw [if_pos (by constructor <;> omega)]; simp
    simp [dispatchOne, hq, w1, w2]
  have hcell : ∀ (n : ℕ) (e : Elem) (ex : ℤ) (s : Disp Point Rng), s.positions.length = total →
      s.cells.length = total → s.index + n ≤ total →
      ∃ s', dispatchCell draw contains limit e ex n s = some s' ∧ s'.positions.length = total ∧
        s'.cells.length = total ∧ s'.index = s.index + n := by
    intro n
    induction n with
    | zero => intro e ex s h1 h2 _; exact ⟨s, rfl, h1, h2, rfl⟩
    | succ n ih =>
      intro e ex s h1 h2 h3
      obtain ⟨s1, e1, e2, e3, e4⟩ := hone e ex s h1 h2 (by omega)
      obtain ⟨s2, f1, f2, f3, f4⟩ := ih e ex s1 e2 e3 (by omega)
      exact ⟨s2, by simp [dispatchCell, e1, f1], f2, f3, by omega⟩
  induction rest generalizing ex s with
  | nil => exact ⟨s, rfl⟩
  | cons e es ih =>
    rw [List.length_cons, Nat.add_mul] at hi
    obtain ⟨s1, e1, e2, e3, e4⟩ := hcell npart e ex s hp hc (by omega)
    obtain ⟨s2, f⟩ := ih (ex + 1) s1 e2 e3 (by omega)
    exact ⟨s2, by simp [dispatchAll, e1, f]⟩

/-- **C45 (no other failure).** The only way for the call to fail is the assertion that a sample was
not found within the trial limit: all array accesses are in range. -/
theorem uniform_within_elements_total (draw : Rng → Elem → Point × Rng)
    (contains : Elem → Point → Bool) (limit npart : ℕ) (elems : List Elem) (rng : Rng)
    (hs : ∀ rng e, ∃ q, sampleElem draw contains limit rng e = some q) :
    ∃ out, uniformWithinElements draw contains limit npart elems rng = some out :=
  dispatch_total draw contains limit hs npart (elems.length * npart) elems 0 _ (by simp) (by simp)
    (by simp)

/-- Non-vacuity: "points" are naturals, element `e` contains multiples of `e`, the generator counts. -/
example : ((uniformWithinElements (fun (r : ℕ) (_ : ℕ) => (r, r + 1)) (fun e p => p % e == 0) 10 2
    [2, 3] 1).map fun d => (d.positions, d.cells)) =
    some ([some 2, some 4, some 6, some 9], [some 0, some 0, some 1, some 1]) := by decide

end Verif.Props.C45
