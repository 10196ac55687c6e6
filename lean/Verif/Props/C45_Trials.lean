import Verif.Model.Utilities
import Mathlib.Tactic.Linarith

/-! C45, the rejection loop: which of the draws becomes the particle. -/

namespace Verif.Props.C45
open Verif.Model.Utilities

variable {Elem Point Rng : Type*}

/-- The successive candidates for one particle: the generator goes on from where the last candidate left it. -/
def candidate (draw : Rng → Elem → Point × Rng) (e : Elem) (rng : Rng) : ℕ → Point × Rng
  | 0 => draw rng e
  | k + 1 => draw (candidate draw e rng k).2 e

theorem candidate_succ (draw : Rng → Elem → Point × Rng) (e : Elem) (rng : Rng) (k : ℕ) :
    candidate draw e (draw rng e).2 k = candidate draw e rng (k + 1) := by
  induction k with
  | zero => rfl
  | succ k ih => rw [candidate, ih]; rfl

theorem sampleLoop_iff (draw : Rng → Elem → Point × Rng) (contains : Elem → Point → Bool) (e : Elem) (fuel : ℕ) (rng : Rng) (q : Point × Rng) :
    sampleLoop draw contains e fuel (draw rng e).1 (draw rng e).2 = some q ↔
      ∃ k ≤ fuel, q = candidate draw e rng k ∧ contains e (candidate draw e rng k).1 = true ∧
        ∀ j < k, contains e (candidate draw e rng j).1 = false := by
  induction fuel generalizing rng with
  | zero =>
    rw [sampleLoop]
    constructor
    · intro h
      split_ifs at h with hc
      exact ⟨0, le_rfl, (Option.some.inj h).symm, hc, fun j hj => absurd hj (Nat.not_lt_zero j)⟩
    · rintro ⟨k, hk, rfl, hc, -⟩
      obtain rfl : k = 0 := by omega
      exact if_pos hc
  | succ n ih =>
    rw [sampleLoop]
    by_cases hc : contains e (draw rng e).1 = true
    · rw [if_pos hc]
      constructor
      · intro h
        exact ⟨0, by omega, (Option.some.inj h).symm, hc, fun j hj => absurd hj (Nat.not_lt_zero j)⟩
      · rintro ⟨k, hk, rfl, -, hmin⟩
        rcases Nat.eq_zero_or_pos k with rfl | hp
        · rfl
        · have := hmin 0 hp
          rw [candidate, hc] at this
          exact absurd this (by decide)
    · rw [if_neg hc]
      have := ih (draw rng e).2
      simp only [candidate_succ] at this
      rw [this]
      constructor
      · rintro ⟨k, hk, h1, h2, h3⟩
        refine ⟨k + 1, by omega, h1, h2, fun j hj => ?_⟩
        cases j with
        | zero => simpa [candidate] using hc
        | succ j => exact h3 j (by omega)
      · rintro ⟨k, hk, h1, h2, h3⟩
        cases k with
        | zero => exact absurd h2 hc
        | succ k => exact ⟨k, by omega, h1, h2, fun j hj => h3 (j + 1) (by omega)⟩

/-- The particle is the first of at most `limit` candidates that is inside the element, and the generator is left where that candidate left it. -/
theorem first_accepted (draw : Rng → Elem → Point × Rng) (contains : Elem → Point → Bool) (limit : ℕ) (hl : 0 < limit) (rng : Rng) (e : Elem)
    (q : Point × Rng) :
    sampleElem draw contains limit rng e = some q ↔
      ∃ k < limit, q = candidate draw e rng k ∧ contains e (candidate draw e rng k).1 = true ∧
        ∀ j < k, contains e (candidate draw e rng j).1 = false := by
  have := sampleLoop_iff draw contains e (limit - 1) rng q
  rw [sampleElem]
  refine this.trans ⟨?_, ?_⟩
  · rintro ⟨k, hk, h⟩; exact ⟨k, by omega, h⟩
  · rintro ⟨k, hk, h⟩; exact ⟨k, by omega, h⟩

/-- The program stops exactly if none of `limit` candidates is inside the element. -/
theorem given_up_iff (draw : Rng → Elem → Point × Rng) (contains : Elem → Point → Bool) (limit : ℕ) (hl : 0 < limit) (rng : Rng) (e : Elem) :
    sampleElem draw contains limit rng e = none ↔ ∀ k < limit, contains e (candidate draw e rng k).1 = false := by
  constructor
  · intro h k hk
    by_contra hc
    have hex : ∃ k, contains e (candidate draw e rng k).1 = true := ⟨k, by simpa using hc⟩
    classical
    have := (first_accepted draw contains limit hl rng e _).mpr
      ⟨Nat.find hex, lt_of_le_of_lt (Nat.find_min' hex (by simpa using hc)) hk, rfl, Nat.find_spec hex, fun j hj => by
        simpa using Nat.find_min hex hj⟩
    rw [h] at this
    exact absurd this (by simp)
  · intro h
    cases hs : sampleElem draw contains limit rng e with
    | none => rfl
    | some q =>
      obtain ⟨k, hk, -, hc, -⟩ := (first_accepted draw contains limit hl rng e q).mp hs
      rw [h k hk] at hc
      exact absurd hc (by decide)

/-- A generator that counts: the third candidate is the first inside, and with two candidates the program stops. -/
example : sampleElem (Elem := Unit) (fun (r : ℕ) _ => (r, r + 1)) (fun _ p => decide (2 ≤ p)) 3 0 () = some (2, 3) ∧
    sampleElem (Elem := Unit) (fun (r : ℕ) _ => (r, r + 1)) (fun _ p => decide (2 ≤ p)) 2 0 () = none := by decide

end Verif.Props.C45
