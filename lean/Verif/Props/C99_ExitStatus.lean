import Verif.Model.Programs

/-! C99: the programs report failed runs. -/

namespace Verif.Props.C99
open Verif.Model.Programs

/-- The program reports success. -/
def Success (r : Run) : Prop := r.ended = .returned 0

instance (r : Run) : Decidable (Success r) := inferInstanceAs (Decidable (r.ended = .returned 0))

theorem runPhases_spec (phase : Phase → Option Thrown) (l : List Phase) :
    ((runPhases phase l).2 = none ↔ ∀ x ∈ l, phase x = none) ∧ ((runPhases phase l).2 = none → (runPhases phase l).1 = l) ∧
    (runPhases phase l).1 <+: l ∧ ∀ e, (runPhases phase l).2 = some e → ∃ pre x post, l = pre ++ x :: post ∧ (∀ y ∈ pre, phase y = none) ∧ phase x = some e ∧
      (runPhases phase l).1 = pre ++ [x] := by
  induction l with
  | nil => simp [runPhases]
  | cons a l ih =>
    unfold runPhases
    cases h : phase a with
    | some e =>
      refine ⟨by simp [h], by simp, by simp, ?_⟩
      intro e' he
      cases he
      exact ⟨[], a, l, rfl, by simp, h, rfl⟩
    | none =>
      obtain ⟨h1, h2, h3, h4⟩ := ih
      dsimp only
      refine ⟨by simp [h, h1], fun hn => by rw [h2 hn], by simpa using h3, ?_⟩
      intro e he
      obtain ⟨pre, x, post, k1, k2, k3, k4⟩ := h4 e he
      refine ⟨a :: pre, x, post, by rw [k1]; rfl, ?_, k3, by rw [k4]; rfl⟩
      intro y hy
      rcases List.mem_cons.1 hy with rfl | hy
      · exact h
      · exact k2 y hy

/-- **C99.** The solvers return zero exactly if MPI was set up and shut down and all phases ended without an exception. Then all phases were done, in order. -/
theorem solver_exit_status (i f : Bool) (phase : Phase → Option Thrown) :
    (Success (solverMain i f phase) ↔ i = true ∧ f = true ∧ ∀ x ∈ solverPhases, phase x = none) ∧
    (Success (solverMain i f phase) → (solverMain i f phase).phases = solverPhases ∧ (solverMain i f phase).mpiFinalised = true) := by
  obtain ⟨h1, h2, _, _⟩ := runPhases_spec phase solverPhases
  unfold Success solverMain
  cases i
  · simp
  · cases hr : (runPhases phase solverPhases).2 with
    | some e =>
      have hn : ¬ ∀ x ∈ solverPhases, phase x = none := by rw [← h1, hr]; simp
      simp [hr, hn]
    | none =>
      have hn := h1.1 hr
      have he := h2 hr
      cases f
      · simp [hr]
      · simp only [hr, he, ↓reduceIte, true_and, and_true, implies_true, true_iff]
        exact hn

/-- A phase is started only if all phases before it have ended without an exception: nothing is run after a failure. -/
theorem stops_at_first_failure (i f : Bool) (phase : Phase → Option Thrown) (hi : i = true) (e : Thrown) (he : (runPhases phase solverPhases).2 = some e) :
    (solverMain i f phase).ended = .terminated ∧ ∃ pre x, (solverMain i f phase).phases = pre ++ [x] ∧ phase x = some e ∧ ∀ y ∈ pre, phase y = none := by
  obtain ⟨_, _, _, h4⟩ := runPhases_spec phase solverPhases
  obtain ⟨pre, x, post, k1, k2, k3, k4⟩ := h4 e he
  subst hi
  unfold solverMain
  simp only [he, ↓reduceIte]
  exact ⟨trivial, pre, x, k4, k3, k2⟩

/-- **C99, the electrostatic program (partial).** It returns zero exactly if all phases ended without an exception, or a string was thrown. Missing: a run that ends with a thrown
string is reported as a success, see `thrown_string_is_success`. -/
theorem electrostatic_exit_status_partial (v : Bool) (phase : Phase → Option Thrown) :
    Success (electrostaticMain v phase) ↔ (∀ x ∈ electrostaticPhases v, phase x = none) ∨ (runPhases phase (electrostaticPhases v)).2 = some .string := by
  obtain ⟨h1, h2, _, _⟩ := runPhases_spec phase (electrostaticPhases v)
  unfold Success electrostaticMain
  rw [← h1]
  dsimp only
  generalize (runPhases phase (electrostaticPhases v)).2 = o
  rcases o with _ | e
  · simp
  · cases e <;> simp

/-- Finding: if a phase throws a string, for instance while the time steps are run, the program returns zero. -/
theorem thrown_string_is_success (v : Bool) : ∃ phase : Phase → Option Thrown, phase .run ≠ none ∧ Success (electrostaticMain v phase) := by
  refine ⟨fun x => if x = .run then some .string else none, by simp, ?_⟩
  cases v <;> decide

/-- **C99, what success means.** If a solver ends with success, then it has read the session, built the mesh and the driver, run the simulation and closed
the session, in this order, and each of these ended without an exception. -/
theorem solver_success_ran (i f : Bool) (phase : Phase → Option Thrown) (h : Success (solverMain i f phase)) :
    (solverMain i f phase).phases = [.session, .mesh, .driver, .run, .sessionFinalise] ∧
    ∀ x ∈ [Phase.session, .mesh, .driver, .run, .sessionFinalise], phase x = none :=
  ⟨((solver_exit_status i f phase).2 h).1, ((solver_exit_status i f phase).1.mp h).2.2⟩

/-- The same for the electrostatic program, unless a string is thrown. -/
theorem electrostatic_success_ran (v : Bool) (phase : Phase → Option Thrown) (hs : ∀ x, phase x ≠ some .string) (h : Success (electrostaticMain v phase)) :
    (electrostaticMain v phase).phases.filter (· ≠ .timings) = [.session, .mesh, .driver, .system, .run, .finalise, .sessionFinalise] ∧
    (Phase.timings ∈ (electrostaticMain v phase).phases ↔ v = true) ∧
    ∀ x ∈ [Phase.session, .mesh, .driver, .system, .run, .finalise, .sessionFinalise], phase x = none := by
  have hall : ∀ x ∈ electrostaticPhases v, phase x = none := by
    rcases (electrostatic_exit_status_partial v phase).mp h with h | h
    · exact h
    · obtain ⟨_, _, _, h4⟩ := runPhases_spec phase (electrostaticPhases v)
      obtain ⟨pre, x, post, _, _, hx, _⟩ := h4 _ h
      exact absurd hx (hs x)
  have hp : (electrostaticMain v phase).phases = electrostaticPhases v := by
    obtain ⟨h1, h2, _, _⟩ := runPhases_spec phase (electrostaticPhases v)
    have h3 := h1.mpr hall
    unfold electrostaticMain
    simp only [h3, h2 h3]
  rw [hp]
  refine ⟨by cases v <;> decide, by cases v <;> decide, fun x hx => hall x ?_⟩
  cases v <;> revert x <;> decide

/-- Finding: a failed assertion ends the electrostatic program with the status one, but the program itself writes no message. -/
theorem silent_failure (v : Bool) (phase : Phase → Option Thrown) (h : (runPhases phase (electrostaticPhases v)).2 = some .runtimeError) :
    (electrostaticMain v phase).ended = .returned 1 ∧ (electrostaticMain v phase).message = false := by
  unfold electrostaticMain
  simp [h]

example : Success (solverMain true true fun _ => none) := by decide

example : ¬ Success (solverMain true true fun x => if x = .run then some .runtimeError else none) := by decide

end Verif.Props.C99
