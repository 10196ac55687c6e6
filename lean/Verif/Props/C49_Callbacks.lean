import Verif.Model.Callbacks
import Mathlib.Data.List.Basic

namespace Verif.Props.C49
open Verif.Model.Callbacks

variable {C S : Type}

/-- The callbacks registered for before the step in a history, in order of registration. -/
def registeredPre (ops : List (Op C)) : List C :=
  ops.filterMap fun | .registerPre c => some c | _ => none

/-- The callbacks registered for after the step in a history, in order of registration. -/
def registeredPost (ops : List (Op C)) : List C :=
  ops.filterMap fun | .registerPost c => some c | _ => none

theorem run_lists (act : C → S → S) (st : State C S) (ops : List (Op C)) :
    (run act st ops).1.pre = st.pre ++ registeredPre ops ∧
    (run act st ops).1.post = st.post ++ registeredPost ops ∧ (run act st ops).2.length = ops.length := by
  induction ops generalizing st with
  | nil => simp [run, registeredPre, registeredPost]
  | cons o os ih =>
    obtain ⟨h1, h2, h3⟩ := ih (step act st o).1
    refine ⟨?_, ?_, ?_⟩
    · simp only [run]; rw [h1]; cases o <;> simp [step, registeredPre]
    · simp only [run]; rw [h2]; cases o <;> simp [step, registeredPost]
    · simp [run, h3]

theorem run_append (act : C → S → S) (st : State C S) (a b : List (Op C)) :
    run act st (a ++ b) = ((run act (run act st a).1 b).1, (run act st a).2 ++ (run act (run act st a).1 b).2) := by
  induction a generalizing st with
  | nil => rfl
  | cons o os ih => simp only [List.cons_append, run]; rw [ih]

/-- **C49.** For every history `before ++ [o] ++ after`: the call `o` invokes

* the functions registered so far to run before a step, each once per registration and in order of
  registration, if it is `call_pre_integrate`;
* likewise the functions registered to run after a step if it is `call_post_integrate`;
* nothing if it is a registration,

and the solver sees exactly these effects, in this order. -/
theorem callbacks_once_in_order (act : C → S → S) (s : S) (before after : List (Op C)) (o : Op C) :
    let expected := match o with
      | .callPre => registeredPre before
      | .callPost => registeredPost before
      | _ => []
    (run act (init s) (before ++ [o] ++ after)).2[before.length]? = some expected ∧
    (run act (init s) (before ++ [o])).1.solver =
      expected.foldl (fun st c => act c st) (run act (init s) before).1.solver := by
  intro expected
  obtain ⟨h1, h2, h3⟩ := run_lists act (init (C := C) s) before
  replace h1 : (run act (init s) before).1.pre = registeredPre before := by rw [h1]; rfl
  replace h2 : (run act (init s) before).1.post = registeredPost before := by rw [h2]; rfl
  have hexp : (step act (run act (init s) before).1 o).2 = expected := by
    cases o <;> simp [step, expected, h1, h2]
  constructor
  · rw [List.append_assoc, run_append]
    simp only
    rw [List.getElem?_append_right (by omega), h3, Nat.sub_self]
    simp [run, hexp]
  · rw [run_append]
    cases o <;> simp [run, step, expected, h1, h2]

/-- The calls of a history do not depend on what the callbacks do to the solver. -/
theorem calls_independent_of_effects (act act' : C → S → S) (s s' : S) (ops : List (Op C)) :
    (run act (init s) ops).2 = (run act' (init s') ops).2 := by
  have h : ∀ (st st' : State C S), st.pre = st'.pre → st.post = st'.post →
      (run act st ops).2 = (run act' st' ops).2 := by
    induction ops with
    | nil => intros; rfl
    | cons o os ih =>
      intro st st' hp hq
      simp only [run]
      rw [ih (step act st o).1 (step act' st' o).1 (by cases o <;> simp [step, hp])
        (by cases o <;> simp [step, hq])]
      congr 1
      cases o <;> simp [step, hp, hq]
  exact h _ _ rfl rfl

/-- Non-vacuity: registrations interleaved with steps. -/
example : (run (fun (c : Nat) (s : Nat) => 10 * s + c) (init 0)
    [.registerPre 1, .callPre, .callPost, .registerPre 2, .registerPost 3, .callPre, .callPost]).2 =
    [[], [1], [], [], [], [1, 2], [3]] := by decide

end Verif.Props.C49
