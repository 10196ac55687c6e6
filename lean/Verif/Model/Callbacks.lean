/-!
Model of `/repo/include/solvers/solver_callback_handler.hpp`.

A callback is a value `c : C` whose effect on the solver is `act c : S → S`. All the overloads of
`register_pre_integrate` and `register_post_integrate` convert their argument to a
`std::function<void(SOLVER*)>` (`get_as_consistent_type`, lines 48-73) and push it on a vector, so they have one
model each. A callback that registers further callbacks while it runs would invalidate the iterators of the
loop (undefined behaviour) and is not modelled.
-/

namespace Verif.Model.Callbacks

/-- `SolverCallbackHandler`, lines 38-44, together with the solver's state. -/
structure State (C S : Type) where
  pre : List C
  post : List C
  solver : S

/-- The member functions of solver_callback_handler.hpp:89-225. -/
inductive Op (C : Type) where
  | registerPre (c : C)
  | registerPost (c : C)
  | callPre
  | callPost

/-- A handler without registered functions. solver_callback_handler.hpp:41-43. -/
def init {C S : Type} (s : S) : State C S := ⟨[], [], s⟩

/-- One API call: `register_pre_integrate` (lines 91-140), `register_post_integrate` (lines 157-208),
`call_pre_integrate` (lines 216-220) and `call_post_integrate` (lines 228-232). The second component lists
the callbacks that were invoked. -/
def step {C S : Type} (act : C → S → S) (st : State C S) : Op C → State C S × List C
  | .registerPre c => ({ st with pre := st.pre ++ [c] }, [])
  | .registerPost c => ({ st with post := st.post ++ [c] }, [])
  | .callPre => ({ st with solver := st.pre.foldl (fun s c => act c s) st.solver }, st.pre)
  | .callPost => ({ st with solver := st.post.foldl (fun s c => act c s) st.solver }, st.post)

/-- A history of API calls, with the callbacks each call invoked. No code: a sequence of calls of the functions in solver_callback_handler.hpp:89-225. -/
def run {C S : Type} (act : C → S → S) (st : State C S) : List (Op C) → State C S × List (List C)
  | [] => (st, [])
  | o :: os =>
    let (st', out) := step act st o
    let (st'', outs) := run act st' os
    (st'', out :: outs)

end Verif.Model.Callbacks
