import Mathlib.Data.Fintype.Basic
import Mathlib.Logic.Function.Basic
import Mathlib.Logic.Relation
import Mathlib.Algebra.BigOperators.Group.Finset.Basic

/-!
The part of MPI which the exchanges of /repo/include/nektar_interface/particle_mesh_interface.hpp, geometry_transport_2d.hpp, halo_extension.hpp and
/repo/src/nektar_interface/geometry_transport/halo_extension.cpp use, as an interleaving semantics: a rank is a program, and any rank which can make
its next step may do so. Messages between a pair of ranks with a tag arrive in the order they were sent; nothing is assumed about the order
of messages of different senders or tags, and nothing about the relative speed of the ranks.

This is the semantics of the MPI standard, which is external to the repository:
- `MPI_Send`, `MPI_Isend` (3.4, 3.7): the message is put into the channel. An implementation may also delay the completion of a send until the
  matching receive is posted; `Step.Sync` below is the relation in which every send is delayed in this way.
- `MPI_Irecv` (3.7), with `MPI_ANY_SOURCE` as `none`: receives with the same source and tag match messages in the order in which they were
  posted (3.5).
- `MPI_Waitall` on the receives: continues when all of the posted receives have matched and gives the sources and data in the order of posting.
- `MPI_Ibarrier` and `MPI_Wait` (5.12): the wait ends when all of the ranks have entered the barrier. `MPI_Barrier` is one after the other.
- A window of one `int` per rank (11): stores and loads of the owner and atomic `MPI_Get_accumulate` with `MPI_SUM` of any rank.
- `MPI_Waitall` on sends has no effect in this model.
-/

namespace Verif.Model.Mpi

/-- A program of one of `n` ranks with messages `M` and result `O`. No code: the MPI calls of particle_mesh_interface.hpp:327-469, halo_extension.cpp:207-326, geometry_transport_3d.cpp:350-389. -/
inductive Prog (n : ℕ) (M O : Type) where
  /-- The function has returned. -/
  | done (o : O)
  /-- A failed assertion, an exception or undefined behaviour. -/
  | fail
  | send (d : Fin n) (tag : ℕ) (m : M) (k : Prog n M O)
  | irecv (s : Option (Fin n)) (tag : ℕ) (k : Prog n M O)
  | waitall (k : List (Fin n × M) → Prog n M O)
  | ibarrier (k : Prog n M O)
  | bwait (k : Prog n M O)
  | winStore (v : ℤ) (k : Prog n M O)
  | winLoad (k : ℤ → Prog n M O)
  | accumulate (d : Fin n) (v : ℤ) (k : Prog n M O)

/-- What a posted receive matches: a source (`none` is `MPI_ANY_SOURCE`) and a tag. MPI semantics for `MPI_Irecv`, particle_mesh_interface.hpp:370, 440. -/
abbrev Key (n : ℕ) := Option (Fin n) × ℕ

/-- The state of all of the ranks and of the network. MPI semantics, no code. -/
structure Sys (n : ℕ) (M O : Type) where
  prog : Fin n → Prog n M O
  /-- The receives posted since the last `waitall`, in order. -/
  posted : Fin n → List (Key n)
  /-- The messages matched by the posted receives, for each key in the order of posting. -/
  got : Fin n → Key n → List (Fin n × M)
  /-- The messages in flight: source, destination, tag. -/
  net : Fin n → Fin n → ℕ → List M
  win : Fin n → ℤ
  /-- The number of barriers entered. -/
  entered : Fin n → ℕ
  /-- The number of barriers passed. -/
  passed : Fin n → ℕ

variable {n : ℕ} {M O : Type}

/-- The start: nothing posted, nothing in flight. The content of the windows is arbitrary. MPI semantics, no code. -/
def Sys.init (P : Fin n → Prog n M O) (w : Fin n → ℤ) : Sys n M O :=
  { prog := P, posted := fun _ => [], got := fun _ _ => [], net := fun _ _ _ => [], win := w, entered := fun _ => 0, passed := fun _ => 0 }

/-- The data given to the program after `MPI_Waitall`, in the order of posting. MPI semantics for `MPI_Waitall`, particle_mesh_interface.hpp:380-388. -/
def collect : List (Key n) → (Key n → List (Fin n × M)) → List (Fin n × M)
  | [], _ => []
  | k :: ks, got =>
    match got k with
    | [] => collect ks got
    | x :: xs => x :: collect ks (Function.update got k xs)

/-- Put a message into a channel. MPI semantics, no code. -/
def push (net : Fin n → Fin n → ℕ → List M) (s d : Fin n) (t : ℕ) (m : M) : Fin n → Fin n → ℕ → List M :=
  fun s' d' t' => if s' = s ∧ d' = d ∧ t' = t then net s' d' t' ++ [m] else net s' d' t'

/-- Take the first message out of a channel. MPI semantics, no code. -/
def pop (net : Fin n → Fin n → ℕ → List M) (s d : Fin n) (t : ℕ) : Fin n → Fin n → ℕ → List M :=
  fun s' d' t' => if s' = s ∧ d' = d ∧ t' = t then (net s' d' t').tail else net s' d' t'

/-- A posted receive of `r` with the key `key` can take a message of `s` with the tag `t`. MPI semantics for `MPI_Irecv`, no code. -/
def Sys.open (S : Sys n M O) (r s : Fin n) (t : ℕ) (key : Key n) : Prop :=
  (key = (some s, t) ∨ key = (none, t)) ∧ (S.got r key).length < (S.posted r).count key

/-- One step of one rank or one match of a message and a receive. `sync` restricts the sends: with `sync = true` a send completes only when the
receive is posted and no earlier message is in the channel. MPI semantics, no code. -/
inductive Step (sync : Bool) : Sys n M O → Sys n M O → Prop
  | send (S : Sys n M O) (r d t m k) (h : S.prog r = .send d t m k)
      (hs : sync = true → S.net r d t = [] ∧ ∃ key, S.open d r t key) :
      Step sync S { S with prog := Function.update S.prog r k, net := push S.net r d t m }
  | irecv (S : Sys n M O) (r s t k) (h : S.prog r = .irecv s t k) :
      Step sync S { S with prog := Function.update S.prog r k, posted := Function.update S.posted r (S.posted r ++ [(s, t)]) }
  | deliver (S : Sys n M O) (r s t m rest key) (h : S.net s r t = m :: rest) (hk : S.open r s t key) :
      Step sync S { S with
        net := pop S.net s r t
        got := Function.update S.got r (Function.update (S.got r) key (S.got r key ++ [(s, m)])) }
  | waitall (S : Sys n M O) (r k) (h : S.prog r = .waitall k) (hf : ∀ key, (S.got r key).length = (S.posted r).count key) :
      Step sync S { S with
        prog := Function.update S.prog r (k (collect (S.posted r) (S.got r)))
        posted := Function.update S.posted r []
        got := Function.update S.got r fun _ => [] }
  | ibarrier (S : Sys n M O) (r k) (h : S.prog r = .ibarrier k) :
      Step sync S { S with prog := Function.update S.prog r k, entered := Function.update S.entered r (S.entered r + 1) }
  | bwait (S : Sys n M O) (r k) (h : S.prog r = .bwait k) (hb : ∀ s, S.passed r + 1 ≤ S.entered s) :
      Step sync S { S with prog := Function.update S.prog r k, passed := Function.update S.passed r (S.passed r + 1) }
  | winStore (S : Sys n M O) (r v k) (h : S.prog r = .winStore v k) :
      Step sync S { S with prog := Function.update S.prog r k, win := Function.update S.win r v }
  | winLoad (S : Sys n M O) (r k) (h : S.prog r = .winLoad k) :
      Step sync S { S with prog := Function.update S.prog r (k (S.win r)) }
  | accumulate (S : Sys n M O) (r d v k) (h : S.prog r = .accumulate d v k) :
      Step sync S { S with prog := Function.update S.prog r k, win := Function.update S.win d (S.win d + v) }

/-- The states any execution can reach. MPI semantics, no code. -/
def Reachable (S₀ S : Sys n M O) : Prop := Relation.ReflTransGen (Step false) S₀ S

/-- All of the ranks have returned. MPI semantics, no code. -/
def Sys.Finished (S : Sys n M O) : Prop := ∀ r, ∃ o, S.prog r = .done o

end Verif.Model.Mpi
