import Verif.Model.Mpi

/-!
The loops of MPI calls of the exchanges of /repo/include/nektar_interface/particle_mesh_interface.hpp,
/repo/src/nektar_interface/geometry_transport/halo_extension.cpp and /repo/include/nektar_interface/geometry_transport/halo_extension.hpp,
in continuation passing style.
-/

namespace Verif.Model.Mpi

variable {n : ℕ} {M O : Type}

/-- `for (rankx = 0; rankx < num; rankx++) MPI_Irecv(..., MPI_ANY_SOURCE, tag, ...)`: particle_mesh_interface.hpp:369-372,
halo_extension.cpp:221-224. -/
def postAny (tag : ℕ) : ℕ → Prog n M O → Prog n M O
  | 0, k => k
  | c + 1, k => .irecv none tag (postAny tag c k)

/-- `for (rankx ...) MPI_Irecv(..., ranks[rankx], tag, ...)`: particle_mesh_interface.hpp:437-443, halo_extension.cpp:249-256, 312-316,
halo_extension.hpp:168-172, 192-198, geometry_transport_3d.cpp:373-379. -/
def postFrom (tag : ℕ) : List (Fin n) → Prog n M O → Prog n M O
  | [], k => k
  | s :: l, k => .irecv (some s) tag (postFrom tag l k)

/-- `for (rankx ...) MPI_Send(...)` or `MPI_Isend(...)`: the destinations and messages in order. particle_mesh_interface.hpp:373-380, 443-455, halo_extension.cpp:225-245. -/
def sendAll (tag : ℕ) : List (Fin n × M) → Prog n M O → Prog n M O
  | [], k => k
  | x :: l, k => .send x.1 tag x.2 (sendAll tag l k)

/-- The loop over the ranks with `MPI_Win_lock`, `MPI_Get_accumulate` of one and `MPI_Win_unlock`: particle_mesh_interface.hpp:345-350,
halo_extension.cpp:172-177. -/
def accAll : List (Fin n) → Prog n M O → Prog n M O
  | [], k => k
  | d :: l, k => .accumulate d 1 (accAll l k)

/-- Reset, barrier, one accumulation to each of the ranks, barrier, load: `exchange_init_send_counts` and
`exchange_finalise_send_counts`, particle_mesh_interface.hpp:326-355, and `halo_get_num_send_ranks`, halo_extension.cpp:159-184 (where
`MPI_Win_allocate` and `MPI_Win_free`, which are collective, only surround this). -/
def countRanks (ranks : List (Fin n)) (k : ℤ → Prog n M O) : Prog n M O :=
  .winStore 0 <| .ibarrier <| .bwait <| accAll ranks <| .ibarrier <| .bwait <| .winLoad k

end Verif.Model.Mpi
