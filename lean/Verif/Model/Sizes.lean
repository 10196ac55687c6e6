import Mathlib.Data.Int.Notation
import Mathlib.Data.Nat.Notation

/-! Model of the size helpers of `/repo/include/nektar_interface/utility_sycl.hpp`. -/

namespace Verif.Model.Sizes

/-- `get_global_size`, lines 23-30. `L = 0` is a division by zero: outcome `none`. -/
def getGlobalSize (N L : ℕ) : Option ℕ :=
  if L = 0 then none
  else
    let quot := N / L
    let rem := N % L
    some ((quot + (if rem = 0 then 0 else 1)) * L)

/-- `pad_to_vector_length`, lines 70-77, for a non-negative argument; `V` is `NESO_VECTOR_LENGTH`
(4 by default, lines 49-55). -/
def padToVectorLength (V L : ℕ) : ℕ :=
  let rem := L % V
  if rem = 0 then L else L + (V - rem)

end Verif.Model.Sizes
