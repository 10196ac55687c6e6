import Verif.Model.HaloExchange
import Verif.Spec.CellOverlap
import Verif.Spec.Geometry2D

/-! What the halos of a distributed mesh are. -/

namespace Verif.Spec
open Verif.Model.Bytes Verif.Model.PackedGeom2D Verif.Model.Claims Verif.Model.HaloExchange

variable {K : Type} [Field K] [LinearOrder K] {n : ℕ}

/-- The element with the id `e.1` of rank `s` as the other ranks know it. -/
def asRemote (s : Fin n) (e : ℤ × LGeom K) : Remote := ⟨BitVec.ofNat 32 s.val, BitVec.ofInt 32 e.1, e.2.geom⟩

/-- `out` holds, each once (by rank and id), the elements of the other ranks whose bounding box meets a cell owned by `r`. -/
def IsHalo (m : MHGeom K) (owner : ℤ → ℤ) (els : Fin n → List (ℤ × LGeom K)) (r : Fin n) (out : List Remote) : Prop :=
  (out.map fun x => (x.rank, x.id)).Nodup ∧
  ∀ x, x ∈ out ↔ ∃ s, s ≠ r ∧ ∃ e ∈ els s, x = asRemote s e ∧ ∃ c, owner c = r.val ∧ BoxMeets m e.2.lo e.2.hi c

/-- The geometry `e.2` with the id `e.1` of rank `s` as the other ranks know it. -/
def remoteOf (s : Fin n) (e : ℤ × Geom) : Remote := ⟨BitVec.ofNat 32 s.val, BitVec.ofInt 32 e.1, e.2⟩

open Verif.Model.MeshHierarchy in
/-- The cell with the linear index `x` is within `w` cells of the cell `base` in each dimension; with periodic boundaries up to whole domain
widths. -/
def NearCell (m : MH) (w : ℤ) (pbc : Bool) (base x : ℤ) : Prop :=
  ∃ c, InGrid m c ∧ HasLinearIndex m c x ∧ ∃ b, InGrid m b ∧ HasLinearIndex m b base ∧ Within m w pbc b c

/-- `out` holds, each once, the elements `els` of the other ranks which meet a cell owned by `r` or a cell which is, for one of `calls`, within the
offset of a cell met by an element of `r` (`mine`). -/
def IsExtendedHalo (m : MHGeom K) (owner : ℤ → ℤ) (box : Geom → (ℕ → K) × (ℕ → K)) (calls : List (ℤ × Bool)) (mine : List (ℤ × Geom))
    (els : Fin n → List (ℤ × Geom)) (r : Fin n) (out : List Remote) : Prop :=
  (out.map fun x => (x.rank, x.id)).Nodup ∧
  ∀ x, x ∈ out ↔ ∃ s, s ≠ r ∧ ∃ e ∈ els s, x = remoteOf s e ∧ ∃ c, BoxMeets m (box e.2).1 (box e.2).2 c ∧
    (owner c = r.val ∨ ∃ call ∈ calls, 0 ≤ call.1 ∧ ∃ e' ∈ mine, ∃ b, BoxMeets m (box e'.2).1 (box e'.2).2 b ∧ NearCell m.toMH call.1 call.2 b c)

end Verif.Spec
