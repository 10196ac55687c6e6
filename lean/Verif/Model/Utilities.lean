import Verif.Model.Mem

/-!
Model of parts of `/repo/include/nektar_interface/utilities.hpp` (`NektarFieldIndexMap`,
`find_owning_geom`) and of `/repo/src/nektar_interface/utilities.cpp` (`uniform_within_elements`).
-/

namespace Verif.Model.Utilities
open Verif.Model.Mem

/-! ### NektarFieldIndexMap -/

/-- Insertion `field_to_index[name] = index` into the `std::map` (utilities.hpp line 47): overwrite or
add. -/
def mapAssign (m : List (String × ℤ)) (k : String) (v : ℤ) : List (String × ℤ) :=
  (k, v) :: m.filter (fun p => p.1 ≠ k)

/-- Constructor of `NektarFieldIndexMap`, lines 44-49. -/
def mkIndexMap (names : List String) : List (String × ℤ) :=
  (names.foldl (fun (s : List (String × ℤ) × ℤ) n => (mapAssign s.1 n s.2, s.2 + 1)) ([], 0)).1

/-- `get_idx`, lines 56-60. -/
def getIdx (m : List (String × ℤ)) (n : String) : ℤ :=
  match m.lookup n with
  | some i => i
  | none => -1

/-- `at` and `operator[]`, lines 70-80; `none` is `std::out_of_range`. -/
def indexAt (m : List (String × ℤ)) (n : String) : Option ℤ := m.lookup n

/-! ### find_owning_geom -/

/-- Per rank state of the candidate loop: `geom_found`, `*geom_id_output` (unset: `none`) and
`num_geoms`. utilities.hpp:394-408. -/
structure Local where
  geomFound : Bool
  geomId : Option ℤ
  numGeoms : ℕ
deriving DecidableEq, Repr

/-- The candidate loop of `find_owning_geom`, utilities.hpp lines 394-407. `contains` is the Nektar++
`ContainsPoint` predicate of the geometry for the fixed point. Reference coordinates are not tracked. -/
def localLoop (contains : ℤ → Bool) (candidates : List ℤ) : Local :=
  candidates.foldl
    (fun s id =>
      let found := contains id
      if found then ⟨found, some id, s.numGeoms + 1⟩ else ⟨found, s.geomId, s.numGeoms⟩)
    ⟨false, none, 0⟩

/-- What every rank gets from `find_owning_geom`: the return value, `*owning_rank_output`,
`*geom_id_output` (after the broadcast) and `*num_geoms_output`. utilities.hpp:365-443. -/
structure Owner where
  found : Bool
  rank : ℤ
  geomId : Option ℤ
  numGeoms : ℕ
deriving DecidableEq, Repr

/-- `find_owning_geom`, utilities.hpp lines 364-443, for a communicator with one entry of
`candidates` per rank. `MPI_Allreduce(MIN)` is a minimum over the ranks' `send_value`, `MPI_Bcast`
copies the owner's value to every rank. -/
def findOwningGeom (contains : ℤ → Bool) (candidates : List (List ℤ)) : Owner :=
  let size := candidates.length
  let locals := candidates.map (localLoop contains)
  let send := locals.zipIdx.map (fun p => if p.1.geomFound then p.2 else size)
  let recv := send.foldl min size
  let num := (locals.map Local.numGeoms).sum
  if recv = size then ⟨false, -1, none, num⟩
  else ⟨true, recv, (locals[recv]?).bind Local.geomId, num⟩

/-! ### uniform_within_elements -/

variable {Elem Point Rng : Type*}

/-- `lambda_sample` of utilities.cpp lines 38-76: draw, then redraw until the containment test passes;
the assertion of line 74 limits the number of redraws. `draw` is `lambda_sample_new` (lines 45-52),
`contains` is `lambda_contains_point` (lines 55-67). `none` is the failed assertion. -/
def sampleLoop (draw : Rng → Elem → Point × Rng) (contains : Elem → Point → Bool) (e : Elem) :
    ℕ → Point → Rng → Option (Point × Rng)
  | 0, p, rng => if contains e p then some (p, rng) else none
  | fuel + 1, p, rng =>
    if contains e p then some (p, rng)
    else
      let (p', rng') := draw rng e
      sampleLoop draw contains e fuel p' rng'

/-- One call of `lambda_sample`: the first draw and at most `limit - 1` successful redraws (`limit` is
1000000: the assertion fails at the redraw that makes `trial_count` reach it). -/
def sampleElem (draw : Rng → Elem → Point × Rng) (contains : Elem → Point → Bool) (limit : ℕ)
    (rng : Rng) (e : Elem) : Option (Point × Rng) :=
  let (p, rng') := draw rng e
  sampleLoop draw contains e (limit - 1) p rng'

/-- State of `lambda_dispatch`, utilities.cpp lines 78-93. -/
structure Disp (Point Rng : Type*) where
  rng : Rng
  index : ℕ
  positions : List (Option Point)
  cells : List (Option ℤ)

/-- Body of the inner loop, lines 84-89; `.at` throws when out of range. -/
def dispatchOne (draw : Rng → Elem → Point × Rng) (contains : Elem → Point → Bool) (limit : ℕ)
    (e : Elem) (ex : ℤ) (s : Disp Point Rng) : Option (Disp Point Rng) :=
  (sampleElem draw contains limit s.rng e).bind fun q =>
  (write s.positions s.index (some q.1)).bind fun positions =>
  (write s.cells s.index (some ex)).bind fun cells =>
  some ⟨q.2, s.index + 1, positions, cells⟩

/-- The inner loop over `px`. src/nektar_interface/utilities.cpp:83-90. -/
def dispatchCell (draw : Rng → Elem → Point × Rng) (contains : Elem → Point → Bool) (limit : ℕ)
    (e : Elem) (ex : ℤ) : ℕ → Disp Point Rng → Option (Disp Point Rng)
  | 0, s => some s
  | n + 1, s => (dispatchOne draw contains limit e ex s).bind (dispatchCell draw contains limit e ex n)

/-- The loop over the elements in container order. src/nektar_interface/utilities.cpp:78-93. -/
def dispatchAll (draw : Rng → Elem → Point × Rng) (contains : Elem → Point → Bool) (limit npart : ℕ) :
    List Elem → ℤ → Disp Point Rng → Option (Disp Point Rng)
  | [], _, s => some s
  | e :: es, ex, s =>
    (dispatchCell draw contains limit e ex npart s).bind (dispatchAll draw contains limit npart es (ex + 1))

/-- `uniform_within_elements`, utilities.cpp lines 5-102: positions are kept as whole points instead of
one vector per dimension. -/
def uniformWithinElements (draw : Rng → Elem → Point × Rng) (contains : Elem → Point → Bool)
    (limit npart : ℕ) (elems : List Elem) (rng : Rng) : Option (Disp Point Rng) :=
  let total := elems.length * npart
  dispatchAll draw contains limit npart elems 0
    ⟨rng, 0, List.replicate total none, List.replicate total none⟩

end Verif.Model.Utilities
