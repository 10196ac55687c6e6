import Verif.Model.MeshHierarchy

/-!
Model of `halo_get_mesh_hierarchy_cells` and of the start of `extend_halos_fixed_offset`, halo_extension.cpp. Sets of cells are lists without
duplicates, in the order of insertion (the code only uses membership and iterates in the order of the cell index).
-/

namespace Verif.Model.HaloCells
open Verif.Model.MeshHierarchy

/-- `std::set::insert`. halo_extension.cpp:49, 102. -/
def setInsert (l : List ℤ) (a : ℤ) : List ℤ := if a ∈ l then l else l ++ [a]

/-- `for (x = s; x < e; x++)`: the values of `x`. The loops of halo_extension.cpp:60-110. -/
def intRange (s e : ℤ) : List ℤ := (List.range (e - s).toNat).map fun (k : ℕ) => s + (k : ℤ)

/-- `offset_starts`, halo_extension.cpp:33-38. -/
def offsetStart (m : MH) (width : ℤ) (d : ℕ) : ℤ := if d < m.ndim then -width else 0
/-- `offset_ends`, halo_extension.cpp:34-38. -/
def offsetEnd (m : MH) (width : ℤ) (d : ℕ) : ℤ := if d < m.ndim then width + 1 else 1

/-- The values of `ox` in the loops halo_extension.cpp:69-71. -/
def offsets (m : MH) (width : ℤ) : List (ℕ → ℤ) :=
  (intRange (offsetStart m width 2) (offsetEnd m width 2)).flatMap fun o2 =>
  (intRange (offsetStart m width 1) (offsetEnd m width 1)).flatMap fun o1 =>
  (intRange (offsetStart m width 0) (offsetEnd m width 0)).map fun o0 =>
    fun d => if d = 0 then o0 else if d = 1 then o1 else o2

/-- `global_tuple`, halo_extension.cpp:57-65. -/
def globalTuple (m : MH) (cell : ℤ) (d : ℕ) : ℤ :=
  linearToTupleGlobal m cell d * m.ncf + linearToTupleGlobal m cell (d + m.ndim)

/-- `valid`, halo_extension.cpp:74-82. -/
def valid (m : MH) (pbc : Bool) (g ox : ℕ → ℤ) : Bool :=
  (List.range m.ndim).all fun d => pbc || (decide (g d + ox d ≥ 0) && decide (g d + ox d < cellCounts m d))

/-- `offset_dim_linear`, halo_extension.cpp:76-77, 83-85. C++'s `%` truncates. -/
def offsetDimLinear (m : MH) (g ox : ℕ → ℤ) (d : ℕ) : ℤ := (g d + ox d + cellCounts m d).tmod (cellCounts m d)

/-- `global_tuple_mh` after the loop over the dimensions, halo_extension.cpp:87-92. -/
def offsetTuple (m : MH) (g ox : ℕ → ℤ) : ℕ → ℤ := fun d =>
  if d < m.ndim then (offsetDimLinear m g ox d).tdiv m.ncf else (offsetDimLinear m g ox (d - m.ndim)).tmod m.ncf

/-- The body of the loop over the offsets, halo_extension.cpp:72-104; `none` is a failed assertion. -/
def haloStep (m : MH) (pbc : Bool) (owned : List ℤ) (g : ℕ → ℤ) (remote : List ℤ) (ox : ℕ → ℤ) : Option (List ℤ) :=
  let id := tupleToLinearGlobal m (offsetTuple m g ox)
  if ¬ id < ncellsGlobal m then none
  else if ¬ -1 < id then none
  else some (if id ∉ owned ∧ valid m pbc g ox = true then setInsert remote id else remote)

/-- `halo_get_mesh_hierarchy_cells`, halo_extension.cpp:23-108. -/
def haloCells (m : MH) (width : ℤ) (pbc : Bool) (owned unowned remote : List ℤ) : Option (List ℤ) :=
  (owned ++ unowned).foldlM (fun remote cell => (offsets m width).foldlM (haloStep m pbc owned (globalTuple m cell)) remote) remote

/-- `min_dim`, halo_extension.cpp:434-437. -/
def minDim (m : MH) : ℤ := (List.range m.ndim).foldl (fun a d => min a (m.dims d)) (m.dims 0)

/-- The start of `extend_halos_fixed_offset`, halo_extension.cpp:420-444: the cells whose geometries are requested. The outer `none` is a
failed assertion, the inner `none` the return at line 425 without any effect. -/
def requestedCells (m : MH) (offset : ℤ) (pbc : Bool) (owned unowned : List ℤ) : Option (Option (List ℤ)) :=
  if offset < 0 then some none
  else if ¬ offset ≤ minDim m * m.ncf then none
  else (haloCells m offset pbc owned unowned []).map some

end Verif.Model.HaloCells
