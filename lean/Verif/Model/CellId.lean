import Verif.Model.Mem

/-!
Model of `/repo/include/nektar_interface/cell_id_translation.hpp` (`CellIDTranslation`) and of
`NESOCellsToNektarExp` in `/repo/include/nektar_interface/utilities.hpp`.
-/

namespace Verif.Model.CellId
open Verif.Model.Mem

/-- Member data of `CellIDTranslation`, cell_id_translation.hpp lines 34-37, 84, 91. `idMap` entries are
`none` until written (the buffer is not initialised by `realloc_no_copy`). -/
structure Translation where
  mapToNektar : List ℤ
  geomType : List ℤ
  shift : ℤ
  idMap : List (Option ℤ)

/-- `numeric_limits<int>::max()` / `lowest()`. cell_id_translation.hpp:42. -/
def intMax : ℤ := 2147483647
/-- `numeric_limits<int>::lowest()`, cell_id_translation.hpp:43. -/
def intLowest : ℤ := -2147483648

/-- `id_min` after the loop, lines 42, 55. -/
def idMin (ids : List ℤ) : ℤ := ids.foldl min intMax

/-- `id_max` after the loop, lines 43, 56. -/
def idMax (ids : List ℤ) : ℤ := ids.foldl max intLowest

/-- The loop of lines 69-72: `id_map[map_to_nektar[ex] - shift] = ex`. -/
def fillIdMap (shift : ℤ) : List ℤ → ℤ → List (Option ℤ) → Option (List (Option ℤ))
  | [], _, buf => some buf
  | id :: rest, ex, buf =>
    match write buf (id - shift) (some ex) with
    | none => none
    | some buf' => fillIdMap shift rest (ex + 1) buf'

/-- `construct_maps`, lines 39-75. `geoms` lists `(id, shape type)` in the iteration order of the
`std::map<int, ...>`, i.e. with strictly increasing ids. The outcome is `none` on undefined behaviour
(`int` overflow in `id_max - id_min`, which happens for an empty map, or an out-of-bounds write). -/
def constructMaps (geoms : List (ℤ × ℤ)) : Option Translation :=
  let ids := geoms.map Prod.fst
  let lo := idMin ids
  let hi := idMax ids
  if hi - lo < intLowest ∨ intMax ≤ hi - lo then none
  else
    match fillIdMap lo ids 0 (List.replicate (hi - lo + 1).toNat none) with
    | none => none
    | some buf => some { mapToNektar := ids, geomType := geoms.map Prod.snd, shift := lo, idMap := buf }

/-- The per particle kernel of `execute`, lines 135-140: `none` on an out-of-bounds or uninitialised
read. -/
def execute (t : Translation) (nektarCell : ℤ) : Option ℤ :=
  (read t.idMap (nektarCell - t.shift)).join

/-- A `std::map<int,int>` built by `m[k] = v` assignments, as an association list with the most recent
assignment first. utilities.hpp:452, 469. -/
abbrev IMap := List (ℤ × ℤ)

/-- `map.at(k)`; `none` is the `std::out_of_range` exception. utilities.hpp:480. -/
def IMap.at? (m : IMap) (k : ℤ) : Option ℤ := m.lookup k

/-- Loop of utilities.hpp lines 469-475: `map_geom_to_exp[gid] = ei`; `gids` are the global geometry
ids of the expansions in expansion order. -/
def geomToExp (gids : List ℤ) : IMap :=
  (gids.zipIdx.map (fun p => (p.1, (p.2 : ℤ)))).foldl (fun m p => p :: m) []

/-- Constructor of `NESOCellsToNektarExp`, utilities.hpp lines 463-483. -/
def nesoCellsToExp (gids mapToNektar : List ℤ) : Option IMap :=
  let g2e := geomToExp gids
  mapToNektar.zipIdx.foldl
    (fun acc p => acc.bind fun m => (g2e.at? p.1).map fun e => ((p.2 : ℤ), e) :: m) (some [])

/-- `get_exp_id`, utilities.hpp line 501. -/
def getExpId (m : IMap) (nesoCell : ℤ) : Option ℤ := m.at? nesoCell

end Verif.Model.CellId
