import Mathlib.Data.Int.Notation
import Mathlib.Algebra.Order.Ring.Int

/-!
Model of `/repo/include/io/generic_hdf5_writer.hpp` (class `GenericHDF5Writer`).

The HDF5 library is external. Its documented behaviour, which the model assumes: `H5Gcreate` of a name that
already exists fails and returns a negative (invalid) identifier, `H5Dcreate2` fails for an invalid group
identifier or an existing name, `H5Dwrite`/`H5Dclose` on an invalid identifier and `H5Gclose` on an
invalid or already closed identifier return a negative value. Faults such as a full disk are a stream
of booleans: the n-th data write fails when `fault n`.
-/

namespace Verif.Model.Hdf5

/-- `GenericHDF5Writer`, lines 11-16, with the part of the HDF5 file it can reach. `handle` is
`group_step`: `none` is the invalid identifier, `some (name, isOpen)` an identifier of the group `name`.
`failed` is a ghost flag: some HDF5 call returned a negative value. `reported` is
set when an exception has been raised. -/
structure Writer (V : Type) where
  step : ℤ
  groups : List (ℤ × List (String × V))
  global : List (String × V)
  handle : Option (ℤ × Bool)
  nwrites : ℕ
  failed : Bool
  reported : Bool

/-- Constructor, lines 55-68 (the case that the file could be created). -/
def Writer.new (V : Type) : Writer V := ⟨-1, [], [], none, 0, false, false⟩

/-- `ghw_H5CHK(const bool flag)`, lines 17-19: the `herr_t` return code is converted to `bool` by the
call and then compared `>= 0`. True means that the assertion holds. -/
def h5chk (ret : ℤ) : Bool :=
  let flag : Bool := decide (ret ≠ 0)
  decide ((if flag then (1 : ℤ) else 0) ≥ 0)

/-- A checked call with return code `ret`. generic_hdf5_writer.hpp:17-19. -/
def Writer.check {V : Type} (w : Writer V) (ret : ℤ) : Writer V :=
  { w with failed := w.failed || decide (ret < 0), reported := w.reported || !(h5chk ret) }

/-- Appends a dataset to the group `name`. generic_hdf5_writer.hpp:47-52. -/
def addTo {V : Type} (groups : List (ℤ × List (String × V))) (name : ℤ) (key : String) (v : V) :
    List (ℤ × List (String × V)) :=
  groups.map fun g => if g.1 = name then (g.1, g.2 ++ [(key, v)]) else g

/-- `write_value_step`, lines 73-75, through `write_group`, lines 46-52, and
`write_dataspace`, lines 21-44. -/
def Writer.writeStep {V : Type} (fault : ℕ → Bool) (w : Writer V) (key : String) (v : V) : Writer V :=
  match w.handle with
  | some (name, true) =>
    if ((w.groups.lookup name).getD []).any (fun p => p.1 = key) || fault w.nwrites then
      ({ w with nwrites := w.nwrites + 1 }).check (-1)
    else ({ w with groups := addTo w.groups name key v, nwrites := w.nwrites + 1 }).check 0
  | _ => ({ w with nwrites := w.nwrites + 1 }).check (-1)

/-- `write_value_global`, lines 70-72. -/
def Writer.writeGlobal {V : Type} (fault : ℕ → Bool) (w : Writer V) (key : String) (v : V) : Writer V :=
  if w.global.any (fun p => p.1 = key) || fault w.nwrites then
    ({ w with nwrites := w.nwrites + 1 }).check (-1)
  else ({ w with global := w.global ++ [(key, v)], nwrites := w.nwrites + 1 }).check 0

/-- `step_start(step_in)`, lines 81-89. The return value of `H5Gcreate` is stored and not checked. -/
def Writer.stepStart {V : Type} (w : Writer V) (stepIn : ℤ) : Writer V :=
  let step := if stepIn > -1 then stepIn else w.step
  if w.groups.any (fun g => g.1 = step) then
    { w with step := step + 1, handle := none, failed := true }
  else { w with step := step + 1, handle := some (step, true), groups := w.groups ++ [(step, [])] }

/-- `step_end()`, line 91. -/
def Writer.stepEnd {V : Type} (w : Writer V) : Writer V :=
  match w.handle with
  | some (name, true) => ({ w with handle := some (name, false) }).check 0
  | _ => w.check (-1)

/-- The member functions of generic_hdf5_writer.hpp:53-91. -/
inductive Op (V : Type) where
  | start (stepIn : ℤ)
  | write (key : String) (v : V)
  | writeGlobal (key : String) (v : V)
  | stop

/-- A call of a member function of generic_hdf5_writer.hpp:53-91. -/
def Writer.apply {V : Type} (fault : ℕ → Bool) (w : Writer V) : Op V → Writer V
  | .start s => w.stepStart s
  | .write k v => w.writeStep fault k v
  | .writeGlobal k v => w.writeGlobal fault k v
  | .stop => w.stepEnd

/-- No code: calls one after the other. -/
def Writer.run {V : Type} (fault : ℕ → Bool) (w : Writer V) (ops : List (Op V)) : Writer V :=
  ops.foldl (Writer.apply fault) w

end Verif.Model.Hdf5
