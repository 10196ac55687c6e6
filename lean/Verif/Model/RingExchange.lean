import Verif.Model.Mpi
import Verif.Model.PackedGeom2D
import Mathlib.Data.Fin.Basic

/-! Model of `get_all_remote_geoms_2d`, /repo/include/nektar_interface/geometry_transport/geometry_transport_2d.hpp:29-83. -/

namespace Verif.Model.RingExchange
open Verif.Model.Bytes Verif.Model.PackedGeom2D Verif.Model.Mpi

/-- `lambda_pos_mod`, line 60, with the truncating `%` of C++. -/
def posMod (i n : ℤ) : ℤ := (i.tmod n + n).tmod n

/-- `std::vector<unsigned char>::resize`, line 47. -/
def resize (buf : List Byte) (k : ℕ) : List Byte := buf.take k ++ List.replicate (k - buf.length) 0

variable {n : ℕ} [NeZero n]

/-- The loop of lines 63-80; the first argument is the number of remaining iterations. The data of `ptr_recv` is the data to send in the next
iteration (lines 77-79). `MPI_Sendrecv` posts the receive, sends, and waits for both. -/
def ringLoop (kEdges maxBufSize : ℕ) (rank : Fin n) : ℕ → List Byte → List Remote → Prog n (List Byte) (List Remote)
  | 0, _, geoms => .done geoms
  | k + 1, ptrSend, geoms =>
    let rankSend : Fin n := Fin.ofNat n (posMod ((rank.val : ℤ) + 1) n).toNat
    let rankRecv : Fin n := Fin.ofNat n (posMod ((rank.val : ℤ) - 1) n).toNat
    .irecv (some rankRecv) rankRecv.val <| .send rankSend rank.val ptrSend <| .waitall fun res =>
      match res with
      | (_, ptrRecv) :: _ =>
        match unpackGeoms kEdges ptrRecv maxBufSize geoms with
        | .ok geoms' => ringLoop kEdges maxBufSize rank k ptrRecv geoms'
        | _ => .fail
      | [] => .fail

/-- `local_packed_geoms.buf`, line 37; the rank is an `int`. -/
def localBuf (shape : I32) (geoms : Fin n → List (I32 × Geom)) (rank : Fin n) : List Byte :=
  packGeoms shape (BitVec.ofNat 32 rank.val) (geoms rank)

/-- `max_buf_size`, lines 39-43: `MPI_Allreduce` with `MPI_MAX`. -/
def maxBufSize (shape : I32) (geoms : Fin n → List (I32 × Geom)) : ℕ :=
  (List.finRange n).foldl (fun m r => max m (localBuf shape geoms r).length) 0

/-- `get_all_remote_geoms_2d` on one of the ranks. `geoms` are the local geometries of all of the ranks. geometry_transport_2d.hpp:30-105. -/
def getAllRemoteGeoms2d (shape : I32) (kEdges : ℕ) (geoms : Fin n → List (I32 × Geom)) (rank : Fin n) :
    Prog n (List Byte) (List Remote) :=
  ringLoop kEdges (maxBufSize shape geoms) rank (n - 1) (resize (localBuf shape geoms rank) (maxBufSize shape geoms)) []

end Verif.Model.RingExchange
