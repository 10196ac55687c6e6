import Verif.Model.JacobiCoeff
import Verif.Model.BasisReference

/-!
Model of include/nektar_interface/basis_evaluation.hpp: the kernels that fill a buffer with all modes.

Memory is checked: each write of `output[i]` goes through `Mem.write` and each read of the tables or of the
buffer through `Mem.read`, and an access outside of the buffer ends the evaluation with `none`. The entries of the
buffer and the local variables are `Dbl K`, in which `none` is a value that is not finite or not initialised.
-/

namespace Verif.Model.BasisEvaluation
open Verif.Model.JacobiCoeff

variable {K : Type*} [Field K] [DecidableEq K]

/-- `b0`, `one_m_z`: basis_evaluation.hpp:65, 151, 205, 325. -/
def b0 (z : K) : K := (1 / 2) * (1 - z)
/-- `b1`, `one_p_z`: basis_evaluation.hpp:66, 152, 206, 326. -/
def b1 (z : K) : K := (1 / 2) * (1 + z)

/-- State of the innermost loop: the next slot, the buffer, and the local variables. The variables of basis_evaluation.hpp:60-119, 199-261. -/
structure RowSt (K : Type*) where
  mode : ℕ
  buf : List (Dbl K)
  pnm1 : Dbl K
  pnm2 : Dbl K

/-- `output[mode] = etmp1; mode++`, basis_evaluation.hpp:118-119 and 265-266. -/
def put (s : RowSt K) (etmp pnm1 pnm2 : Dbl K) : Option (RowSt K) :=
  (Mem.write s.buf s.mode etmp).map fun buf => ⟨s.mode + 1, buf, pnm1, pnm2⟩

/-- The body of the innermost loops of `mod_B` (basis_evaluation.hpp:72-120, `bpow` is `b1_pow`) and of `mod_C`
(lines 218-267, `bpow` is `inner_b1_pow`, `px = p + q`, `qx = r`); the two texts are the same. -/
def rowBody (T : Tables K) (z : K) (bpow : Dbl K) (px qx : ℕ) (s : RowSt K) : Option (RowSt K) :=
  if px = 0 then
    if qx = 0 then put s (some (b0 z)) s.pnm1 s.pnm2
    else if qx = 1 then put s (some (b1 z)) s.pnm1 s.pnm2
    else if qx = 2 then put s (some (b0 z * b1 z)) s.pnm1 (some 1)
    else if qx = 3 then put s (some (b0 z * b1 z * (2 + 2 * (z - 1)))) (some (2 + 2 * (z - 1))) s.pnm2
    else (recStep T 1 (qx - 2) z s.pnm1 s.pnm2).bind fun pn =>
      put s (Dbl.mul (Dbl.mul pn (some (b0 z))) (some (b1 z))) pn s.pnm1
  else if qx = 0 then put s bpow s.pnm1 s.pnm2
  else
    let alpha := 2 * px - 1
    if qx = 1 then put s (Dbl.mul bpow (some (b1 z))) s.pnm1 (some 1)
    else if qx = 2 then
      let pnm1 : K := (1 / 2) * (2 * ((alpha : K) + 1) + ((alpha : K) + 3) * (z - 1))
      put s (Dbl.mul (Dbl.mul bpow (some (b1 z))) (some pnm1)) (some pnm1) s.pnm2
    else (recStep T alpha (qx - 1) z s.pnm1 s.pnm2).bind fun pn =>
      put s (Dbl.mul (Dbl.mul bpow (some (b1 z))) pn) pn s.pnm1

/-- The innermost loop with `pn, pnm1, pnm2` declared without initialiser before it,
basis_evaluation.hpp:69-120 and 216-267. Returns the next slot and the buffer. -/
def rowLoop (T : Tables K) (z : K) (bpow : Dbl K) (px len mode : ℕ) (buf : List (Dbl K)) :
    Option (ℕ × List (Dbl K)) :=
  (forLoop len (rowBody T z bpow px) ⟨mode, buf, none, none⟩).map fun s => (s.mode, s.buf)

/-- State of the outer loops: next slot, buffer, power of `b0`. The variables of basis_evaluation.hpp:60-119, 199-261. -/
structure PowSt (K : Type*) where
  mode : ℕ
  buf : List (Dbl K)
  pow : Dbl K

/-- `mod_B(nummodes, z, ..., output)`, basis_evaluation.hpp:60-122. Returns the buffer. -/
def modB (T : Tables K) (nummodes : ℕ) (z : K) (buf : List (Dbl K)) : Option (List (Dbl K)) :=
  (forLoop nummodes (fun px (s : PowSt K) =>
      let b1pow := Dbl.mul s.pow (some (b0 z))
      (rowLoop T z b1pow px (nummodes - px) s.mode s.buf).map fun r => ⟨r.1, r.2, b1pow⟩)
    ⟨0, buf, Dbl.div 1 (b0 z)⟩).map fun s => s.buf

/-- `mod_C(nummodes, z, ..., output)`, basis_evaluation.hpp:199-271. -/
def modC (T : Tables K) (nummodes : ℕ) (z : K) (buf : List (Dbl K)) : Option (List (Dbl K)) :=
  (forLoop nummodes (fun p (s : PowSt K) =>
      let outer := Dbl.mul s.pow (some (b0 z))
      (forLoop (nummodes - p) (fun q (t : PowSt K) =>
          (rowLoop T z t.pow (p + q) (nummodes - p - q) t.mode t.buf).map fun r =>
            ⟨r.1, r.2, Dbl.mul t.pow (some (b0 z))⟩)
        ⟨s.mode, s.buf, outer⟩).map fun t => ⟨t.mode, t.buf, outer⟩)
    ⟨0, buf, Dbl.div 1 (b0 z)⟩).map fun s => s.buf

/-- State of the loop of `mod_A`. The variables of basis_evaluation.hpp:147-172. -/
structure ASt (K : Type*) where
  buf : List (Dbl K)
  pnm1 : Dbl K
  pnm2 : Dbl K

/-- `mod_A(nummodes, z, ..., output)`, basis_evaluation.hpp:147-174. Slots 0 and 1 are written whatever
`nummodes` is. -/
def modA (T : Tables K) (nummodes : ℕ) (z : K) (buf : List (Dbl K)) : Option (List (Dbl K)) :=
  (Mem.write buf 0 (some (b0 z))).bind fun buf =>
  (Mem.write buf 1 (some (b1 z))).bind fun buf =>
  (if nummodes > 2 then Mem.write buf 2 (some (b0 z * b1 z)) else some buf).bind fun buf =>
  (if nummodes > 3 then Mem.write buf 3 (some (b0 z * b1 z * (2 + 2 * (z - 1)))) else some buf).bind fun buf =>
  (forLoop (nummodes - 4) (fun i (s : ASt K) =>
      let modex := i + 4
      (recStep T 1 (modex - 2) z s.pnm1 s.pnm2).bind fun pn =>
      (Mem.write s.buf (modex : ℕ) (Dbl.mul (some (b0 z * b1 z)) pn)).map fun buf => ⟨buf, pn, s.pnm1⟩)
    ⟨buf, some (2 + 2 * (z - 1)), some 1⟩).map fun s => s.buf

/-- `for cx < len: output[cx] = output_base[cx]`, basis_evaluation.hpp:310-312 and 318-320; `out` and `base` are
the offsets of the pointers in the buffer. -/
def copyLoop (len base out : ℕ) (buf : List (Dbl K)) : Option (List (Dbl K)) :=
  forLoop len (fun cx buf => (Mem.read buf ((base + cx : ℕ) : ℤ)).bind fun v =>
    Mem.write buf ((out + cx : ℕ) : ℤ) v) buf

/-- The loop of basis_evaluation.hpp:335-338 that copies to two places. -/
def copyTwice (len base out : ℕ) (buf : List (Dbl K)) : Option (List (Dbl K)) :=
  forLoop len (fun cx buf =>
    (Mem.read buf ((base + cx : ℕ) : ℤ)).bind fun v =>
    (Mem.write buf ((out + cx : ℕ) : ℤ) v).bind fun buf =>
    (Mem.read buf ((base + cx : ℕ) : ℤ)).bind fun v =>
    Mem.write buf ((out + len + cx : ℕ) : ℤ) v) buf

/-- The body of the innermost loop of `mod_PyrC`, basis_evaluation.hpp:361-384, with `r = i + 1`. -/
def pyrBody (T : Tables K) (z : K) (rInner : Dbl K) (alpha i : ℕ) (s : RowSt K) : Option (RowSt K) :=
  let r := i + 1
  let coef := Dbl.mul rInner (some (b1 z))
  if r = 1 then put s coef s.pnm1 (some 1)
  else if r = 2 then
    let pnm1 : K := (1 / 2) * (2 * ((alpha : K) + 1) + ((alpha : K) + 3) * (z - 1))
    put s (Dbl.mul (some pnm1) coef) (some pnm1) s.pnm2
  else (recStep T alpha (r - 1) z s.pnm1 s.pnm2).bind fun pn =>
    put s (Dbl.mul pn coef) pn s.pnm1

/-- The body of the loop over `q` of `mod_PyrC`, basis_evaluation.hpp:342-385, with `q = j + 2`. -/
def pyrQ (T : Tables K) (nummodes : ℕ) (z : K) (p j : ℕ) (s : PowSt K) : Option (PowSt K) :=
  let q := j + 2
  let rInner := Dbl.mul s.pow (some (b0 z))
  (Mem.write s.buf (s.mode : ℤ) rInner).bind fun buf =>
  (forLoop (nummodes - max p q - 1) (pyrBody T z rInner (2 * p + 2 * q - 3)) ⟨s.mode + 1, buf, none, none⟩).map
    fun t => ⟨t.mode, t.buf, rInner⟩

/-- State of the loop over `p` of `mod_PyrC`: `output`, the buffer, `output_base`, `r0_pow`. basis_evaluation.hpp:301, 327-331. -/
structure PyrSt (K : Type*) where
  out : ℕ
  buf : List (Dbl K)
  base : ℕ
  pow : Dbl K

/-- The body of the loop over `p` of `mod_PyrC`, basis_evaluation.hpp:329-386, with `p = i + 2`. -/
def pyrP (T : Tables K) (nummodes : ℕ) (z : K) (i : ℕ) (s : PyrSt K) : Option (PyrSt K) :=
  let p := i + 2
  let r0pow := Dbl.mul s.pow (some (b0 z))
  let ltmp := nummodes - p
  (copyTwice ltmp s.base s.out s.buf).bind fun buf =>
  (forLoop (nummodes - 2) (pyrQ T nummodes z p) ⟨s.out + 2 * ltmp, buf, r0pow⟩).map fun t =>
    ⟨t.mode, t.buf, s.base + ltmp, r0pow⟩

/-- `mod_PyrC(nummodes, z, ..., output)`, basis_evaluation.hpp:296-387, for `nummodes ≥ 1`. -/
def modPyrC (T : Tables K) (nummodes : ℕ) (z : K) (buf : List (Dbl K)) : Option (List (Dbl K)) :=
  let base := nummodes
  (modB T nummodes z buf).bind fun buf =>
  let out := nummodes * (nummodes + 1) / 2
  (copyLoop (nummodes - 1) base out buf).bind fun buf =>
  let out := out + (nummodes - 1)
  let ltmp := (nummodes - 1) * nummodes / 2
  (copyLoop ltmp base out buf).bind fun buf =>
  let base := base + (nummodes - 1)
  let out := out + ltmp
  (forLoop (nummodes - 2) (pyrP T nummodes z) ⟨out, buf, base, some 1⟩).map fun s => s.buf

end Verif.Model.BasisEvaluation
