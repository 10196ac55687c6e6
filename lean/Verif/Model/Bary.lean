import Verif.Model.Mem
import Verif.Model.Loop
import Verif.Model.JacobiCoeff
import Mathlib.Logic.Function.Basic

/-!
Model of include/nektar_interface/bary_interpolation/bary_evaluation.hpp.

Read-only arrays are lists with checked reads. Scratch and output arrays are `Arr`: a size and a content; accesses are
checked against the size, so `none` is an access outside of the array. Doubles are `Dbl` (`none`: not finite), the arithmetic is exact.
Local arrays of the fixed size `N` that are indexed by a loop counter below `N` are functions of the counter.
-/

namespace Verif.Model.Bary
open Verif.Model.JacobiCoeff

variable {K : Type*} [Field K] [DecidableEq K]

/-- A mutable array of doubles. The arrays `div_values`, `div_space` and `output`, bary_evaluation.hpp:27, 66, 126. -/
structure Arr (K : Type*) where
  size : ℕ
  val : ℕ → Dbl K

/-- `a[i]`. As in bary_evaluation.hpp:47, 132. -/
def Arr.read (a : Arr K) (i : ℕ) : Option (Dbl K) := if i < a.size then some (a.val i) else none

/-- `a[i] = v`. As in bary_evaluation.hpp:29, 42. -/
def Arr.write (a : Arr K) (i : ℕ) (v : Dbl K) : Option (Arr K) :=
  if i < a.size then some ⟨a.size, Function.update a.val i v⟩ else none

/-- `1.0 / x`. bary_evaluation.hpp:45, 105. -/
def recip (x : Dbl K) : Dbl K := x.bind fun d => Dbl.div 1 d

/-- `preprocess_weights`, bary_evaluation.hpp:24-49. `div_values` is the array `a` from address `off` on. The search of lines 31-37
returns from the function; here the flag of the state says that it has returned. -/
def preprocessWeights (n : ℕ) (coord : K) (z bw : List K) (off stride : ℕ) (a : Arr K) : Option (Arr K) :=
  (forLoop n (fun ix a => a.write (off + ix * stride) (some 0)) a).bind fun a =>
  (forLoop n (fun ix (s : Bool × Arr K) =>
    if s.1 then some s else
    (Mem.read z (ix : ℤ)).bind fun zi =>
    let xdiff := zi - coord
    if xdiff = 0 then (s.2.write (off + ix * stride) (some 1)).map fun a => (true, a)
    else some s) (false, a)).bind fun s =>
  if s.1 then some s.2 else
  (forLoop n (fun ix (s : Dbl K × Arr K) =>
    (Mem.read z (ix : ℤ)).bind fun zi =>
    (Mem.read bw (ix : ℤ)).bind fun bwi =>
    let xdiff := zi - coord
    let bwOverDiff := Dbl.div bwi xdiff
    (s.2.write (off + ix * stride) bwOverDiff).map fun a => (Dbl.add s.1 bwOverDiff, a)) (some 0, s.2)).bind fun s =>
  let factor := recip s.1
  forLoop n (fun ix a => (a.read (off + ix * stride)).bind fun v =>
    a.write (off + ix * stride) (Dbl.mul v factor)) s.2

/-- `preprocess_weights_block<N>`, bary_evaluation.hpp:65-114. -/
def preprocessWeightsBlock (N n : ℕ) (coord : List K) (z bw : List K) (a : Arr K) : Option (Arr K) :=
  (forLoop n (fun ix a => forLoop N (fun blockx a => a.write (ix * N + blockx) (some 0)) a) a).bind fun a =>
  (forLoop n (fun ix s => forLoop N (fun blockx (s : (ℕ → Bool) × Arr K) =>
    (Mem.read z (ix : ℤ)).bind fun zi =>
    (Mem.read coord (blockx : ℤ)).bind fun c =>
    let xdiff := zi - c
    if xdiff = 0 then (s.2.write (ix * N + blockx) (some 1)).map fun a => (Function.update s.1 blockx true, a)
    else some s) s) ((fun _ => false), a)).bind fun s =>
  let onPoint := s.1
  (forLoop n (fun ix s => forLoop N (fun blockx (s : (ℕ → Dbl K) × Arr K) =>
    (Mem.read z (ix : ℤ)).bind fun zi =>
    (Mem.read coord (blockx : ℤ)).bind fun c =>
    (Mem.read bw (ix : ℤ)).bind fun bwi =>
    let xdiff := zi - c
    let bwOverDiff := Dbl.div bwi xdiff
    (s.2.read (ix * N + blockx)).bind fun old =>
    (s.2.write (ix * N + blockx) (if onPoint blockx then old else bwOverDiff)).map fun a =>
      (Function.update s.1 blockx (Dbl.add (s.1 blockx) bwOverDiff), a)) s) ((fun _ => some 0), s.2)).bind fun s =>
  let factor := fun blockx => if onPoint blockx then some 1 else recip (s.1 blockx)
  forLoop n (fun ix a => forLoop N (fun blockx a => (a.read (ix * N + blockx)).bind fun v =>
    a.write (ix * N + blockx) (Dbl.mul v (factor blockx))) a) s.2

/-- `compute_dir_0`, bary_evaluation.hpp:125-136. -/
def computeDir0 (n : ℕ) (physvals : List K) (d : Arr K) (off stride : ℕ) : Option (Dbl K) :=
  forLoop n (fun ix numer =>
    (Mem.read physvals (ix : ℤ)).bind fun pval =>
    (d.read (off + ix * stride)).bind fun tmp =>
    some (Dbl.add numer (Dbl.mul tmp (some pval)))) (some 0)

/-- `compute_dir_10`, bary_evaluation.hpp:149-162; `off0`, `off1` are the starts of `div_space0` and `div_space1` in the array. -/
def computeDir10 (n0 n1 : ℕ) (physvals : List K) (d : Arr K) (off0 off1 stride : ℕ) : Option (Dbl K) :=
  forLoop n1 (fun i1 acc =>
    (d.read (off1 + i1 * stride)).bind fun c1 =>
    forLoop n0 (fun i0 acc =>
      (Mem.read physvals ((i1 * n0 + i0 : ℕ) : ℤ)).bind fun p =>
      (d.read (off0 + i0 * stride)).bind fun d0 =>
      some (Dbl.add acc (Dbl.mul (Dbl.mul (some p) d0) c1))) acc) (some 0)

/-- `compute_dir_10_interlaced<N>`, bary_evaluation.hpp:179-203: `tmp` is copied to the output at the end. -/
def computeDir10InterlacedT (N n0 n1 : ℕ) (physvals : List K) (d : Arr K) (off0 off1 stride : ℕ) (output : Arr K) :
    Option (Arr K) :=
  (forLoop n1 (fun i1 tmp =>
    (d.read (off1 + i1 * stride)).bind fun c1 =>
    forLoop n0 (fun i0 tmp =>
      let innerStride := (i1 * n0 + i0) * N
      (d.read (off0 + i0 * stride)).bind fun d0 =>
      let innerC := Dbl.mul d0 c1
      forLoop N (fun ix (tmp : ℕ → Dbl K) =>
        (Mem.read physvals ((innerStride + ix : ℕ) : ℤ)).bind fun p =>
        some (Function.update tmp ix (Dbl.add (tmp ix) (Dbl.mul (some p) innerC)))) tmp) tmp)
    (fun _ => some 0)).bind fun tmp =>
  forLoop N (fun ix (o : Arr K) => o.write ix (tmp ix)) output

/-- `compute_dir_10_interlaced`, bary_evaluation.hpp:222-240. -/
def computeDir10Interlaced (nf n0 n1 : ℕ) (physvals : List K) (d : Arr K) (off0 off1 stride : ℕ) (output : Arr K)
    (strideOutput : ℕ) : Option (Arr K) :=
  (forLoop nf (fun ix (o : Arr K) => o.write (ix * strideOutput) (some 0)) output).bind fun o =>
  forLoop n1 (fun i1 o =>
    (d.read (off1 + i1 * stride)).bind fun c1 =>
    forLoop n0 (fun i0 o =>
      let innerStride := (i1 * n0 + i0) * nf
      (d.read (off0 + i0 * stride)).bind fun d0 =>
      let innerC := Dbl.mul d0 c1
      forLoop nf (fun ix (o : Arr K) =>
        (Mem.read physvals ((innerStride + ix : ℕ) : ℤ)).bind fun p =>
        (o.read (ix * strideOutput)).bind fun old =>
        o.write (ix * strideOutput) (Dbl.add old (Dbl.mul (some p) innerC))) o) o) o

/-- `compute_dir_210`, bary_evaluation.hpp:255-275. -/
def computeDir210 (n0 n1 n2 : ℕ) (physvals : List K) (d : Arr K) (off0 off1 off2 stride : ℕ) : Option (Dbl K) :=
  let stridePhys := n0 * n1
  forLoop n2 (fun i2 acc =>
    (d.read (off2 + i2 * stride)).bind fun c2 =>
    forLoop n1 (fun i1 acc =>
      (d.read (off1 + i1 * stride)).bind fun d1 =>
      let c1 := Dbl.mul c2 d1
      forLoop n0 (fun i0 acc =>
        (Mem.read physvals ((i2 * stridePhys + i1 * n0 + i0 : ℕ) : ℤ)).bind fun p =>
        (d.read (off0 + i0 * stride)).bind fun d0 =>
        some (Dbl.add acc (Dbl.mul (Dbl.mul (some p) d0) c1))) acc) acc) (some 0)

/-- `compute_dir_210_interlaced<N>`, bary_evaluation.hpp:296-323. -/
def computeDir210InterlacedT (N n0 n1 n2 : ℕ) (physvals : List K) (d : Arr K) (off0 off1 off2 stride : ℕ)
    (output : Arr K) : Option (Arr K) :=
  let stridePhys := n0 * n1
  (forLoop n2 (fun i2 tmp =>
    (d.read (off2 + i2 * stride)).bind fun c2 =>
    forLoop n1 (fun i1 tmp =>
      (d.read (off1 + i1 * stride)).bind fun d1 =>
      let c1 := Dbl.mul c2 d1
      forLoop n0 (fun i0 tmp =>
        let innerStride := (i2 * stridePhys + i1 * n0 + i0) * N
        (d.read (off0 + i0 * stride)).bind fun d0 =>
        let innerC := Dbl.mul d0 c1
        forLoop N (fun ix (tmp : ℕ → Dbl K) =>
          (Mem.read physvals ((innerStride + ix : ℕ) : ℤ)).bind fun p =>
          some (Function.update tmp ix (Dbl.add (tmp ix) (Dbl.mul (some p) innerC)))) tmp) tmp) tmp)
    (fun _ => some 0)).bind fun tmp =>
  forLoop N (fun ix (o : Arr K) => o.write ix (tmp ix)) output

/-- `compute_dir_210_interlaced`, bary_evaluation.hpp:345-371. -/
def computeDir210Interlaced (nf n0 n1 n2 : ℕ) (physvals : List K) (d : Arr K) (off0 off1 off2 stride : ℕ)
    (output : Arr K) (strideOutput : ℕ) : Option (Arr K) :=
  let stridePhys := n0 * n1
  (forLoop nf (fun ix (o : Arr K) => o.write (ix * strideOutput) (some 0)) output).bind fun o =>
  forLoop n2 (fun i2 o =>
    (d.read (off2 + i2 * stride)).bind fun c2 =>
    forLoop n1 (fun i1 o =>
      (d.read (off1 + i1 * stride)).bind fun d1 =>
      let c1 := Dbl.mul c2 d1
      forLoop n0 (fun i0 o =>
        let innerStride := (i2 * stridePhys + i1 * n0 + i0) * nf
        (d.read (off0 + i0 * stride)).bind fun d0 =>
        let innerC := Dbl.mul d0 c1
        forLoop nf (fun ix (o : Arr K) =>
          (Mem.read physvals ((innerStride + ix : ℕ) : ℤ)).bind fun p =>
          (o.read (ix * strideOutput)).bind fun old =>
          o.write (ix * strideOutput) (Dbl.add old (Dbl.mul (some p) innerC))) o) o) o) o

/-- Reading `N` consecutive values (`for blockx < N: b[blockx] = d[base + blockx]`, e.g. bary_evaluation.hpp:410-412). -/
def readBlock (N : ℕ) (d : Arr K) (base : ℕ) (g : ℕ → Dbl K → Dbl K) : Option (ℕ → Dbl K) :=
  forLoop N (fun blockx b => (d.read (base + blockx)).bind fun v => some (Function.update b blockx (g blockx v)))
    (fun _ => none)

/-- `compute_dir_210_interlaced_block<N>`, bary_evaluation.hpp:392-438. The regions `div_space0`, `div_space1`,
`div_space2` and `output` of the local memory (`RESTRICT`) are separate arrays. -/
def computeDir210InterlacedBlock (N nf n0 n1 n2 : ℕ) (physvals : List K) (d0 d1 d2 : Arr K)
    (output : Arr K) : Option (Arr K) :=
  let stridePhys := n0 * n1
  (forLoop nf (fun f o => forLoop N (fun blockx (o : Arr K) => o.write (f * N + blockx) (some 0)) o) output).bind fun o =>
  forLoop n2 (fun i2 o =>
    (readBlock N d2 (i2 * N) (fun _ v => v)).bind fun b2 =>
    forLoop n1 (fun i1 o =>
      (readBlock N d1 (i1 * N) (fun blockx v => Dbl.mul v (b2 blockx))).bind fun b1 =>
      forLoop n0 (fun i0 o =>
        (readBlock N d0 (i0 * N) (fun blockx v => Dbl.mul v (b1 blockx))).bind fun basisEval =>
        forLoop nf (fun f o =>
          let innerStride := (i2 * stridePhys + i1 * n0 + i0) * nf
          (Mem.read physvals ((innerStride + f : ℕ) : ℤ)).bind fun funcCoeff =>
          forLoop N (fun blockx (o : Arr K) =>
            (o.read (f * N + blockx)).bind fun old =>
            o.write (f * N + blockx) (Dbl.add old (Dbl.mul (basisEval blockx) (some funcCoeff)))) o) o) o) o) o

/-- `evaluate_2d`, bary_evaluation.hpp:459-476. -/
def evaluate2d (coord0 coord1 : K) (n0 n1 : ℕ) (physvals : List K) (divSpace : Arr K) (z0 z1 bw0 bw1 : List K)
    (stride : ℕ) : Option (Dbl K) :=
  let off1 := n0 * stride
  (preprocessWeights n0 coord0 z0 bw0 0 stride divSpace).bind fun a =>
  (preprocessWeights n1 coord1 z1 bw1 off1 stride a).bind fun a =>
  computeDir10 n0 n1 physvals a 0 off1 stride

/-- `evaluate_3d`, bary_evaluation.hpp:501-521. -/
def evaluate3d (coord0 coord1 coord2 : K) (n0 n1 n2 : ℕ) (physvals : List K) (divSpace : Arr K)
    (z0 z1 z2 bw0 bw1 bw2 : List K) (stride : ℕ) : Option (Dbl K) :=
  let off1 := n0 * stride
  let off2 := off1 + n1 * stride
  (preprocessWeights n0 coord0 z0 bw0 0 stride divSpace).bind fun a =>
  (preprocessWeights n1 coord1 z1 bw1 off1 stride a).bind fun a =>
  (preprocessWeights n2 coord2 z2 bw2 off2 stride a).bind fun a =>
  computeDir210 n0 n1 n2 physvals a 0 off1 off2 stride

/-- The evaluation of `N` particles in `dispatch_3d_cpu`, include/nektar_interface/function_bary_evaluation.hpp:285-294. The regions of
the local memory are separate arrays; the coordinates of lanes without a particle are uninitialised in the code and
arbitrary here. -/
def dispatch3dCpu (N : ℕ) (eta0 eta1 eta2 : List K) (nf n0 n1 n2 : ℕ) (physvals : List K) (d0 d1 d2 : Arr K)
    (z0 z1 z2 bw0 bw1 bw2 : List K) (evaluations : Arr K) : Option (Arr K) :=
  (preprocessWeightsBlock N n0 eta0 z0 bw0 d0).bind fun d0 =>
  (preprocessWeightsBlock N n1 eta1 z1 bw1 d1).bind fun d1 =>
  (preprocessWeightsBlock N n2 eta2 z2 bw2 d2).bind fun d2 =>
  computeDir210InterlacedBlock N nf n0 n1 n2 physvals d0 d1 d2 evaluations

/-- The evaluation of a particle in `dispatch_2d`, function_bary_evaluation.hpp:73-115. `local_` is the work item's interlaced local
memory: `num_functions + 2 * k_max_num_phys` values with the given stride. -/
def dispatch2d (eta0 eta1 : K) (nf maxPhys n0 n1 : ℕ) (physvals : List K) (local_ : Arr K) (z0 z1 bw0 bw1 : List K)
    (stride : ℕ) : Option (List (Dbl K)) :=
  let off0 := nf * stride
  let off1 := (nf + maxPhys) * stride
  (preprocessWeights n0 eta0 z0 bw0 off0 stride local_).bind fun a =>
  (preprocessWeights n1 eta1 z1 bw1 off1 stride a).bind fun a =>
  (computeDir10Interlaced nf n0 n1 physvals a off0 off1 stride ⟨off0, a.val⟩ stride).bind fun o =>
  (List.range nf).mapM fun fx => o.read (fx * stride)

/-- The evaluation of a particle in `dispatch_3d`, function_bary_evaluation.hpp:140-190. -/
def dispatch3d (eta0 eta1 eta2 : K) (nf maxPhys n0 n1 n2 : ℕ) (physvals : List K) (local_ : Arr K)
    (z0 z1 z2 bw0 bw1 bw2 : List K) (stride : ℕ) : Option (List (Dbl K)) :=
  let off0 := nf * stride
  let off1 := (nf + maxPhys) * stride
  let off2 := (nf + 2 * maxPhys) * stride
  (preprocessWeights n0 eta0 z0 bw0 off0 stride local_).bind fun a =>
  (preprocessWeights n1 eta1 z1 bw1 off1 stride a).bind fun a =>
  (preprocessWeights n2 eta2 z2 bw2 off2 stride a).bind fun a =>
  (computeDir210Interlaced nf n0 n1 n2 physvals a off0 off1 off2 stride ⟨off0, a.val⟩ stride).bind fun o =>
  (List.range nf).mapM fun fx => o.read (fx * stride)

end Verif.Model.Bary
