import Verif.Lemmas.Fill
import Verif.Lemmas.JacobiTable
import Verif.Model.BasisEvaluation
import Verif.Spec.Modes

/-! What the basis kernels write. -/

namespace Verif.Lemmas
open Verif.Spec Verif.Model Verif.Model.JacobiCoeff Verif.Model.SpecialFunctions Verif.Model.BasisReference
  Verif.Model.BasisEvaluation

variable {K : Type*} [Field K] [CharZero K] [DecidableEq K]

theorem put_fill (pre buf0 : List (Dbl K)) (e p1 p2 q1 q2 : Dbl K) (h : pre.length < buf0.length) :
    put ⟨pre.length, fill pre buf0, p1, p2⟩ e q1 q2 =
      some ⟨(pre ++ [e]).length, fill (pre ++ [e]) buf0, q1, q2⟩ := by
  unfold put
  simp only []
  rw [write_fill pre buf0 e h]
  simp

omit [CharZero K] in
theorem mul_some_one (x : Dbl K) : Dbl.mul x (some 1) = x := by cases x <;> simp

omit [CharZero K] in
theorem dmul_assoc (x : Dbl K) (a b : K) : Dbl.mul (Dbl.mul x (some a)) (some b) = Dbl.mul x (some (a * b)) := by
  cases x <;> simp [mul_assoc]

omit [CharZero K] in
theorem dmul_comm (x y : Dbl K) : Dbl.mul x y = Dbl.mul y x := by
  cases x <;> cases y <;> simp [mul_comm]

/-- The factor of the row `px ≥ 1` besides the power of `b0`. -/
def facB (px q : ℕ) (z : K) : K := if q = 0 then 1 else b1 z * jacobiP (q - 1) (2 * px - 1) 1 z

/-- What the row loop writes for `q`. -/
def valRow (bpow : Dbl K) (px q : ℕ) (z : K) : Dbl K :=
  if px = 0 then some (evalModA q z) else Dbl.mul bpow (some (facB px q z))

def rowP1 (px k : ℕ) (z : K) : Dbl K :=
  if px = 0 then (if k ≤ 3 then none else some (jacobiP (k - 3) 1 1 z))
  else (if k ≤ 2 then none else some (jacobiP (k - 2) (2 * px - 1) 1 z))

def rowP2 (px k : ℕ) (z : K) : Dbl K :=
  if px = 0 then (if k ≤ 2 then none else some (jacobiP (k - 4) 1 1 z))
  else (if k ≤ 1 then none else some (jacobiP (k - 3) (2 * px - 1) 1 z))

theorem rowBody_step (maxN maxAlpha : ℕ) (z : K) (bpow : Dbl K) (px k : ℕ) (pre buf0 : List (Dbl K))
    (hl : pre.length < buf0.length) (hN : k ≤ maxN + 1) (hA : 1 ≤ maxAlpha)
    (hpx : 3 ≤ k → 2 * px - 1 ≤ maxAlpha) :
    rowBody (JacobiCoeff.mk maxN maxAlpha) z bpow px k ⟨pre.length, fill pre buf0, rowP1 px k z, rowP2 px k z⟩ =
      some ⟨(pre ++ [valRow bpow px k z]).length, fill (pre ++ [valRow bpow px k z]) buf0,
        rowP1 px (k + 1) z, rowP2 px (k + 1) z⟩ := by
  unfold rowBody
  simp only []
  by_cases h0 : px = 0
  · subst h0
    rw [if_pos rfl]
    simp only [valRow, if_true, rowP1, rowP2]
    rcases k with _ | _ | _ | _ | k
    · simp [put_fill _ _ _ _ _ _ _ hl, evalModA, b0]
    · simp [put_fill _ _ _ _ _ _ _ hl, evalModA, b1]
    · simp [put_fill _ _ _ _ _ _ _ hl, evalModA, b0, b1, jacobi, jacobiP_zero]
    · simp [put_fill _ _ _ _ _ _ _ hl, evalModA, b0, b1, jacobi, jacobiP_zero, jacobiStart1, jacobiP_one]
      constructor <;> ring_nf <;> trivial
    · rw [if_neg (by omega), if_neg (by omega), if_neg (by omega), if_neg (by omega)]
      have hr := recStep_mk (K := K) maxN maxAlpha 1 (k + 2) z hA (by omega) (by omega)
      simp only [show k + 2 - 1 = k + 1 by omega, Nat.add_sub_cancel] at hr
      rw [if_neg (by omega), if_neg (by omega), if_neg (by omega), if_neg (by omega)]
      simp only [show k + 1 + 1 + 1 + 1 - 2 = k + 2 by omega, show k + 1 + 1 + 1 + 1 - 3 = k + 1 by omega,
        show k + 1 + 1 + 1 + 1 - 4 = k by omega, hr, Option.bind_some]
      rw [put_fill _ _ _ _ _ _ _ hl]
      have he : Dbl.mul (Dbl.mul (some (jacobiP (k + 2) 1 1 z)) (some (b0 z))) (some (b1 z)) =
          some (evalModA (k + 1 + 1 + 1 + 1) z) := by
        unfold evalModA
        rw [if_neg (by omega), if_neg (by omega), jacobi_eq_jacobiP]
        simp only [Dbl.mul_some, show k + 1 + 1 + 1 + 1 - 2 = k + 2 by omega, b0, b1]
        congr 1; ring
      rw [he]
      simp only [show k + 1 + 1 + 1 + 1 + 1 - 3 = k + 2 by omega, show k + 1 + 1 + 1 + 1 + 1 - 4 = k + 1 by omega]
  · rw [if_neg h0]
    simp only [valRow, if_neg h0, rowP1, rowP2, facB]
    obtain ⟨m, rfl⟩ : ∃ m, px = m + 1 := ⟨px - 1, by omega⟩
    rcases k with _ | _ | _ | k
    · simp [put_fill _ _ _ _ _ _ _ hl, mul_some_one]
    · simp [put_fill _ _ _ _ _ _ _ hl, jacobiP_zero]
    · have e1 : (1 / 2 : K) * (2 * (((2 * (m + 1) - 1 : ℕ) : K) + 1) + (((2 * (m + 1) - 1 : ℕ) : K) + 3) * (z - 1))
          = jacobiP 1 (2 * (m + 1) - 1) 1 z := by
        rw [jacobiP_one]; push_cast; ring
      simp only [e1]
      simp [put_fill _ _ _ _ _ _ _ hl, jacobiP_zero, dmul_assoc]
    · have hr := recStep_mk (K := K) maxN maxAlpha (2 * (m + 1) - 1) (k + 2) z (hpx (by omega)) (by omega) (by omega)
      simp only [show k + 2 - 1 = k + 1 by omega, Nat.add_sub_cancel] at hr
      rw [if_neg (by omega), if_neg (by omega), if_neg (by omega), if_neg (by omega), if_neg (by omega),
        if_neg (by omega), if_neg (by omega), if_neg (by omega)]
      simp only [show k + 1 + 1 + 1 - 1 = k + 2 by omega, show k + 1 + 1 + 1 - 2 = k + 1 by omega,
        show k + 1 + 1 + 1 - 3 = k by omega, hr, Option.bind_some]
      rw [put_fill _ _ _ _ _ _ _ hl, dmul_assoc]
      simp only [show k + 1 + 1 + 1 + 1 - 3 = k + 1 by omega, show k + 1 + 1 + 1 + 1 - 2 = k + 2 by omega]

theorem rowLoop_eq (maxN maxAlpha : ℕ) (z : K) (bpow : Dbl K) (px len : ℕ) (pre buf0 : List (Dbl K))
    (hl : pre.length + len ≤ buf0.length) (hN : len ≤ maxN + 2) (hA : 1 ≤ maxAlpha)
    (hpx : 2 * px - 1 ≤ maxAlpha) :
    rowLoop (JacobiCoeff.mk maxN maxAlpha) z bpow px len pre.length (fill pre buf0) =
      some ((pre ++ (List.range len).map fun q => valRow bpow px q z).length,
        fill (pre ++ (List.range len).map fun q => valRow bpow px q z) buf0) := by
  unfold rowLoop
  rw [forLoop_eq len _ (fun k => (⟨(pre ++ (List.range k).map fun q => valRow bpow px q z).length,
      fill (pre ++ (List.range k).map fun q => valRow bpow px q z) buf0, rowP1 px k z, rowP2 px k z⟩ : RowSt K))]
  · rfl
  · simp [rowP1, rowP2]
  · intro k hk
    rw [rowBody_step maxN maxAlpha z bpow px k _ buf0 (by simp; omega) (by omega) hA fun _ => hpx,
      map_range_succ, List.append_assoc]

omit [CharZero K] in
theorem pow_start [CharZero K] (z : K) (hz : z ≠ 1) : b0 z ≠ 0 := by
  unfold b0
  refine mul_ne_zero (by norm_num) (sub_ne_zero.mpr (Ne.symm hz))

/-- The power of `b0` in iteration `px`. -/
def powB (z : K) (px : ℕ) : Dbl K := if z = 1 then none else some (b0 z ^ px)

theorem powB_zero (z : K) : Dbl.mul (Dbl.div 1 (b0 z)) (some (b0 z)) = powB z 0 := by
  unfold powB Dbl.div
  by_cases hz : z = 1
  · subst hz; simp [b0]
  · have h := pow_start z hz
    rw [if_neg h, if_neg hz, Dbl.mul_some, one_div, inv_mul_cancel₀ h, pow_zero]

omit [CharZero K] in
theorem powB_succ (z : K) (px : ℕ) : Dbl.mul (powB z px) (some (b0 z)) = powB z (px + 1) := by
  unfold powB
  split_ifs <;> simp [pow_succ]

/-- The value the kernels `mod_B` and `mod_C` write: the reference value, except that it is not finite at the
collapsed end for `p ≥ 1`. -/
def valB (p q : ℕ) (z : K) : Dbl K := if p = 0 ∨ z ≠ 1 then some (evalModB p q z) else none

theorem valRow_powB (z : K) (p q : ℕ) : valRow (powB z p) p q z = valB p q z := by
  unfold valRow valB powB evalModB
  by_cases hp : p = 0
  · simp [hp]
  · by_cases hz : z = 1
    · simp [hp, hz]
    · simp only [hp, hz, if_false, ne_eq, not_false_eq_true, or_true, if_true, Dbl.mul_some, facB]
      congr 1
      split_ifs
      · rw [mul_one, b0]
      · rw [jacobi_eq_jacobiP, b0, b1]; ring

/-- All values of `mod_B`. -/
def listB (n : ℕ) (z : K) : List (Dbl K) :=
  (List.range n).flatMap fun p => (List.range (n - p)).map fun q => valB p q z

theorem modB_eq (maxN maxAlpha n : ℕ) (z : K) (buf : List (Dbl K)) (hl : (listB n z).length ≤ buf.length)
    (hN : n ≤ maxN + 2) (hA : 1 ≤ maxAlpha) (hpx : 2 * n - 3 ≤ maxAlpha) :
    modB (JacobiCoeff.mk maxN maxAlpha) n z buf = some (fill (listB n z) buf) := by
  unfold modB
  rw [forLoop_eq n _ (fun p => (⟨((List.range p).flatMap fun p => (List.range (n - p)).map fun q => valB p q z).length,
      fill ((List.range p).flatMap fun p => (List.range (n - p)).map fun q => valB p q z) buf,
      if p = 0 then Dbl.div 1 (b0 z) else powB z (p - 1)⟩ : PowSt K))]
  · rfl
  · simp [fill_nil]
  · intro p hp
    have hpow : Dbl.mul (if p = 0 then Dbl.div 1 (b0 z) else powB z (p - 1)) (some (b0 z)) = powB z p := by
      split_ifs with h
      · rw [h, powB_zero]
      · rw [powB_succ, Nat.sub_add_cancel (by omega)]
    simp only [hpow]
    have hpre := length_flatMap_prefix (fun p => (List.range (n - p)).map fun q => valB p q z) n p hp
    rw [List.length_map, List.length_range] at hpre
    rw [rowLoop_eq maxN maxAlpha z _ p (n - p) _ buf (by unfold listB at hl; omega) (by omega) hA (by omega)]
    simp only [valRow_powB, Option.map_some, flatMap_range_succ]
    simp

/-- All values of `mod_C`. -/
def listC (n : ℕ) (z : K) : List (Dbl K) :=
  (List.range n).flatMap fun p => (List.range (n - p)).flatMap fun q =>
    (List.range (n - p - q)).map fun r => valB (p + q) r z

theorem modC_eq (maxN maxAlpha n : ℕ) (z : K) (buf : List (Dbl K)) (hl : (listC n z).length ≤ buf.length)
    (hN : n ≤ maxN + 2) (hA : 1 ≤ maxAlpha) (hpx : 2 * n - 3 ≤ maxAlpha) :
    modC (JacobiCoeff.mk maxN maxAlpha) n z buf = some (fill (listC n z) buf) := by
  unfold modC
  set g : ℕ → List (Dbl K) := fun p => (List.range (n - p)).flatMap fun q =>
    (List.range (n - p - q)).map fun r => valB (p + q) r z with hg
  rw [forLoop_eq n _ (fun p => (⟨((List.range p).flatMap g).length, fill ((List.range p).flatMap g) buf,
      if p = 0 then Dbl.div 1 (b0 z) else powB z (p - 1)⟩ : PowSt K))]
  · rfl
  · simp [fill_nil]
  · intro p hp
    have hpow : Dbl.mul (if p = 0 then Dbl.div 1 (b0 z) else powB z (p - 1)) (some (b0 z)) = powB z p := by
      split_ifs with h
      · rw [h, powB_zero]
      · rw [powB_succ, Nat.sub_add_cancel (by omega)]
    simp only [hpow]
    have hpre := length_flatMap_prefix g n p hp
    set h : ℕ → List (Dbl K) := fun q => (List.range (n - p - q)).map fun r => valB (p + q) r z with hh
    have hgp : g p = (List.range (n - p)).flatMap h := rfl
    rw [forLoop_eq (n - p) _ (fun q => (⟨((List.range p).flatMap g ++ (List.range q).flatMap h).length,
      fill ((List.range p).flatMap g ++ (List.range q).flatMap h) buf, powB z (p + q)⟩ : PowSt K))]
    · simp only [Option.map_some, flatMap_range_succ, hgp]
      simp
    · simp
    · intro q hq
      have hpre2 := length_flatMap_prefix h (n - p) q hq
      rw [← hgp] at hpre2
      have hhq : (h q).length = n - p - q := by simp [hh]
      rw [hhq] at hpre2
      have hl' : ((List.range n).flatMap g).length ≤ buf.length := hl
      have hcat := List.length_append (as := (List.range p).flatMap g) (bs := (List.range q).flatMap h)
      rw [rowLoop_eq maxN maxAlpha z _ (p + q) (n - p - q) _ buf (by omega) (by omega) hA (by omega)]
      simp only [valRow_powB, Option.map_some, flatMap_range_succ, powB_succ]
      simp [hh, Nat.add_assoc]

/-- All values of `mod_A`. -/
def listA (n : ℕ) (z : K) : List (Dbl K) := (List.range n).map fun p => some (evalModA p z)

theorem modA_eq (maxN maxAlpha n : ℕ) (z : K) (buf : List (Dbl K)) (h2 : 2 ≤ n) (hl : n ≤ buf.length)
    (hN : n ≤ maxN + 3) (hA : 1 ≤ maxAlpha) :
    modA (JacobiCoeff.mk maxN maxAlpha) n z buf = some (fill (listA n z) buf) := by
  unfold modA
  have e0 : evalModA 0 z = b0 z := rfl
  have e1 : evalModA 1 z = b1 z := rfl
  have e2 : evalModA 2 z = b0 z * b1 z := by simp [evalModA, b0, b1, jacobi]
  have hs : (2 + 2 * (z - 1) : K) = jacobiP 1 1 1 z := by rw [jacobiP_one]; push_cast; ring
  have e3 : evalModA 3 z = b0 z * b1 z * jacobiP 1 1 1 z := by simp [evalModA, b0, b1, jacobi_eq_jacobiP]
  have ek : ∀ k, evalModA (k + 4) z = b0 z * b1 z * jacobiP (k + 2) 1 1 z := by
    intro k
    unfold evalModA
    rw [if_neg (by omega), if_neg (by omega), jacobi_eq_jacobiP]; rfl
  have w0 := write_fill [] buf (some (b0 z)) (by simp; omega)
  have w1 := write_fill [some (b0 z)] buf (some (b1 z)) (by simp; omega)
  rw [fill_nil] at w0
  simp only [List.length_nil, Nat.cast_zero] at w0
  simp only [List.length_singleton, Nat.cast_one] at w1
  rw [w0, Option.bind_some, List.nil_append, w1, Option.bind_some]
  rcases Nat.lt_or_ge n 3 with h | h
  · have : n = 2 := by omega
    subst this
    simp [forLoop, listA, List.range_succ, e0, e1]
  have w2 := write_fill ([some (b0 z)] ++ [some (b1 z)]) buf (some (b0 z * b1 z)) (by simp; omega)
  simp only [List.length_append, List.length_singleton, Nat.reduceAdd, Nat.cast_ofNat] at w2
  rw [if_pos (by omega), w2, Option.bind_some]
  rcases Nat.lt_or_ge n 4 with h' | h'
  · have : n = 3 := by omega
    subst this
    simp [forLoop, listA, List.range_succ, e0, e1, e2]
  have w3 := write_fill ([some (b0 z)] ++ [some (b1 z)] ++ [some (b0 z * b1 z)]) buf
    (some (b0 z * b1 z * (2 + 2 * (z - 1)))) (by simp; omega)
  simp only [List.length_append, List.length_singleton, Nat.reduceAdd, Nat.cast_ofNat] at w3
  rw [if_pos (by omega), w3, Option.bind_some, hs]
  rw [forLoop_eq (n - 4) _ (fun k => (⟨fill (listA (k + 4) z) buf, some (jacobiP (k + 1) 1 1 z),
    some (jacobiP k 1 1 z)⟩ : ASt K))]
  · simp only [Option.map_some]; rw [show n - 4 + 4 = n by omega]
  · simp [listA, List.range_succ, e0, e1, e2, e3, jacobiP_zero]
  · intro k hk
    have hr := recStep_mk (K := K) maxN maxAlpha 1 (k + 2) z hA (by omega) (by omega)
    simp only [show k + 2 - 1 = k + 1 by omega, Nat.add_sub_cancel] at hr
    simp only [show k + 4 - 2 = k + 2 by omega, hr, Option.bind_some, Dbl.mul_some, ← ek]
    have hw := write_fill (listA (k + 4) z) buf (some (evalModA (k + 4) z)) (by simp [listA]; omega)
    have hlen : (listA (k + 4) z).length = k + 4 := by simp [listA]
    have hls : listA (k + 1 + 4) z = listA (k + 4) z ++ [some (evalModA (k + 4) z)] := by
      unfold listA; rw [show k + 1 + 4 = k + 4 + 1 by omega, map_range_succ]
    rw [hlen] at hw
    rw [hw, hls, Option.map_some]

/-- Values of `mod_PyrC`. -/
def valPyr (p q r : ℕ) (z : K) : Dbl K :=
  if (p = 0 ∧ q = 0) ∨ (2 ≤ p ∧ 2 ≤ q) ∨ z ≠ 1 then some (evalModPyrC p q r z) else none

def rowPyr (n p q : ℕ) (z : K) : List (Dbl K) := (List.range (n - max p q)).map fun r => valPyr p q r z

def listPyr (n : ℕ) (z : K) : List (Dbl K) :=
  (List.range n).flatMap fun p => (List.range n).flatMap fun q => rowPyr n p q z

def rowB (n p : ℕ) (z : K) : List (Dbl K) := (List.range (n - p)).map fun q => valB p q z

theorem listB_eq (n : ℕ) (z : K) : listB n z = (List.range n).flatMap fun p => rowB n p z := rfl

omit [CharZero K] in
theorem rowPyr_zero (n q : ℕ) (z : K) : rowPyr n 0 q z = rowB n q z := by
  unfold rowPyr rowB
  rw [Nat.zero_max]
  refine List.map_congr_left fun r _ => ?_
  simp [valPyr, valB, evalModPyrC]

omit [CharZero K] in
theorem rowPyr_one_zero (n : ℕ) (z : K) : rowPyr n 1 0 z = rowB n 1 z := by
  unfold rowPyr rowB
  refine List.map_congr_left fun r _ => ?_
  simp [valPyr, valB, evalModPyrC]

omit [CharZero K] in
theorem rowPyr_one (n q : ℕ) (z : K) (hq : 1 ≤ q) : rowPyr n 1 q z = rowB n q z := by
  unfold rowPyr rowB
  rw [Nat.max_eq_right hq]
  refine List.map_congr_left fun r _ => ?_
  have : q ≠ 0 := by omega
  simp [valPyr, valB, evalModPyrC, this]

omit [CharZero K] in
theorem rowPyr_lt_two (n p q : ℕ) (z : K) (hp : 2 ≤ p) (hq : q < 2) : rowPyr n p q z = rowB n p z := by
  unfold rowPyr rowB
  rw [Nat.max_eq_left (by omega)]
  refine List.map_congr_left fun r _ => ?_
  have h0 : p ≠ 0 := by omega
  have h1 : p ≠ 1 := by omega
  have h2 : ¬ 2 ≤ q := by omega
  simp [valPyr, valB, evalModPyrC, h0, h1, h2, hq]

def pyrP1 (α k : ℕ) (z : K) : Dbl K := if k ≤ 1 then none else some (jacobiP (k - 1) α 1 z)
def pyrP2 (α k : ℕ) (z : K) : Dbl K := if k = 0 then none else some (jacobiP (k - 2) α 1 z)

theorem valPyr_ge_two (p q r : ℕ) (z : K) (hp : 2 ≤ p) (hq : 2 ≤ q) :
    valPyr p q r z = some (b0 z ^ (p + q - 2) *
      if r = 0 then 1 else b1 z * jacobiP (r - 1) (2 * p + 2 * q - 3) 1 z) := by
  unfold valPyr evalModPyrC
  rw [if_pos (Or.inr (Or.inl ⟨hp, hq⟩)), if_neg (by omega), if_neg (by omega), if_neg (by omega)]
  congr 1
  split_ifs
  · rw [mul_one, b0]
  · rw [jacobi_eq_jacobiP, b0, b1]; ring

theorem pyrBody_step (maxN maxAlpha p q k : ℕ) (z : K) (pre buf0 : List (Dbl K)) (hp : 2 ≤ p) (hq : 2 ≤ q)
    (hl : pre.length < buf0.length) (hN : k ≤ maxN) (hA : 2 ≤ k → 2 * p + 2 * q - 3 ≤ maxAlpha) :
    pyrBody (JacobiCoeff.mk maxN maxAlpha) z (some (b0 z ^ (p + q - 2))) (2 * p + 2 * q - 3) k
      ⟨pre.length, fill pre buf0, pyrP1 (2 * p + 2 * q - 3) k z, pyrP2 (2 * p + 2 * q - 3) k z⟩ =
      some ⟨(pre ++ [valPyr p q (k + 1) z]).length, fill (pre ++ [valPyr p q (k + 1) z]) buf0,
        pyrP1 (2 * p + 2 * q - 3) (k + 1) z, pyrP2 (2 * p + 2 * q - 3) (k + 1) z⟩ := by
  rw [valPyr_ge_two p q _ z hp hq, if_neg (by omega), Nat.add_sub_cancel]
  generalize 2 * p + 2 * q - 3 = α at *
  unfold pyrBody
  simp only []
  rcases k with _ | _ | k
  · simp [put_fill _ _ _ _ _ _ _ hl, pyrP1, pyrP2, jacobiP_zero]
  · have e1 : (1 / 2 : K) * (2 * ((α : K) + 1) + ((α : K) + 3) * (z - 1)) = jacobiP 1 α 1 z := by
      rw [jacobiP_one]; push_cast; ring
    simp only [e1]
    simp [put_fill _ _ _ _ _ _ _ hl, pyrP1, pyrP2, jacobiP_zero]
    rw [show jacobiP 1 α 1 z * (b0 z ^ (p + q - 2) * b1 z) = b0 z ^ (p + q - 2) * (b1 z * jacobiP 1 α 1 z) by ring]
  · have hr := recStep_mk (K := K) maxN maxAlpha α (k + 2) z (hA (by omega)) (by omega) (by omega)
    simp only [show k + 2 - 1 = k + 1 by omega, Nat.add_sub_cancel] at hr
    rw [if_neg (by omega), if_neg (by omega)]
    simp only [pyrP1, pyrP2]
    rw [if_neg (by omega), if_neg (by omega), if_neg (by omega), if_neg (by omega)]
    simp only [show k + 1 + 1 + 1 - 1 = k + 2 by omega, show k + 1 + 1 - 1 = k + 1 by omega,
      show k + 1 + 1 - 2 = k by omega, show k + 1 + 1 + 1 - 2 = k + 1 by omega, hr, Option.bind_some]
    rw [put_fill _ _ _ _ _ _ _ hl]
    have he : Dbl.mul (some (jacobiP (k + 2) α 1 z)) (Dbl.mul (some (b0 z ^ (p + q - 2))) (some (b1 z))) =
        some (b0 z ^ (p + q - 2) * (b1 z * jacobiP (k + 1 + 1) α 1 z)) := by
      simp only [Dbl.mul_some]; congr 1; ring
    rw [he]

theorem pyrQ_eq (maxN maxAlpha n p j : ℕ) (z : K) (pre buf0 : List (Dbl K)) (hp : 2 ≤ p) (hpn : p < n)
    (hj : j + 2 < n) (hl : pre.length + (n - max p (j + 2)) ≤ buf0.length) (hN : n ≤ maxN + 2)
    (hA : 4 * n - 7 ≤ maxAlpha) :
    pyrQ (JacobiCoeff.mk maxN maxAlpha) n z p j ⟨pre.length, fill pre buf0, some (b0 z ^ (p + j - 1))⟩ =
      some ⟨(pre ++ rowPyr n p (j + 2) z).length, fill (pre ++ rowPyr n p (j + 2) z) buf0,
        some (b0 z ^ (p + j))⟩ := by
  unfold pyrQ
  simp only []
  have hpow : Dbl.mul (some (b0 z ^ (p + j - 1))) (some (b0 z)) = some (b0 z ^ (p + (j + 2) - 2)) := by
    rw [Dbl.mul_some, ← pow_succ]; congr 2; omega
  rw [hpow, write_fill _ _ _ (by omega), Option.bind_some]
  have hv0 : some (b0 z ^ (p + (j + 2) - 2)) = valPyr p (j + 2) 0 z := by
    rw [valPyr_ge_two _ _ _ _ hp (by omega), if_pos rfl, mul_one]
  set len := n - max p (j + 2) - 1 with hlen
  have hlen1 : n - max p (j + 2) = len + 1 := by omega
  have hrow : ∀ k, [valPyr p (j + 2) 0 z] ++ (List.range k).map (fun r => valPyr p (j + 2) (r + 1) z) =
      (List.range (k + 1)).map fun r => valPyr p (j + 2) r z := by
    intro k; rw [List.range_succ_eq_map]; simp [Function.comp_def]
  rw [forLoop_eq len _ (fun k => (⟨(pre ++ ([valPyr p (j + 2) 0 z] ++
      (List.range k).map fun r => valPyr p (j + 2) (r + 1) z)).length,
    fill (pre ++ ([valPyr p (j + 2) 0 z] ++ (List.range k).map fun r => valPyr p (j + 2) (r + 1) z)) buf0,
    pyrP1 (2 * p + 2 * (j + 2) - 3) k z, pyrP2 (2 * p + 2 * (j + 2) - 3) k z⟩ : RowSt K))]
  · rw [Option.map_some, rowPyr, hlen1]
    simp only [hrow]
    congr 3
  · rw [hv0]; simp [pyrP1, pyrP2]
  · intro k hk
    rw [pyrBody_step maxN maxAlpha p (j + 2) k z _ buf0 hp (by omega) (by simp; omega) (by omega) (by omega),
      map_range_succ]
    simp only [List.append_assoc]

theorem listB_split (n p : ℕ) (z : K) (hp : p < n) (rest : List (Dbl K)) :
    ((listB n z ++ rest).drop ((List.range p).flatMap fun p => rowB n p z).length).take (n - p) = rowB n p z := by
  rw [listB_eq]
  obtain ⟨m, rfl⟩ : ∃ m, n = p + (m + 1) := ⟨n - p - 1, by omega⟩
  rw [List.range_add, List.flatMap_append, List.append_assoc, List.drop_left, List.range_succ_eq_map]
  simp only [List.map_cons, List.flatMap_cons, Nat.add_zero, List.append_assoc]
  exact List.take_left' (by simp [rowB])

omit [CharZero K] in
theorem flatMap_range_succ' {β : Type*} (g : ℕ → List β) (n : ℕ) :
    (List.range (n + 1)).flatMap g = g 0 ++ (List.range n).flatMap fun i => g (i + 1) := by
  rw [List.range_succ_eq_map, List.flatMap_cons, List.flatMap_map]

omit [CharZero K] in
theorem length_listB (n : ℕ) (z : K) : (listB n z).length = n * (n + 1) / 2 := by
  have h : ∀ m, ∀ f : ℕ → ℕ → Dbl K, (((List.range m).flatMap fun p => (List.range (m - p)).map fun q => f p q).length) * 2 = m * (m + 1) := by
    intro m
    induction m with
    | zero => intro f; simp
    | succ m ih =>
      intro f
      rw [flatMap_range_succ', List.length_append, Nat.add_mul]
      have := ih fun p q => f (p + 1) q
      simp only [show ∀ i, m + 1 - (i + 1) = m - i by omega]
      rw [this]; simp; ring
  have := h n (fun p q => valB p q z)
  unfold listB
  omega

theorem modPyrC_eq (maxN maxAlpha n : ℕ) (z : K) (buf : List (Dbl K)) (h1 : 1 ≤ n)
    (hl : (listPyr n z).length ≤ buf.length)
    (hN : n ≤ maxN + 2) (hA1 : 1 ≤ maxAlpha) (hA2 : 2 * n - 3 ≤ maxAlpha) (hA : 4 * n - 7 ≤ maxAlpha) :
    modPyrC (JacobiCoeff.mk maxN maxAlpha) n z buf = some (fill (listPyr n z) buf) := by
  set G : ℕ → List (Dbl K) := fun p => (List.range n).flatMap fun q => rowPyr n p q z with hG
  have hG0 : G 0 = listB n z := by
    rw [listB_eq, hG]; simp only [rowPyr_zero]
  have hLP : listPyr n z = (List.range n).flatMap G := rfl
  have hlB : (listB n z).length ≤ buf.length := by
    have := length_flatMap_prefix G n 0 (by omega)
    rw [hG0] at this; rw [hLP] at hl; omega
  have hlen := length_listB n z
  unfold modPyrC
  simp only []
  rw [modB_eq maxN maxAlpha n z buf hlB hN hA1 hA2, Option.bind_some]
  rcases Nat.lt_or_ge n 2 with hn | hn
  · have : n = 1 := by omega
    subst this
    simp only [copyLoop, Nat.sub_self, Nat.zero_mul, Nat.zero_div, forLoop, Option.bind_some]
    congr 1
  -- the two copies of the row p = 1
  have hr1 : G 1 = rowB n 1 z ++ (listB n z).drop n := by
    obtain ⟨m, rfl⟩ : ∃ m, n = m + 1 := ⟨n - 1, by omega⟩
    rw [listB_eq, hG]
    simp only [flatMap_range_succ', rowPyr_one_zero]
    rw [List.drop_left' (by simp [rowB])]
    congr 1
    refine List.flatMap_congr fun i _ => ?_
    rw [rowPyr_one _ _ _ (by omega)]
  have hpre1 := length_flatMap_prefix G n 1 (by omega)
  rw [show (List.range 1).flatMap G = listB n z by simp [List.range_succ, hG0], hr1, List.length_append,
    List.length_drop] at hpre1
  rw [← hLP] at hpre1
  have hrB1 : (rowB n 1 z).length = n - 1 := by simp [rowB]
  have hnB : n + (n - 1) * n / 2 = (listB n z).length := by
    rw [hlen]
    obtain ⟨m, rfl⟩ : ∃ m, n = m + 1 := ⟨n - 1, by omega⟩
    rw [Nat.add_sub_cancel, show (m + 1) * (m + 1 + 1) = m * (m + 1) + (m + 1) * 2 by ring,
      Nat.add_mul_div_right _ _ (by omega)]
    omega
  have hn1 : n - 1 ≤ (n - 1) * n / 2 := by
    obtain ⟨m, rfl⟩ : ∃ m, n = m + 2 := ⟨n - 2, by omega⟩
    rw [Nat.le_div_iff_mul_le (by omega)]
    simp only [show m + 2 - 1 = m + 1 by omega]
    exact Nat.mul_le_mul_left _ (by omega)
  have hc1 := forLoop_copy (listB n z) buf n (n - 1) (by omega) (by omega)
  have hs1 : ((listB n z).drop n).take (n - 1) = rowB n 1 z := by
    have := listB_split n 1 z (by omega) []
    rw [List.append_nil] at this
    simpa [List.range_succ, rowB] using this
  rw [hs1, hlen] at hc1
  unfold copyLoop
  rw [hc1, Option.bind_some]
  have hL2 : (listB n z ++ rowB n 1 z).length = n * (n + 1) / 2 + (n - 1) := by
    rw [List.length_append, hlen, hrB1]
  have hc2 := forLoop_copy (listB n z ++ rowB n 1 z) buf n ((n - 1) * n / 2) (by omega) (by omega)
  have hs2 : ((listB n z ++ rowB n 1 z).drop n).take ((n - 1) * n / 2) = (listB n z).drop n := by
    rw [List.drop_append_of_le_length (by omega)]
    exact List.take_left' (by rw [List.length_drop]; omega)
  rw [hs2, hL2] at hc2
  rw [hc2, Option.bind_some]
  have hG2 : (List.range 2).flatMap G = listB n z ++ rowB n 1 z ++ (listB n z).drop n := by
    rw [flatMap_range_succ, hr1]; simp [List.range_succ, hG0]
  have hPre : ∀ p, 2 ≤ p → ∃ rest, (List.range p).flatMap G = listB n z ++ rest := by
    intro p hp
    obtain ⟨m, rfl⟩ : ∃ m, p = m + 1 := ⟨p - 1, by omega⟩
    exact ⟨_, by rw [flatMap_range_succ', hG0]⟩
  rw [forLoop_eq (n - 2) _ (fun i => (⟨((List.range (i + 2)).flatMap G).length, fill ((List.range (i + 2)).flatMap G) buf,
    ((List.range (i + 2)).flatMap fun p => rowB n p z).length, some (b0 z ^ i)⟩ : PyrSt K))]
  · rw [Option.map_some, hLP, Nat.sub_add_cancel hn]
  · simp only [Nat.zero_add, pow_zero]
    rw [hG2]
    congr 1
    · rw [List.length_append, hL2, List.length_drop]; omega
    · simp [List.range_succ, rowB]
  · intro i hi
    set p := i + 2 with hp
    set pre := (List.range p).flatMap G with hpre
    obtain ⟨rest, hrest⟩ := hPre p (by omega)
    have hGp : G p = rowB n p z ++ rowB n p z ++ (List.range (n - 2)).flatMap fun j => rowPyr n p (j + 2) z := by
      have hG' : G p = (List.range (n - 2 + 1 + 1)).flatMap fun q => rowPyr n p q z := by
        rw [show n - 2 + 1 + 1 = n by omega]
      rw [hG', flatMap_range_succ', flatMap_range_succ', rowPyr_lt_two _ _ _ _ (by omega) (by omega),
        rowPyr_lt_two _ _ _ _ (by omega) (by omega), List.append_assoc]
    have hlP := length_flatMap_prefix G n p (by omega)
    rw [← hLP, ← hpre, hGp] at hlP
    simp only [List.length_append] at hlP
    have hrBp : (rowB n p z).length = n - p := by simp [rowB]
    have hbB := length_flatMap_prefix (fun p => rowB n p z) n p (by omega)
    rw [← listB_eq, hrBp] at hbB
    have hprl : (listB n z).length ≤ pre.length := by
      rw [hpre, hrest, List.length_append]; omega
    unfold pyrP copyTwice
    simp only []
    have hct := forLoop_copyTwice pre buf ((List.range p).flatMap fun p => rowB n p z).length (n - p) (by omega) (by omega)
    have hsp : (pre.drop ((List.range p).flatMap fun p => rowB n p z).length).take (n - p) = rowB n p z := by
      rw [hpre, hrest]; exact listB_split n p z (by omega) rest
    rw [hsp] at hct
    rw [← hp, hct, Option.bind_some]
    have hpow : Dbl.mul (some (b0 z ^ i)) (some (b0 z)) = some (b0 z ^ (p + 0 - 1)) := by
      rw [Dbl.mul_some, ← pow_succ]; congr 2
    rw [hpow]
    set h : ℕ → List (Dbl K) := fun j => rowPyr n p (j + 2) z with hh
    set pre2 := pre ++ rowB n p z ++ rowB n p z with hpre2
    have hpre2l : pre2.length = pre.length + 2 * (n - p) := by
      rw [hpre2, List.length_append, List.length_append, hrBp]; omega
    rw [forLoop_eq (n - 2) _ (fun j => (⟨(pre2 ++ (List.range j).flatMap h).length,
      fill (pre2 ++ (List.range j).flatMap h) buf, some (b0 z ^ (p + j - 1))⟩ : PowSt K))]
    · rw [Option.map_some]
      simp only [flatMap_range_succ, show i + 1 + 2 = p + 1 by omega]
      rw [← hpre, hGp, hpre2]
      simp only [List.append_assoc, List.length_append, hrBp]
      rfl
    · simp only [List.range_zero, List.flatMap_nil, List.append_nil, hpre2l]
    · intro j hj
      have hq := length_flatMap_prefix h (n - 2) j hj
      have hhj : (h j).length = n - max p (j + 2) := by simp [hh, rowPyr]
      have hcat := List.length_append (as := pre2) (bs := (List.range j).flatMap h)
      rw [pyrQ_eq maxN maxAlpha n p j z _ buf (by omega) (by omega) (by omega) (by omega) hN hA,
        flatMap_range_succ, List.append_assoc]
      rfl

end Verif.Lemmas
