import Verif.Model.ExpansionLooping
import Verif.Spec.Expansion
import Verif.Lemmas.ModeCounts
import Verif.Lemmas.BasisKernels

/-! What the loops over the modes compute. -/

namespace Verif.Lemmas
open Verif.Spec Verif.Model Verif.Model.JacobiCoeff Verif.Model.BasisReference Verif.Model.ExpansionLooping

variable {K : Type*} [Field K] [DecidableEq K]

/-- `Σ_k dofs[k] * e[k]` over doubles. -/
def ddot (dofs : List K) (e : List (Dbl K)) : Dbl K :=
  (List.zipWith (fun c e => Dbl.mul (some c) e) dofs e).foldl Dbl.add (some 0)

@[simp] theorem ddot_nil (dofs : List K) : ddot dofs [] = some 0 := by simp [ddot]

omit [DecidableEq K] in
theorem ddot_snoc (dofs : List K) (pre : List (Dbl K)) (v : Dbl K) (c : K) (h : dofs[pre.length]? = some c) :
    ddot dofs (pre ++ [v]) = Dbl.add (ddot dofs pre) (Dbl.mul (some c) v) := by
  unfold ddot
  obtain ⟨hlt, hc⟩ := List.getElem?_eq_some_iff.mp h
  have hd : dofs = dofs.take pre.length ++ c :: dofs.drop (pre.length + 1) := by
    rw [← hc, ← List.drop_eq_getElem_cons hlt, List.take_append_drop]
  have hz : List.zipWith (fun c e => Dbl.mul (some c) e) dofs pre =
      List.zipWith (fun c e => Dbl.mul (some c) e) (dofs.take pre.length) pre := by
    conv_lhs => rw [hd]
    conv_lhs => rw [show pre = pre ++ [] by simp]
    rw [List.zipWith_append (by simp; omega)]
    simp
  rw [hz]
  conv_lhs => rw [hd]
  rw [List.zipWith_append (by simp; omega)]
  simp

/-- The additions of `value * e[k]` to the entries `k = 0, 1, …`. -/
def addsOf (value : K) (e : List (Dbl K)) : List (ℕ × Dbl K) :=
  e.zipIdx.map fun vk => (vk.2, Dbl.mul (some value) vk.1)

omit [DecidableEq K] in
theorem addsOf_snoc (value : K) (pre : List (Dbl K)) (v : Dbl K) :
    addsOf value (pre ++ [v]) = addsOf value pre ++ [(pre.length, Dbl.mul (some value) v)] := by
  simp [addsOf, List.zipIdx_append]

theorem dmul_assoc3 (x y z : Dbl K) : Dbl.mul (Dbl.mul x y) z = Dbl.mul x (Dbl.mul y z) := by
  cases x <;> cases y <;> cases z <;> simp [mul_assoc]

/-- Rows of values. -/
def rows2 {α : Type*} (p q : ℕ) (m : ℕ → ℕ) (e : ℕ → ℕ → α) : List α :=
  ((List.range p).flatMap fun i => (List.range (m i)).map (e i)) ++ (List.range q).map (e p)

def rows3 {α : Type*} (p q r : ℕ) (m : ℕ → ℕ) (k : ℕ → ℕ → ℕ) (e : ℕ → ℕ → ℕ → α) : List α :=
  ((List.range p).flatMap fun i => (List.range (m i)).flatMap fun j => (List.range (k i j)).map (e i j)) ++
    rows2 q r (k p) (e p)

theorem rows2_zero {α : Type*} (p : ℕ) (m : ℕ → ℕ) (e : ℕ → ℕ → α) :
    rows2 p 0 m e = (List.range p).flatMap fun i => (List.range (m i)).map (e i) := by simp [rows2]

@[simp] theorem rows2_nil {α : Type*} (m : ℕ → ℕ) (e : ℕ → ℕ → α) : rows2 0 0 m e = [] := rfl

@[simp] theorem rows3_nil {α : Type*} (m : ℕ → ℕ) (k : ℕ → ℕ → ℕ) (e : ℕ → ℕ → ℕ → α) : rows3 0 0 0 m k e = [] := rfl

theorem rows2_full {α : Type*} (p : ℕ) (m : ℕ → ℕ) (e : ℕ → ℕ → α) : rows2 p (m p) m e = rows2 (p + 1) 0 m e := by
  rw [rows2_zero, flatMap_range_succ]; rfl

theorem rows2_succ {α : Type*} (p q : ℕ) (m : ℕ → ℕ) (e : ℕ → ℕ → α) :
    rows2 p (q + 1) m e = rows2 p q m e ++ [e p q] := by
  simp [rows2, map_range_succ]

theorem rows3_full {α : Type*} (p q : ℕ) (m : ℕ → ℕ) (k : ℕ → ℕ → ℕ) (e : ℕ → ℕ → ℕ → α) :
    rows3 p q (k p q) m k e = rows3 p (q + 1) 0 m k e := by
  simp [rows3, rows2_full]

theorem rows3_full' {α : Type*} (p : ℕ) (m : ℕ → ℕ) (k : ℕ → ℕ → ℕ) (e : ℕ → ℕ → ℕ → α) :
    rows3 p (m p) 0 m k e = rows3 (p + 1) 0 0 m k e := by
  simp [rows3, rows2_zero, flatMap_range_succ]

theorem rows3_succ {α : Type*} (p q r : ℕ) (m : ℕ → ℕ) (k : ℕ → ℕ → ℕ) (e : ℕ → ℕ → ℕ → α) :
    rows3 p q (r + 1) m k e = rows3 p q r m k e ++ [e p q r] := by
  simp [rows3, rows2_succ]

theorem length_rows2 {α : Type*} (p q : ℕ) (m : ℕ → ℕ) (e : ℕ → ℕ → α) :
    (rows2 p q m e).length = ∑ i ∈ Finset.range p, m i + q := by
  simp only [rows2, List.length_append, length_flatMap_range, List.length_map, List.length_range]

theorem length_rows3 {α : Type*} (p q r : ℕ) (m : ℕ → ℕ) (k : ℕ → ℕ → ℕ) (e : ℕ → ℕ → ℕ → α) :
    (rows3 p q r m k e).length = ∑ i ∈ Finset.range p, ∑ j ∈ Finset.range (m i), k i j +
      (∑ j ∈ Finset.range q, k p j + r) := by
  simp only [rows3, List.length_append, length_rows2, length_flatMap_range, List.length_map, List.length_range]

theorem sum_lt_of {p n : ℕ} (m : ℕ → ℕ) {q : ℕ} (hp : p < n) (hq : q < m p) :
    ∑ i ∈ Finset.range p, m i + q < ∑ i ∈ Finset.range n, m i := by
  have h : ∑ i ∈ Finset.range (p + 1), m i ≤ ∑ i ∈ Finset.range n, m i :=
    Finset.sum_le_sum_of_subset (by intro x; simp; omega)
  rw [Finset.sum_range_succ] at h; omega

theorem sum_lt_of3 {p q r n : ℕ} (m : ℕ → ℕ) (k : ℕ → ℕ → ℕ) (hp : p < n) (hq : q < m p) (hr : r < k p q) :
    ∑ i ∈ Finset.range p, ∑ j ∈ Finset.range (m i), k i j + (∑ j ∈ Finset.range q, k p j + r) <
      ∑ i ∈ Finset.range n, ∑ j ∈ Finset.range (m i), k i j :=
  sum_lt_of (fun i => ∑ j ∈ Finset.range (m i), k i j) hp (sum_lt_of (k p) hq hr)

theorem nest2 {σ : Type*} (n : ℕ) (m : ℕ → ℕ) (body : ℕ → ℕ → σ → Option σ) (R : ℕ → ℕ → σ)
    (hrow : ∀ p, R p (m p) = R (p + 1) 0)
    (h : ∀ p < n, ∀ q < m p, body p q (R p q) = some (R p (q + 1))) :
    forLoop n (fun p s => forLoop (m p) (body p) s) (R 0 0) = some (R n 0) := by
  refine forLoop_eq n _ (fun p => R p 0) _ rfl fun p hp => ?_
  rw [forLoop_eq (m p) (body p) (R p) (R p 0) rfl (h p hp), hrow]

/-- The first `1` of a mode counter. -/
theorem one_iff2 {p q n : ℕ} (hp : p < n) : ∑ i ∈ Finset.range p, (n - i) + q = 1 ↔ p = 0 ∧ q = 1 := by
  rcases p with _ | p
  · simp
  · have := Finset.single_le_sum (f := fun i => n - i) (fun i _ => Nat.zero_le _) (Finset.mem_range.mpr (Nat.succ_pos p))
    simp only [Nat.sub_zero, Nat.succ_eq_add_one] at this
    constructor
    · intro h; omega
    · rintro ⟨h, _⟩; omega

variable (n : ℕ) (dofs : List K) (value : K) (l0 l1 l2 : List (Dbl K)) (a0 a1 a2 : ℕ → Dbl K) (b : ℕ → ℕ → Dbl K)
  (c : ℕ → ℕ → ℕ → Dbl K)

/-- The values `b p q` are in the local space in the order of the modes. -/
def HoldsB (n : ℕ) (b : ℕ → ℕ → Dbl K) (l : List (Dbl K)) : Prop :=
  ∀ p < n, ∀ q < n - p, Mem.read l ((∑ i ∈ Finset.range p, (n - i) + q : ℕ) : ℤ) = some (b p q)

def HoldsA (n : ℕ) (a : ℕ → Dbl K) (l : List (Dbl K)) : Prop := ∀ p < n, Mem.read l (p : ℤ) = some (a p)

def HoldsC (n : ℕ) (m : ℕ → ℕ) (k : ℕ → ℕ → ℕ) (c : ℕ → ℕ → ℕ → Dbl K) (l : List (Dbl K)) : Prop :=
  ∀ p < n, ∀ q < m p, ∀ r < k p q,
    Mem.read l ((∑ i ∈ Finset.range p, ∑ j ∈ Finset.range (m i), k i j + (∑ j ∈ Finset.range q, k p j + r) : ℕ) : ℤ) =
      some (c p q r)

/-! Values of the modes over doubles. -/

def dTri (a0 : ℕ → Dbl K) (b : ℕ → ℕ → Dbl K) (p q : ℕ) : Dbl K :=
  Dbl.mul (if p = 0 ∧ q = 1 then some 1 else a0 p) (b p q)

theorem read_dofs {dofs : List K} {i : ℕ} (h : i < dofs.length) : Mem.read dofs (i : ℤ) = some dofs[i] := by
  rw [Mem.read_ofNat, List.getElem?_eq_getElem h]

theorem one_dmul (x : Dbl K) : Dbl.mul (some 1) x = x := by cases x <;> simp

theorem dleft_comm (x y z : Dbl K) : Dbl.mul x (Dbl.mul y z) = Dbl.mul y (Dbl.mul x z) := by
  rw [← dmul_assoc3, dmul_comm x y, dmul_assoc3]

/-- One mode of an evaluation. -/
theorem ev_snoc {dofs : List K} (e : List (Dbl K)) (v : Dbl K) (i : ℕ) (hi : i < dofs.length) (he : e.length = i) :
    Dbl.add (ddot dofs e) (Dbl.mul (some dofs[i]) v) = ddot dofs (e ++ [v]) := by
  subst he
  rw [ddot_snoc _ _ _ _ (List.getElem?_eq_getElem hi)]

omit [DecidableEq K] in
theorem pr_snoc (value : K) (e : List (Dbl K)) (v : Dbl K) (i : ℕ) (he : e.length = i) :
    addsOf value e ++ [(i, Dbl.mul (some value) v)] = addsOf value (e ++ [v]) := by
  subst he; rw [addsOf_snoc]

theorem triEvaluate_eq (h0 : HoldsA n a0 l0) (h1 : HoldsB n b l1) (hd : ∑ i ∈ Finset.range n, (n - i) ≤ dofs.length) :
    triEvaluate n dofs l0 l1 = some (ddot dofs (rows2 n 0 (fun p => n - p) (dTri a0 b))) := by
  unfold triEvaluate
  have := nest2 n (fun p => n - p) (fun px _ (s : EvSt K) =>
      (Mem.read dofs (s.mode : ℤ)).bind fun coeff =>
      (if s.mode = 1 then some (some 1) else Mem.read l0 (px : ℤ)).bind fun etmp0 =>
      (Mem.read l1 (s.mode : ℤ)).bind fun etmp1 =>
      some ⟨s.mode + 1, Dbl.add s.evaluation (Dbl.mul (Dbl.mul (some coeff) etmp0) etmp1)⟩)
    (fun p q => ⟨∑ i ∈ Finset.range p, (n - i) + q, ddot dofs (rows2 p q (fun p => n - p) (dTri a0 b))⟩)
    (fun p => by rw [rows2_full, Finset.sum_range_succ]; simp) (by
      intro p hp q hq
      have hlt := Nat.lt_of_lt_of_le (sum_lt_of (fun p => n - p) hp hq) hd
      simp only []
      rw [read_dofs hlt, Option.bind_some, h1 p hp q hq, h0 p hp, rows2_succ,
        ← ev_snoc _ _ _ hlt (length_rows2 _ _ _ _)]
      by_cases h : p = 0 ∧ q = 1
      · rw [if_pos ((one_iff2 hp).mpr h)]; simp [dTri, h, Nat.add_assoc, one_dmul]
      · rw [if_neg (fun h' => h ((one_iff2 hp).mp h'))]; simp [dTri, h, Nat.add_assoc, dmul_assoc3])
  simp only [rows2_nil, ddot_nil] at this
  exact congrArg (Option.map EvSt.evaluation) this

theorem triProject_eq (h0 : HoldsA n a0 l0) (h1 : HoldsB n b l1) :
    triProject n value l0 l1 = some (addsOf value (rows2 n 0 (fun p => n - p) (dTri a0 b))) := by
  unfold triProject
  have := nest2 n (fun p => n - p) (fun px _ (s : PrSt K) =>
      (if s.mode = 1 then some (some 1) else Mem.read l0 (px : ℤ)).bind fun etmp0 =>
      (Mem.read l1 (s.mode : ℤ)).bind fun etmp1 =>
      some ⟨s.mode + 1, s.adds ++ [(s.mode, Dbl.mul (Dbl.mul (some value) etmp0) etmp1)]⟩)
    (fun p q => ⟨∑ i ∈ Finset.range p, (n - i) + q, addsOf value (rows2 p q (fun p => n - p) (dTri a0 b))⟩)
    (fun p => by rw [rows2_full, Finset.sum_range_succ]; simp) (by
      intro p hp q hq
      simp only []
      rw [h1 p hp q hq, h0 p hp, rows2_succ, ← pr_snoc _ _ _ _ (length_rows2 _ _ _ _)]
      by_cases h : p = 0 ∧ q = 1
      · rw [if_pos ((one_iff2 hp).mpr h)]; simp [dTri, h, Nat.add_assoc, one_dmul]
      · rw [if_neg (fun h' => h ((one_iff2 hp).mp h'))]; simp [dTri, h, Nat.add_assoc, dmul_assoc3])
  exact congrArg (Option.map PrSt.adds) this

/-! Quadrilaterals -/

def dQuad (a0 a1 : ℕ → Dbl K) (q p : ℕ) : Dbl K := Dbl.mul (a0 p) (a1 q)

theorem sum_const' (q n : ℕ) : ∑ _i ∈ Finset.range q, n = q * n := by simp

theorem quadEvaluate_eq (h0 : HoldsA n a0 l0) (h1 : HoldsA n a1 l1) (hd : n * n ≤ dofs.length) :
    quadEvaluate n dofs l0 l1 = some (ddot dofs (rows2 n 0 (fun _ => n) (dQuad a0 a1))) := by
  unfold quadEvaluate
  rw [show (some 0 : Dbl K) = ddot dofs (rows2 0 0 (fun _ => n) (dQuad a0 a1)) by simp]
  refine nest2 n (fun _ => n) _ (fun q p => ddot dofs (rows2 q p (fun _ => n) (dQuad a0 a1)))
    (fun p => congrArg _ (rows2_full p (fun _ => n) (dQuad a0 a1))) ?_
  intro q hq p hp
  have hlt : q * n + p < dofs.length := by
    have := sum_lt_of (fun _ => n) hq hp
    simp only [sum_const'] at this; omega
  simp only []
  rw [read_dofs hlt, h0 p hp, h1 q hq, rows2_succ, ← ev_snoc _ _ _ hlt (by rw [length_rows2, sum_const'])]
  simp [dQuad, dmul_assoc3]

theorem quadProject_eq (h0 : HoldsA n a0 l0) (h1 : HoldsA n a1 l1) :
    quadProject n value l0 l1 = some (addsOf value (rows2 n 0 (fun _ => n) (dQuad a0 a1))) := by
  unfold quadProject
  refine nest2 n (fun _ => n) _ (fun q p => addsOf value (rows2 q p (fun _ => n) (dQuad a0 a1)))
    (fun p => congrArg _ (rows2_full p (fun _ => n) (dQuad a0 a1))) ?_
  intro q hq p hp
  simp only []
  rw [h0 p hp, h1 q hq, rows2_succ, ← pr_snoc _ _ _ (q * n + p) (by rw [length_rows2, sum_const'])]
  simp [dQuad, dmul_assoc3]

/-! Hexahedra -/

def dHex (a0 a1 a2 : ℕ → Dbl K) (r q p : ℕ) : Dbl K := Dbl.mul (Dbl.mul (a0 p) (a1 q)) (a2 r)

theorem hex_len (r q p : ℕ) : ∑ _i ∈ Finset.range r, ∑ _j ∈ Finset.range n, n + (∑ _j ∈ Finset.range q, n + p) =
    p + (q * n + r * n * n) := by
  simp only [sum_const']; ring

theorem hexEvaluate_eq (h0 : HoldsA n a0 l0) (h1 : HoldsA n a1 l1) (h2 : HoldsA n a2 l2)
    (hd : n * n * n ≤ dofs.length) :
    hexEvaluate n dofs l0 l1 l2 = some (ddot dofs (rows3 n 0 0 (fun _ => n) (fun _ _ => n) (dHex a0 a1 a2))) := by
  unfold hexEvaluate
  refine forLoop_eq n _ (fun r => ddot dofs (rows3 r 0 0 (fun _ => n) (fun _ _ => n) (dHex a0 a1 a2))) _ (by first | rfl | simp)
    fun r hr => ?_
  simp only [h2 r hr, Option.bind_some]
  rw [← rows3_full' r (fun _ => n) (fun _ _ => n)]
  refine forLoop_eq n _ (fun q => ddot dofs (rows3 r q 0 (fun _ => n) (fun _ _ => n) (dHex a0 a1 a2))) _ (by first | rfl | simp)
    fun q hq => ?_
  simp only [h1 q hq, Option.bind_some]
  rw [← rows3_full r q (fun _ => n) (fun _ _ => n)]
  refine forLoop_eq n _ (fun p => ddot dofs (rows3 r q p (fun _ => n) (fun _ _ => n) (dHex a0 a1 a2))) _ (by first | rfl | simp)
    fun p hp => ?_
  have hlt : p + (q * n + r * n * n) < dofs.length := by
    have := sum_lt_of3 (fun _ => n) (fun _ _ => n) hr hq hp
    rw [hex_len] at this
    simp only [sum_const', ← Nat.mul_assoc] at this; omega
  rw [read_dofs hlt, h0 p hp, rows3_succ, ← ev_snoc _ _ _ hlt (by rw [length_rows3, hex_len])]
  simp [dHex, dmul_assoc3]

theorem hexProject_eq (h0 : HoldsA n a0 l0) (h1 : HoldsA n a1 l1) (h2 : HoldsA n a2 l2) :
    hexProject n value l0 l1 l2 = some (addsOf value (rows3 n 0 0 (fun _ => n) (fun _ _ => n) (dHex a0 a1 a2))) := by
  unfold hexProject
  refine forLoop_eq n _ (fun r => addsOf value (rows3 r 0 0 (fun _ => n) (fun _ _ => n) (dHex a0 a1 a2))) _ (by first | rfl | simp)
    fun r hr => ?_
  simp only [h2 r hr, Option.bind_some]
  rw [← rows3_full' r (fun _ => n) (fun _ _ => n)]
  refine forLoop_eq n _ (fun q => addsOf value (rows3 r q 0 (fun _ => n) (fun _ _ => n) (dHex a0 a1 a2))) _ (by first | rfl | simp)
    fun q hq => ?_
  simp only [h1 q hq, Option.bind_some]
  rw [← rows3_full r q (fun _ => n) (fun _ _ => n)]
  refine forLoop_eq n _ (fun p => addsOf value (rows3 r q p (fun _ => n) (fun _ _ => n) (dHex a0 a1 a2))) _ (by first | rfl | simp)
    fun p hp => ?_
  rw [h0 p hp, rows3_succ, ← pr_snoc _ _ _ (p + (q * n + r * n * n)) (by rw [length_rows3, hex_len])]
  simp [dHex, dmul_assoc3, dmul_comm, dleft_comm]

/-! Prisms -/

def dPrism (a0 a1 : ℕ → Dbl K) (b : ℕ → ℕ → Dbl K) (p q r : ℕ) : Dbl K :=
  if p = 0 ∧ r = 1 then Dbl.mul (a1 q) (b p r) else Dbl.mul (Dbl.mul (a0 p) (a1 q)) (b p r)

theorem prismEvaluate_eq (h0 : HoldsA n a0 l0) (h1 : HoldsA n a1 l1) (h2 : HoldsB n b l2)
    (hd : ∑ p ∈ Finset.range n, ∑ _q ∈ Finset.range n, (n - p) ≤ dofs.length) :
    prismEvaluate n dofs l0 l1 l2 =
      some (ddot dofs (rows3 n 0 0 (fun _ => n) (fun p _ => n - p) (dPrism a0 a1 b))) := by
  unfold prismEvaluate
  set R : ℕ → ℕ → ℕ → EvSt K := fun p q r =>
    ⟨∑ i ∈ Finset.range p, ∑ _j ∈ Finset.range n, (n - i) + (∑ _j ∈ Finset.range q, (n - p) + r),
      ddot dofs (rows3 p q r (fun _ => n) (fun p _ => n - p) (dPrism a0 a1 b))⟩ with hR
  have hR1 : ∀ p q, R p q (n - p) = R p (q + 1) 0 := fun p q => by
    have h := rows3_full p q (fun _ => n) (fun p _ => n - p) (dPrism a0 a1 b)
    beta_reduce at h
    simp only [hR]; rw [h, Finset.sum_range_succ (n := q)]; rfl
  have hR2 : ∀ p, R p n 0 = R (p + 1) 0 0 := fun p => by
    have h := rows3_full' p (fun _ => n) (fun p _ => n - p) (dPrism a0 a1 b)
    beta_reduce at h
    simp only [hR]; rw [h, Finset.sum_range_succ (n := p)]; simp
  have := forLoop_eq n (fun p (st : ℕ × EvSt K) =>
    (Mem.read l0 (p : ℤ)).bind fun etmp0 =>
    (forLoop n (fun q s =>
      (Mem.read l1 (q : ℤ)).bind fun etmp1 =>
      forLoop (n - p) (fun r (s : EvSt K) =>
        (Mem.read l2 ((st.1 + r : ℕ) : ℤ)).bind fun etmp2 =>
        let tmp := if p = 0 ∧ r = 1 then Dbl.mul etmp1 etmp2 else Dbl.mul (Dbl.mul etmp0 etmp1) etmp2
        (Mem.read dofs (s.mode : ℤ)).bind fun coeff =>
        some ⟨s.mode + 1, Dbl.add s.evaluation (Dbl.mul (some coeff) tmp)⟩) s) st.2).map fun s =>
    (st.1 + (n - p), s)) (fun p => (∑ i ∈ Finset.range p, (n - i), R p 0 0)) (0, ⟨0, some 0⟩) (by simp [hR]) (by
      intro p hp
      simp only [h0 p hp, Option.bind_some]
      rw [forLoop_eq n _ (fun q => R p q 0) _ rfl]
      · rw [hR2, Option.map_some, Finset.sum_range_succ]
      intro q hq
      simp only [h1 q hq, Option.bind_some]
      rw [← hR1]
      refine forLoop_eq (n - p) _ (fun r => R p q r) _ rfl fun r hr => ?_
      have hlt := Nat.lt_of_lt_of_le (sum_lt_of3 (fun _ => n) (fun p _ => n - p) hp hq hr) hd
      simp only [hR]
      rw [read_dofs hlt, h2 p hp r hr, rows3_succ, ← ev_snoc _ _ _ hlt (length_rows3 _ _ _ _ _ _)]
      simp [dPrism, Nat.add_assoc])
  rw [this]; rfl

theorem prismProject_eq (h0 : HoldsA n a0 l0) (h1 : HoldsA n a1 l1) (h2 : HoldsB n b l2) :
    prismProject n value l0 l1 l2 =
      some (addsOf value (rows3 n 0 0 (fun _ => n) (fun p _ => n - p) (dPrism a0 a1 b))) := by
  unfold prismProject
  set R : ℕ → ℕ → ℕ → PrSt K := fun p q r =>
    ⟨∑ i ∈ Finset.range p, ∑ _j ∈ Finset.range n, (n - i) + (∑ _j ∈ Finset.range q, (n - p) + r),
      addsOf value (rows3 p q r (fun _ => n) (fun p _ => n - p) (dPrism a0 a1 b))⟩ with hR
  have hR1 : ∀ p q, R p q (n - p) = R p (q + 1) 0 := fun p q => by
    have h := rows3_full p q (fun _ => n) (fun p _ => n - p) (dPrism a0 a1 b)
    beta_reduce at h
    simp only [hR]; rw [h, Finset.sum_range_succ (n := q)]; rfl
  have hR2 : ∀ p, R p n 0 = R (p + 1) 0 0 := fun p => by
    have h := rows3_full' p (fun _ => n) (fun p _ => n - p) (dPrism a0 a1 b)
    beta_reduce at h
    simp only [hR]; rw [h, Finset.sum_range_succ (n := p)]; simp
  rw [forLoop_eq n _ (fun p => (∑ i ∈ Finset.range p, (n - i), R p 0 0)) (0, ⟨0, []⟩) rfl]
  · rfl
  intro p hp
  simp only [h0 p hp, Option.bind_some]
  rw [forLoop_eq n _ (fun q => R p q 0) _ rfl]
  · rw [hR2, Option.map_some, Finset.sum_range_succ]
  intro q hq
  simp only [h1 q hq, Option.bind_some]
  rw [← hR1]
  refine forLoop_eq (n - p) _ (fun r => R p q r) _ rfl fun r hr => ?_
  simp only [hR]
  rw [h2 p hp r hr, rows3_succ, ← pr_snoc _ _ _ _ (length_rows3 _ _ _ _ _ _)]
  by_cases h : p = 0 ∧ r = 1
  · simp [dPrism, h, Nat.add_assoc, dmul_assoc3]
  · simp [dPrism, h, Nat.add_assoc, dmul_assoc3]

/-! Pyramids -/

def dPyr (a0 a1 : ℕ → Dbl K) (c : ℕ → ℕ → ℕ → Dbl K) (p q r : ℕ) : Dbl K :=
  if p = 0 ∧ q = 0 ∧ r = 1 then c p q r else Dbl.mul (Dbl.mul (a0 p) (a1 q)) (c p q r)

theorem one_iff3 {p q r n : ℕ} (m : ℕ → ℕ) (k : ℕ → ℕ → ℕ) (hp : p < n) (hq : q < m p)
    (hm : m 0 = n) (hk : k 0 0 = n) (hq' : p = 0 → q < n) :
    ∑ i ∈ Finset.range p, ∑ j ∈ Finset.range (m i), k i j + (∑ j ∈ Finset.range q, k p j + r) = 1 ↔
      p = 0 ∧ q = 0 ∧ r = 1 := by
  rcases p with _ | p
  · rcases q with _ | q
    · simp
    · have := Finset.single_le_sum (f := fun j => k 0 j) (fun i _ => Nat.zero_le _)
        (Finset.mem_range.mpr (Nat.succ_pos q))
      simp only [hk, Nat.succ_eq_add_one] at this
      have h := hq' rfl
      simp only [Finset.range_zero, Finset.sum_empty, Nat.zero_add]
      constructor
      · intro h'; omega
      · rintro ⟨_, h', _⟩; omega
  · have h1 := Finset.single_le_sum (f := fun i => ∑ j ∈ Finset.range (m i), k i j) (fun i _ => Nat.zero_le _)
      (Finset.mem_range.mpr (Nat.succ_pos p))
    have h2 := Finset.single_le_sum (f := fun j => k 0 j) (fun i _ => Nat.zero_le _)
      (Finset.mem_range.mpr (show 0 < m 0 by omega))
    simp only [hk, Nat.succ_eq_add_one] at h1 h2
    constructor
    · intro h'; omega
    · rintro ⟨h', _⟩; omega

theorem pyrEvaluate_eq (h0 : HoldsA n a0 l0) (h1 : HoldsA n a1 l1)
    (h2 : HoldsC n (fun _ => n) (fun p q => n - max p q) c l2)
    (hd : ∑ p ∈ Finset.range n, ∑ q ∈ Finset.range n, (n - max p q) ≤ dofs.length) :
    pyrEvaluate n dofs l0 l1 l2 =
      some (ddot dofs (rows3 n 0 0 (fun _ => n) (fun p q => n - max p q) (dPyr a0 a1 c))) := by
  unfold pyrEvaluate
  set R : ℕ → ℕ → ℕ → EvSt K := fun p q r =>
    ⟨∑ i ∈ Finset.range p, ∑ j ∈ Finset.range n, (n - max i j) + (∑ j ∈ Finset.range q, (n - max p j) + r),
      ddot dofs (rows3 p q r (fun _ => n) (fun p q => n - max p q) (dPyr a0 a1 c))⟩ with hR
  have hR1 : ∀ p q, R p q (n - max p q) = R p (q + 1) 0 := fun p q => by
    have h := rows3_full p q (fun _ => n) (fun p q => n - max p q) (dPyr a0 a1 c)
    beta_reduce at h
    simp only [hR]; rw [h, Finset.sum_range_succ (n := q)]; rfl
  have hR2 : ∀ p, R p n 0 = R (p + 1) 0 0 := fun p => by
    have h := rows3_full' p (fun _ => n) (fun p q => n - max p q) (dPyr a0 a1 c)
    beta_reduce at h
    simp only [hR]; rw [h, Finset.sum_range_succ (n := p)]; simp
  rw [forLoop_eq n _ (fun p => R p 0 0) ⟨0, some 0⟩ (by simp [hR])]
  · rfl
  intro p hp
  simp only [h0 p hp, Option.bind_some]
  rw [← hR2]
  refine forLoop_eq n _ (fun q => R p q 0) _ rfl fun q hq => ?_
  simp only [h1 q hq, Option.bind_some]
  rw [← hR1]
  refine forLoop_eq (n - max p q) _ (fun r => R p q r) _ rfl fun r hr => ?_
  have hlt := Nat.lt_of_lt_of_le (sum_lt_of3 (fun _ => n) (fun p q => n - max p q) hp hq hr) hd
  have hone := one_iff3 (r := r) (fun _ => n) (fun p q => n - max p q) hp hq rfl (by simp) (fun _ => hq)
  simp only [hR]
  rw [read_dofs hlt, h2 p hp q hq r hr, rows3_succ, ← ev_snoc _ _ _ hlt (length_rows3 _ _ _ _ _ _)]
  simp only [Option.bind_some]
  by_cases h : p = 0 ∧ q = 0 ∧ r = 1
  · rw [if_pos (hone.mpr h), dPyr, if_pos h]; simp [Nat.add_assoc]
  · rw [if_neg (fun h' => h (hone.mp h')), dPyr, if_neg h]; simp [Nat.add_assoc, dmul_assoc3]

theorem pyrProject_eq (h0 : HoldsA n a0 l0) (h1 : HoldsA n a1 l1)
    (h2 : HoldsC n (fun _ => n) (fun p q => n - max p q) c l2) :
    pyrProject n value l0 l1 l2 =
      some (addsOf value (rows3 n 0 0 (fun _ => n) (fun p q => n - max p q) (dPyr a0 a1 c))) := by
  unfold pyrProject
  set R : ℕ → ℕ → ℕ → PrSt K := fun p q r =>
    ⟨∑ i ∈ Finset.range p, ∑ j ∈ Finset.range n, (n - max i j) + (∑ j ∈ Finset.range q, (n - max p j) + r),
      addsOf value (rows3 p q r (fun _ => n) (fun p q => n - max p q) (dPyr a0 a1 c))⟩ with hR
  have hR1 : ∀ p q, R p q (n - max p q) = R p (q + 1) 0 := fun p q => by
    have h := rows3_full p q (fun _ => n) (fun p q => n - max p q) (dPyr a0 a1 c)
    beta_reduce at h
    simp only [hR]; rw [h, Finset.sum_range_succ (n := q)]; rfl
  have hR2 : ∀ p, R p n 0 = R (p + 1) 0 0 := fun p => by
    have h := rows3_full' p (fun _ => n) (fun p q => n - max p q) (dPyr a0 a1 c)
    beta_reduce at h
    simp only [hR]; rw [h, Finset.sum_range_succ (n := p)]; simp
  rw [forLoop_eq n _ (fun p => R p 0 0) ⟨0, []⟩ rfl]
  · rfl
  intro p hp
  simp only [h0 p hp, Option.bind_some]
  rw [← hR2]
  refine forLoop_eq n _ (fun q => R p q 0) _ rfl fun q hq => ?_
  simp only [h1 q hq, Option.bind_some]
  rw [← hR1]
  refine forLoop_eq (n - max p q) _ (fun r => R p q r) _ rfl fun r hr => ?_
  have hone := one_iff3 (r := r) (fun _ => n) (fun p q => n - max p q) hp hq rfl (by simp) (fun _ => hq)
  simp only [hR]
  rw [h2 p hp q hq r hr, rows3_succ, ← pr_snoc _ _ _ _ (length_rows3 _ _ _ _ _ _)]
  simp only [Option.bind_some]
  by_cases h : p = 0 ∧ q = 0 ∧ r = 1
  · rw [if_pos (hone.mpr h), dPyr, if_pos h]; simp [Nat.add_assoc]
  · rw [if_neg (fun h' => h (hone.mp h')), dPyr, if_neg h]; simp [Nat.add_assoc, dmul_assoc3]

/-! Tetrahedra -/

def dTet (a0 : ℕ → Dbl K) (b : ℕ → ℕ → Dbl K) (c : ℕ → ℕ → ℕ → Dbl K) (p q r : ℕ) : Dbl K :=
  if p = 0 ∧ q = 0 ∧ r = 1 then c p q r else if p = 0 ∧ q = 1 then Dbl.mul (b p q) (c p q r)
  else Dbl.mul (Dbl.mul (a0 p) (b p q)) (c p q r)

theorem tetEvaluate_eq (h0 : HoldsA n a0 l0) (h1 : HoldsB n b l1)
    (h2 : HoldsC n (fun p => n - p) (fun p q => n - p - q) c l2)
    (hd : ∑ p ∈ Finset.range n, ∑ q ∈ Finset.range (n - p), (n - p - q) ≤ dofs.length) :
    tetEvaluate n dofs l0 l1 l2 =
      some (ddot dofs (rows3 n 0 0 (fun p => n - p) (fun p q => n - p - q) (dTet a0 b c))) := by
  unfold tetEvaluate
  set R : ℕ → ℕ → ℕ → EvSt K := fun p q r =>
    ⟨∑ i ∈ Finset.range p, ∑ j ∈ Finset.range (n - i), (n - i - j) + (∑ j ∈ Finset.range q, (n - p - j) + r),
      ddot dofs (rows3 p q r (fun p => n - p) (fun p q => n - p - q) (dTet a0 b c))⟩ with hR
  have hR1 : ∀ p q, R p q (n - p - q) = R p (q + 1) 0 := fun p q => by
    have h := rows3_full p q (fun p => n - p) (fun p q => n - p - q) (dTet a0 b c)
    beta_reduce at h
    simp only [hR]; rw [h, Finset.sum_range_succ (n := q)]; rfl
  have hR2 : ∀ p, R p (n - p) 0 = R (p + 1) 0 0 := fun p => by
    have h := rows3_full' p (fun p => n - p) (fun p q => n - p - q) (dTet a0 b c)
    beta_reduce at h
    simp only [hR]; rw [h, Finset.sum_range_succ (n := p)]; simp
  rw [forLoop_eq n _ (fun p => (∑ i ∈ Finset.range p, (n - i), R p 0 0)) (0, ⟨0, some 0⟩) (by simp [hR])]
  · rfl
  intro p hp
  simp only [h0 p hp, Option.bind_some]
  rw [← hR2, Finset.sum_range_succ]
  refine forLoop_eq (n - p) _ (fun q => (∑ i ∈ Finset.range p, (n - i) + q, R p q 0)) _ rfl fun q hq => ?_
  simp only [h1 p hp q hq, Option.bind_some]
  rw [← hR1]
  rw [forLoop_eq (n - p - q) _ (fun r => R p q r) _ rfl]
  · rfl
  intro r hr
  have hlt := Nat.lt_of_lt_of_le (sum_lt_of3 (fun p => n - p) (fun p q => n - p - q) hp hq hr) hd
  have hone := one_iff3 (r := r) (fun p => n - p) (fun p q => n - p - q) hp hq rfl (by simp) (fun _ => by omega)
  simp only [hR]
  rw [read_dofs hlt, h2 p hp q hq r hr, rows3_succ, ← ev_snoc _ _ _ hlt (length_rows3 _ _ _ _ _ _)]
  simp only [Option.bind_some]
  by_cases h : p = 0 ∧ q = 0 ∧ r = 1
  · rw [if_pos (hone.mpr h), dTet, if_pos h]; simp [Nat.add_assoc]
  · rw [if_neg (fun h' => h (hone.mp h')), dTet, if_neg h]
    by_cases h3 : p = 0 ∧ q = 1
    · rw [if_pos h3, if_pos h3]; simp [Nat.add_assoc, dmul_assoc3]
    · rw [if_neg h3, if_neg h3]; simp [Nat.add_assoc, dmul_assoc3]

theorem tetProject_eq (h0 : HoldsA n a0 l0) (h1 : HoldsB n b l1)
    (h2 : HoldsC n (fun p => n - p) (fun p q => n - p - q) c l2) :
    tetProject n value l0 l1 l2 =
      some (addsOf value (rows3 n 0 0 (fun p => n - p) (fun p q => n - p - q) (dTet a0 b c))) := by
  unfold tetProject
  set R : ℕ → ℕ → ℕ → PrSt K := fun p q r =>
    ⟨∑ i ∈ Finset.range p, ∑ j ∈ Finset.range (n - i), (n - i - j) + (∑ j ∈ Finset.range q, (n - p - j) + r),
      addsOf value (rows3 p q r (fun p => n - p) (fun p q => n - p - q) (dTet a0 b c))⟩ with hR
  have hR1 : ∀ p q, R p q (n - p - q) = R p (q + 1) 0 := fun p q => by
    have h := rows3_full p q (fun p => n - p) (fun p q => n - p - q) (dTet a0 b c)
    beta_reduce at h
    simp only [hR]; rw [h, Finset.sum_range_succ (n := q)]; rfl
  have hR2 : ∀ p, R p (n - p) 0 = R (p + 1) 0 0 := fun p => by
    have h := rows3_full' p (fun p => n - p) (fun p q => n - p - q) (dTet a0 b c)
    beta_reduce at h
    simp only [hR]; rw [h, Finset.sum_range_succ (n := p)]; simp
  rw [forLoop_eq n _ (fun p => (∑ i ∈ Finset.range p, (n - i), R p 0 0)) (0, ⟨0, []⟩) rfl]
  · rfl
  intro p hp
  simp only [h0 p hp, Option.bind_some]
  rw [← hR2, Finset.sum_range_succ]
  refine forLoop_eq (n - p) _ (fun q => (∑ i ∈ Finset.range p, (n - i) + q, R p q 0)) _ rfl fun q hq => ?_
  simp only [h1 p hp q hq, Option.bind_some]
  rw [← hR1]
  rw [forLoop_eq (n - p - q) _ (fun r => R p q r) _ rfl]
  · rfl
  intro r hr
  have hone := one_iff3 (r := r) (fun p => n - p) (fun p q => n - p - q) hp hq rfl (by simp) (fun _ => by omega)
  simp only [hR]
  rw [h2 p hp q hq r hr, rows3_succ, ← pr_snoc _ _ _ _ (length_rows3 _ _ _ _ _ _)]
  simp only [Option.bind_some]
  by_cases h : p = 0 ∧ q = 0 ∧ r = 1
  · rw [if_pos (hone.mpr h), dTet, if_pos h]; simp [Nat.add_assoc]
  · rw [if_neg (fun h' => h (hone.mp h')), dTet, if_neg h]
    by_cases h3 : p = 0 ∧ q = 1
    · rw [if_pos h3, if_pos h3]; simp [Nat.add_assoc, dmul_assoc3]
    · rw [if_neg h3, if_neg h3]; simp [Nat.add_assoc, dmul_assoc3]

end Verif.Lemmas
