import Verif.Spec.Intersections
import Verif.Props.C25_MeshTuple
import Verif.Props.C23_HaloStencil
import Verif.Lemmas.Arr
import Verif.Lemmas.Fold
import Mathlib.Algebra.BigOperators.Group.Finset.Basic
import Mathlib.Algebra.BigOperators.Fin

/-! C33: the cells examined along the step of a particle were collected. -/

namespace Verif.Props.C33
open Verif.Model Verif.Model.MeshHierarchy Verif.Model.HaloCells Verif.Model.Claims Verif.Model.CompositeIntersection Verif.Spec Verif.Props.C23
open Verif.Props.C25 Verif.Lemmas

theorem write_nat {α : Type*} (l : List α) (i : ℕ) (v : α) (h : i < l.length) : Mem.write l (i : ℤ) v = some (l.set i v) := by
  simp [Mem.write, h]

theorem read_nat {α : Type*} (l : List α) (i : ℕ) : Mem.read l (i : ℤ) = l[i]? := Mem.read_ofNat l i

/-! ### Addresses -/

section adr
variable {N n k d k' d' : ℕ}

theorem amin_lt (hk : k < N) (hd : d < n) : indexingCellMin k N d n < n * N := by
  have := block_lt (N := N) hd hk
  unfold indexingCellMin; omega

theorem amax_lt (hk : k < N) (hd : d < n) : indexingCellMax k N d n < 2 * n * N := by
  have := block_lt (N := N) hd hk
  unfold indexingCellMax
  have e : 2 * n * N = n * N + n * N := by ring
  omega

theorem amin_inj (hk : k < N) (hk' : k' < N) (h : indexingCellMin k N d n = indexingCellMin k' N d' n) : k = k' ∧ d = d' := by
  unfold indexingCellMin at h
  have := block_inj (i := d) (j := d') hk hk' (by omega)
  exact ⟨this.2, this.1⟩

theorem amax_inj (hk : k < N) (hk' : k' < N) (h : indexingCellMax k N d n = indexingCellMax k' N d' n) : k = k' ∧ d = d' := by
  unfold indexingCellMax at h
  have := block_inj (i := d) (j := d') hk hk' (by omega)
  exact ⟨this.2, this.1⟩

theorem amin_ne_amax (hk : k < N) (hd : d < n) : indexingCellMin k N d n ≠ indexingCellMax k' N d' n := by
  have := amin_lt (N := N) hk hd
  unfold indexingCellMax
  omega

end adr

theorem reset_spec (n N : ℕ) (buf : List ℤ) (hb : buf.length = 2 * n * N) :
    ∃ buf', resetMinMaxes n N buf = some buf' ∧ buf'.length = 2 * n * N ∧
      ∀ k < N, ∀ d < n, buf'[indexingCellMin k N d n]? = some INT_MAX ∧ buf'[indexingCellMax k N d n]? = some INT_MIN := by
  unfold resetMinMaxes
  let I : ℕ → ℕ → List ℤ → Prop := fun j e b => b.length = 2 * n * N ∧ ∀ k < N, ∀ d < n, (k < j ∨ (k = j ∧ d < e)) →
    b[indexingCellMin k N d n]? = some INT_MAX ∧ b[indexingCellMax k N d n]? = some INT_MIN
  obtain ⟨b, h1, h2, h3⟩ := forLoop_inv N (fun idx buf => forLoop n (fun dimx buf =>
    (Mem.write buf (indexingCellMin idx N dimx n) INT_MAX).bind fun buf =>
      Mem.write buf (indexingCellMax idx N dimx n) INT_MIN) buf) (fun j => I j 0) buf ⟨hb, by intro k _ d _ h; omega⟩ (by
    intro j hj s hs
    refine forLoop_imp n (I j) s hs ?_ ?_
    · intro e he b ⟨hl, hv⟩
      have a1 := amin_lt hj he
      have a2 := amax_lt hj he
      have e2 : 2 * n * N = n * N + n * N := by ring
      rw [write_nat _ _ _ (by omega), Option.bind_some, write_nat _ _ _ (by rw [List.length_set]; omega)]
      refine ⟨_, rfl, by simp [hl], ?_⟩
      intro k hk d hd h
      by_cases hkd : k = j ∧ d = e
      · obtain ⟨rfl, rfl⟩ := hkd
        constructor
        · rw [List.getElem?_set_ne (amin_ne_amax hk hd).symm, List.getElem?_set_self (by omega)]
        · rw [List.getElem?_set_self (by rw [List.length_set]; omega)]
      · have := hv k hk d hd (by omega)
        rw [List.getElem?_set_ne (amin_ne_amax hk hd).symm, List.getElem?_set_ne fun h' => hkd (by have := amin_inj hj hk h'; omega),
          List.getElem?_set_ne fun h' => hkd (by have := amax_inj hj hk h'; omega), List.getElem?_set_ne (amin_ne_amax hj he)]
        exact this
    · intro b ⟨hl, hv⟩
      exact ⟨hl, fun k hk d hd h => hv k hk d hd (by omega)⟩)
  exact ⟨b, h1, h2, fun k hk d hd => h3 k hk d hd (Or.inl hk)⟩

/-! ### The atomic operations -/

def comb (v : ℤ) (o : AtomicOp) : ℤ := if o.isMin then min v o.value else max v o.value

theorem ops_spec : ∀ (ops : List AtomicOp) (buf : List ℤ), (∀ o ∈ ops, o.ix < buf.length) →
    ∃ buf', ops.foldlM applyOp buf = some buf' ∧ buf'.length = buf.length ∧
      ∀ j, buf'[j]? = buf[j]?.map fun v => (ops.filter fun o => decide (o.ix = j)).foldl comb v := by
  intro ops
  induction ops with
  | nil => intro buf _; exact ⟨buf, rfl, rfl, fun j => by simp⟩
  | cons o ops ih =>
    intro buf h
    have ho := h o (by simp)
    have hstep : applyOp buf o = some (buf.set o.ix (comb buf[o.ix] o)) := by
      unfold applyOp
      rw [read_nat, List.getElem?_eq_getElem ho, Option.bind_some, write_nat _ _ _ ho]; rfl
    obtain ⟨b, h1, h2, h3⟩ := ih (buf.set o.ix (comb buf[o.ix] o)) fun x hx => by rw [List.length_set]; exact h x (by simp [hx])
    refine ⟨b, by rw [List.foldlM_cons, hstep]; exact h1, by rw [h2, List.length_set], fun j => ?_⟩
    rw [h3]
    by_cases hj : o.ix = j
    · subst hj
      rw [List.getElem?_set_self ho, List.getElem?_eq_getElem ho]
      simp
    · rw [List.getElem?_set_ne hj]
      simp [hj]

theorem foldl_min (ops : List AtomicOp) (v : ℤ) (h : ∀ o ∈ ops, o.isMin = true) : ops.foldl comb v = ops.foldl (fun a o => min a o.value) v := by
  induction ops generalizing v with
  | nil => rfl
  | cons o ops ih =>
    rw [List.foldl_cons, List.foldl_cons, ih _ fun x hx => h x (by simp [hx])]
    simp [comb, h o (by simp)]

theorem foldl_max (ops : List AtomicOp) (v : ℤ) (h : ∀ o ∈ ops, o.isMin = false) : ops.foldl comb v = ops.foldl (fun a o => max a o.value) v := by
  induction ops generalizing v with
  | nil => rfl
  | cons o ops ih =>
    rw [List.foldl_cons, List.foldl_cons, ih _ fun x hx => h x (by simp [hx])]
    simp [comb, h o (by simp)]

variable {K : Type} {m : MH} {cart : ℕ → K → ℤ} {N : ℕ} {particles : List (Particle K)}

/-- `v` is the least of the indices, in dimension `d` and cut off below at the first cell, of the positions and previous positions of the particles in
element `k`. -/
def IsLo (cart : ℕ → K → ℤ) (particles : List (Particle K)) (k d : ℕ) (v : ℤ) : Prop :=
  (∀ q ∈ particles, q.cell = k → v ≤ max 0 (cart d (q.p d)) ∧ v ≤ max 0 (cart d (q.pp d))) ∧
    ∃ q ∈ particles, q.cell = k ∧ (v = max 0 (cart d (q.p d)) ∨ v = max 0 (cart d (q.pp d)))

/-- `v` is the greatest of the indices, cut off above at the last cell. -/
def IsHi (m : MH) (cart : ℕ → K → ℤ) (particles : List (Particle K)) (k d : ℕ) (v : ℤ) : Prop :=
  (∀ q ∈ particles, q.cell = k → min (m.dims d * m.ncf - 1) (cart d (q.p d)) ≤ v ∧ min (m.dims d * m.ncf - 1) (cart d (q.pp d)) ≤ v) ∧
    ∃ q ∈ particles, q.cell = k ∧ (v = min (m.dims d * m.ncf - 1) (cart d (q.p d)) ∨ v = min (m.dims d * m.ncf - 1) (cart d (q.pp d)))

theorem mem_setMinMax (cell : ℕ) (c : ℕ → ℤ) (o : AtomicOp) : o ∈ setMinMax m N cell c ↔ ∃ d < m.ndim,
    o = ⟨indexingCellMin cell N d m.ndim, true, max 0 (c d)⟩ ∨ o = ⟨indexingCellMax cell N d m.ndim, false, min (m.dims d * m.ncf - 1) (c d)⟩ := by
  simp [setMinMax]

theorem mem_ops (o : AtomicOp) : o ∈ particles.flatMap (particleOps m cart N) ↔ ∃ q ∈ particles, ∃ d < m.ndim,
    (o = ⟨indexingCellMin q.cell N d m.ndim, true, max 0 (cart d (q.p d))⟩ ∨ o = ⟨indexingCellMax q.cell N d m.ndim, false, min (m.dims d * m.ncf - 1) (cart d (q.p d))⟩) ∨
    (o = ⟨indexingCellMin q.cell N d m.ndim, true, max 0 (cart d (q.pp d))⟩ ∨ o = ⟨indexingCellMax q.cell N d m.ndim, false, min (m.dims d * m.ncf - 1) (cart d (q.pp d))⟩) := by
  rw [List.mem_flatMap]
  refine exists_congr fun q => and_congr Iff.rfl ?_
  rw [particleOps, List.mem_append, mem_setMinMax, mem_setMinMax]
  constructor
  · rintro (⟨d, hd, h⟩ | ⟨d, hd, h⟩)
    · exact ⟨d, hd, Or.inl h⟩
    · exact ⟨d, hd, Or.inr h⟩
  · rintro ⟨d, hd, h | h⟩
    · exact Or.inl ⟨d, hd, h⟩
    · exact Or.inr ⟨d, hd, h⟩

/-- The bounds after the particle loop, for any order of the atomic operations. -/
theorem bounds_spec (hcell : ∀ q ∈ particles, q.cell < N) (ops : List AtomicOp) (hops : ops.Perm (particles.flatMap (particleOps m cart N))) :
    ∃ buf, ((resetMinMaxes m.ndim N (List.replicate (2 * m.ndim * N) 0)).bind fun buf => ops.foldlM applyOp buf) = some buf ∧
      ∀ k < N, ∀ d < m.ndim, ∃ lo hi, bounds m.ndim N buf k d = some (lo, hi) ∧
        ((∀ q ∈ particles, q.cell ≠ k) → lo = INT_MAX ∧ hi = INT_MIN) ∧
        (∀ q ∈ particles, q.cell = k → (∀ q ∈ particles, q.cell = k → max 0 (cart d (q.p d)) ≤ INT_MAX ∧ INT_MIN ≤ min (m.dims d * m.ncf - 1) (cart d (q.p d))) →
          IsLo cart particles k d lo ∧ IsHi m cart particles k d hi) := by
  obtain ⟨b0, h1, h2, h3⟩ := reset_spec m.ndim N (List.replicate (2 * m.ndim * N) 0) (by simp)
  rw [h1, Option.bind_some]
  obtain ⟨b, h4, h5, h6⟩ := ops_spec ops b0 (by
    intro o ho
    obtain ⟨q, hq, d, hd, h⟩ := mem_ops o |>.mp (hops.mem_iff.mp ho)
    have a1 := amin_lt (hcell q hq) hd
    have a2 := amax_lt (hcell q hq) hd
    have e2 : 2 * m.ndim * N = m.ndim * N + m.ndim * N := by ring
    rcases h with (rfl | rfl) | (rfl | rfl) <;> dsimp only <;> omega)
  refine ⟨b, h4, fun k hk d hd => ?_⟩
  obtain ⟨hmin, hmax⟩ := h3 k hk d hd
  have e1 := h6 (indexingCellMin k N d m.ndim)
  have e2 := h6 (indexingCellMax k N d m.ndim)
  rw [hmin, Option.map_some, foldl_min _ _ (by
    intro o ho
    obtain ⟨ho, hix⟩ := List.mem_filter.mp ho
    have hix := of_decide_eq_true hix
    obtain ⟨q, hq, d', hd', h⟩ := mem_ops o |>.mp (hops.mem_iff.mp ho)
    rcases h with (rfl | rfl) | (rfl | rfl)
    · rfl
    · exact absurd hix.symm (amin_ne_amax hk hd)
    · rfl
    · exact absurd hix.symm (amin_ne_amax hk hd))] at e1
  rw [hmax, Option.map_some, foldl_max _ _ (by
    intro o ho
    obtain ⟨ho, hix⟩ := List.mem_filter.mp ho
    have hix := of_decide_eq_true hix
    obtain ⟨q, hq, d', hd', h⟩ := mem_ops o |>.mp (hops.mem_iff.mp ho)
    rcases h with (rfl | rfl) | (rfl | rfl)
    · exact absurd hix (amin_ne_amax (hcell q hq) hd')
    · rfl
    · exact absurd hix (amin_ne_amax (hcell q hq) hd')
    · rfl)] at e2
  set L1 := ops.filter fun o => decide (o.ix = indexingCellMin k N d m.ndim) with hL1
  set L2 := ops.filter fun o => decide (o.ix = indexingCellMax k N d m.ndim) with hL2
  have mem1 : ∀ o, o ∈ L1 ↔ ∃ q ∈ particles, q.cell = k ∧
      (o = ⟨indexingCellMin k N d m.ndim, true, max 0 (cart d (q.p d))⟩ ∨ o = ⟨indexingCellMin k N d m.ndim, true, max 0 (cart d (q.pp d))⟩) := by
    intro o
    rw [hL1, List.mem_filter, hops.mem_iff, mem_ops, decide_eq_true_iff]
    constructor
    · rintro ⟨⟨q, hq, d', hd', h⟩, hix⟩
      rcases h with (rfl | rfl) | (rfl | rfl)
      · obtain ⟨rfl, rfl⟩ := amin_inj (hcell q hq) hk hix; exact ⟨q, hq, rfl, Or.inl rfl⟩
      · exact absurd hix.symm (amin_ne_amax hk hd)
      · obtain ⟨rfl, rfl⟩ := amin_inj (hcell q hq) hk hix; exact ⟨q, hq, rfl, Or.inr rfl⟩
      · exact absurd hix.symm (amin_ne_amax hk hd)
    · rintro ⟨q, hq, rfl, rfl | rfl⟩
      · exact ⟨⟨q, hq, d, hd, Or.inl (Or.inl rfl)⟩, rfl⟩
      · exact ⟨⟨q, hq, d, hd, Or.inr (Or.inl rfl)⟩, rfl⟩
  have mem2 : ∀ o, o ∈ L2 ↔ ∃ q ∈ particles, q.cell = k ∧
      (o = ⟨indexingCellMax k N d m.ndim, false, min (m.dims d * m.ncf - 1) (cart d (q.p d))⟩ ∨
        o = ⟨indexingCellMax k N d m.ndim, false, min (m.dims d * m.ncf - 1) (cart d (q.pp d))⟩) := by
    intro o
    rw [hL2, List.mem_filter, hops.mem_iff, mem_ops, decide_eq_true_iff]
    constructor
    · rintro ⟨⟨q, hq, d', hd', h⟩, hix⟩
      rcases h with (rfl | rfl) | (rfl | rfl)
      · exact absurd hix (amin_ne_amax (hcell q hq) hd')
      · obtain ⟨rfl, rfl⟩ := amax_inj (hcell q hq) hk hix; exact ⟨q, hq, rfl, Or.inl rfl⟩
      · exact absurd hix (amin_ne_amax (hcell q hq) hd')
      · obtain ⟨rfl, rfl⟩ := amax_inj (hcell q hq) hk hix; exact ⟨q, hq, rfl, Or.inr rfl⟩
    · rintro ⟨q, hq, rfl, rfl | rfl⟩
      · exact ⟨⟨q, hq, d, hd, Or.inl (Or.inr rfl)⟩, rfl⟩
      · exact ⟨⟨q, hq, d, hd, Or.inr (Or.inr rfl)⟩, rfl⟩
  refine ⟨L1.foldl (fun a o => min a o.value) INT_MAX, L2.foldl (fun a o => max a o.value) INT_MIN, ?_, ?_, ?_⟩
  · unfold bounds
    rw [read_nat, read_nat, e1, e2]; rfl
  · intro hno
    have n1 : L1 = [] := by
      rw [List.eq_nil_iff_forall_not_mem]
      intro o ho
      obtain ⟨q, hq, hk', _⟩ := (mem1 o).mp ho
      exact hno q hq hk'
    have n2 : L2 = [] := by
      rw [List.eq_nil_iff_forall_not_mem]
      intro o ho
      obtain ⟨q, hq, hk', _⟩ := (mem2 o).mp ho
      exact hno q hq hk'
    rw [n1, n2]; exact ⟨rfl, rfl⟩
  · intro q0 hq0 hk0 hrange
    have lmin := foldl_min_le (fun o : AtomicOp => o.value) L1 INT_MAX
    have mmin := foldl_min_mem (fun o : AtomicOp => o.value) L1 INT_MAX
    have lmax := foldl_max_ge (fun o : AtomicOp => o.value) L2 INT_MIN
    have mmax := foldl_max_mem (fun o : AtomicOp => o.value) L2 INT_MIN
    have bmin : ∀ q ∈ particles, q.cell = k → L1.foldl (fun a o => min a o.value) INT_MAX ≤ max 0 (cart d (q.p d)) ∧
        L1.foldl (fun a o => min a o.value) INT_MAX ≤ max 0 (cart d (q.pp d)) := fun q hq hk' =>
      ⟨lmin.2 _ ((mem1 _).mpr ⟨q, hq, hk', Or.inl rfl⟩), lmin.2 _ ((mem1 _).mpr ⟨q, hq, hk', Or.inr rfl⟩)⟩
    have bmax : ∀ q ∈ particles, q.cell = k → min (m.dims d * m.ncf - 1) (cart d (q.p d)) ≤ L2.foldl (fun a o => max a o.value) INT_MIN ∧
        min (m.dims d * m.ncf - 1) (cart d (q.pp d)) ≤ L2.foldl (fun a o => max a o.value) INT_MIN := fun q hq hk' =>
      ⟨lmax.2 _ ((mem2 _).mpr ⟨q, hq, hk', Or.inl rfl⟩), lmax.2 _ ((mem2 _).mpr ⟨q, hq, hk', Or.inr rfl⟩)⟩
    refine ⟨⟨bmin, ?_⟩, bmax, ?_⟩
    · rcases mmin with h | ⟨o, ho, h⟩
      · have := (bmin q0 hq0 hk0).1
        exact ⟨q0, hq0, hk0, Or.inl (le_antisymm this (by rw [h]; exact (hrange q0 hq0 hk0).1))⟩
      · obtain ⟨q, hq, hk', rfl | rfl⟩ := (mem1 o).mp ho
        · exact ⟨q, hq, hk', Or.inl h⟩
        · exact ⟨q, hq, hk', Or.inr h⟩
    · rcases mmax with h | ⟨o, ho, h⟩
      · have := (bmax q0 hq0 hk0).1
        exact ⟨q0, hq0, hk0, Or.inl (le_antisymm (by rw [h]; exact (hrange q0 hq0 hk0).2) this)⟩
      · obtain ⟨q, hq, hk', rfl | rfl⟩ := (mem2 o).mp ho
        · exact ⟨q, hq, hk', Or.inl h⟩
        · exact ⟨q, hq, hk', Or.inr h⟩

/-! ### The cells of an element -/

section element
variable {buf : List ℤ} {lo hi : ℕ → ℤ} {k : ℕ}

theorem volume_spec (h : ∀ d < m.ndim, bounds m.ndim N buf k d = some (lo d, hi d)) :
    volume m.ndim N buf k = some (decide (∀ d < m.ndim, lo d ≤ hi d), ∏ d ∈ Finset.range m.ndim, (hi d - lo d + 1)) := by
  unfold volume
  refine forLoop_eq m.ndim _ (fun j => (decide (∀ d < j, lo d ≤ hi d), ∏ d ∈ Finset.range j, (hi d - lo d + 1))) _ (by simp) ?_
  intro j hj
  rw [h j hj, Option.map_some, Finset.prod_range_succ]
  congr 2
  by_cases hc : hi j < lo j
  · rw [if_pos hc]
    symm
    rw [decide_eq_false_iff_not]
    intro hall
    have := hall j (by omega)
    omega
  · rw [if_neg hc]
    rw [decide_eq_decide]
    constructor
    · intro hall d hd
      rcases Nat.lt_succ_iff_lt_or_eq.mp hd with hd | rfl
      · exact hall d hd
      · omega
    · intro hall d hd
      exact hall d (by omega)

/-- The cells of a box, x fastest. -/
def boxCells (m : MH) (lo hi : ℕ → ℤ) : List ℤ :=
  (intRange (if 2 < m.ndim then lo 2 else 0) (if 2 < m.ndim then hi 2 + 1 else 1)).flatMap fun c2 =>
  (intRange (if 1 < m.ndim then lo 1 else 0) (if 1 < m.ndim then hi 1 + 1 else 1)).flatMap fun c1 =>
  (intRange (if 0 < m.ndim then lo 0 else 0) (if 0 < m.ndim then hi 0 + 1 else 1)).map fun c0 =>
    tupleToLinearGlobal m (meshTupleToMhTuple m (tuple3 c0 c1 c2))

theorem elementCells_spec (h : ∀ d < m.ndim, bounds m.ndim N buf k d = some (lo d, hi d)) :
    elementCells m N buf k = some (if (∀ d < m.ndim, lo d ≤ hi d) then boxCells m lo hi else []) := by
  unfold elementCells
  rw [forLoop_eq m.ndim _ (fun j => (decide (∀ d < j, lo d ≤ hi d), (fun d => if d < j then lo d else 0), fun d => if d < j then hi d + 1 else 1)) _ (by simp)]
  · simp only [Option.map_some, decide_eq_true_eq]
    rfl
  · intro j hj
    rw [h j hj, Option.map_some]
    congr 2
    · by_cases hc : hi j < lo j
      · rw [if_pos hc]
        symm
        rw [decide_eq_false_iff_not]
        intro hall
        have := hall j (by omega)
        omega
      · rw [if_neg hc]
        rw [decide_eq_decide]
        constructor
        · intro hall d hd
          rcases Nat.lt_succ_iff_lt_or_eq.mp hd with hd | rfl
          · exact hall d hd
          · omega
        · intro hall d hd
          exact hall d (by omega)
    · congr 1
      · funext d
        by_cases hd : d = j
        · subst hd; simp
        · rw [Function.update_of_ne hd]
          have : d < j + 1 ↔ d < j := by omega
          simp [this]
      · funext d
        by_cases hd : d = j
        · subst hd; simp
        · rw [Function.update_of_ne hd]
          have : d < j + 1 ↔ d < j := by omega
          simp [this]

theorem length_intRange (s e : ℤ) : (intRange s e).length = (e - s).toNat := by simp [intRange]

theorem length_flatMap_const {α β : Type*} (l : List α) (f : α → List β) (n : ℕ) (h : ∀ a ∈ l, (f a).length = n) :
    (l.flatMap f).length = l.length * n := by
  induction l with
  | nil => simp
  | cons a l ih =>
    rw [List.flatMap_cons, List.length_append, h a (by simp), ih fun x hx => h x (by simp [hx]), List.length_cons]; ring

theorem length_boxCells (h0 : 0 < m.ndim) (h3 : m.ndim ≤ 3) (hv : ∀ d < m.ndim, lo d ≤ hi d) :
    ((boxCells m lo hi).length : ℤ) = ∏ d ∈ Finset.range m.ndim, (hi d - lo d + 1) := by
  unfold boxCells
  rw [length_flatMap_const _ _ _ fun a _ => length_flatMap_const _ _ _ fun b _ => List.length_map _, length_intRange, length_intRange, length_intRange]
  have v0 := hv 0 h0
  obtain h | h | h : m.ndim = 1 ∨ m.ndim = 2 ∨ m.ndim = 3 := by omega
  · rw [h]
    simp only [Finset.prod_range_succ, Finset.prod_range_zero]
    norm_num
    omega
  · have v1 := hv 1 (by omega)
    rw [h]
    simp only [Finset.prod_range_succ, Finset.prod_range_zero]
    norm_num
    rw [max_eq_left (by omega), max_eq_left (by omega)]
    ring
  · have v1 := hv 1 (by omega)
    have v2 := hv 2 (by omega)
    rw [h]
    simp only [Finset.prod_range_succ, Finset.prod_range_zero]
    norm_num
    rw [max_eq_left (by omega), max_eq_left (by omega), max_eq_left (by omega)]
    ring

theorem cellId_congr (h0 : 0 < m.ndim) {s t : ℕ → ℤ} (h : ∀ d < m.ndim, s d = t d) :
    tupleToLinearGlobal m (meshTupleToMhTuple m s) = tupleToLinearGlobal m (meshTupleToMhTuple m t) := by
  unfold tupleToLinearGlobal
  rw [linearIndex_congr h0 (s := meshTupleToMhTuple m s) (t := meshTupleToMhTuple m t), linearIndex_congr h0
    (s := fun d => meshTupleToMhTuple m s (d + m.ndim)) (t := fun d => meshTupleToMhTuple m t (d + m.ndim))]
  · intro d hd
    simp only [meshTupleToMhTuple]
    rw [if_neg (by omega), if_neg (by omega), Nat.add_sub_cancel, h d hd]
  · intro d hd
    simp only [meshTupleToMhTuple]
    rw [if_pos hd, if_pos hd, h d hd]

theorem mem_boxCells (h0 : 0 < m.ndim) (h3 : m.ndim ≤ 3) (c : ℤ) : c ∈ boxCells m lo hi ↔
    ∃ t : ℕ → ℤ, (∀ d < m.ndim, lo d ≤ t d ∧ t d ≤ hi d) ∧ c = tupleToLinearGlobal m (meshTupleToMhTuple m t) := by
  unfold boxCells
  simp only [List.mem_flatMap, List.mem_map, mem_intRange]
  constructor
  · rintro ⟨c2, h2, c1, h1, c0, h0', rfl⟩
    refine ⟨tuple3 c0 c1 c2, ?_, rfl⟩
    intro d hd
    obtain rfl | rfl | rfl : d = 0 ∨ d = 1 ∨ d = 2 := by omega
    · simp only [tuple3]; rw [if_pos hd, if_pos hd] at h0'; simp; omega
    · simp only [tuple3]; rw [if_pos hd, if_pos hd] at h1; simp; omega
    · simp only [tuple3]; rw [if_pos hd, if_pos hd] at h2; simp; omega
  · rintro ⟨t, ht, rfl⟩
    refine ⟨if 2 < m.ndim then t 2 else 0, ?_, if 1 < m.ndim then t 1 else 0, ?_, t 0, ?_, ?_⟩
    · split_ifs with h
      · have := ht 2 h; omega
      · omega
    · split_ifs with h
      · have := ht 1 h; omega
      · omega
    · have := ht 0 h0; rw [if_pos h0, if_pos h0]; omega
    · refine cellId_congr h0 fun d hd => ?_
      obtain rfl | rfl | rfl : d = 0 ∨ d = 1 ∨ d = 2 := by omega
      · rfl
      · simp [tuple3, hd]
      · simp [tuple3, hd]

end element

/-! ### The buffer of cells -/

theorem writeCells_spec (size : ℕ) (writes : List ℤ) (h : writes.length ≤ size) :
    writeCells size writes = some (writes.length, writes.map some ++ List.replicate (size - writes.length) none) := by
  unfold writeCells
  suffices hh : ∀ (l pre : List ℤ), pre.length + l.length ≤ size →
      l.foldlM (fun (s : ℕ × List (Option ℤ)) c => (Mem.write s.2 s.1 (some c)).map fun b => (s.1 + 1, b))
        (pre.length, pre.map some ++ List.replicate (size - pre.length) none) =
      some ((pre ++ l).length, (pre ++ l).map some ++ List.replicate (size - (pre ++ l).length) none) by
    simpa using hh writes [] (by simpa using h)
  intro l
  induction l with
  | nil => intro pre _; simp
  | cons c l ih =>
    intro pre hl
    rw [List.length_cons] at hl
    rw [List.foldlM_cons]
    dsimp only
    rw [write_nat _ _ _ (by simp; omega), Option.map_some]
    have e : (pre.map some ++ List.replicate (size - pre.length) none).set pre.length (some c) =
        (pre ++ [c]).map some ++ List.replicate (size - (pre ++ [c]).length) none := by
      obtain ⟨r, hr⟩ : ∃ r, size - pre.length = r + 1 := ⟨size - pre.length - 1, by omega⟩
      have hr' : size - (pre ++ [c]).length = r := by rw [List.length_append, List.length_singleton]; omega
      rw [hr, hr', List.replicate_succ, List.set_append_right _ _ (by simp)]
      simp
    rw [e]
    have := ih (pre ++ [c]) (by simp; omega)
    simp only [List.length_append, List.length_singleton] at this ⊢
    refine this.trans ?_
    simp [Nat.add_comm, Nat.add_left_comm]

theorem readCells_spec (writes : List ℤ) (rest : List (Option ℤ)) :
    readCells (writes.length, writes.map some ++ rest) = some (writes.foldl setInsert []) := by
  unfold readCells
  suffices hh : ∀ (l pre : List ℤ) (acc : List ℤ), pre ++ l = writes →
      (List.range' pre.length l.length).foldlM (fun cells cx =>
        ((Mem.read (writes.map some ++ rest) (cx : ℕ)).bind id).map fun c => setInsert cells c) acc = some (l.foldl setInsert acc) by
    have := hh writes [] [] rfl
    rw [List.length_nil, ← List.range_eq_range'] at this
    exact this
  intro l
  induction l with
  | nil => intro pre acc _; rfl
  | cons c l ih =>
    intro pre acc hw
    rw [List.length_cons, List.range'_succ, List.foldlM_cons, read_nat]
    have : (writes.map some ++ rest)[pre.length]? = some (some c) := by
      rw [← hw]; simp
    rw [this]
    have := ih (pre ++ [c]) (setInsert acc c) (by simp [hw])
    rw [List.length_append, List.length_singleton] at this
    exact this

theorem mem_foldl_setInsert (l acc : List ℤ) (x : ℤ) : x ∈ l.foldl setInsert acc ↔ x ∈ acc ∨ x ∈ l := by
  induction l generalizing acc with
  | nil => simp
  | cons a l ih => rw [List.foldl_cons, ih, mem_setInsert, List.mem_cons, or_assoc]

theorem nodup_foldl_setInsert (l acc : List ℤ) (h : acc.Nodup) : (l.foldl setInsert acc).Nodup := by
  induction l generalizing acc with
  | nil => exact h
  | cons a l ih => rw [List.foldl_cons]; exact ih _ (nodup_setInsert h a)

theorem maxVolume_spec {buf : List ℤ} {v : ℕ → Bool × ℤ} (hv : ∀ k < N, volume m.ndim N buf k = some (v k)) (order : List ℕ)
    (ho : ∀ k ∈ order, k < N) : ∃ mx, maxVolume m.ndim N buf order = some mx ∧ 0 ≤ mx ∧ ∀ k ∈ order, (v k).1 = true → (v k).2 ≤ mx := by
  unfold maxVolume
  suffices hh : ∀ (order : List ℕ) (a : ℤ), (∀ k ∈ order, k < N) → ∃ mx, order.foldlM (fun mx idx => (volume m.ndim N buf idx).map fun v =>
      if v.1 then max mx v.2 else mx) a = some mx ∧ a ≤ mx ∧ ∀ k ∈ order, (v k).1 = true → (v k).2 ≤ mx from hh order 0 ho
  intro order
  induction order with
  | nil => intro a _; exact ⟨a, rfl, le_rfl, by simp⟩
  | cons k l ih =>
    intro a hl
    rw [List.foldlM_cons, hv k (hl k (by simp)), Option.map_some]
    obtain ⟨mx, h1, h2, h3⟩ := ih (if (v k).1 then max a (v k).2 else a) fun x hx => hl x (by simp [hx])
    refine ⟨mx, h1, le_trans (by split_ifs <;> simp) h2, fun x hx hvx => ?_⟩
    rcases List.mem_cons.mp hx with rfl | hx
    · rw [if_pos hvx] at h2
      exact le_trans (le_max_right _ _) h2
    · exact h3 x hx hvx

theorem mapM_some {α β : Type*} (f : α → Option β) (g : α → β) (l : List α) (h : ∀ a ∈ l, f a = some (g a)) : l.mapM f = some (l.map g) := by
  induction l with
  | nil => rfl
  | cons a l ih =>
    rw [List.mapM_cons, h a (by simp), ih fun x hx => h x (by simp [hx])]; rfl

theorem length_flatten_le (l : List (List ℤ)) (n : ℕ) (h : ∀ x ∈ l, x.length ≤ n) : l.flatten.length ≤ l.length * n := by
  induction l with
  | nil => simp
  | cons a l ih =>
    rw [List.flatten_cons, List.length_append, List.length_cons]
    have := h a (by simp)
    have := ih fun x hx => h x (by simp [hx])
    calc a.length + l.flatten.length ≤ n + l.length * n := by omega
      _ = _ := by ring

/-- The indices of the cells fit in an `int`. -/
def FitsInt (cart : ℕ → K → ℤ) (ndim : ℕ) (particles : List (Particle K)) : Prop :=
  ∀ q ∈ particles, ∀ d < ndim, (INT_MIN ≤ cart d (q.p d) ∧ cart d (q.p d) ≤ INT_MAX)

/-- **C33**, first part: for any order of the atomic operations `find_cells` makes no access outside of its arrays and returns, each once, the cells of
the grid that are, for some element and in each dimension, between positions of the particles of the element. -/
theorem find_cells_exact (hm : Grid m) (h3 : m.ndim ≤ 3) (hcell : ∀ q ∈ particles, q.cell < N) (hfit : FitsInt cart m.ndim particles) (oldSize : ℕ)
    (result : Option (List ℤ)) (h : FindCells m cart N oldSize particles result) :
    ∃ cells, result = some cells ∧ cells.Nodup ∧ ∀ c, c ∈ cells ↔ ∃ k < N, ∃ t, InGrid m t ∧ HasLinearIndex m t c ∧
      ∀ d < m.ndim, Between cart particles k d (t d) := by
  obtain ⟨ops, order, writes, hops, horder, h⟩ := h
  obtain ⟨buf, hb, hbounds⟩ := bounds_spec hcell ops hops
  rw [hb] at h
  dsimp only at h
  choose! lo hi hbd hempty hfull using hbounds
  have hIs : ∀ k < N, ∀ d < m.ndim, (∃ q ∈ particles, q.cell = k) → IsLo cart particles k d (lo k d) ∧ IsHi m cart particles k d (hi k d) := by
    rintro k hk d hd ⟨q, hq, hqk⟩
    refine hfull k hk d hd q hq hqk fun q' hq' _ => ?_
    have := hfit q' hq' d hd
    have hp := mul_pos (hm.2.1 d hd) hm.2.2
    simp only [INT_MAX, INT_MIN] at this ⊢
    constructor
    · exact max_le (by omega) this.2
    · exact le_min (by omega) this.1
  have hvol := fun k hk => volume_spec (m := m) (N := N) (buf := buf) (k := k) (hbd k hk)
  have hel := fun k hk => elementCells_spec (m := m) (N := N) (buf := buf) (k := k) (hbd k hk)
  obtain ⟨mx, hmx, hmx0, hmxv⟩ := maxVolume_spec (m := m) (v := fun k => (decide (∀ d < m.ndim, lo k d ≤ hi k d),
    ∏ d ∈ Finset.range m.ndim, (hi k d - lo k d + 1))) hvol order fun k hk => List.mem_range.mp (horder.mem_iff.mp hk)
  have hlists := mapM_some (elementCells m N buf) (fun k => if (∀ d < m.ndim, lo k d ≤ hi k d) then boxCells m (lo k) (hi k) else [])
    (List.range N) fun k hk => hel k (List.mem_range.mp hk)
  rw [hmx, hlists] at h
  dsimp only at h
  obtain ⟨hw, hres⟩ := h
  set size := if (oldSize : ℤ) < mx * N then (mx * N).toNat else oldSize with hsize
  have hlen : writes.length ≤ size := by
    rw [hw.length_eq]
    have := length_flatten_le ((List.range N).map fun k => if (∀ d < m.ndim, lo k d ≤ hi k d) then boxCells m (lo k) (hi k) else []) mx.toNat (by
      intro l hl
      obtain ⟨k, hk, rfl⟩ := List.mem_map.mp hl
      split_ifs with hv
      · have h1 := length_boxCells hm.1 h3 hv
        have h2 := hmxv k (horder.mem_iff.mpr hk) (by simpa using hv)
        dsimp only at h2
        omega
      · simp)
    rw [List.length_map, List.length_range] at this
    refine le_trans this ?_
    have e : ((N * mx.toNat : ℕ) : ℤ) = mx * N := by
      push_cast
      rw [Int.toNat_of_nonneg hmx0]; ring
    rw [hsize]
    split_ifs with hs
    · omega
    · omega
  rw [writeCells_spec size writes hlen, Option.bind_some, readCells_spec] at hres
  refine ⟨_, hres, nodup_foldl_setInsert _ _ (by simp), fun c => ?_⟩
  rw [mem_foldl_setInsert, hw.mem_iff, List.mem_flatten]
  simp only [List.not_mem_nil, false_or, List.mem_map, List.mem_range, exists_exists_and_eq_and]
  constructor
  · rintro ⟨k, hk, hc⟩
    split_ifs at hc with hv
    · have hne : ∃ q ∈ particles, q.cell = k := by
        by_contra hno
        push Not at hno
        have := hempty k hk 0 hm.1 hno
        have hv0 := hv 0 hm.1
        rw [this.1, this.2] at hv0
        simp [INT_MAX, INT_MIN] at hv0
      obtain ⟨t, ht, rfl⟩ := (mem_boxCells hm.1 h3 c).mp hc
      have hg : InGrid m t := by
        intro d hd
        obtain ⟨⟨-, q, -, -, hq⟩, -, q', -, -, hq'⟩ := hIs k hk d hd hne
        have := ht d hd
        have := le_max_left 0 (cart d (q.p d))
        have := le_max_left 0 (cart d (q.pp d))
        have := min_le_left (m.dims d * m.ncf - 1) (cart d (q'.p d))
        have := min_le_left (m.dims d * m.ncf - 1) (cart d (q'.pp d))
        constructor
        · rcases hq with hq | hq <;> omega
        · rcases hq' with hq' | hq' <;> omega
      refine ⟨k, hk, t, hg, ((cell_index_bijective m hm).1 t hg).1, fun d hd => ?_⟩
      obtain ⟨⟨-, q, hq, hqk, e⟩, -, q', hq', hqk', e'⟩ := hIs k hk d hd hne
      have := ht d hd
      have := le_max_right 0 (cart d (q.p d))
      have := le_max_right 0 (cart d (q.pp d))
      have := min_le_right (m.dims d * m.ncf - 1) (cart d (q'.p d))
      have := min_le_right (m.dims d * m.ncf - 1) (cart d (q'.pp d))
      refine ⟨⟨q, hq, hqk, ?_⟩, q', hq', hqk', ?_⟩
      · rcases e with e | e
        · left; omega
        · right; omega
      · rcases e' with e | e
        · left; omega
        · right; omega
    · simp at hc
  · rintro ⟨k, hk, t, hg, hc, ht⟩
    refine ⟨k, hk, ?_⟩
    obtain ⟨⟨q0, hq0, hqk0, -⟩, -⟩ := ht 0 hm.1
    have e : ∀ d < m.ndim, lo k d ≤ t d ∧ t d ≤ hi k d := by
      intro d hd
      obtain ⟨⟨l1, -⟩, h1, -⟩ := hIs k hk d hd ⟨q0, hq0, hqk0⟩
      obtain ⟨⟨ql, hql, hqlk, el⟩, qh, hqh, hqhk, eh⟩ := ht d hd
      have a := l1 ql hql hqlk
      have b := h1 qh hqh hqhk
      have g := hg d hd
      constructor
      · rcases el with el | el
        · exact le_trans a.1 (max_le g.1 el)
        · exact le_trans a.2 (max_le g.1 el)
      · rcases eh with eh | eh
        · exact le_trans (le_min (by omega) eh) b.1
        · exact le_trans (le_min (by omega) eh) b.2
    have hv : ∀ d < m.ndim, lo k d ≤ hi k d := fun d hd => le_trans (e d hd).1 (e d hd).2
    rw [if_pos hv, mem_boxCells hm.1 h3]
    exact ⟨t, e, ((hasLinearIndex_iff hm hg c).mp hc).symm⟩

/-- The cells examined for a particle: for a particle whose previous position is in the grid, those with an index between the ends of the step, as far as
they are in the grid. -/
theorem examined_exact (hm : Grid m) (h3 : m.ndim ≤ 3) (q : Particle K) (hq : InGrid m fun d => cart d (q.pp d)) (c : ℤ) :
    c ∈ examined m cart q ↔ ∃ t, InGrid m t ∧ HasLinearIndex m t c ∧
      ∀ d < m.ndim, min (cart d (q.pp d)) (cart d (q.p d)) ≤ t d ∧ t d ≤ max (cart d (q.pp d)) (cart d (q.p d)) := by
  have e : examined m cart q = boxCells m (fun d => cellStarts m (fun d => cart d (q.pp d)) (fun d => cart d (q.p d)) d)
      (fun d => cellEnds m (fun d => cart d (q.pp d)) (fun d => cart d (q.p d)) d - 1) := by
    have hs : ∀ d, (if d < m.ndim then cellStarts m (fun d => cart d (q.pp d)) (fun d => cart d (q.p d)) d else 0) =
        cellStarts m (fun d => cart d (q.pp d)) (fun d => cart d (q.p d)) d := by
      intro d
      split_ifs with h
      · rfl
      · unfold cellStarts; rw [if_neg h]
    have he : ∀ d, (if d < m.ndim then cellEnds m (fun d => cart d (q.pp d)) (fun d => cart d (q.p d)) d - 1 + 1 else 1) =
        cellEnds m (fun d => cart d (q.pp d)) (fun d => cart d (q.p d)) d := by
      intro d
      split_ifs with h
      · omega
      · unfold cellEnds; rw [if_neg h]
    unfold examined boxCells
    simp only [hs, he]
  rw [e, mem_boxCells hm.1 h3]
  have key : ∀ t : ℕ → ℤ, (∀ d < m.ndim, cellStarts m (fun d => cart d (q.pp d)) (fun d => cart d (q.p d)) d ≤ t d ∧
      t d ≤ cellEnds m (fun d => cart d (q.pp d)) (fun d => cart d (q.p d)) d - 1) ↔ (InGrid m t ∧
      ∀ d < m.ndim, min (cart d (q.pp d)) (cart d (q.p d)) ≤ t d ∧ t d ≤ max (cart d (q.pp d)) (cart d (q.p d))) := by
    intro t
    have : (InGrid m t ∧ ∀ d < m.ndim, min (cart d (q.pp d)) (cart d (q.p d)) ≤ t d ∧ t d ≤ max (cart d (q.pp d)) (cart d (q.p d))) ↔
        ∀ d < m.ndim, (0 ≤ t d ∧ t d < m.dims d * m.ncf) ∧ min (cart d (q.pp d)) (cart d (q.p d)) ≤ t d ∧
          t d ≤ max (cart d (q.pp d)) (cart d (q.p d)) :=
      ⟨fun h d hd => ⟨h.1 d hd, h.2 d hd⟩, fun h => ⟨fun d hd => (h d hd).1, fun d hd => (h d hd).2⟩⟩
    rw [this]
    refine forall_congr' fun d => imp_congr_right fun hd => ?_
    obtain ⟨g0, g1⟩ := hq d hd
    dsimp only at g0 g1
    unfold cellStarts cellEnds
    rw [if_pos hd, if_pos hd]
    dsimp only
    generalize hM : m.dims d * m.ncf = M at *
    generalize cart d (q.pp d) = a at *
    generalize cart d (q.p d) = b at *
    have hmin : min a b ≤ a := min_le_left _ _
    have hmax : a ≤ max a b := le_max_left _ _
    split_ifs <;> omega
  constructor
  · rintro ⟨t, ht, rfl⟩
    obtain ⟨hg, hb⟩ := (key t).mp ht
    exact ⟨t, hg, ((cell_index_bijective m hm).1 t hg).1, hb⟩
  · rintro ⟨t, hg, hc, hb⟩
    exact ⟨t, (key t).mpr ⟨hg, hb⟩, ((hasLinearIndex_iff hm hg c).mp hc).symm⟩

/-- **C33**: each cell examined for a particle was found before by `find_cells`, for any order of the atomic operations, when its previous position is
in the grid. -/
theorem examined_collected_partial (hm : Grid m) (h3 : m.ndim ≤ 3) (hcell : ∀ q ∈ particles, q.cell < N) (hfit : FitsInt cart m.ndim particles)
    (oldSize : ℕ) (result : Option (List ℤ)) (h : FindCells m cart N oldSize particles result) (q : Particle K) (hq : q ∈ particles)
    (hgrid : InGrid m fun d => cart d (q.pp d)) :
    ∃ cells, result = some cells ∧ ∀ c ∈ examined m cart q, c ∈ cells := by
  obtain ⟨cells, h1, -, h2⟩ := find_cells_exact hm h3 hcell hfit oldSize result h
  refine ⟨cells, h1, fun c hc => ?_⟩
  obtain ⟨t, hg, hl, ht⟩ := (examined_exact hm h3 q hgrid c).mp hc
  refine (h2 c).mpr ⟨q.cell, hcell q hq, t, hg, hl, fun d hd => ?_⟩
  obtain ⟨a, b⟩ := ht d hd
  refine ⟨⟨q, hq, rfl, ?_⟩, q, hq, rfl, ?_⟩
  · rcases min_le_iff.mp a with a | a
    · exact Or.inr a
    · exact Or.inl a
  · rcases le_max_iff.mp b with b | b
    · exact Or.inr b
    · exact Or.inl b

theorem findCells_mk (oldSize : ℕ) {ops : List AtomicOp} {order : List ℕ} {writes : List ℤ} (h1 : ops.Perm (particles.flatMap (particleOps m cart N)))
    (h2 : order.Perm (List.range N)) (buf : List ℤ) (mx : ℤ) (lists : List (List ℤ)) (result : Option (List ℤ))
    (hb : ((resetMinMaxes m.ndim N (List.replicate (2 * m.ndim * N) 0)).bind fun buf => ops.foldlM applyOp buf) = some buf)
    (hmx : maxVolume m.ndim N buf order = some mx) (hl : (List.range N).mapM (elementCells m N buf) = some lists) (hw : writes.Perm lists.flatten)
    (hr : result = (writeCells (if (oldSize : ℤ) < mx * N then (mx * N).toNat else oldSize) writes).bind readCells) :
    FindCells m cart N oldSize particles result := by
  refine ⟨ops, order, writes, h1, h2, ?_⟩
  rw [hb]
  dsimp only
  rw [hmx, hl]
  exact ⟨hw, hr⟩

/-- Without it the claim is false: for a particle that stays outside of the grid all cells are examined and none was found. -/
theorem outside_not_collected :
    ∃ result, FindCells ⟨1, fun _ => 2, 1⟩ (fun _ x => x) 1 128 [⟨0, 0, fun _ => 5, fun _ => 5⟩] result ∧ result = some [] ∧
      examined ⟨1, fun _ => 2, 1⟩ (fun _ x => x) (⟨0, 0, fun _ => 5, fun _ => 5⟩ : Particle ℤ) = [0, 1] := by
  exact ⟨some [], findCells_mk (writes := []) 128 (List.Perm.refl _) (List.Perm.refl _) [5, 1] 0 [[]] _ (by decide +kernel) (by decide +kernel)
    (by decide +kernel) (by decide) (by decide +kernel), rfl, by decide +kernel⟩

/-- A case with two particles in two elements: the cells found, in one order of the operations. -/
example : ∃ result, FindCells ⟨1, fun _ => 4, 2⟩ (fun _ x => x) 2 128 [⟨0, 1, fun _ => 9, fun _ => 5⟩, ⟨1, 0, fun _ => 2, fun _ => 1⟩] result ∧
    result = some [1, 2, 5, 6, 7] ∧
    examined ⟨1, fun _ => 4, 2⟩ (fun _ x => x) (⟨0, 1, fun _ => 9, fun _ => 5⟩ : Particle ℤ) = [5, 6, 7] := by
  exact ⟨some [1, 2, 5, 6, 7], findCells_mk (writes := [1, 2, 5, 6, 7]) 128 (List.Perm.refl _) (List.Perm.refl _) [1, 5, 2, 7] 3 [[1, 2], [5, 6, 7]] _
    (by decide +kernel) (by decide +kernel) (by decide +kernel) (by decide) (by decide +kernel), rfl, by decide +kernel⟩

/-- Each grid cell that contains a point of the step is examined. -/
theorem step_examined [Field K] [LinearOrder K] [IsStrictOrderedRing K] {g : MHGeom K} (hm : GridGeom g) (hcart : CartOk g cart) (q : Particle K)
    (hq : InGrid g.toMH fun d => cart d (q.pp d)) (s : K) (hs0 : 0 ≤ s) (hs1 : s ≤ 1)
    (hx : ∀ d < g.ndim, g.origin d ≤ q.pp d + s * (q.p d - q.pp d) ∧
      q.pp d + s * (q.p d - q.pp d) ≤ g.origin d + ((g.dims d * g.ncf : ℤ) : K) * g.width) :
    ∃ t c, InGrid g.toMH t ∧ HasLinearIndex g.toMH t c ∧ c ∈ examined g.toMH cart q ∧
      ∀ d < g.ndim, g.origin d + (t d : K) * g.width ≤ q.pp d + s * (q.p d - q.pp d) ∧
        q.pp d + s * (q.p d - q.pp d) ≤ g.origin d + ((t d : K) + 1) * g.width := by
  set x : ℕ → K := fun d => q.pp d + s * (q.p d - q.pp d) with hxdef
  have hw := hm.2.2.1
  have hbetween : ∀ d, min (q.pp d) (q.p d) ≤ x d ∧ x d ≤ max (q.pp d) (q.p d) := by
    intro d
    rw [hxdef]
    dsimp only
    rcases le_total (q.pp d) (q.p d) with h | h
    · rw [min_eq_left h, max_eq_right h]; constructor <;> nlinarith
    · rw [min_eq_right h, max_eq_left h]; constructor <;> nlinarith
  have hcb : ∀ d, min (cart d (q.pp d)) (cart d (q.p d)) ≤ cart d (x d) ∧ cart d (x d) ≤ max (cart d (q.pp d)) (cart d (q.p d)) := by
    intro d
    obtain ⟨a, b⟩ := hbetween d
    constructor
    · rcases min_le_iff.mp a with a | a
      · exact le_trans (min_le_left _ _) (hcart.mono d _ _ a)
      · exact le_trans (min_le_right _ _) (hcart.mono d _ _ a)
    · rcases le_max_iff.mp b with b | b
      · exact le_trans (hcart.mono d _ _ b) (le_max_left _ _)
      · exact le_trans (hcart.mono d _ _ b) (le_max_right _ _)
  have key : ∀ d < g.ndim, ∃ t : ℤ, (0 ≤ t ∧ t < g.dims d * g.ncf) ∧ (min (cart d (q.pp d)) (cart d (q.p d)) ≤ t ∧
      t ≤ max (cart d (q.pp d)) (cart d (q.p d))) ∧ (g.origin d + (t : K) * g.width ≤ x d ∧ x d ≤ g.origin d + ((t : K) + 1) * g.width) := by
    intro d hd
    obtain ⟨h0, h1⟩ := hx d hd
    obtain ⟨g0, g1⟩ := hq d hd
    have hM := mul_pos (hm.1.2.1 d hd) hm.1.2.2
    rcases lt_or_eq_of_le h1 with h1 | h1
    · obtain ⟨c0, c1⟩ := hcart.cell d hd (x d) h0 h1
      refine ⟨cart d (x d), ⟨?_, ?_⟩, hcb d, c0, c1.le⟩
      · by_contra hn
        push Not at hn
        have : ((cart d (x d) : ℤ) : K) + 1 ≤ 0 := by exact_mod_cast hn
        nlinarith
      · by_contra hn
        push Not at hn
        have : ((g.dims d * g.ncf : ℤ) : K) ≤ (cart d (x d) : K) := by exact_mod_cast hn
        nlinarith
    · -- the end of the grid
      have hy0 : g.origin d ≤ g.origin d + ((g.dims d * g.ncf - 1 : ℤ) : K) * g.width := by
        have : (0 : K) ≤ ((g.dims d * g.ncf - 1 : ℤ) : K) := by exact_mod_cast (by omega : (0 : ℤ) ≤ g.dims d * g.ncf - 1)
        nlinarith
      have hy1 : g.origin d + ((g.dims d * g.ncf - 1 : ℤ) : K) * g.width < g.origin d + ((g.dims d * g.ncf : ℤ) : K) * g.width := by
        push_cast; nlinarith
      obtain ⟨c0, c1⟩ := hcart.cell d hd _ hy0 hy1
      have hy : cart d (g.origin d + ((g.dims d * g.ncf - 1 : ℤ) : K) * g.width) = g.dims d * g.ncf - 1 := by
        have a : (cart d (g.origin d + ((g.dims d * g.ncf - 1 : ℤ) : K) * g.width) : K) ≤ ((g.dims d * g.ncf - 1 : ℤ) : K) :=
          le_of_mul_le_mul_right (by linarith) hw
        have b : ((g.dims d * g.ncf - 1 : ℤ) : K) < (cart d (g.origin d + ((g.dims d * g.ncf - 1 : ℤ) : K) * g.width) : K) + 1 :=
          lt_of_mul_lt_mul_right (by linarith) hw.le
        have a' : cart d (g.origin d + ((g.dims d * g.ncf - 1 : ℤ) : K) * g.width) ≤ g.dims d * g.ncf - 1 := by exact_mod_cast a
        have b' : g.dims d * g.ncf - 1 < cart d (g.origin d + ((g.dims d * g.ncf - 1 : ℤ) : K) * g.width) + 1 := by exact_mod_cast b
        omega
      have hmono : g.dims d * g.ncf - 1 ≤ cart d (x d) := by
        rw [← hy]
        exact hcart.mono d _ _ (by rw [show x d = _ from h1]; exact hy1.le)
      have hc := hcb d
      refine ⟨g.dims d * g.ncf - 1, ⟨by omega, by omega⟩, ⟨?_, by omega⟩, ?_, ?_⟩
      · exact le_trans (min_le_left _ _) (Int.le_sub_one_of_lt g1)
      · rw [show x d = _ from h1]; exact hy1.le
      · rw [show x d = _ from h1]; push_cast; linarith
  choose! t ht using key
  have hg : InGrid g.toMH t := fun d hd => (ht d hd).1
  refine ⟨t, _, hg, ((cell_index_bijective g.toMH hm.1).1 t hg).1, ?_, fun d hd => (ht d hd).2.2⟩
  rw [examined_exact hm.1 hm.2.1 q hq]
  exact ⟨t, hg, ((cell_index_bijective g.toMH hm.1).1 t hg).1, fun d hd => (ht d hd).2.1⟩

end Verif.Props.C33
