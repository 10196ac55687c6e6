import Verif.Lemmas.BaryField
import Verif.Props.C15_Bary
import Verif.Props.C16_BaryBlock
import Verif.Props.C07_Collapsed
import Mathlib.Tactic.IntervalCases

/-! C80: evaluating functions given at the quadrature points, and derivatives of a field, at all particles of a mesh. -/

namespace Verif.Props.C80
open Verif.Spec Verif.Model Verif.Model.BasisReference Verif.Model.BaryField Verif.Model.CellId Verif.Model.Bary Verif.Model.JacobiCoeff
  Verif.Spec.BaryField Verif.Lemmas.BaryField Verif.Props.C13 Verif.Model.ExpansionLooping

variable {K : Type*} [Field K] [LinearOrder K] [IsStrictOrderedRing K]

/-! ### The constructor -/

/-- **C80, nodes.** The constructor succeeds if expansions of the same shape with the same numbers of nodes have the same nodes and weights; then each cell has the
nodes and weights of its own expansion. -/
theorem constructor_exact (exps : List (QExpansion K)) (ndim P : ℕ) (h : FieldOk exps ndim P) (hsame : SameNodes exps) (cells : List (QExpansion K))
    (hc : ∀ e ∈ cells, e ∈ exps) : ∃ s, State.build exps ndim (cells.map (·.gid)) = some s ∧
      ∀ (c : ℕ) (e : QExpansion K), cells[c]? = some e → s.cells[c]? = some ((⟨e.shape, e.base.map (fun b => b.1.length), e.base.map (·.1), e.base.map (·.2)⟩ : CellInfo K), e.physOffset) := by
  obtain ⟨s, hs⟩ := build_some exps ndim P h hsame cells hc
  exact ⟨s, hs, fun c e he => cell_of_same exps hsame cells hc s (build_inv exps ndim P h cells hc s hs) c e he⟩

/-- **C80, the lengths.** Whatever the expansions are: if the constructor succeeds, each expansion that a cell uses has all directions and as many weights as nodes in each of them. -/
theorem constructor_lengths (exps : List (QExpansion K)) (ndim : ℕ) (gids : List ℤ) (s : State K) (hs : State.build exps ndim gids = some s) :
    ∀ gid ∈ gids, ∃ e ∈ exps, ndim ≤ e.base.length ∧ ∀ b ∈ e.base.take ndim, b.1.length = b.2.length := by
  unfold State.build at hs
  split_ifs at hs
  generalize State.init = s0 at hs
  induction gids generalizing s0 with
  | nil => simp
  | cons g l ih =>
    rw [List.foldlM_cons] at hs
    cases h1 : State.addCell exps (geomToExp (exps.map (·.gid))) ndim s0 g with
    | none => rw [h1] at hs; simp at hs
    | some s1 =>
      rw [h1] at hs
      have ih' := ih s1 hs
      intro gid hg
      rcases List.mem_cons.1 hg with rfl | hg
      · unfold State.addCell at h1
        rw [Option.bind_eq_some_iff] at h1
        obtain ⟨e, he, h2⟩ := h1
        refine ⟨e, List.mem_of_getElem? he, ?_⟩
        by_cases h3 : e.base.length < ndim
        · simp [h3] at h2
        rw [if_neg h3] at h2
        by_cases h4 : ((e.base.take ndim).all fun b => b.1.length == b.2.length) = true
        swap
        · simp only [h4] at h2
          simp at h2
        refine ⟨by omega, fun b hb => ?_⟩
        have := List.all_eq_true.1 h4 b hb
        simpa using this
      · exact ih' gid hg

/-- **C80, the check of the constructor.** Whatever the nodes are: if the constructor succeeds, each cell uses the nodes and weights of a cell of the same shape with the
same numbers of nodes, and each of them is within the tolerance of the one of its own expansion. -/
theorem constructor_checks (exps : List (QExpansion K)) (ndim P : ℕ) (h : FieldOk exps ndim P) (cells : List (QExpansion K))
    (hc : ∀ e ∈ cells, e ∈ exps) (s : State K) (hs : State.build exps ndim (cells.map (·.gid)) = some s) :
    s.cells.length = cells.length ∧ ∀ (c : ℕ) (e : QExpansion K), cells[c]? = some e → ∃ e' ∈ cells, e'.shape = e.shape ∧
      e'.base.map (fun b => b.1.length) = e.base.map (fun b => b.1.length) ∧
      s.cells[c]? = some ((⟨e'.shape, e'.base.map (fun b => b.1.length), e'.base.map (·.1), e'.base.map (·.2)⟩ : CellInfo K), e.physOffset) ∧
      ∀ (d : ℕ) (b b' : List K × List K), e.base[d]? = some b → e'.base[d]? = some b' →
        (∀ (i : ℕ) (x y : K), b.1[i]? = some x → b'.1[i]? = some y → |x - y| < 1 / 10 ^ 10 * max 1 |x|) ∧
        (∀ (i : ℕ) (x y : K), b.2[i]? = some x → b'.2[i]? = some y → |x - y| < 1 / 10 ^ 10 * max 1 |x|) := by
  have hi := build_inv exps ndim P h cells hc s hs
  have hlen := hi.cells.length_eq
  refine ⟨hlen.symm, fun c e he => ?_⟩
  obtain ⟨hc1, rfl⟩ := List.getElem?_eq_some_iff.1 he
  obtain ⟨h3, e', h4, h5, h6, h7, h8, h9⟩ := (List.forall₂_iff_get.1 hi.cells).2 c hc1 (by omega)
  simp only [List.get_eq_getElem] at h3 h5 h6 h7 h8 h9
  refine ⟨e', h4, h5, h6, ?_, ?_⟩
  · rw [List.getElem?_eq_getElem (by omega)]
    congr 1
    exact Prod.ext h7 h3
  · have hr := h.rule _ (hc _ (List.getElem_mem hc1))
    have hr' := h.rule _ (hc _ h4)
    -- the lists of coefficients agree direction by direction
    have key : ∀ (l l' : List (List K × List K)), (∀ b ∈ l, b.1.length = b.2.length) → (∀ b ∈ l', b.1.length = b.2.length) →
        l.map (fun b => b.1.length) = l'.map (fun b => b.1.length) →
        (∀ x ∈ (coeffList l).zip (coeffList l'), relErr x.1 x.2 < 1 / 10 ^ 10) →
        ∀ (d : ℕ) (b b' : List K × List K), l[d]? = some b → l'[d]? = some b' →
          (∀ (i : ℕ) (x y : K), b.1[i]? = some x → b'.1[i]? = some y → relErr x y < 1 / 10 ^ 10) ∧
          (∀ (i : ℕ) (x y : K), b.2[i]? = some x → b'.2[i]? = some y → relErr x y < 1 / 10 ^ 10) := by
      intro l
      induction l with
      | nil => intro l' _ _ _ _ d b b' hb; simp at hb
      | cons a l ih =>
        intro l' ha ha' hm hz d b b' hb hb'
        cases l' with
        | nil => simp at hb'
        | cons a' l' =>
          rw [List.map_cons, List.map_cons, List.cons.injEq] at hm
          have e1 := ha a (by simp)
          have e2 := ha' a' (by simp)
          have hz' : ∀ x ∈ (a.1.zip a'.1) ++ ((a.2.zip a'.2) ++ (coeffList l).zip (coeffList l')), relErr x.1 x.2 < 1 / 10 ^ 10 := by
            intro x hx
            apply hz x
            unfold coeffList
            rw [List.flatMap_cons, List.flatMap_cons, List.append_assoc, List.append_assoc, List.zip_append hm.1,
              List.zip_append (by omega)]
            exact hx
          cases d with
          | zero =>
            simp only [List.getElem?_cons_zero, Option.some.injEq] at hb hb'
            subst hb hb'
            refine ⟨fun i x y hx hy => hz' (x, y) ?_, fun i x y hx hy => hz' (x, y) ?_⟩
            · refine List.mem_append_left _ (List.mem_of_getElem? (i := i) ?_)
              rw [List.getElem?_zip_eq_some]; exact ⟨hx, hy⟩
            · refine List.mem_append_right _ (List.mem_append_left _ (List.mem_of_getElem? (i := i) ?_))
              rw [List.getElem?_zip_eq_some]; exact ⟨hx, hy⟩
          | succ d =>
            simp only [List.getElem?_cons_succ] at hb hb'
            exact ih l' (fun b hb => ha b (List.mem_cons_of_mem _ hb)) (fun b hb => ha' b (List.mem_cons_of_mem _ hb)) hm.2
              (fun x hx => hz' x (List.mem_append_right _ (List.mem_append_right _ hx))) d b b' hb hb'
    intro d b b' hb hb'
    obtain ⟨k1, k2⟩ := key cells[c].base e'.base (fun b hb => (hr b hb).1) (fun b hb => (hr' b hb).1) h6.symm h9 d b b' hb hb'
    exact ⟨fun i x y hx hy => (relErr_lt_iff x y).1 (k1 i x y hx hy), fun i x y hx hy => (relErr_lt_iff x y).1 (k2 i x y hx hy)⟩

/-! ### The values on the device -/

omit [LinearOrder K] [IsStrictOrderedRing K] in
theorem flatMap_range_getElem? {α : Type*} (m n : ℕ) (g : ℕ → ℕ → α) (k f : ℕ) (hk : k < m) (hf : f < n) :
    ((List.range m).flatMap fun k => (List.range n).map fun f => g k f)[k * n + f]? = some (g k f) := by
  induction m generalizing k g with
  | zero => omega
  | succ m ih =>
    rw [List.range_succ_eq_map, List.flatMap_cons, List.flatMap_map]
    cases k with
    | zero => rw [List.getElem?_append_left (by simpa using hf)]; simp [hf]
    | succ k =>
      rw [List.getElem?_append_right (by simp; nlinarith)]
      have : (k + 1) * n + f - ((List.range n).map fun f => g 0 f).length = k * n + f := by
        rw [List.length_map, List.length_range, Nat.succ_mul]; omega
      rw [this]
      exact ih (fun k f => g (k + 1) f) k (by omega)

theorem flatten_getD {α : Type*} (P : ℕ) (d : α) (vals : List (List α)) (h : ∀ v ∈ vals, v.length = P) (f k : ℕ) (hf : f < vals.length) (hk : k < P) :
    vals.flatten.getD (f * P + k) d = (vals.getD f []).getD k d := by
  induction vals generalizing f with
  | nil => simp at hf
  | cons v vs ih =>
    have hv := h v (by simp)
    rw [List.flatten_cons]
    cases f with
    | zero => simp only [Nat.zero_mul, Nat.zero_add, List.getD_cons_zero]; rw [List.getD_append _ _ _ _ (by omega)]
    | succ f =>
      rw [List.getD_append_right _ _ _ _ (by rw [hv]; nlinarith), List.getD_cons_succ,
        ← ih (fun v hv => h v (List.mem_cons_of_mem _ hv)) f (by simpa using hf), hv]
      congr 1
      rw [Nat.succ_mul]; omega

omit [LinearOrder K] [IsStrictOrderedRing K] in
/-- The values of function `f` at point `k` are at `k * nf + f`. -/
theorem interlaced_spec (P : ℕ) (vals : List (List K)) (hne : vals ≠ []) (h : ∀ v ∈ vals, v.length = P) :
    ∃ pv, interlaced vals = some pv ∧ pv.length = vals.length * P ∧
      ∀ f < vals.length, ∀ k < P, pv[k * vals.length + f]? = (vals.getD f [])[k]? := by
  obtain ⟨v, vs, rfl⟩ := List.exists_cons_of_ne_nil hne
  have hv := h v (by simp)
  unfold interlaced
  dsimp only
  rw [if_pos (by
    rw [List.all_eq_true]; intro w hw; simp [h w hw, hv])]
  by_cases h1 : (v :: vs).length > 1
  · rw [if_pos h1]
    refine ⟨_, rfl, ?_, fun f hf k hk => ?_⟩
    · rw [List.length_flatMap, hv]
      simp [Nat.mul_comm]
    · rw [hv, flatMap_range_getElem? P (v :: vs).length _ k f hk hf, flatten_getD P 0 (v :: vs) h f k hf hk]
      have hl : ((v :: vs).getD f []).length = P := by
        rw [List.getD_eq_getElem (v :: vs) _ hf]; exact h _ (List.getElem_mem _)
      rw [List.getElem?_eq_getElem (by omega), List.getD_eq_getElem ((v :: vs).getD f []) _ (by omega)]
  · rw [if_neg h1]
    have : vs = [] := by
      cases vs with
      | nil => rfl
      | cons a b => simp at h1
    subst this
    refine ⟨_, rfl, by simp [hv], fun f hf k hk => ?_⟩
    have : f = 0 := by simpa using hf
    subst this
    simp

/-! ### One particle -/

/-- The values `out` are those of the functions `vals` at the point `eta` of the element of `e`. -/
def Values (e : QExpansion K) (vals : List (List K)) (eta : K × K × K) (out : List K) : Prop :=
  out.length = vals.length ∧ ∀ f < vals.length, IsValueAt e (vals.getD f []) eta (out.getD f 0)

theorem code2_injective : Function.Injective code2 := by
  intro a b h; cases a <;> cases b <;> first | rfl | (simp [code2] at h)

theorem code3_injective : Function.Injective code3 := by
  intro a b h; cases a <;> cases b <;> first | rfl | (simp [code3] at h)

theorem collapse2 (tol : K) (sh : Shape) (h : FieldCoupling.dimOf sh = 2) (x0 x1 x2 : K) :
    CoordMap.dispatchTo2 code2 tol (shapeCode sh) x0 x1 = ((collapse tol sh x0 x1 x2).1, (collapse tol sh x0 x1 x2).2.1) := by
  have d := (Verif.Props.C07.dispatch_selects_shape tol code3 code3_injective code2 code2_injective).2
  cases sh <;> simp [FieldCoupling.dimOf] at h
  · exact (d .tri x0 x1).1
  · exact (d .quad x0 x1).1

theorem collapse3 (tol : K) (sh : Shape) (h : FieldCoupling.dimOf sh = 3) (x0 x1 x2 : K) :
    CoordMap.dispatchTo3 code3 tol (shapeCode sh) x0 x1 x2 = collapse tol sh x0 x1 x2 := by
  have d := (Verif.Props.C07.dispatch_selects_shape tol code3 code3_injective code2 code2_injective).1
  cases sh <;> simp [FieldCoupling.dimOf] at h
  · exact (d .hex x0 x1 x2).1
  · exact (d .prism x0 x1 x2).1
  · exact (d .pyr x0 x1 x2).1
  · exact (d .tet x0 x1 x2).1

omit [LinearOrder K] [IsStrictOrderedRing K] in
theorem component_block (P nf off count : ℕ) (pv : List K) (vals : List (List K)) (hlen : vals.length = nf) (hv : ∀ v ∈ vals, v.length = P)
    (h : ∀ f < nf, ∀ k < P, pv[k * nf + f]? = (vals.getD f [])[k]?) (hb : off + count ≤ P) (f : ℕ) (hf : f < nf) :
    IsComponent nf f count (pv.drop (off * nf)) (((vals.getD f []).drop off).take count) := by
  have hl : (vals.getD f []).length = P := by
    rw [List.getD_eq_getElem vals _ (by omega)]; exact hv _ (List.getElem_mem _)
  refine ⟨by rw [List.length_take, List.length_drop, hl]; omega, fun k hk => ?_⟩
  rw [List.getElem?_take_of_lt hk, List.getElem?_drop, List.getElem?_drop, ← h f hf (off + k) (by omega)]
  congr 1
  ring

omit [LinearOrder K] [IsStrictOrderedRing K] in
theorem drop_length (P nf off count : ℕ) (pv : List K) (hpl : pv.length = nf * P) (hb : off + count ≤ P) : nf * count ≤ (pv.drop (off * nf)).length := by
  rw [List.length_drop, hpl]
  have : nf * (off + count) ≤ nf * P := Nat.mul_le_mul_left _ hb
  rw [Nat.mul_add, Nat.mul_comm nf off] at this
  omega

theorem values_of (nf : ℕ) (outs : List (Dbl K)) (hl : outs.length = nf) (Q : ℕ → K → Prop) (h : ∀ f < nf, ∃ v, outs[f]? = some (some v) ∧ Q f v) :
    ∃ out : List K, outs = out.map some ∧ out.length = nf ∧ ∀ f < nf, Q f (out.getD f 0) := by
  refine ⟨outs.map fun o => o.getD 0, ?_, by simpa using hl, fun f hf => ?_⟩
  · refine List.ext_getElem (by simp) fun i h1 h2 => ?_
    obtain ⟨v, hv, -⟩ := h i (by omega)
    rw [List.getElem?_eq_getElem h1, Option.some.injEq] at hv
    simp [hv]
  · obtain ⟨v, hv, hq⟩ := h f hf
    have : (outs.map fun o => o.getD 0).getD f 0 = v := by
      rw [List.getD_eq_getElem?_getD, List.getElem?_map, hv]; rfl
    rw [this]; exact hq

/-- The kernel of `dispatch_2d` gives the values at the particle. -/
theorem item2d_spec (tol : K) (exps : List (QExpansion K)) (P : ℕ) (h : FieldOk exps 2 P) (e : QExpansion K) (he : e ∈ exps) (s : State K)
    (c : ℕ) (hcell : s.cells[c]? = some (infoOf e, e.physOffset)) (hmax : ∀ n ∈ sizes e, n ≤ s.maxPhys) (vals : List (List K)) (hv : ∀ v ∈ vals, v.length = P)
    (pv : List K) (hpl : pv.length = vals.length * P)
    (hpv : ∀ f < vals.length, ∀ k < P, pv[k * vals.length + f]? = (vals.getD f [])[k]?) (ref : Positions K) (l : ℕ) (xi : List K)
    (hx : (ref c)[l]? = some xi) (hxl : 2 ≤ xi.length) (stride lid : ℕ) (hlid : lid < stride) (content : ℕ → Dbl K) (x2 : K) :
    ∃ out : List K, item2d tol s vals.length pv ref stride lid content c l = some (out.map some) ∧
      Values e vals (collapse tol e.shape (xi.getD 0 0) (xi.getD 1 0) x2) out := by
  have hb := h.base e he
  obtain ⟨⟨z0, bw0⟩, ⟨z1, bw1⟩, hbase⟩ : ∃ b0 b1, e.base = [b0, b1] := by
    match hbb : e.base, hb with
    | [b0, b1], _ => exact ⟨b0, b1, rfl⟩
  obtain ⟨l0, r0⟩ := h.rule e he (z0, bw0) (by simp [hbase])
  obtain ⟨l1, r1⟩ := h.rule e he (z1, bw1) (by simp [hbase])
  dsimp only at l0 l1 r0 r1
  have hn : numPoints e = z0.length * z1.length := by simp [numPoints, hbase]
  have hblk := h.block e he
  rw [hn] at hblk
  have m0 := hmax z0.length (by simp [sizes, hbase])
  have m1 := hmax z1.length (by simp [sizes, hbase])
  match xi, hxl with
  | x0 :: x1 :: rest, _ =>
    unfold item2d
    rw [hcell, Option.bind_some, hx, Option.bind_some]
    simp only [List.getElem?_cons_zero, List.getElem?_cons_succ, Option.bind_some, List.getD_cons_zero, List.getD_cons_succ, infoOf, sizes, hbase,
      List.map_cons, List.map_nil]
    rw [collapse2 tol e.shape (h.dim e he) x0 x1 x2]
    set eta := collapse tol e.shape x0 x1 x2
    obtain ⟨outs, ho1, ho2, ho3⟩ := Verif.Props.C16.dispatch_2d_equals_scalar eta.1 eta.2.1 vals.length s.maxPhys z0.length z1.length
      (pv.drop (e.physOffset * vals.length)) (localMemory (2 * s.maxPhys + vals.length) stride lid content) ⟨z0.length + z1.length, fun _ => none⟩ z0 z1 bw0 bw1
      stride (by omega) le_rfl l0.le r0.distinct le_rfl l1.le r1.distinct m0 m1 (by
        rw [localMemory]; dsimp only
        rw [show vals.length + 2 * s.maxPhys = 2 * s.maxPhys + vals.length by omega]
        omega) le_rfl (drop_length P _ _ _ pv hpl hblk)
    obtain ⟨out, hout, hlo, hval⟩ := values_of vals.length outs ho2 (fun f v => IsValueAt e (vals.getD f []) eta v) (by
      intro f hf
      have hcomp := component_block P vals.length e.physOffset (z0.length * z1.length) pv vals rfl hv hpv hblk f hf
      obtain ⟨a, ha1, ha2, -⟩ := Verif.Props.C15.evaluate_2d_is_interpolant z0.length z1.length z0 z1 bw0 bw1 _ 1 ⟨z0.length + z1.length, fun _ => none⟩
        r0 r1 (by omega) (by dsimp only; omega) hcomp.1
      refine ⟨poly2 z0.length z1.length a eta.1 eta.2.1, ?_, ?_⟩
      · rw [← ho3 f hf _ hcomp]; exact ha2 _ _
      · unfold IsValueAt; rw [hbase]; dsimp only
        rw [hn]; exact ⟨a, ha1, rfl⟩)
    exact ⟨out, by rw [ho1, hout], hlo, hval⟩

/-- The kernel of `dispatch_3d` gives the values at the particle. -/
theorem item3d_spec (tol : K) (exps : List (QExpansion K)) (P : ℕ) (h : FieldOk exps 3 P) (e : QExpansion K) (he : e ∈ exps) (s : State K)
    (c : ℕ) (hcell : s.cells[c]? = some (infoOf e, e.physOffset)) (hmax : ∀ n ∈ sizes e, n ≤ s.maxPhys) (vals : List (List K)) (hv : ∀ v ∈ vals, v.length = P)
    (pv : List K) (hpl : pv.length = vals.length * P)
    (hpv : ∀ f < vals.length, ∀ k < P, pv[k * vals.length + f]? = (vals.getD f [])[k]?) (ref : Positions K) (l : ℕ) (xi : List K)
    (hx : (ref c)[l]? = some xi) (hxl : 3 ≤ xi.length) (stride lid : ℕ) (hlid : lid < stride) (content : ℕ → Dbl K) :
    ∃ out : List K, item3d tol s vals.length pv ref stride lid content c l = some (out.map some) ∧
      Values e vals (collapse tol e.shape (xi.getD 0 0) (xi.getD 1 0) (xi.getD 2 0)) out := by
  have hb := h.base e he
  obtain ⟨⟨z0, bw0⟩, ⟨z1, bw1⟩, ⟨z2, bw2⟩, hbase⟩ : ∃ b0 b1 b2, e.base = [b0, b1, b2] := by
    match hbb : e.base, hb with
    | [b0, b1, b2], _ => exact ⟨b0, b1, b2, rfl⟩
  obtain ⟨l0, r0⟩ := h.rule e he (z0, bw0) (by simp [hbase])
  obtain ⟨l1, r1⟩ := h.rule e he (z1, bw1) (by simp [hbase])
  obtain ⟨l2, r2⟩ := h.rule e he (z2, bw2) (by simp [hbase])
  dsimp only at l0 l1 l2 r0 r1 r2
  have hn : numPoints e = z0.length * z1.length * z2.length := by simp [numPoints, hbase]; ring
  have hblk := h.block e he
  rw [hn] at hblk
  have m0 := hmax z0.length (by simp [sizes, hbase])
  have m1 := hmax z1.length (by simp [sizes, hbase])
  have m2 := hmax z2.length (by simp [sizes, hbase])
  match xi, hxl with
  | x0 :: x1 :: x2 :: rest, _ =>
    unfold item3d
    rw [hcell, Option.bind_some, hx, Option.bind_some]
    simp only [List.getElem?_cons_zero, List.getElem?_cons_succ, Option.bind_some, List.getD_cons_zero, List.getD_cons_succ, infoOf, sizes, hbase,
      List.map_cons, List.map_nil]
    rw [collapse3 tol e.shape (h.dim e he) x0 x1 x2]
    set eta := collapse tol e.shape x0 x1 x2
    obtain ⟨outs, ho1, ho2, ho3⟩ := Verif.Props.C16.dispatch_3d_equals_scalar eta.1 eta.2.1 eta.2.2 vals.length s.maxPhys z0.length z1.length z2.length
      (pv.drop (e.physOffset * vals.length)) (localMemory (3 * s.maxPhys + vals.length) stride lid content)
      ⟨z0.length + z1.length + z2.length, fun _ => none⟩ z0 z1 z2 bw0 bw1 bw2
      stride (by omega) le_rfl l0.le r0.distinct le_rfl l1.le r1.distinct le_rfl l2.le r2.distinct m0 m1 m2 (by
        rw [localMemory]; dsimp only
        rw [show vals.length + 3 * s.maxPhys = 3 * s.maxPhys + vals.length by omega]
        omega) le_rfl (drop_length P _ _ _ pv hpl hblk)
    obtain ⟨out, hout, hlo, hval⟩ := values_of vals.length outs ho2 (fun f v => IsValueAt e (vals.getD f []) eta v) (by
      intro f hf
      have hcomp := component_block P vals.length e.physOffset (z0.length * z1.length * z2.length) pv vals rfl hv hpv hblk f hf
      obtain ⟨a, ha1, ha2, -⟩ := Verif.Props.C15.evaluate_3d_is_interpolant z0.length z1.length z2.length z0 z1 z2 bw0 bw1 bw2 _ 1
        ⟨z0.length + z1.length + z2.length, fun _ => none⟩ r0 r1 r2 (by omega) (by dsimp only; omega) hcomp.1
      refine ⟨poly3 z0.length z1.length z2.length a eta.1 eta.2.1 eta.2.2, ?_, ?_⟩
      · rw [← ho3 f hf _ hcomp]; exact ha2 _ _ _
      · unfold IsValueAt; rw [hbase]; dsimp only
        rw [hn]; exact ⟨a, ha1, rfl⟩)
    exact ⟨out, by rw [ho1, hout], hlo, hval⟩

/-- The kernel of `dispatch_3d_cpu` gives the values at each particle of the block. -/
theorem itemBlock_spec (tol : K) (N : ℕ) (exps : List (QExpansion K)) (P : ℕ) (h : FieldOk exps 3 P) (e : QExpansion K) (he : e ∈ exps)
    (s : State K) (c : ℕ) (hcell : s.cells[c]? = some (infoOf e, e.physOffset)) (hmax : ∀ n ∈ sizes e, n ≤ s.maxPhys) (vals : List (List K))
    (hv : ∀ v ∈ vals, v.length = P) (pv : List K) (hpl : pv.length = vals.length * P)
    (hpv : ∀ f < vals.length, ∀ k < P, pv[k * vals.length + f]? = (vals.getD f [])[k]?) (ref : Positions K)
    (hx : ∀ xi ∈ ref c, 3 ≤ xi.length) (garbage : ℕ → K × K × K) (content : ℕ → Dbl K) (block : ℕ) :
    ∃ outs : ℕ → List K, itemBlock tol N s vals.length pv ref garbage content c block =
        some ((List.range (localBound N (ref c).length block)).map fun b => (block * N + b, (outs b).map some)) ∧
      ∀ b < localBound N (ref c).length block, Values e vals (collapse tol e.shape (((ref c).getD (block * N + b) []).getD 0 0)
        (((ref c).getD (block * N + b) []).getD 1 0) (((ref c).getD (block * N + b) []).getD 2 0)) (outs b) := by
  have hb := h.base e he
  obtain ⟨⟨z0, bw0⟩, ⟨z1, bw1⟩, ⟨z2, bw2⟩, hbase⟩ : ∃ b0 b1 b2, e.base = [b0, b1, b2] := by
    match hbb : e.base, hb with
    | [b0, b1, b2], _ => exact ⟨b0, b1, b2, rfl⟩
  obtain ⟨l0, r0⟩ := h.rule e he (z0, bw0) (by simp [hbase])
  obtain ⟨l1, r1⟩ := h.rule e he (z1, bw1) (by simp [hbase])
  obtain ⟨l2, r2⟩ := h.rule e he (z2, bw2) (by simp [hbase])
  dsimp only at l0 l1 l2 r0 r1 r2
  have hn : numPoints e = z0.length * z1.length * z2.length := by simp [numPoints, hbase]; ring
  have hblk := h.block e he
  rw [hn] at hblk
  have m0 := hmax z0.length (by simp [sizes, hbase])
  have m1 := hmax z1.length (by simp [sizes, hbase])
  have m2 := hmax z2.length (by simp [sizes, hbase])
  set bound := localBound N (ref c).length block with hbound
  let pos : ℕ → K × K × K := fun b => if b < bound then (((ref c).getD (block * N + b) []).getD 0 0,
    ((ref c).getD (block * N + b) []).getD 1 0, ((ref c).getD (block * N + b) []).getD 2 0) else garbage b
  have hpos : (List.range N).mapM (fun b => if b < bound then ((ref c)[block * N + b]?).bind fun xi =>
      (xi[0]?).bind fun xi0 => (xi[1]?).bind fun xi1 => (xi[2]?).map fun xi2 => (xi0, xi1, xi2)
      else some (garbage b)) = some ((List.range N).map pos) := by
    refine Verif.Props.C16.mapM_range_some N _ _ fun b hbN => ?_
    by_cases hbb : b < bound
    · rw [if_pos hbb]
      have hlt : block * N + b < (ref c).length := by
        rw [hbound, localBound] at hbb; omega
      have hlen := hx _ (List.getElem_mem hlt)
      simp only [pos, if_pos hbb]
      rw [List.getElem?_eq_getElem hlt, Option.bind_some, List.getD_eq_getElem (ref c) _ hlt]
      match hxi : (ref c)[block * N + b], hlen with
      | a :: b :: d :: rest, _ => rfl
    · rw [if_neg hbb]; simp only [pos, if_neg hbb]
  let eta : ℕ → K × K × K := fun b => collapse tol e.shape (pos b).1 (pos b).2.1 (pos b).2.2
  have hEta : ((List.range N).map pos).map (fun x => CoordMap.dispatchTo3 code3 tol (shapeCode e.shape) x.1 x.2.1 x.2.2) = (List.range N).map eta := by
    rw [List.map_map]
    refine List.map_congr_left fun b _ => ?_
    exact collapse3 tol e.shape (h.dim e he) _ _ _
  obtain ⟨o, ho1, hsz, ho2⟩ := Verif.Props.C16.block_evaluation_equals_scalar N vals.length z0.length z1.length z2.length
    (((List.range N).map eta).map (·.1)) (((List.range N).map eta).map (·.2.1)) (((List.range N).map eta).map (·.2.2))
    (pv.drop (e.physOffset * vals.length))
    ⟨N * s.maxPhys, fun i => content (N * vals.length + i)⟩ ⟨N * s.maxPhys, fun i => content (N * vals.length + N * s.maxPhys + i)⟩
    ⟨N * s.maxPhys, fun i => content (N * vals.length + N * s.maxPhys + N * s.maxPhys + i)⟩
    ⟨z0.length + z1.length + z2.length, fun _ => none⟩ ⟨N * vals.length, content⟩ z0 z1 z2 bw0 bw1 bw2 (by simp) (by simp) (by simp)
    le_rfl l0.le r0.distinct le_rfl l1.le r1.distinct le_rfl l2.le r2.distinct
    (by dsimp only; rw [Nat.mul_comm]; exact Nat.mul_le_mul_left _ m0)
    (by dsimp only; rw [Nat.mul_comm]; exact Nat.mul_le_mul_left _ m1)
    (by dsimp only; rw [Nat.mul_comm]; exact Nat.mul_le_mul_left _ m2)
    (by dsimp only; rw [Nat.mul_comm]) le_rfl (drop_length P _ _ _ pv hpl hblk)
  dsimp only at hsz
  have hlane : ∀ b < N, ∀ f < vals.length, ∃ v, o.val (f * N + b) = some v ∧ IsValueAt e (vals.getD f []) (eta b) v := by
    intro b hbN f hf
    have hcomp := component_block P vals.length e.physOffset (z0.length * z1.length * z2.length) pv vals rfl hv hpv hblk f hf
    obtain ⟨a, ha1, ha2, -⟩ := Verif.Props.C15.evaluate_3d_is_interpolant z0.length z1.length z2.length z0 z1 z2 bw0 bw1 bw2 _ 1
      ⟨z0.length + z1.length + z2.length, fun _ => none⟩ r0 r1 r2 (by omega) (by dsimp only; omega) hcomp.1
    refine ⟨poly3 z0.length z1.length z2.length a (eta b).1 (eta b).2.1 (eta b).2.2, ?_, ?_⟩
    · have := ho2 f hf b hbN _ hcomp
      rw [ha2] at this
      have g : ∀ (p : K × K × K → K), (((List.range N).map eta).map p).getD b 0 = p (eta b) := by
        intro p
        rw [List.getD_eq_getElem _ _ (by simpa using hbN)]; simp
      rw [g, g, g] at this
      exact (Option.some.inj this).symm
    · unfold IsValueAt; rw [hbase]; dsimp only
      rw [hn]; exact ⟨a, ha1, rfl⟩
  refine ⟨fun b => (List.range vals.length).map fun f => (o.val (f * N + b)).getD 0, ?_, ?_⟩
  · unfold itemBlock
    rw [hcell, Option.bind_some]
    dsimp only
    rw [← hbound, hpos, Option.bind_some]
    simp only [infoOf, sizes, hbase, List.map_cons, List.map_nil, List.getElem?_cons_zero, List.getElem?_cons_succ, Option.bind_some]
    rw [hEta, ho1, Option.bind_some]
    refine Verif.Props.C16.mapM_range_some bound _ _ fun b hbb => ?_
    have hbN : b < N := by rw [hbound, localBound] at hbb; omega
    have : (List.range vals.length).mapM (fun f => o.read (f * N + b)) = some ((List.range vals.length).map fun f => o.val (f * N + b)) := by
      refine Verif.Props.C16.mapM_range_some _ _ _ fun f hf => ?_
      unfold Arr.read
      rw [if_pos]
      rw [hsz]
      calc f * N + b < f * N + N := by omega
        _ = (f + 1) * N := by ring
        _ ≤ vals.length * N := Nat.mul_le_mul_right _ hf
        _ = _ := Nat.mul_comm _ _
    rw [this, Option.map_some, List.map_map]
    congr 2
    refine List.map_congr_left fun f hf => ?_
    obtain ⟨v, hv1, -⟩ := hlane b hbN f (List.mem_range.1 hf)
    simp [hv1]
  · intro b hbb
    have hbN : b < N := by rw [hbound, localBound] at hbb; omega
    refine ⟨by simp, fun f hf => ?_⟩
    obtain ⟨v, hv1, hv2⟩ := hlane b hbN f hf
    have : ((List.range vals.length).map fun f => (o.val (f * N + b)).getD 0).getD f 0 = v := by
      rw [List.getD_eq_getElem _ _ (by simpa using hf)]; simp [hv1]
    rw [this]
    simpa only [eta, pos, if_pos hbb] using hv2

/-! ### All particles -/

/-- The reference position of a particle. -/
def position (ref : Positions K) (c l d : ℕ) : K := ((ref c).getD l []).getD d 0

/-- The collapsed coordinates that the code computes for a particle: those of C07, with the tolerance at the collapsed end. -/
def etaOf (tol : K) (e : QExpansion K) (ref : Positions K) (c l : ℕ) : K × K × K :=
  collapse tol e.shape (position ref c l 0) (position ref c l 1) (position ref c l 2)

/-- The visited particles have the coordinates of the mesh; without a GPU and for a whole particle group in three dimensions all particles are visited. -/
structure ParticlesOk (ncells ndim : ℕ) (ref : Positions K) (layers : ℕ → List ℕ) (gpu isSub : Bool) : Prop where
  pos : ∀ c < ncells, ∀ l ∈ layers c, ∃ xi, (ref c)[l]? = some xi ∧ ndim ≤ xi.length
  all : gpu = false → isSub = false → ∀ c < ncells, ∀ l, l ∈ layers c ↔ l < (ref c).length

/-- The store is the value of a function at a visited particle. -/
def Good (tol : K) (cells : List (QExpansion K)) (vals : List (List K)) (ref : Positions K) (layers : ℕ → List ℕ) (targets : Targets) (x : Store K) : Prop :=
  ∃ e, cells[x.cell]? = some e ∧ x.layer ∈ layers x.cell ∧ ∃ f, targets[f]? = some (x.sym, x.comp) ∧ ∃ v, x.value = some v ∧
    IsValueAt e (vals.getD f []) (etaOf tol e ref x.cell x.layer) v

omit [LinearOrder K] [IsStrictOrderedRing K] in
theorem mapM_exists {α β : Type*} (L : List α) (f : α → Option β) (Q : α → β → Prop) (h : ∀ a ∈ L, ∃ b, f a = some b ∧ Q a b) :
    ∃ bs, L.mapM f = some bs ∧ List.Forall₂ Q L bs := by
  induction L with
  | nil => exact ⟨[], rfl, .nil⟩
  | cons a L ih =>
    obtain ⟨b, h1, h2⟩ := h a (by simp)
    obtain ⟨bs, h3, h4⟩ := ih fun x hx => h x (List.mem_cons_of_mem _ hx)
    exact ⟨b :: bs, by rw [List.mapM_cons, h1, h3]; rfl, .cons h2 h4⟩

theorem forall₂_right {α β : Type*} {Q : α → β → Prop} {L : List α} {bs : List β} (h : List.Forall₂ Q L bs) : ∀ b ∈ bs, ∃ a ∈ L, Q a b := by
  induction h with
  | nil => simp
  | cons h1 _ ih =>
    intro b hb
    rw [List.mem_cons] at hb
    rcases hb with rfl | hb
    · exact ⟨_, by simp, h1⟩
    · obtain ⟨a, h2, h3⟩ := ih b hb
      exact ⟨a, List.mem_cons_of_mem _ h2, h3⟩

theorem forall₂_left {α β : Type*} {Q : α → β → Prop} {L : List α} {bs : List β} (h : List.Forall₂ Q L bs) : ∀ a ∈ L, ∃ b ∈ bs, Q a b := by
  induction h with
  | nil => simp
  | cons h1 _ ih =>
    intro a ha
    rw [List.mem_cons] at ha
    rcases ha with rfl | ha
    · exact ⟨_, by simp, h1⟩
    · obtain ⟨b, h2, h3⟩ := ih a ha
      exact ⟨b, List.mem_cons_of_mem _ h2, h3⟩

/-- The stores of one particle. -/
theorem stores_spec (tol : K) (cells : List (QExpansion K)) (vals : List (List K)) (ref : Positions K) (layers : ℕ → List ℕ) (ncomp : String → Option ℕ)
    (targets : Targets) (hlen : vals.length = targets.length) (hcomp : ∀ t ∈ targets, ∃ n, ncomp t.1 = some n ∧ t.2 < n)
    (c l : ℕ) (e : QExpansion K) (he : cells[c]? = some e) (hl : l ∈ layers c) (out : List K) (ho : Values e vals (etaOf tol e ref c l) out) :
    ∃ xs, stores ncomp targets c l (out.map some) = some xs ∧ (∀ x ∈ xs, Good tol cells vals ref layers targets x) ∧
      ∀ (f : ℕ) (t : String × ℕ), targets[f]? = some t → ∃ x ∈ xs, x.cell = c ∧ x.layer = l ∧ x.sym = t.1 ∧ x.comp = t.2 := by
  have hol : out.length = targets.length := by rw [ho.1, hlen]
  obtain ⟨xs, hx1, hx2⟩ := mapM_exists (targets.zip (out.map some))
    (fun x => (ncomp x.1.1).bind fun n => if x.1.2 < n then some (⟨x.1.1, c, l, x.1.2, x.2⟩ : Store K) else none)
    (fun x y => y = ⟨x.1.1, c, l, x.1.2, x.2⟩) (by
      intro x hx
      obtain ⟨n, h1, h2⟩ := hcomp x.1 (List.of_mem_zip hx).1
      exact ⟨_, by rw [h1, Option.bind_some, if_pos h2], rfl⟩)
  refine ⟨xs, hx1, fun x hx => ?_, fun f t ht => ?_⟩
  · obtain ⟨a, ha, rfl⟩ := forall₂_right hx2 x hx
    obtain ⟨f, hf⟩ := List.getElem?_of_mem ha
    rw [List.getElem?_zip_eq_some] at hf
    obtain ⟨hf1, hf2⟩ := hf
    have hflt : f < targets.length := (List.getElem?_eq_some_iff.1 hf1).1
    refine ⟨e, he, hl, f, hf1, out.getD f 0, ?_, ho.2 f (by omega)⟩
    rw [List.getElem?_map, List.getElem?_eq_getElem (by omega), Option.map_some, Option.some.injEq] at hf2
    rw [List.getD_eq_getElem out _ (by omega)]
    exact hf2.symm
  · have hflt : f < targets.length := (List.getElem?_eq_some_iff.1 ht).1
    have hmem : (t, some (out.getD f 0)) ∈ targets.zip (out.map some) := by
      refine List.mem_of_getElem? (i := f) ?_
      rw [List.getElem?_zip_eq_some]
      refine ⟨ht, ?_⟩
      rw [List.getElem?_map, List.getElem?_eq_getElem (by omega), List.getD_eq_getElem out _ (by omega)]
      rfl
    obtain ⟨y, hy, rfl⟩ := forall₂_left hx2 _ hmem
    exact ⟨_, hy, rfl, rfl, rfl, rfl⟩

/-- Every kernel succeeds; all stores are values of the functions at visited particles, and each function is stored for each visited particle. -/
theorem allStores_spec (tol : K) (N : ℕ) (hN : 0 < N) (exps : List (QExpansion K)) (ndim P : ℕ) (h : FieldOk exps ndim P) (hsame : SameNodes exps)
    (hnd : ndim = 2 ∨ ndim = 3)
    (cells : List (QExpansion K)) (hc : ∀ e ∈ cells, e ∈ exps) (s : State K) (hs : State.build exps ndim (cells.map (·.gid)) = some s)
    (gpu isSub : Bool) (ncomp : String → Option ℕ) (targets : Targets) (hcomp : ∀ t ∈ targets, ∃ n, ncomp t.1 = some n ∧ t.2 < n)
    (vals : List (List K)) (hv : ∀ v ∈ vals, v.length = P) (hlen : vals.length = targets.length)
    (pv : List K) (hpl : pv.length = vals.length * P)
    (hpv : ∀ f < vals.length, ∀ k < P, pv[k * vals.length + f]? = (vals.getD f [])[k]?) (ref : Positions K) (layers : ℕ → List ℕ)
    (hp : ParticlesOk cells.length ndim ref layers gpu isSub) (launch : Launch K) (hlaunch : ∀ c l, launch.lid c l < launch.stride) :
    ∃ items, allStores tol N s ndim gpu isSub ncomp targets pv ref cells.length layers launch = some items ∧
      (∀ x ∈ items.flatten, Good tol cells vals ref layers targets x) ∧
      ∀ c < cells.length, ∀ l ∈ layers c, ∀ (f : ℕ) (t : String × ℕ), targets[f]? = some t →
        ∃ x ∈ items.flatten, x.cell = c ∧ x.layer = l ∧ x.sym = t.1 ∧ x.comp = t.2 := by
  have hi := build_inv exps ndim P h cells hc s hs
  have hcell := cell_of_same exps hsame cells hc s hi
  have hpoint : ∀ (item : ℕ → ℕ → Option (List (Dbl K))), (∀ c < cells.length, ∀ l ∈ layers c, ∀ e, cells[c]? = some e →
        ∃ out : List K, item c l = some (out.map some) ∧ Values e vals (etaOf tol e ref c l) out) →
      ∃ items, ((List.range cells.length).flatMap fun c => (layers c).map fun l => (c, l)).mapM
          (fun w => (item w.1 w.2).bind (stores ncomp targets w.1 w.2)) = some items ∧
        (∀ x ∈ items.flatten, Good tol cells vals ref layers targets x) ∧
        ∀ c < cells.length, ∀ l ∈ layers c, ∀ (f : ℕ) (t : String × ℕ), targets[f]? = some t →
          ∃ x ∈ items.flatten, x.cell = c ∧ x.layer = l ∧ x.sym = t.1 ∧ x.comp = t.2 := by
    intro item hitem
    obtain ⟨items, h1, h2⟩ := mapM_exists ((List.range cells.length).flatMap fun c => (layers c).map fun l => (c, l))
      (fun w => (item w.1 w.2).bind (stores ncomp targets w.1 w.2))
      (fun w xs => (∀ x ∈ xs, Good tol cells vals ref layers targets x) ∧
        ∀ (f : ℕ) (t : String × ℕ), targets[f]? = some t → ∃ x ∈ xs, x.cell = w.1 ∧ x.layer = w.2 ∧ x.sym = t.1 ∧ x.comp = t.2) (by
        intro w hw
        simp only [List.mem_flatMap, List.mem_range, List.mem_map] at hw
        obtain ⟨c, hcl, l, hl, rfl⟩ := hw
        obtain ⟨out, ho1, ho2⟩ := hitem c hcl l hl _ (List.getElem?_eq_getElem hcl)
        obtain ⟨xs, hx1, hx2, hx3⟩ := stores_spec tol cells vals ref layers ncomp targets hlen hcomp c l _ (List.getElem?_eq_getElem hcl) hl out ho2
        exact ⟨xs, by rw [ho1, Option.bind_some]; exact hx1, hx2, hx3⟩)
    refine ⟨items, h1, fun x hx => ?_, fun c hcl l hl f t ht => ?_⟩
    · obtain ⟨xs, hxs, hxx⟩ := List.mem_flatten.1 hx
      obtain ⟨w, -, hw⟩ := forall₂_right h2 xs hxs
      exact hw.1 x hxx
    · obtain ⟨xs, hxs, hw⟩ := forall₂_left h2 (c, l) (by simp only [List.mem_flatMap, List.mem_range, List.mem_map]; exact ⟨c, hcl, l, hl, rfl⟩)
      obtain ⟨x, hx1, hx2⟩ := hw.2 f t ht
      exact ⟨x, List.mem_flatten.2 ⟨xs, hxs, hx1⟩, hx2⟩
  have hgetD : ∀ c l xi, (ref c)[l]? = some xi → (ref c).getD l [] = xi := by
    intro c l xi hxi; rw [List.getD_eq_getElem?_getD, hxi]; rfl
  unfold allStores
  dsimp only
  rcases hnd with rfl | rfl
  · rw [if_pos rfl, ← hlen]
    refine hpoint (fun c l => item2d tol s vals.length pv ref launch.stride (launch.lid c l) (launch.content c l) c l) fun c hcl l hl e he => ?_
    obtain ⟨xi, hx1, hx2⟩ := hp.pos c hcl l hl
    have hem := List.mem_of_getElem? he
    obtain ⟨out, ho1, ho2⟩ := item2d_spec tol exps P h e (hc e hem) s c (hcell c e he) (hi.max e hem) vals hv pv hpl hpv ref l xi hx1 hx2 launch.stride
      (launch.lid c l) (hlaunch c l) (launch.content c l) (position ref c l 2)
    refine ⟨out, ho1, ?_⟩
    rw [etaOf, position, position, hgetD c l xi hx1]
    exact ho2
  · rw [if_neg (by omega)]
    by_cases hg : (gpu || isSub) = true
    · rw [if_pos hg, ← hlen]
      refine hpoint (fun c l => item3d tol s vals.length pv ref launch.stride (launch.lid c l) (launch.content c l) c l) fun c hcl l hl e he => ?_
      obtain ⟨xi, hx1, hx2⟩ := hp.pos c hcl l hl
      have hem := List.mem_of_getElem? he
      obtain ⟨out, ho1, ho2⟩ := item3d_spec tol exps P h e (hc e hem) s c (hcell c e he) (hi.max e hem) vals hv pv hpl hpv ref l xi hx1 hx2 launch.stride
        (launch.lid c l) (hlaunch c l) (launch.content c l)
      refine ⟨out, ho1, ?_⟩
      rw [etaOf, position, position, position, hgetD c l xi hx1]
      exact ho2
    · rw [if_neg hg]
      have hgf : gpu = false ∧ isSub = false := by revert hg; cases gpu <;> cases isSub <;> simp
      have hall := hp.all hgf.1 hgf.2
      obtain ⟨items, h1, h2⟩ := mapM_exists
        ((List.range cells.length).flatMap fun c => (List.range (numBlocks N (ref c).length)).map fun b => (c, b))
        (fun w => (itemBlock tol N s targets.length pv ref (launch.garbage w.1 w.2) (launch.content w.1 w.2) w.1 w.2).bind fun vs =>
          (vs.mapM fun x => stores ncomp targets w.1 x.1 x.2).map List.flatten)
        (fun w xs => (∀ x ∈ xs, Good tol cells vals ref layers targets x) ∧
          ∀ b < localBound N (ref w.1).length w.2, ∀ (f : ℕ) (t : String × ℕ), targets[f]? = some t →
            ∃ x ∈ xs, x.cell = w.1 ∧ x.layer = w.2 * N + b ∧ x.sym = t.1 ∧ x.comp = t.2) (by
          intro w hw
          simp only [List.mem_flatMap, List.mem_range, List.mem_map] at hw
          obtain ⟨c, hcl, block, hblock, rfl⟩ := hw
          have he : cells[c]? = some cells[c] := List.getElem?_eq_getElem hcl
          have hem : cells[c] ∈ cells := List.getElem_mem hcl
          obtain ⟨outs, ho1, ho2⟩ := itemBlock_spec tol N exps P h cells[c] (hc _ hem) s c (hcell c _ he) (hi.max _ hem) vals hv pv hpl hpv ref (by
            intro xi hxi
            obtain ⟨l, hl, rfl⟩ := List.mem_iff_getElem.1 hxi
            obtain ⟨xi', h3, h4⟩ := hp.pos c hcl l ((hall c hcl l).2 hl)
            rw [List.getElem?_eq_getElem hl, Option.some.injEq] at h3
            rw [h3]; exact h4) (launch.garbage c block) (launch.content c block) block
          obtain ⟨xss, g1, g2⟩ := mapM_exists ((List.range (localBound N (ref c).length block)).map fun b => (block * N + b, (outs b).map some))
            (fun x => stores ncomp targets c x.1 x.2)
            (fun w xs => (∀ x ∈ xs, Good tol cells vals ref layers targets x) ∧
              ∀ (f : ℕ) (t : String × ℕ), targets[f]? = some t → ∃ x ∈ xs, x.cell = c ∧ x.layer = w.1 ∧ x.sym = t.1 ∧ x.comp = t.2) (by
              intro w hw
              simp only [List.mem_map, List.mem_range] at hw
              obtain ⟨b, hb, rfl⟩ := hw
              have hlt : block * N + b < (ref c).length := by rw [localBound] at hb; omega
              exact stores_spec tol cells vals ref layers ncomp targets hlen hcomp c (block * N + b) _ he ((hall c hcl _).2 hlt) (outs b) (ho2 b hb))
          refine ⟨xss.flatten, ?_, fun x hx => ?_, fun b hb f t ht => ?_⟩
          · dsimp only
            rw [← hlen, ho1, Option.bind_some, g1, Option.map_some]
          · obtain ⟨xs, hxs, hxx⟩ := List.mem_flatten.1 hx
            obtain ⟨w, -, hw⟩ := forall₂_right g2 xs hxs
            exact hw.1 x hxx
          · obtain ⟨xs, hxs, hw⟩ := forall₂_left g2 (block * N + b, (outs b).map some) (by
              simp only [List.mem_map, List.mem_range]; exact ⟨b, hb, rfl⟩)
            obtain ⟨x, hx1, hx2⟩ := hw.2 f t ht
            exact ⟨x, List.mem_flatten.2 ⟨xs, hxs, hx1⟩, hx2⟩)
      refine ⟨items, h1, fun x hx => ?_, fun c hcl l hl f t ht => ?_⟩
      · obtain ⟨xs, hxs, hxx⟩ := List.mem_flatten.1 hx
        obtain ⟨w, -, hw⟩ := forall₂_right h2 xs hxs
        exact hw.1 x hxx
      · have hlt := (hall c hcl l).1 hl
        have hdm := Nat.div_add_mod l N
        have hmod := Nat.mod_lt l hN
        have hblk : l / N < numBlocks N (ref c).length := by
          unfold numBlocks
          rw [Nat.div_lt_iff_lt_mul hN]
          have h3 : (ref c).length + N - 1 < ((ref c).length + N - 1) / N * N + N := by
            have := Nat.div_add_mod ((ref c).length + N - 1) N
            have := Nat.mod_lt ((ref c).length + N - 1) hN
            rw [Nat.mul_comm N] at *
            omega
          omega
        obtain ⟨xs, hxs, hw⟩ := forall₂_left h2 (c, l / N) (by
          simp only [List.mem_flatMap, List.mem_range, List.mem_map]; exact ⟨c, hcl, l / N, hblk, rfl⟩)
        obtain ⟨x, hx1, hx2, hx3, hx4⟩ := hw.2 (l % N) (by
          unfold localBound
          dsimp only
          rw [Nat.mul_comm] at hdm
          omega) f t ht
        refine ⟨x, List.mem_flatten.2 ⟨xs, hxs, hx1⟩, hx2, ?_, hx4⟩
        rw [hx3, Nat.mul_comm]; exact hdm

omit [LinearOrder K] [IsStrictOrderedRing K] in
theorem store_at (d : Dats K) (x : Store K) (sym : String) (c l comp : ℕ) :
    d.store x sym c l comp = if sym = x.sym ∧ c = x.cell ∧ l = x.layer ∧ comp = x.comp then x.value else d sym c l comp := by
  unfold Dats.store FieldCoupling.Dat.store
  by_cases h : sym = x.sym
  · simp only [h, if_true, true_and]
  · simp only [h, if_false, false_and]

/-- An address holds a value stored there, or the value from before if nothing was stored there. -/
theorem foldl_store (L : List (Store K)) (d : Dats K) (sym : String) (c l comp : ℕ) :
    (∃ x ∈ L, (sym = x.sym ∧ c = x.cell ∧ l = x.layer ∧ comp = x.comp) ∧ L.foldl Dats.store d sym c l comp = x.value) ∨
    ((∀ x ∈ L, ¬ (sym = x.sym ∧ c = x.cell ∧ l = x.layer ∧ comp = x.comp)) ∧ L.foldl Dats.store d sym c l comp = d sym c l comp) := by
  induction L generalizing d with
  | nil => exact .inr ⟨by simp, rfl⟩
  | cons y L ih =>
    rw [List.foldl_cons]
    rcases ih (d.store y) with ⟨x, h1, h2, h3⟩ | ⟨h1, h2⟩
    · exact .inl ⟨x, List.mem_cons_of_mem _ h1, h2, h3⟩
    · rw [store_at] at h2
      by_cases h : sym = y.sym ∧ c = y.cell ∧ l = y.layer ∧ comp = y.comp
      · rw [if_pos h] at h2
        exact .inl ⟨y, by simp, h, h2⟩
      · rw [if_neg h] at h2
        refine .inr ⟨?_, h2⟩
        intro x hx
        rw [List.mem_cons] at hx
        rcases hx with rfl | hx
        · exact h
        · exact h1 x hx

/-- **C80, all functions.** For every mesh of two or three dimensions, with any mixture of shapes and numbers of nodes, all positions, selections of particles, functions given at the quadrature points and
targets, on every device and for every schedule and content of uninitialised memory: the evaluation succeeds without access outside of its buffers, and afterwards component
`comp f` of the dat `sym f` of each selected particle is the value of function `f` at the particle; everything else is unchanged. -/
theorem evaluation_stores_values (tol : K) (N : ℕ) (hN : 0 < N) (exps : List (QExpansion K)) (ndim P : ℕ) (h : FieldOk exps ndim P) (hsame : SameNodes exps)
    (hnd : ndim = 2 ∨ ndim = 3) (cells : List (QExpansion K)) (hc : ∀ e ∈ cells, e ∈ exps) (gpu isSub : Bool) (ncomp : String → Option ℕ)
    (syms : List String) (components : List ℕ) (vals : List (List K)) (hne : vals ≠ []) (hv : ∀ v ∈ vals, v.length = P)
    (hl1 : syms.length = vals.length) (hl2 : components.length = vals.length)
    (hcomp : ∀ t ∈ syms.zip components, ∃ n, ncomp t.1 = some n ∧ t.2 < n) (hdist : (syms.zip components).Nodup)
    (ref : Positions K) (layers : ℕ → List ℕ)
    (hp : ParticlesOk cells.length ndim ref layers gpu isSub) (launch : Launch K) (hlaunch : ∀ c l, launch.lid c l < launch.stride) (before : Dats K) :
    ∃ s, State.build exps ndim (cells.map (·.gid)) = some s ∧
      (∃ after, EvaluatesTo tol N s ndim gpu isSub ncomp syms components vals ref cells.length layers launch before after) ∧
      ∀ after, EvaluatesTo tol N s ndim gpu isSub ncomp syms components vals ref cells.length layers launch before after →
        (∀ (c : ℕ) (e : QExpansion K), cells[c]? = some e → ∀ l ∈ layers c, ∀ (f : ℕ) (sym : String) (comp : ℕ) (v : List K), syms[f]? = some sym → components[f]? = some comp → vals[f]? = some v →
          ∃ value, IsValueAt e v (etaOf tol e ref c l) value ∧ after sym c l comp = some value) ∧
        ∀ sym c l comp, ¬ (c < cells.length ∧ l ∈ layers c ∧ (sym, comp) ∈ syms.zip components) → after sym c l comp = before sym c l comp := by
  obtain ⟨s, hs⟩ := build_some exps ndim P h hsame cells hc
  obtain ⟨pv, hpv1, hpl, hpv⟩ := interlaced_spec P vals hne hv
  have hlen : vals.length = (syms.zip components).length := by rw [List.length_zip]; omega
  obtain ⟨items, h1, h2, h3⟩ := allStores_spec tol N hN exps ndim P h hsame hnd cells hc s hs gpu isSub ncomp (syms.zip components) hcomp vals hv hlen pv hpl hpv
    ref layers hp launch hlaunch
  refine ⟨s, hs, ⟨_, hnd, by omega, by omega, pv, items, items, hpv1, h1, .refl _, rfl⟩, ?_⟩
  rintro after ⟨-, -, -, pv', items', sched, hq1, hq2, hperm, rfl⟩
  rw [hpv1] at hq1; cases hq1
  rw [h1] at hq2; cases hq2
  have hmem : ∀ x, x ∈ sched.flatten ↔ x ∈ items.flatten := fun x => by
    simp only [List.mem_flatten]
    exact ⟨fun ⟨a, b, c⟩ => ⟨a, hperm.subset b, c⟩, fun ⟨a, b, c⟩ => ⟨a, hperm.symm.subset b, c⟩⟩
  constructor
  · intro c e he l hl f sym comp v hsym hcompf hvf
    have hcl := (List.getElem?_eq_some_iff.1 he).1
    have ht : (syms.zip components)[f]? = some (sym, comp) := List.getElem?_zip_eq_some.2 ⟨hsym, hcompf⟩
    obtain ⟨x0, hx0, hx1, hx2, hx3, hx4⟩ := h3 c hcl l hl f _ ht
    rcases foldl_store sched.flatten before sym c l comp with ⟨x, g1, g2, g3⟩ | ⟨g1, -⟩
    · obtain ⟨e', he', -, f', hf', value, hval, hat⟩ := h2 x ((hmem x).1 g1)
      obtain ⟨rfl, rfl, rfl, rfl⟩ := g2
      rw [he] at he'; cases he'
      have hff : f' = f := (List.getElem?_inj (List.getElem?_eq_some_iff.1 hf').1 hdist).1 (by rw [hf', ht])
      subst hff
      rw [List.getD_eq_getElem?_getD, hvf] at hat
      exact ⟨value, hat, by rw [g3, hval]⟩
    · exact absurd ⟨hx3.symm, hx1.symm, hx2.symm, hx4.symm⟩ (g1 x0 ((hmem x0).2 hx0))
  · intro sym c l comp hnot
    rcases foldl_store sched.flatten before sym c l comp with ⟨x, g1, g2, g3⟩ | ⟨-, g2⟩
    · obtain ⟨e', he', hl', f', hf', -⟩ := h2 x ((hmem x).1 g1)
      obtain ⟨rfl, rfl, rfl, rfl⟩ := g2
      exact absurd ⟨(List.getElem?_eq_some_iff.1 he').1, hl', List.mem_of_getElem? hf'⟩ hnot
    · exact g2

omit [LinearOrder K] [IsStrictOrderedRing K] in
theorem isValueAt_unique [DecidableEq K] (exps : List (QExpansion K)) (ndim P : ℕ) (h : FieldOk exps ndim P) (e : QExpansion K) (he : e ∈ exps) (phys : List K)
    (eta : K × K × K) (v v' : K) (h1 : IsValueAt e phys eta v) (h2 : IsValueAt e phys eta v') : v = v' := by
  unfold IsValueAt at h1 h2
  match hb : e.base with
  | [b0, b1] =>
    rw [hb] at h1 h2
    obtain ⟨a, ha, rfl⟩ := h1
    obtain ⟨a', ha', rfl⟩ := h2
    have r0 := (h.rule e he b0 (by simp [hb])).2
    have r1 := (h.rule e he b1 (by simp [hb])).2
    obtain ⟨c, -, -, hc⟩ := Verif.Props.C15.evaluate_2d_is_interpolant _ _ b0.1 b1.1 b0.2 b1.2 _ 1 ⟨b0.1.length * 1 + b1.1.length * 1, fun _ => none⟩
      r0 r1 (by omega) le_rfl ha.1
    rw [hc a ha, hc a' ha']
  | [b0, b1, b2] =>
    rw [hb] at h1 h2
    obtain ⟨a, ha, rfl⟩ := h1
    obtain ⟨a', ha', rfl⟩ := h2
    have r0 := (h.rule e he b0 (by simp [hb])).2
    have r1 := (h.rule e he b1 (by simp [hb])).2
    have r2 := (h.rule e he b2 (by simp [hb])).2
    obtain ⟨c, -, -, hc⟩ := Verif.Props.C15.evaluate_3d_is_interpolant _ _ _ b0.1 b1.1 b2.1 b0.2 b1.2 b2.2 _ 1
      ⟨b0.1.length * 1 + b1.1.length * 1 + b2.1.length * 1, fun _ => none⟩ r0 r1 r2 (by omega) le_rfl ha.1
    rw [hc a ha, hc a' ha']
  | [] => rw [hb] at h1; exact h1.elim
  | [_] => rw [hb] at h1; exact h1.elim
  | _ :: _ :: _ :: _ :: _ => rw [hb] at h1; exact h1.elim

/-- The collapsed coordinates of the code are those of the position, unless it is within the tolerance of a collapsed edge or vertex; `IsValueAt` only depends on the coordinates
of the dimension of the element. -/
theorem isValueAt_collapsed (tol : K) (ht : 0 < tol) (exps : List (QExpansion K)) (ndim P : ℕ) (h : FieldOk exps ndim P) (e : QExpansion K) (he : e ∈ exps)
    (ref : Positions K) (c l : ℕ) (eta : K × K × K) (hcol : CollapsedOf e.shape (position ref c l 0, position ref c l 1, position ref c l 2) eta)
    (haway : AwayFromCollapsed tol e.shape (position ref c l 0, position ref c l 1, position ref c l 2)) (phys : List K) (v : K) :
    IsValueAt e phys (etaOf tol e ref c l) v ↔ IsValueAt e phys eta v := by
  obtain ⟨⟨h0, h1, h2⟩, -⟩ := collapse_spec tol ht e.shape _ eta hcol haway
  dsimp only at h0 h1 h2
  have hb := h.base e he
  have hd := h.dim e he
  unfold IsValueAt
  match hbase : e.base with
  | [b0, b1] => simp only [etaOf, h0, h1]
  | [b0, b1, b2] =>
    have h3 : ndim = 3 := by rw [← hb, hbase]; rfl
    have h2' := h2 (by intro hs; rw [hs, h3] at hd; simp [FieldCoupling.dimOf] at hd) (by intro hs; rw [hs, h3] at hd; simp [FieldCoupling.dimOf] at hd)
    simp only [etaOf, h0, h1, h2']
  | [] => simp
  | [_] => simp
  | _ :: _ :: _ :: _ :: _ => simp

/-- **C80, derivatives.** After the evaluation of the derivatives of a field, component `d` of the dat of each selected particle is the value of the derivative of the field in direction `d` at the
particle, for `d` below the dimension of the mesh; the other components, other dats and other particles are unchanged. It is not called if the dat has less components than the mesh has dimensions. Missing for the
full claim: positions within the tolerance of a collapsed edge or vertex (`evaluation_stores_values` says which value they get); that the interpolant of the values of `PhysDeriv` is the derivative is a property of
Nektar++. -/
theorem derivative_stores_gradient_partial (tol : K) (ht : 0 < tol) (N : ℕ) (hN : 0 < N) (exps : List (QExpansion K)) (ndim P : ℕ) (h : FieldOk exps ndim P) (hsame : SameNodes exps)
    (hnd : ndim = 2 ∨ ndim = 3) (cells : List (QExpansion K)) (hc : ∀ e ∈ cells, e ∈ exps) (gpu isSub : Bool) (ncomp : String → Option ℕ)
    (sym : String) (n : ℕ) (hn : ncomp sym = some n) (physDeriv : ℕ → List K → List K) (phys : List K) (hlen : ∀ d < ndim, (physDeriv d phys).length = P)
    (ref : Positions K) (layers : ℕ → List ℕ)
    (hp : ParticlesOk cells.length ndim ref layers gpu isSub) (launch : Launch K) (hlaunch : ∀ c l, launch.lid c l < launch.stride) (before : Dats K) :
    ∃ s, State.build exps ndim (cells.map (·.gid)) = some s ∧
      ((∃ after, DerivativeEvaluatesTo tol N s ndim gpu isSub ncomp ncomp sym physDeriv phys ref cells.length layers launch before after) ↔ ndim ≤ n) ∧
      ∀ after, DerivativeEvaluatesTo tol N s ndim gpu isSub ncomp ncomp sym physDeriv phys ref cells.length layers launch before after →
        (∀ (c : ℕ) (e : QExpansion K), cells[c]? = some e → ∀ l ∈ layers c, ∀ eta,
          CollapsedOf e.shape (position ref c l 0, position ref c l 1, position ref c l 2) eta →
          AwayFromCollapsed tol e.shape (position ref c l 0, position ref c l 1, position ref c l 2) →
          ∀ d < ndim, ∃ value, IsValueAt e (physDeriv d phys) eta value ∧ after sym c l d = some value) ∧
        ∀ sym' c l comp, ¬ (c < cells.length ∧ l ∈ layers c ∧ sym' = sym ∧ comp < ndim) → after sym' c l comp = before sym' c l comp := by
  have hzip : (List.replicate ndim sym).zip (List.range ndim) = (List.range ndim).map fun d => (sym, d) := by
    refine List.ext_getElem (by simp) fun i h1 h2 => by simp
  obtain ⟨s0, hs0⟩ := build_some exps ndim P h hsame cells hc
  have main := fun (hle : ndim ≤ n) => evaluation_stores_values tol N hN exps ndim P h hsame hnd cells hc gpu isSub ncomp (List.replicate ndim sym) (List.range ndim)
    ((List.range ndim).map fun dx => physDeriv dx phys) (by
      intro h0
      have := congrArg List.length h0
      simp at this; omega) (by
      intro v hv
      rw [List.mem_map] at hv
      obtain ⟨d, hd, rfl⟩ := hv
      exact hlen d (List.mem_range.1 hd)) (by simp) (by simp) (by
      rw [hzip]
      intro t ht
      rw [List.mem_map] at ht
      obtain ⟨d, hd, rfl⟩ := ht
      have := List.mem_range.1 hd
      exact ⟨n, hn, by dsimp only; omega⟩) (by
      rw [hzip]
      exact List.nodup_range.map fun a b hab => (Prod.mk.inj hab).2) ref layers hp launch hlaunch before
  refine ⟨s0, hs0, ⟨?_, fun hle => ?_⟩, ?_⟩
  · rintro ⟨after, ⟨n', hn', hle⟩, -⟩
    rw [hn] at hn'; cases hn'; exact hle
  · obtain ⟨s, hs, ⟨after, hafter⟩, -⟩ := main hle
    rw [hs0] at hs; cases hs
    exact ⟨after, ⟨n, hn, hle⟩, hafter⟩
  · rintro after ⟨⟨n', hn', hle⟩, hev⟩
    rw [hn] at hn'; cases hn'
    obtain ⟨s, hs, -, hmain⟩ := main hle
    rw [hs0] at hs; cases hs
    obtain ⟨m1, m2⟩ := hmain after hev
    refine ⟨fun c e he l hl eta hcol haway d hd => ?_, fun sym' c l comp hnot => m2 sym' c l comp ?_⟩
    · obtain ⟨value, h1, h2⟩ := m1 c e he l hl d sym d (physDeriv d phys) (by simp [hd]) (by simp [hd]) (by simp [hd])
      exact ⟨value, (isValueAt_collapsed tol ht exps ndim P h e (hc e (List.mem_of_getElem? he)) ref c l eta hcol haway _ _).1 h1, h2⟩
    · rintro ⟨h1, h2, h3⟩
      rw [hzip, List.mem_map] at h3
      obtain ⟨d, hd, heq⟩ := h3
      rw [Prod.mk.injEq] at heq
      exact hnot ⟨h1, h2, heq.1.symm, heq.2 ▸ List.mem_range.1 hd⟩

/-! ### Examples -/

/-- A quadrilateral with two nodes in each direction and a triangle with two and one. -/
def exampleField : List (QExpansion ℚ) :=
  [⟨5, 0, .quad, [([-1, 1], [-1 / 2, 1 / 2]), ([-1, 1], [-1 / 2, 1 / 2])], 2⟩, ⟨9, 1, .tri, [([-1, 1], [-1 / 2, 1 / 2]), ([0], [1])], 0⟩]

theorem rule_two : BaryRule (K := ℚ) 2 [-1, 1] [-1 / 2, 1 / 2] where
  pos := by norm_num
  z_length := by simp
  bw_length := by simp
  distinct := by intro i hi j hj; interval_cases i <;> interval_cases j <;> simp <;> norm_num
  weights := by
    refine ⟨1, one_ne_zero, fun i hi => ?_⟩
    have e0 : (Finset.range 2).erase 0 = {1} := by decide
    have e1 : (Finset.range 2).erase 1 = {0} := by decide
    interval_cases i
    · rw [e0, Finset.prod_singleton]; norm_num
    · rw [e1, Finset.prod_singleton]; norm_num

theorem rule_one : BaryRule (K := ℚ) 1 [0] [1] where
  pos := by norm_num
  z_length := by simp
  bw_length := by simp
  distinct := by intro i hi j hj _; omega
  weights := by
    refine ⟨1, one_ne_zero, fun i hi => ?_⟩
    have e0 : (Finset.range 1).erase 0 = ∅ := by decide
    interval_cases i
    rw [e0, Finset.prod_empty]; norm_num

theorem exampleField_ok : FieldOk exampleField 2 6 where
  ids := by decide
  gids := by decide
  dim := by simp [exampleField, FieldCoupling.dimOf]
  base := by simp [exampleField]
  rule := by
    intro e he b hb
    simp only [exampleField, List.mem_cons, List.not_mem_nil, or_false] at he
    rcases he with rfl | rfl <;> simp only [List.mem_cons, List.not_mem_nil, or_false, or_self] at hb
    · subst hb; exact ⟨rfl, rule_two⟩
    · rcases hb with rfl | rfl
      · exact ⟨rfl, rule_two⟩
      · exact ⟨rfl, rule_one⟩
  block := by simp [exampleField, numPoints]

theorem exampleField_same : SameNodes exampleField := by
  intro e he e' he' hs _
  simp only [exampleField, List.mem_cons, List.not_mem_nil, or_false] at he he'
  rcases he with rfl | rfl <;> rcases he' with rfl | rfl <;> simp at hs ⊢

/-- The derivatives of a field at two particles, one of which is selected, in a dat with three components. -/
example : ∃ s, State.build exampleField 2 [9, 5] = some s ∧ ∃ after, DerivativeEvaluatesTo (1 / 100 : ℚ) 4 s 2 false true (fun _ => some 3) (fun _ => some 3) "E"
    (fun d phys => phys.map fun x => x + d) [1, 2, 3, 4, 5, 6] (fun c => if c = 0 then [[0, 0]] else [[0, 0], [1 / 2, 1 / 2]]) 2
    (fun c => if c = 0 then [] else [1]) ⟨1, fun _ _ => 0, fun _ _ _ => none, fun _ _ _ => 0⟩ (fun _ _ _ _ => some 7) after := by
  obtain ⟨s, hs, hex, -⟩ := derivative_stores_gradient_partial (K := ℚ) (1 / 100) (by norm_num) 4 (by omega) exampleField 2 6 exampleField_ok exampleField_same (Or.inl rfl)
    exampleField.reverse (by simp) false true (fun _ => some 3) "E" 3 rfl (fun d phys => phys.map fun x => x + d) [1, 2, 3, 4, 5, 6] (by simp)
    (fun c => if c = 0 then [[0, 0]] else [[0, 0], [1 / 2, 1 / 2]]) (fun c => if c = 0 then [] else [1])
    ⟨by
      intro c _ l hl
      by_cases h0 : c = 0
      · simp [h0] at hl
      · simp only [h0, if_false, List.mem_singleton] at hl ⊢; subst hl; exact ⟨_, rfl, by simp⟩, by simp⟩
    ⟨1, fun _ _ => 0, fun _ _ _ => none, fun _ _ _ => 0⟩ (by simp) (fun _ _ _ _ => some 7)
  exact ⟨s, hs, hex.2 (by norm_num)⟩

/-- A value of a function: the bilinear function with the values 3, 4, 5, 6 at the corners of the quadrilateral is 9/2 in the middle. -/
example : IsValueAt (K := ℚ) ⟨5, 0, .quad, [([-1, 1], [-1 / 2, 1 / 2]), ([-1, 1], [-1 / 2, 1 / 2])], 2⟩ [1, 2, 3, 4, 5, 6] (0, 0, 0) (9 / 2) := by
  refine ⟨fun a b => if a = 0 then (if b = 0 then 9 / 2 else 1) else (if b = 0 then 1 / 2 else 0), ⟨by simp [numPoints], ?_⟩, ?_⟩
  · intro i1 h1 i0 h0
    simp only [List.length_cons, List.length_nil] at h0 h1
    interval_cases i1 <;> interval_cases i0 <;> simp [numPoints, poly2, Finset.sum_range_succ] <;> norm_num
  · simp [poly2, Finset.sum_range_succ]

end Verif.Props.C80
