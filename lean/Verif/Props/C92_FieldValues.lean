import Verif.Lemmas.ModalDegree
import Verif.Props.C80_Derivative
import Mathlib.Algebra.Polynomial.Roots

/-! C92: a function of a field has one value: evaluation from coefficients, from quadrature values and on the host agree; interpolation onto a field. -/

namespace Verif.Props.C92
open Verif.Spec Verif.Model Verif.Model.JacobiCoeff Verif.Model.BasisReference Verif.Model.FieldCoupling Verif.Model.HostField Verif.Spec.HostField
  Verif.Spec.FieldCoupling Verif.Spec.VertexModes Verif.Lemmas.ModalDegree Verif.Lemmas.FieldCoupling Verif.Props.C13 Verif.Props.C79 Verif.Props.C86
open Verif.Model.BaryField (QExpansion)
open Verif.Spec.BaryField (IsValueAt numPoints)

variable {K : Type*} [Field K] [LinearOrder K] [IsStrictOrderedRing K]

/-- A function on a two dimensional element does not depend on the third coordinate. -/
theorem valueAt_2d (e : Expansion) (h2 : dimOf e.shape = 2) (x y t t' : K) (c : List K) : valueAt e (x, y, t) c = valueAt e (x, y, t') c := by
  rw [valueAt_sum, valueAt_sum]
  have : modeFn e.shape (x, y, t) = modeFn e.shape (x, y, t') := by
    funext m
    cases h : e.shape <;> simp [h, dimOf] at h2 <;> rfl
  rw [this]

theorem base_cases {q : QExpansion K} {ndim : ℕ} (h : q.base.length = ndim) (hn : ndim = 2 ∨ ndim = 3) :
    (ndim = 2 ∧ ∃ b0 b1, q.base = [b0, b1]) ∨ (ndim = 3 ∧ ∃ b0 b1 b2, q.base = [b0, b1, b2]) := by
  rcases hn with rfl | rfl
  · left
    match hb : q.base, h with
    | [b0, b1], _ => exact ⟨rfl, b0, b1, rfl⟩
  · right
    match hb : q.base, h with
    | [b0, b1, b2], _ => exact ⟨rfl, b0, b1, b2, rfl⟩

theorem dim_cases (sh : Shape) : dimOf sh = 2 ∨ dimOf sh = 3 := by cases sh <;> simp [dimOf]

/-- With enough nodes the interpolant of the values at the nodes is the function itself. -/
theorem isValueAt_of_agrees (e : Expansion) (q : QExpansion K) (hs : e.shape = q.shape) (hb : q.base.length = dimOf q.shape) (hn : 2 ≤ order e)
    (hen : EnoughNodes q.shape (order e) (q.base.map (·.1.length))) (c phys : List K) (h : AgreesOn e q c phys) (eta : K × K × K) :
    IsValueAt q phys eta (valueAt e eta c) := by
  obtain ⟨x, y, t⟩ := eta
  rw [← hs] at hen hb
  rcases base_cases hb (dim_cases _) with ⟨h2, b0, b1, hbase⟩ | ⟨h3, b0, b1, b2, hbase⟩
  · rw [hbase] at hen
    unfold AgreesOn at h
    unfold IsValueAt
    rw [hbase] at h ⊢
    obtain ⟨a, ha⟩ := value_poly2 e h2 _ _ hn hen c (0 : K)
    refine ⟨a, ?_, ?_⟩
    · have : (fun x y => valueAt e (x, y, 0) c) = poly2 b0.1.length b1.1.length a := by funext x y; exact ha x y
      rw [← this]; exact h
    · dsimp only; rw [← ha, valueAt_2d e h2]
  · rw [hbase] at hen
    unfold AgreesOn at h
    unfold IsValueAt
    rw [hbase] at h ⊢
    obtain ⟨a, ha⟩ := value_poly3 e h3 _ _ _ hn hen c
    refine ⟨a, ?_, ?_⟩
    · have : (fun x y z => valueAt e (x, y, z) c) = poly3 b0.1.length b1.1.length b2.1.length a := by funext x y z; exact ha x y z
      rw [← this]; exact h
    · exact ha x y t

/-- The value only depends on the coordinates of the dimension of the element. -/
theorem isValueAt_congr (q : QExpansion K) (phys : List K) (eta eta' : K × K × K) (v : K) (h0 : eta.1 = eta'.1) (h1 : eta.2.1 = eta'.2.1)
    (h2 : q.base.length = 3 → eta.2.2 = eta'.2.2) : IsValueAt q phys eta v ↔ IsValueAt q phys eta' v := by
  unfold IsValueAt
  match hb : q.base with
  | [b0, b1] => simp only [h0, h1]
  | [b0, b1, b2] => simp only [h0, h1, h2 (by rw [hb]; rfl)]
  | [] => simp
  | [_] => simp
  | _ :: _ :: _ :: _ :: _ => simp

/-- The elements of the cells as seen by the two evaluators. -/
def CellsOf (exps : List Expansion) (qexps : List (QExpansion K)) (cells : List Expansion) (qcells : List (QExpansion K)) : Prop :=
  List.Forall₂ (fun e q => ∃ i : ℕ, exps[i]? = some e ∧ qexps[i]? = some q) cells qcells

theorem forall₂_get {α β : Type*} {R : α → β → Prop} {l : List α} {m : List β} (h : List.Forall₂ R l m) {i : ℕ} {a : α} (ha : l[i]? = some a) :
    ∃ b, m[i]? = some b ∧ R a b := by
  induction h generalizing i with
  | nil => simp at ha
  | cons h1 h2 ih =>
    cases i with
    | zero => simp at ha; subst ha; exact ⟨_, rfl, h1⟩
    | succ i => simp at ha; simpa using ih ha

theorem forall₂_get' {α β : Type*} {R : α → β → Prop} {l : List α} {m : List β} (h : List.Forall₂ R l m) {i : ℕ} {a : α} {b : β} (ha : l[i]? = some a)
    (hb : m[i]? = some b) : R a b := by
  obtain ⟨b', h1, h2⟩ := forall₂_get h ha
  rw [hb] at h1; cases h1; exact h2

/-- **C92, device.** For every field whose coefficients and quadrature values are those of one function, on every mesh of two or three dimensions with any mixture of shapes and orders, with enough quadrature
points, and every result of the two evaluations of the field at the particles: the evaluation from the quadrature values stores on every selected particle the value of the function with the field's coefficients, and the
evaluation from the coefficients stores the same number, except for collapsed coordinates exactly at a collapsed end, where it stores no number. -/
theorem evaluators_agree (tol : K) (exps : List Expansion) (qexps : List (QExpansion K)) (ndim N P : ℕ) (hf : FieldCoupling.FieldOk exps ndim N)
    (hq : BaryField.FieldOk qexps ndim P) (hnodes : BaryField.SameNodes qexps) (hsame : List.Forall₂ Same exps qexps)
    (hen : ∀ (i : ℕ) e q, exps[i]? = some e → qexps[i]? = some q → EnoughNodes q.shape (order e) (q.base.map (·.1.length)))
    (st : FieldState K) (hst : Consistent exps qexps st) (hN : st.coeffs.length = N) (hP : st.phys.length = P)
    (cells : List Expansion) (qcells : List (QExpansion K)) (hc : CellsOf exps qexps cells qcells)
    (parts : ℕ → List (Particle K)) (layers : ℕ → List ℕ) (eta : ℕ → ℕ → K × K × K) (hp : LocatedAt tol cells ndim parts layers eta) (gpu isSub : Bool)
    (hall : gpu = false → isSub = false → ∀ c < cells.length, ∀ l, l ∈ layers c ↔ l < (parts c).length)
    (s : Base) (hs : Base.build exps (cells.map (·.gid)) = some s) (s' : BaryField.State K)
    (hs' : BaryField.State.build qexps ndim (qcells.map (·.gid)) = some s')
    (component : ℕ) (mem : Shape × ℕ × ℕ → List (Dbl K)) (hm : ∀ w, sumMaxModes s w.1 ≤ (mem w).length) (before after : Dat K)
    (h1 : EvaluatesTo tol s ndim parts layers component st.coeffs mem before after)
    (B : ℕ) (hB : 0 < B) (ncomp : String → Option ℕ) (sym : String) (comp' n : ℕ) (hn : ncomp sym = some n) (hcomp : comp' < n)
    (launch : BaryField.Launch K) (hlaunch : ∀ c l, launch.lid c l < launch.stride) (before' after' : BaryField.Dats K)
    (h2 : BaryField.EvaluatesTo tol B s' ndim gpu isSub ncomp [sym] [comp'] [st.phys] (fun c => (parts c).map (·.ref)) qcells.length layers launch before' after')
    (c : ℕ) (e : Expansion) (he : cells[c]? = some e) (l : ℕ) (hl : l ∈ layers c) :
    after' sym c l comp' = some (valueAt e (eta c l) st.coeffs) ∧
      (OffCollapsed e.shape (eta c l).2.1 (eta c l).2.2 → after c l component = after' sym c l comp') ∧
      (¬ OffCollapsed e.shape (eta c l).2.1 (eta c l).2.2 → after c l component = none) := by
  have hcl : c < cells.length := (List.getElem?_eq_some_iff.1 he).1
  have hcells : ∀ e ∈ cells, e ∈ exps := by
    intro e he
    obtain ⟨i, hi⟩ := List.getElem?_of_mem he
    obtain ⟨q, -, j, hj, -⟩ := forall₂_get hc hi
    exact List.mem_of_getElem? hj
  have hqcells : ∀ q ∈ qcells, q ∈ qexps := by
    intro q hqm
    obtain ⟨i, hi⟩ := List.getElem?_of_mem hqm
    obtain ⟨e, -, j, -, hj⟩ := forall₂_get (List.Forall₂.flip hc) hi
    exact List.mem_of_getElem? hj
  obtain ⟨q, hqc, i, hei, hqi⟩ := forall₂_get hc he
  have hqm := List.mem_of_getElem? hqi
  have hem := List.mem_of_getElem? hei
  have hsh : e.shape = q.shape := (forall₂_get' hsame hei hqi).2.2
  have hnd : ndim = 2 ∨ ndim = 3 := by rw [← hf.dim e hem]; exact dim_cases _
  have hqb : q.base.length = dimOf q.shape := by rw [hq.base q hqm, ← hq.dim q hqm]
  have hlen : qcells.length = cells.length := hc.length_eq.symm
  -- the evaluation from the coefficients
  obtain ⟨s1, hs1, hA⟩ := C79.evaluation_stores_values tol exps ndim N hf cells hcells parts layers eta hp component st.coeffs hN
  rw [hs] at hs1; cases hs1
  have hA1 := (hA mem hm before after).1 h1 c l component
  rw [if_pos ⟨rfl, hcl, hl⟩] at hA1
  have hel : C78.elementOf cells c = e := by simp [C78.elementOf, he]
  rw [stored, hel] at hA1
  -- the evaluation from the quadrature values
  have hpok : C80.ParticlesOk qcells.length ndim (fun c => (parts c).map (·.ref)) layers gpu isSub := by
    refine ⟨fun c hc' l hl => ?_, fun hg hi c hc' l => ?_⟩
    · rw [hlen] at hc'
      obtain ⟨p, hp1, hp2, -⟩ := hp.ok c cells[c] (List.getElem?_eq_getElem hc') l hl
      exact ⟨p.ref, by simp [hp1], hp2⟩
    · rw [hlen] at hc'
      rw [hall hg hi c hc' l]; simp
  obtain ⟨s2, hs2, -, hBv⟩ := C80.evaluation_stores_values tol B hB qexps ndim P hq hnodes hnd qcells hqcells gpu isSub ncomp [sym] [comp'] [st.phys] (by simp)
    (by simpa using hP) rfl rfl (by simpa using ⟨n, hn, hcomp⟩) (by simp) (fun c => (parts c).map (·.ref)) layers hpok launch hlaunch before'
  rw [hs'] at hs2; cases hs2
  obtain ⟨v, hv1, hv2⟩ := (hBv after' h2).1 c q hqc l hl 0 sym comp' st.phys rfl rfl rfl
  obtain ⟨p, hp1, hp2, hp3⟩ := hp.ok c e he l hl
  -- the collapsed coordinates are the same
  have hpos : ∀ d, C80.position (fun c => (parts c).map (·.ref)) c l d = p.ref.getD d 0 := by
    intro d; simp [C80.position, hp1]
  have hcol : (C80.etaOf tol q (fun c => (parts c).map (·.ref)) c l).1 = (eta c l).1 ∧ (C80.etaOf tol q (fun c => (parts c).map (·.ref)) c l).2.1 = (eta c l).2.1 ∧
      (q.base.length = 3 → (C80.etaOf tol q (fun c => (parts c).map (·.ref)) c l).2.2 = (eta c l).2.2) := by
    unfold C80.etaOf
    rw [hpos, hpos, hpos, ← hsh]
    obtain ⟨c0, c1, c2⟩ := hp3
    rcases hnd with rfl | rfl
    · have hd := hf.dim e hem
      refine ⟨?_, ?_, fun h3 => ?_⟩
      · rw [← c0]; cases hshape : e.shape <;> simp [hshape, dimOf] at hd <;> rfl
      · rw [← c1]; cases hshape : e.shape <;> simp [hshape, dimOf] at hd <;> rfl
      · rw [hq.base q hqm] at h3; omega
    · have hd := hf.dim e hem
      simp only [refPoint, if_neg (show ¬ (3 : ℕ) = 2 by decide)] at c0 c1 c2
      exact ⟨c0, c1, fun _ => c2 (by intro h; rw [h] at hd; simp [dimOf] at hd) (by intro h; rw [h] at hd; simp [dimOf] at hd)⟩
  rw [isValueAt_congr q _ _ (eta c l) _ hcol.1 hcol.2.1 hcol.2.2] at hv1
  have hval := isValueAt_of_agrees e q hsh hqb (hf.two e hem) (hen i e q hei hqi) st.coeffs st.phys (hst i e q hei hqi) (eta c l)
  have hvv := C80.isValueAt_unique qexps ndim P hq q hqm st.phys (eta c l) v _ hv1 hval
  subst hvv
  refine ⟨hv2, fun hoff => ?_, fun hoff => ?_⟩
  · rw [hA1, if_pos hoff, hv2]
  · rw [hA1, if_neg hoff]

/-! ### Interpolation onto a field -/

omit [Field K] [LinearOrder K] [IsStrictOrderedRing K] in
theorem setCoeffs_eq (n : ℕ) (new old : List K) (h1 : new.length = n) (h2 : old.length = n) : setCoeffs n new old = some new := by
  have main : ∀ m, m ≤ n → (List.range m).foldlM (fun (c : List K) cx => (new[cx]?).bind fun v => if cx < c.length then some (c.set cx v) else none) old =
      some (new.take m ++ old.drop m) := by
    intro m
    induction m with
    | zero => intro _; simp
    | succ m ih =>
      intro hm
      rw [List.range_succ, List.foldlM_append, ih (by omega)]
      have hlt : m < new.length := by omega
      have hlt2 : m < old.length := by omega
      have hl : (new.take m ++ old.drop m).length = n := by simp; omega
      simp only [List.foldlM_cons, List.foldlM_nil, List.getElem?_eq_getElem hlt, Option.bind_eq_bind, Option.bind_some, hl, if_pos (show m < n by omega), Option.pure_def]
      congr 1
      rw [List.set_append_right _ _ (by rw [List.length_take]; omega)]
      have h0 : m - (new.take m).length = 0 := by rw [List.length_take]; omega
      rw [h0, List.drop_eq_getElem_cons hlt2, List.set_cons_zero, List.take_succ_eq_append_getElem hlt, List.append_assoc]
      simp
  have := main n le_rfl
  rw [List.take_of_length_le h1.le, List.drop_eq_nil_of_le h2.le, List.append_nil] at this
  exact this

/-- **C92, interpolation.** Interpolating any function onto a field succeeds; afterwards the coefficients and the quadrature values are those of one function of the space, which only depends on the values of the given
function at the quadrature points, and not on the previous content of the field. -/
theorem interpolation_consistent (o : Ops K) (ndim N P : ℕ) (V : Set (List K)) (ho : OpsOk o ndim N P V) (f : K × K × K → K) (s : FieldState K) (hs : s.coeffs.length = N) :
    ∃ s', HostField.interpolate o f s = some s' ∧ s'.coeffs ∈ V ∧ s'.coeffs.length = N ∧ s'.phys.length = P ∧ Consistent o.exps o.qexps s' ∧
      (∀ (g : K × K × K → K) (r : FieldState K), r.coeffs.length = N → (∀ x ∈ o.coords, g x = f x) → HostField.interpolate o g r = some s') := by
  have hlen : ∀ g : K × K × K → K, (o.coords.map g).length = P := fun g => by rw [List.length_map, ho.points]
  have hi : ∀ (g : K × K × K → K) (r : FieldState K), r.coeffs.length = N →
      HostField.interpolate o g r = some ⟨o.fwdTrans (o.coords.map g), o.bwdTrans (o.fwdTrans (o.coords.map g))⟩ := by
    intro g r hr
    unfold HostField.interpolate
    dsimp only
    rw [ho.ncoeffs, setCoeffs_eq N _ _ (ho.fwd_length _ (hlen g)) hr]
    rfl
  refine ⟨_, hi f s hs, ho.fwd_mem _ (hlen f), ho.fwd_length _ (hlen f), ho.bwd_length _ (ho.fwd_length _ (hlen f)), ?_, ?_⟩
  · exact fun i e q h1 h2 => ho.bwd _ (ho.fwd_length _ (hlen f)) i e q h1 h2
  · intro g r hr hg
    rw [hi g r hr, List.map_congr_left hg]

/-- Interpolating a function that has the values of a function of the space at the quadrature points gives that function: in particular a second interpolation of an interpolated function changes
nothing. -/
theorem interpolation_reproduces (o : Ops K) (ndim N P : ℕ) (V : Set (List K)) (ho : OpsOk o ndim N P V) (f : K × K × K → K) (c : List K) (hV : c ∈ V) (hc : c.length = N)
    (hf : o.coords.map f = o.bwdTrans c) (s : FieldState K) (hs : s.coeffs.length = N) : HostField.interpolate o f s = some ⟨c, o.bwdTrans c⟩ := by
  unfold HostField.interpolate
  dsimp only
  rw [hf, ho.fwd_bwd c hV hc, ho.ncoeffs, setCoeffs_eq N _ _ hc hs]
  rfl

/-! ### The host -/

omit [LinearOrder K] [IsStrictOrderedRing K] in
theorem isValueAt_block (q : QExpansion K) (phys : List K) (eta : K × K × K) (v : K) :
    IsValueAt { q with physOffset := 0 } (phys.drop q.physOffset) eta v ↔ IsValueAt q phys eta v := Iff.rfl

/-- **C92, host.** The host function evaluates a field at a point of the mesh to the value of the function with the field's coefficients, in the element and at the reference position that Nektar++ finds; with
`evaluators_agree` this is the number that the device stores for a particle at this place. At a point that is in no element it reads outside of its containers. -/
theorem host_value (o : Ops K) (ndim N P : ℕ) (V : Set (List K)) (ho : OpsOk o ndim N P V) (hev : EvaluateOk o) (X : ℕ → K × K × K → K × K × K) (inside : ℕ → Set (K × K × K))
    (hg : GeometryOk o X inside) (hen : ∀ (i : ℕ) e q, o.exps[i]? = some e → o.qexps[i]? = some q → EnoughNodes q.shape (order e) (q.base.map (·.1.length)))
    (s : FieldState K) (hst : Consistent o.exps o.qexps s) (hP : s.phys.length = P) (x : K × K × K) :
    ((∃ i < o.qexps.length, ∃ xi ∈ inside i, X i xi = x) →
      ∃ (i : ℕ) (e : Expansion) (xi : K × K × K), o.exps[i]? = some e ∧ xi ∈ inside i ∧ X i xi = x ∧
        ∀ eta, CollapsedOf e.shape xi eta → OffCollapsed e.shape eta.2.1 eta.2.2 →
          evaluateScalar3d o s x.1 x.2.1 x.2.2 = some (valueAt e eta s.coeffs) ∧ (x.2.2 = 0 → evaluateScalar2d o s x.1 x.2.1 = some (valueAt e eta s.coeffs))) ∧
    ((¬ ∃ i < o.qexps.length, ∃ xi ∈ inside i, X i xi = x) → evaluateScalar3d o s x.1 x.2.1 x.2.2 = none ∧ (x.2.2 = 0 → evaluateScalar2d o s x.1 x.2.1 = none)) := by
  have h2d : x.2.2 = 0 → evaluateScalar2d o s x.1 x.2.1 = evaluateScalar3d o s x.1 x.2.1 x.2.2 := by
    intro h; unfold evaluateScalar2d evaluateScalar3d; rw [h]
  constructor
  · rintro ⟨i0, hi0, xi0, hin0, hX0⟩
    have hpos := hg.complete x i0 xi0 hi0 hin0 hX0
    obtain ⟨hi, hin, hX⟩ := hg.found x hpos
    set i := (o.expIndex x).1.toNat with hidef
    have hqi : o.qexps[i]? = some o.qexps[i] := List.getElem?_eq_getElem hi
    obtain ⟨e, hei, hse⟩ : ∃ e, o.exps[i]? = some e ∧ Same e o.qexps[i] := by
      obtain ⟨e, h1, h2⟩ := forall₂_get (List.Forall₂.flip ho.same) hqi
      exact ⟨e, h1, h2⟩
    refine ⟨i, e, (o.expIndex x).2, hei, hin, hX, fun eta hcol hoff => ?_⟩
    generalize hqe : o.qexps[i] = q at hqi hse
    have hqm := List.mem_of_getElem? hqi
    have hem := List.mem_of_getElem? hei
    have hdrop : numPoints q ≤ (s.phys.drop q.physOffset).length := by
      rw [List.length_drop, hP]; have := ho.qfield.block q hqm; omega
    rw [hse.2.2] at hcol hoff
    have hv1 := hev i q hqi (o.expIndex x).2 eta (s.phys.drop q.physOffset) hcol hoff hdrop
    have hv2 := isValueAt_of_agrees e q hse.2.2 (by rw [ho.qfield.base q hqm, ← ho.qfield.dim q hqm]) (ho.field.two e hem) (hen i e q hei hqi) s.coeffs s.phys
      (hst i e q hei hqi) eta
    have hv1' : IsValueAt q s.phys eta (o.stdPhysEvaluate i (o.expIndex x).2 (s.phys.drop q.physOffset)) := (isValueAt_block q s.phys eta _).1 hv1
    have huniq := C80.isValueAt_unique o.qexps ndim P ho.qfield q hqm s.phys eta _ _ hv1' hv2
    have h3 : evaluateScalar3d o s x.1 x.2.1 x.2.2 = some (valueAt e eta s.coeffs) := by
      unfold evaluateScalar3d element
      dsimp only
      rw [if_neg (not_lt.2 hpos), ← hidef, hqi, Option.map_some, Option.map_some, huniq]
    exact ⟨h3, fun h => (h2d h).trans h3⟩
  · intro hno
    have hneg : (o.expIndex x).1 < 0 := by
      by_contra hcon
      obtain ⟨hi, hin, hX⟩ := hg.found x (not_lt.1 hcon)
      exact hno ⟨_, hi, _, hin, hX⟩
    have h3 : evaluateScalar3d o s x.1 x.2.1 x.2.2 = none := by
      unfold evaluateScalar3d element
      dsimp only
      rw [if_pos hneg]; rfl
    exact ⟨h3, fun h => (h2d h).trans h3⟩

/-! ### Linear functions on straight-sided meshes -/

theorem interpolate_linear (sh : Shape) (xi : K × K × K) (h : NotApex sh xi) (b0 b1 b2 b3 : K) (v : ℕ → K × K × K) :
    VertexModes.interpolate sh (fun k => b0 + b1 * (v k).1 + b2 * (v k).2.1 + b3 * (v k).2.2) xi =
      b0 + b1 * VertexModes.interpolate sh (fun k => (v k).1) xi + b2 * VertexModes.interpolate sh (fun k => (v k).2.1) xi + b3 * VertexModes.interpolate sh (fun k => (v k).2.2) xi := by
  obtain ⟨x, y, z⟩ := xi
  cases sh
  case pyr =>
    have hz : (1 : K) - z ≠ 0 := by
      simp only [NotApex] at h
      intro h0; exact h (by linear_combination -h0)
    simp [VertexModes.interpolate, shapeFunctions, LinearElements.weights, List.range_succ]
    field_simp
    ring
  all_goals
    simp [VertexModes.interpolate, shapeFunctions, LinearElements.weights, List.range_succ]
    ring

theorem exists_node (q : QExpansion K) (hb : q.base.length = 2 ∨ q.base.length = 3) (j : ℕ) (hj : j < numPoints q) : ∃ eta, IsNode q j eta := by
  unfold numPoints at hj
  match hbase : q.base with
  | [b0, b1] =>
    rw [hbase] at hj
    simp only [List.map_cons, List.map_nil, List.prod_cons, List.prod_nil, mul_one] at hj
    have h0 : 0 < b0.1.length := by by_contra h; simp [Nat.le_zero.1 (not_lt.1 h)] at hj
    refine ⟨(b0.1.getD (j % b0.1.length) 0, b1.1.getD (j / b0.1.length) 0, 0), ?_⟩
    unfold IsNode
    rw [hbase]
    exact ⟨_, Nat.mod_lt _ h0, _, Nat.div_lt_of_lt_mul hj, (Nat.div_add_mod' _ _).symm, rfl, rfl⟩
  | [b0, b1, b2] =>
    rw [hbase] at hj
    simp only [List.map_cons, List.map_nil, List.prod_cons, List.prod_nil, mul_one] at hj
    rw [← mul_assoc] at hj
    have h01 : 0 < b0.1.length * b1.1.length := by by_contra h; simp [Nat.le_zero.1 (not_lt.1 h)] at hj
    have h0 : 0 < b0.1.length := Nat.pos_of_mul_pos_right h01
    refine ⟨(b0.1.getD (j % (b0.1.length * b1.1.length) % b0.1.length) 0, b1.1.getD (j % (b0.1.length * b1.1.length) / b0.1.length) 0,
      b2.1.getD (j / (b0.1.length * b1.1.length)) 0), ?_⟩
    unfold IsNode
    rw [hbase]
    refine ⟨_, Nat.mod_lt _ h0, _, Nat.div_lt_of_lt_mul (Nat.mod_lt _ h01), _, Nat.div_lt_of_lt_mul hj, ?_, rfl⟩
    rw [add_assoc, Nat.div_add_mod', Nat.div_add_mod']
  | [] => rw [hbase] at hb; simp at hb
  | [_] => rw [hbase] at hb; simp at hb
  | _ :: _ :: _ :: _ :: _ => rw [hbase] at hb; simp at hb

theorem agrees_at_node (e : Expansion) (q : QExpansion K) (hs : e.shape = q.shape) (hb : q.base.length = dimOf q.shape) (c phys : List K) (h : AgreesOn e q c phys) (j : ℕ) (eta : K × K × K)
    (hn : IsNode q j eta) (hj : j < numPoints q) : phys[q.physOffset + j]? = some (valueAt e eta c) := by
  obtain ⟨x, y, t⟩ := eta
  have hget : ((phys.drop q.physOffset).take (numPoints q))[j]? = phys[q.physOffset + j]? := by
    rw [List.getElem?_take, if_pos hj, List.getElem?_drop]
  rw [← hget]
  unfold AgreesOn at h
  unfold IsNode at hn
  rcases base_cases hb (dim_cases _) with ⟨h2, b0, b1, hbase⟩ | ⟨h3, b0, b1, b2, hbase⟩
  · rw [hbase] at h hn
    obtain ⟨i0, h0, i1, h1, rfl, hx, hy⟩ := hn
    dsimp only at hx hy
    have := h.2 i1 h1 i0 h0
    rw [this, hx, hy, valueAt_2d e (by rw [hs]; exact h2) _ _ t 0]
  · rw [hbase] at h hn
    obtain ⟨i0, h0, i1, h1, i2, hi2, rfl, hx⟩ := hn
    cases hx
    exact h.2 i2 hi2 i1 h1 i0 h0

/-- The elements are straight-sided with the vertices `vert i v`: for each direction the position is the interpolation of the coordinates of the vertices. -/
def Straight (exps : List Expansion) (X : ℕ → K × K × K → K × K × K) (vert : ℕ → ℕ → K × K × K) : Prop :=
  ∀ (i : ℕ) e, exps[i]? = some e → ∀ xi, NotApex e.shape xi → X i xi =
    (VertexModes.interpolate e.shape (fun v => (vert i v).1) xi, VertexModes.interpolate e.shape (fun v => (vert i v).2.1) xi, VertexModes.interpolate e.shape (fun v => (vert i v).2.2) xi)

/-- A linear function. -/
def linear (b0 b1 b2 b3 : K) (x : K × K × K) : K := b0 + b1 * x.1 + b2 * x.2.1 + b3 * x.2.2

theorem elmtId_eq (exps : List Expansion) (h : exps.map (·.elmtId) = List.range exps.length) (i : ℕ) (e : Expansion) (he : exps[i]? = some e) : e.elmtId = i := by
  have h1 : (exps.map (·.elmtId))[i]? = some e.elmtId := by simp [he]
  have hi := (List.getElem?_eq_some_iff.1 he).1
  rw [h, List.getElem?_range hi] at h1
  exact (Option.some_inj.1 h1).symm

/-- The vertex field of a linear function has the value of the function at every point of the mesh. -/
theorem linear_value (o : Ops K) (ndim N : ℕ) (hf : FieldCoupling.FieldOk o.exps ndim N) (X : ℕ → K × K × K → K × K × K) (vert : ℕ → ℕ → K × K × K)
    (hX : Straight o.exps X vert) (b0 b1 b2 b3 : K) (c : List K) (hc : IsVertexField o.exps N (fun e v => linear b0 b1 b2 b3 (vert e.elmtId v)) c)
    (i : ℕ) (e : Expansion) (he : o.exps[i]? = some e) (xi eta : K × K × K) (hcol : CollapsedOf e.shape xi eta) (ha : NotApex e.shape xi) :
    valueAt e eta c = linear b0 b1 b2 b3 (X i xi) := by
  have hem := List.mem_of_getElem? he
  rw [valueAt_vertexField o.exps ndim N hf _ c hc e hem, vertex_modes two_ne _ _ (hf.two e hem) _ xi eta hcol ha, elmtId_eq o.exps hf.ids i e he, hX i e he xi ha]
  exact interpolate_linear e.shape xi ha b0 b1 b2 b3 (vert i)

/-- **C92, linear functions.** On every mesh of straight-sided elements, of any shapes and orders, interpolating a linear function onto a field gives the field with the values of the function at the vertices as coefficients of the vertex modes (if the space
of the field contains it), and every evaluator gives the exact value of the function at every point of the mesh that is not at a collapsed end: `host` for the host functions, `evaluators_agree` and `linear_value` for
the values on particles. -/
theorem linear_functions_exact (o : Ops K) (ndim N P : ℕ) (V : Set (List K)) (ho : OpsOk o ndim N P V) (hev : EvaluateOk o) (X : ℕ → K × K × K → K × K × K) (inside : ℕ → Set (K × K × K))
    (hg : GeometryOk o X inside) (hco : CoordsOk o X) (hen : ∀ (i : ℕ) e q, o.exps[i]? = some e → o.qexps[i]? = some q → EnoughNodes q.shape (order e) (q.base.map (·.1.length)))
    (vert : ℕ → ℕ → K × K × K) (hX : Straight o.exps X vert) (b0 b1 b2 b3 : K) (c : List K)
    (hc : IsVertexField o.exps N (fun e v => linear b0 b1 b2 b3 (vert e.elmtId v)) c) (hV : c ∈ V) (s : FieldState K) (hs : s.coeffs.length = N) :
    ∃ s', interpolate3d o (fun x y z => linear b0 b1 b2 b3 (x, y, z)) s = some s' ∧ s'.coeffs = c ∧ Consistent o.exps o.qexps s' ∧
      ∀ x, (∃ i < o.qexps.length, ∃ xi ∈ inside i, X i xi = x) →
        (∀ (i : ℕ) e xi, o.exps[i]? = some e → xi ∈ inside i → X i xi = x → ∃ eta, CollapsedOf e.shape xi eta ∧ OffCollapsed e.shape eta.2.1 eta.2.2) →
        evaluateScalar3d o s' x.1 x.2.1 x.2.2 = some (linear b0 b1 b2 b3 x) ∧
        (b3 = 0 → x.2.2 = 0 → interpolate2d o (fun x y => b0 + b1 * x + b2 * y) s = some s' ∧ evaluateScalar2d o s' x.1 x.2.1 = some (b0 + b1 * x.1 + b2 * x.2.1)) := by
  have hsamp : o.coords.map (linear b0 b1 b2 b3) = o.bwdTrans c := by
    refine List.ext_getElem? fun k => ?_
    by_cases hk : k < P
    · obtain ⟨q, hqm, h1, h2⟩ := ho.cover k hk
      obtain ⟨i, hqi⟩ := List.getElem?_of_mem hqm
      obtain ⟨e, hei, hse⟩ := forall₂_get (List.Forall₂.flip ho.same) hqi
      have hse : Same e q := hse
      obtain ⟨j, rfl⟩ : ∃ j, k = q.physOffset + j := ⟨k - q.physOffset, by omega⟩
      have hj : j < numPoints q := by omega
      have hnd : ndim = 2 ∨ ndim = 3 := by rw [← ho.qfield.dim q hqm]; exact dim_cases _
      obtain ⟨eta, hnode⟩ := exists_node q (by rw [ho.qfield.base q hqm]; exact hnd) j hj
      obtain ⟨xi, hcol, hap, hcoord⟩ := hco i q hqi j eta hnode
      rw [agrees_at_node e q hse.2.2 (by rw [ho.qfield.base q hqm, ← ho.qfield.dim q hqm]) c _ (ho.bwd c hc.length i e q hei hqi) j eta hnode hj, List.getElem?_map, hcoord, Option.map_some]
      rw [← hse.2.2] at hcol hap
      rw [linear_value o ndim N ho.field X vert hX b0 b1 b2 b3 c hc i e hei xi eta hcol hap]
    · rw [List.getElem?_eq_none (by rw [List.length_map, ho.points]; omega), List.getElem?_eq_none (by rw [ho.bwd_length c hc.length]; omega)]
  have hint := interpolation_reproduces o ndim N P V ho (linear b0 b1 b2 b3) c hV hc.length hsamp s hs
  have hcons : Consistent o.exps o.qexps ⟨c, o.bwdTrans c⟩ := fun i e q h1 h2 => ho.bwd c hc.length i e q h1 h2
  refine ⟨⟨c, o.bwdTrans c⟩, hint, rfl, hcons, fun x hin hoff => ?_⟩
  obtain ⟨i, e, xi, hei, hxi, hXx, hval⟩ := (host_value o ndim N P V ho hev X inside hg hen ⟨c, o.bwdTrans c⟩ hcons (ho.bwd_length c hc.length) x).1 hin
  obtain ⟨eta, hcol, hof⟩ := hoff i e xi hei hxi hXx
  have hap : NotApex e.shape xi := by
    cases hsh : e.shape <;> rw [hsh] at hcol hof <;> simp only [NotApex, CollapsedOf, OffCollapsed] at hcol hof ⊢
    rw [← hcol.2.2]; exact hof
  have hlv := linear_value o ndim N ho.field X vert hX b0 b1 b2 b3 c hc i e hei xi eta hcol hap
  rw [hXx] at hlv
  refine ⟨by rw [(hval eta hcol hof).1, hlv], fun hb hz => ⟨?_, ?_⟩⟩
  · subst hb
    have : (fun x : K × K × K => b0 + b1 * x.1 + b2 * x.2.1) = linear b0 b1 b2 0 := by funext x; simp [linear]
    unfold interpolate2d
    rw [this]; exact hint
  · rw [(hval eta hcol hof).2 hz, hlv, linear, hb, zero_mul, add_zero]

/-! ### Derivatives on the host -/

/-- The derivative of the whole field and the derivatives of its elements have the same values at the quadrature points. -/
def DerivOk (o : Ops K) (D : ℕ → List K → List K) (P : ℕ) : Prop :=
  ∀ (i : ℕ) q, o.qexps[i]? = some q → ∀ d phys, phys.length = P → (D d phys).length = P ∧ (o.physDeriv i d (phys.drop q.physOffset)).length = numPoints q ∧
    ((D d phys).drop q.physOffset).take (numPoints q) = o.physDeriv i d (phys.drop q.physOffset)

/-- **C92, derivatives.** The host functions for the derivative at a position of an element - with the element and the local coordinates, with the element and the point, and with the point alone if Nektar++ finds this element - all
give the same number, which is the value at that position of the function that the device evaluates for component `d` of the gradient (`C80.derivative_stores_gradient_partial`). For an element or a point that does not
exist they read outside of their containers. -/
theorem host_derivative (o : Ops K) (ndim N P : ℕ) (V : Set (List K)) (ho : OpsOk o ndim N P V) (hev : EvaluateOk o) (X : ℕ → K × K × K → K × K × K) (inside : ℕ → Set (K × K × K))
    (hg : GeometryOk o X inside) (D : ℕ → List K → List K) (hD : DerivOk o D P) (s : FieldState K) (hP : s.phys.length = P) (d : ℕ) :
    (∀ (i : ℕ) q, o.qexps[i]? = some q → ∀ xi ∈ inside i, ∀ eta, CollapsedOf q.shape xi eta → OffCollapsed q.shape eta.2.1 eta.2.2 →
      ∃ v, IsValueAt q (D d s.phys) eta v ∧
        evaluateDerivativeLocal3d o s xi.1 xi.2.1 xi.2.2 d i = some v ∧
        evaluateDerivative3d o s (X i xi).1 (X i xi).2.1 (X i xi).2.2 d (some i) = some v ∧
        (o.expIndex (X i xi) = ((i : ℤ), xi) → evaluateDerivative3d o s (X i xi).1 (X i xi).2.1 (X i xi).2.2 d none = some v ∧
          ((X i xi).2.2 = 0 → evaluateDerivative2d o s (X i xi).1 (X i xi).2.1 d = some v))) ∧
    (∀ (i : ℤ) (x : K × K × K), i < 0 ∨ o.qexps.length ≤ i.toNat → evaluateDerivativeLocal3d o s x.1 x.2.1 x.2.2 d i = none ∧ evaluateDerivative3d o s x.1 x.2.1 x.2.2 d (some i) = none) ∧
    (∀ x, (¬ ∃ i < o.qexps.length, ∃ xi ∈ inside i, X i xi = x) → evaluateDerivative3d o s x.1 x.2.1 x.2.2 d none = none ∧ (x.2.2 = 0 → evaluateDerivative2d o s x.1 x.2.1 d = none)) := by
  have hel : ∀ (i : ℤ), i < 0 ∨ o.qexps.length ≤ i.toNat → ∀ xi, derivativeAt o s i xi d = none := by
    intro i hi xi
    unfold derivativeAt element
    by_cases h0 : i < 0
    · rw [if_pos h0]; rfl
    · rw [if_neg h0, List.getElem?_eq_none (by omega)]; rfl
  refine ⟨fun i q hqi xi hxi eta hcol hoff => ?_, fun i x hi => ⟨hel i hi _, hel i hi _⟩, fun x hno => ?_⟩
  · have hqm := List.mem_of_getElem? hqi
    obtain ⟨h1, h2, h3⟩ := hD i q hqi d s.phys hP
    have hv := hev i q hqi xi eta (o.physDeriv i d (s.phys.drop q.physOffset)) hcol hoff h2.ge
    have hv' : IsValueAt q (D d s.phys) eta (o.stdPhysEvaluate i xi (o.physDeriv i d (s.phys.drop q.physOffset))) := by
      have e1 : ((o.physDeriv i d (s.phys.drop q.physOffset)).drop 0).take (numPoints { q with physOffset := 0 }) = ((D d s.phys).drop q.physOffset).take (numPoints q) := by
        rw [h3, List.drop_zero]; exact List.take_of_length_le h2.le
      have e2 : IsValueAt { q with physOffset := 0 } ((D d s.phys).drop q.physOffset) eta (o.stdPhysEvaluate i xi (o.physDeriv i d (s.phys.drop q.physOffset))) := by
        unfold IsValueAt at hv ⊢
        dsimp only at hv ⊢
        rw [e1] at hv
        exact hv
      exact (isValueAt_block q _ eta _).1 e2
    have hat : ∀ xi', derivativeAt o s (i : ℤ) xi' d = some (o.stdPhysEvaluate i xi' (o.physDeriv i d (s.phys.drop q.physOffset))) := by
      intro xi'
      unfold derivativeAt element
      rw [if_neg (by omega), Int.toNat_natCast, hqi]; rfl
    refine ⟨_, hv', hat xi, ?_, fun hidx => ?_⟩
    · unfold evaluateDerivative3d
      dsimp only
      rw [Int.toNat_natCast, hg.loc i xi (List.getElem?_eq_some_iff.1 hqi).1 hxi]
      exact hat xi
    · have h3d : evaluateDerivative3d o s (X i xi).1 (X i xi).2.1 (X i xi).2.2 d none = some (o.stdPhysEvaluate i xi (o.physDeriv i d (s.phys.drop q.physOffset))) := by
        unfold evaluateDerivative3d
        dsimp only
        rw [hidx]; exact hat xi
      refine ⟨h3d, fun hz => ?_⟩
      rw [← h3d]
      unfold evaluateDerivative2d evaluateDerivative3d
      rw [hz]
  · have hneg : (o.expIndex x).1 < 0 := by
      by_contra hcon
      obtain ⟨hi, hin, hX⟩ := hg.found x (not_lt.1 hcon)
      exact hno ⟨_, hi, _, hin, hX⟩
    have h3 : evaluateDerivative3d o s x.1 x.2.1 x.2.2 d none = none := hel _ (Or.inl hneg) _
    refine ⟨h3, fun hz => ?_⟩
    rw [← h3]
    unfold evaluateDerivative2d evaluateDerivative3d
    rw [hz]

/-! ### Pyramids -/

theorem modA_ne (n : ℕ) (hn : 2 ≤ n) (z : List K) (m : ℕ) (hm : n + 1 ≤ m) (hz : ∀ i < m, ∀ j < m, z.getD i 0 = z.getD j 0 → i = j) :
    ∃ i < m, evalModA n (z.getD i 0) ≠ 0 := by
  by_contra hcon
  push Not at hcon
  obtain ⟨p, hp1, hp2⟩ := deg_modA (K := K) n
  have hp0 : p = 0 := by
    refine Polynomial.eq_zero_of_natDegree_lt_card_of_eval_eq_zero p (f := fun i : Fin m => z.getD i 0) (fun i j hij => Fin.ext (hz i i.2 j j.2 hij)) (fun i => ?_) ?_
    · rw [← hp2]; exact hcon i i.2
    · rw [Fintype.card_fin]; have : max 1 n = n := by omega
      omega
  obtain ⟨J, -, hJ⟩ := deg_jacobi (K := K) (n - 2) 1 1
  have hJ0 : J = 0 := by
    refine Polynomial.eq_zero_of_infinite_isRoot J (Set.Infinite.mono ?_ (Set.Ioo_infinite (show (-1 : K) < 1 by norm_num)))
    intro t ht
    have h0 := hp2 t
    dsimp only at h0
    rw [hp0, Polynomial.eval_zero, evalModA, if_neg (by omega), if_neg (by omega)] at h0
    have ha : (1 : K) / 2 * (1 - t) ≠ 0 := mul_ne_zero (by norm_num) (ne_of_gt (by linarith [ht.2]))
    have hb : (1 : K) / 2 * (1 + t) ≠ 0 := mul_ne_zero (by norm_num) (ne_of_gt (by linarith [ht.1]))
    rw [Set.mem_setOf_eq, Polynomial.IsRoot, ← hJ t]
    rcases mul_eq_zero.1 h0 with h | h
    · exact absurd h (mul_ne_zero ha hb)
    · exact h
  have h1 := hJ 1
  dsimp only at h1
  rw [hJ0, Polynomial.eval_zero, Verif.Lemmas.jacobi_eq_jacobiP, jacobiP, Finset.sum_eq_single 0] at h1
  · simp at h1
    have : ((n - 2 : ℕ) : K) + 1 ≠ 0 := by positivity
    exact this h1
  · intro k hk h0; rw [sub_self, zero_div, zero_pow h0, mul_zero]
  · simp

/-- The coefficients of the function that is one mode of the element. -/
def oneMode (e : Expansion) (N k : ℕ) : List K := (List.range N).map fun i => if i = e.offset + k then 1 else 0

theorem valueAt_oneMode (e : Expansion) (N k : ℕ) (hN : e.offset + k < N) (m : ℕ × ℕ × ℕ) (hm : (modesOf e.shape (order e))[k]? = some m) (eta : K × K × K) :
    valueAt e eta (oneMode e N k) = modeFn e.shape eta m := by
  rw [valueAt_sum]
  have hlen : (oneMode (K := K) e N k).length = N := by simp [oneMode]
  rw [hlen]
  have hterm : ∀ i ∈ List.range N, (oneMode (K := K) e N k).getD i 0 * (if e.offset ≤ i then ((modesOf e.shape (order e))[i - e.offset]?.map (modeFn e.shape eta)).getD 0 else 0) =
      if i = e.offset + k then modeFn e.shape eta m else 0 := by
    intro i hi
    have hi := List.mem_range.1 hi
    have hget : (oneMode (K := K) e N k).getD i 0 = if i = e.offset + k then 1 else 0 := by
      simp [oneMode, List.getD_eq_getElem?_getD, hi]
    rw [hget]
    by_cases h : i = e.offset + k
    · subst h; simp [hm]
    · simp [h]
  rw [List.map_congr_left hterm]
  clear hterm hlen
  have key : ∀ M : ℕ, ((List.range M).map fun i => if i = e.offset + k then modeFn e.shape eta m else 0).sum = if e.offset + k < M then modeFn e.shape eta m else 0 := by
    intro M
    induction M with
    | zero => simp
    | succ M ih =>
      rw [List.range_succ, List.map_append, List.sum_append, ih]
      rcases lt_trichotomy (e.offset + k) M with h | h | h
      · simp [h, Nat.lt_succ_of_lt h, (Nat.ne_of_gt h)]
      · simp [h]
      · simp [Nat.not_lt.2 h.le, Nat.ne_of_lt h, show ¬ (e.offset + k < M + 1) by omega]
  rw [key, if_pos hN]

/-- **C92, finding.** A pyramid with `n ≥ 5` modes in each direction and fewer than `2 n - 3` nodes in the third direction, as with the usual `n + 1` nodes: there is a function of the field whose value from the coefficients and
whose value from its values at the quadrature points differ at a point of the element that is not at a collapsed end. -/
theorem pyramid_evaluators_differ (e : Expansion) (N : ℕ) (he : e.shape = .pyr) (h5 : 5 ≤ order e) (hblock : e.offset + (modesPyr (order e)).length ≤ N)
    (q : QExpansion K) (b0 b1 b2 : List K × List K) (hb : q.base = [b0, b1, b2]) (hr : ∀ b ∈ q.base, b.1.length = b.2.length ∧ BaryRule b.1.length b.1 b.2)
    (h0 : order e ≤ b0.1.length) (h1 : order e ≤ b1.1.length) (h2 : b2.1.length < 2 * order e - 3) :
    ∃ c : List K, c.length = N ∧ ∀ phys, AgreesOn e q c phys →
      ∃ eta v, OffCollapsed e.shape eta.2.1 eta.2.2 ∧ -1 < eta.2.2 ∧ eta.2.2 < 1 ∧ IsValueAt q phys eta v ∧ valueAt e eta c ≠ v := by
  set n := order e with hn
  have hmem : (n - 1, n - 1, 0) ∈ modesOf e.shape (order e) := by
    rw [he, ← hn]
    simp only [modesOf, modesPyr, List.mem_flatMap, List.mem_map, List.mem_range]
    exact ⟨n - 1, by omega, n - 1, by omega, 0, by omega, rfl⟩
  obtain ⟨k, hk⟩ := List.getElem?_of_mem hmem
  have hkl : k < (modesPyr n).length := by
    have := (List.getElem?_eq_some_iff.1 hk).1
    rw [he] at this; exact this
  have hval := valueAt_oneMode (K := K) e N k (by omega) _ hk
  refine ⟨oneMode e N k, by simp [oneMode], fun phys hag => ?_⟩
  have r0 := (hr b0 (by simp [hb])).2
  have r1 := (hr b1 (by simp [hb])).2
  have r2 := (hr b2 (by simp [hb])).2
  obtain ⟨i0, hi0, hx⟩ := modA_ne (n - 1) (by omega) b0.1 b0.1.length (by omega) r0.distinct
  obtain ⟨i1, hi1, hy⟩ := modA_ne (n - 1) (by omega) b1.1 b1.1.length (by omega) r1.distinct
  set x := b0.1.getD i0 0
  set y := b1.1.getD i1 0
  have hmode : ∀ t : K, valueAt e (x, y, t) (oneMode e N k) = evalModA (n - 1) x * evalModA (n - 1) y * (1 / 2 * (1 - t)) ^ (2 * n - 4) := by
    intro t
    rw [hval, he]
    simp only [modeFn]
    rw [if_neg (by omega), evalModPyrC, if_neg (by omega), if_neg (by omega), if_neg (by omega), if_pos rfl]
    congr 2; omega
  have hag' := hag
  unfold AgreesOn at hag'
  rw [hb] at hag'
  obtain ⟨a, ha, -, -⟩ := Verif.Props.C15.evaluate_3d_is_interpolant _ _ _ b0.1 b1.1 b2.1 b0.2 b1.2 b2.2 _ 1
    ⟨b0.1.length * 1 + b1.1.length * 1 + b2.1.length * 1, fun _ => none⟩ r0 r1 r2 (by omega) le_rfl hag'.1
  by_contra hcon
  push Not at hcon
  set A := evalModA (n - 1) x * evalModA (n - 1) y with hA
  have hA0 : A ≠ 0 := mul_ne_zero hx hy
  have heq : ∀ t : K, -1 < t → t < 1 → poly3 b0.1.length b1.1.length b2.1.length a x y t = A * (1 / 2 * (1 - t)) ^ (2 * n - 4) := by
    intro t ht1 ht2
    have := hcon (x, y, t) (poly3 b0.1.length b1.1.length b2.1.length a x y t) (by rw [he]; exact ne_of_lt ht2) ht1 ht2 (by
      unfold IsValueAt
      rw [hb]
      exact ⟨a, ha, rfl⟩)
    rw [← this, hmode]
  -- both sides as polynomials in the third coordinate
  let L : Polynomial K := ∑ d ∈ Finset.range b2.1.length, Polynomial.C (∑ i ∈ Finset.range b0.1.length, ∑ j ∈ Finset.range b1.1.length, a i j d * x ^ i * y ^ j) * Polynomial.X ^ d
  let R : Polynomial K := Polynomial.C A * (Polynomial.C (1 / 2) * (1 - Polynomial.X)) ^ (2 * n - 4)
  have hL : ∀ t, L.eval t = poly3 b0.1.length b1.1.length b2.1.length a x y t := by
    intro t
    simp only [L, Polynomial.eval_finset_sum, Polynomial.eval_mul, Polynomial.eval_C, Polynomial.eval_pow, Polynomial.eval_X, poly3, Finset.sum_mul]
    rw [Finset.sum_comm]
    refine Finset.sum_congr rfl fun i _ => ?_
    rw [Finset.sum_comm]
  have hR : ∀ t, R.eval t = A * (1 / 2 * (1 - t)) ^ (2 * n - 4) := by
    intro t; simp [R]
  have hLR : L = R := by
    refine Polynomial.eq_of_infinite_eval_eq L R (Set.Infinite.mono ?_ (Set.Ioo_infinite (show (-1 : K) < 1 by norm_num)))
    intro t ht
    rw [Set.mem_setOf_eq, hL, hR, heq t ht.1 ht.2]
  have hdL : L.natDegree ≤ b2.1.length - 1 := by
    refine Polynomial.natDegree_sum_le_of_forall_le _ _ fun d hd => ?_
    have := Finset.mem_range.1 hd
    exact (Polynomial.natDegree_C_mul_X_pow_le _ _).trans (by omega)
  have hdR : R.natDegree = 2 * n - 4 := by
    have h1 : (1 - Polynomial.X : Polynomial K).natDegree = 1 := by
      rw [← Polynomial.natDegree_neg, neg_sub]
      exact Polynomial.natDegree_X_sub_C (1 : K)
    rw [Polynomial.natDegree_C_mul hA0, Polynomial.natDegree_pow, Polynomial.natDegree_C_mul (by norm_num), h1, mul_one]
  rw [hLR, hdR] at hdL
  have : 0 < b2.1.length := r2.pos
  omega

/-! ### Examples -/

/-- A field on one quadrilateral `[0, 2] × [0, 2]` with two modes and two nodes in each direction. -/
def exOps : Ops ℚ where
  exps := [⟨5, 0, .quad, [2, 2], 4, 0⟩]
  qexps := [⟨5, 0, .quad, [([-1, 1], [-1 / 2, 1 / 2]), ([-1, 1], [-1 / 2, 1 / 2])], 0⟩]
  coords := [(0, 0, 0), (2, 0, 0), (0, 2, 0), (2, 2, 0)]
  ncoeffs := 4
  fwdTrans := id
  bwdTrans := id
  expIndex := fun x => if 0 ≤ x.1 ∧ x.1 ≤ 2 ∧ 0 ≤ x.2.1 ∧ x.2.1 ≤ 2 ∧ x.2.2 = 0 then (0, (x.1 - 1, x.2.1 - 1, 0)) else (-1, 0)
  locCoords := fun _ x => (x.1 - 1, x.2.1 - 1, 0)
  stdPhysEvaluate := fun _ xi v => ((1 - xi.1) * (1 - xi.2.1) * v.getD 0 0 + (1 + xi.1) * (1 - xi.2.1) * v.getD 1 0 + (1 - xi.1) * (1 + xi.2.1) * v.getD 2 0 +
    (1 + xi.1) * (1 + xi.2.1) * v.getD 3 0) / 4
  physDeriv := fun _ d v => if d = 0 then [(v.getD 1 0 - v.getD 0 0) / 2, (v.getD 1 0 - v.getD 0 0) / 2, (v.getD 3 0 - v.getD 2 0) / 2, (v.getD 3 0 - v.getD 2 0) / 2] else v.take 4

theorem exValue (c : List ℚ) (hc : c.length = 4) (eta : ℚ × ℚ × ℚ) : valueAt ⟨5, 0, .quad, [2, 2], 4, 0⟩ eta c =
    ((1 - eta.1) * (1 - eta.2.1) * c.getD 0 0 + (1 + eta.1) * (1 - eta.2.1) * c.getD 1 0 + (1 - eta.1) * (1 + eta.2.1) * c.getD 2 0 + (1 + eta.1) * (1 + eta.2.1) * c.getD 3 0) / 4 := by
  match c, hc with
  | [c0, c1, c2, c3], _ =>
    simp [valueAt, List.range_succ, modeAt, basisAt, order, expansionQuad, evalModA]
    ring

theorem exOps_ok : OpsOk exOps 2 4 4 Set.univ where
  field := by
    constructor <;> simp [exOps, dimOf, order, totalNumModesShape] <;> decide
  qfield := by
    constructor
    · decide
    · decide
    · simp [exOps, dimOf]
    · simp [exOps]
    · intro e he b hb
      simp only [exOps, List.mem_singleton] at he
      subst he
      simp only [List.mem_cons, List.not_mem_nil, or_false, or_self] at hb
      subst hb; exact ⟨rfl, C80.rule_two⟩
    · simp [exOps, numPoints]
  same := by simp [exOps, Same]
  ncoeffs := rfl
  points := rfl
  cover := fun k hk => ⟨_, List.mem_singleton.2 rfl, Nat.zero_le _, by simpa [numPoints] using hk⟩
  fwd_length := fun f hf => hf
  bwd_length := fun f hf => hf
  bwd := by
    intro c hc i e q he hq
    match i, he, hq with
    | 0, he, hq =>
      simp only [exOps, List.getElem?_cons_zero, Option.some.injEq] at he hq
      subst he hq
      simp only [AgreesOn]
      match c, hc with
      | [c0, c1, c2, c3], hc =>
        refine ⟨by simp [exOps, numPoints], fun i1 h1 i0 h0 => ?_⟩
        dsimp only
        rw [exValue _ hc]
        simp only [List.length_cons, List.length_nil] at h0 h1
        interval_cases i1 <;> interval_cases i0 <;> simp [exOps, numPoints] <;> ring
    | i + 1, he, hq => simp [exOps] at he
  fwd_mem := fun _ _ => trivial
  fwd_bwd := fun _ _ _ => rfl

theorem exEvaluate : EvaluateOk exOps := by
  intro i q hq xi eta vals hcol hoff hlen
  match i, hq with
  | 0, hq =>
    simp only [exOps, List.getElem?_cons_zero, Option.some.injEq] at hq
    subst hq
    obtain ⟨hx, hy⟩ : eta.1 = xi.1 ∧ eta.2.1 = xi.2.1 := hcol
    match vals, hlen with
    | a :: b :: c :: d :: r, _ =>
      refine ⟨fun i j => if i = 0 then (if j = 0 then (a + b + c + d) / 4 else (c + d - a - b) / 4) else (if j = 0 then (b + d - a - c) / 4 else (a + d - b - c) / 4), ⟨by simp [numPoints], ?_⟩, ?_⟩
      · intro i1 h1 i0 h0
        simp only [List.length_cons, List.length_nil] at h0 h1
        interval_cases i1 <;> interval_cases i0 <;> simp [numPoints, poly2, Finset.sum_range_succ] <;> ring
      · simp [poly2, Finset.sum_range_succ, exOps, hx, hy]; ring
    | [], h => simp [numPoints] at h
    | [_], h => simp [numPoints] at h
    | [_, _], h => simp [numPoints] at h
    | [_, _, _], h => simp [numPoints] at h
  | i + 1, hq => simp [exOps] at hq

def exX : ℕ → ℚ × ℚ × ℚ → ℚ × ℚ × ℚ := fun _ xi => (xi.1 + 1, xi.2.1 + 1, 0)
def exInside : ℕ → Set (ℚ × ℚ × ℚ) := fun _ => {xi | -1 ≤ xi.1 ∧ xi.1 ≤ 1 ∧ -1 ≤ xi.2.1 ∧ xi.2.1 ≤ 1 ∧ xi.2.2 = 0}

theorem exGeometry : GeometryOk exOps exX exInside where
  found := by
    intro x hx
    simp only [exOps] at hx ⊢
    split_ifs at hx ⊢ with h
    · refine ⟨by simp, ⟨by linarith [h.1], by linarith [h.2.1], by linarith [h.2.2.1], by linarith [h.2.2.2.1], rfl⟩, ?_⟩
      simp [exX, ← h.2.2.2.2]
    · simp at hx
  complete := by
    intro x i xi _ hin hX
    subst hX
    obtain ⟨h1, h2, h3, h4, -⟩ := hin
    simp only [exOps, exX]
    rw [if_pos ⟨by linarith, by linarith, by linarith, by linarith, trivial⟩]
  loc := by
    intro i xi _ hin
    simp only [exOps, exX]
    rw [← hin.2.2.2.2]; simp

theorem exCoords : CoordsOk exOps exX := by
  intro i q hq k eta hn
  match i, hq with
  | 0, hq =>
    simp only [exOps, List.getElem?_cons_zero, Option.some.injEq] at hq
    subst hq
    obtain ⟨i0, h0, i1, h1, rfl, hx, hy⟩ := hn
    simp only [List.length_cons, List.length_nil] at h0 h1 hx hy
    refine ⟨(eta.1, eta.2.1, 0), ⟨rfl, rfl⟩, trivial, ?_⟩
    rw [hx, hy]
    interval_cases i1 <;> interval_cases i0 <;> simp [exOps, exX] <;> norm_num
  | i + 1, hq => simp [exOps] at hq

def exVert : ℕ → ℕ → ℚ × ℚ × ℚ := fun _ v => [(0, 0, 0), (2, 0, 0), (2, 2, 0), (0, 2, 0)].getD v 0

/-- The hypotheses of `linear_functions_exact` hold for the example: the function `3 + 2 x - y` is interpolated onto the field and evaluated at `(1/2, 3/2)`. -/
example : ∃ s', interpolate2d exOps (fun x y => 3 + 2 * x + -1 * y) ⟨[0, 0, 0, 0], [0, 0, 0, 0]⟩ = some s' ∧ evaluateScalar2d exOps s' (1 / 2) (3 / 2) = some (5 / 2) := by
  obtain ⟨s', h1, h2, h3, h4⟩ := linear_functions_exact exOps 2 4 4 Set.univ exOps_ok exEvaluate exX exInside exGeometry exCoords (by
      intro i e q he hq
      match i, he, hq with
      | 0, he, hq =>
        simp only [exOps, List.getElem?_cons_zero, Option.some.injEq] at he hq
        subst he hq
        exact ⟨2, 2, rfl, le_rfl, le_rfl⟩
      | i + 1, he, hq => simp [exOps] at he) exVert (by
      intro i e he xi _
      match i, he with
      | 0, he =>
        simp only [exOps, List.getElem?_cons_zero, Option.some.injEq] at he
        subst he
        simp [exX, VertexModes.interpolate, shapeFunctions, LinearElements.weights, List.range_succ, exVert]
        constructor <;> ring
      | i + 1, he => simp [exOps] at he) 3 2 (-1) 0 [3, 7, 1, 5] (by
      constructor
      · rfl
      · intro e he k hk
        simp only [exOps, List.mem_singleton] at he
        subst he
        simp only at hk
        interval_cases k <;> simp [vertexCoeffs, modesOf, List.range_succ, vertexOf, order, linear, exVert] <;> norm_num) trivial ⟨[0, 0, 0, 0], [0, 0, 0, 0]⟩ rfl
  obtain ⟨-, h5⟩ := h4 (1 / 2, 3 / 2, 0) ⟨0, by simp [exOps], (-1 / 2, 1 / 2, 0), by norm_num [exInside], by norm_num [exX]⟩ (by
      intro i e xi he hin hX
      match i, he with
      | 0, he =>
        simp only [exOps, List.getElem?_cons_zero, Option.some.injEq] at he
        subst he
        exact ⟨xi, ⟨rfl, rfl⟩, trivial⟩
      | i + 1, he => simp [exOps] at he)
  obtain ⟨h6, h7⟩ := h5 rfl rfl
  refine ⟨s', h6, h7.trans ?_⟩
  norm_num

/-- The derivative of the same field in the first direction. -/
example : evaluateDerivative2d exOps ⟨[3, 7, 1, 5], [3, 7, 1, 5]⟩ (1 / 2) (3 / 2) 0 = some 2 ∧ evaluateDerivativeLocal3d exOps ⟨[3, 7, 1, 5], [3, 7, 1, 5]⟩ (-1 / 2) (1 / 2) 0 0 0 = some 2 := by
  constructor <;> norm_num [evaluateDerivative2d, evaluateDerivativeLocal3d, derivativeAt, element, exOps]

/-- Outside of the mesh. -/
example : evaluateScalar2d exOps ⟨[3, 7, 1, 5], [3, 7, 1, 5]⟩ 5 0 = none := by
  norm_num [evaluateScalar2d, element, exOps]

/-- A pyramid with five modes and the usual six nodes does not have enough nodes; a hexahedron with five modes and six nodes has. -/
example : ¬ EnoughNodes .pyr 5 [6, 6, 6] ∧ EnoughNodes .hex 5 [6, 6, 6] ∧ EnoughNodes .pyr 4 [5, 5, 5] := by
  refine ⟨?_, ⟨6, 6, 6, rfl, by decide, by decide, by decide⟩, ⟨5, 5, 5, rfl, by decide, by decide, by decide, by decide⟩⟩
  rintro ⟨a, b, c, h, -, -, -, h2⟩
  cases h; omega

end Verif.Props.C92
