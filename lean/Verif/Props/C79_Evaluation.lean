import Verif.Props.C78_Projection

/-! C79: evaluating a field at the particles of a whole mesh. -/

namespace Verif.Props.C79
open Verif.Spec Verif.Model Verif.Model.JacobiCoeff Verif.Model.BasisReference Verif.Model.BasisEvaluation
  Verif.Model.BasisEvaluateBase Verif.Model.ExpansionLooping Verif.Model.FieldCoupling Verif.Spec.FieldCoupling
  Verif.Lemmas.FieldCoupling Verif.Props.C13 Verif.Props.C14 Verif.Props.C78

variable {K : Type*} [Field K] [LinearOrder K] [IsStrictOrderedRing K]

/-- The visited layers hold particles with the coordinates of the mesh, and `eta c l` are the collapsed coordinates, at least `tol` away from the collapsed edges and
vertices. -/
structure Located (tol : K) (cells : List Expansion) (ndim : ℕ) (parts : ℕ → List (Particle K)) (layers : ℕ → List ℕ)
    (eta : ℕ → ℕ → K × K × K) : Prop where
  ok : ∀ c e, cells[c]? = some e → ∀ l ∈ layers c, ∃ p, (parts c)[l]? = some p ∧ ndim ≤ p.ref.length ∧
    CollapsedOf e.shape (refPoint ndim p.ref) (eta c l) ∧ AwayFromCollapsed tol e.shape (refPoint ndim p.ref)

/-- As `Located` without a condition on the position: `eta c l` are the collapsed coordinates the code computes. -/
structure LocatedAt (tol : K) (cells : List Expansion) (ndim : ℕ) (parts : ℕ → List (Particle K)) (layers : ℕ → List ℕ)
    (eta : ℕ → ℕ → K × K × K) : Prop where
  ok : ∀ c e, cells[c]? = some e → ∀ l ∈ layers c, ∃ p, (parts c)[l]? = some p ∧ ndim ≤ p.ref.length ∧
    CodeEta tol e.shape (refPoint ndim p.ref) (eta c l)

theorem Located.at {tol : K} (ht : 0 < tol) {cells : List Expansion} {ndim : ℕ} {parts : ℕ → List (Particle K)} {layers : ℕ → List ℕ}
    {eta : ℕ → ℕ → K × K × K} (h : Located tol cells ndim parts layers eta) : LocatedAt tol cells ndim parts layers eta ∧ AllOff cells layers eta := by
  constructor
  · exact ⟨fun c e he l hl => by
      obtain ⟨p, h1, h2, h4, h5⟩ := h.ok c e he l hl
      exact ⟨p, h1, h2, (collapse_spec tol ht _ _ _ h4 h5).1⟩⟩
  · intro c e he l hl
    obtain ⟨p, h1, h2, h4, h5⟩ := h.ok c e he l hl
    exact (collapse_spec tol ht _ _ _ h4 h5).2

open Classical in
/-- What the evaluation stores on a particle: the value of the function, or not a number if the collapsed coordinates are exactly at a collapsed end. -/
noncomputable def stored (cells : List Expansion) (eta : ℕ → ℕ → K × K × K) (coeffs : List K) (c l : ℕ) : Dbl K :=
  if OffCollapsed (elementOf cells c).shape (eta c l).2.1 (eta c l).2.2 then some (valueAt (elementOf cells c) (eta c l) coeffs) else none

omit [IsStrictOrderedRing K] in
/-- The sum over the modes of the element is the sum over all modes of the field. -/
theorem dot_eq_valueAt (e : Expansion) (eta : K × K × K) (coeffs : List K)
    (h : e.offset + (basisAt e.shape (order e) eta.1 eta.2.1 eta.2.2).length ≤ coeffs.length) :
    dot (coeffs.drop e.offset) (basisAt e.shape (order e) eta.1 eta.2.1 eta.2.2) = valueAt e eta coeffs := by
  unfold valueAt modeAt dot
  generalize basisAt e.shape (order e) eta.1 eta.2.1 eta.2.2 = B at h ⊢
  obtain ⟨m, hm⟩ : ∃ m, coeffs.length = e.offset + m := ⟨coeffs.length - e.offset, by omega⟩
  rw [hm, List.range_add, List.map_append, List.sum_append]
  have h0 : ((List.range e.offset).map fun i => coeffs.getD i 0 * if e.offset ≤ i then B.getD (i - e.offset) 0 else 0).sum = 0 := by
    refine List.sum_eq_zero fun x hx => ?_
    rw [List.mem_map] at hx
    obtain ⟨i, hi, rfl⟩ := hx
    rw [if_neg (by have := List.mem_range.1 hi; omega), mul_zero]
  rw [h0, zero_add, List.map_map]
  obtain ⟨k, hk⟩ : ∃ k, m = B.length + k := ⟨m - B.length, by omega⟩
  rw [hk, List.range_add, List.map_append, List.sum_append]
  have h1 : (((List.range k).map (B.length + ·)).map ((fun i => coeffs.getD i 0 * if e.offset ≤ i then B.getD (i - e.offset) 0 else 0) ∘
      (e.offset + ·))).sum = 0 := by
    refine List.sum_eq_zero fun x hx => ?_
    simp only [List.mem_map, List.mem_range, Function.comp_apply] at hx
    obtain ⟨_, ⟨j, hj, rfl⟩, rfl⟩ := hx
    rw [if_pos (by omega), List.getD_eq_default B _ (by omega), mul_zero]
  rw [h1, add_zero]
  congr 1
  refine List.ext_getElem (by simp; omega) fun i h2 h3 => ?_
  have hi : i < B.length := by simpa using h3
  simp only [List.getElem_zipWith, List.getElem_drop, List.getElem_map, List.getElem_range, Function.comp_apply]
  rw [if_pos (by omega), Nat.add_sub_cancel_left, List.getD_eq_getElem _ _ (by omega), List.getD_eq_getElem _ _ hi]

theorem evaluate_item (tol : K) (exps : List Expansion) (ndim N : ℕ) (hf : FieldOk exps ndim N) (cells : List Expansion)
    (hc : ∀ e ∈ cells, e ∈ exps) (parts : ℕ → List (Particle K)) (layers : ℕ → List ℕ) (eta : ℕ → ℕ → K × K × K)
    (hp : LocatedAt tol cells ndim parts layers eta) (coeffs : List K) (hN : coeffs.length = N) (mem : List (Dbl K)) (w : Shape × ℕ × ℕ)
    (hm : sumMaxModes (baseOf cells) w.1 ≤ mem.length) (hw : w ∈ workItems (baseOf cells) ndim layers) :
    evaluateItem tol (baseOf cells) parts coeffs mem w = some (stored cells eta coeffs w.2.1 w.2.2) := by
  obtain ⟨e, he, hsh, hl⟩ := mem_workItems cells ndim layers w hw
  obtain ⟨sh, c, l⟩ := w
  simp only at he hsh hl hm ⊢
  subst hsh
  have hemem : e ∈ cells := List.mem_of_getElem? he
  have heexp := hc e hemem
  obtain ⟨p, hpl, href, hcode⟩ := hp.ok c e he l hl
  have hdim := hf.dim e heexp
  have hn : ndim = 2 ∨ ndim = 3 := by rw [← hdim]; cases e.shape <;> simp [dimOf]
  have hmodes : e.modes.length = ndim := by rw [hf.modes e heexp]; simp
  obtain ⟨r0, r1, r2⟩ := regions_length (baseOf cells) e.shape mem hm
  have s0 : spaceSize e.shape (order e) 0 ≤ (regions (baseOf cells) e.shape mem).1.length :=
    le_trans (space_ge cells e hemem 0 (by omega)) r0
  have s1 : spaceSize e.shape (order e) 1 ≤ (regions (baseOf cells) e.shape mem).2.1.length :=
    le_trans (space_ge cells e hemem 1 (by omega)) r1
  have s2 : spaceSize e.shape (order e) 2 ≤ (regions (baseOf cells) e.shape mem).2.2.length := by
    by_cases h2 : ndim = 2
    · have : spaceSize e.shape (order e) 2 = 0 := by
        rw [h2] at hdim; revert hdim; cases e.shape <;> simp [dimOf, spaceSize]
      omega
    · exact le_trans (space_ge cells e hemem 2 (by omega)) r2
  have hbl := hf.block e heexp
  have hnc := hf.ncoeffs e heexp
  obtain ⟨b1, b2⟩ := eval_modes_is_basis e.shape (order e) (eta c l).1 (eta c l).2.1 (eta c l).2.2
  have hev := evaluate_all tol (cells.map fun e => (e.shape, order e)) e.shape (order e)
    (List.mem_map.2 ⟨e, hemem, rfl⟩) (hf.two e heexp) (refPoint ndim p.ref) _ _ _ s0 s1 s2 (coeffs.drop e.offset)
    (by rw [List.length_drop]; omega) (eta c l) hcode
  unfold evaluateItem
  have e1 : (baseOf cells).nummodes[c]? = some (order e) := by simp [baseOf, he]
  have e2 : (baseOf cells).offsets[c]? = some e.offset := by simp [baseOf, he]
  simp only [e1, e2, hpl, Option.bind_some]
  rw [hdim, extractRef_eq ndim hn p.ref href, Option.bind_some]
  have ht' : (baseOf cells).tables K = BasisEvaluateBase.tables K (cells.map fun e => (e.shape, order e)) := rfl
  have hel : elementOf cells c = e := by simp [elementOf, he]
  rw [ht', hev, stored, hel, b1, dot_eq_valueAt e (eta c l) coeffs (by rw [b2]; omega)]

theorem mapM_map {α β : Type*} (l : List α) (f : α → Option β) (g : α → β) (h : ∀ a ∈ l, f a = some (g a)) : l.mapM f = some (l.map g) := by
  induction l with
  | nil => rfl
  | cons a l ih => rw [List.mapM_cons, h a (by simp), ih fun x hx => h x (List.mem_cons_of_mem _ hx)]; rfl

open Classical in
/-- Stores of the same value to the same place: the order and repetitions do not matter. -/
theorem stores (sched : List (ℕ × ℕ × Dbl K)) (component : ℕ) (g : ℕ → ℕ → Dbl K) (h : ∀ x ∈ sched, x.2.2 = g x.1 x.2.1) (before : Dat K) (c l comp : ℕ) :
    (sched.foldl (fun d (x : ℕ × ℕ × Dbl K) => d.store x.1 x.2.1 component x.2.2) before) c l comp =
      if comp = component ∧ ∃ v, (c, l, v) ∈ sched then g c l else before c l comp := by
  induction sched generalizing before with
  | nil => simp
  | cons x xs ih =>
    rw [List.foldl_cons, ih fun y hy => h y (List.mem_cons_of_mem _ hy)]
    by_cases h1 : comp = component ∧ ∃ v, (c, l, v) ∈ xs
    · rw [if_pos h1, if_pos ⟨h1.1, h1.2.choose, List.mem_cons_of_mem _ h1.2.choose_spec⟩]
    · rw [if_neg h1]
      unfold Dat.store
      by_cases h2 : c = x.1 ∧ l = x.2.1 ∧ comp = component
      · rw [if_pos h2, if_pos ⟨h2.2.2, x.2.2, by rw [h2.1, h2.2.1]; simp⟩, h x (by simp), h2.1, h2.2.1]
      · rw [if_neg h2, if_neg]
        rintro ⟨hcomp, v, hv⟩
        rcases List.mem_cons.1 hv with hv | hv
        · subst hv; exact h2 ⟨rfl, rfl, hcomp⟩
        · exact h1 ⟨hcomp, v, hv⟩

/-- **C79.** For every field, cells, particles and selection of particles, local memory of the allocated size with any content and every order of the work items: the evaluation has no access
outside of its buffers, stores in the given component of each selected particle the value of the function at the collapsed coordinates the code computes for the particle (not a number if these are exactly at a collapsed end), and changes no
other component and no other particle. -/
theorem evaluation_stores_values (tol : K) (exps : List Expansion) (ndim N : ℕ) (hf : FieldOk exps ndim N) (cells : List Expansion)
    (hc : ∀ e ∈ cells, e ∈ exps) (parts : ℕ → List (Particle K)) (layers : ℕ → List ℕ) (eta : ℕ → ℕ → K × K × K)
    (hp : LocatedAt tol cells ndim parts layers eta) (component : ℕ) (coeffs : List K) (hN : coeffs.length = N) :
    ∃ s, Base.build exps (cells.map (·.gid)) = some s ∧
    ∀ mem : Shape × ℕ × ℕ → List (Dbl K), (∀ w, sumMaxModes s w.1 ≤ (mem w).length) →
      ∀ before after : Dat K, EvaluatesTo tol s ndim parts layers component coeffs mem before after ↔
        ∀ c l comp, after c l comp = if comp = component ∧ c < cells.length ∧ l ∈ layers c
          then stored cells eta coeffs c l else before c l comp := by
  refine ⟨baseOf cells, build_eq exps ndim N hf cells hc, fun mem hm before after => ?_⟩
  have hd : ∀ e ∈ cells, dimOf e.shape = ndim := fun e he => hf.dim e (hc e he)
  have hM := mapM_map (workItems (baseOf cells) ndim layers)
    (fun w => (evaluateItem tol (baseOf cells) parts coeffs (mem w) w).map fun v => (w.2.1, w.2.2, v))
    (fun w => (w.2.1, w.2.2, stored cells eta coeffs w.2.1 w.2.2))
    (fun w hw => by
      rw [evaluate_item tol exps ndim N hf cells hc parts layers eta hp coeffs hN (mem w) w (hm w) hw, Option.map_some])
  have hst : ∀ sched : List (ℕ × ℕ × Dbl K), sched.Perm ((workItems (baseOf cells) ndim layers).map fun w =>
      (w.2.1, w.2.2, stored cells eta coeffs w.2.1 w.2.2)) → ∀ c l comp,
      (sched.foldl (fun d (x : ℕ × ℕ × Dbl K) => d.store x.1 x.2.1 component x.2.2) before) c l comp =
      if comp = component ∧ c < cells.length ∧ l ∈ layers c then stored cells eta coeffs c l else before c l comp := by
    intro sched hs c l comp
    rw [stores sched component (stored cells eta coeffs) (by
      intro x hx
      have := hs.subset hx
      rw [List.mem_map] at this
      obtain ⟨w, -, rfl⟩ := this
      rfl)]
    have hiff : (∃ v, (c, l, v) ∈ sched) ↔ c < cells.length ∧ l ∈ layers c := by
      rw [← mem_work_iff cells ndim hd layers c l]
      constructor
      · rintro ⟨v, hv⟩
        have := hs.subset hv
        rw [List.mem_map] at this
        obtain ⟨⟨sh, c', l'⟩, hw, he⟩ := this
        simp only [Prod.mk.injEq] at he
        obtain ⟨rfl, rfl, -⟩ := he
        exact ⟨sh, hw⟩
      · rintro ⟨sh, hw⟩
        exact ⟨_, hs.symm.subset (List.mem_map.2 ⟨_, hw, rfl⟩)⟩
    by_cases hb : comp = component ∧ c < cells.length ∧ l ∈ layers c
    · rw [if_pos hb, if_pos ⟨hb.1, hiff.2 hb.2⟩]
    · rw [if_neg hb, if_neg fun h => hb ⟨h.1, hiff.1 h.2⟩]
  constructor
  · rintro ⟨vals, sched, h1, h2, rfl⟩
    rw [hM] at h1
    cases h1
    exact hst sched h2
  · intro h
    refine ⟨_, _, hM, List.Perm.refl _, ?_⟩
    funext c l comp
    rw [h c l comp, hst _ (List.Perm.refl _)]

/-- As `evaluation_stores_values`, with the collapsed coordinates of the reference positions, at least the tolerance away from the collapsed edges and vertices: the values are those of the function at the particles. -/
theorem evaluation_stores_values_partial (tol : K) (ht : 0 < tol) (exps : List Expansion) (ndim N : ℕ) (hf : FieldOk exps ndim N) (cells : List Expansion)
    (hc : ∀ e ∈ cells, e ∈ exps) (parts : ℕ → List (Particle K)) (layers : ℕ → List ℕ) (eta : ℕ → ℕ → K × K × K)
    (hp : Located tol cells ndim parts layers eta) (component : ℕ) (coeffs : List K) (hN : coeffs.length = N) :
    ∃ s, Base.build exps (cells.map (·.gid)) = some s ∧
    ∀ mem : Shape × ℕ × ℕ → List (Dbl K), (∀ w, sumMaxModes s w.1 ≤ (mem w).length) →
      ∀ before after : Dat K, EvaluatesTo tol s ndim parts layers component coeffs mem before after ↔
        ∀ c l comp, after c l comp = if comp = component ∧ c < cells.length ∧ l ∈ layers c
          then some (valueAt (elementOf cells c) (eta c l) coeffs) else before c l comp := by
  obtain ⟨hat, hoff⟩ := hp.at ht
  obtain ⟨s, hs, h⟩ := evaluation_stores_values tol exps ndim N hf cells hc parts layers eta hat component coeffs hN
  refine ⟨s, hs, fun mem hm before after => (h mem hm before after).trans ?_⟩
  refine forall_congr' fun c => forall_congr' fun l => forall_congr' fun comp => ?_
  by_cases hcond : comp = component ∧ c < cells.length ∧ l ∈ layers c
  · rw [if_pos hcond, if_pos hcond, stored, if_pos]
    have := hoff c cells[c] (List.getElem?_eq_getElem hcond.2.1) l hcond.2.2
    simpa [elementOf, hcond.2.1] using this
  · rw [if_neg hcond, if_neg hcond]

/-- **C79, adjoint.** Projection and evaluation on the same mesh and the same selection of particles are adjoint: for every execution of both whose right hand side is finite, the stored values are finite, and pairing the projected
right hand side with the coefficients of any function gives the sum over the particles of the weight times the value that the evaluation of that function stored on the particle. -/
theorem evaluation_adjoint_to_projection (tol : K) (exps : List Expansion) (ndim N : ℕ) (hf : FieldOk exps ndim N) (cells : List Expansion)
    (hc : ∀ e ∈ cells, e ∈ exps) (parts : ℕ → List (Particle K)) (layers : ℕ → List ℕ) (cp ce : ℕ) (eta : ℕ → ℕ → K × K × K)
    (hp : ParticlesAt tol cells ndim parts layers cp eta) (v : List K) (hv : v.length = N) (s : Base)
    (hs : Base.build exps (cells.map (·.gid)) = some s)
    (mem mem' : Shape × ℕ × ℕ → List (Dbl K)) (hm : ∀ w, sumMaxModes s w.1 ≤ (mem w).length) (hm' : ∀ w, sumMaxModes s w.1 ≤ (mem' w).length)
    (r : List K) (hr : ProjectsTo tol s ndim parts layers cp mem N (r.map some))
    (before after : Dat K) (he : EvaluatesTo tol s ndim parts layers ce v mem' before after) :
    (∀ c < cells.length, ∀ l ∈ layers c, ∃ x, after c l ce = some x) ∧
      dot v r = overParticles cells.length layers fun c l => weight parts cp c l * (after c l ce).getD 0 := by
  have hoff : AllOff cells layers eta := by
    by_contra hcon
    obtain ⟨s1, hs1, h1⟩ := rhs_not_finite tol exps ndim N hf cells hc parts layers cp eta hp hcon
    rw [hs] at hs1; cases hs1
    have := (h1 mem hm).2 _ hr
    simp at this
  obtain ⟨s1, hs1, h1⟩ := rhs_is_weighted_sum tol exps ndim N hf cells hc parts layers cp eta hp hoff
  rw [hs] at hs1; cases hs1
  obtain ⟨s2, hs2, h2⟩ := evaluation_stores_values tol exps ndim N hf cells hc parts layers eta
    ⟨fun c e he l hl => by
      obtain ⟨p, a1, a2, -, a3⟩ := hp.ok c e he l hl
      exact ⟨p, a1, a2, a3⟩⟩ ce v hv
  rw [hs] at hs2; cases hs2
  have hr := ((h1 mem hm).2 _).1 hr
  have he := (h2 mem' hm' before after).1 he
  have hval : ∀ c < cells.length, ∀ l ∈ layers c, after c l ce = some (valueAt (elementOf cells c) (eta c l) v) := by
    intro c hcl l hl
    rw [he c l ce, if_pos ⟨rfl, hcl, hl⟩, stored, if_pos]
    have := hoff c cells[c] (List.getElem?_eq_getElem hcl) l hl
    simpa [elementOf, hcl] using this
  refine ⟨fun c hcl l hl => ⟨_, hval c hcl l hl⟩, ?_⟩
  have hr' : r = (List.range N).map fun i => overParticles cells.length layers fun c l => weight parts cp c l * modeAt (elementOf cells c) (eta c l) i := by
    refine List.map_injective_iff.2 (Option.some_injective _) (hr.trans ?_)
    rw [List.map_map]; rfl
  have := rhs_pairing cells N (fun c => (parts c).map fun p => ⟨p.ref, fun _ => p.dat⟩) layers eta ("", (cp : ℤ)) v hv
  have hview : view "" (fun c => (parts c).map fun p => (⟨p.ref, fun _ => p.dat⟩ : FullParticle K)) = parts := by
    funext c; simp only [view, List.map_map]
    exact (List.map_congr_left (g := id) fun _ _ => rfl).trans (List.map_id _)
  simp only [rhsOf, hview, Int.toNat_natCast] at this
  rw [hr', this]
  refine overParticles_congr _ _ _ _ fun c hc l hl => ?_
  rw [hval c hc l hl]; rfl

/-- A constant function is evaluated to its constant, here for the quadrilateral of the example: all four vertex modes sum to one. -/
example (eta : ℚ × ℚ × ℚ) (r : ℚ) : valueAt (K := ℚ) ⟨7, 1, .quad, [2, 2], 4, 0⟩ eta [r, r, r, r, 5, 6, 7] = r := by
  simp [valueAt, List.range_succ, modeAt, basisAt, order, expansionQuad, evalModA]
  ring

/-- The particles of the example of C78 meet the hypotheses. -/
example : Located (K := ℚ) (1 / 100) exampleField.reverse 2 (fun c => if c = 0 then [⟨[1 / 2, -1 / 2], []⟩, ⟨[0, 0], []⟩] else [])
    (fun c => if c = 0 then [1] else []) (fun _ _ => (0, 0, 0)) where
  ok := by
    intro c e he l hl
    match c, he with
    | 0, he =>
      simp [exampleField] at he
      simp at hl
      subst hl
      refine ⟨⟨[0, 0], []⟩, rfl, by simp, ?_, ?_⟩ <;> subst he <;> simp [CollapsedOf, refPoint, AwayFromCollapsed]
    | c + 1, he => simp at hl

end Verif.Props.C79
