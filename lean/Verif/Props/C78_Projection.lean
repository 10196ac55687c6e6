import Verif.Props.C14_Project
import Verif.Lemmas.FieldCoupling
import Mathlib.Algebra.BigOperators.Ring.List

/-! C78: projecting the particles of a whole mesh onto a field. -/

namespace Verif.Props.C78
open Verif.Spec Verif.Model Verif.Model.JacobiCoeff Verif.Model.BasisReference Verif.Model.BasisEvaluation
  Verif.Model.BasisEvaluateBase Verif.Model.ExpansionLooping Verif.Model.FieldCoupling Verif.Spec.FieldCoupling
  Verif.Lemmas.FieldCoupling Verif.Props.C13 Verif.Props.C14

variable {K : Type*} [Field K] [LinearOrder K] [IsStrictOrderedRing K]

/-- The particles of the (sub) group are where the mapping put them: a visited layer holds a particle with the coordinates of the mesh and the component that is
projected, and `eta c l` are its collapsed coordinates in the element of its cell, at least `tol` away from the collapsed edges and vertices. -/
structure ParticlesOk (tol : K) (cells : List Expansion) (ndim : ℕ) (parts : ℕ → List (Particle K)) (layers : ℕ → List ℕ) (component : ℕ)
    (eta : ℕ → ℕ → K × K × K) : Prop where
  ok : ∀ c e, cells[c]? = some e → ∀ l ∈ layers c, ∃ p, (parts c)[l]? = some p ∧ ndim ≤ p.ref.length ∧ component < p.dat.length ∧
    CollapsedOf e.shape (refPoint ndim p.ref) (eta c l) ∧ AwayFromCollapsed tol e.shape (refPoint ndim p.ref)

/-- As `ParticlesOk` without a condition on the position: `eta c l` are the collapsed coordinates the code computes (`CodeEta` of C13). -/
structure ParticlesAt (tol : K) (cells : List Expansion) (ndim : ℕ) (parts : ℕ → List (Particle K)) (layers : ℕ → List ℕ) (component : ℕ)
    (eta : ℕ → ℕ → K × K × K) : Prop where
  ok : ∀ c e, cells[c]? = some e → ∀ l ∈ layers c, ∃ p, (parts c)[l]? = some p ∧ ndim ≤ p.ref.length ∧ component < p.dat.length ∧
    CodeEta tol e.shape (refPoint ndim p.ref) (eta c l)

/-- No particle of the (sub) group has collapsed coordinates exactly at a collapsed end. -/
def AllOff (cells : List Expansion) (layers : ℕ → List ℕ) (eta : ℕ → ℕ → K × K × K) : Prop :=
  ∀ c e, cells[c]? = some e → ∀ l ∈ layers c, OffCollapsed e.shape (eta c l).2.1 (eta c l).2.2

theorem ParticlesOk.at {tol : K} (ht : 0 < tol) {cells : List Expansion} {ndim : ℕ} {parts : ℕ → List (Particle K)} {layers : ℕ → List ℕ} {component : ℕ}
    {eta : ℕ → ℕ → K × K × K} (h : ParticlesOk tol cells ndim parts layers component eta) :
    ParticlesAt tol cells ndim parts layers component eta ∧ AllOff cells layers eta := by
  constructor
  · exact ⟨fun c e he l hl => by
      obtain ⟨p, h1, h2, h3, h4, h5⟩ := h.ok c e he l hl
      exact ⟨p, h1, h2, h3, (collapse_spec tol ht _ _ _ h4 h5).1⟩⟩
  · intro c e he l hl
    obtain ⟨p, h1, h2, h3, h4, h5⟩ := h.ok c e he l hl
    exact (collapse_spec tol ht _ _ _ h4 h5).2

/-- The weight of a particle: the component of its dat. -/
def weight (parts : ℕ → List (Particle K)) (component c l : ℕ) : K := (((parts c)[l]?.map fun p => p.dat.getD component 0)).getD 0

/-- The element of a cell. -/
def elementOf (cells : List Expansion) (c : ℕ) : Expansion := (cells[c]?).getD ⟨0, 0, .quad, [], 0, 0⟩

/-- The sum over the visited particles of all cells. -/
def overParticles (ncells : ℕ) (layers : ℕ → List ℕ) (f : ℕ → ℕ → K) : K :=
  ((List.range ncells).map fun c => ((layers c).map fun l => f c l).sum).sum

omit [LinearOrder K] [IsStrictOrderedRing K] in
theorem extractRef_eq (ndim : ℕ) (hn : ndim = 2 ∨ ndim = 3) (ref : List K) (h : ndim ≤ ref.length) :
    extractRef ndim ref = some (refPoint ndim ref) := by
  rcases hn with rfl | rfl
  · match ref, h with
    | x :: y :: rest, _ => simp [extractRef, refPoint]
  · match ref, h with
    | x :: y :: z :: rest, _ => simp [extractRef, refPoint]

omit [LinearOrder K] [IsStrictOrderedRing K] in
theorem sum_single (k : ℕ) (m0 : ℕ) (g : ℕ → K) :
    ((List.range k).map fun m => if m = m0 then g m else 0).sum = if m0 < k then g m0 else 0 := by
  induction k with
  | zero => simp
  | succ k ih =>
    rw [List.range_succ, List.map_append, List.sum_append, ih]
    rcases Nat.lt_trichotomy m0 k with h | h | h
    · simp [h, show k ≠ m0 by omega, show m0 < k + 1 by omega]
    · subst h; simp
    · simp [show k ≠ m0 by omega, show ¬ m0 < k by omega, show ¬ m0 < k + 1 by omega]

theorem regions_length {α : Type*} (s : Base) (sh : Shape) (mem : List α) (h : sumMaxModes s sh ≤ mem.length) :
    s.spaces sh 0 ≤ (regions s sh mem).1.length ∧ s.spaces sh 1 ≤ (regions s sh mem).2.1.length ∧
      s.spaces sh 2 ≤ (regions s sh mem).2.2.length := by
  simp only [sumMaxModes] at h
  simp only [regions, List.length_take, List.length_drop]
  omega

/-- The regions are consecutive parts of the local memory, of which they use the first `sum_max_modes` entries: no two of them share an entry, so that treating them as separate arrays is exact. -/
theorem regions_disjoint {α : Type*} (s : Base) (sh : Shape) (mem : List α) (h : sumMaxModes s sh ≤ mem.length) :
    (regions s sh mem).1 ++ (regions s sh mem).2.1 ++ (regions s sh mem).2.2 = mem.take (sumMaxModes s sh) ∧
      (regions s sh mem).1.length = s.spaces sh 0 ∧ (regions s sh mem).2.1.length = s.spaces sh 1 ∧ (regions s sh mem).2.2.length = s.spaces sh 2 := by
  simp only [sumMaxModes] at h ⊢
  refine ⟨?_, ?_, ?_, ?_⟩
  · simp only [regions]
    rw [List.take_add, List.take_add]
  all_goals (simp only [regions, List.length_take, List.length_drop]; omega)

/-- The additions of one work item: finite, within the coefficients of the field, and in total the weight times the value of each mode. -/
theorem project_item (tol : K) (exps : List Expansion) (ndim N : ℕ) (hf : FieldOk exps ndim N) (cells : List Expansion)
    (hc : ∀ e ∈ cells, e ∈ exps) (parts : ℕ → List (Particle K)) (layers : ℕ → List ℕ) (component : ℕ) (eta : ℕ → ℕ → K × K × K)
    (hp : ParticlesAt tol cells ndim parts layers component eta) (mem : List (Dbl K)) (w : Shape × ℕ × ℕ)
    (hm : sumMaxModes (baseOf cells) w.1 ≤ mem.length)
    (hw : w ∈ workItems (baseOf cells) ndim layers) :
    (OffCollapsed (elementOf cells w.2.1).shape (eta w.2.1 w.2.2).2.1 (eta w.2.1 w.2.2).2.2 →
      ∃ adds : List (ℕ × K), projectItem tol (baseOf cells) parts component mem w = some (lift adds) ∧
      (∀ a ∈ adds, a.1 < N) ∧
      ∀ i, total adds i = weight parts component w.2.1 w.2.2 * modeAt (elementOf cells w.2.1) (eta w.2.1 w.2.2) i) ∧
    (¬ OffCollapsed (elementOf cells w.2.1).shape (eta w.2.1 w.2.2).2.1 (eta w.2.1 w.2.2).2.2 →
      ∃ adds : List (ℕ × Dbl K), projectItem tol (baseOf cells) parts component mem w = some adds ∧
      (∀ a ∈ adds, a.1 < N) ∧ ∃ a ∈ adds, a.2 = none) := by
  obtain ⟨e, he, hsh, hl⟩ := mem_workItems cells ndim layers w hw
  obtain ⟨sh, c, l⟩ := w
  simp only at he hsh hl hm ⊢
  subst hsh
  have hemem : e ∈ cells := List.mem_of_getElem? he
  have heexp := hc e hemem
  obtain ⟨p, hpl, href, hcomp, hcode⟩ := hp.ok c e he l hl
  have hel : elementOf cells c = e := by simp [elementOf, he]
  have hdim := hf.dim e heexp
  have hn : ndim = 2 ∨ ndim = 3 := by rw [← hdim]; cases e.shape <;> simp [dimOf]
  have hmodes : e.modes.length = ndim := by rw [hf.modes e heexp]; simp
  obtain ⟨r0, r1, r2⟩ := regions_length (baseOf cells) e.shape mem hm
  have s0 : spaceSize e.shape (order e) 0 ≤ (regions (baseOf cells) e.shape mem).1.length :=
    le_trans (space_ge cells e hemem 0 (by omega)) r0
  have s1 : spaceSize e.shape (order e) 1 ≤ (regions (baseOf cells) e.shape mem).2.1.length :=
    le_trans (space_ge cells e hemem 1 (by omega)) r1
  have s2 : spaceSize e.shape (order e) 2 ≤ (regions (baseOf cells) e.shape mem).2.2.length := by
    by_cases h2 : ndim = 2
    · have : spaceSize e.shape (order e) 2 = 0 := by
        rw [h2] at hdim; revert hdim; cases e.shape <;> simp [dimOf, spaceSize]
      omega
    · exact le_trans (space_ge cells e hemem 2 (by omega)) r2
  obtain ⟨hyes, hno⟩ := projection_all tol (cells.map fun e => (e.shape, order e)) e.shape (order e)
    (List.mem_map.2 ⟨e, hemem, rfl⟩) (hf.two e heexp) (refPoint ndim p.ref) _ _ _ s0 s1 s2 (eta c l) hcode (p.dat.getD component 0)
  have hitem : projectItem tol (baseOf cells) parts component mem (e.shape, c, l) =
      (projectParticle tol (BasisEvaluateBase.tables K (cells.map fun e => (e.shape, order e))) e.shape (order e) (refPoint ndim p.ref)
        (regions (baseOf cells) e.shape mem).1 (regions (baseOf cells) e.shape mem).2.1 (regions (baseOf cells) e.shape mem).2.2
        (p.dat.getD component 0)).map fun adds => adds.map fun a => (e.offset + a.1, a.2) := by
    unfold projectItem
    have e1 : (baseOf cells).nummodes[c]? = some (order e) := by simp [baseOf, he]
    have e2 : (baseOf cells).offsets[c]? = some e.offset := by simp [baseOf, he]
    simp only [e1, e2, hpl, Option.bind_some]
    rw [hdim, extractRef_eq ndim hn p.ref href, Option.bind_some, List.getElem?_eq_getElem hcomp, Option.bind_some,
      ← List.getD_eq_getElem _ 0 hcomp]
    rfl
  refine ⟨fun hoff => ?_, fun hoff => ?_⟩
  rotate_left
  · rw [hel] at hoff
    obtain ⟨adds, ha, hfst, a, haa, han⟩ := hno hoff
    refine ⟨adds.map fun a => (e.offset + a.1, a.2), by rw [hitem, ha]; rfl, ?_, (e.offset + a.1, a.2), List.mem_map.2 ⟨a, haa, rfl⟩, han⟩
    intro x hx
    rw [List.mem_map] at hx
    obtain ⟨b, hb, rfl⟩ := hx
    have h1 : b.1 ∈ adds.map Prod.fst := List.mem_map.2 ⟨b, hb, rfl⟩
    rw [hfst, List.mem_range] at h1
    have h2 := hf.block e heexp
    rw [hf.ncoeffs e heexp] at h2
    dsimp only
    omega
  rw [hel] at hoff
  obtain ⟨adds, ha, hfst, hsnd⟩ := hyes hoff
  obtain ⟨b1, b2⟩ := eval_modes_is_basis e.shape (order e) (eta c l).1 (eta c l).2.1 (eta c l).2.2
  have hlen : adds.length = (totalNumModesShape e.shape (order e)).mode := by
    have := congrArg List.length hfst; simpa using this
  have hadds : adds = (List.range (totalNumModesShape e.shape (order e)).mode).map fun m =>
      (m, p.dat.getD component 0 * (basisAt e.shape (order e) (eta c l).1 (eta c l).2.1 (eta c l).2.2).getD m 0) := by
    refine List.ext_getElem (by simpa using hlen) fun i h1 h2 => ?_
    have g1 : adds[i].1 = i := by
      have := List.getElem_of_eq hfst (i := i) (by simpa using h1)
      simpa using this
    have g2 : adds[i].2 = p.dat.getD component 0 * (basisAt e.shape (order e) (eta c l).1 (eta c l).2.1 (eta c l).2.2).getD i 0 := by
      have := List.getElem_of_eq hsnd (i := i) (by simpa using h1)
      rw [List.getD_eq_getElem (basisAt e.shape (order e) (eta c l).1 (eta c l).2.1 (eta c l).2.2) 0 (by rw [b2]; omega)]
      simpa only [List.getElem_map, b1] using this
    rw [List.getElem_map, List.getElem_range]
    exact Prod.ext g1 g2
  refine ⟨adds.map fun a => (e.offset + a.1, a.2), ?_, ?_, ?_⟩
  · rw [hitem, ha]
    simp only [Option.map_some, lift, List.map_map]
    rfl
  · intro a ha'
    rw [List.mem_map] at ha'
    obtain ⟨b, hb, rfl⟩ := ha'
    rw [hadds, List.mem_map] at hb
    obtain ⟨m, hm', rfl⟩ := hb
    have := hf.block e heexp
    rw [hf.ncoeffs e heexp] at this
    have := List.mem_range.1 hm'
    dsimp only
    omega
  · intro i
    have hwt : weight parts component c l = p.dat.getD component 0 := by simp [weight, hpl]
    rw [hel, hwt, total, List.map_map, hadds, List.map_map]
    unfold modeAt
    by_cases hoi : e.offset ≤ i
    · rw [if_pos hoi]
      have : ∀ m, ((fun a : ℕ × K => if a.1 = i then a.2 else 0) ∘ fun a : ℕ × K => (e.offset + a.1, a.2)) (m, p.dat.getD component 0 *
          (basisAt e.shape (order e) (eta c l).1 (eta c l).2.1 (eta c l).2.2).getD m 0) =
          if m = i - e.offset then p.dat.getD component 0 *
          (basisAt e.shape (order e) (eta c l).1 (eta c l).2.1 (eta c l).2.2).getD m 0 else 0 := by
        intro m
        simp only [Function.comp_apply]
        by_cases h : m = i - e.offset
        · rw [if_pos h, if_pos (by omega)]
        · rw [if_neg h, if_neg (by omega)]
      simp only [Function.comp_def] at this ⊢
      simp only [this]
      rw [sum_single]
      by_cases hlt : i - e.offset < (totalNumModesShape e.shape (order e)).mode
      · rw [if_pos hlt]
      · rw [if_neg hlt, List.getD_eq_default (basisAt e.shape (order e) (eta c l).1 (eta c l).2.1 (eta c l).2.2) 0 (by rw [b2]; omega), mul_zero]
    · rw [if_neg hoi, mul_zero]
      refine List.sum_eq_zero fun x hx => ?_
      rw [List.mem_map] at hx
      obtain ⟨m, -, rfl⟩ := hx
      simp only [Function.comp_apply]
      rw [if_neg (by omega)]

omit [LinearOrder K] [IsStrictOrderedRing K] in
theorem total_append (a b : List (ℕ × K)) (i : ℕ) : total (a ++ b) i = total a i + total b i := by
  simp [total]

omit [IsStrictOrderedRing K] in
theorem mapM_lift {α : Type*} (l : List α) (f : α → Option (List (ℕ × Dbl K))) (N : ℕ) (g : α → ℕ → K)
    (h : ∀ a ∈ l, ∃ adds : List (ℕ × K), f a = some (lift adds) ∧ (∀ x ∈ adds, x.1 < N) ∧ ∀ i, total adds i = g a i) :
    ∃ adds, l.mapM f = some adds ∧ ∃ flat : List (ℕ × K), adds.flatten = lift flat ∧ (∀ x ∈ flat, x.1 < N) ∧
      ∀ i, total flat i = (l.map fun a => g a i).sum := by
  induction l with
  | nil => exact ⟨[], by simp, [], rfl, by simp, by simp [total]⟩
  | cons a l ih =>
    obtain ⟨as, h1, fl, h2, h3, h4⟩ := ih fun x hx => h x (List.mem_cons_of_mem _ hx)
    obtain ⟨ad, g1, g2, g3⟩ := h a (by simp)
    refine ⟨lift ad :: as, ?_, ad ++ fl, ?_, ?_, ?_⟩
    · rw [List.mapM_cons, g1, h1]; rfl
    · rw [List.flatten_cons, h2]; simp [lift]
    · intro x hx
      rcases List.mem_append.1 hx with hx | hx
      · exact g2 x hx
      · exact h3 x hx
    · intro i; rw [total_append, g3, h4]; simp

/-- **C78, right hand side.** For every field, cells, particles and selection of particles, local memory of the allocated size with any content, and for every order of the atomic
additions: the projection has no access outside of its buffers, and entry `i` of the right hand side is the sum over all
selected particles of all cells of the weight of the particle times the value of mode `i` at the collapsed coordinates that the code computes for the particle, if none of these is exactly at a collapsed end. -/
theorem rhs_is_weighted_sum (tol : K) (exps : List Expansion) (ndim N : ℕ) (hf : FieldOk exps ndim N) (cells : List Expansion)
    (hc : ∀ e ∈ cells, e ∈ exps) (parts : ℕ → List (Particle K)) (layers : ℕ → List ℕ) (component : ℕ) (eta : ℕ → ℕ → K × K × K)
    (hp : ParticlesAt tol cells ndim parts layers component eta) (hoff : AllOff cells layers eta) :
    ∃ s, Base.build exps (cells.map (·.gid)) = some s ∧
    ∀ mem : Shape × ℕ × ℕ → List (Dbl K), (∀ w, sumMaxModes s w.1 ≤ (mem w).length) →
      ¬ ProjectFails tol s ndim parts layers component mem N ∧
      ∀ rhs, ProjectsTo tol s ndim parts layers component mem N rhs ↔
        rhs = (List.range N).map fun i => some (overParticles cells.length layers fun c l =>
          weight parts component c l * modeAt (elementOf cells c) (eta c l) i) := by
  refine ⟨baseOf cells, build_eq exps ndim N hf cells hc, fun mem hm => ?_⟩
  obtain ⟨adds, h1, flat, h2, h3, h4⟩ := mapM_lift (workItems (baseOf cells) ndim layers)
    (fun w => projectItem tol (baseOf cells) parts component (mem w) w) N
    (fun w i => weight parts component w.2.1 w.2.2 * modeAt (elementOf cells w.2.1) (eta w.2.1 w.2.2) i)
    (fun w hw => (project_item tol exps ndim N hf cells hc parts layers component eta hp (mem w) w (hm w) hw).1 (by
      obtain ⟨e, he, -, hl⟩ := mem_workItems cells ndim layers w hw
      rw [show elementOf cells w.2.1 = e by simp [elementOf, he]]
      exact hoff _ e he _ hl))
  have hres : applyAdds (List.replicate N (some 0)) (lift flat) = some ((List.range N).map fun i =>
      some (overParticles cells.length layers fun c l => weight parts component c l * modeAt (elementOf cells c) (eta c l) i)) := by
    have := apply_adds_total (List.replicate N (0 : K)) flat (by simpa using h3)
    rw [List.map_replicate, List.length_replicate] at this
    rw [this]
    congr 1
    refine List.map_congr_left fun i hi => ?_
    rw [h4 i, sum_workItems cells ndim (fun e he => hf.dim e (hc e he)) layers
      (fun c l => weight parts component c l * modeAt (elementOf cells c) (eta c l) i)]
    have hi' : i < N := by simpa using hi
    simp [hi', overParticles]
  have hany : ∀ sched : List (ℕ × Dbl K), sched.Perm adds.flatten → applyAdds (List.replicate N (some 0)) sched =
      applyAdds (List.replicate N (some 0)) (lift flat) := by
    intro sched hs
    rw [h2] at hs
    obtain ⟨flat', rfl, hperm⟩ : ∃ flat', sched = lift flat' ∧ flat'.Perm flat := by
      refine ⟨sched.map fun a => (a.1, a.2.getD 0), ?_, ?_⟩
      · have : ∀ a ∈ sched, (a.1, some (a.2.getD 0)) = a := by
          intro a ha
          have := hs.subset ha
          rw [lift, List.mem_map] at this
          obtain ⟨b, -, rfl⟩ := this
          rfl
        rw [lift, List.map_map]
        exact ((List.map_congr_left (g := id) this).trans (List.map_id sched)).symm
      · have := hs.map fun a : ℕ × Dbl K => (a.1, a.2.getD 0)
        rw [lift, List.map_map] at this
        simpa [Function.comp_def] using this
    have := projection_order_independent (List.replicate N (0 : K)) flat' flat
      (fun a ha => by simpa using h3 a (hperm.subset ha)) hperm
    rwa [List.map_replicate] at this
  constructor
  · rintro (hfail | ⟨a', sched, ha', hs, hfail⟩)
    · rw [h1] at hfail; cases hfail
    · rw [h1] at ha'; cases ha'
      rw [hany sched hs, hres] at hfail; cases hfail
  · intro rhs
    constructor
    · rintro ⟨a', sched, ha', hs, hr⟩
      rw [h1] at ha'; cases ha'
      rw [hany sched hs, hres] at hr
      exact (Option.some.inj hr).symm
    · rintro rfl
      exact ⟨adds, adds.flatten, h1, List.Perm.refl _, by rw [hany _ (List.Perm.refl _), hres]⟩

/-- As `rhs_is_weighted_sum`, with the collapsed coordinates of the reference positions, which are at least the tolerance away from the collapsed edges and vertices. -/
theorem rhs_is_weighted_sum_partial (tol : K) (ht : 0 < tol) (exps : List Expansion) (ndim N : ℕ) (hf : FieldOk exps ndim N) (cells : List Expansion)
    (hc : ∀ e ∈ cells, e ∈ exps) (parts : ℕ → List (Particle K)) (layers : ℕ → List ℕ) (component : ℕ) (eta : ℕ → ℕ → K × K × K)
    (hp : ParticlesOk tol cells ndim parts layers component eta) :
    ∃ s, Base.build exps (cells.map (·.gid)) = some s ∧
    ∀ mem : Shape × ℕ × ℕ → List (Dbl K), (∀ w, sumMaxModes s w.1 ≤ (mem w).length) →
      ¬ ProjectFails tol s ndim parts layers component mem N ∧
      ∀ rhs, ProjectsTo tol s ndim parts layers component mem N rhs ↔
        rhs = (List.range N).map fun i => some (overParticles cells.length layers fun c l =>
          weight parts component c l * modeAt (elementOf cells c) (eta c l) i) :=
  rhs_is_weighted_sum tol exps ndim N hf cells hc parts layers component eta (hp.at ht).1 (hp.at ht).2

/-! ### Particles exactly at a collapsed end -/

theorem mem_work_iff (cells : List Expansion) (ndim : ℕ) (hd : ∀ e ∈ cells, dimOf e.shape = ndim) (layers : ℕ → List ℕ) (c l : ℕ) :
    (∃ sh, (sh, c, l) ∈ workItems (baseOf cells) ndim layers) ↔ c < cells.length ∧ l ∈ layers c := by
  constructor
  · rintro ⟨sh, h⟩
    obtain ⟨e, he, -, hl⟩ := mem_workItems cells ndim layers _ h
    exact ⟨(List.getElem?_eq_some_iff.1 he).1, hl⟩
  · rintro ⟨hc, hl⟩
    refine ⟨cells[c].shape, ?_⟩
    simp only [workItems, List.mem_flatMap, List.mem_map, Prod.mk.injEq]
    refine ⟨cells[c].shape, ?_, c, ?_, l, hl, rfl, rfl, rfl⟩
    · have := hd cells[c] (List.getElem_mem hc)
      unfold launchShapes
      rw [← this]
      cases cells[c].shape <;> simp [dimOf]
    · simp only [baseOf, List.mem_map, List.mem_filter, decide_eq_true_eq]
      exact ⟨(cells[c], c), ⟨List.mk_mem_zipIdx_iff_getElem?.2 (List.getElem?_eq_getElem hc), rfl⟩, rfl⟩

omit [LinearOrder K] [IsStrictOrderedRing K] in
/-- Additions to existing entries succeed; an entry that is not finite stays so. -/
theorem applyAdds_none (dofs : List (Dbl K)) (adds : List (ℕ × Dbl K)) (h : ∀ a ∈ adds, a.1 < dofs.length) :
    ∃ r, applyAdds dofs adds = some r ∧ r.length = dofs.length ∧
      ((none ∈ dofs ∨ ∃ a ∈ adds, a.2 = none) → none ∈ r) := by
  induction adds generalizing dofs with
  | nil => exact ⟨dofs, rfl, rfl, fun h => by simpa using h⟩
  | cons a adds ih =>
    obtain ⟨m, v⟩ := a
    have hm : m < dofs.length := h (m, v) (by simp)
    obtain ⟨r, h1, h2, h3⟩ := ih (dofs.set m (Dbl.add dofs[m] v)) fun b hb => by
      rw [List.length_set]; exact h b (List.mem_cons_of_mem _ hb)
    refine ⟨r, ?_, by rw [h2, List.length_set], fun hn => h3 ?_⟩
    · rw [applyAdds, Mem.read_ofNat, List.getElem?_eq_getElem hm, Option.bind_some, Mem.write,
        if_pos (by constructor <;> omega), Option.bind_some, Int.toNat_natCast, h1]
    · rcases hn with hn | ⟨b, hb, hbn⟩
      · left
        obtain ⟨i, hi⟩ := List.getElem?_of_mem hn
        by_cases him : m = i
        · subst him
          refine List.mem_of_getElem? (i := m) ?_
          rw [List.getElem?_set_self hm]
          have : dofs[m] = none := by
            rw [List.getElem?_eq_getElem hm] at hi; exact Option.some.inj hi
          rw [this]; rfl
        · exact List.mem_of_getElem? (i := i) (by rw [List.getElem?_set_ne him]; exact hi)
      · rcases List.mem_cons.1 hb with rfl | hb
        · left
          refine List.mem_of_getElem? (i := m) ?_
          rw [List.getElem?_set_self hm]
          simp only at hbn
          rw [hbn]
          cases dofs[m] <;> rfl
        · exact Or.inr ⟨b, hb, hbn⟩

/-- **C78, collapsed ends.** If a selected particle is exactly at a collapsed end, every execution has an entry of the right hand side that is not finite. -/
theorem rhs_not_finite (tol : K) (exps : List Expansion) (ndim N : ℕ) (hf : FieldOk exps ndim N) (cells : List Expansion)
    (hc : ∀ e ∈ cells, e ∈ exps) (parts : ℕ → List (Particle K)) (layers : ℕ → List ℕ) (component : ℕ) (eta : ℕ → ℕ → K × K × K)
    (hp : ParticlesAt tol cells ndim parts layers component eta) (hoff : ¬ AllOff cells layers eta) :
    ∃ s, Base.build exps (cells.map (·.gid)) = some s ∧
    ∀ mem : Shape × ℕ × ℕ → List (Dbl K), (∀ w, sumMaxModes s w.1 ≤ (mem w).length) →
      ¬ ProjectFails tol s ndim parts layers component mem N ∧
      ∀ rhs, ProjectsTo tol s ndim parts layers component mem N rhs → none ∈ rhs := by
  refine ⟨baseOf cells, build_eq exps ndim N hf cells hc, fun mem hm => ?_⟩
  have hitem : ∀ w ∈ workItems (baseOf cells) ndim layers, ∃ adds, projectItem tol (baseOf cells) parts component (mem w) w = some adds ∧
      (∀ a ∈ adds, a.1 < N) ∧ (¬ OffCollapsed (elementOf cells w.2.1).shape (eta w.2.1 w.2.2).2.1 (eta w.2.1 w.2.2).2.2 → ∃ a ∈ adds, a.2 = none) := by
    intro w hw
    obtain ⟨hy, hn⟩ := project_item tol exps ndim N hf cells hc parts layers component eta hp (mem w) w (hm w) hw
    by_cases h : OffCollapsed (elementOf cells w.2.1).shape (eta w.2.1 w.2.2).2.1 (eta w.2.1 w.2.2).2.2
    · obtain ⟨adds, h1, h2, -⟩ := hy h
      refine ⟨lift adds, h1, fun a ha => ?_, fun h' => absurd h h'⟩
      rw [lift, List.mem_map] at ha
      obtain ⟨b, hb, rfl⟩ := ha
      exact h2 b hb
    · obtain ⟨adds, h1, h2, h3⟩ := hn h
      exact ⟨adds, h1, h2, fun _ => h3⟩
  have hall : ∀ L : List (Shape × ℕ × ℕ), (∀ w ∈ L, w ∈ workItems (baseOf cells) ndim layers) →
      ∃ adds, L.mapM (fun w => projectItem tol (baseOf cells) parts component (mem w) w) = some adds ∧ (∀ a ∈ adds.flatten, a.1 < N) ∧
        ((∃ w ∈ L, ¬ OffCollapsed (elementOf cells w.2.1).shape (eta w.2.1 w.2.2).2.1 (eta w.2.1 w.2.2).2.2) → ∃ a ∈ adds.flatten, a.2 = none) := by
    intro L
    induction L with
    | nil => intro _; exact ⟨[], rfl, by simp, by simp⟩
    | cons w L ih =>
      intro hL
      obtain ⟨adds, h1, h2, h3⟩ := ih fun x hx => hL x (List.mem_cons_of_mem _ hx)
      obtain ⟨ad, g1, g2, g3⟩ := hitem w (hL w (by simp))
      refine ⟨ad :: adds, by rw [List.mapM_cons, g1, h1]; rfl, ?_, ?_⟩
      · intro a ha
        rw [List.flatten_cons, List.mem_append] at ha
        exact ha.elim (g2 a) (h2 a)
      · rintro ⟨x, hx, hxo⟩
        rw [List.flatten_cons]
        rcases List.mem_cons.1 hx with rfl | hx
        · obtain ⟨a, ha, hn⟩ := g3 hxo
          exact ⟨a, List.mem_append_left _ ha, hn⟩
        · obtain ⟨a, ha, hn⟩ := h3 ⟨x, hx, hxo⟩
          exact ⟨a, List.mem_append_right _ ha, hn⟩
  obtain ⟨adds, h1, h2, h3⟩ := hall _ fun _ h => h
  have hbad : ∃ a ∈ adds.flatten, a.2 = none := by
    refine h3 ?_
    simp only [AllOff, not_forall] at hoff
    obtain ⟨c, e, he, l, hl, ho⟩ := hoff
    have hcl := (List.getElem?_eq_some_iff.1 he).1
    obtain ⟨sh, hw⟩ := (mem_work_iff cells ndim (fun e he => hf.dim e (hc e he)) layers c l).2 ⟨hcl, hl⟩
    refine ⟨_, hw, ?_⟩
    rw [show elementOf cells c = e by simp [elementOf, he]]
    exact ho
  have hrun : ∀ sched : List (ℕ × Dbl K), sched.Perm adds.flatten →
      ∃ r, applyAdds (List.replicate N (some 0)) sched = some r ∧ none ∈ r := by
    intro sched hs
    obtain ⟨r, r1, -, r3⟩ := applyAdds_none (List.replicate N (some (0 : K))) sched fun a ha => by
      rw [List.length_replicate]; exact h2 a (hs.subset ha)
    obtain ⟨a, ha, han⟩ := hbad
    exact ⟨r, r1, r3 (Or.inr ⟨a, hs.symm.subset ha, han⟩)⟩
  constructor
  · rintro (hfail | ⟨a', sched, ha', hs, hfail⟩)
    · rw [h1] at hfail; cases hfail
    · rw [h1] at ha'; cases ha'
      obtain ⟨r, hr, -⟩ := hrun sched hs
      rw [hr] at hfail; cases hfail
  · rintro rhs ⟨a', sched, ha', hs, hr⟩
    rw [h1] at ha'; cases ha'
    obtain ⟨r, hr', hn⟩ := hrun sched hs
    rw [hr'] at hr
    exact Option.some.inj hr ▸ hn

/-! ### The implementation on the host -/

omit [LinearOrder K] [IsStrictOrderedRing K] in
theorem overParticles_add (n : ℕ) (layers : ℕ → List ℕ) (f g : ℕ → ℕ → K) :
    overParticles n layers (fun c l => f c l + g c l) = overParticles n layers f + overParticles n layers g := by
  simp only [overParticles, List.sum_map_add]

omit [LinearOrder K] [IsStrictOrderedRing K] in
theorem overParticles_zero (n : ℕ) (layers : ℕ → List ℕ) : overParticles n layers (fun _ _ => (0 : K)) = 0 := by
  simp [overParticles]

omit [LinearOrder K] [IsStrictOrderedRing K] in
theorem overParticles_sum {α : Type*} (n : ℕ) (layers : ℕ → List ℕ) (L : List α) (f : ℕ → ℕ → α → K) :
    overParticles n layers (fun c l => (L.map (f c l)).sum) = (L.map fun i => overParticles n layers fun c l => f c l i).sum := by
  induction L with
  | nil => simpa using overParticles_zero n layers
  | cons a L ih => simp only [List.map_cons, List.sum_cons, overParticles_add, ih]

omit [LinearOrder K] [IsStrictOrderedRing K] in
theorem overParticles_congr (n : ℕ) (layers : ℕ → List ℕ) (f g : ℕ → ℕ → K) (h : ∀ c < n, ∀ l ∈ layers c, f c l = g c l) :
    overParticles n layers f = overParticles n layers g := by
  unfold overParticles
  congr 1
  refine List.map_congr_left fun c hc => ?_
  congr 1
  exact List.map_congr_left fun l hl => h c (List.mem_range.1 hc) l hl

/-- A vector of length `N` as a function. -/
def vec (N : ℕ) (f : ℕ → K) : List K := (List.range N).map f

omit [IsStrictOrderedRing K] in
theorem host_particle (collapsed : Shape → K × K × K → K × K × K) (exps : List Expansion) (ndim N : ℕ) (hf : FieldOk exps ndim N)
    (e : Expansion) (he : e ∈ exps) (component : ℕ) (p : Particle K) (href : ndim ≤ p.ref.length) (hcomp : component < p.dat.length) (f : ℕ → K) :
    hostParticle collapsed e (order e) ndim component (vec N f) p =
      some (vec N fun i => f i + p.dat.getD component 0 * modeAt e (collapsed e.shape (refPoint ndim p.ref)) i) := by
  have hdim := hf.dim e he
  have hn : ndim = 2 ∨ ndim = 3 := by rw [← hdim]; cases e.shape <;> simp [dimOf]
  obtain ⟨b1, b2⟩ := eval_modes_is_basis e.shape (order e) (collapsed e.shape (refPoint ndim p.ref)).1
    (collapsed e.shape (refPoint ndim p.ref)).2.1 (collapsed e.shape (refPoint ndim p.ref)).2.2
  unfold hostParticle
  rw [extractRef_eq ndim hn p.ref href, Option.bind_some, List.getElem?_eq_getElem hcomp, Option.bind_some, ← List.getD_eq_getElem _ 0 hcomp]
  dsimp only
  rw [b1]
  unfold modeAt
  generalize hB : basisAt e.shape (order e) (collapsed e.shape (refPoint ndim p.ref)).1
    (collapsed e.shape (refPoint ndim p.ref)).2.1 (collapsed e.shape (refPoint ndim p.ref)).2.2 = B at b2 ⊢
  generalize p.dat.getD component 0 = q
  have hbl := hf.block e he
  have hnc := hf.ncoeffs e he
  have hloop := forLoop_eq e.ncoeffs (fun modex phi =>
      (B[modex]?).bind fun phiJ =>
      (phi[e.offset + modex]?).bind fun old => Mem.write phi ((e.offset + modex : ℕ) : ℤ) (old + phiJ * q))
    (fun k => vec N fun i => f i + if e.offset ≤ i ∧ i - e.offset < k then q * B.getD (i - e.offset) 0 else 0) (vec N f)
    (by simp [vec]) (by
      intro k hk
      have hkB : k < B.length := by rw [b2, ← hnc]; exact hk
      have hkN : e.offset + k < N := by omega
      rw [List.getElem?_eq_getElem hkB, Option.bind_some]
      rw [show (vec N fun i => f i + if e.offset ≤ i ∧ i - e.offset < k then q * B.getD (i - e.offset) 0 else 0)[e.offset + k]? =
        some (f (e.offset + k)) by simp [vec, hkN]]
      rw [Option.bind_some, Mem.write, if_pos (by simp [vec]; omega)]
      congr 1
      refine List.ext_getElem (by simp [vec]) fun j h1 h2 => ?_
      simp only [Int.toNat_natCast, List.getElem_set]
      simp only [vec, List.getElem_map, List.getElem_range]
      by_cases hj : e.offset + k = j
      · subst hj
        rw [if_pos rfl, if_pos ⟨by omega, by omega⟩]
        simp only [Nat.add_sub_cancel_left]
        rw [List.getD_eq_getElem _ _ hkB, mul_comm]
      · rw [if_neg hj]
        congr 1
        by_cases h3 : e.offset ≤ j ∧ j - e.offset < k
        · rw [if_pos h3, if_pos ⟨h3.1, by omega⟩]
        · rw [if_neg h3, if_neg (by omega)])
  rw [hloop]
  congr 1
  refine List.map_congr_left fun i _ => ?_
  congr 1
  by_cases h1 : e.offset ≤ i
  · by_cases h2 : i - e.offset < e.ncoeffs
    · rw [if_pos ⟨h1, h2⟩, if_pos h1]
    · rw [if_neg (fun h => h2 h.2), if_pos h1, List.getD_eq_default _ _ (by rw [b2, ← hnc]; omega), mul_zero]
  · rw [if_neg (fun h => h1 h.1), if_neg h1, mul_zero]

omit [IsStrictOrderedRing K] in
theorem host_cell (collapsed : Shape → K × K × K → K × K × K) (exps : List Expansion) (ndim N : ℕ) (hf : FieldOk exps ndim N)
    (e : Expansion) (he : e ∈ exps) (component : ℕ) (ps : List (Particle K)) (hps : ∀ p ∈ ps, ndim ≤ p.ref.length ∧ component < p.dat.length) (f : ℕ → K) :
    hostCell collapsed exps (CellId.geomToExp (exps.map (·.gid))) ndim component (vec N f) (e.gid, ps) =
      some (vec N fun i => f i + (ps.map fun p => p.dat.getD component 0 * modeAt e (collapsed e.shape (refPoint ndim p.ref)) i).sum) := by
  obtain ⟨k, hk, hke⟩ := List.mem_iff_getElem.1 he
  have hat : (CellId.geomToExp (exps.map (·.gid))).at? e.gid = some (k : ℤ) :=
    Verif.Props.C04.geomToExp_at _ hf.gids k _ (by simp [hk, hke])
  have hm := hf.modes e he
  have h2 : 0 < ndim := by
    have := hf.dim _ he
    revert this; cases e.shape <;> simp [dimOf] <;> omega
  unfold hostCell
  simp only [hat, Option.bind_some, Int.toNat_natCast, List.getElem?_eq_getElem hk, hke]
  rw [if_pos (hf.dim e he).le]
  have hm0 : e.modes[0]? = some (order e) := by rw [hm]; simp [h2]
  rw [hm0, Option.bind_some, if_pos]
  · induction ps generalizing f with
    | nil => simp [vec]
    | cons p ps ih =>
      rw [List.foldlM_cons, host_particle collapsed exps ndim N hf e he component p (hps p (by simp)).1 (hps p (by simp)).2 f]
      simp only [Option.bind_eq_bind, Option.bind_some]
      rw [ih (fun x hx => hps x (List.mem_cons_of_mem _ hx))]
      simp only [List.map_cons, List.sum_cons, add_assoc]
  · simp only [List.all_eq_true, List.mem_range, beq_iff_eq]
    intro d hd
    rw [hm]; simp [hd]

omit [IsStrictOrderedRing K] in
/-- The host implementation of the right hand side, with any function for the collapsed coordinates: the same sum over all particles of all cells. -/
theorem host_rhs_is_weighted_sum (collapsed : Shape → K × K × K → K × K × K) (exps : List Expansion) (ndim N : ℕ) (hf : FieldOk exps ndim N)
    (cells : List Expansion) (hc : ∀ e ∈ cells, e ∈ exps) (parts : ℕ → List (Particle K)) (component : ℕ)
    (hp : ∀ c < cells.length, ∀ p ∈ parts c, ndim ≤ p.ref.length ∧ component < p.dat.length) :
    hostRhs collapsed exps (cells.map (·.gid)) parts ndim component N =
      some ((List.range N).map fun i => overParticles cells.length (fun c => List.range (parts c).length) fun c l =>
        weight parts component c l * modeAt (elementOf cells c)
          (collapsed (elementOf cells c).shape (refPoint ndim (((parts c)[l]?.map (·.ref)).getD []))) i) := by
  unfold hostRhs buildGeomToExp
  rw [if_pos hf.ids, Option.bind_some]
  have key : ∀ (l : List Expansion) (k : ℕ), (∀ e ∈ l, e ∈ exps) → (∀ j < l.length, ∀ p ∈ parts (k + j), ndim ≤ p.ref.length ∧ component < p.dat.length) →
      ∀ f : ℕ → K, (((l.map (·.gid)).zipIdx k).map fun x => (x.1, parts x.2)).foldlM
        (hostCell collapsed exps (CellId.geomToExp (exps.map (·.gid))) ndim component) (vec N f) =
      some (vec N fun i => f i + ((l.zipIdx k).map fun x => ((parts x.2).map fun p =>
        p.dat.getD component 0 * modeAt x.1 (collapsed x.1.shape (refPoint ndim p.ref)) i).sum).sum) := by
    intro l
    induction l with
    | nil => intro k _ _ f; simp [vec]
    | cons e l ih =>
      intro k he hps f
      rw [List.map_cons, List.zipIdx_cons, List.map_cons, List.foldlM_cons,
        host_cell collapsed exps ndim N hf e (he e (by simp)) component (parts k) (by simpa using hps 0 (by simp)) f]
      simp only [Option.bind_eq_bind, Option.bind_some]
      rw [ih (k + 1) (fun x hx => he x (List.mem_cons_of_mem _ hx)) (by
        intro j hj; have := hps (j + 1) (by simpa using hj); rwa [show k + (j + 1) = k + 1 + j by omega] at this)]
      simp only [List.zipIdx_cons, List.map_cons, List.sum_cons, add_assoc]
  have h0 : List.replicate N (0 : K) = vec N fun _ => 0 := by
    refine List.ext_getElem (by simp [vec]) fun i h1 h2 => by simp [vec]
  rw [h0, key cells 0 hc (by simpa using hp)]
  congr 1
  refine List.map_congr_left fun i _ => ?_
  rw [zero_add]
  unfold overParticles
  congr 1
  refine List.ext_getElem (by simp) fun c h1 h2 => ?_
  have hcl : c < cells.length := by simpa using h2
  simp only [List.getElem_map, List.getElem_range, List.getElem_zipIdx, Nat.zero_add]
  congr 1
  refine List.ext_getElem (by simp) fun l h3 h4 => ?_
  have hll : l < (parts c).length := by simpa using h4
  simp [weight, elementOf, hcl, hll]

/-- **C78, host and device.** If the collapsed coordinates of Nektar++ are those of the reference positions, then the right hand side that the host implementation computes is the one that
every execution of the device implementation on all particles computes. -/
theorem host_equals_device_partial (tol : K) (ht : 0 < tol) (collapsed : Shape → K × K × K → K × K × K) (exps : List Expansion) (ndim N : ℕ)
    (hf : FieldOk exps ndim N) (cells : List Expansion) (hc : ∀ e ∈ cells, e ∈ exps) (parts : ℕ → List (Particle K)) (component : ℕ)
    (hp : ∀ c e, cells[c]? = some e → ∀ p ∈ parts c, ndim ≤ p.ref.length ∧ component < p.dat.length ∧
      CollapsedOf e.shape (refPoint ndim p.ref) (collapsed e.shape (refPoint ndim p.ref)) ∧ AwayFromCollapsed tol e.shape (refPoint ndim p.ref)) :
    ∃ s r, Base.build exps (cells.map (·.gid)) = some s ∧
    hostRhs collapsed exps (cells.map (·.gid)) parts ndim component N = some r ∧
    ∀ mem : Shape × ℕ × ℕ → List (Dbl K), (∀ w, sumMaxModes s w.1 ≤ (mem w).length) →
      ∀ rhs, ProjectsTo tol s ndim parts (fun c => List.range (parts c).length) component mem N rhs ↔ rhs = r.map some := by
  obtain ⟨s, hs, hdev⟩ := rhs_is_weighted_sum_partial tol ht exps ndim N hf cells hc parts (fun c => List.range (parts c).length) component
    (fun c l => collapsed (elementOf cells c).shape (refPoint ndim (((parts c)[l]?.map (·.ref)).getD []))) ⟨by
      intro c e he l hl
      have hl' : l < (parts c).length := by simpa using hl
      have := hp c e he _ (List.getElem_mem hl')
      refine ⟨(parts c)[l], List.getElem?_eq_getElem hl', this.1, this.2.1, ?_, this.2.2.2⟩
      simpa [elementOf, he, hl'] using this.2.2.1⟩
  refine ⟨s, _, hs, host_rhs_is_weighted_sum collapsed exps ndim N hf cells hc parts component ?_, fun mem hm rhs => ?_⟩
  · intro c hc' p hp'
    have := hp c cells[c] (List.getElem?_eq_getElem hc') p hp'
    exact ⟨this.1, this.2.1⟩
  · rw [(hdev mem hm).2 rhs, List.map_map]
    rfl

omit [IsStrictOrderedRing K] in
/-- The host implementation stops on a two dimensional mesh whose particles carry three reference coordinates, which the device implementation accepts. -/
theorem host_stops_with_extra_coordinates (collapsed : Shape → K × K × K → K × K × K) (exps : List Expansion) (N : ℕ) (hf : FieldOk exps 2 N)
    (cells : List Expansion) (hc : ∀ e ∈ cells, e ∈ exps) (hne : cells ≠ []) (parts : ℕ → List (Particle K)) (component : ℕ) :
    hostRhs collapsed exps (cells.map (·.gid)) parts 3 component N = none := by
  obtain ⟨e, cs, rfl⟩ := List.exists_cons_of_ne_nil hne
  have he := hc e (by simp)
  unfold hostRhs buildGeomToExp
  rw [if_pos hf.ids, Option.bind_some, List.map_cons, List.zipIdx_cons, List.map_cons, List.foldlM_cons]
  have : hostCell collapsed exps (CellId.geomToExp (exps.map (·.gid))) 3 component (List.replicate N (0 : K)) (e.gid, parts 0) = none := by
    obtain ⟨k, hk, hke⟩ := List.mem_iff_getElem.1 he
    have hat : (CellId.geomToExp (exps.map (·.gid))).at? e.gid = some (k : ℤ) :=
      Verif.Props.C04.geomToExp_at _ hf.gids k _ (by simp [hk, hke])
    unfold hostCell
    simp only [hat, Option.bind_some, Int.toNat_natCast, List.getElem?_eq_getElem hk, hke]
    rw [if_pos (by rw [hf.dim e he]; omega), hf.modes e he]
    simp [List.range_succ, List.replicate_succ]
  rw [this]; rfl

/-! ### The projected fields -/

/-- The right hand side of the projection of component `x.2` of the dat `x.1`. -/
def rhsOf (cells : List Expansion) (N : ℕ) (parts : ℕ → List (FullParticle K)) (layers : ℕ → List ℕ) (eta : ℕ → ℕ → K × K × K) (x : String × ℤ) : List K :=
  (List.range N).map fun i => overParticles cells.length layers fun c l =>
    weight (view x.1 parts) x.2.toNat c l * modeAt (elementOf cells c) (eta c l) i

omit [LinearOrder K] [IsStrictOrderedRing K] in
theorem finite_some (b : List K) : finite (b.map some) = some b := by
  unfold finite
  induction b with
  | nil => rfl
  | cons a b ih => rw [List.map_cons, List.mapM_cons, ih]; rfl

omit [IsStrictOrderedRing K] in
theorem finish_all (fields : List (FieldOps K)) (bs : List (List K)) :
    (fields.zip (bs.map fun b => b.map some)).mapM (fun x => finish x.1.solve x.1.bwdTrans x.2) =
      some ((fields.zip bs).map fun x => ⟨x.1.solve x.2, x.1.bwdTrans (x.1.solve x.2)⟩) := by
  induction fields generalizing bs with
  | nil => rfl
  | cons f fs ih =>
    cases bs with
    | nil => rfl
    | cons b bs =>
      rw [List.map_cons, List.zip_cons_cons, List.mapM_cons, ih]
      simp [finish, finite_some]

theorem forall₂_iff_map {α β : Type*} (l : List α) (r : List β) (R : α → β → Prop) (f : α → β) (h : ∀ a ∈ l, ∀ b, R a b ↔ b = f a) :
    List.Forall₂ R l r ↔ r = l.map f := by
  induction l generalizing r with
  | nil => simp
  | cons a l ih =>
    cases r with
    | nil => simp
    | cons b r =>
      rw [List.forall₂_cons, List.map_cons, List.cons.injEq, h a (by simp), ih r fun x hx => h x (List.mem_cons_of_mem _ hx)]

/-- **C78, the call on several fields.** The call succeeds exactly when there is one symbol and one component for each field, each component exists in its dat, and no selected particle is exactly at a collapsed end (unless
there is no field); then, for every order of the atomic additions, field `f` gets the solution of its mass matrix system for the weighted sum of the component `f` of the dat `f` over exactly the selected
particles, and the values at the quadrature points that belong to it. -/
theorem project_fields (tol : K) (exps : List Expansion) (ndim N : ℕ) (hf : FieldOk exps ndim N) (cells : List Expansion)
    (hc : ∀ e ∈ cells, e ∈ exps) (parts : ℕ → List (FullParticle K)) (layers : ℕ → List ℕ) (eta : ℕ → ℕ → K × K × K) (ncomp : String → Option ℕ)
    (hp : ∀ c e, cells[c]? = some e → ∀ l ∈ layers c, ∃ p, (parts c)[l]? = some p ∧ ndim ≤ p.ref.length ∧
      (∀ sym n, ncomp sym = some n → (p.dats sym).length = n) ∧
      CodeEta tol e.shape (refPoint ndim p.ref) (eta c l))
    (fields : List (FieldOps K)) (syms : List String) (components : List ℤ) :
    ∃ s, Base.build exps (cells.map (·.gid)) = some s ∧
    ∀ mem : Shape × ℕ × ℕ → List (Dbl K), (∀ w, sumMaxModes s w.1 ≤ (mem w).length) →
      ∀ res, ProjectFieldsTo tol s ndim fields ncomp parts layers syms components mem N res ↔
        (syms.length = fields.length ∧ components.length = fields.length ∧
          (∀ x ∈ syms.zip components, ∃ n, ncomp x.1 = some n ∧ 0 ≤ x.2 ∧ x.2 < n)) ∧
        (fields = [] ∨ AllOff cells layers eta) ∧
        res = (fields.zip (syms.zip components)).map fun x =>
          ⟨x.1.solve (rhsOf cells N parts layers eta x.2), x.1.bwdTrans (x.1.solve (rhsOf cells N parts layers eta x.2))⟩ := by
  refine ⟨baseOf cells, build_eq exps ndim N hf cells hc, fun mem hm res => ?_⟩
  have hat : (∀ x ∈ syms.zip components, ∃ n, ncomp x.1 = some n ∧ 0 ≤ x.2 ∧ x.2 < n) → ∀ x ∈ syms.zip components,
      ParticlesAt tol cells ndim (view x.1 parts) layers x.2.toNat eta := by
    intro hr x hx
    obtain ⟨n, hn, h0, h1⟩ := hr x hx
    refine ⟨fun c e he l hl => ?_⟩
    obtain ⟨p, hpl, href, hd, h3⟩ := hp c e he l hl
    refine ⟨⟨p.ref, p.dats x.1⟩, by simp [view, hpl], href, ?_, h3⟩
    rw [show (Particle.mk p.ref (p.dats x.1)).dat = p.dats x.1 from rfl, hd x.1 n hn]
    omega
  have hone : AllOff cells layers eta → (∀ x ∈ syms.zip components, ∃ n, ncomp x.1 = some n ∧ 0 ≤ x.2 ∧ x.2 < n) → ∀ x ∈ syms.zip components, ∀ rhs,
      ProjectsTo tol (baseOf cells) ndim (view x.1 parts) layers x.2.toNat mem N rhs ↔ rhs = (rhsOf cells N parts layers eta x).map some := by
    intro hoff hr x hx rhs
    obtain ⟨s, hs, hdev⟩ := rhs_is_weighted_sum tol exps ndim N hf cells hc (view x.1 parts) layers x.2.toNat eta (hat hr x hx) hoff
    rw [build_eq exps ndim N hf cells hc] at hs
    cases hs
    rw [(hdev mem hm).2 rhs, rhsOf, List.map_map]
    rfl
  unfold ProjectFieldsTo
  constructor
  · rintro ⟨h1, h2, h3, rhss, h4, h5⟩
    have hoff : fields = [] ∨ AllOff cells layers eta := by
      by_contra hcon
      rw [not_or] at hcon
      obtain ⟨hne, hbad⟩ := hcon
      obtain ⟨f, fs, rfl⟩ := List.exists_cons_of_ne_nil hne
      obtain ⟨y, ys, hys⟩ : ∃ y ys, syms.zip components = y :: ys := by
        apply List.exists_cons_of_ne_nil
        rw [ne_eq, ← List.length_eq_zero_iff, List.length_zip, h1, h2]
        simp
      rw [hys] at h4
      obtain ⟨r, rs, hr, -, rfl⟩ := List.forall₂_cons_left_iff.1 h4
      obtain ⟨s, hs, hdev⟩ := rhs_not_finite tol exps ndim N hf cells hc (view y.1 parts) layers y.2.toNat eta (hat h3 y (by rw [hys]; simp)) hbad
      rw [build_eq exps ndim N hf cells hc] at hs
      cases hs
      have hnone := (hdev mem hm).2 r hr
      have hfin : finite r = none := by
        unfold finite
        clear * - hnone
        induction r with
        | nil => simp at hnone
        | cons a r ih =>
          rw [List.mapM_cons]
          rcases List.mem_cons.1 hnone with h | h
          · rw [← h]; rfl
          · rw [ih h]; cases a <;> rfl
      rw [List.zip_cons_cons, List.mapM_cons] at h5
      simp [finish, hfin] at h5
    refine ⟨⟨h1, h2, h3⟩, hoff, ?_⟩
    rcases hoff with rfl | hoff
    · simp at h5 ⊢
      exact h5
    rw [forall₂_iff_map _ _ _ (fun x => (rhsOf cells N parts layers eta x).map some) (hone hoff h3)] at h4
    rw [h4, show (syms.zip components).map (fun x => (rhsOf cells N parts layers eta x).map some) =
      ((syms.zip components).map (rhsOf cells N parts layers eta)).map fun b => b.map some by simp] at h5
    rw [finish_all] at h5
    rw [← Option.some.inj h5, List.zip_map_right, List.map_map]
    rfl
  · rintro ⟨⟨h1, h2, h3⟩, hoff, rfl⟩
    refine ⟨h1, h2, h3, ?_⟩
    rcases hoff with rfl | hoff
    · simp only [List.length_nil, List.length_eq_zero_iff] at h1 h2
      subst h1 h2
      exact ⟨[], by simp, rfl⟩
    refine ⟨(syms.zip components).map (fun x => (rhsOf cells N parts layers eta x).map some), ?_, ?_⟩
    · rw [forall₂_iff_map _ _ _ (fun x => (rhsOf cells N parts layers eta x).map some) (hone hoff h3)]
    · rw [show (syms.zip components).map (fun x => (rhsOf cells N parts layers eta x).map some) =
        ((syms.zip components).map (rhsOf cells N parts layers eta)).map fun b => b.map some by simp, finish_all]
      rw [List.zip_map_right, List.map_map]
      rfl

/-- The contract of the solver of the mass matrix system of a field with function space `V` and `L²` inner product `ip`: the solution is in the space and its inner product with each function of the space
is the pairing of the coefficients of the function with the right hand side. (For a discontinuous field `V` is all vectors of coefficients, for a continuous field the
continuous functions.) -/
def SolvesMass (N : ℕ) (V : Set (List K)) (ip : List K → List K → K) (solve : List K → List K) : Prop :=
  ∀ b : List K, b.length = N → solve b ∈ V ∧ ∀ v ∈ V, v.length = N → ip v (solve b) = dot v b

omit [IsStrictOrderedRing K] in
/-- Pairing the right hand side with the coefficients of a function gives the weighted sum of the values of the function at the particles. -/
theorem rhs_pairing (cells : List Expansion) (N : ℕ) (parts : ℕ → List (FullParticle K)) (layers : ℕ → List ℕ) (eta : ℕ → ℕ → K × K × K) (x : String × ℤ)
    (v : List K) (hv : v.length = N) :
    dot v (rhsOf cells N parts layers eta x) = overParticles cells.length layers fun c l =>
      weight (view x.1 parts) x.2.toNat c l * valueAt (elementOf cells c) (eta c l) v := by
  have h1 : dot v (rhsOf cells N parts layers eta x) = ((List.range N).map fun i => v.getD i 0 * overParticles cells.length layers fun c l =>
      weight (view x.1 parts) x.2.toNat c l * modeAt (elementOf cells c) (eta c l) i).sum := by
    unfold dot rhsOf
    congr 1
    refine List.ext_getElem (by simp [hv]) fun i h1 h2 => ?_
    have : i < v.length := by simp at h1; omega
    simp [this]
  have h2 : ∀ (a : K) (f : ℕ → ℕ → K), a * overParticles cells.length layers f = overParticles cells.length layers fun c l => a * f c l := by
    intro a f
    unfold overParticles
    simp only [List.sum_map_mul_left]
  rw [h1]
  simp only [h2]
  rw [← overParticles_sum]
  refine overParticles_congr _ _ _ _ fun c _ l _ => ?_
  rw [valueAt, hv, ← List.sum_map_mul_left]
  congr 1
  refine List.map_congr_left fun i _ => by ring

/-- **C78, weak form.** The projected field is the `L²` projection of the particles as point masses: it is in the function space, and its inner product with each function of the space is the sum over the selected particles of the
weight times the value of the function at the particle. In particular, if the constant one is in the space, the integral of the field is the total weight. -/
theorem projected_field_weak_form (cells : List Expansion) (N : ℕ) (parts : ℕ → List (FullParticle K)) (layers : ℕ → List ℕ)
    (eta : ℕ → ℕ → K × K × K) (f : FieldOps K) (x : String × ℤ) (V : Set (List K)) (ip : List K → List K → K) (hs : SolvesMass N V ip f.solve) :
    f.solve (rhsOf cells N parts layers eta x) ∈ V ∧
    (∀ v ∈ V, v.length = N → ip v (f.solve (rhsOf cells N parts layers eta x)) = overParticles cells.length layers fun c l =>
      weight (view x.1 parts) x.2.toNat c l * valueAt (elementOf cells c) (eta c l) v) ∧
    (∀ one ∈ V, one.length = N → (∀ c < cells.length, ∀ l ∈ layers c, valueAt (elementOf cells c) (eta c l) one = 1) →
      ip one (f.solve (rhsOf cells N parts layers eta x)) = overParticles cells.length layers fun c l => weight (view x.1 parts) x.2.toNat c l) := by
  have h := hs (rhsOf cells N parts layers eta x) (by simp [rhsOf])
  refine ⟨h.1, fun v hv hl => ?_, fun one ho hl h1 => ?_⟩
  · rw [h.2 v hv hl, rhs_pairing cells N parts layers eta x v hl]
  · rw [h.2 one ho hl, rhs_pairing cells N parts layers eta x one hl]
    refine overParticles_congr _ _ _ _ fun c hc l hl => ?_
    rw [h1 c hc l hl, mul_one]

/-- A cell whose geometry has no expansion silently gets the expansion `0` on the device; the host implementation stops. -/
theorem missing_geometry (collapsed : Shape → K × K × K → K × K × K) (exps : List Expansion) (ndim N : ℕ) (hf : FieldOk exps ndim N) (e0 : Expansion)
    (rest : List Expansion) (he : exps = e0 :: rest) (g : ℤ) (hg : g ∉ exps.map (·.gid)) (parts : ℕ → List (Particle K)) (component : ℕ) :
    Base.build exps [g] = Base.build exps [e0.gid] ∧ hostRhs collapsed exps [g] parts ndim component N = none := by
  have h1 := Verif.Props.C04.geomToExp_at_none _ _ hg
  have h0 : (CellId.geomToExp (exps.map (·.gid))).at? e0.gid = some ((0 : ℕ) : ℤ) :=
    Verif.Props.C04.geomToExp_at _ hf.gids 0 _ (by simp [he])
  constructor
  · unfold Base.build buildGeomToExp
    rw [if_pos hf.ids]
    simp only [Option.bind_some, List.foldlM_cons, List.foldlM_nil, Base.addCell, h1, h0]
    rfl
  · unfold hostRhs buildGeomToExp
    rw [if_pos hf.ids]
    simp [hostCell, h1]

/-- A mesh of a triangle with three modes of order two and a quadrilateral with four. -/
def exampleField : List Expansion := [⟨12, 0, .tri, [2, 2], 3, 4⟩, ⟨7, 1, .quad, [2, 2], 4, 0⟩]

theorem exampleField_ok : FieldOk exampleField 2 7 where
  ids := by decide
  gids := by decide
  dim := by decide
  modes := by decide
  two := by decide
  ncoeffs := by decide
  block := by decide

/-- Cell 0 is the quadrilateral with two particles, cell 1 the triangle with one: the hypotheses of the theorems are met. -/
example : ParticlesOk (K := ℚ) (1 / 100) exampleField.reverse 2
    (fun c => if c = 0 then [⟨[1 / 2, -1 / 2], [3, 5]⟩, ⟨[0, 0], [1, 1]⟩] else [⟨[0, -1 / 2], [2, 7]⟩])
    (fun c => if c = 0 then [0, 1] else [0]) 1
    (fun c l => if c = 0 then (if l = 0 then (1 / 2, -1 / 2, 0) else (0, 0, 0)) else (1 / 3, -1 / 2, 0)) where
  ok := by
    intro c e he l hl
    match c, he with
    | 0, he =>
      simp [exampleField] at he
      simp only [if_true, List.mem_cons, List.not_mem_nil, or_false] at hl
      rcases hl with rfl | rfl
      · refine ⟨⟨[1 / 2, -1 / 2], [3, 5]⟩, rfl, by simp, by simp, ?_, ?_⟩ <;> subst he <;> simp [CollapsedOf, refPoint, AwayFromCollapsed]
      · refine ⟨⟨[0, 0], [1, 1]⟩, rfl, by simp, by simp, ?_, ?_⟩ <;> subst he <;> simp [CollapsedOf, refPoint, AwayFromCollapsed]
    | 1, he =>
      simp [exampleField] at he
      simp at hl
      subst hl
      refine ⟨⟨[0, -1 / 2], [2, 7]⟩, rfl, by simp, by simp, ?_, ?_⟩ <;> subst he
      · simp [CollapsedOf, refPoint]; norm_num
      · simp only [AwayFromCollapsed, refPoint, List.getD_cons_succ, List.getD_cons_zero]
        norm_num [abs_of_pos]
    | c + 2, he => simp [exampleField] at he

/-- A solver that meets the contract: coefficients in an orthonormal basis. -/
example : SolvesMass (K := ℚ) 7 Set.univ dot id := fun _ _ => ⟨trivial, fun _ _ _ => rfl⟩

example : hostRhs (K := ℚ) (fun _ x => x) exampleField [7] (fun _ => [⟨[0, 0], [2, 8]⟩]) 2 1 7 = some [2, 2, 2, 2, 0, 0, 0] := by
  rw [show ([7] : List ℤ) = ([⟨7, 1, .quad, [2, 2], 4, 0⟩] : List Expansion).map (·.gid) from rfl,
    host_rhs_is_weighted_sum _ exampleField 2 7 exampleField_ok _ (by simp [exampleField]) _ _ (by simp)]
  congr 1
  simp [List.range_succ, overParticles, weight, modeAt, elementOf, basisAt, order, expansionQuad, evalModA, refPoint]
  norm_num

end Verif.Props.C78
