import Verif.Spec.MultiField

/-! C98: projecting onto several fields. -/

namespace Verif.Props.C98
open Verif.Model.JacobiCoeff Verif.Model.BasisReference Verif.Model.BasisEvaluation Verif.Model.ExpansionLooping Verif.Model.BasisEvaluateBase Verif.Model.FieldCoupling Verif.Model.MultiField Verif.Spec.MultiField

theorem foldlM_unit {α : Type*} (l : List α) (f : α → Option Unit) : l.foldlM (fun _ a => f a) () = some () ↔ ∀ a ∈ l, f a = some () := by
  induction l with
  | nil => simp
  | cons a l ih =>
    rw [List.foldlM_cons]
    cases h : f a with
    | none =>
      simp only [Option.bind_eq_bind, Option.bind_none, List.mem_cons, forall_eq_or_imp, h]
      simp
    | some u =>
      simp only [Option.bind_eq_bind, Option.bind_some, List.mem_cons, forall_eq_or_imp, h, true_and]
      exact ih

theorem mapM_forall₂ {α β : Type} (f : α → Option β) : ∀ (l : List α) (r : List β), l.mapM f = some r → List.Forall₂ (fun a b => f a = some b) l r
  | [], r, h => by
    have : r = [] := by simpa using h.symm
    rw [this]
    exact List.Forall₂.nil
  | a :: l, r, h => by
    rw [List.mapM_cons] at h
    cases ha : f a with
    | none => rw [ha] at h; simp at h
    | some b =>
      cases hl : l.mapM f with
      | none => rw [ha, hl] at h; simp at h
      | some r' =>
        rw [ha, hl] at h
        have : r = b :: r' := by simpa using h.symm
        rw [this]
        exact List.Forall₂.cons ha (mapM_forall₂ f l r' hl)

theorem checkDim_iff (t r : Exp) (dx : ℕ) : checkDim t r dx = some () ↔
    dx < t.modes.length ∧ dx < r.modes.length ∧ dx < t.types.length ∧ dx < r.types.length ∧ t.modes[dx]? = r.modes[dx]? ∧ t.types[dx]? = r.types[dx]? := by
  unfold checkDim
  rcases lt_or_ge dx t.modes.length with h1 | h1
  · rcases lt_or_ge dx r.modes.length with h2 | h2
    · rw [List.getElem?_eq_getElem h1, List.getElem?_eq_getElem h2]
      simp only [Option.bind_some, Option.some.injEq]
      split_ifs with h
      · rcases lt_or_ge dx t.types.length with h3 | h3
        · rcases lt_or_ge dx r.types.length with h4 | h4
          · rw [List.getElem?_eq_getElem h3, List.getElem?_eq_getElem h4]
            simp only [Option.bind_some, Option.some.injEq]
            split_ifs with h5 <;> simp [h1, h2, h3, h4, h, h5]
          · rw [List.getElem?_eq_none h4]
            simp [Nat.not_lt.2 h4]
        · rw [List.getElem?_eq_none h3]
          simp [Nat.not_lt.2 h3]
      · simp [h]
    · rw [List.getElem?_eq_none h2]
      simp [Nat.not_lt.2 h2]
  · rw [List.getElem?_eq_none h1]
    simp [Nat.not_lt.2 h1]

/-- What the constructor has checked of a field. -/
theorem checkField_iff (ref test : Field) : checkField ref test = some () ↔
    test.ncoeffs = ref.ncoeffs ∧ test.npoints = ref.npoints ∧ test.exps.length = ref.exps.length ∧
      ∀ ex < ref.exps.length, checkExp test.exps ref.exps ex = some () := by
  unfold checkField
  split_ifs with h
  · rw [foldlM_unit]
    simp only [List.mem_range]
    tauto
  · constructor
    · simp
    · rintro ⟨a, b, c, _⟩
      exact absurd ⟨a, b, c⟩ h

theorem checkExp_iff (test ref : List Exp) (ex : ℕ) (h1 : ex < test.length) (h2 : ex < ref.length) : checkExp test ref ex = some () ↔
    (test[0]).coordim = (ref[0]).coordim ∧ (test[ex]).gid = (ref[ex]).gid ∧ ∀ dx < (ref[0]).coordim, checkDim test[ex] ref[ex] dx = some () := by
  unfold checkExp
  rw [List.getElem?_eq_getElem (by omega : 0 < ref.length), List.getElem?_eq_getElem (by omega : 0 < test.length), List.getElem?_eq_getElem h1, List.getElem?_eq_getElem h2]
  simp only [Option.bind_some]
  split_ifs with a b
  · rw [foldlM_unit]
    simp only [List.mem_range]
    tauto
  · simp [b]
  · simp [a]

variable {shapeOf : ℤ → Shape} {ncoeffsOf : Shape → List ℕ → ℕ}

/-- Fields on the same mesh that pass the checks have the same expansions: ids, shapes, modes, types, numbers of coefficients and offsets. -/
theorem same_expansions {ref test : Field} (hr : OnMesh shapeOf ncoeffsOf ref) (ht : OnMesh shapeOf ncoeffsOf test) (h : checkField ref test = some ()) :
    test.exps = ref.exps := by
  obtain ⟨_, _, hlen, hex⟩ := (checkField_iff ref test).1 h
  obtain ⟨dr, hdr⟩ := hr.bases
  obtain ⟨dt, hdt⟩ := ht.bases
  have key : ∀ i (h1 : i < test.exps.length) (h2 : i < ref.exps.length), (test.exps[i]).gid = (ref.exps[i]).gid ∧ (test.exps[i]).modes = (ref.exps[i]).modes ∧
      (test.exps[i]).types = (ref.exps[i]).types ∧ (test.exps[i]).coordim = (ref.exps[i]).coordim := by
    intro i h1 h2
    obtain ⟨a1, a2, a3⟩ := (checkExp_iff _ _ i h1 h2).1 (hex i h2)
    have e0 := (hdr _ (List.getElem_mem (by omega : 0 < ref.exps.length))).1
    have f0 := (hdt _ (List.getElem_mem (by omega : 0 < test.exps.length))).1
    obtain ⟨e1, e2, e3⟩ := hdr _ (List.getElem_mem h2)
    obtain ⟨f1, f2, f3⟩ := hdt _ (List.getElem_mem h1)
    have hd : dt = dr := by rw [← f0, ← e0, a1]
    rw [e0] at a3
    refine ⟨a2, ?_, ?_, by rw [e1, f1, hd]⟩
    · apply List.ext_getElem?
      intro k
      rcases lt_or_ge k dr with hk | hk
      · exact ((checkDim_iff _ _ _).1 (a3 k hk)).2.2.2.2.1
      · rw [List.getElem?_eq_none (by omega), List.getElem?_eq_none (by omega)]
    · apply List.ext_getElem?
      intro k
      rcases lt_or_ge k dr with hk | hk
      · exact ((checkDim_iff _ _ _).1 (a3 k hk)).2.2.2.2.2
      · rw [List.getElem?_eq_none (by omega), List.getElem?_eq_none (by omega)]
  have hnc : ∀ i (h1 : i < test.exps.length) (h2 : i < ref.exps.length), (test.exps[i]).ncoeffs = (ref.exps[i]).ncoeffs ∧ (test.exps[i]).shape = (ref.exps[i]).shape := by
    intro i h1 h2
    obtain ⟨a1, a2, a3, a4⟩ := key i h1 h2
    have s1 := ht.shape _ (List.getElem_mem h1)
    have s2 := hr.shape _ (List.getElem_mem h2)
    have hs : (test.exps[i]).shape = (ref.exps[i]).shape := by rw [s1, s2, a1]
    exact ⟨by rw [ht.ncoeffs _ (List.getElem_mem h1), hr.ncoeffs _ (List.getElem_mem h2), hs, a2], hs⟩
  have hmap : test.exps.map (fun e => e.ncoeffs) = ref.exps.map fun e => e.ncoeffs := by
    apply List.ext_getElem (by simpa using hlen)
    intro i h1 h2
    rw [List.getElem_map, List.getElem_map]
    exact (hnc i (by simpa using h1) (by simpa using h2)).1
  apply List.ext_getElem hlen
  intro i h1 h2
  obtain ⟨a1, a2, a3, a4⟩ := key i h1 h2
  obtain ⟨b1, b2⟩ := hnc i h1 h2
  have o1 := ht.offsets i h1
  have o2 := hr.offsets i h2
  rw [List.map_take, hmap] at o1
  rw [List.map_take] at o2
  have i1 := ht.ids i h1
  have i2 := hr.ids i h2
  generalize test.exps[i] = x at *
  generalize ref.exps[i] = y at *
  obtain ⟨⟨x1, x2, x3, x4, x5, x6⟩, x7, x8⟩ := x
  obtain ⟨⟨y1, y2, y3, y4, y5, y6⟩, y7, y8⟩ := y
  dsimp only at *
  subst a1 a2 a3 a4 b1 b2
  rw [o1, o2, i1, i2]

/-- The constructor accepts one field or several with the same expansions and numbers of points. -/
theorem construct_iff (f0 : Field) (rest : List Field) (hn : rest ≠ []) (mapToNektar : List ℤ) (base : Base) : construct (f0 :: rest) mapToNektar = some base ↔
    Base.build (f0.exps.map Exp.toExpansion) mapToNektar = some base ∧ ∀ f ∈ f0 :: rest, checkField f0 f = some () := by
  unfold construct
  dsimp only
  have hl : rest.length + 1 > 1 := by
    have := List.length_pos_iff.2 hn
    omega
  simp only [if_pos hl]
  cases hb : Base.build (f0.exps.map Exp.toExpansion) mapToNektar with
  | none => simp
  | some b =>
    have hg : ∃ g, buildGeomToExp (f0.exps.map Exp.toExpansion) = some g := by
      unfold Base.build at hb
      cases hgg : buildGeomToExp (f0.exps.map Exp.toExpansion) with
      | none => rw [hgg] at hb; simp at hb
      | some g => exact ⟨g, rfl⟩
    obtain ⟨g, hg⟩ := hg
    rw [Option.bind_some, hg, Option.bind_some, ← foldlM_unit]
    cases (f0 :: rest).foldlM (fun _ f => checkField f0 f) () with
    | none => simp
    | some u => simp

theorem construct_single (f0 : Field) (mapToNektar : List ℤ) : construct [f0] mapToNektar = Base.build (f0.exps.map Exp.toExpansion) mapToNektar := by
  unfold construct
  dsimp only
  cases hb : Base.build (f0.exps.map Exp.toExpansion) mapToNektar with
  | none => rfl
  | some b =>
    rw [Option.bind_some]
    cases hgg : buildGeomToExp (f0.exps.map Exp.toExpansion) with
    | none => unfold Base.build at hb; rw [hgg] at hb; simp at hb
    | some g => simp

/-- Without fields the constructor stops. -/
theorem construct_none (mapToNektar : List ℤ) : construct [] mapToNektar = none := rfl

/-- **C98.** If the constructor accepts the fields, it has set up for each of them what it would set up for that field alone. -/
theorem same_as_alone {fields : List Field} (hm : ∀ f ∈ fields, OnMesh shapeOf ncoeffsOf f) {mapToNektar : List ℤ} {base : Base} (h : construct fields mapToNektar = some base) :
    ∀ f ∈ fields, construct [f] mapToNektar = some base ∧ ∀ g ∈ fields, f.exps = g.exps ∧ (f.ncoeffs = g.ncoeffs) := by
  cases fields with
  | nil => simp
  | cons f0 rest =>
    cases rest with
    | nil =>
      intro f hf
      rw [List.mem_singleton] at hf
      subst hf
      refine ⟨h, fun g hg => ?_⟩
      rw [List.mem_singleton] at hg
      subst hg
      exact ⟨rfl, rfl⟩
    | cons f1 rest =>
      obtain ⟨h1, h2⟩ := (construct_iff f0 (f1 :: rest) (by simp) mapToNektar base).1 h
      have hs : ∀ f ∈ f0 :: f1 :: rest, f.exps = f0.exps ∧ f.ncoeffs = f0.ncoeffs := fun f hf =>
        ⟨same_expansions (hm f0 (by simp)) (hm f hf) (h2 f hf), ((checkField_iff f0 f).1 (h2 f hf)).1⟩
      intro f hf
      obtain ⟨e1, e2⟩ := hs f hf
      refine ⟨by rw [construct_single, e1]; exact h1, fun g hg => ?_⟩
      obtain ⟨e3, e4⟩ := hs g hg
      exact ⟨by rw [e1, e3], by rw [e2, e4]⟩

variable {K : Type} [_root_.Field K] [LinearOrder K]

/-- Projecting onto several fields at once gives each field a result that projecting onto that field alone can give. -/
theorem project_each (tol : K) {base : Base} (ndim : ℕ) (ops : List (FieldOps K)) (ncomp : String → Option ℕ)
    (parts : ℕ → List (FullParticle K)) (layers : ℕ → List ℕ) (syms : List String) (components : List ℤ) (mem : Shape × ℕ × ℕ → List (Option K)) (ncoeffs : ℕ)
    (res : List (FieldState K)) (h : ProjectFieldsTo tol base ndim ops ncomp parts layers syms components mem ncoeffs res) :
    ∃ (hs : syms.length = ops.length) (hc : components.length = ops.length) (hr : res.length = ops.length), ∀ k (hk : k < ops.length),
      ProjectFieldsTo tol base ndim [ops[k]] ncomp parts layers [syms[k]] [components[k]] mem ncoeffs [res[k]] := by
  obtain ⟨h1, h2, h3, rhss, h4, h5⟩ := h
  have hl := h4.length_eq
  rw [List.length_zip, h1, h2, min_self] at hl
  have h6 := mapM_forall₂ _ _ _ h5
  have hl2 := h6.length_eq
  rw [List.length_zip, ← hl, min_self] at hl2
  refine ⟨h1, h2, hl2.symm, fun k hk => ⟨rfl, rfl, ?_, [rhss[k]], ?_, ?_⟩⟩
  · intro x hx
    simp only [List.zip_cons_cons, List.zip_nil_right, List.mem_singleton] at hx
    subst hx
    have hm : (syms[k], components[k]) ∈ syms.zip components := by
      have : (syms.zip components)[k]'(by rw [List.length_zip]; omega) = (syms[k], components[k]) := List.getElem_zip
      rw [← this]
      exact List.getElem_mem _
    exact h3 _ hm
  · have := (List.forall₂_iff_get.1 h4).2 k (by rw [List.length_zip]; omega) (by omega)
    simp only [List.get_eq_getElem, List.getElem_zip] at this
    simp only [List.zip_cons_cons, List.zip_nil_right]
    exact List.Forall₂.cons this List.Forall₂.nil
  · have := (List.forall₂_iff_get.1 h6).2 k (by rw [List.length_zip]; omega) (by omega)
    simp only [List.get_eq_getElem, List.getElem_zip] at this
    simp [this]

/-- Fields with a different number of modes in one element are refused. -/
theorem different_modes_refused {f0 f : Field} (rest : List Field) (hf : f ∈ rest) (mapToNektar : List ℤ) (i dx : ℕ) (h1 : i < f.exps.length) (h2 : i < f0.exps.length)
    (hd : dx < (f0.exps[0]).coordim) (hne : (f.exps[i]).modes[dx]? ≠ (f0.exps[i]).modes[dx]?) : construct (f0 :: rest) mapToNektar = none := by
  by_contra h
  obtain ⟨base, hb⟩ := Option.ne_none_iff_exists'.1 h
  have hb := ((construct_iff f0 rest (List.ne_nil_of_mem hf) mapToNektar base).1 hb).2 f (by simp [hf])
  have hb := ((checkField_iff f0 f).1 hb).2.2.2 i h2
  have hb := ((checkExp_iff _ _ i h1 h2).1 hb).2.2 dx hd
  exact hne ((checkDim_iff _ _ _).1 hb).2.2.2.2.1

/-- Finding: the loop over the bases goes up to the number of coordinates. Two fields on a surface mesh in three dimensions, where expansions have two bases, are not
accepted, even if they are equal: the third basis is read. -/
theorem surface_fields_fail (f : Field) (he : f.exps ≠ []) (h3 : ∀ e ∈ f.exps, e.coordim = 3 ∧ e.modes.length = 2) (mapToNektar : List ℤ) :
    construct [f, f] mapToNektar = none := by
  by_contra h
  obtain ⟨base, hb⟩ := Option.ne_none_iff_exists'.1 h
  have hb := ((construct_iff f [f] (by simp) mapToNektar base).1 hb).2 f (by simp)
  have hl : 0 < f.exps.length := List.length_pos_iff.2 he
  have hb := ((checkField_iff f f).1 hb).2.2.2 0 hl
  obtain ⟨c3, m2⟩ := h3 _ (List.getElem_mem hl)
  have hb := ((checkExp_iff _ _ 0 hl hl).1 hb).2.2 2 (by omega)
  have := ((checkDim_iff _ _ _).1 hb).1
  omega

/-- A field with one quadrilateral. -/
def exField (npoints : ℕ) : Field := ⟨9, npoints, [⟨⟨7, 0, .quad, [3, 3], 9, 0⟩, 2, [4, 4]⟩]⟩

theorem exField_ok (n : ℕ) : OnMesh (fun _ => .quad) (fun _ m => m.prod) (exField n) where
  ids := by
    intro i h
    have : i = 0 := by simpa [exField] using h
    subst this
    rfl
  shape := by simp [exField]
  ncoeffs := by simp [exField]
  offsets := by
    intro i h
    have : i = 0 := by simpa [exField] using h
    subst this
    rfl
  bases := ⟨2, by simp [exField]⟩

example : checkField (exField 16) (exField 16) = some () ∧ checkField (exField 16) (exField 25) = none := by decide

example : (construct [exField 16, exField 16] [7]).isSome = true := by
  have : (Base.build ((exField 16).exps.map Exp.toExpansion) [7]).isSome = true := by decide
  obtain ⟨b, hb⟩ := Option.isSome_iff_exists.1 this
  rw [(construct_iff _ _ (by simp) _ b).2 ⟨hb, by
    intro f hf
    have : f = exField 16 := by simpa using hf
    subst this
    decide⟩]
  rfl

end Verif.Props.C98
