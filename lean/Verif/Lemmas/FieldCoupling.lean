import Verif.Spec.FieldCoupling
import Verif.Props.C04_CellToExp
import Verif.Lemmas.Fold

/-! The constructor of `BasisEvaluateBase`: the state it builds. -/

namespace Verif.Lemmas.FieldCoupling
open Verif.Model Verif.Model.BasisReference Verif.Model.FieldCoupling Verif.Model.BasisEvaluateBase
  Verif.Model.ExpansionLooping Verif.Model.CellId Verif.Spec.FieldCoupling

/-- The state of the instance for cells on the expansions `cells`. -/
def baseOf (cells : List Expansion) : Base where
  nummodes := cells.map order
  offsets := cells.map (·.offset)
  cells := fun sh => (cells.zipIdx.filter fun x => x.1.shape = sh).map (·.2)
  spaces := fun sh d => ((cells.filter fun e => e.shape = sh ∧ d < e.modes.length).map fun e => spaceSize sh (order e) d).foldl max 0
  dims := tableDims (cells.map fun e => (e.shape, order e))

theorem addCell_eq (exps : List Expansion) (ndim N : ℕ) (h : FieldOk exps ndim N) (pre : List Expansion) (e : Expansion) (he : e ∈ exps) :
    Base.addCell exps (geomToExp (exps.map (·.gid))) (baseOf pre) e.gid = some (baseOf (pre ++ [e])) := by
  obtain ⟨k, hk, rfl⟩ := List.mem_iff_getElem.1 he
  have hat : (geomToExp (exps.map (·.gid))).at? exps[k].gid = some (k : ℤ) :=
    Verif.Props.C04.geomToExp_at _ h.gids k _ (by simp [hk])
  have hm := h.modes _ he
  have h2 : 0 < ndim := by
    have := h.dim _ he
    revert this; cases exps[k].shape <;> simp [dimOf] <;> omega
  obtain ⟨m, rfl⟩ : ∃ m, ndim = m + 1 := ⟨ndim - 1, by omega⟩
  unfold Base.addCell
  rw [hat]
  simp only [Option.getD_some, Int.toNat_natCast, List.getElem?_eq_getElem hk, Option.bind_some]
  rw [hm, List.replicate_succ]
  simp only [List.all_replicate, beq_self_eq_true, Bool.or_true, ite_self, if_true]
  congr 1
  unfold baseOf
  congr 1
  · simp
  · simp
  · funext sh
    simp only [List.zipIdx_append, List.filter_append, List.map_append, List.length_map]
    by_cases hs : sh = exps[k].shape
    · subst hs; simp
    · rw [if_neg hs]; simp [Ne.symm hs]
  · funext sh d
    simp only [List.filter_append, List.map_append, List.foldl_append]
    by_cases hs : sh = exps[k].shape ∧ d < exps[k].modes.length
    · have hs' : exps[k].shape = sh ∧ d < exps[k].modes.length := ⟨hs.1.symm, hs.2⟩
      have h1 : sh = exps[k].shape ∧ d < (order exps[k] :: List.replicate m (order exps[k])).length := by
        refine ⟨hs.1, ?_⟩
        have := hs.2
        rw [hm] at this; simpa using this
      rw [if_pos h1, List.filter_singleton, decide_eq_true hs']
      simp
    · have hs' : ¬ (exps[k].shape = sh ∧ d < exps[k].modes.length) := fun h => hs ⟨h.1.symm, h.2⟩
      have h1 : ¬ (sh = exps[k].shape ∧ d < (order exps[k] :: List.replicate m (order exps[k])).length) := by
        rintro ⟨a, b⟩
        refine hs ⟨a, ?_⟩
        rw [hm]; simpa using b
      rw [if_neg h1, List.filter_singleton, decide_eq_false hs']
      simp
  · simp [tableDims, List.foldl_append]

theorem foldlM_eq (exps : List Expansion) (ndim N : ℕ) (h : FieldOk exps ndim N) (cells : List Expansion) (hc : ∀ e ∈ cells, e ∈ exps) (pre : List Expansion) :
    (cells.map (·.gid)).foldlM (Base.addCell exps (geomToExp (exps.map (·.gid)))) (baseOf pre) = some (baseOf (pre ++ cells)) := by
  induction cells generalizing pre with
  | nil => simp
  | cons e cs ih =>
    rw [List.map_cons, List.foldlM_cons, addCell_eq exps ndim N h pre e (hc e (by simp))]
    simp only [Option.bind_eq_bind, Option.bind_some]
    rw [ih (fun x hx => hc x (List.mem_cons_of_mem _ hx))]
    simp

theorem sum_counts (l : List (Expansion × ℕ)) :
    (allShapes.map fun sh => ((l.filter fun x => x.1.shape = sh).map (·.2)).length).sum = l.length := by
  induction l with
  | nil => rfl
  | cons a l ih =>
    simp only [allShapes, List.map_cons, List.map_nil, List.sum_cons, List.sum_nil, List.length_map, List.length_cons] at ih ⊢
    cases hs : a.1.shape <;> simp [List.filter_cons, hs] at ih ⊢ <;> omega

theorem baseOf_nil : baseOf [] = Base.init := by
  simp [baseOf, Base.init, tableDims]

/-- The constructor succeeds on a field with an expansion for each cell, and its state describes the cells. -/
theorem build_eq (exps : List Expansion) (ndim N : ℕ) (h : FieldOk exps ndim N) (cells : List Expansion) (hc : ∀ e ∈ cells, e ∈ exps) :
    Base.build exps (cells.map (·.gid)) = some (baseOf cells) := by
  unfold Base.build buildGeomToExp
  rw [if_pos h.ids, Option.bind_some, ← baseOf_nil, foldlM_eq exps ndim N h cells hc [], Option.bind_some, List.nil_append]
  rw [if_pos]
  simpa [baseOf] using sum_counts cells.zipIdx

/-- The local space of a shape is large enough for each cell of the shape. -/
theorem space_ge (cells : List Expansion) (e : Expansion) (he : e ∈ cells) (d : ℕ) (hd : d < e.modes.length) :
    spaceSize e.shape (order e) d ≤ (baseOf cells).spaces e.shape d := by
  unfold baseOf
  refine (Verif.Lemmas.foldl_max_ge id _ _).2 _ ?_
  exact List.mem_map.2 ⟨e, List.mem_filter.2 ⟨he, by simpa using hd⟩, rfl⟩

/-- Each particle of each cell is the work item of one kernel: summing over the work items is summing over the cells and layers. -/
theorem sum_workItems {M : Type*} [AddCommMonoid M] (cells : List Expansion) (ndim : ℕ) (hd : ∀ e ∈ cells, dimOf e.shape = ndim)
    (layers : ℕ → List ℕ) (g : ℕ → ℕ → M) :
    ((workItems (baseOf cells) ndim layers).map fun w => g w.2.1 w.2.2).sum =
      ((List.range cells.length).map fun c => ((layers c).map fun l => g c l).sum).sum := by
  have key : ∀ l : List (Expansion × ℕ), (∀ x ∈ l, dimOf x.1.shape = ndim) → ∀ f : ℕ → M,
      ((launchShapes ndim).map fun sh => (((l.filter fun x => x.1.shape = sh).map (·.2)).map f).sum).sum = (l.map fun x => f x.2).sum := by
    intro l hl f
    induction l with
    | nil => unfold launchShapes; split <;> simp
    | cons a l ih =>
      have ih := ih fun x hx => hl x (List.mem_cons_of_mem _ hx)
      have ha := hl a (by simp)
      rw [List.map_cons, List.sum_cons, ← ih]
      clear ih
      unfold launchShapes
      cases hs : a.1.shape <;> rw [hs] at ha <;> simp only [dimOf] at ha <;> subst ha <;>
        simp [hs, List.filter_cons] <;> abel
  have hz : ∀ x ∈ cells.zipIdx, dimOf x.1.shape = ndim := by
    rintro ⟨a, b⟩ hab
    exact hd a (List.mem_of_getElem? (List.mk_mem_zipIdx_iff_getElem?.1 hab))
  have e1 := key cells.zipIdx hz fun c => ((layers c).map fun l => g c l).sum
  have e2 : (cells.zipIdx.map fun x => ((layers x.2).map fun l => g x.2 l).sum) =
      (List.range cells.length).map fun c => ((layers c).map fun l => g c l).sum := by
    rw [List.range_eq_range', ← List.zipIdx_map_snd, List.map_map]; rfl
  rw [← e2, ← e1]
  unfold workItems
  have hf : ∀ {α : Type} (l : List α) (f : α → List M), (l.flatMap f).sum = (l.map fun a => (f a).sum).sum := by
    intro α l f; rw [List.flatMap_def, List.sum_flatten, List.map_map]; rfl
  simp only [List.map_flatMap, hf, List.map_map, baseOf]
  rfl

theorem mem_workItems (cells : List Expansion) (ndim : ℕ) (layers : ℕ → List ℕ) (w : Shape × ℕ × ℕ)
    (hw : w ∈ workItems (baseOf cells) ndim layers) :
    ∃ e, cells[w.2.1]? = some e ∧ e.shape = w.1 ∧ w.2.2 ∈ layers w.2.1 := by
  obtain ⟨sh, c, l⟩ := w
  simp only [workItems, List.mem_flatMap, List.mem_map, Prod.mk.injEq] at hw
  obtain ⟨sh', _, c', hc', l', hl', rfl, rfl, rfl⟩ := hw
  simp only [baseOf, List.mem_map, List.mem_filter, decide_eq_true_eq] at hc'
  obtain ⟨⟨e, c⟩, ⟨h1, h2⟩, rfl⟩ := hc'
  exact ⟨e, List.mk_mem_zipIdx_iff_getElem?.1 h1, h2, hl'⟩

end Verif.Lemmas.FieldCoupling
