import Verif.Spec.BaryField
import Verif.Props.C04_CellToExp
import Verif.Lemmas.Fold
import Mathlib.Tactic.Linarith
import Mathlib.Tactic.Ring
import Mathlib.Algebra.Order.Field.Basic

/-! The constructor of `BaryEvaluateBase`: the state it builds. -/

namespace Verif.Lemmas.BaryField
open Verif.Spec Verif.Model Verif.Model.BasisReference Verif.Model.BaryField Verif.Model.CellId Verif.Spec.BaryField

variable {K : Type*} [Field K] [LinearOrder K] [IsStrictOrderedRing K]

def sizes (e : QExpansion K) : List ℕ := e.base.map fun b => b.1.length

def infoOf (e : QExpansion K) : CellInfo K := ⟨e.shape, sizes e, e.base.map (·.1), e.base.map (·.2)⟩

/-- Each node and weight of `e'` is within the tolerance of the one of `e`. -/
def CloseTo (e e' : QExpansion K) : Prop :=
  (coeffList e.base).length = (coeffList e'.base).length ∧
    ∀ x ∈ (coeffList e.base).zip (coeffList e'.base), relErr x.1 x.2 < 1 / 10 ^ 10

structure Inv (pre : List (QExpansion K)) (s : State K) : Prop where
  infos : ∀ key info test, s.infos key = some (info, test) → ∃ e ∈ pre, key = (e.shape, sizes e) ∧ info = infoOf e ∧ test = coeffList e.base
  keys : ∀ e ∈ pre, (s.infos (e.shape, sizes e)).isSome
  cells : List.Forall₂ (fun e x => x.2 = e.physOffset ∧ ∃ e' ∈ pre, e'.shape = e.shape ∧ sizes e' = sizes e ∧ x.1 = infoOf e' ∧ CloseTo e e') pre s.cells
  max : ∀ e ∈ pre, ∀ n ∈ sizes e, n ≤ s.maxPhys

theorem relErr_self (a : K) : relErr a a < 1 / 10 ^ 10 := by
  unfold relErr
  simp

theorem zip_self_mem {α : Type*} (l : List α) (x : α × α) (h : x ∈ l.zip l) : x.1 = x.2 := by
  induction l with
  | nil => simp at h
  | cons a l ih =>
    rw [List.zip_cons_cons, List.mem_cons] at h
    rcases h with rfl | h
    · rfl
    · exact ih h

theorem closeTo_self (e : QExpansion K) : CloseTo e e :=
  ⟨rfl, fun x hx => by rw [zip_self_mem _ x hx]; exact relErr_self _⟩

theorem closeTo_of_base {e e' : QExpansion K} (h : e.base = e'.base) : CloseTo e e' := by
  unfold CloseTo; rw [h]; exact closeTo_self e'

theorem foldl_max_mono (l : List ℕ) (m : ℕ) : m ≤ l.foldl max m ∧ ∀ n ∈ l, n ≤ l.foldl max m := by
  induction l generalizing m with
  | nil => simp
  | cons a l ih =>
    obtain ⟨h1, h2⟩ := ih (max m a)
    refine ⟨le_trans (le_max_left _ _) h1, fun n hn => ?_⟩
    rw [List.mem_cons] at hn
    rcases hn with rfl | hn
    · exact le_trans (le_max_right _ _) h1
    · exact h2 n hn

omit [IsStrictOrderedRing K] in
theorem addCell_unfold (exps : List (QExpansion K)) (ndim P : ℕ) (h : FieldOk exps ndim P) (e : QExpansion K) (he : e ∈ exps) (s : State K) :
    State.addCell exps (geomToExp (exps.map (·.gid))) ndim s e.gid =
      match s.infos (e.shape, sizes e) with
      | none => some ⟨Function.update s.infos (e.shape, sizes e) (some (infoOf e, coeffList e.base)), s.cells ++ [(infoOf e, e.physOffset)],
          (sizes e).foldl max s.maxPhys⟩
      | some (info, test) =>
        if (coeffList e.base).length = test.length ∧ ((coeffList e.base).zip test).all (fun x => relErr x.1 x.2 < 1 / 10 ^ 10) then
          some { s with cells := s.cells ++ [(info, e.physOffset)] }
        else none := by
  obtain ⟨k, hk, rfl⟩ := List.mem_iff_getElem.1 he
  have hat : (geomToExp (exps.map (·.gid))).at? exps[k].gid = some (k : ℤ) :=
    Verif.Props.C04.geomToExp_at _ h.gids k _ (by simp [hk])
  unfold State.addCell
  rw [hat]
  simp only [Option.getD_some, Int.toNat_natCast, List.getElem?_eq_getElem hk, Option.bind_some]
  have hb := h.base _ he
  rw [if_neg (by omega), List.take_of_length_le (by omega), if_pos (by
    rw [List.all_eq_true]; intro b hb'; simpa using (h.rule _ he b hb').1)]
  rfl

theorem addCell_inv (exps : List (QExpansion K)) (ndim P : ℕ) (h : FieldOk exps ndim P) (e : QExpansion K) (he : e ∈ exps) (pre : List (QExpansion K))
    (s s' : State K) (hi : Inv pre s) (hs : State.addCell exps (geomToExp (exps.map (·.gid))) ndim s e.gid = some s') : Inv (pre ++ [e]) s' := by
  rw [addCell_unfold exps ndim P h e he s] at hs
  have hold : ∀ cells, List.Forall₂ (fun e x => x.2 = e.physOffset ∧ ∃ e' ∈ pre, e'.shape = e.shape ∧ sizes e' = sizes e ∧ x.1 = infoOf e' ∧ CloseTo e e')
      pre cells → List.Forall₂ (fun e₁ x => x.2 = e₁.physOffset ∧ ∃ e' ∈ pre ++ [e], e'.shape = e₁.shape ∧ sizes e' = sizes e₁ ∧ x.1 = infoOf e' ∧
        CloseTo e₁ e') pre (cells : List (CellInfo K × ℕ)) := by
    intro cells hc
    refine hc.imp fun a x hx => ⟨hx.1, ?_⟩
    obtain ⟨e', h1, h2⟩ := hx.2
    exact ⟨e', List.mem_append_left _ h1, h2⟩
  cases hk : s.infos (e.shape, sizes e) with
  | none =>
    rw [hk] at hs
    cases hs
    constructor
    · intro key info test hkey
      by_cases hq : key = (e.shape, sizes e)
      · subst hq
        dsimp only at hkey
        rw [Function.update_self] at hkey
        cases hkey
        exact ⟨e, by simp, rfl, rfl, rfl⟩
      · dsimp only at hkey
        rw [Function.update_of_ne hq] at hkey
        obtain ⟨e', h1, h2⟩ := hi.infos _ _ _ hkey
        exact ⟨e', List.mem_append_left _ h1, h2⟩
    · intro e' he'
      by_cases hq : (e'.shape, sizes e') = (e.shape, sizes e)
      · dsimp only; rw [hq, Function.update_self]; rfl
      · dsimp only; rw [Function.update_of_ne hq]
        rcases List.mem_append.1 he' with h1 | h1
        · exact hi.keys _ h1
        · simp at h1; subst h1; exact absurd rfl hq
    · exact List.rel_append (hold _ hi.cells) 
        (.cons ⟨rfl, e, by simp, rfl, rfl, rfl, closeTo_self e⟩ .nil)
    · intro e' he' n hn
      rcases List.mem_append.1 he' with h1 | h1
      · exact le_trans (hi.max _ h1 _ hn) (foldl_max_mono _ _).1
      · simp at h1; subst h1; exact (foldl_max_mono _ _).2 _ hn
  | some it =>
    obtain ⟨info, test⟩ := it
    rw [hk] at hs
    dsimp only at hs
    obtain ⟨e', h1, h2, rfl, rfl⟩ := hi.infos _ _ _ hk
    by_cases hcond : (coeffList e.base).length = (coeffList e'.base).length ∧
        ((coeffList e.base).zip (coeffList e'.base)).all (fun x => relErr x.1 x.2 < 1 / 10 ^ 10)
    · rw [if_pos hcond] at hs
      cases hs
      rw [Prod.mk.injEq] at h2
      constructor
      · intro key info test hkey
        obtain ⟨e', h1, h2⟩ := hi.infos _ _ _ hkey
        exact ⟨e', List.mem_append_left _ h1, h2⟩
      · intro e'' he''
        rcases List.mem_append.1 he'' with h3 | h3
        · exact hi.keys _ h3
        · simp at h3; subst h3; rw [hk]; rfl
      · refine List.rel_append (hold _ hi.cells) ?_
        refine List.Forall₂.cons ⟨rfl, e', List.mem_append_left _ h1, h2.1.symm, h2.2.symm, rfl, hcond.1, ?_⟩ .nil
        intro x hx
        have := List.all_eq_true.1 hcond.2 x hx
        simpa using this
      · intro e'' he'' n hn
        rcases List.mem_append.1 he'' with h3 | h3
        · exact hi.max _ h3 _ hn
        · simp at h3; subst h3; rw [h2.2] at hn; exact hi.max _ h1 _ hn
    · rw [if_neg hcond] at hs; cases hs

theorem addCell_some (exps : List (QExpansion K)) (ndim P : ℕ) (h : FieldOk exps ndim P) (hsame : SameNodes exps) (e : QExpansion K) (he : e ∈ exps)
    (pre : List (QExpansion K)) (hpre : ∀ e ∈ pre, e ∈ exps)
    (s : State K) (hi : Inv pre s) : ∃ s', State.addCell exps (geomToExp (exps.map (·.gid))) ndim s e.gid = some s' := by
  rw [addCell_unfold exps ndim P h e he s]
  cases hk : s.infos (e.shape, sizes e) with
  | none => exact ⟨_, rfl⟩
  | some it =>
    obtain ⟨info, test⟩ := it
    obtain ⟨e', h1, h2, rfl, rfl⟩ := hi.infos _ _ _ hk
    rw [Prod.mk.injEq] at h2
    have hb : e.base = e'.base := hsame e he e' (hpre _ h1) h2.1 h2.2
    dsimp only
    rw [if_pos]
    · exact ⟨_, rfl⟩
    · obtain ⟨a, b⟩ := closeTo_of_base hb
      refine ⟨a, ?_⟩
      rw [List.all_eq_true]
      intro x hx
      simpa using b x hx

omit [IsStrictOrderedRing K] in
theorem inv_init : Inv ([] : List (QExpansion K)) State.init where
  infos := by intro key info test h; cases h
  keys := by simp
  cells := .nil
  max := by simp

theorem fold_inv (exps : List (QExpansion K)) (ndim P : ℕ) (h : FieldOk exps ndim P) (cells : List (QExpansion K)) (hc : ∀ e ∈ cells, e ∈ exps)
    (pre : List (QExpansion K)) (s s' : State K) (hi : Inv pre s)
    (hs : (cells.map (·.gid)).foldlM (State.addCell exps (geomToExp (exps.map (·.gid))) ndim) s = some s') : Inv (pre ++ cells) s' := by
  induction cells generalizing pre s with
  | nil => simp at hs; subst hs; simpa using hi
  | cons e cs ih =>
    rw [List.map_cons, List.foldlM_cons] at hs
    cases h1 : State.addCell exps (geomToExp (exps.map (·.gid))) ndim s e.gid with
    | none => rw [h1] at hs; cases hs
    | some s1 =>
      rw [h1] at hs
      have := ih (fun x hx => hc x (List.mem_cons_of_mem _ hx)) (pre ++ [e]) s1 (addCell_inv exps ndim P h e (hc e (by simp)) pre s s1 hi h1) hs
      simpa using this

theorem fold_some (exps : List (QExpansion K)) (ndim P : ℕ) (h : FieldOk exps ndim P) (hsame : SameNodes exps) (cells : List (QExpansion K))
    (hc : ∀ e ∈ cells, e ∈ exps) (pre : List (QExpansion K)) (hpre : ∀ e ∈ pre, e ∈ exps) (s : State K) (hi : Inv pre s) :
    ∃ s', (cells.map (·.gid)).foldlM (State.addCell exps (geomToExp (exps.map (·.gid))) ndim) s = some s' := by
  induction cells generalizing pre s with
  | nil => exact ⟨s, rfl⟩
  | cons e cs ih =>
    obtain ⟨s1, h1⟩ := addCell_some exps ndim P h hsame e (hc e (by simp)) pre hpre s hi
    obtain ⟨s2, h2⟩ := ih (fun x hx => hc x (List.mem_cons_of_mem _ hx)) (pre ++ [e]) (by
      intro x hx
      rcases List.mem_append.1 hx with hx | hx
      · exact hpre x hx
      · simp at hx; subst hx; exact hc x (by simp)) s1 (addCell_inv exps ndim P h e (hc e (by simp)) pre s s1 hi h1)
    refine ⟨s2, ?_⟩
    rw [List.map_cons, List.foldlM_cons, h1]
    exact h2

theorem build_inv (exps : List (QExpansion K)) (ndim P : ℕ) (h : FieldOk exps ndim P) (cells : List (QExpansion K)) (hc : ∀ e ∈ cells, e ∈ exps)
    (s : State K) (hs : State.build exps ndim (cells.map (·.gid)) = some s) : Inv cells s := by
  unfold State.build at hs
  rw [if_pos h.ids] at hs
  simpa using fold_inv exps ndim P h cells hc [] _ s inv_init hs

theorem build_some (exps : List (QExpansion K)) (ndim P : ℕ) (h : FieldOk exps ndim P) (hsame : SameNodes exps) (cells : List (QExpansion K))
    (hc : ∀ e ∈ cells, e ∈ exps) : ∃ s, State.build exps ndim (cells.map (·.gid)) = some s := by
  unfold State.build
  rw [if_pos h.ids]
  exact fold_some exps ndim P h hsame cells hc [] (by simp) _ inv_init

/-- With equal nodes each cell has its own nodes and weights. -/
theorem cell_of_same (exps : List (QExpansion K)) (hsame : SameNodes exps) (cells : List (QExpansion K))
    (hc : ∀ e ∈ cells, e ∈ exps) (s : State K) (hi : Inv cells s) (c : ℕ) (e : QExpansion K) (he : cells[c]? = some e) :
    s.cells[c]? = some (infoOf e, e.physOffset) := by
  have hlen := hi.cells.length_eq
  obtain ⟨hc1, rfl⟩ := List.getElem?_eq_some_iff.1 he
  have h2 := (List.forall₂_iff_get.1 hi.cells).2 c hc1 (by omega)
  obtain ⟨h3, e', h4, h5, h6, h7, -⟩ := h2
  rw [List.getElem?_eq_getElem (by omega)]
  have hb : e'.base = cells[c].base := hsame e' (hc _ h4) _ (hc _ (List.getElem_mem _)) h5 h6
  congr 1
  refine Prod.ext ?_ h3
  simp only [List.get_eq_getElem] at h7
  rw [h7, infoOf, infoOf, h5, h6, hb]
  rfl

theorem relErr_lt_iff (a b : K) : relErr a b < 1 / 10 ^ 10 ↔ |a - b| < 1 / 10 ^ 10 * max 1 |a| := by
  have hp : (0 : K) < 1 / 10 ^ 10 := by positivity
  unfold relErr
  dsimp only
  by_cases ha : |a| > 0
  · rw [if_pos ha, min_lt_iff, div_lt_iff₀ ha]
    constructor
    · rintro (h | h)
      · exact lt_of_lt_of_le h (mul_le_mul_of_nonneg_left (le_max_right _ _) hp.le)
      · calc |a - b| < 1 / 10 ^ 10 * 1 := by rwa [mul_one]
          _ ≤ _ := mul_le_mul_of_nonneg_left (le_max_left _ _) hp.le
    · intro h
      rcases max_cases 1 |a| with ⟨h1, -⟩ | ⟨h1, -⟩
      · rw [h1, mul_one] at h; exact .inr h
      · rw [h1] at h; exact .inl h
  · rw [if_neg ha, min_self]
    have : |a| = 0 := le_antisymm (not_lt.1 ha) (abs_nonneg _)
    rw [this, max_eq_left zero_le_one, mul_one]

end Verif.Lemmas.BaryField
