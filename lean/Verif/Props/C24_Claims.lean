import Verif.Model.Claims
import Verif.Props.C23_HaloStencil
import Mathlib.Data.List.Perm.Basic

/-! C24: a local claim keeps the largest weight of each cell. -/

namespace Verif.Props.C24
open Verif.Model.Claims Verif.Model.HaloCells Verif.Props.C23

variable {K : Type*} [Field K] [LinearOrder K]

/-- A call of `claim`: cell, weight, floating point weight. -/
abbrev Call (K : Type*) := ℤ × ℤ × K

/-- A sequence of calls of `claim` on a new object. -/
def claims (calls : List (Call K)) : LocalClaim K := calls.foldl (fun c x => c.claim x.1 x.2.1 x.2.2) LocalClaim.empty

theorem claims_append (calls : List (Call K)) (x : Call K) : claims (calls ++ [x]) = (claims calls).claim x.1 x.2.1 x.2.2 := by
  unfold claims; rw [List.foldl_append]; rfl

theorem claim_neg (c : LocalClaim K) (i w : ℤ) (f : K) (h : ¬ w > 0) : c.claim i w f = c := by unfold LocalClaim.claim; rw [if_neg h]
theorem claim_cells (c : LocalClaim K) (i w : ℤ) (f : K) (h : w > 0) : (c.claim i w f).cells = setInsert c.cells i := by
  unfold LocalClaim.claim; rw [if_pos h]
theorem claim_weights (c : LocalClaim K) (i w : ℤ) (f : K) (h : w > 0) : (c.claim i w f).weights =
    if w > (c.weights i).1 then Function.update c.weights i (w, f) else c.weights := by
  unfold LocalClaim.claim; rw [if_pos h]

/-- The cells with a claim are those claimed with a positive weight, each once. -/
theorem claimed_cells (calls : List (Call K)) :
    (claims calls).cells.Nodup ∧ ∀ i, i ∈ (claims calls).cells ↔ ∃ x ∈ calls, x.1 = i ∧ 0 < x.2.1 := by
  induction calls using List.reverseRecOn with
  | nil => exact ⟨List.nodup_nil, fun i => by simp [claims, LocalClaim.empty]⟩
  | append_singleton calls x ih =>
    rw [claims_append]
    by_cases h : x.2.1 > 0
    · rw [claim_cells _ _ _ _ h]
      refine ⟨nodup_setInsert ih.1 _, fun i => ?_⟩
      rw [mem_setInsert, ih.2]
      constructor
      · rintro (⟨y, hy, e⟩ | rfl)
        · exact ⟨y, by simp [hy], e⟩
        · exact ⟨x, by simp, rfl, h⟩
      · rintro ⟨y, hy, e⟩
        rcases List.mem_append.mp hy with hy | hy
        · exact Or.inl ⟨y, hy, e⟩
        · rw [List.mem_singleton] at hy; subst hy; exact Or.inr e.1.symm
    · rw [claim_neg _ _ _ _ h]
      refine ⟨ih.1, fun i => ?_⟩
      rw [ih.2]
      constructor
      · rintro ⟨y, hy, e⟩; exact ⟨y, by simp [hy], e⟩
      · rintro ⟨y, hy, e⟩
        rcases List.mem_append.mp hy with hy | hy
        · exact ⟨y, hy, e⟩
        · rw [List.mem_singleton] at hy; subst hy; exact absurd e.2 h

/-- The recorded weights of a cell are those of a call with this cell (or zero if no call had a positive weight), no call has a larger
weight. -/
theorem largest_weight (calls : List (Call K)) (i : ℤ) :
    (∀ x ∈ calls, x.1 = i → x.2.1 ≤ ((claims calls).weights i).1) ∧
    (if ∃ x ∈ calls, x.1 = i ∧ 0 < x.2.1 then (i, (claims calls).weights i) ∈ calls else (claims calls).weights i = (0, 0)) := by
  induction calls using List.reverseRecOn with
  | nil => simp [claims, LocalClaim.empty]
  | append_singleton calls x ih =>
    rw [claims_append]
    have hnn : 0 ≤ ((claims calls).weights i).1 := by
      by_cases h : ∃ x ∈ calls, x.1 = i ∧ 0 < x.2.1
      · obtain ⟨y, hy, e, p⟩ := h; exact le_trans p.le (ih.1 y hy e)
      · rw [if_neg h] at ih; rw [ih.2]
    by_cases hp : x.2.1 > 0
    · rw [claim_weights _ _ _ _ hp]
      by_cases hx : x.1 = i
      · subst hx
        by_cases hgt : x.2.1 > ((claims calls).weights x.1).1
        · rw [if_pos hgt]
          simp only [Function.update_self]
          refine ⟨fun y hy e => ?_, ?_⟩
          · rcases List.mem_append.mp hy with hy | hy
            · exact le_trans (ih.1 y hy e) hgt.le
            · rw [List.mem_singleton] at hy; rw [hy]
          · rw [if_pos ⟨x, by simp, rfl, hp⟩]; simp
        · rw [if_neg hgt]
          push Not at hgt
          refine ⟨fun y hy e => ?_, ?_⟩
          · rcases List.mem_append.mp hy with hy | hy
            · exact ih.1 y hy e
            · rw [List.mem_singleton] at hy; rw [hy]; exact hgt
          · rw [if_pos ⟨x, by simp, rfl, hp⟩]
            have h2 := ih.2
            by_cases h : ∃ y ∈ calls, y.1 = x.1 ∧ 0 < y.2.1
            · rw [if_pos h] at h2; exact List.mem_append_left _ h2
            · rw [if_neg h] at h2; rw [h2] at hgt; exact absurd hp (not_lt.mpr hgt)
      · have e1 : (if x.2.1 > ((claims calls).weights x.1).1 then Function.update (claims calls).weights x.1 (x.2.1, x.2.2)
            else (claims calls).weights) i = (claims calls).weights i := by
          split_ifs
          · exact Function.update_of_ne (Ne.symm hx) _ _
          · rfl
        rw [e1]
        refine ⟨fun y hy e => ?_, ?_⟩
        · rcases List.mem_append.mp hy with hy | hy
          · exact ih.1 y hy e
          · rw [List.mem_singleton] at hy; rw [hy] at e; exact absurd e hx
        · have h2 := ih.2
          by_cases h : ∃ y ∈ calls, y.1 = i ∧ 0 < y.2.1
          · obtain ⟨y, hy, e⟩ := h
            rw [if_pos ⟨y, hy, e⟩] at h2
            rw [if_pos ⟨y, List.mem_append_left _ hy, e⟩]
            exact List.mem_append_left _ h2
          · rw [if_neg h] at h2
            rw [if_neg]
            · exact h2
            · rintro ⟨y, hy, e⟩
              rcases List.mem_append.mp hy with hy | hy
              · exact h ⟨y, hy, e⟩
              · rw [List.mem_singleton] at hy; rw [hy] at e; exact hx e.1
    · rw [claim_neg _ _ _ _ hp]
      push Not at hp
      refine ⟨fun y hy e => ?_, ?_⟩
      · rcases List.mem_append.mp hy with hy | hy
        · exact ih.1 y hy e
        · rw [List.mem_singleton] at hy; rw [hy]; exact le_trans hp hnn
      · have h2 := ih.2
        by_cases h : ∃ y ∈ calls, y.1 = i ∧ 0 < y.2.1
        · obtain ⟨y, hy, e⟩ := h
          rw [if_pos ⟨y, hy, e⟩] at h2
          rw [if_pos ⟨y, List.mem_append_left _ hy, e⟩]
          exact List.mem_append_left _ h2
        · rw [if_neg h] at h2
          rw [if_neg]
          · exact h2
          · rintro ⟨y, hy, e⟩
            rcases List.mem_append.mp hy with hy | hy
            · exact h ⟨y, hy, e⟩
            · rw [List.mem_singleton] at hy; rw [hy] at e; exact absurd e.2 (not_lt.mpr hp)

/-- The claims passed to the mesh hierarchy do not depend on the order of the calls. -/
theorem order_independent (calls calls' : List (Call K)) (h : calls.Perm calls') (i : ℤ) :
    (i ∈ (claims calls).cells ↔ i ∈ (claims calls').cells) ∧ ((claims calls).weights i).1 = ((claims calls').weights i).1 := by
  have key : ∀ a b : List (Call K), a.Perm b → ((claims a).weights i).1 ≤ ((claims b).weights i).1 := by
    intro a b hab
    obtain ⟨_, h2⟩ := largest_weight a i
    obtain ⟨b1, b2⟩ := largest_weight b i
    by_cases hx : ∃ x ∈ a, x.1 = i ∧ 0 < x.2.1
    · rw [if_pos hx] at h2
      exact b1 _ (hab.mem_iff.mp h2) rfl
    · rw [if_neg hx] at h2
      rw [h2]
      by_cases hy : ∃ x ∈ b, x.1 = i ∧ 0 < x.2.1
      · obtain ⟨y, hy, e, p⟩ := hy; exact le_trans p.le (b1 y hy e)
      · rw [if_neg hy] at b2; rw [b2]
  refine ⟨?_, le_antisymm (key _ _ h) (key _ _ h.symm)⟩
  rw [(claimed_cells calls).2, (claimed_cells calls').2]
  exact ⟨fun ⟨x, hx, e⟩ => ⟨x, h.mem_iff.mp hx, e⟩, fun ⟨x, hx, e⟩ => ⟨x, h.mem_iff.mpr hx, e⟩⟩

/-- The floating point weight, kept for reference, depends on the order: of claims of equal weight the first is kept. -/
theorem reference_weight_order_dependent :
    (claims [((7 : ℤ), (1 : ℤ), (0 : ℚ)), (7, 1, 1)]).weights 7 ≠ (claims [((7 : ℤ), (1 : ℤ), (1 : ℚ)), (7, 1, 0)]).weights 7 := by
  simp [claims, LocalClaim.empty, LocalClaim.claim]

example : (claims [((7 : ℤ), (3 : ℤ), (1 : ℚ)), (7, 5, 2), (8, 0, 3), (7, 4, 1)]).weights 7 = (5, 2) ∧
    (claims [((7 : ℤ), (3 : ℤ), (1 : ℚ)), (7, 5, 2), (8, 0, 3), (7, 4, 1)]).cells = [7] := by
  simp [claims, LocalClaim.empty, LocalClaim.claim, setInsert]

end Verif.Props.C24
