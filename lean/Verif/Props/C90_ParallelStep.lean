import Verif.Model.ParallelStep
import Verif.Props.C55_MapChain
import Mathlib.Algebra.BigOperators.Fin
import Mathlib.Algebra.BigOperators.Group.Multiset.Basic
import Mathlib.Algebra.Order.Group.Multiset
import Mathlib.Data.List.FinRange

/-!
C90. A time step on many ranks is the time step of one: `transfer_particles` neither loses nor duplicates nor changes particles, and leaves each in the element that contains it, on the rank of this element.
This file: for any mappers and meshes with the properties of C84 and C85.
-/

namespace Verif.Props.C90
open Verif.Model Verif.Model.CoarseLookup Verif.Model.MapChain Verif.Model.ParallelStep Verif.Props.C55

variable {n : ℕ} {T K : Type*}

/-! ### Specification -/

/-- The particle with the result of the mapping. -/
def assign (q : Particle K) (a : Assignment K) : Particle K := { q with rank := a.rank, cell := a.cell, ref := a.ref }

/-- The time step on one process: every particle is moved, then the boundary condition is applied. -/
def serialStep (push : Multiset (T × (ℕ → K)) → T × (ℕ → K) → T × (ℕ → K)) (boundary : (ℕ → K) → (ℕ → K)) (M : Multiset (T × (ℕ → K))) : Multiset (T × (ℕ → K)) :=
  M.map fun x => ((push M x).1, boundary (push M x).2)

/-- What is used of the mapper and the cell ids of a rank. `dom` is the domain, `inside p` are the elements that contain the position `p`: rank, global id, reference position. -/
structure RankOk (dom : (ℕ → K) → Prop) (target : (ℕ → K) → ℤ) (inside : (ℕ → K) → Set (Assignment K)) (r : Fin n) (R : Rank K) : Prop where
  /-- The map of all cells: particles in cells of the rank are mapped, others may be. -/
  first : ∀ g : Cells K, (∀ c ∈ g, ∀ q ∈ c, q.rank < 0 ∧ dom q.pos) →
    ∃ g', R.mapAt (-1) g = some g' ∧ Related (fun q q' => (q' = q ∧ target q.pos ≠ r.val) ∨ ∃ a ∈ inside q.pos, q' = assign q a) g g'
  /-- The map of cell zero: everything is mapped if all of it can be. -/
  second : ∀ g : Cells K, (∀ c ∈ g.tail, ∀ q ∈ c, 0 ≤ q.rank) → (∀ c ∈ g, ∀ q ∈ c, q.rank < 0 → dom q.pos ∧ target q.pos = r.val) →
    ∃ g', R.mapAt 0 g = some g' ∧ Related (fun q q' => (q' = q ∧ 0 ≤ q.rank) ∨ (q.rank < 0 ∧ ∃ a ∈ inside q.pos, q' = assign q a)) g g'
  /-- Each element of the rank has a cell. -/
  cells : ∀ p, ∀ a ∈ inside p, a.rank = r.val → ∃ i < R.translation.mapToNektar.length, CellId.execute R.translation a.cell = some (i : ℤ) ∧ R.translation.mapToNektar[i]? = some a.cell

/-- After the transfer: the group has the cells of the mesh, and each particle of a cell is in the domain, belongs to the rank and the cell, and is inside of the element of this cell. -/
def Settled (dom : (ℕ → K) → Prop) (inside : (ℕ → K) → Set (Assignment K)) (R : Fin n → Rank K) (S : State n T K) : Prop :=
  ∀ r, (S r).length = (R r).translation.mapToNektar.length ∧ ∀ (i : ℕ) (h : i < (S r).length), ∀ a ∈ (S r)[i], dom a.2.pos ∧ a.2.rank = r.val ∧ a.2.cell = i ∧
    ∃ gid, (R r).translation.mapToNektar[i]? = some gid ∧ (⟨r.val, gid, a.2.ref⟩ : Assignment K) ∈ inside a.2.pos

/-! ### Lists of ranks -/

theorem forRanks_some {α : Type*} {f : Fin n → Option α} {P : Fin n → α → Prop} (h : ∀ r, ∃ x, f r = some x ∧ P r x) : ∃ g, forRanks f = some g ∧ ∀ r, f r = some (g r) ∧ P r (g r) := by
  have h' : ∀ r, (f r).isSome := fun r => by obtain ⟨x, e, _⟩ := h r; rw [e]; rfl
  refine ⟨fun r => (f r).get (h' r), by unfold forRanks; rw [dif_pos h'], fun r => ?_⟩
  obtain ⟨x, e, hx⟩ := h r
  have : (f r).get (h' r) = x := by simp [e]
  exact ⟨by simp, by show P r ((f r).get (h' r)); rw [this]; exact hx⟩

/-- All particles. -/
def all {α : Type*} (S : Fin n → List α) : Multiset α := ∑ r, (S r : Multiset α)

theorem all_flatMap {α : Type*} (S : Fin n → List α) : (((List.finRange n).flatMap S : List α) : Multiset α) = all S := by
  have : ∀ l : List (Fin n), ((l.flatMap S : List α) : Multiset α) = (l.map fun r => (S r : Multiset α)).sum := by
    intro l
    induction l with
    | nil => rfl
    | cons r l ih => rw [List.flatMap_cons, ← Multiset.coe_add, ih, List.map_cons, List.sum_cons]
  rw [this, all, Fin.sum_univ_def]

theorem particles_eq (S : State n T K) : particles S = (all fun r => (S r).flatten).map fun a => (a.1, a.2.pos) := by
  unfold particles
  rw [← Multiset.map_coe, all_flatMap]

theorem map_all {α β : Type*} (f : α → β) (S : Fin n → List α) : (all S).map f = all fun r => (S r).map f := by
  unfold all
  exact map_sum (Multiset.mapAddMonoidHom f) (fun r => (S r : Multiset α)) Finset.univ

theorem sum_filter_key {α : Type*} (M : Multiset α) (key : α → ℤ) (h : ∀ a ∈ M, ∃ s : Fin n, key a = s.val) : ∑ r : Fin n, M.filter (fun a => key a = r.val) = M := by
  induction M using Multiset.induction_on with
  | empty => simp
  | cons a M ih =>
    have ih := ih fun b hb => h b (Multiset.mem_cons_of_mem hb)
    obtain ⟨s, hs⟩ := h a (Multiset.mem_cons_self a M)
    simp only [Multiset.filter_cons, Finset.sum_add_distrib, ih]
    rw [Finset.sum_eq_single s]
    · rw [if_pos hs, Multiset.singleton_add]
    · intro b _ hb
      rw [if_neg]
      intro e
      exact hb (Fin.ext (by omega))
    · simp

theorem sum_filter_range {α : Type*} (M : Multiset α) (key : α → ℤ) (N : ℕ) (h : ∀ a ∈ M, ∃ i < N, key a = (i : ℤ)) :
    ((List.range N).map fun i : ℕ => M.filter (fun a => key a = (i : ℤ))).sum = M := by
  induction M using Multiset.induction_on with
  | empty => simp
  | cons a M ih =>
    have ih := ih fun b hb => h b (Multiset.mem_cons_of_mem hb)
    obtain ⟨i, hi, hk⟩ := h a (Multiset.mem_cons_self a M)
    have e : ∀ N, ((List.range N).map fun j : ℕ => if key a = (j : ℤ) then ({a} : Multiset α) else 0).sum = if i < N then {a} else 0 := by
      intro N
      induction N with
      | zero => simp
      | succ N ihN =>
        rw [List.range_succ, List.map_append, List.sum_append, ihN]
        simp only [List.map_cons, List.map_nil, List.sum_cons, List.sum_nil, add_zero, hk, Nat.cast_inj]
        by_cases h1 : i < N
        · rw [if_pos h1, if_neg (by omega), if_pos (by omega), add_zero]
        · by_cases h2 : i = N
          · rw [if_neg h1, if_pos h2, if_pos (by omega), zero_add]
          · rw [if_neg h1, if_neg h2, if_neg (by omega), zero_add]
    simp only [Multiset.filter_cons]
    rw [List.sum_map_add, e, ih, if_pos hi, Multiset.singleton_add]

/-! ### The steps of the transfer -/

/-- The two groups have the same cells with related particles. -/
def Rel {α β : Type*} (R : α → β → Prop) (g : List (List α)) (g' : List (List β)) : Prop := List.Forall₂ (List.Forall₂ R) g g'

theorem Rel.flatten {α β : Type*} {R : α → β → Prop} {g : List (List α)} {g' : List (List β)} (h : Rel R g g') : List.Forall₂ R g.flatten g'.flatten := by
  induction h with
  | nil => exact .nil
  | cons h _ ih => exact List.rel_append h ih

theorem forall₂_map_eq {α β γ : Type*} {R : α → β → Prop} {f : α → γ} {f' : β → γ} (h : ∀ a b, R a b → f a = f' b) {l : List α} {l' : List β} (hl : List.Forall₂ R l l') : l.map f = l'.map f' := by
  induction hl with
  | nil => rfl
  | cons hab _ ih => rw [List.map_cons, List.map_cons, h _ _ hab, ih]

theorem forall₂_right {α β : Type*} {R : α → β → Prop} {l : List α} {l' : List β} (hl : List.Forall₂ R l l') : ∀ b ∈ l', ∃ a ∈ l, R a b := by
  induction hl with
  | nil => simp
  | cons hab _ ih =>
    intro b hb
    rcases List.mem_cons.1 hb with rfl | hb
    · exact ⟨_, List.mem_cons_self, hab⟩
    · obtain ⟨a, ha, h⟩ := ih b hb
      exact ⟨a, List.mem_cons_of_mem _ ha, h⟩

theorem forall₂_left {α β : Type*} {R : α → β → Prop} {l : List α} {l' : List β} (hl : List.Forall₂ R l l') : ∀ a ∈ l, ∃ b ∈ l', R a b := by
  induction hl with
  | nil => simp
  | cons hab _ ih =>
    intro b hb
    rcases List.mem_cons.1 hb with rfl | hb
    · exact ⟨_, List.mem_cons_self, hab⟩
    · obtain ⟨a, ha, h⟩ := ih b hb
      exact ⟨a, List.mem_cons_of_mem _ ha, h⟩

theorem zip_cell {R : Particle K → Particle K → Prop} : ∀ (c : List (T × Particle K)) (c' : List (Particle K)), List.Forall₂ R (c.map Prod.snd) c' →
    List.Forall₂ (fun a b => b.1 = a.1 ∧ R a.2 b.2) c (List.zipWith (fun a q => (a.1, q)) c c')
  | [], c', h => by cases h; exact .nil
  | a :: c, _, h => by
    cases h with
    | cons h1 h2 => exact .cons ⟨rfl, h1⟩ (zip_cell c _ h2)

theorem zip_group {R : Particle K → Particle K → Prop} : ∀ (g : Group T K) (g' : Cells K), Related R (g.map fun c => c.map Prod.snd) g' →
    Rel (fun a b => b.1 = a.1 ∧ R a.2 b.2) g (List.zipWith (List.zipWith fun a q => (a.1, q)) g g')
  | [], g', h => by cases h; exact .nil
  | c :: g, _, h => by
    cases h with
    | cons h1 h2 => exact .cons (zip_cell c _ h1) (zip_group g _ h2)

theorem mapGroup_some {f : Cells K → Option (Cells K)} {g : Group T K} {R : Particle K → Particle K → Prop}
    (h : ∃ g', f (g.map fun c => c.map Prod.snd) = some g' ∧ Related R (g.map fun c => c.map Prod.snd) g') :
    ∃ g', mapGroup f g = some g' ∧ Rel (fun a b => b.1 = a.1 ∧ R a.2 b.2) g g' := by
  obtain ⟨g', e, hr⟩ := h
  exact ⟨_, by rw [mapGroup, e, Option.map_some], zip_group g g' hr⟩

theorem mem_mapped {g : Group T K} {c : List (Particle K)} {q : Particle K} (hc : c ∈ g.map fun c => c.map Prod.snd) (hq : q ∈ c) : ∃ c0 ∈ g, ∃ a ∈ c0, a.2 = q := by
  obtain ⟨c0, h0, rfl⟩ := List.mem_map.1 hc
  obtain ⟨a, ha, rfl⟩ := List.mem_map.1 hq
  exact ⟨c0, h0, a, ha, rfl⟩

theorem loop_flatten (f : T × Particle K → T × Particle K) (g : Group T K) : (particleLoop f g).flatten = g.flatten.map f := by
  rw [particleLoop, List.map_flatten]

theorem globalMove_flatten (target : (ℕ → K) → ℤ) (S : State n T K) (r : Fin n) (hne : S r ≠ []) :
    ((globalMove target S r).flatten : Multiset (T × Particle K)) = (((S r).flatten.filter fun a => !leaves target r a : List _) : Multiset _) +
      ∑ s, (((S s).flatten.filter fun a => leaves target s a && decide (target a.2.pos = r.val) : List _) : Multiset (T × Particle K)) := by
  have e : (S r).flatten.filter (fun a => !leaves target r a) = ((S r).map fun c => c.filter fun a => !leaves target r a).flatten := by
    rw [List.filter_flatten]
  rw [show (∑ s, (((S s).flatten.filter fun a => leaves target s a && decide (target a.2.pos = r.val) : List _) : Multiset (T × Particle K))) =
    all fun s => (S s).flatten.filter fun a => leaves target s a && decide (target a.2.pos = r.val) from rfl, ← all_flatMap, e]
  unfold globalMove
  cases hS : (S r).map fun c => c.filter fun a => !leaves target r a with
  | nil => exact absurd (List.map_eq_nil_iff.1 hS) hne
  | cons c g =>
    simp only [List.flatten_cons, List.append_assoc, Multiset.coe_add, Multiset.coe_eq_coe]
    exact List.Perm.append_left _ List.perm_append_comm

/-- The global move keeps all particles. -/
theorem globalMove_all (target : (ℕ → K) → ℤ) (S : State n T K) (hne : ∀ r, S r ≠ []) (ht : ∀ r, ∀ a ∈ (S r).flatten, a.2.rank < 0 → ∃ s : Fin n, target a.2.pos = s.val) :
    all (fun r => (globalMove target S r).flatten) = all fun r => (S r).flatten := by
  unfold all
  simp only [globalMove_flatten target S _ (hne _), Finset.sum_add_distrib]
  rw [Finset.sum_comm, ← Finset.sum_add_distrib]
  refine Finset.sum_congr rfl fun s _ => ?_
  have : ∀ r : Fin n, (((S s).flatten.filter fun a => leaves target s a && decide (target a.2.pos = r.val) : List _) : Multiset (T × Particle K)) =
      (((S s).flatten.filter fun a => leaves target s a : List _) : Multiset _).filter (fun a => target a.2.pos = r.val) := by
    intro r
    rw [Multiset.filter_coe, List.filter_filter]
    congr 1
    refine List.filter_congr fun a _ => ?_
    rw [Bool.and_comm]
  simp only [this]
  rw [sum_filter_key _ (fun a : T × Particle K => target a.2.pos)]
  · rw [Multiset.coe_add, Multiset.coe_eq_coe]
    exact (List.perm_append_comm.trans (List.filter_append_perm (fun a => leaves target s a) _))
  · intro a ha
    rw [Multiset.mem_coe, List.mem_filter] at ha
    refine ht s a ha.1 ?_
    have := ha.2
    simp only [leaves, Bool.and_eq_true, decide_eq_true_eq] at this
    exact this.1

theorem mem_globalMove {target : (ℕ → K) → ℤ} {S : State n T K} {r : Fin n} {c : List (T × Particle K)} (hc : c ∈ globalMove target S r) {a : T × Particle K} (ha : a ∈ c) :
    (∃ c0 ∈ S r, a ∈ c0 ∧ leaves target r a = false) ∨ ∃ s, a ∈ (S s).flatten ∧ a.2.rank < 0 ∧ target a.2.pos = r.val := by
  unfold globalMove at hc
  have hold : ∀ c' ∈ (S r).map fun c => c.filter fun a => !leaves target r a, a ∈ c' → ∃ c0 ∈ S r, a ∈ c0 ∧ leaves target r a = false := by
    intro c' hc' ha'
    obtain ⟨c0, h0, rfl⟩ := List.mem_map.1 hc'
    rw [List.mem_filter] at ha'
    exact ⟨c0, h0, ha'.1, by simpa using ha'.2⟩
  cases hS : (S r).map fun c => c.filter fun a => !leaves target r a with
  | nil => rw [hS] at hc; simp at hc
  | cons c1 g =>
    rw [hS] at hc hold
    rcases List.mem_cons.1 hc with rfl | hc
    · rcases List.mem_append.1 ha with ha | ha
      · exact Or.inl (hold c1 List.mem_cons_self ha)
      · obtain ⟨s, _, hs⟩ := List.mem_flatMap.1 ha
        rw [List.mem_filter, Bool.and_eq_true, decide_eq_true_eq] at hs
        have := hs.2.1
        simp only [leaves, Bool.and_eq_true, decide_eq_true_eq] at this
        exact Or.inr ⟨s, hs.1, this.1, hs.2.2⟩
    · exact Or.inl (hold c (List.mem_cons_of_mem _ hc) ha)

theorem mem_globalMove_tail {target : (ℕ → K) → ℤ} {S : State n T K} {r : Fin n} {c : List (T × Particle K)} (hc : c ∈ (globalMove target S r).tail) {a : T × Particle K} (ha : a ∈ c) :
    ∃ c0 ∈ S r, a ∈ c0 ∧ leaves target r a = false := by
  unfold globalMove at hc
  cases hS : (S r).map fun c => c.filter fun a => !leaves target r a with
  | nil => rw [hS] at hc; simp at hc
  | cons c1 g =>
    rw [hS] at hc
    have hc' : c ∈ (S r).map fun c => c.filter fun a => !leaves target r a := by rw [hS]; exact List.mem_cons_of_mem _ hc
    obtain ⟨c0, h0, rfl⟩ := List.mem_map.1 hc'
    rw [List.mem_filter] at ha
    exact ⟨c0, h0, ha.1, by simpa using ha.2⟩

theorem localMove_all (S : State n T K) (h : ∀ r, ∀ a ∈ (S r).flatten, ∃ s : Fin n, a.2.rank = s.val) : all (localMove S) = all fun r => (S r).flatten := by
  unfold all
  have e : ∀ r, (localMove S r : Multiset (T × Particle K)) = ∑ s, (((S s).flatten : Multiset (T × Particle K)).filter fun a => a.2.rank = (r.val : ℤ)) := by
    intro r
    rw [localMove, all_flatMap]
    rfl
  simp only [e]
  rw [Finset.sum_comm]
  refine Finset.sum_congr rfl fun s _ => ?_
  exact sum_filter_key _ (fun a : T × Particle K => a.2.rank) fun a ha => h s a (by simpa using ha)

theorem mem_localMove {S : State n T K} {r : Fin n} {a : T × Particle K} (h : a ∈ localMove S r) : a.2.rank = r.val ∧ ∃ s, a ∈ (S s).flatten := by
  obtain ⟨s, _, hs⟩ := List.mem_flatMap.1 h
  rw [List.mem_filter, decide_eq_true_eq] at hs
  exact ⟨hs.2, s, hs.1⟩

theorem cellMove_all (N : ℕ) (l : List (T × Particle K)) (h : ∀ a ∈ l, ∃ i < N, a.2.cell = (i : ℤ)) : ((cellMove N l).flatten : Multiset (T × Particle K)) = l := by
  have e : ∀ m : List ℕ, (((m.map fun i : ℕ => l.filter fun a => decide (a.2.cell = (i : ℤ))).flatten : List (T × Particle K)) : Multiset (T × Particle K)) =
      (m.map fun i : ℕ => (l : Multiset (T × Particle K)).filter (fun a => a.2.cell = (i : ℤ))).sum := by
    intro m
    induction m with
    | nil => rfl
    | cons i m ih => rw [List.map_cons, List.flatten_cons, ← Multiset.coe_add, ih, List.map_cons, List.sum_cons, Multiset.filter_coe]
  rw [cellMove, e]
  exact sum_filter_range _ (fun a : T × Particle K => a.2.cell) N fun a ha => h a (by simpa using ha)

theorem mapM_forall₂ {α β : Type*} {f : α → Option β} : ∀ (l : List α), (∀ a ∈ l, ∃ b, f a = some b) → ∃ l', l.mapM f = some l' ∧ List.Forall₂ (fun a b => f a = some b) l l'
  | [], _ => ⟨[], rfl, .nil⟩
  | a :: l, h => by
    obtain ⟨b, hb⟩ := h a List.mem_cons_self
    obtain ⟨l', e, hl⟩ := mapM_forall₂ l fun x hx => h x (List.mem_cons_of_mem _ hx)
    exact ⟨b :: l', by simp [List.mapM_cons, hb, e], .cons hb hl⟩

/-! ### The theorems -/

section main
variable {boundary : (ℕ → K) → (ℕ → K)} {dom : (ℕ → K) → Prop} {target : (ℕ → K) → ℤ} {inside : (ℕ → K) → Set (Assignment K)} {R : Fin n → Rank K}

/-- **C90, one transfer.** The boundary condition leads into the domain; every cell of the mesh hierarchy with points of the domain has an owner; every rank has at least one cell. From all groups of particles
(where ever the particles are), `transfer_particles` completes, in particular each rank can map what it receives. Then there are the same particles as before with the boundary condition applied to their
positions, none lost or duplicated; and each is on the rank and in the cell of an element that contains it, with its reference position. -/
theorem transfer_correct (hb : ∀ p, dom (boundary p)) (ht : ∀ p, dom p → ∃ s : Fin n, target p = s.val) (hi : ∀ p, ∀ a ∈ inside p, ∃ s : Fin n, a.rank = s.val)
    (hR : ∀ r, RankOk dom target inside r (R r)) (S : State n T K) (hne : ∀ r, S r ≠ []) :
    ∃ S', transfer boundary target R S = some S' ∧ particles S' = (particles S).map (fun x => (x.1, boundary x.2)) ∧ Settled dom inside R S' := by
  set S0 : State n T K := fun r => particleLoop (fun a => (a.1, { a.2 with pos := boundary a.2.pos })) (S r) with hS0
  have hp0 : particles S0 = (particles S).map fun x => (x.1, boundary x.2) := by
    rw [particles_eq, particles_eq, Multiset.map_map, map_all, map_all]
    congr 1
    funext r
    rw [hS0]
    dsimp only
    rw [loop_flatten, List.map_map]
    rfl
  -- the first map
  have hmem0 : ∀ r, ∀ c ∈ resetRanks (S0 r), ∀ a ∈ c, a.2.rank = -1 ∧ dom a.2.pos := by
    intro r c hc a ha
    obtain ⟨c1, hc1, rfl⟩ := List.mem_map.1 hc
    obtain ⟨a1, ha1, rfl⟩ := List.mem_map.1 ha
    obtain ⟨c2, hc2, rfl⟩ := List.mem_map.1 hc1
    obtain ⟨a2, ha2, rfl⟩ := List.mem_map.1 ha1
    exact ⟨rfl, hb _⟩
  obtain ⟨S1, e1, h1⟩ := forRanks_some (f := fun r => mapGroup ((R r).mapAt (-1)) (resetRanks (S0 r)))
    (P := fun r g' => Rel (fun a b => b.1 = a.1 ∧ ((b.2 = a.2 ∧ target a.2.pos ≠ r.val) ∨ ∃ x ∈ inside a.2.pos, b.2 = assign a.2 x)) (resetRanks (S0 r)) g') (fun r => by
      refine mapGroup_some ((hR r).first _ ?_)
      intro c hc q hq
      obtain ⟨c0, h0, a, ha, rfl⟩ := mem_mapped hc hq
      obtain ⟨x1, x2⟩ := hmem0 r c0 h0 a ha
      exact ⟨by rw [x1]; decide, x2⟩)
  have hp1 : particles S1 = particles S0 := by
    rw [particles_eq, particles_eq, map_all, map_all]
    congr 1
    funext r
    have e : (resetRanks (S0 r)).flatten.map (fun a => (a.1, a.2.pos)) = (S0 r).flatten.map (fun a => (a.1, a.2.pos)) := by
      rw [resetRanks, loop_flatten, List.map_map]
      rfl
    rw [← e]
    refine (forall₂_map_eq ?_ (h1 r).2.flatten).symm
    rintro a b ⟨t1, ⟨t2, _⟩ | ⟨x, _, t2⟩⟩
    · rw [t1, t2]
    · rw [t1, t2]; rfl
  have hne1 : ∀ r, S1 r ≠ [] := by
    intro r h
    have := (h1 r).2.length_eq
    rw [h] at this
    simp [resetRanks, particleLoop, hS0, hne r] at this
  /- What is known of a particle after the first map. -/
  have hk1 : ∀ r, ∀ c ∈ S1 r, ∀ b ∈ c, dom b.2.pos ∧ ((b.2.rank < 0 ∧ target b.2.pos ≠ r.val) ∨ (0 ≤ b.2.rank ∧ (⟨b.2.rank, b.2.cell, b.2.ref⟩ : Assignment K) ∈ inside b.2.pos)) := by
    intro r c hc b hbc
    obtain ⟨c0, h0, hcc⟩ := forall₂_right (h1 r).2 c hc
    obtain ⟨a, ha, t1, t2⟩ := forall₂_right hcc b hbc
    obtain ⟨x1, x2⟩ := hmem0 r c0 h0 a ha
    rcases t2 with ⟨t2, t3⟩ | ⟨x, hx, t2⟩
    · rw [t2]
      exact ⟨x2, Or.inl ⟨by rw [x1]; decide, t3⟩⟩
    · rw [t2]
      refine ⟨x2, Or.inr ⟨?_, hx⟩⟩
      obtain ⟨s, hs⟩ := hi _ x hx
      show 0 ≤ x.rank
      omega
  have hk1' : ∀ r, ∀ b ∈ (S1 r).flatten, dom b.2.pos ∧ ((b.2.rank < 0 ∧ target b.2.pos ≠ r.val) ∨ (0 ≤ b.2.rank ∧ (⟨b.2.rank, b.2.cell, b.2.ref⟩ : Assignment K) ∈ inside b.2.pos)) := by
    intro r b hb'
    obtain ⟨c, hc, hbc⟩ := List.mem_flatten.1 hb'
    exact hk1 r c hc b hbc
  have hp2 : all (fun r => (globalMove target S1 r).flatten) = all fun r => (S1 r).flatten := globalMove_all target S1 hne1 fun r a ha _ => ht _ (hk1' r a ha).1
  /- What is known of a particle after the global move. -/
  have hkg : ∀ r, ∀ c ∈ globalMove target S1 r, ∀ b ∈ c, dom b.2.pos ∧ ((b.2.rank < 0 ∧ target b.2.pos = r.val) ∨ (0 ≤ b.2.rank ∧ (⟨b.2.rank, b.2.cell, b.2.ref⟩ : Assignment K) ∈ inside b.2.pos)) := by
    intro r c hc b hbc
    rcases mem_globalMove hc hbc with ⟨c0, h0, hb0, hl⟩ | ⟨s, hs, hneg, htar⟩
    · obtain ⟨x1, x2 | x2⟩ := hk1 r c0 h0 b hb0
      · simp [leaves, x2.1, x2.2] at hl
      · exact ⟨x1, Or.inr x2⟩
    · exact ⟨(hk1' s b hs).1, Or.inl ⟨hneg, htar⟩⟩
  have hkt : ∀ r, ∀ c ∈ (globalMove target S1 r).tail, ∀ b ∈ c, 0 ≤ b.2.rank := by
    intro r c hc b hbc
    obtain ⟨c0, h0, hb0, hl⟩ := mem_globalMove_tail hc hbc
    obtain ⟨x1, x2 | x2⟩ := hk1 r c0 h0 b hb0
    · simp [leaves, x2.1, x2.2] at hl
    · exact x2.1
  -- the second map
  obtain ⟨S2, e2, h2⟩ := forRanks_some (f := fun r => mapGroup ((R r).mapAt 0) (globalMove target S1 r))
    (P := fun r g' => Rel (fun a b => b.1 = a.1 ∧ ((b.2 = a.2 ∧ 0 ≤ a.2.rank) ∨ (a.2.rank < 0 ∧ ∃ x ∈ inside a.2.pos, b.2 = assign a.2 x))) (globalMove target S1 r) g') (fun r => by
      refine mapGroup_some ((hR r).second _ ?_ ?_)
      · intro c hc q hq
        rw [← List.map_tail] at hc
        obtain ⟨c0, h0, a, ha, rfl⟩ := mem_mapped hc hq
        exact hkt r c0 h0 a ha
      · intro c hc q hq hneg
        obtain ⟨c0, h0, a, ha, rfl⟩ := mem_mapped hc hq
        obtain ⟨x1, x2 | x2⟩ := hkg r c0 h0 a ha
        · exact ⟨x1, x2.2⟩
        · omega)
  have hp3 : particles S2 = particles S1 := by
    rw [particles_eq, particles_eq, ← hp2, map_all, map_all]
    congr 1
    funext r
    refine (forall₂_map_eq ?_ (h2 r).2.flatten).symm
    rintro a b ⟨t1, ⟨t2, _⟩ | ⟨_, x, _, t2⟩⟩
    · rw [t1, t2]
    · rw [t1, t2]; rfl
  have hk2 : ∀ r, ∀ b ∈ (S2 r).flatten, dom b.2.pos ∧ (⟨b.2.rank, b.2.cell, b.2.ref⟩ : Assignment K) ∈ inside b.2.pos := by
    intro r b hb'
    obtain ⟨c, hc, hbc⟩ := List.mem_flatten.1 hb'
    obtain ⟨c0, h0, hcc⟩ := forall₂_right (h2 r).2 c hc
    obtain ⟨a, ha, t1, t2⟩ := forall₂_right hcc b hbc
    obtain ⟨x1, x2⟩ := hkg r c0 h0 a ha
    rcases t2 with ⟨t2, t3⟩ | ⟨_, x, hx, t2⟩
    · rw [t2]
      rcases x2 with x2 | x2
      · omega
      · exact ⟨x1, x2.2⟩
    · rw [t2]
      exact ⟨x1, hx⟩
  have hp4 : all (localMove S2) = all fun r => (S2 r).flatten := localMove_all S2 fun r a ha => hi _ _ (hk2 r a ha).2
  have hk4 : ∀ r, ∀ b ∈ localMove S2 r, dom b.2.pos ∧ b.2.rank = r.val ∧ (⟨b.2.rank, b.2.cell, b.2.ref⟩ : Assignment K) ∈ inside b.2.pos := by
    intro r b hb'
    obtain ⟨x1, s, x2⟩ := mem_localMove hb'
    exact ⟨(hk2 s b x2).1, x1, (hk2 s b x2).2⟩
  have ehm : hybridMove (fun r => (R r).mapAt) target S0 = some (localMove S2) := by
    unfold hybridMove
    rw [e1, Option.bind_some, e2, Option.map_some]
  -- the cell ids
  obtain ⟨S3, e3, h3⟩ := forRanks_some (f := fun r => translate (R r).translation (localMove S2 r))
    (P := fun r l => List.Forall₂ (fun a b => b = (a.1, { a.2 with cell := b.2.cell }) ∧ CellId.execute (R r).translation a.2.cell = some b.2.cell) (localMove S2 r) l) (fun r => by
      obtain ⟨l', e, hl⟩ := mapM_forall₂ (f := fun a : T × Particle K => (CellId.execute (R r).translation a.2.cell).map fun c => (a.1, { a.2 with cell := c })) (localMove S2 r) (by
        intro a ha
        obtain ⟨_, x1, x2⟩ := hk4 r a ha
        obtain ⟨i, _, x3, _⟩ := (hR r).cells _ _ x2 x1
        exact ⟨_, by rw [x3, Option.map_some]⟩)
      refine ⟨l', e, hl.imp fun a b hab => ?_⟩
      rw [Option.map_eq_some_iff] at hab
      obtain ⟨c, hc, rfl⟩ := hab
      exact ⟨rfl, hc⟩)
  have hk5 : ∀ r, ∀ b ∈ S3 r, dom b.2.pos ∧ b.2.rank = r.val ∧ ∃ i < (R r).translation.mapToNektar.length, b.2.cell = (i : ℤ) ∧
      ∃ gid, (R r).translation.mapToNektar[i]? = some gid ∧ (⟨r.val, gid, b.2.ref⟩ : Assignment K) ∈ inside b.2.pos := by
    intro r b hb'
    obtain ⟨a, ha, t1, t2⟩ := forall₂_right (h3 r).2 b hb'
    obtain ⟨x0, x1, x2⟩ := hk4 r a ha
    obtain ⟨i, hlt, x3, x4⟩ := (hR r).cells _ _ x2 x1
    have hc : b.2.cell = (i : ℤ) := by
      have := t2.symm.trans x3
      simpa using this
    rw [t1]
    refine ⟨x0, x1, i, hlt, by rw [hc], _, x4, ?_⟩
    rw [x1] at x2
    exact x2
  refine ⟨fun r => cellMove (R r).translation.mapToNektar.length (S3 r), ?_, ?_, ?_⟩
  · unfold transfer
    show (hybridMove (fun r => (R r).mapAt) target S0).bind _ = _
    rw [ehm, Option.bind_some, e3, Option.map_some]
  · rw [← hp0, ← hp1, ← hp3, particles_eq, particles_eq, ← hp4, map_all, map_all]
    unfold all
    refine Finset.sum_congr rfl fun r _ => ?_
    rw [← Multiset.map_coe, cellMove_all _ _ (by
      intro b hb'
      obtain ⟨_, _, i, h, h', _⟩ := hk5 r b hb'
      exact ⟨i, h, h'⟩), Multiset.map_coe]
    congr 1
    refine (forall₂_map_eq ?_ (h3 r).2).symm
    rintro a b ⟨t1, _⟩
    rw [t1]
  · intro r
    refine ⟨by simp [cellMove], fun i hlt a ha => ?_⟩
    simp only [cellMove, List.getElem_map, List.getElem_range, List.mem_filter, decide_eq_true_eq] at ha
    obtain ⟨x0, x1, j, hj, x2, gid, x3, x4⟩ := hk5 r a ha.1
    have : j = i := by
      have := x2.symm.trans ha.2
      exact_mod_cast this
    subst this
    exact ⟨x0, x1, x2, gid, x3, x4⟩

/-- **C90, time steps.** Any number of time steps completes on all ranks, the particles are those of the time steps on one process, and each is in the right element. Every rank has an element. -/
theorem steps_correct (push : Multiset (T × (ℕ → K)) → T × (ℕ → K) → T × (ℕ → K)) (hb : ∀ p, dom (boundary p)) (ht : ∀ p, dom p → ∃ s : Fin n, target p = s.val)
    (hi : ∀ p, ∀ a ∈ inside p, ∃ s : Fin n, a.rank = s.val) (hR : ∀ r, RankOk dom target inside r (R r)) (hcells : ∀ r, (R r).translation.mapToNektar ≠ [])
    (S : State n T K) (hne : ∀ r, S r ≠ []) (k : ℕ) :
    ∃ S', steps push boundary target R k S = some S' ∧ particles S' = (serialStep push boundary)^[k] (particles S) ∧ (k ≠ 0 → Settled dom inside R S') ∧ ∀ r, S' r ≠ [] := by
  induction k with
  | zero => exact ⟨S, rfl, rfl, fun h => absurd rfl h, hne⟩
  | succ k ih =>
    obtain ⟨S1, e1, h1, _, h3⟩ := ih
    obtain ⟨S2, e2, h4, h5⟩ := transfer_correct hb ht hi hR (fun r => particleLoop (fun a => let b := push (particles S1) (a.1, a.2.pos); (b.1, { a.2 with pos := b.2 })) (S1 r)) (by
      intro r h
      rw [particleLoop, List.map_eq_nil_iff] at h
      exact h3 r h)
    refine ⟨S2, by rw [steps, e1, Option.bind_some]; exact e2, ?_, fun _ => h5, fun r h => ?_⟩
    · rw [h4, Function.iterate_succ_apply', ← h1, serialStep]
      rw [particles_eq, particles_eq S1, map_all]
      simp only [loop_flatten, List.map_map]
      rw [← particles_eq S1]
      conv_rhs => rw [particles_eq S1, Multiset.map_map, map_all]
      rw [map_all]
      congr 1
      funext r
      rw [List.map_map, ← particles_eq S1]
      rfl
    · have := (h5 r).1
      rw [h] at this
      exact hcells r (List.length_eq_zero_iff.1 this.symm)

/-- The number of ranks and the distribution of the mesh are not observable: two parallel runs with the same particles at the start have the same particles after `k` time steps. -/
theorem ranks_not_observable {n' : ℕ} {target' : (ℕ → K) → ℤ} {inside' : (ℕ → K) → Set (Assignment K)} {R' : Fin n' → Rank K}
    (push : Multiset (T × (ℕ → K)) → T × (ℕ → K) → T × (ℕ → K)) (hb : ∀ p, dom (boundary p))
    (ht : ∀ p, dom p → ∃ s : Fin n, target p = s.val) (hi : ∀ p, ∀ a ∈ inside p, ∃ s : Fin n, a.rank = s.val) (hR : ∀ r, RankOk dom target inside r (R r))
    (hcells : ∀ r, (R r).translation.mapToNektar ≠ [])
    (ht' : ∀ p, dom p → ∃ s : Fin n', target' p = s.val) (hi' : ∀ p, ∀ a ∈ inside' p, ∃ s : Fin n', a.rank = s.val) (hR' : ∀ r, RankOk dom target' inside' r (R' r))
    (hcells' : ∀ r, (R' r).translation.mapToNektar ≠ [])
    (S : State n T K) (hne : ∀ r, S r ≠ []) (S' : State n' T K) (hne' : ∀ r, S' r ≠ []) (h0 : particles S = particles S') (k : ℕ) (A : State n T K) (A' : State n' T K)
    (hA : steps push boundary target R k S = some A) (hA' : steps push boundary target' R' k S' = some A') : particles A = particles A' := by
  obtain ⟨B, e, h, _⟩ := steps_correct push hb ht hi hR hcells S hne k
  obtain ⟨B', e', h', _⟩ := steps_correct push hb ht' hi' hR' hcells' S' hne' k
  rw [hA] at e
  rw [hA'] at e'
  cases e
  cases e'
  rw [h, h', h0]

end main

end Verif.Props.C90
