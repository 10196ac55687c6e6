import Verif.Lemmas.HaloExtension2D
import Verif.Lemmas.MpiBlocks

/-! Repeated calls of `extend_halos_fixed_offset`. -/

namespace Verif.Lemmas.HaloExtension
open Verif.Model Verif.Model.Bytes Verif.Model.PackedGeom2D Verif.Model.MeshHierarchy Verif.Model.Mpi Verif.Model.Claims Verif.Model.HaloCells
  Verif.Model.HaloExchange Verif.Model.HaloExtension Verif.Spec Verif.Lemmas Verif.Lemmas.Mpi Verif.Lemmas.HaloExchange

variable {n : ℕ} {K : Type} [Field K] [LinearOrder K] [IsStrictOrderedRing K] [FloorRing K] {m : MHGeom K} {owner : ℤ → ℤ}
  {box : Geom → (ℕ → K) × (ℕ → K)} {pmi : Fin n → Pmi2d}

/-- The state with new halos. -/
def withRems (p : Pmi2d) (out : List Remote × List Remote) : Pmi2d := { p with remoteTris := out.1, remoteQuads := out.2 }

/-- The halo of a shape. -/
def shapeOf (sh : Shape2) (out : List Remote × List Remote) : List Remote := match sh with
  | .tri => out.1
  | .quad => out.2

theorem elsOf_withRems (sh : Shape2) (p : Pmi2d) (out : List Remote × List Remote) : elsOf sh (withRems p out) = elsOf sh p := by cases sh <;> rfl
theorem remsOf_withRems (sh : Shape2) (p : Pmi2d) (out : List Remote × List Remote) : remsOf sh (withRems p out) = shapeOf sh out := by cases sh <;> rfl

theorem MeshOk.withRems (h : MeshOk m owner box pmi) (out : Fin n → List Remote × List Remote) :
    MeshOk m owner box fun r => withRems (pmi r) (out r) where
  grid := h.grid
  ranks := h.ranks
  ncells := h.ncells
  ids := h.ids
  range s sh e he := h.range s sh e (by rwa [elsOf_withRems] at he)
  gid s sh e he := h.gid s sh e (by rwa [elsOf_withRems] at he)
  wf s sh e he := h.wf s sh e (by rwa [elsOf_withRems] at he)
  count sh := by simpa only [allOf, elsOf_withRems] using h.count sh
  size sh := by simpa only [allOf, elsOf_withRems] using h.size sh
  cells := h.cells
  owned := h.owned
  owner s sh e he := h.owner s sh e (by rwa [elsOf_withRems] at he)

/-- What repeated calls do. -/
def After (m : MHGeom K) (box : Geom → (ℕ → K) × (ℕ → K)) (pmi : Fin n → Pmi2d) (calls : List (ℤ × Bool)) (r : Fin n) (sh : Shape2)
    (old out : List Remote) : Prop :=
  old <+: out ∧ (out.map keyOf).Nodup ∧
  ∀ x, x ∈ out ↔ ∃ s, s ≠ r ∧ ∃ e ∈ elsOf sh (pmi s), x = remoteOf s e ∧
    (x ∈ old ∨ ∃ c ∈ calls, 0 ≤ c.1 ∧ ∃ cell, Near m.toMH c.1 c.2 ((pmi r).owned ++ (pmi r).unowned) cell ∧ Meets m box e.2 cell)

theorem HalosOk.withRems (hh : HalosOk m owner box pmi) {out : Fin n → List Remote × List Remote} {w : ℤ} {pbc : Bool}
    (ho : ∀ r sh, Extended m box pmi w pbc r sh (remsOf sh (pmi r)) (shapeOf sh (out r))) :
    HalosOk m owner box fun r => withRems (pmi r) (out r) where
  sound r sh x hx := by
    rw [remsOf_withRems] at hx
    obtain ⟨s, hs, e, he, hx, _⟩ := ((ho r sh).2.2 x).mp hx
    exact ⟨s, hs, e, by rwa [elsOf_withRems], hx⟩
  once r sh := by rw [remsOf_withRems]; exact (ho r sh).2.1
  knows r sh c hc s hs e he hb := by
    rw [remsOf_withRems]
    rw [elsOf_withRems] at he
    exact (ho r sh).1.subset (hh.knows r sh c hc s hs e he hb)

theorem Same.withRems {r : Fin n} {st : Pmi2d} (hs : Same st (pmi r)) {o o' : List Remote × List Remote} {w : ℤ} {pbc : Bool}
    (h1 : ∀ sh, Extended m box pmi w pbc r sh (remsOf sh st) (shapeOf sh o)) (h2 : ∀ sh, Extended m box pmi w pbc r sh (remsOf sh (pmi r)) (shapeOf sh o')) :
    Same (withRems st o) (HaloExtension.withRems (pmi r) o') where
  tris := hs.tris
  quads := hs.quads
  owned := hs.owned
  unowned := hs.unowned
  rems sh x := by
    rw [remsOf_withRems, remsOf_withRems, (h1 sh).2.2, (h2 sh).2.2]
    simp only [hs.rems]
  once sh := by rw [remsOf_withRems]; exact (h1 sh).2.1

theorem exists_extended (h : MeshOk m owner box pmi) (hh : HalosOk m owner box pmi) {w : ℤ} (hw0 : 0 ≤ w)
    (hw : ∀ d < m.ndim, w ≤ m.dims d * m.ncf) (pbc : Bool) (r : Fin n) :
    ∃ out, ∀ sh, Extended m box pmi w pbc r sh (remsOf sh (pmi r)) (shapeOf sh out) := by
  have hs : Same (pmi r) (pmi r) := ⟨rfl, rfl, rfl, rfl, fun _ _ => Iff.rfl, hh.once r⟩
  obtain ⟨ks, km⟩ := mem_known h hh r
  have key := fun sh => (unpack_extended h hh hw0 hw pbc sh hs (recv := recvOf m owner w pbc pmi r) (fun _ => Iff.rfl) ks (fun _ _ => Iff.rfl)
    (by
      intro key sh' g hg
      obtain ⟨s, i, a, b, _⟩ := (km _ _ _).mp hg
      exact ⟨s, i, a, b⟩)).1
  exact ⟨(_, _), fun sh => by cases sh; exacts [key .tri, key .quad]⟩

/-- The tags of a call. -/
def extTags : List ℕ := [145, 146, 451, 461, 451, 461]

/-- The number of calls which communicate. -/
def activeCalls (calls : List (ℤ × Bool)) : ℕ := (calls.filter fun c => decide (0 ≤ c.1)).length

theorem conf_many (calls : List (ℤ × Bool)) : ∀ (pmi : Fin n → Pmi2d), MeshOk m owner box pmi → HalosOk m owner box pmi →
    (∀ c ∈ calls, ∀ d < m.ndim, c.1 ≤ m.dims d * m.ncf) → ∃ blk : List (Phase n Msg),
    blk.map Phase.kind = kindsOf (List.replicate (activeCalls calls) extTags) ∧
    ∀ {O : Type} {post : Fin n → O → Prop} (pre : List (Phase n Msg)) (a : List (List ℕ)), pre.map Phase.kind = kindsOf a →
    ∀ (r : Fin n) (base : Option (ℤ × ℕ)) (st : Pmi2d), Same st (pmi r) → ∀ {k : List Remote × List Remote → Prog n Msg O},
    (∀ out base, (∀ sh, After m box pmi calls r sh (remsOf sh st) (shapeOf sh out)) →
      Conf (ofPhases (pre ++ blk) post) r (k out) (.at (pre ++ blk).length base)) →
    Conf (ofPhases (pre ++ blk) post) r (extendMany m owner box r k calls st) (.at pre.length base) := by
  induction calls with
  | nil =>
    intro pmi h hh _
    refine ⟨[], rfl, ?_⟩
    intro O post pre a hpre r base st hs k hK
    have := hK (st.remoteTris, st.remoteQuads) base (fun sh => ?_)
    · simpa [extendMany] using this
    · have hsh : shapeOf sh (st.remoteTris, st.remoteQuads) = remsOf sh st := by cases sh <;> rfl
      rw [hsh]
      refine ⟨List.prefix_rfl, hs.once sh, fun x => ?_⟩
      constructor
      · intro hx
        obtain ⟨s, hsr, e, he, hx'⟩ := hh.sound r sh x ((hs.rems sh x).mp hx)
        exact ⟨s, hsr, e, he, hx', Or.inl hx⟩
      · rintro ⟨s, _, e, _, _, hx | ⟨c, hc, _⟩⟩
        · exact hx
        · cases hc
  | cons c calls ih =>
    intro pmi h hh hcalls
    by_cases hc : 0 ≤ c.1
    · have hw := hcalls c List.mem_cons_self
      choose out hout using fun r => exists_extended h hh hc hw c.2 r
      obtain ⟨blk, hkind, hblk⟩ := ih (fun r => withRems (pmi r) (out r)) (h.withRems out) (hh.withRems hout)
        (fun c' hc' => hcalls c' (List.mem_cons_of_mem _ hc'))
      have hkx : (extendPhases m owner box c.1 c.2 pmi).map Phase.kind = kindsOf [extTags] := rfl
      have hl : (extendPhases m owner box c.1 c.2 pmi).length = 8 := rfl
      have hac : activeCalls (c :: calls) = activeCalls calls + 1 := by simp [activeCalls, hc]
      refine ⟨extendPhases m owner box c.1 c.2 pmi ++ blk, ?_, ?_⟩
      · rw [List.map_append, hkx, hkind, hac, List.replicate_succ, ← kindsOf_append]; rfl
      · intro O post pre a hpre r base st hs k hK
        have hkinds : (pre ++ (extendPhases m owner box c.1 c.2 pmi ++ blk)).map Phase.kind =
            kindsOf (a ++ extTags :: List.replicate (activeCalls calls) extTags) := by
          rw [List.map_append, List.map_append, hpre, hkx, hkind, ← kindsOf_append, ← kindsOf_append]; rfl
        have hplen : pre.length = (kindsOf a).length := by rw [← hpre, List.length_map]
        unfold extendMany
        refine conf_extend h hh hc hw c.2 (p := pre.length) ?_ ?_ ?_ ?_ hs ?_
        · intro i hi
          rw [List.getElem?_append_right (by omega), Nat.add_sub_cancel_left, List.getElem?_append_left (by rw [hl]; exact hi)]
        · rw [hkinds, hplen]; exact quiet_block_start _ _ _
        · rw [hkinds, hplen]; exact quiet_block_msgs _ _ _
        · rw [hkinds, hplen]; exact any_block _ _ _ 145 (by decide)
        · intro o ho1 ho2
          have ho : ∀ sh, Extended m box pmi c.1 c.2 r sh (remsOf sh st) (shapeOf sh o) := by
            intro sh
            cases sh
            · exact ho1
            · exact ho2
          have := hblk (post := post) (pre ++ extendPhases m owner box c.1 c.2 pmi) (a ++ [extTags])
            (by rw [List.map_append, hpre, hkx, kindsOf_append]) r (some (0, pre.length)) (withRems st o) (hs.withRems ho (hout r)) (k := k)
          rw [List.append_assoc, show (pre ++ extendPhases m owner box c.1 c.2 pmi).length = pre.length + 8 by rw [List.length_append, hl]] at this
          refine this ?_
          intro o' base' ho'
          refine hK o' base' fun sh => ?_
          obtain ⟨p1, p2, p3⟩ := ho' sh
          rw [remsOf_withRems] at p1
          simp only [remsOf_withRems, elsOf_withRems] at p3
          obtain ⟨q1, q2, q3⟩ := ho sh
          refine ⟨q1.trans p1, p2, fun x => ?_⟩
          rw [p3]
          constructor
          · rintro ⟨s, hsr, e, he, hx, hor⟩
            refine ⟨s, hsr, e, he, hx, ?_⟩
            rcases hor with hx' | ⟨c', hc', h0, cell, hn, hm⟩
            · obtain ⟨s', hsr', e', he', hx'', hor'⟩ := (q3 x).mp hx'
              obtain ⟨rfl, -, rfl⟩ := h.remote_inj he he' (by rw [← hx, ← hx''])
              rcases hor' with h' | ⟨cell, hn, hm⟩
              · exact Or.inl h'
              · exact Or.inr ⟨c, List.mem_cons_self, hc, cell, hn, hm⟩
            · exact Or.inr ⟨c', List.mem_cons_of_mem _ hc', h0, cell, hn, hm⟩
          · rintro ⟨s, hsr, e, he, hx, hor⟩
            refine ⟨s, hsr, e, he, hx, ?_⟩
            rcases hor with hx' | ⟨c', hc', h0, cell, hn, hm⟩
            · exact Or.inl ((q3 x).mpr ⟨s, hsr, e, he, hx, Or.inl hx'⟩)
            · rcases List.mem_cons.mp hc' with rfl | hc'
              · exact Or.inl ((q3 x).mpr ⟨s, hsr, e, he, hx, Or.inr ⟨cell, hn, hm⟩⟩)
              · exact Or.inr ⟨c', hc', h0, cell, hn, hm⟩
    · obtain ⟨blk, hkind, hblk⟩ := ih pmi h hh (fun c' hc' => hcalls c' (List.mem_cons_of_mem _ hc'))
      have hac : activeCalls (c :: calls) = activeCalls calls := by simp [activeCalls, hc]
      refine ⟨blk, by rw [hac]; exact hkind, ?_⟩
      intro O post pre a hpre r base st hs k hK
      have hneg := (Props.C23.offset_limits m.toMH h.grid.1 c.2 st.owned st.unowned c.1).1 (by omega)
      unfold extendMany extendHalos2d
      rw [hneg]
      refine hblk pre a hpre r base st hs ?_
      intro o base' ho
      refine hK o base' fun sh => ?_
      obtain ⟨p1, p2, p3⟩ := ho sh
      refine ⟨p1, p2, fun x => ?_⟩
      rw [p3]
      simp only [List.mem_cons, or_and_right, exists_or, exists_eq_left, hc, false_and, false_or]

end Verif.Lemmas.HaloExtension
