import Verif.Lemmas.HaloExtension3DConf
import Verif.Lemmas.HaloExtensionChain

/-! Repeated calls of `extend_halos_fixed_offset` on a 3D mesh. -/

namespace Verif.Lemmas.HaloExtension3D
open Verif.Model Verif.Model.Bytes Verif.Model.PackedGeom2D Verif.Model.RemoteGeom Verif.Model.GeomTransport3D Verif.Model.MeshHierarchy Verif.Model.Mpi
  Verif.Model.Claims Verif.Model.HaloCells Verif.Model.HaloExchange Verif.Model.HaloExchange3D Verif.Model.HaloExtension Verif.Model.HaloExtension3D
  Verif.Spec Verif.Lemmas Verif.Lemmas.Mpi Verif.Lemmas.HaloExchange Verif.Lemmas.HaloExchange3D Verif.Lemmas.HaloExtension Verif.Props

variable {n : ℕ} {K : Type} [Field K] [LinearOrder K] [IsStrictOrderedRing K] [FloorRing K] {m : MHGeom K} {owner : ℤ → ℤ}
  {box : Geom3 Geom → (ℕ → K) × (ℕ → K)} {pmi : Fin n → Pmi3d}

/-- The state with new halos. -/
def withHalos (p : Pmi3d) (out : Halos3d) : Pmi3d := { p with halos := out }

theorem elsOf_withHalos (sh : Shape2) (p : Pmi3d) (out : Halos3d) : elsOf sh (flat (withHalos p out)) = elsOf sh (flat p) := by cases sh <;> rfl

theorem Mesh3Ok.withHalos (h : Mesh3Ok m owner box pmi) (out : Fin n → Halos3d) : Mesh3Ok m owner box fun r => withHalos (pmi r) (out r) where
  grid := h.grid
  ranks := h.ranks
  ncells := h.ncells
  ids := h.ids
  gid := h.gid
  wf := h.wf
  faceIds := h.faceIds
  faceGid := h.faceGid
  faceWf := h.faceWf
  faces := h.faces
  count sh := by simpa only [allOf, elsOf_withHalos] using h.count sh
  size sh := by simpa only [allOf, elsOf_withHalos] using h.size sh
  sizeInts := h.sizeInts
  cells := h.cells
  owned := h.owned
  owner := h.owner

theorem remsOf_tri (p : Pmi3d) : remsOf .tri (flat p) = p.halos.tris := rfl
theorem remsOf_quad (p : Pmi3d) : remsOf .quad (flat p) = p.halos.quads := rfl

/-- What repeated calls do. -/
def After3 (m : MHGeom K) (box : Geom3 Geom → (ℕ → K) × (ℕ → K)) (pmi : Fin n → Pmi3d) (calls : List (ℤ × Bool)) (r : Fin n) (old out : Halos3d) : Prop :=
  (old.geoms <+: out.geoms ∧ old.tris <+: out.tris ∧ old.quads <+: out.quads) ∧ (out.geoms.map key3).Nodup ∧
  (∀ x, x ∈ out.geoms ↔ ∃ s, s ≠ r ∧ ∃ e ∈ (pmi s).elements, x = remote3Of s e ∧
    (x ∈ old.geoms ∨ ∃ c ∈ calls, 0 ≤ c.1 ∧ ∃ cell, Near m.toMH c.1 c.2 ((pmi r).owned ++ (pmi r).unowned) cell ∧ Meets3 m box e.2 cell)) ∧
  IsFaces .tri out.geoms out.tris ∧ IsFaces .quad out.geoms out.quads

theorem Halos3Ok.withHalos (hh : Halos3Ok m owner box pmi) {out : Fin n → Halos3d} {w : ℤ} {pbc : Bool}
    (ho : ∀ r, Extended3 m box pmi w pbc r (pmi r).halos (out r)) : Halos3Ok m owner box fun r => withHalos (pmi r) (out r) where
  sound r x hx := by
    obtain ⟨s, hs, e, he, hx, _⟩ := ((ho r).2.2.1 x).mp hx
    exact ⟨s, hs, e, he, hx⟩
  once r := (ho r).2.1
  knows r c hc s hs e he hb := (ho r).1.1.subset (hh.knows r c hc s hs e he hb)
  faces r sh := by
    cases sh
    · exact (ho r).2.2.2.1
    · exact (ho r).2.2.2.2

theorem Same3.withHalos {r : Fin n} {st : Pmi3d} (hs : Same3 st (pmi r)) {o o' : Halos3d} {w : ℤ} {pbc : Bool}
    (h1 : Extended3 m box pmi w pbc r st.halos o) (h2 : Extended3 m box pmi w pbc r (pmi r).halos o') :
    Same3 (withHalos st o) (HaloExtension3D.withHalos (pmi r) o') where
  mesh := hs.mesh
  elements := hs.elements
  owned := hs.owned
  unowned := hs.unowned
  geoms x := by
    show x ∈ o.geoms ↔ x ∈ o'.geoms
    rw [h1.2.2.1, h2.2.2.1]
    simp only [hs.geoms]
  once := h1.2.1
  faces sh := by
    cases sh
    · exact h1.2.2.2.1
    · exact h1.2.2.2.2

theorem exists_extended3 (h : Mesh3Ok m owner box pmi) (hh : Halos3Ok m owner box pmi) {w : ℤ} (hw0 : 0 ≤ w)
    (hw : ∀ d < m.ndim, w ≤ m.dims d * m.ncf) (pbc : Bool) (r : Fin n) : ∃ out, Extended3 m box pmi w pbc r (pmi r).halos out := by
  obtain ⟨_, s3, _, h3⟩ := unpack3_extended h hh hw0 hw pbc (Same3.refl (r := r) hh)
  exact ⟨_, h3⟩

/-- The tags of a call. -/
def extTags3 : List ℕ := [145, 146, 451, 461, 451, 461, 452, 135]

theorem conf_many3 (calls : List (ℤ × Bool)) : ∀ (pmi : Fin n → Pmi3d), Mesh3Ok m owner box pmi → Halos3Ok m owner box pmi →
    (∀ c ∈ calls, ∀ d < m.ndim, c.1 ≤ m.dims d * m.ncf) → ∃ blk : List (Phase n Msg),
    blk.map Phase.kind = kindsOf (List.replicate (activeCalls calls) extTags3) ∧
    ∀ {O : Type} {post : Fin n → O → Prop} (pre : List (Phase n Msg)) (a : List (List ℕ)), pre.map Phase.kind = kindsOf a →
    ∀ (r : Fin n) (base : Option (ℤ × ℕ)) (st : Pmi3d), Same3 st (pmi r) → ∀ {k : Halos3d → Prog n Msg O},
    (∀ out base, After3 m box pmi calls r st.halos out → Conf (ofPhases (pre ++ blk) post) r (k out) (.at (pre ++ blk).length base)) →
    Conf (ofPhases (pre ++ blk) post) r (extendMany3 m owner box r k calls st) (.at pre.length base) := by
  induction calls with
  | nil =>
    intro pmi h hh _
    refine ⟨[], rfl, ?_⟩
    intro O post pre a hpre r base st hs k hK
    have := hK st.halos base ?_
    · simpa [extendMany3] using this
    · refine ⟨⟨List.prefix_rfl, List.prefix_rfl, List.prefix_rfl⟩, hs.once, fun x => ?_, hs.faces .tri, hs.faces .quad⟩
      constructor
      · intro hx
        obtain ⟨s, hsr, e, he, hx'⟩ := hh.sound r x ((hs.geoms x).mp hx)
        exact ⟨s, hsr, e, he, hx', Or.inl hx⟩
      · rintro ⟨s, _, e, _, _, hx | ⟨c, hc, _⟩⟩
        · exact hx
        · cases hc
  | cons c calls ih =>
    intro pmi h hh hcalls
    by_cases hc : 0 ≤ c.1
    · have hw := hcalls c List.mem_cons_self
      choose out hout using fun r => exists_extended3 h hh hc hw c.2 r
      obtain ⟨blk, hkind, hblk⟩ := ih (fun r => withHalos (pmi r) (out r)) (h.withHalos out) (hh.withHalos hout)
        (fun c' hc' => hcalls c' (List.mem_cons_of_mem _ hc'))
      have hkx : (extendPhases3 m owner box c.1 c.2 pmi).map Phase.kind = kindsOf [extTags3] := rfl
      have hl : (extendPhases3 m owner box c.1 c.2 pmi).length = 10 := rfl
      have hac : activeCalls (c :: calls) = activeCalls calls + 1 := by simp [activeCalls, hc]
      refine ⟨extendPhases3 m owner box c.1 c.2 pmi ++ blk, ?_, ?_⟩
      · rw [List.map_append, hkx, hkind, hac, List.replicate_succ, ← kindsOf_append]; rfl
      · intro O post pre a hpre r base st hs k hK
        have hkinds : (pre ++ (extendPhases3 m owner box c.1 c.2 pmi ++ blk)).map Phase.kind =
            kindsOf (a ++ extTags3 :: List.replicate (activeCalls calls) extTags3) := by
          rw [List.map_append, List.map_append, hpre, hkx, hkind, ← kindsOf_append, ← kindsOf_append]; rfl
        have hplen : pre.length = (kindsOf a).length := by rw [← hpre, List.length_map]
        unfold extendMany3
        refine conf_extend3 h hh hc hw c.2 (p := pre.length) ?_ ?_ ?_ ?_ hs ?_
        · intro i hi
          rw [List.getElem?_append_right (by omega), Nat.add_sub_cancel_left, List.getElem?_append_left (by rw [hl]; exact hi)]
        · rw [hkinds, hplen]; exact quiet_block_start _ _ _
        · rw [hkinds, hplen]; exact quiet_block_msgs _ _ _
        · rw [hkinds, hplen]; exact any_block _ _ _ 145 (by decide)
        · intro o ho
          have := hblk (post := post) (pre ++ extendPhases3 m owner box c.1 c.2 pmi) (a ++ [extTags3])
            (by rw [List.map_append, hpre, hkx, kindsOf_append]) r (some (0, pre.length)) (withHalos st o) (hs.withHalos ho (hout r)) (k := k)
          rw [List.append_assoc, show (pre ++ extendPhases3 m owner box c.1 c.2 pmi).length = pre.length + 10 by rw [List.length_append, hl]] at this
          refine this ?_
          intro o' base' ho'
          refine hK o' base' ?_
          obtain ⟨⟨p1, p1', p1''⟩, p2, p3, p4, p5⟩ := ho'
          obtain ⟨⟨q1, q1', q1''⟩, q2, q3, q4, q5⟩ := ho
          refine ⟨⟨q1.trans p1, q1'.trans p1', q1''.trans p1''⟩, p2, fun x => ?_, p4, p5⟩
          rw [p3]
          constructor
          · rintro ⟨s, hsr, e, he, hx, hor⟩
            refine ⟨s, hsr, e, he, hx, ?_⟩
            rcases hor with hx' | ⟨c', hc', h0, cell, hn, hm⟩
            · obtain ⟨s', hsr', e', he', hx'', hor'⟩ := (q3 x).mp hx'
              obtain ⟨rfl, hi⟩ := key3_inj (by rw [← hx, ← hx''] : key3 (remote3Of s e) = key3 (remote3Of s' e'))
              have := h.elem_unique he he' hi
              subst this
              rcases hor' with h' | ⟨cell, hn, hm⟩
              · exact Or.inl h'
              · exact Or.inr ⟨c, List.mem_cons_self, hc, cell, hn, hm⟩
            · exact Or.inr ⟨c', List.mem_cons_of_mem _ hc', h0, cell, hn, hm⟩
          · rintro ⟨s, hsr, e, he, hx, hor⟩
            refine ⟨s, hsr, e, he, hx, ?_⟩
            rcases hor with hx' | ⟨c', hc', h0, cell, hn, hm⟩
            · exact Or.inl ((q3 x).mpr ⟨s, hsr, e, he, hx, Or.inl hx'⟩)
            · rcases List.mem_cons.mp hc' with rfl | hc'
              · exact Or.inl ((q3 x).mpr ⟨s, hsr, e, he, hx, Or.inr ⟨cell, hn, hm⟩⟩)
              · exact Or.inr ⟨c', hc', h0, cell, hn, hm⟩
    · obtain ⟨blk, hkind, hblk⟩ := ih pmi h hh (fun c' hc' => hcalls c' (List.mem_cons_of_mem _ hc'))
      have hac : activeCalls (c :: calls) = activeCalls calls := by simp [activeCalls, hc]
      refine ⟨blk, by rw [hac]; exact hkind, ?_⟩
      intro O post pre a hpre r base st hs k hK
      have hneg := (Props.C23.offset_limits m.toMH h.grid.1 c.2 st.owned st.unowned c.1).1 (by omega)
      unfold extendMany3 extendHalos3d
      rw [hneg]
      refine hblk pre a hpre r base st hs ?_
      intro o base' ho
      refine hK o base' ?_
      obtain ⟨p1, p2, p3, p4⟩ := ho
      refine ⟨p1, p2, fun x => ?_, p4⟩
      rw [p3]
      simp only [List.mem_cons, or_and_right, exists_or, exists_eq_left, hc, false_and, false_or]

end Verif.Lemmas.HaloExtension3D
