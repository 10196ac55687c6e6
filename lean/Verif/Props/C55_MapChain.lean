import Verif.Model.MapChain
import Verif.Props.C34_CoarseLookup
import Verif.Props.C35_DeviceLookup

/-! C55: the mapping of particles into cells. -/

namespace Verif.Props.C55
open Verif.Model Verif.Model.CartesianMesh Verif.Model.CoarseLookup Verif.Model.MapChain Verif.Props.C33 Verif.Props.C34

variable {K : Type*}

/-! ### Statement -/

/-- An assignment: a rank, a cell and a reference position. -/
structure Assignment (K : Type*) where
  rank : ℤ
  cell : ℤ
  ref : List K

/-- `q'` is `q`, or `q` was not mapped and `q'` is `q` with an assignment that is accepted for its position. -/
def KeptOrAssigned (acc : (ℕ → K) → Set (Assignment K)) (q q' : Particle K) : Prop :=
  q' = q ∨ (q.rank < 0 ∧ ∃ a ∈ acc q.pos, 0 ≤ a.rank ∧ q' = { q with rank := a.rank, cell := a.cell, ref := a.ref })

/-- A stage only assigns what `acc` accepts. -/
def Sound (acc : (ℕ → K) → Set (Assignment K)) (f : Stage K) : Prop := ∀ q q', f q = some q' → KeptOrAssigned acc q q'

/-- The same particles in the same cells, related one by one. -/
def Related (R : Particle K → Particle K → Prop) (g g' : Cells K) : Prop := List.Forall₂ (List.Forall₂ R) g g'

theorem KeptOrAssigned.trans {acc : (ℕ → K) → Set (Assignment K)} {a b c : Particle K} (h1 : KeptOrAssigned acc a b) (h2 : KeptOrAssigned acc b c) :
    KeptOrAssigned acc a c := by
  rcases h1 with rfl | ⟨hr, x, hx, h0, rfl⟩
  · exact h2
  · rcases h2 with rfl | ⟨hr2, _⟩
    · exact Or.inr ⟨hr, x, hx, h0, rfl⟩
    · exact absurd hr2 (by simpa using h0)

theorem KeptOrAssigned.mono {acc acc' : (ℕ → K) → Set (Assignment K)} (h : ∀ p, acc p ⊆ acc' p) {a b : Particle K} (hab : KeptOrAssigned acc a b) :
    KeptOrAssigned acc' a b := by
  rcases hab with rfl | ⟨hr, x, hx, h0, e⟩
  · exact Or.inl rfl
  · exact Or.inr ⟨hr, x, h _ hx, h0, e⟩

theorem forall₂_trans {α : Type*} {R : α → α → Prop} (hR : ∀ a b c, R a b → R b c → R a c) : ∀ {a b c : List α},
    List.Forall₂ R a b → List.Forall₂ R b c → List.Forall₂ R a c
  | [], _, _, .nil, h2 => by cases h2; exact .nil
  | _ :: _, _, _, .cons h t, h2 => by
    cases h2 with
    | cons h' t' => exact .cons (hR _ _ _ h h') (forall₂_trans hR t t')

theorem forall₂_refl {α : Type*} {R : α → α → Prop} (hR : ∀ a, R a a) : ∀ l : List α, List.Forall₂ R l l
  | [] => .nil
  | a :: l => .cons (hR a) (forall₂_refl hR l)

theorem mapM_related {α : Type*} {R : α → α → Prop} (f : α → Option α) (h : ∀ q q', f q = some q' → R q q') : ∀ (l l' : List α), l.mapM f = some l' →
    List.Forall₂ R l l'
  | [], l', hl => by simp at hl; subst hl; exact .nil
  | a :: l, l', hl => by
    simp only [List.mapM_cons, Option.bind_eq_bind, Option.pure_def, Option.bind_eq_some_iff, Option.some.injEq] at hl
    obtain ⟨b, hb, t, ht, rfl⟩ := hl
    exact .cons (h _ _ hb) (mapM_related f h l t ht)

theorem runFrom_related {R : Particle K → Particle K → Prop} (hrefl : ∀ q, R q q) (mc : ℤ) (f : Stage K) (h : ∀ q q', f q = some q' → R q q') :
    ∀ (i : ℕ) (g g' : Cells K), runFrom mc f i g = some g' → Related R g g'
  | _, [], g', hg => by simp [runFrom] at hg; subst hg; exact .nil
  | i, c :: g, g', hg => by
    rw [runFrom] at hg
    simp only [Option.bind_eq_some_iff, Option.map_eq_some_iff] at hg
    obtain ⟨c', hc, t, ht, rfl⟩ := hg
    refine .cons ?_ (runFrom_related hrefl mc f h (i + 1) g t ht)
    split_ifs at hc
    · exact mapM_related f h c c' hc
    · simp only [Option.some.injEq] at hc
      subst hc
      exact forall₂_refl hrefl _

theorem Related.trans {R : Particle K → Particle K → Prop} (hR : ∀ a b c, R a b → R b c → R a c) {g g' g'' : Cells K}
    (h1 : Related R g g') (h2 : Related R g' g'') : Related R g g'' :=
  forall₂_trans (R := List.Forall₂ R) (fun _ _ _ x y => forall₂_trans hR x y) h1 h2

theorem related_refl (acc : (ℕ → K) → Set (Assignment K)) (g : Cells K) : Related (KeptOrAssigned acc) g g :=
  forall₂_refl (R := List.Forall₂ (KeptOrAssigned acc)) (fun l => forall₂_refl (R := KeptOrAssigned acc) (fun _ => Or.inl rfl) l) g

section chain
variable {acc : (ℕ → K) → Set (Assignment K)}

theorem run_kept (mc : ℤ) (f : Stage K) (hf : Sound acc f) (g g' : Cells K) (h : run mc f g = some g') : Related (KeptOrAssigned acc) g g' :=
  runFrom_related (fun _ => Or.inl rfl) mc f hf 0 g g' h

theorem runOpt_kept (mc : ℤ) (f : Option (Stage K)) (hf : ∀ s, f = some s → Sound acc s) (g g' : Cells K) (h : runOpt mc f g = some g') :
    Related (KeptOrAssigned acc) g g' := by
  cases f with
  | none => simp [runOpt] at h; subst h; exact related_refl acc _
  | some f => exact run_kept mc f (hf f rfl) g g' h

theorem foldlM_kept (mc : ℤ) (sel : Stage K × Stage K → Stage K) : ∀ (newton : List (Option (Stage K × Stage K))),
    (∀ s ∈ newton, ∀ d, s = some d → Sound acc (sel d)) → ∀ g g' : Cells K,
    newton.foldlM (fun g (s : Option (Stage K × Stage K)) => runOpt mc (s.map sel) g) g = some g' → Related (KeptOrAssigned acc) g g'
  | [], _, g, g', h => by simp at h; subst h; exact related_refl acc _
  | s :: l, hs, g, g', h => by
    rw [List.foldlM_cons, Option.bind_eq_bind, Option.bind_eq_some_iff] at h
    obtain ⟨g1, h1, h2⟩ := h
    refine Related.trans (fun _ _ _ => KeptOrAssigned.trans) (runOpt_kept mc _ ?_ g g1 h1) (foldlM_kept mc sel l (fun x hx => hs x (by simp [hx])) g1 g' h2)
    intro t ht
    rw [Option.map_eq_some_iff] at ht
    obtain ⟨d, hd, rfl⟩ := ht
    exact hs s (by simp) d hd

theorem checkMap_false (mc : ℤ) (g : Cells K) (h : checkMap mc g = false) (i : ℕ) (hi : i < g.length) (hs : mc < 0 ∨ mc = i) :
    ∀ q ∈ g[i], 0 ≤ q.rank := by
  intro q hq
  unfold checkMap at h
  rw [List.any_eq_false] at h
  have h1 := h (g[i], i) (by rw [List.mem_zipIdx_iff_getElem?]; exact List.getElem?_eq_getElem hi)
  simp only [Bool.and_eq_true, not_and, Bool.not_eq_true, List.any_eq_false] at h1
  have h2 := h1 (by simp only [selected, Bool.or_eq_true, decide_eq_true_eq]; exact hs) q hq
  simp only [Bool.not_eq_false', decide_eq_true_eq] at h2
  have := h2
  simp at this
  omega

/-- **C55, 2D.** For all stages that only assign accepted cells: each particle is kept as it is, or was not mapped and is given one accepted
assignment. If the call is for a cell and completes then all particles of that cell are mapped. -/
theorem map2D_correct (regular : Option (Stage K)) (deformed : Option (Stage K × Stage K)) (mc : ℤ) (g g' : Cells K)
    (hr : ∀ s, regular = some s → Sound acc s) (hd : ∀ d, deformed = some d → Sound acc d.1 ∧ Sound acc d.2)
    (h : map2D regular deformed mc g = some g') :
    Related (KeptOrAssigned acc) g g' ∧ (∀ i (hi : i < g'.length), mc = i → ∀ q ∈ g'[i], 0 ≤ q.rank) := by
  unfold map2D at h
  simp only [Option.bind_eq_some_iff] at h
  obtain ⟨g1, h1, g2, h2, h3⟩ := h
  have k1 := runOpt_kept mc regular hr g g1 h1
  have k2 : Related (KeptOrAssigned acc) g1 g2 := by
    cases deformed with
    | none => simp only [Option.some.injEq] at h2; subst h2; exact related_refl acc _
    | some d =>
      dsimp only at h2
      split_ifs at h2
      · rw [Option.bind_eq_some_iff] at h2
        obtain ⟨g3, h4, h5⟩ := h2
        exact Related.trans (fun _ _ _ => KeptOrAssigned.trans) (run_kept mc d.1 (hd d rfl).1 _ _ h4) (run_kept mc d.2 (hd d rfl).2 _ _ h5)
      · simp only [Option.some.injEq] at h2; subst h2; exact related_refl acc _
  split_ifs at h3 with hm hc
  · simp only [Option.some.injEq] at h3
    subst h3
    refine ⟨Related.trans (fun _ _ _ => KeptOrAssigned.trans) k1 k2, fun i hi hmi => ?_⟩
    exact checkMap_false mc g2 (by simpa using hc) i hi (Or.inr hmi)
  · simp only [Option.some.injEq] at h3
    subst h3
    exact ⟨Related.trans (fun _ _ _ => KeptOrAssigned.trans) k1 k2, fun i hi hmi => absurd hmi (by omega)⟩

/-- **C55, 3D.** As in 2D; a call for a cell that completes leaves no particle of any cell unmapped. -/
theorem map3D_correct (regular : Option (Stage K)) (newton : List (Option (Stage K × Stage K))) (host : Stage K) (mc : ℤ) (g g' : Cells K)
    (hr : ∀ s, regular = some s → Sound acc s) (hn : ∀ s ∈ newton, ∀ d, s = some d → Sound acc d.1 ∧ Sound acc d.2) (hh : Sound acc host)
    (h : map3D regular newton host mc g = some g') :
    Related (KeptOrAssigned acc) g g' ∧ (-1 < mc → ∀ c ∈ g', ∀ q ∈ c, 0 ≤ q.rank) := by
  unfold map3D at h
  simp only [Option.bind_eq_some_iff] at h
  obtain ⟨g1, h1, g2, h2, g3, h3, h4⟩ := h
  have k1 := runOpt_kept mc regular hr g g1 h1
  have k2 := foldlM_kept mc Prod.fst newton (fun s hs d hd => (hn s hs d hd).1) g1 g2 h2
  have k3 := foldlM_kept mc Prod.snd newton (fun s hs d hd => (hn s hs d hd).2) g2 g3 h3
  have k := Related.trans (fun _ _ _ => KeptOrAssigned.trans) (Related.trans (fun _ _ _ => KeptOrAssigned.trans) k1 k2) k3
  by_cases hm : mc > -1
  · rw [if_pos hm, Option.bind_eq_some_iff] at h4
    obtain ⟨g4, h5, h6⟩ := h4
    have k4 : Related (KeptOrAssigned acc) g3 g4 := by
      split_ifs at h5
      · exact run_kept (-1) host hh _ _ h5
      · simp only [Option.some.injEq] at h5; subst h5; exact related_refl acc _
    split_ifs at h6 with hc
    simp only [Option.some.injEq] at h6
    subst h6
    refine ⟨Related.trans (fun _ _ _ => KeptOrAssigned.trans) k k4, fun _ c hcm q hq => ?_⟩
    obtain ⟨i, hi, rfl⟩ := List.getElem_of_mem hcm
    exact checkMap_false (-1) g4 (by simpa using hc) i hi (Or.inl (by omega)) q hq
  · rw [if_neg hm, Option.some.injEq] at h4
    subst h4
    exact ⟨k, fun hm' => absurd hm' hm⟩

/-- **C55, mapped particles.** A particle that was mapped before the call is not changed, by any of the stages. -/
theorem mapped_untouched (q q' : Particle K) (h : KeptOrAssigned acc q q') (hq : 0 ≤ q.rank) : q' = q := by
  rcases h with h | ⟨hr, _⟩
  · exact h
  · omega

/-- **C55, positions.** No stage changes a position. -/
theorem position_untouched (q q' : Particle K) (h : KeptOrAssigned acc q q') : q'.pos = q.pos := by
  rcases h with rfl | ⟨_, _, _, _, rfl⟩ <;> rfl

end chain

/-! ### The stages -/

section device
variable [Field K] [LinearOrder K] [IsStrictOrderedRing K] [FloorRing K]

/-- What a device mapper accepts: the ids and rank stored for a geometry, with the reference position of its test. -/
def deviceAccepts (cellIds ranks : List (Option ℤ)) (accept : (ℕ → K) → ℕ → Option (List K)) (p : ℕ → K) : Set (Assignment K) :=
  {a | ∃ k : ℕ, cellIds[k]? = some (some a.cell) ∧ ranks[k]? = some (some a.rank) ∧ accept p k = some a.ref}

omit [IsStrictOrderedRing K] in
/-- The device mappers: for all lookups and acceptance tests, only unmapped particles are assigned, and only what the test accepted. -/
theorem kernel_sound (L : Lookup K) (cellIds ranks : List (Option ℤ)) (accept : (ℕ → K) → ℕ → Option (List K))
    (hr : ∀ (k : ℕ) (r : ℤ), ranks[k]? = some (some r) → 0 ≤ r) : Sound (deviceAccepts cellIds ranks accept) (kernel L cellIds ranks accept) := by
  intro q q' h
  unfold kernel at h
  split_ifs at h with hq
  · rw [Option.bind_eq_some_iff] at h
    obtain ⟨lin, _, h⟩ := h
    unfold candidates at h
    rw [Option.bind_eq_some_iff] at h
    obtain ⟨size, _, h⟩ := h
    split_ifs at h
    · rw [Option.map_eq_some_iff] at h
      obtain ⟨s, hs, rfl⟩ := h
      have key : ∀ (n : ℕ) (s : Bool × Particle K), forLoop n (fun candidate_cell (s : Bool × Particle K) =>
          if s.1 then some s else
            ((Mem.read L.map (lin * L.mapStride + candidate_cell)).bind id).bind fun geom_map_index =>
              match accept q.pos geom_map_index.toNat with
              | none => some s
              | some ref => ((Mem.read cellIds geom_map_index).bind id).bind fun geom_id => ((Mem.read ranks geom_map_index).bind id).map fun mpi_rank =>
                  (true, { s.2 with cell := geom_id, rank := mpi_rank, ref := ref })) (false, q) = some s →
          (s.1 = false → s.2 = q) ∧ KeptOrAssigned (deviceAccepts cellIds ranks accept) q s.2 := by
        intro n
        induction n with
        | zero => intro s hs; rw [forLoop, Option.some.injEq] at hs; subst hs; exact ⟨fun _ => rfl, Or.inl rfl⟩
        | succ n ih =>
          intro s hs
          rw [forLoop, Option.bind_eq_some_iff] at hs
          obtain ⟨s0, h0, h1⟩ := hs
          obtain ⟨i1, i2⟩ := ih s0 h0
          by_cases hf : s0.1 = true
          · rw [if_pos hf, Option.some.injEq] at h1
            subst h1
            exact ⟨i1, i2⟩
          · rw [if_neg hf, Option.bind_eq_some_iff] at h1
            obtain ⟨gi, _, h2⟩ := h1
            have e := i1 (by simpa using hf)
            split at h2
            · rw [Option.some.injEq] at h2
              subst h2
              exact ⟨i1, i2⟩
            · rename_i ref href
              simp only [Option.bind_eq_some_iff, Option.map_eq_some_iff, id] at h2
              obtain ⟨gid, ⟨x, hx, rfl⟩, rk, ⟨y, hy, rfl⟩, rfl⟩ := h2
              have hnn : 0 ≤ gi := by
                by_contra hc
                unfold Mem.read at hx
                rw [if_neg hc] at hx
                simp at hx
              unfold Mem.read at hx hy
              rw [if_pos hnn] at hx hy
              refine ⟨by simp, Or.inr ⟨hq, ⟨rk, gid, ref⟩, ⟨gi.toNat, hx, hy, href⟩, hr _ _ hy, ?_⟩⟩
              simp only [e]
      exact (key _ s hs).2
    · rw [Option.some.injEq] at h
      exact Or.inl h.symm
  · rw [Option.some.injEq] at h
    exact Or.inl h.symm

omit [IsStrictOrderedRing K] in
/-- The first candidate, in the order of the lookup, that accepts the particle gets it; if none accepts it the particle is not changed. -/
theorem kernel_first_accepting (L : Lookup K) (cellIds ranks : List (Option ℤ)) (accept : (ℕ → K) → ℕ → Option (List K)) (q : Particle K)
    (hq : q.rank < 0) (c : ℤ) (hc : kernelLinear L.mesh q.pos = some c) (h0 : 0 ≤ c) (h1 : c < cellCount L.mesh.ndim L.mesh.cellCounts)
    (cands : List ℕ) (hl : Lists L c cands) (gid rk : ℕ → ℤ)
    (hids : ∀ k ∈ cands, cellIds[k]? = some (some (gid k)) ∧ ranks[k]? = some (some (rk k))) :
    kernel L cellIds ranks accept q = some (match cands.findSome? fun k => (accept q.pos k).map fun r => (k, r) with
      | none => q
      | some kr => { q with cell := gid kr.1, rank := rk kr.1, ref := kr.2 }) := by
  unfold kernel
  rw [if_pos hq, hc, Option.bind_some]
  unfold candidates
  rw [hl.1, Option.bind_some, if_pos ⟨h0, h1⟩]
  set fs : ℕ → Bool × Particle K := fun i => match (cands.take i).findSome? fun k => (accept q.pos k).map fun r => (k, r) with
      | none => (false, q)
      | some kr => (true, { q with cell := gid kr.1, rank := rk kr.1, ref := kr.2 }) with hfs
  rw [Int.toNat_natCast, forLoop_eq cands.length _ fs (false, q) (by simp [hfs])]
  · rw [Option.map_some]
    congr 1
    simp only [hfs, List.take_length]
    split <;> rfl
  · intro i hi
    simp only [hfs]
    rw [List.take_succ_eq_append_getElem hi, List.findSome?_append]
    cases hf : (cands.take i).findSome? fun k => (accept q.pos k).map fun r => (k, r) with
    | some kr => simp
    | none =>
      simp only [Option.none_or, Bool.false_eq_true, if_false]
      rw [hl.2 i hi]
      simp only [Option.bind_some, id, Int.toNat_natCast]
      cases ha : accept q.pos cands[i] with
      | none => simp [ha]
      | some r =>
        obtain ⟨e1, e2⟩ := hids _ (List.getElem_mem hi)
        simp [ha, read_nat, e1, e2]

end device

section host

/-- What the host mapper accepts. -/
def hostAccepts (localGeoms : (ℕ → K) → List (HostGeom K)) (remotes : List (List (HostGeom K))) (p : ℕ → K) : Set (Assignment K) :=
  {a | ∃ h, (h ∈ localGeoms p ∨ ∃ l ∈ remotes, h ∈ l) ∧ h.rank = a.rank ∧ h.id = a.cell ∧ h.contains p = some a.ref}

theorem hostSearch_some (q q' : Particle K) : ∀ l : List (HostGeom K), hostSearch q l = some q' →
    ∃ h ∈ l, ∃ ref, h.contains q.pos = some ref ∧ q' = { q with rank := h.rank, cell := h.id, ref := ref }
  | [], h => by simp [hostSearch] at h
  | a :: l, h => by
    rw [hostSearch] at h
    cases hc : a.contains q.pos with
    | some ref =>
      rw [hc] at h
      simp only [Option.some.injEq] at h
      exact ⟨a, by simp, ref, hc, h.symm⟩
    | none =>
      rw [hc] at h
      obtain ⟨b, hb, r, h1, h2⟩ := hostSearch_some q q' l h
      exact ⟨b, by simp [hb], r, h1, h2⟩

theorem host_sound (localGeoms : (ℕ → K) → List (HostGeom K)) (remotes : List (List (HostGeom K)))
    (hr : ∀ p, ∀ h ∈ localGeoms p, 0 ≤ h.rank) (hr' : ∀ l ∈ remotes, ∀ h ∈ l, 0 ≤ h.rank) :
    Sound (hostAccepts localGeoms remotes) (hostStage localGeoms remotes) := by
  intro q q' h
  unfold hostStage at h
  split_ifs at h with hq
  · split at h
    · rename_i x hx
      rw [Option.some.injEq] at h
      subst h
      obtain ⟨a, ha, ref, h1, rfl⟩ := hostSearch_some q _ _ hx
      exact Or.inr ⟨hq, ⟨a.rank, a.id, ref⟩, ⟨a, Or.inl ha, rfl, rfl, h1⟩, hr _ a ha, rfl⟩
    · split at h
      · rename_i x hx
        rw [Option.some.injEq] at h
        subst h
        obtain ⟨l, hl, hs⟩ := List.exists_of_findSome?_eq_some hx
        obtain ⟨a, ha, ref, h1, rfl⟩ := hostSearch_some q _ _ hs
        exact Or.inr ⟨hq, ⟨a.rank, a.id, ref⟩, ⟨a, Or.inr ⟨l, hl, ha⟩, rfl, rfl, h1⟩, hr' l hl a ha, rfl⟩
      · rw [Option.some.injEq] at h
        exact Or.inl h.symm
  · rw [Option.some.injEq] at h
    exact Or.inl h.symm

/-- The host mapper leaves a particle unmapped only if no geometry contains it. -/
theorem host_complete (localGeoms : (ℕ → K) → List (HostGeom K)) (remotes : List (List (HostGeom K))) (q : Particle K) (hq : q.rank < 0)
    (hex : ∃ h, (h ∈ localGeoms q.pos ∨ ∃ l ∈ remotes, h ∈ l) ∧ (h.contains q.pos).isSome)
    (hr : ∀ p, ∀ h ∈ localGeoms p, 0 ≤ h.rank) (hr' : ∀ l ∈ remotes, ∀ h ∈ l, 0 ≤ h.rank) :
    ∃ q', hostStage localGeoms remotes q = some q' ∧ 0 ≤ q'.rank := by
  have hsearch : ∀ l : List (HostGeom K), (∃ h ∈ l, (h.contains q.pos).isSome) → (hostSearch q l).isSome := by
    intro l
    induction l with
    | nil => simp
    | cons a l ih =>
      rintro ⟨h, hm, hs⟩
      rw [hostSearch]
      cases hc : a.contains q.pos with
      | some ref => simp
      | none =>
        simp only
        rcases List.mem_cons.1 hm with rfl | hm
        · simp [hc] at hs
        · exact ih ⟨h, hm, hs⟩
  unfold hostStage
  rw [if_pos hq]
  cases hs : hostSearch q (localGeoms q.pos) with
  | some x =>
    obtain ⟨a, ha, ref, h1, rfl⟩ := hostSearch_some q _ _ hs
    exact ⟨_, rfl, hr _ a ha⟩
  | none =>
    simp only
    cases hs2 : remotes.findSome? (hostSearch q) with
    | some x =>
      obtain ⟨l, hl, hs⟩ := List.exists_of_findSome?_eq_some hs2
      obtain ⟨a, ha, ref, h1, rfl⟩ := hostSearch_some q _ _ hs
      exact ⟨_, rfl, hr' l hl a ha⟩
    | none =>
      exfalso
      obtain ⟨h, hm | ⟨l, hl, hm⟩, hc⟩ := hex
      · have := hsearch _ ⟨h, hm, hc⟩
        rw [hs] at this
        simp at this
      · rw [List.findSome?_eq_none_iff] at hs2
        have := hsearch l ⟨h, hm, hc⟩
        rw [hs2 l hl] at this
        simp at this

end host

/-! ### An example -/

/-- A stage that accepts positions in the unit interval into cell 7 of rank 0. -/
def unitStage : Stage ℚ := hostStage (fun _ => [⟨0, 7, fun p => if 0 ≤ p 0 ∧ p 0 ≤ 1 then some [2 * p 0 - 1] else none⟩]) []

/-- A mapped and an unmapped particle. -/
def exGroup : Cells ℚ := [[⟨fun _ => 5, 3, 9, []⟩, ⟨fun _ => 1 / 2, -1, -1, []⟩]]

/-- The first is kept, the second is assigned; with a particle that no stage accepts the call for a cell fails. -/
example : ((map3D (some unitStage) [none, none, none, none, none] unitStage 0 exGroup).map fun g => g.map fun c => c.map fun q => (q.rank, q.cell, q.ref)) =
      some [[(3, 9, []), (0, 7, [0])]] ∧
    (map3D (some unitStage) [none, none, none, none, none] unitStage 0 [[⟨fun _ => 5, -1, -1, []⟩]]).isNone ∧
    (map2D (some unitStage) none (-1) [[⟨fun _ => 5, -1, -1, []⟩]]).isSome := by decide +kernel

/-- **C55, an observation.** In 3D the final check is over all cells although only one was requested: the call fails because of a particle in another
cell. In 2D the same call succeeds. -/
theorem other_cells_checked : (map3D (some unitStage) [none, none, none, none, none] unitStage 0
      [[⟨fun _ => 1 / 2, -1, -1, []⟩], [⟨fun _ => 1 / 2, -1, -1, []⟩]]).isNone = true ∧
    (map2D (some unitStage) none 0 [[⟨fun _ => 1 / 2, -1, -1, []⟩], [⟨fun _ => 1 / 2, -1, -1, []⟩]]).isSome = true := by decide +kernel

end Verif.Props.C55
