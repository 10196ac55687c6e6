import Verif.Props.C110_ParallelNeutral
import Verif.Props.C62_Ionisation

/-!
C110: consequences for all ranks together. The start of a simulation; the balance of the mass; runs of the simulation without ranks are runs of the model of C62-C64, in which all particles form one list.
-/

namespace Verif.Props.C110
open Verif.Model Verif.Model.ParallelNeutral Verif.Model.ParallelStep Verif.Model.MapChain Verif.Model.CoarseLookup Verif.Model.LineInit Verif.Model.Sampling Verif.Model.NeutralSystem Verif.Spec.ParallelNeutral
open Verif.Model.ParallelPic (World gid)
open Verif.Props.C55 (Assignment)
open Verif.Props.C90 (Settled)
open Verif.Props.C91 (WorldOk)
open Verif.Props.C108 (Usable points counts)

variable {n : ℕ} {J : Type} {dom : (ℕ → ℝ) → Prop} {inside : (ℕ → ℝ) → Set (Assignment ℝ)} {C : Setup n}

/-- **C110, the start.** Empty cells, and source lines with the points of C108 and new samplers. -/
theorem init_good {s : Sys n} (hg : ∀ r, s.group r = List.replicate (C.world.ranks r).translation.mapToNektar.length []) (hl : ∀ L ∈ s.lines, (∀ r, Usable 2 dom inside (C.world.ranks r) r (L.points r)) ∧
      (∀ k, 0 ≤ L.stream k ∧ L.stream k < (counts L.points).sum) ∧ ∀ r : Fin n, (mkSamplers (counts L.points) 0)[r.val]? = some (L.sampler r)) : Good dom inside C 0 s := by
  refine ⟨fun r => ?_, fun L hL => ?_⟩
  · rw [hg r]
    refine ⟨by simp, fun i hi a ha => ?_⟩
    simp at ha
  · obtain ⟨h1, h2, h3⟩ := hl L hL
    have key : ∀ r : Fin n, L.sampler r = ⟨(L.points r).npointsLocal, ((counts L.points).take r).sum, ((counts L.points).take r).sum + (L.points r).npointsLocal - 1, 0⟩ := by
      intro r
      obtain ⟨k, e1, e2⟩ := C46.mkSamplers_get _ _ _ _ (h3 r)
      have : k = (L.points r).npointsLocal := by
        have e : (counts L.points)[r.val]? = some ((L.points r).npointsLocal : ℤ) := by simp [counts]
        exact Option.some.inj (e1.symm.trans e)
      rw [e2, this]
      simp
    refine ⟨h1, h2, fun r => by rw [key], fun r => by rw [key], fun r => ?_, fun r _ => by rw [key]⟩
    rw [key, counts_succ]

/-! ### Mass -/

/-- The weight of particles. -/
noncomputable def weight (M : Multiset Body) : ℝ := (M.map fun a => a.1.weight).sum

theorem rel_map {α β γ : Type*} {r : α → β → Prop} {A : Multiset α} {B : Multiset β} {f : α → γ} {g : β → γ} (h : Multiset.Rel r A B) (hf : ∀ a b, r a b → f a = g b) : A.map f = B.map g := by
  rw [← Multiset.rel_eq, Multiset.rel_map]
  exact h.mono fun a _ b _ => hf a b

open Classical in
/-- **C110, mass.** In a sub step, the weight of all particles afterwards, the mass that they give to the fluid in this sub step, and the weight that is removed at the walls add up to the weight before and that of the new
particles. -/
theorem mass_balance {H : Physics} {k : ℕ} {d : ℝ} (hd : d ≠ 0) (hn : H.cfg.prm.nToSI ≠ 0) {new M M' : Multiset Body} (h : SubStep inside H k d new M M') :
    weight M' + d * (H.cfg.prm.nToSI * (M'.map fun a => a.1.sourceDensity).sum) + weight (((M + new).map (moved d)).filter fun a => ¬Stays H.cfg a) = weight M + weight new := by
  obtain ⟨A, ⟨hA, -⟩, hr⟩ := h
  have e1 : A.map (fun x => x.1.1.weight) = M'.map fun b => b.1.weight + d * (H.cfg.prm.nToSI * b.1.sourceDensity) := by
    refine rel_map hr fun x b hb => ?_
    obtain ⟨rate, -, hi⟩ := C62.sol_ionised _ _ _ _ _ _ hd hn hb.2
    exact hi.conserved.symm
  have e2 : (A.map fun x => x.1.1.weight).sum = weight (((M + new).map (moved d)).filter (Stays H.cfg)) := by
    have : A.map (fun x => x.1.1.weight) = (A.map Prod.fst).map fun a => a.1.weight := by rw [Multiset.map_map]; rfl
    rw [this, hA, Multiset.map_map]
    rfl
  have e3 : weight ((M + new).map (moved d)) = weight M + weight new := by
    unfold weight
    rw [Multiset.map_map, Multiset.map_add, Multiset.sum_add]
    rfl
  have e4 : weight (((M + new).map (moved d)).filter (Stays H.cfg)) + weight (((M + new).map (moved d)).filter fun a => ¬Stays H.cfg a) = weight ((M + new).map (moved d)) := by
    unfold weight
    rw [← Multiset.sum_add, ← Multiset.map_add, Multiset.filter_add_not]
  rw [e1, Multiset.sum_map_add, Multiset.sum_map_mul_left, Multiset.sum_map_mul_left] at e2
  unfold weight at e2 e3 e4 ⊢
  linarith

/-- **C110, the projected mass.** If the basis functions represent the constant one, the projected density source contains the density sources of all particles of all ranks. -/
theorem projected_mass [Fintype J] (basis : ℤ → List ℝ → J → ℝ) (c : J → ℝ) (hc : ∀ p, ∀ a ∈ inside p, ∑ j, c j * basis a.cell a.ref j = 1) {M : Multiset Body} {A : Multiset (Body × Assignment ℝ)}
    (hA : Located inside M A) (f : Neutral → ℝ) : ∑ j, c j * rhs basis A f j = (M.map fun a => f a.1).sum := by
  obtain ⟨rfl, hin⟩ := hA
  rw [Multiset.map_map]
  induction A using Multiset.induction_on with
  | empty => simp [rhs]
  | cons x A ih =>
    have h1 := hc _ _ (hin x (Multiset.mem_cons_self _ _))
    have h2 := ih fun y hy => hin y (Multiset.mem_cons_of_mem hy)
    rw [Multiset.map_cons, Multiset.sum_cons, ← h2]
    have : f x.1.1 = ∑ j, c j * (f x.1.1 * basis x.2.cell x.2.ref j) := by
      calc f x.1.1 = f x.1.1 * ∑ j, c j * basis x.2.cell x.2.ref j := by rw [h1, mul_one]
        _ = _ := by rw [Finset.mul_sum]; exact Finset.sum_congr rfl fun j _ => by ring
    simp only [Function.comp_apply]
    rw [this, ← Finset.sum_add_distrib]
    refine Finset.sum_congr rfl fun j _ => ?_
    simp only [rhs, Multiset.map_cons, Multiset.sum_cons]
    rw [mul_add]

/-- **C110, mass in a time step.** All boundaries are periodic and there is one sub step in each time step (C64: with more the mass is not conserved). The weights of the particles of all ranks and the mass that the
projected source gives to the fluid in the time step are the weights before and those of the new particles. No marked particle is left. -/
theorem mass_conserved [Fintype J] (hW : WorldOk dom inside C.world) (href : ∀ p, ∀ a ∈ inside p, a.ref.length = 2) (hT : ∀ k p, ∀ a ∈ inside p, 0 < C.fieldT k a.cell a.ref * C.cfg.TtoEV) {D : ℕ} {s : Sys n}
    (h : Good dom inside C D s) (hclean : ∀ a ∈ particles s.group, a.1.id ≠ -1) (hp : C.cfg.fullyPeriodic = true) (hn : C.cfg.prm.nToSI ≠ 0) (basis : ℤ → List ℝ → J → ℝ) (c : J → ℝ)
    (hc : ∀ p, ∀ a ∈ inside p, ∑ j, c j * basis a.cell a.ref j = 1) {timestep : ℝ} (ht : 0 < timestep) :
    ∃ s' D' density rest, preIntegrate C basis s.simulationTime timestep 1 s = some (density :: rest, s') ∧ Good dom inside C D' s' ∧ (∀ a ∈ particles s'.group, a.1.id ≠ -1) ∧
      weight (particles s'.group) + timestep * (C.cfg.prm.nToSI * ∑ j, c j * density j) =
        weight (particles s.group) + (s.lines.length * (particlesPerLine C.cfg 1).toNat : ℕ) * C.cfg.particleWeight := by
  classical
  obtain ⟨s', D', M, A, g, -, -, -, run, hA, e, hM⟩ := pre_integrate_correct hW href hT h basis ht one_pos
  refine ⟨s', D', _, _, e, g, fun a ha => ?_, ?_⟩
  · rw [hM] at ha
    exact (Multiset.mem_filter.1 ha).2
  · simp only [Nat.cast_one, div_one, List.replicate_one] at run
    cases run with
    | step cr st run =>
      cases run
      rename_i new
      have hb := mass_balance ht.ne' (H := physics C) hn st
      rw [projected_mass basis c hc hA]
      have hfil : (((particles s.group + new).map (moved timestep)).filter fun a => ¬Stays (physics C).cfg a) = 0 := by
        rw [Multiset.filter_eq_nil]
        intro a _ hns
        exact hns (Or.inl hp)
      rw [hfil] at hb
      have hnew : weight new = (s.lines.length * (particlesPerLine C.cfg 1).toNat : ℕ) * C.cfg.particleWeight := by
        have h1 : new.map (fun a => a.1.weight) = new.map fun _ => C.cfg.particleWeight := Multiset.map_congr rfl fun a ha => (cr.2 a ha).1
        have h2 : Multiset.card new = s.lines.length * (particlesPerLine C.cfg 1).toNat := by
          have := congrArg Multiset.card cr.1
          rw [Multiset.card_map, Multiset.coe_card, List.length_flatMap] at this
          rw [this]
          simp only [List.length_map, List.length_range, List.map_const', List.sum_replicate, smul_eq_mul, List.map_map, div_self ht.ne', physics]
          simp [Function.comp_def, List.map_const']
        rw [weight, h1, Multiset.map_const', Multiset.sum_replicate, h2, nsmul_eq_mul]
      -- the removed particles have no weight
      have hrem : weight (particles s'.group) = weight M := by
        rw [hM]
        have hz : ∀ b ∈ M, b.1.id = -1 → b.1.weight = 0 := by
          obtain ⟨A', ⟨hA', -⟩, hr⟩ := st
          intro b hbM hid
          obtain ⟨x, hx, hxb⟩ := Multiset.exists_mem_of_rel_of_mem (Multiset.rel_flip.2 hr) hbM
          obtain ⟨rate, -, hi⟩ := C62.sol_ionised _ _ _ _ _ _ ht.ne' hn hxb.2
          rcases hi.marked.1 hid with h1 | h1
          · exfalso
            have hx1 : x.1 ∈ A'.map Prod.fst := Multiset.mem_map_of_mem _ hx
            rw [hA'] at hx1
            obtain ⟨a, ha, hax⟩ := Multiset.mem_map.1 hx1
            obtain ⟨a0, ha0, rfl⟩ := Multiset.mem_map.1 (Multiset.mem_filter.1 ha).1
            have hid0 : a0.1.id = -1 := by
              have : (toParticle x.1).id = a0.1.id := by rw [← hax]; rfl
              rw [← this]
              exact h1
            rcases Multiset.mem_add.1 ha0 with h2 | h2
            · exact hclean _ h2 hid0
            · have := (cr.2 _ h2).2.1
              omega
          · exact h1
        have := Multiset.filter_add_not (fun a : Body => a.1.id ≠ -1) M
        conv_rhs => rw [← this]
        unfold weight
        rw [Multiset.map_add, Multiset.sum_add]
        have h0 : ((M.filter fun a => ¬a.1.id ≠ -1).map fun a => a.1.weight).sum = 0 := by
          rw [Multiset.map_congr rfl (g := fun _ => (0 : ℝ)) fun a ha => hz a (Multiset.mem_filter.1 ha).1 (not_not.1 (Multiset.mem_filter.1 ha).2)]
          simp
        rw [h0, add_zero]
      rw [hrem, ← hnew]
      have hw0 : weight (0 : Multiset Body) = 0 := rfl
      rw [hw0, add_zero] at hb
      exact hb

/-! ### One list of particles -/

theorem perform_congr {cfg : Config} {envs envs' : ℕ → Env} {dt : ℝ} (ds : List ℝ) : ∀ s : NeutralSystem.Sys, (∀ j, s.clock ≤ j → envs j = envs' j) →
    C63.perform (substepSOL cfg envs dt) ds s = C63.perform (substepSOL cfg envs' dt) ds s := by
  induction ds with
  | nil => intro s _; rfl
  | cons d ds ih =>
    intro s h
    have e : substepSOL cfg envs dt d s = substepSOL cfg envs' dt d s := by unfold substepSOL; rw [h s.clock le_rfl]
    rw [C63.perform, C63.perform, e]
    cases hs : substepSOL cfg envs' dt d s with
    | none => rfl
    | some s1 =>
      refine ih s1 fun j hj => h j ?_
      unfold substepSOL at hs
      dsimp only at hs
      split at hs
      · simp at hs
      · have := Option.some.inj hs
        rw [← this] at hj
        simp only [addSOL] at hj
        omega

/-- The surroundings of one sub step of the model of C62-C64, in which the given particles are new. -/
noncomputable def envOf (l : List Ionisation.Particle) (wrap : ℝ × ℝ → ℝ × ℝ) (fN fT : ℝ × ℝ → ℝ) : Env where
  point i := (l[i]?.map (·.pos)).getD 0
  velocity i := (l[i]?.map (·.vel)).getD 0
  rank i := (l[i]?.map (·.id.toNat)).getD 0
  wrap := wrap
  fieldN := fN
  fieldT := fT

theorem substep_serial {H : Physics} {sources : List Source} {k D : ℕ} {dt d : ℝ} {new M M' : Multiset Body} {fN fT : ℝ × ℝ → ℝ} {wrap : ℝ × ℝ → ℝ × ℝ}
    (hN : ∀ p, ∀ a ∈ inside p, H.fieldN k a.cell a.ref = fN (p 0, p 1)) (hT : ∀ p, ∀ a ∈ inside p, H.fieldT k a.cell a.ref = fT (p 0, p 1)) (hw : ∀ p, ((H.wrap p) 0, (H.wrap p) 1) = wrap (p 0, p 1))
    (hl : H.cfg.totalLines = sources.length) (hc : Created H.cfg sources D (particlesPerLine H.cfg (d / dt)).toNat new) (h : SubStep inside H k d new M M') (s : NeutralSystem.Sys) (hk : s.clock = k)
    (hs : (s.particles : Multiset Ionisation.Particle) = M.map toParticle) :
    ∃ env s', env.wrap = wrap ∧ env.fieldN = fN ∧ env.fieldT = fT ∧ (∀ envs : ℕ → Env, envs k = env → substepSOL H.cfg envs dt d s = some s') ∧ s'.clock = k + 1 ∧ s'.simulationTime = s.simulationTime ∧
      s'.totalAdded = s.totalAdded + Multiset.card new ∧ (s'.particles : Multiset Ionisation.Particle) = M'.map toParticle := by
  classical
  set num := (particlesPerLine H.cfg (d / dt)).toNat with hnum
  set lnew := (new.map toParticle).toList with hlnew
  have hlc : (lnew : Multiset Ionisation.Particle) = new.map toParticle := Multiset.coe_toList _
  have hlen : lnew.length = H.cfg.totalLines * num := by
    have := congrArg Multiset.card hc.1
    rw [Multiset.card_map, Multiset.coe_card, List.length_flatMap] at this
    rw [hlnew, Multiset.length_toList, Multiset.card_map, this, hl]
    simp [List.map_const']
  set env := envOf lnew wrap fN fT with henv
  have hadd : ∀ a : ℝ, a = d / dt → (addSOL H.cfg env a s).particles = s.particles ++ lnew := by
    rintro a rfl
    unfold addSOL
    dsimp only
    congr 1
    refine List.ext_getElem (by rw [hlen, List.length_map, List.length_range]) fun i h1 h2 => ?_
    rw [List.getElem_map, List.getElem_range]
    have hi : lnew[i] ∈ new.map toParticle := by rw [← hlc]; exact List.getElem_mem h2
    obtain ⟨b, hb, e⟩ := Multiset.mem_map.1 hi
    obtain ⟨b1, b2, b3, b4, b5⟩ := hc.2 b hb
    have hq : ∀ q : Ionisation.Particle, q = lnew[i] → newParticle H.cfg env i = q := by
      rintro q rfl
      unfold newParticle
      simp only [henv, envOf, List.getElem?_eq_getElem h2, Option.map_some, Option.getD_some]
      rw [← e]
      simp only [toParticle, ← b1, b3, b4, b5, Int.toNat_of_nonneg b2]
    exact hq _ rfl
  obtain ⟨A, ⟨hA, hin⟩, hr⟩ := h
  -- the motion
  have hmove : (forwardEulerSOL H.cfg env d (s.particles ++ lnew) : Multiset Ionisation.Particle) = A.map fun x => toParticle x.1 := by
    have e1 : A.map (fun x => toParticle x.1) = (A.map Prod.fst).map toParticle := by rw [Multiset.map_map]; rfl
    rw [e1, hA, Multiset.map_map]
    have e2 : ((s.particles ++ lnew : List Ionisation.Particle) : Multiset Ionisation.Particle) = (M + new).map toParticle := by rw [← Multiset.coe_add, hs, hlc, Multiset.map_add]
    have e3 : (((s.particles ++ lnew).map (euler d) : List Ionisation.Particle) : Multiset Ionisation.Particle) = ((M + new).map (moved d)).map toParticle := by
      rw [← Multiset.map_coe, e2, Multiset.map_map, Multiset.map_map]
      rfl
    have e4 : ∀ a : Body, (toParticle ∘ fun a : Body => (a.1, H.wrap a.2)) a = (fun p : Ionisation.Particle => { p with pos := wrap p.pos }) (toParticle a) := by
      intro a
      simp only [Function.comp_apply, toParticle, hw]
    rw [show (toParticle ∘ fun a : Body => (a.1, H.wrap a.2)) = (fun p : Ionisation.Particle => { p with pos := wrap p.pos }) ∘ toParticle from funext e4, ← Multiset.map_map]
    unfold forwardEulerSOL boundarySOL
    dsimp only
    rw [← Multiset.map_coe]
    congr 1
    by_cases hp : H.cfg.fullyPeriodic = true
    · rw [if_pos hp, e3, (Multiset.filter_eq_self (p := Stays H.cfg)).2 fun a _ => Or.inl hp]
    · rw [if_neg hp]
      unfold removeMarked
      rw [← Multiset.filter_coe, ← Multiset.map_coe, e3, Multiset.map_map, Multiset.filter_map]
      have hk : ∀ a : Body, (((fun p : Ionisation.Particle => p.id ≠ Ionisation.removeKey) ∘ (markWall H.cfg ∘ toParticle)) a ↔ Stays H.cfg a) ∧ (Stays H.cfg a → markWall H.cfg (toParticle a) = toParticle a) := by
        intro a
        have hs : Stays H.cfg a ↔ (0 ≤ a.2 0 ∧ a.2 0 ≤ H.cfg.unrotatedXMax ∧ a.1.id ≠ Ionisation.removeKey) := by simp [Stays, hp]
        rw [hs]
        simp only [Function.comp_apply]
        unfold markWall
        by_cases hw : (toParticle a).pos.1 < 0 ∨ (toParticle a).pos.1 > 0 + H.cfg.unrotatedXMax
        · rw [if_pos hw]
          have : ¬(0 ≤ a.2 0 ∧ a.2 0 ≤ H.cfg.unrotatedXMax ∧ a.1.id ≠ Ionisation.removeKey) := by
            rintro ⟨k1, k2, -⟩
            simp only [toParticle, zero_add] at hw
            rcases hw with hw | hw <;> linarith
          exact ⟨⟨fun h => absurd rfl h, fun h => absurd h this⟩, fun h => absurd h this⟩
        · rw [if_neg hw]
          refine ⟨?_, fun _ => rfl⟩
          simp only [toParticle, zero_add, not_or, not_lt, gt_iff_lt] at hw
          exact ⟨fun h => ⟨hw.1, hw.2, h⟩, fun h => h.2.2⟩
      rw [Multiset.filter_congr fun a _ => (hk a).1]
      exact Multiset.map_congr rfl fun a ha => (hk a).2 (Multiset.mem_filter.1 ha).2
  -- the ionisation
  have hion : ∃ l', ioniseAllSOL H.cfg env d (forwardEulerSOL H.cfg env d (s.particles ++ lnew)) = some l' ∧ (l' : Multiset Ionisation.Particle) = M'.map toParticle := by
    set g : Ionisation.Particle → Option Ionisation.Particle := fun p => Ionisation.ioniseSOL H.cfg.prm d (env.fieldN p.pos * H.cfg.prm.nToSI) (env.fieldT p.pos * H.cfg.TtoEV) p with hg
    have key : A.map (fun x => g (toParticle x.1)) = M'.map fun b => some (toParticle b) := by
      have hr' : Multiset.Rel (fun x b => x ∈ A ∧ Ionised H k d x b) A M' := hr.mono fun x hx b _ hxb => ⟨hx, hxb⟩
      refine rel_map hr' fun x b hb => ?_
      have h1 := hN _ _ (hin x hb.1)
      have h2 := hT _ _ (hin x hb.1)
      rw [← hb.2.2, h1, h2]
      rfl
    have key2 : ((forwardEulerSOL H.cfg env d (s.particles ++ lnew)).map g : Multiset (Option Ionisation.Particle)) = (M'.map toParticle).map some := by
      rw [← Multiset.map_coe, hmove, Multiset.map_map, Multiset.map_map]
      exact key
    have hsome : ∀ p ∈ forwardEulerSOL H.cfg env d (s.particles ++ lnew), ∃ q, g p = some q := by
      intro p hp
      have : g p ∈ (M'.map toParticle).map some := by rw [← key2]; exact List.mem_map_of_mem hp
      obtain ⟨q, -, hq⟩ := Multiset.mem_map.1 this
      exact ⟨q, hq.symm⟩
    refine ⟨(forwardEulerSOL H.cfg env d (s.particles ++ lnew)).map fun p => (g p).getD p, C108.mapM_some _ fun p hp => ?_, ?_⟩
    · obtain ⟨q, hq⟩ := hsome p hp
      change g p = some ((g p).getD p)
      rw [hq]
      rfl
    · have hinj : Function.Injective (Multiset.map (some : Ionisation.Particle → Option Ionisation.Particle)) := Multiset.map_injective (Option.some_injective _)
      apply hinj
      rw [← key2, Multiset.map_coe, List.map_map]
      congr 1
      refine List.map_congr_left fun p hp => ?_
      obtain ⟨q, hq⟩ := hsome p hp
      simp only [Function.comp_apply, hq, Option.getD_some]
  obtain ⟨l', e, hl'⟩ := hion
  refine ⟨env, { addSOL H.cfg env (d / dt) s with particles := l', clock := s.clock + 1 }, rfl, rfl, rfl, fun envs he => ?_, by rw [← hk], rfl, ?_, hl'⟩
  · unfold substepSOL
    dsimp only
    rw [hk, he, hadd _ rfl, e]
    simp only [addSOL, hk]
  · have : Multiset.card new = lnew.length := by rw [hlnew, Multiset.length_toList, Multiset.card_map]
    rw [this, hlen]
    rfl

/-- **C110, one list of particles.** If density and temperature have one value at each position (also on the common boundaries of elements), a run of the simulation without ranks is a run of the model of properties
C62-C64, in which all particles form one list: with the fields and the periodic boundary conditions of the simulation, the same sub steps and the same particles. -/
theorem serial {H : Physics} {sources : List Source} {dt : ℝ} {fN fT : ℕ → ℝ × ℝ → ℝ} {wrap : ℝ × ℝ → ℝ × ℝ} (hN : ∀ k p, ∀ a ∈ inside p, H.fieldN k a.cell a.ref = fN k (p 0, p 1))
    (hT : ∀ k p, ∀ a ∈ inside p, H.fieldT k a.cell a.ref = fT k (p 0, p 1)) (hw : ∀ p, ((H.wrap p) 0, (H.wrap p) 1) = wrap (p 0, p 1)) (hl : H.cfg.totalLines = sources.length)
    {ds : List ℝ} {D k D' : ℕ} {M M' : Multiset Body} (h : Run inside H sources dt ds D k M D' M') (s : NeutralSystem.Sys) (hk : s.clock = k)
    (hs : (s.particles : Multiset Ionisation.Particle) = M.map toParticle) :
    ∃ envs s', C63.perform (substepSOL H.cfg envs dt) ds s = some s' ∧ (∀ j, k ≤ j → (envs j).wrap = wrap ∧ (envs j).fieldN = fN j ∧ (envs j).fieldT = fT j) ∧
      (s'.particles : Multiset Ionisation.Particle) = M'.map toParticle := by
  induction h generalizing s with
  | done D k M => exact ⟨fun j => envOf [] wrap (fN j) (fT j), s, rfl, fun j _ => ⟨rfl, rfl, rfl⟩, hs⟩
  | @step d ds D k D' M new M1 M' hc hst _ ih =>
    obtain ⟨env, s1, w1, w2, w3, h1, h2, -, -, h5⟩ := substep_serial (hN k) (hT k) hw hl hc hst s hk hs
    obtain ⟨envs, s2, e2, h6, h7⟩ := ih s1 h2 h5
    refine ⟨fun j => if j = k then env else envs j, s2, ?_, fun j hj => ?_, h7⟩
    · rw [C63.perform, h1 _ (if_pos rfl), Option.bind_some, ← e2]
      refine perform_congr ds s1 fun j hj => ?_
      rw [if_neg (by omega)]
    · dsimp only
      split_ifs with hjk
      · rw [hjk]; exact ⟨w1, w2, w3⟩
      · exact h6 j (by omega)

end Verif.Props.C110
