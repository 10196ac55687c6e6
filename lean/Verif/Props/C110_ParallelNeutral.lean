import Verif.Spec.ParallelNeutral
import Verif.Props.C91_ParallelPic
import Verif.Props.C108_LineInit
import Verif.Props.C63_Substeps

/-!
# C110: the neutral particles of SimpleSOL do not depend on the ranks

Users rely on running the SimpleSOL solver with its particles on any number of ranks: sub steps complete, new particles are created at the drawn points of the source lines whatever rank stores them, each particle is moved
and ionised once with the fields of an element that contains it, none is lost or duplicated, and the source terms of the fluid are sums over all particles.
-/

namespace Verif.Props.C110
open Verif.Model Verif.Model.ParallelNeutral Verif.Model.ParallelStep Verif.Model.MapChain Verif.Model.CoarseLookup Verif.Model.LineInit Verif.Model.Sampling Verif.Model.NeutralSystem Verif.Spec.ParallelNeutral
open Verif.Model.ParallelPic (World gid)
open Verif.Props.C55 (Assignment)
open Verif.Props.C90 (RankOk Settled all map_all particles_eq loop_flatten forRanks_some)
open Verif.Props.C91 (WorldOk map_mapIdx mapIdx_const)
open Verif.Props.C108 (Usable points counts particles_core)

variable {n : ℕ} {J : Type}

/-! ### The particles with their elements -/

section generic
variable {K : Type} [Field K] {T : Type}

/-- The particles of all ranks with the elements of their cells. -/
def located (W : World n K) (S : State n T K) : Multiset ((T × (ℕ → K)) × Assignment K) :=
  all fun r => ((S r).mapIdx fun i c => c.map fun a => (((a.1, a.2.pos), ⟨(r.val : ℤ), gid (W.ranks r) i, a.2.ref⟩) : (T × (ℕ → K)) × Assignment K)).flatten

theorem located_particles (W : World n K) (S : State n T K) : (located W S).map Prod.fst = particles S := by
  rw [particles_eq, located, map_all, map_all]
  congr 1
  funext r
  rw [List.map_flatten, map_mapIdx, List.map_flatten]
  congr 1
  simp only [List.map_map, Function.comp_def]
  exact mapIdx_const _ _

theorem located_inside {dom : (ℕ → K) → Prop} {inside : (ℕ → K) → Set (Assignment K)} {W : World n K} {S : State n T K} (h : Settled dom inside W.ranks S) :
    ∀ x ∈ located W S, x.2 ∈ inside x.1.2 := by
  intro x hx
  rw [located, all, Multiset.mem_sum] at hx
  obtain ⟨r, -, hx⟩ := hx
  rw [Multiset.mem_coe, List.mem_flatten] at hx
  obtain ⟨l, hl, hx⟩ := hx
  rw [List.mem_mapIdx] at hl
  obtain ⟨i, hi, rfl⟩ := hl
  rw [List.mem_map] at hx
  obtain ⟨a, ha, rfl⟩ := hx
  obtain ⟨-, -, -, g, hg, hin⟩ := (h r).2 i hi a ha
  have : gid (W.ranks r) i = g := by rw [gid, List.getD_eq_getElem?_getD, hg, Option.getD_some]
  dsimp only
  rw [this]
  exact hin

end generic

/-! ### New particles -/

/-- The numbers and fields of the simulation. -/
noncomputable def physics (C : Setup n) : Physics := ⟨C.cfg, C.world.boundary, C.fieldN, C.fieldT⟩

/-- A source line as seen without ranks. -/
noncomputable def sourceOf (L : SourceLine n) : Source := ⟨points 2 L.points, L.stream⟩

/-- A source line after `D` values were drawn from it: the points are stored as in C108, and the samplers are those that the constructor made for these points (C46), after `D` values. Ranks without points draw nothing. -/
structure LineAt (dom : (ℕ → ℝ) → Prop) (inside : (ℕ → ℝ) → Set (Assignment ℝ)) (R : Fin n → Rank ℝ) (D : ℕ) (L : SourceLine n) : Prop where
  usable : ∀ r, Usable 2 dom inside (R r) r (L.points r)
  range : ∀ k, 0 ≤ L.stream k ∧ L.stream k < (counts L.points).sum
  local_ : ∀ r, (L.sampler r).npointsLocal = ((L.points r).npointsLocal : ℤ)
  start : ∀ r, (L.sampler r).indexStart = ((counts L.points).take r).sum
  stop : ∀ r, (L.sampler r).indexEnd = ((counts L.points).take (r + 1)).sum - 1
  drawn : ∀ r, 0 < (L.points r).npointsLocal → (L.sampler r).drawn = D

theorem counts_succ (P : Fin n → Points ℝ) (r : Fin n) : ((counts P).take (r + 1)).sum = ((counts P).take r).sum + (P r).npointsLocal := by
  have hlen : (counts P).length = n := by simp [counts]
  rw [List.take_add_one, List.getElem?_eq_getElem (by omega)]
  simp [counts]

theorem samples_eq {dom : (ℕ → ℝ) → Prop} {inside : (ℕ → ℝ) → Set (Assignment ℝ)} {R : Fin n → Rank ℝ} {D : ℕ} {L : SourceLine n} (h : LineAt dom inside R D L) (num : ℕ) (r : Fin n) :
    (getSamples L.stream (L.sampler r) num).2 = (((List.range num).map fun i => L.stream (D + i)).filter fun x => ((counts L.points).take r).sum ≤ x ∧ x < ((counts L.points).take (r + 1)).sum).map
      (fun x => x - ((counts L.points).take r).sum) := by
  unfold getSamples
  rw [h.local_ r]
  split_ifs with hp
  · rw [C46.drawLoop_spec, h.start r, h.stop r, h.drawn r (by omega), C46.keep]
    dsimp only
    congr 1
    refine List.filter_congr fun x _ => ?_
    rw [decide_eq_decide]
    omega
  · symm
    rw [List.map_eq_nil_iff, List.filter_eq_nil_iff]
    intro x _
    have := counts_succ L.points r
    simp only [decide_eq_true_eq]
    omega

theorem line_after {dom : (ℕ → ℝ) → Prop} {inside : (ℕ → ℝ) → Set (Assignment ℝ)} {R : Fin n → Rank ℝ} {D : ℕ} {L : SourceLine n} (h : LineAt dom inside R D L) (num : ℕ) :
    LineAt dom inside R (D + num) { L with sampler := fun r => (getSamples L.stream (L.sampler r) num).1 } := by
  have key : ∀ r, (getSamples L.stream (L.sampler r) num).1 = { L.sampler r with drawn := if 0 < (L.points r).npointsLocal then D + num else (L.sampler r).drawn } := by
    intro r
    unfold getSamples
    rw [h.local_ r]
    by_cases hp : 0 < (L.points r).npointsLocal
    · rw [if_pos (by exact_mod_cast hp), C46.drawLoop_spec, if_pos hp, h.drawn r hp]
    · rw [if_neg (by exact_mod_cast hp), if_neg hp]
  refine ⟨h.usable, h.range, fun r => ?_, fun r => ?_, fun r => ?_, fun r hr => ?_⟩ <;> dsimp only <;> rw [key]
  · exact h.local_ r
  · exact h.start r
  · exact h.stop r
  · dsimp only at hr ⊢
    rw [if_pos hr]

/-- What the ranks add: on each rank the new particles have the next velocities of this rank, each value is used once. -/
structure Added (C : Setup n) (s s' : Sys n) (new : Fin n → List Body) : Prop where
  fresh : ∀ r, (new r).map Prod.fst = (List.range (new r).length).map fun px => (⟨(C.velocities r (s.drawn r + 3 * px), C.velocities r (s.drawn r + 3 * px + 1)), r.val, C.cfg.particleWeight, 0, (0, 0), 0⟩ : Neutral)
  drawn : ∀ r, s'.drawn r = s.drawn r + 3 * (new r).length
  total : ∀ r, s'.totalAdded r = s.totalAdded r + (new r).length
  particles : particles s'.group = particles s.group + all new
  clock : s'.clock = s.clock
  time : s'.simulationTime = s.simulationTime

section main
variable {dom : (ℕ → ℝ) → Prop} {inside : (ℕ → ℝ) → Set (Assignment ℝ)} {C : Setup n}

theorem range_add_map {α : Type*} (a b : ℕ) (f : ℕ → α) : (List.range (a + b)).map f = (List.range a).map f ++ (List.range b).map fun i => f (a + i) := by
  rw [List.range_add, List.map_append, List.map_map]
  rfl

theorem addFromLine_correct (href : ∀ p, ∀ a ∈ inside p, a.ref.length = 2) {s : Sys n} {L : SourceLine n} {D : ℕ} (num : ℕ) (hL : LineAt dom inside C.world.ranks D L)
    (hS : ∀ r, (s.group r).length = (C.world.ranks r).translation.mapToNektar.length) :
    ∃ s' new, addFromLine C num s L = some s' ∧ Added C s s' new ∧ (∀ r, (s'.group r).length = (C.world.ranks r).translation.mapToNektar.length) ∧
      s'.lines = s.lines ++ [{ L with sampler := fun r => (getSamples L.stream (L.sampler r) num).1 }] ∧
      (all fun r => (new r).map fun a => some a.2) = ((List.range num).map fun i => (points 2 L.points)[(L.stream (D + i)).toNat]? : List (Option (ℕ → ℝ))) := by
  obtain ⟨S', new, e, h1, -, h3, hlen, h4, -⟩ := particles_core (T := Neutral) hL.usable href ((List.range num).map fun i => L.stream (D + i)) (fun x hx => by
      obtain ⟨i, -, rfl⟩ := List.mem_map.1 hx
      exact hL.range _) (fun r => (getSamples L.stream (L.sampler r) num).2) (fun r => samples_eq hL num r) (newNeutral C s.drawn) s.group hS
  refine ⟨{ s with
      group := S'
      lines := s.lines ++ [{ L with sampler := fun r => (getSamples L.stream (L.sampler r) num).1 }]
      drawn := fun r => s.drawn r + 3 * (getSamples L.stream (L.sampler r) num).2.length
      totalAdded := fun r => s.totalAdded r + (getSamples L.stream (L.sampler r) num).2.length }, fun r => (new r).map fun a => (a.1, a.2.pos), by unfold addFromLine; dsimp only; rw [e, Option.map_some], ⟨fun r => ?_, fun r => ?_, fun r => ?_, ?_, rfl, rfl⟩, fun r => ?_, rfl, ?_⟩
  · rw [List.map_map, List.length_map]
    exact h3 r
  · dsimp only
    rw [List.length_map, hlen r]
  · dsimp only
    rw [List.length_map, hlen r]
  · dsimp only
    rw [particles_eq, particles_eq, map_all, map_all]
    unfold all
    rw [← Finset.sum_add_distrib]
    refine Finset.sum_congr rfl fun r _ => ?_
    rw [← Multiset.map_coe, (h1 r).2, Multiset.map_add]
    rfl
  · rw [(h1 r).1, hS r]
  · simp only [List.map_map]
    exact h4.trans (by rw [List.map_map]; rfl)

theorem Added.trans {s s1 s2 : Sys n} {new1 new2 : Fin n → List Body} (h1 : Added C s s1 new1) (h2 : Added C s1 s2 new2) : Added C s s2 fun r => new1 r ++ new2 r := by
  refine ⟨fun r => ?_, fun r => ?_, fun r => ?_, ?_, h2.clock.trans h1.clock, h2.time.trans h1.time⟩
  · rw [List.map_append, List.length_append, range_add_map, h1.fresh r, h2.fresh r]
    congr 1
    refine List.map_congr_left fun i _ => ?_
    rw [h1.drawn r, show s.drawn r + 3 * (new1 r).length + 3 * i = s.drawn r + 3 * ((new1 r).length + i) by ring]
  · rw [h2.drawn, h1.drawn, List.length_append]; ring
  · rw [h2.total, h1.total, List.length_append]; ring
  · rw [h2.particles, h1.particles, add_assoc]
    congr 1
    unfold all
    rw [← Finset.sum_add_distrib]
    refine Finset.sum_congr rfl fun r _ => ?_
    rw [Multiset.coe_add]

theorem all_append {α : Type*} (a b : Fin n → List α) : (all fun r => a r ++ b r) = all a + all b := by
  unfold all
  rw [← Finset.sum_add_distrib]
  exact Finset.sum_congr rfl fun r _ => (Multiset.coe_add _ _).symm

/-- **C110, new particles.** `add_particles` completes on all ranks and creates the particles of the drawn points of all lines. Each rank uses the next values of its generator of velocities, each value once. -/
theorem addParticles_correct (href : ∀ p, ∀ a ∈ inside p, a.ref.length = 2) {s : Sys n} {D : ℕ} (p : ℝ) (hL : ∀ L ∈ s.lines, LineAt dom inside C.world.ranks D L)
    (hS : ∀ r, (s.group r).length = (C.world.ranks r).translation.mapToNektar.length) :
    ∃ s' new, addParticles C p s = some s' ∧ Added C s s' new ∧ (∀ r, (s'.group r).length = (C.world.ranks r).translation.mapToNektar.length) ∧
      s'.lines.map sourceOf = s.lines.map sourceOf ∧ (∀ L ∈ s'.lines, LineAt dom inside C.world.ranks (D + (particlesPerLine C.cfg p).toNat) L) ∧
      Created C.cfg (s.lines.map sourceOf) D (particlesPerLine C.cfg p).toNat (all new) := by
  set num := (particlesPerLine C.cfg p).toNat with hnum
  have key : ∀ (Ls : List (SourceLine n)) (s : Sys n), (∀ L ∈ Ls, LineAt dom inside C.world.ranks D L) → (∀ L ∈ s.lines, LineAt dom inside C.world.ranks (D + num) L) →
      (∀ r, (s.group r).length = (C.world.ranks r).translation.mapToNektar.length) →
      ∃ s' new, Ls.foldlM (addFromLine C num) s = some s' ∧ Added C s s' new ∧ (∀ r, (s'.group r).length = (C.world.ranks r).translation.mapToNektar.length) ∧
        s'.lines.map sourceOf = s.lines.map sourceOf ++ Ls.map sourceOf ∧ (∀ L ∈ s'.lines, LineAt dom inside C.world.ranks (D + num) L) ∧
        (all fun r => (new r).map fun a => some a.2) =
          ((Ls.map sourceOf).flatMap fun s => (List.range num).map fun i => s.points[(s.stream (D + i)).toNat]? : List (Option (ℕ → ℝ))) := by
    intro Ls
    induction Ls with
    | nil =>
      intro s _ h2 h3
      refine ⟨s, fun _ => [], rfl, ⟨fun _ => rfl, fun _ => rfl, fun _ => rfl, by simp [all], rfl, rfl⟩, h3, by simp, h2, by simp [all]⟩
    | cons L Ls ih =>
      intro s h1 h2 h3
      obtain ⟨s1, new1, e1, a1, l1, k1, p1⟩ := addFromLine_correct href num (h1 L (by simp)) h3
      obtain ⟨s2, new2, e2, a2, l2, k2, q2, p2⟩ := ih s1 (fun L hL => h1 L (by simp [hL])) (by
        rw [k1]
        intro L' hL'
        rcases List.mem_append.1 hL' with h | h
        · exact h2 L' h
        · rw [List.mem_singleton] at h
          subst h
          exact line_after (h1 L (by simp)) num) l1
      refine ⟨s2, fun r => new1 r ++ new2 r, by rw [List.foldlM_cons, e1]; exact e2, a1.trans a2, l2, ?_, q2, ?_⟩
      · rw [k2, k1, List.map_append, List.append_assoc]
        rfl
      · simp only [List.map_append]
        rw [all_append, p1, p2, List.map_cons, List.flatMap_cons, Multiset.coe_add]
        rfl
  obtain ⟨s', new, e, a, l, k, q, pp⟩ := key s.lines { s with lines := [] } hL (by simp) hS
  refine ⟨s', new, e, ⟨a.fresh, a.drawn, a.total, a.particles, a.clock, a.time⟩, l, by simpa using k, q, ?_, fun b hb => ?_⟩
  · rw [← pp, map_all]
  · rw [all, Multiset.mem_sum] at hb
    obtain ⟨r, -, hb⟩ := hb
    have : b.1 ∈ (new r).map Prod.fst := List.mem_map_of_mem (by simpa using hb)
    rw [a.fresh r] at this
    obtain ⟨px, -, e⟩ := List.mem_map.1 this
    rw [← e]
    exact ⟨rfl, by simp, rfl, rfl, rfl⟩

/-! ### The particle loops -/

theorem loopAll_particles (f : Ionisation.Particle → Ionisation.Particle) (S : State n Neutral ℝ) : particles (ParallelNeutral.loopAll f S) = (particles S).map fun a => update a (f (toParticle a)) := by
  rw [particles_eq, particles_eq, map_all, map_all, map_all]
  congr 1
  funext r
  rw [ParallelNeutral.loopAll, loop_flatten, List.map_map, List.map_map]
  rfl

theorem filter_all {α : Type*} (p : α → Prop) [DecidablePred p] (S : Fin n → List α) : (all S).filter p = all fun r => (S r).filter p := by
  unfold all
  have key : ∀ F : Finset (Fin n), (∑ r ∈ F, (S r : Multiset α)).filter p = ∑ r ∈ F, (((S r).filter p : List α) : Multiset α) := by
    classical
    intro F
    induction F using Finset.induction_on with
    | empty => simp
    | insert a F ha ih => rw [Finset.sum_insert ha, Finset.sum_insert ha, Multiset.filter_add, ih, Multiset.filter_coe]
  exact key _

theorem removeAll_particles (S : State n Neutral ℝ) : particles (removeAll S) = (particles S).filter fun a => a.1.id ≠ Ionisation.removeKey := by
  rw [particles_eq, particles_eq, Multiset.filter_map, filter_all]
  congr 2
  funext r
  rw [removeAll, ← List.filter_flatten]
  rfl

theorem removeAll_length (S : State n Neutral ℝ) (r : Fin n) : (removeAll S r).length = (S r).length := by simp [removeAll]

theorem removeAll_settled {R : Fin n → Rank ℝ} {S : State n Neutral ℝ} (h : Settled dom inside R S) : Settled dom inside R (removeAll S) := by
  intro r
  refine ⟨by rw [removeAll_length]; exact (h r).1, fun i hi a ha => ?_⟩
  have hi' : i < (S r).length := by rwa [removeAll_length] at hi
  simp only [removeAll, List.getElem_map, List.mem_filter] at ha
  exact (h r).2 i hi' a ha.1

open Classical in
/-- **C110, motion.** `forward_euler` completes and moves all particles, without those that the walls remove; then each particle is in the cell of an element that contains it. -/
theorem forwardEuler_correct (hW : WorldOk dom inside C.world) (dt : ℝ) {S : State n Neutral ℝ} (hS : ∀ r, (S r).length = (C.world.ranks r).translation.mapToNektar.length) :
    ∃ S', forwardEuler C dt S = some S' ∧ Settled dom inside C.world.ranks S' ∧
      particles S' = (((particles S).map (moved dt)).filter (Stays C.cfg)).map fun a => (a.1, C.world.boundary a.2) := by
  set S1 : State n Neutral ℝ := if C.cfg.fullyPeriodic then ParallelNeutral.loopAll (euler dt) S else removeAll (ParallelNeutral.loopAll (markWall C.cfg) (ParallelNeutral.loopAll (euler dt) S)) with hS1
  have hne : ∀ r, S1 r ≠ [] := by
    intro r h0
    have h1 : (S1 r).length = (S r).length := by
      rw [hS1]
      split_ifs <;> simp [removeAll, ParallelNeutral.loopAll, particleLoop]
    rw [h0, hS r] at h1
    exact hW.cells r (List.length_eq_zero_iff.1 h1.symm)
  obtain ⟨S', e, h1, h2⟩ := C90.transfer_correct hW.boundary hW.owned hW.ranks hW.mapped S1 hne
  have hmoved : ∀ a : Body, update a (euler dt (toParticle a)) = moved dt a := fun a => rfl
  refine ⟨S', ?_, h2, ?_⟩
  · rw [forwardEuler, transferParticles, ← e]
  · rw [h1]
    congr 1
    rw [hS1]
    by_cases hp : C.cfg.fullyPeriodic = true
    · rw [if_pos hp, loopAll_particles, Multiset.filter_eq_self.2]
      · rfl
      · exact fun a _ => Or.inl hp
    · rw [if_neg hp, removeAll_particles, loopAll_particles, loopAll_particles, Multiset.filter_map]
      simp only [hmoved]
      have hk : ∀ a : Body, (((fun a : Body => a.1.id ≠ Ionisation.removeKey) ∘ fun a => update a (markWall C.cfg (toParticle a))) a ↔ Stays C.cfg a) ∧
          (Stays C.cfg a → update a (markWall C.cfg (toParticle a)) = a) := by
        intro a
        have hupd : update a (toParticle a) = a := by
          unfold update toParticle
          refine Prod.ext rfl (funext fun d => ?_)
          dsimp only
          split_ifs with h0 h1
          · rw [h0]
          · rw [h1]
          · rfl
        have hs : Stays C.cfg a ↔ (0 ≤ a.2 0 ∧ a.2 0 ≤ C.cfg.unrotatedXMax ∧ a.1.id ≠ Ionisation.removeKey) := by simp [Stays, hp]
        rw [hs]
        unfold markWall
        by_cases hw : (toParticle a).pos.1 < 0 ∨ (toParticle a).pos.1 > 0 + C.cfg.unrotatedXMax
        · rw [if_pos hw]
          have : ¬(0 ≤ a.2 0 ∧ a.2 0 ≤ C.cfg.unrotatedXMax ∧ a.1.id ≠ Ionisation.removeKey) := by
            rintro ⟨k1, k2, -⟩
            simp only [toParticle, zero_add] at hw
            rcases hw with hw | hw <;> linarith
          refine ⟨⟨fun h => ?_, fun h => absurd h this⟩, fun h => absurd h this⟩
          simp only [Function.comp_apply, if_pos hw, update, ne_eq, not_true_eq_false] at h
        · rw [if_neg hw]
          refine ⟨?_, fun _ => hupd⟩
          simp only [Function.comp_apply, if_neg hw, hupd]
          simp only [toParticle, zero_add, not_or, not_lt, gt_iff_lt] at hw
          exact ⟨fun h => ⟨hw.1, hw.2, h⟩, fun h => h.2.2⟩
      rw [Multiset.filter_congr fun a _ => (hk a).1]
      refine (Multiset.map_congr rfl fun a ha => (hk a).2 (Multiset.mem_filter.1 ha).2).trans (Multiset.map_id' _)

/-! ### Ionisation -/

/-- The particle after the ionisation. -/
noncomputable def ionOf (H : Physics) (k : ℕ) (dt : ℝ) (x : Body × Assignment ℝ) : Body :=
  match Ionisation.ioniseSOL H.cfg.prm dt (H.fieldN k x.2.cell x.2.ref * H.cfg.prm.nToSI) (H.fieldT k x.2.cell x.2.ref * H.cfg.TtoEV) (toParticle x.1) with
  | some p => ((update x.1 p).1, x.1.2)
  | none => x.1

theorem ioniseSOL_some {prm : Ionisation.Params} {dt nSI TeV : ℝ} (h : 0 < TeV) (p : Ionisation.Particle) : ∃ q, Ionisation.ioniseSOL prm dt nSI TeV p = some q ∧ q.pos = p.pos := by
  unfold Ionisation.ioniseSOL Ionisation.ionRate
  rw [if_neg (not_le.2 h)]
  exact ⟨_, rfl, rfl⟩

theorem ionOf_ionised {H : Physics} {k : ℕ} {dt : ℝ} {x : Body × Assignment ℝ} (h : 0 < H.fieldT k x.2.cell x.2.ref * H.cfg.TtoEV) : Ionised H k dt x (ionOf H k dt x) := by
  obtain ⟨q, e, hq⟩ := ioniseSOL_some (prm := H.cfg.prm) (dt := dt) (nSI := H.fieldN k x.2.cell x.2.ref * H.cfg.prm.nToSI) h (toParticle x.1)
  unfold Ionised ionOf
  rw [e]
  refine ⟨rfl, ?_⟩
  congr 1
  have h1 : q.pos = (x.1.2 0, x.1.2 1) := hq
  unfold toParticle update
  dsimp only
  rw [← h1]

/-- **C110, ionisation.** `ionise` completes for positive temperatures; each particle is ionised once, with the fields in the element of its cell. -/
theorem ionise_correct (k : ℕ) (dt : ℝ) {S : State n Neutral ℝ} (hS : Settled dom inside C.world.ranks S) (hT : ∀ p, ∀ a ∈ inside p, 0 < C.fieldT k a.cell a.ref * C.cfg.TtoEV) :
    ∃ S', ionise C k dt S = some S' ∧ Settled dom inside C.world.ranks S' ∧ Multiset.Rel (Ionised (physics C) k dt) (located C.world S) (particles S') := by
  have hin := located_inside hS
  set S' : State n Neutral ℝ := fun r => (S r).mapIdx fun i c => c.map fun a => ((ionOf (physics C) k dt ((a.1, a.2.pos), ⟨(r.val : ℤ), gid (C.world.ranks r) i, a.2.ref⟩)).1, a.2) with hS'
  have hmem : ∀ r (i : ℕ) (hi : i < (S r).length), ∀ a ∈ (S r)[i], (⟨(r.val : ℤ), gid (C.world.ranks r) i, a.2.ref⟩ : Assignment ℝ) ∈ inside a.2.pos := by
    intro r i hi a ha
    obtain ⟨-, -, -, g, hg, hin⟩ := (hS r).2 i hi a ha
    have : gid (C.world.ranks r) i = g := by rw [gid, List.getD_eq_getElem?_getD, hg, Option.getD_some]
    rw [this]
    exact hin
  have hcell : ∀ r (i : ℕ) (hi : i < (S r).length), ioniseCell C k dt (gid (C.world.ranks r) i) (S r)[i] =
      some ((S r)[i].map fun a => ((ionOf (physics C) k dt ((a.1, a.2.pos), ⟨(r.val : ℤ), gid (C.world.ranks r) i, a.2.ref⟩)).1, a.2)) := by
    intro r i hi
    refine C108.mapM_some _ fun a ha => ?_
    obtain ⟨q, e, hq⟩ := ioniseSOL_some (prm := C.cfg.prm) (dt := dt) (nSI := C.fieldN k (gid (C.world.ranks r) i) a.2.ref * C.cfg.prm.nToSI) (hT _ _ (hmem r i hi a ha)) (toParticle (a.1, a.2.pos))
    rw [e, Option.map_some]
    unfold ionOf physics
    dsimp only
    rw [e]
  have he : ionise C k dt S = some S' := by
    have hr : ∀ r, ((S r).zipIdx.mapM fun c => ioniseCell C k dt (gid (C.world.ranks r) c.2) c.1) = some (S' r) := by
      intro r
      rw [C108.mapM_some (g := fun c : List (Neutral × Particle ℝ) × ℕ => c.1.map fun a => ((ionOf (physics C) k dt ((a.1, a.2.pos), ⟨(r.val : ℤ), gid (C.world.ranks r) c.2, a.2.ref⟩)).1, a.2))]
      · rw [hS']
        congr 1
        refine List.ext_getElem (by simp) fun i h1 h2 => by simp
      · intro c hc
        obtain ⟨h1, h2⟩ := List.mem_zipIdx' hc
        rw [h2]
        exact hcell r c.2 h1
    obtain ⟨g, e, hg⟩ := forRanks_some (f := fun r => (S r).zipIdx.mapM fun c => ioniseCell C k dt (gid (C.world.ranks r) c.2) c.1) (P := fun r x => x = S' r) fun r => ⟨_, hr r, rfl⟩
    rw [ionise, e]
    congr 1
    funext r
    exact (hg r).2
  refine ⟨S', he, fun r => ?_, ?_⟩
  · obtain ⟨h1, h2⟩ := hS r
    refine ⟨by simpa [hS'] using h1, fun i hi a ha => ?_⟩
    have hi' : i < (S r).length := by simpa [hS'] using hi
    simp only [hS', List.getElem_mapIdx, List.mem_map] at ha
    obtain ⟨b, hb, rfl⟩ := ha
    exact h2 i hi' b hb
  · have hp : particles S' = (located C.world S).map (ionOf (physics C) k dt) := by
      rw [particles_eq, located, map_all, map_all]
      congr 1
      funext r
      rw [List.map_flatten, List.map_flatten, map_mapIdx, map_mapIdx]
      congr 1
      refine List.ext_getElem (by simp) fun i h1 h2 => ?_
      have hi : i < (S r).length := by simpa using h1
      simp only [List.getElem_mapIdx, List.map_map]
      refine List.map_congr_left fun a ha => ?_
      have := ionOf_ionised (H := physics C) (k := k) (dt := dt) (x := ((a.1, a.2.pos), ⟨(r.val : ℤ), gid (C.world.ranks r) i, a.2.ref⟩)) (hT _ _ (hmem r i hi a ha))
      exact Prod.ext rfl this.1.symm
    rw [hp, Multiset.rel_map_right]
    exact Multiset.rel_refl_of_refl_on fun x hx => ionOf_ionised (hT _ _ (hin x hx))

/-! ### The theorems -/

/-- A state of all ranks between sub steps: each particle is in the cell of an element that contains it, and `D` values were drawn from each source line. -/
structure Good (dom : (ℕ → ℝ) → Prop) (inside : (ℕ → ℝ) → Set (Assignment ℝ)) (C : Setup n) (D : ℕ) (s : Sys n) : Prop where
  settled : Settled dom inside C.world.ranks s.group
  lines : ∀ L ∈ s.lines, LineAt dom inside C.world.ranks D L

/-- **C110, one sub step.** -/
theorem substep_correct (hW : WorldOk dom inside C.world) (href : ∀ p, ∀ a ∈ inside p, a.ref.length = 2) (hT : ∀ k p, ∀ a ∈ inside p, 0 < C.fieldT k a.cell a.ref * C.cfg.TtoEV) {D : ℕ} {s : Sys n}
    (h : Good dom inside C D s) (dt d : ℝ) :
    ∃ s' new, substep C dt d s = some s' ∧ Good dom inside C (D + (particlesPerLine C.cfg (d / dt)).toNat) s' ∧ s'.lines.map sourceOf = s.lines.map sourceOf ∧ s'.clock = s.clock + 1 ∧
      s'.simulationTime = s.simulationTime ∧ Created C.cfg (s.lines.map sourceOf) D (particlesPerLine C.cfg (d / dt)).toNat new ∧
      (∑ r, s'.totalAdded r = ∑ r, s.totalAdded r + Multiset.card new) ∧
      SubStep inside (physics C) s.clock d new (particles s.group) (particles s'.group) := by
  obtain ⟨s1, new, e1, a1, l1, k1, q1, c1⟩ := addParticles_correct href (d / dt) h.lines fun r => (h.settled r).1
  obtain ⟨S2, e2, t2, p2⟩ := forwardEuler_correct hW d l1
  obtain ⟨S3, e3, t3, p3⟩ := ionise_correct s.clock d t2 (hT _)
  refine ⟨{ s1 with group := S3, clock := s1.clock + 1 }, all new, ?_, ⟨t3, q1⟩, k1, by rw [← a1.clock], a1.time, c1, ?_, located C.world S2, ⟨?_, located_inside t2⟩, p3⟩
  · rw [substep, e1, Option.bind_some, e2, Option.bind_some, a1.clock, e3, Option.map_some]
  · rw [all, Multiset.card_sum, ← Finset.sum_add_distrib]
    exact Finset.sum_congr rfl fun r _ => by rw [Multiset.coe_card]; exact a1.total r
  · rw [located_particles, p2, a1.particles]
    rfl

/-- Several sub steps. -/
theorem perform_correct (hW : WorldOk dom inside C.world) (href : ∀ p, ∀ a ∈ inside p, a.ref.length = 2) (hT : ∀ k p, ∀ a ∈ inside p, 0 < C.fieldT k a.cell a.ref * C.cfg.TtoEV) (dt : ℝ) (ds : List ℝ) :
    ∀ {D : ℕ} {s : Sys n}, Good dom inside C D s → ∃ s' D', C63.perform (substep C dt) ds s = some s' ∧ Good dom inside C D' s' ∧ s'.lines.map sourceOf = s.lines.map sourceOf ∧
      s'.clock = s.clock + ds.length ∧ Run inside (physics C) (s.lines.map sourceOf) dt ds D s.clock (particles s.group) D' (particles s'.group) := by
  induction ds with
  | nil => intro D s h; exact ⟨s, D, rfl, h, rfl, rfl, .done ..⟩
  | cons d ds ih =>
    intro D s h
    obtain ⟨s1, new, e1, g1, l1, c1, -, cr, -, st⟩ := substep_correct hW href hT h dt d
    obtain ⟨s2, D2, e2, g2, l2, c2, r2⟩ := ih g1
    refine ⟨s2, D2, by rw [C63.perform, e1]; exact e2, g2, l2.trans l1, by rw [c2, c1, List.length_cons]; ring, ?_⟩
    rw [l1, c1] at r2
    exact .step cr st r2

/-- **C110.** `integrate` completes on all ranks and is a run of the simulation without ranks: with the sub steps of C63, the particles of all ranks together are those of this run. Then each is in the cell of an element that
contains it. -/
theorem integrate_correct (hW : WorldOk dom inside C.world) (href : ∀ p, ∀ a ∈ inside p, a.ref.length = 2) (hT : ∀ k p, ∀ a ∈ inside p, 0 < C.fieldT k a.cell a.ref * C.cfg.TtoEV) {D : ℕ} {s : Sys n}
    (h : Good dom inside C D s) {timeEnd dt : ℝ} (hdt : 0 < dt) (ht : s.simulationTime < timeEnd) :
    ∃ s' D', integrate C timeEnd dt s = some s' ∧ s'.simulationTime = timeEnd ∧ Good dom inside C D' s' ∧ s'.clock = s.clock + (C63.steps (timeEnd - s.simulationTime) dt).length ∧ s'.lines.map sourceOf = s.lines.map sourceOf ∧
      Run inside (physics C) (s.lines.map sourceOf) dt (C63.steps (timeEnd - s.simulationTime) dt) D s.clock (particles s.group) D' (particles s'.group) := by
  obtain ⟨s', D', e, g, l, c, r⟩ := perform_correct hW href hT dt (C63.steps (timeEnd - s.simulationTime) dt) h
  refine ⟨{ s' with simulationTime := timeEnd }, D', ?_, rfl, ⟨g.settled, g.lines⟩, c, l, r⟩
  rw [integrate, if_neg (not_lt.2 ht.le), if_neg ht.ne', C63.loop_performs, if_neg (not_le.2 ht), if_pos hdt, e, Option.map_some]

/-- **C110, no time.** `integrate` to the present time changes nothing, to an earlier time it fails. -/
theorem integrate_edges {timeEnd dt : ℝ} (s : Sys n) : (timeEnd < s.simulationTime → integrate C timeEnd dt s = none) ∧ (timeEnd = s.simulationTime → integrate C timeEnd dt s = some s) := by
  refine ⟨fun h => by rw [integrate, if_pos h], fun h => ?_⟩
  rw [integrate, if_neg (by rw [h]; exact lt_irrefl _), if_pos h]

theorem sourceRhs_eq (basis : ℤ → List ℝ → J → ℝ) (S : State n Neutral ℝ) (f : Neutral → ℝ) : sourceRhs C basis S f = rhs basis (located C.world S) f := by
  funext j
  unfold sourceRhs rhs located
  rw [map_all, all, Multiset.sum_sum]
  refine Finset.sum_congr rfl fun r _ => ?_
  rw [Multiset.sum_coe, List.map_flatten, List.sum_flatten]
  congr 1
  rw [List.map_map, map_mapIdx]
  refine List.ext_getElem (by simp) fun i h1 h2 => ?_
  simp only [List.getElem_mapIdx, Function.comp_apply, List.map_map]
  rfl

/-- **C110, the source terms.** The right hand sides of the four projections are sums over the particles of all ranks, each with the basis functions of an element that contains it; then the particles with no weight left are
removed, and only those. -/
theorem project_correct {D : ℕ} {s : Sys n} (h : Good dom inside C D s) (basis : ℤ → List ℝ → J → ℝ) :
    (∃ A, Located inside (particles s.group) A ∧ (projectSources C basis s).1 = [rhs basis A (·.sourceDensity), rhs basis A (·.sourceMomentum.1), rhs basis A (·.sourceMomentum.2), rhs basis A (·.sourceEnergy)]) ∧
    particles (projectSources C basis s).2.group = (particles s.group).filter (fun a => a.1.id ≠ -1) ∧ Good dom inside C D (projectSources C basis s).2 :=
  ⟨⟨located C.world s.group, ⟨located_particles _ _, located_inside h.settled⟩, by simp only [projectSources, sourceRhs_eq]⟩, removeAll_particles _, ⟨removeAll_settled h.settled, h.lines⟩⟩

/-- **C110, one time step of the fluid.** `v_PreIntegrate` on all ranks: the particles do the sub steps of C63, the sources are projected. -/
theorem pre_integrate_correct (hW : WorldOk dom inside C.world) (href : ∀ p, ∀ a ∈ inside p, a.ref.length = 2) (hT : ∀ k p, ∀ a ∈ inside p, 0 < C.fieldT k a.cell a.ref * C.cfg.TtoEV) {D : ℕ} {s : Sys n}
    (h : Good dom inside C D s) (basis : ℤ → List ℝ → J → ℝ) {timestep : ℝ} (ht : 0 < timestep) {m : ℕ} (hm : 0 < m) :
    ∃ s' D' M A, Good dom inside C D' s' ∧ s'.simulationTime = s.simulationTime + timestep ∧ s'.clock = s.clock + m ∧ s'.lines.map sourceOf = s.lines.map sourceOf ∧
      Run inside (physics C) (s.lines.map sourceOf) (timestep / m) (List.replicate m (timestep / m)) D s.clock (particles s.group) D' M ∧ Located inside M A ∧
      preIntegrate C basis s.simulationTime timestep m s = some ([rhs basis A (·.sourceDensity), rhs basis A (·.sourceMomentum.1), rhs basis A (·.sourceMomentum.2), rhs basis A (·.sourceEnergy)], s') ∧
      particles s'.group = M.filter fun a => a.1.id ≠ -1 := by
  have hm' : (0 : ℝ) < m := by exact_mod_cast hm
  have hd : 0 < timestep / m := div_pos ht hm'
  obtain ⟨s1, D1, e, t1, g1, c1, l1, r1⟩ := integrate_correct hW href hT h (timeEnd := s.simulationTime + timestep) hd (by linarith)
  obtain ⟨⟨A, hA, eA⟩, p, g2⟩ := project_correct g1 basis
  rw [add_sub_cancel_left] at r1 c1
  have hst : C63.steps timestep (timestep / m) = List.replicate m (timestep / m) := by
    have := C63.steps_equal m (timestep / m) hm hd
    rwa [mul_div_cancel₀ _ hm'.ne'] at this
  rw [hst] at r1 c1
  refine ⟨(projectSources C basis s1).2, D1, particles s1.group, A, g2, t1, c1.trans (by rw [List.length_replicate]), l1, r1, hA, ?_, p⟩
  rw [preIntegrate, partTimestep, e, Option.map_some, ← eA]

end main

end Verif.Props.C110
