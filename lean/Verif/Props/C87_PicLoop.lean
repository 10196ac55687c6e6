import Verif.Spec.PicLoop
import Verif.Props.C48_Hdf5
import Verif.Props.C51_Boris
import Verif.Props.C66_Verlet

namespace Verif.Props.C87
open Verif.Model.PicLoop Verif.Model.Hdf5 Verif.Spec.PicLoop

variable {P F V : Type}

theorem due_eq (n : ℤ) (k : ℕ) : due n k = decide (0 < n ∧ n ∣ (k : ℤ)) := by
  unfold due
  rw [← Bool.decide_and]
  congr 1
  simp [Int.dvd_iff_tmod_eq_zero]

/-- The period of the evaluations on lines; zero if the session does not define it. -/
def linePeriod (c : Config) : ℤ := c.lineStep.getD 0

theorem line_due (c : Config) (garbage : ℤ) (k : ℕ) :
    (c.lineFlag garbage && decide ((k : ℤ).tmod (c.lineStep.getD garbage) = 0)) = decide (0 < linePeriod c ∧ linePeriod c ∣ (k : ℤ)) := by
  unfold Config.lineFlag linePeriod
  cases c.lineStep with
  | none => simp
  | some n => simp [Int.dvd_iff_tmod_eq_zero, Bool.decide_and]

/-- The last step before `n` at which the energies are computed. -/
def lastEnergy (c : Config) (n : ℕ) : Option ℕ := (dueSteps c.writeEnergy n).getLast?

/-- The output of step `k`, without the callbacks. -/
def diagOut (solver : Solver) (X : Ops P F V) (c : Config) (p0 : P) (k : ℕ) : List (Out P F V) :=
  (if 0 < c.writeParticle ∧ c.writeParticle ∣ (k : ℤ) then [.particles (at_ X p0 k).1] else []) ++
  (if 0 < c.writeField ∧ c.writeField ∣ (k : ℤ) then [.forcing k (at_ X p0 k).2, .potential k (at_ X p0 k).2] else []) ++
  (if 0 < linePeriod c ∧ linePeriod c ∣ (k : ℤ) then
    match solver with
    | .twoStream => [.line k (at_ X p0 k).2, .lineDeriv k (at_ X p0 k).2]
    | .bernstein => [.lineDeriv k (at_ X p0 k).2, .line k (at_ X p0 k).2]
   else []) ++
  (if (0 < c.print ∧ c.print ∣ (k : ℤ)) ∧ c.rank = 0 then
    [.printed k (if 0 < c.writeEnergy then some ((lastEnergy c (k + 1)).map fun j => X.fieldEnergy (at_ X p0 j).2,
      (lastEnergy c (k + 1)).map fun j => X.kineticEnergy (at_ X p0 j).1,
      (lastEnergy c (k + 1)).map fun j => X.potentialEnergy (at_ X p0 j).1 (at_ X p0 j).2) else none)]
   else [])

/-- The calls of the callbacks from index `i` on, with what each of them sees. -/
def callOut (k : ℕ) : ℕ → List (ℕ → P → F → P × F) → P × F → List (Out P F V)
  | _, [], _ => []
  | i, g :: gs, s => .callback i k s.1 s.2 :: callOut k (i + 1) gs (g k s.1 s.2)

theorem callbacks_eq (k : ℕ) (gs : List (ℕ → P → F → P × F)) (i : ℕ) (s : St P F V) :
    callbacks k i gs s = { s with
      p := (gs.foldl (fun s g => g k s.1 s.2) (s.p, s.f)).1
      f := (gs.foldl (fun s g => g k s.1 s.2) (s.p, s.f)).2
      out := s.out ++ callOut k i gs (s.p, s.f) } := by
  induction gs generalizing i s with
  | nil => simp [callbacks, callOut]
  | cons g gs ih =>
    rw [callbacks, ih]
    simp [St.emit, callOut]

/-- The groups of the file of the energies. -/
def energyGroups (X : Ops P F V) (c : Config) (p0 : P) (n : ℕ) : List (ℤ × List (String × V)) :=
  if c.hdf5 then (dueSteps c.writeEnergy n).map fun (k : ℕ) => ((k : ℤ),
    [("field_energy", X.fieldEnergy (at_ X p0 k).2), ("kinetic_energy", X.kineticEnergy (at_ X p0 k).1),
     ("potential_energy", X.potentialEnergy (at_ X p0 k).1 (at_ X p0 k).2)])
  else []

theorem dueSteps_succ (period : ℤ) (n : ℕ) : dueSteps period (n + 1) =
    dueSteps period n ++ (if 0 < period ∧ period ∣ (n : ℤ) then [n] else []) := by
  unfold dueSteps
  rw [List.range_succ, List.filter_append]
  congr 1
  by_cases h : 0 < period ∧ period ∣ (n : ℤ) <;> simp [h]

theorem mem_dueSteps (period : ℤ) (n k : ℕ) : k ∈ dueSteps period n ↔ k < n ∧ 0 < period ∧ period ∣ (k : ℤ) := by
  simp [dueSteps]

/-- What holds before step `n`. -/
structure Inv (solver : Solver) (X : Ops P F V) (c : Config) (p0 : P) (f0 : F) (globals : List (String × V)) (n : ℕ) (s : St P F V) : Prop where
  p : s.p = begin_ X p0 n
  f : s.f = match n with | 0 => f0 | k + 1 => (called X k (at_ X p0 k)).2
  fe : s.fe = (lastEnergy c n).map fun j => X.fieldEnergy (at_ X p0 j).2
  ke : s.ke = (lastEnergy c n).map fun j => X.kineticEnergy (at_ X p0 j).1
  pe : s.pe = (lastEnergy c n).map fun j => X.potentialEnergy (at_ X p0 j).1 (at_ X p0 j).2
  groups : s.writer.groups = energyGroups X c p0 n
  failed : s.writer.failed = false
  global : s.writer.global = globals
  out : s.out = (List.range n).flatMap fun k => diagOut solver X c p0 k ++ callOut k 0 X.callbacks (at_ X p0 k)

theorem body_eq (solver : Solver) (X : Ops P F V) (c : Config) (garbage : ℤ) (p0 : P) (f0 : F) (globals : List (String × V)) (n : ℕ) (s : St P F V)
    (h : Inv solver X c p0 f0 globals n s) : Inv solver X c p0 f0 globals (n + 1) (body solver X c garbage s n) := by
  have ha : advance X s = { s with p := (at_ X p0 n).1, f := (at_ X p0 n).2 } := by
    simp only [advance, at_, moved, h.p]
  have hw : writeData c n (advance X s) = { s with
      p := (at_ X p0 n).1, f := (at_ X p0 n).2
      out := s.out ++ (if 0 < c.writeParticle ∧ c.writeParticle ∣ (n : ℤ) then [.particles (at_ X p0 n).1] else []) ++
        (if 0 < c.writeField ∧ c.writeField ∣ (n : ℤ) then [.forcing n (at_ X p0 n).2, .potential n (at_ X p0 n).2] else []) } := by
    rw [ha]
    simp only [writeData, due_eq, St.emit, decide_eq_true_eq]
    split_ifs <;> simp
  have hl : lastEnergy c (n + 1) = if 0 < c.writeEnergy ∧ c.writeEnergy ∣ (n : ℤ) then some n else lastEnergy c n := by
    unfold lastEnergy
    rw [dueSteps_succ]
    split_ifs <;> simp
  set s1 := writeData c n (advance X s) with hs1
  have he : ∃ w : Writer V, energies X c n s1 = { s1 with
      fe := (lastEnergy c (n + 1)).map fun j => X.fieldEnergy (at_ X p0 j).2
      ke := (lastEnergy c (n + 1)).map fun j => X.kineticEnergy (at_ X p0 j).1
      pe := (lastEnergy c (n + 1)).map fun j => X.potentialEnergy (at_ X p0 j).1 (at_ X p0 j).2
      writer := w } ∧ w.groups = energyGroups X c p0 (n + 1) ∧ w.failed = false ∧ w.global = globals := by
    rw [hl]
    simp only [energies, due_eq, decide_eq_true_eq]
    by_cases hd : 0 < c.writeEnergy ∧ c.writeEnergy ∣ (n : ℤ)
    · simp only [if_pos hd]
      by_cases hh : c.hdf5
      · simp only [if_pos hh]
        refine ⟨_, by rw [hw]; rfl, ?_⟩
        have hb := Verif.Props.C48.run_block s1.writer ((n : ℤ),
          [("field_energy", X.fieldEnergy (at_ X p0 n).2), ("kinetic_energy", X.kineticEnergy (at_ X p0 n).1),
           ("potential_energy", X.potentialEnergy (at_ X p0 n).1 (at_ X p0 n).2)]) (by
            intro g hg
            rw [hw] at hg
            simp only at hg
            rw [h.groups, energyGroups, if_pos hh] at hg
            obtain ⟨k, hk, rfl⟩ := List.mem_map.1 hg
            rw [mem_dueSteps] at hk
            simp
            omega) (by simp)
        have hb' : ∀ w', w' = s1.writer.run (fun _ => false) (Verif.Props.C48.blockOps ((n : ℤ),
          [("field_energy", X.fieldEnergy (at_ X p0 n).2), ("kinetic_energy", X.kineticEnergy (at_ X p0 n).1),
           ("potential_energy", X.potentialEnergy (at_ X p0 n).1 (at_ X p0 n).2)])) →
            w'.groups = energyGroups X c p0 (n + 1) ∧ w'.failed = false ∧ w'.global = globals := by
          rintro w' rfl
          rw [hb]
          refine ⟨?_, ?_, ?_⟩
          · simp only [energyGroups, if_pos hh, dueSteps_succ, if_pos hd]
            rw [hw]
            simp only
            rw [h.groups, energyGroups, if_pos hh]
            simp
          · simp only [hw]; exact h.failed
          · simp only [hw]; exact h.global
        apply hb'
        rw [hw]
        rfl
      · simp only [if_neg hh]
        refine ⟨s1.writer, by rw [hw]; rfl, ?_, ?_, ?_⟩
        · rw [hw]; simp only; rw [h.groups]; simp [energyGroups, hh]
        · rw [hw]; exact h.failed
        · rw [hw]; exact h.global
    · simp only [if_neg hd]
      refine ⟨s1.writer, ?_, ?_, ?_, ?_⟩
      · rw [hw, ← h.fe, ← h.ke, ← h.pe]
      · rw [hw]; simp only; rw [h.groups]; simp [energyGroups, dueSteps_succ, hd]
      · rw [hw]; exact h.failed
      · rw [hw]; exact h.global
  obtain ⟨w, he, hg, hf, hgl⟩ := he
  have hbody : body solver X c garbage s n = { s with
      p := (called X n (at_ X p0 n)).1, f := (called X n (at_ X p0 n)).2
      fe := (lastEnergy c (n + 1)).map fun j => X.fieldEnergy (at_ X p0 j).2
      ke := (lastEnergy c (n + 1)).map fun j => X.kineticEnergy (at_ X p0 j).1
      pe := (lastEnergy c (n + 1)).map fun j => X.potentialEnergy (at_ X p0 j).1 (at_ X p0 j).2
      writer := w
      out := s.out ++ (diagOut solver X c p0 n ++ callOut n 0 X.callbacks (at_ X p0 n)) } := by
    unfold body
    rw [← hs1, he, hw]
    simp only [lines, line_due, prints, due_eq, Bool.and_eq_true, decide_eq_true_eq, beq_iff_eq]
    rw [callbacks_eq]
    unfold diagOut called
    by_cases h1 : 0 < linePeriod c ∧ linePeriod c ∣ (n : ℤ) <;> by_cases h2 : (0 < c.print ∧ c.print ∣ (n : ℤ)) ∧ c.rank = 0 <;> cases solver <;>
      simp [h1, h2, St.emit]
  rw [hbody]
  refine ⟨rfl, rfl, rfl, rfl, rfl, hg, hf, hgl, ?_⟩
  simp only [h.out, List.range_succ, List.flatMap_append, List.flatMap_cons, List.flatMap_nil, List.append_nil]

theorem globals_written (globals : List (String × V)) (hk : (globals.map Prod.fst).Nodup) (w : Writer V) (hw : ∀ g ∈ globals, ∀ p ∈ w.global, p.1 ≠ g.1) :
    let w' := w.run (fun _ => false) (globals.map fun g => .writeGlobal g.1 g.2)
    w'.global = w.global ++ globals ∧ w'.groups = w.groups ∧ w'.failed = w.failed := by
  induction globals generalizing w with
  | nil => simp [Writer.run]
  | cons g l ih =>
    rw [List.map_cons, List.nodup_cons] at hk
    have hany : (w.global.any fun p => p.1 = g.1) = false := by
      rw [List.any_eq_false]
      intro p hp
      simpa using hw g (by simp) p hp
    have e : w.apply (fun _ => false) (.writeGlobal g.1 g.2) = { w with global := w.global ++ [g], nwrites := w.nwrites + 1 } := by
      simp [Writer.apply, Writer.writeGlobal, hany, Writer.check, h5chk]
    have := ih hk.2 { w with global := w.global ++ [g], nwrites := w.nwrites + 1 } (by
      intro x hx p hp
      simp only [List.mem_append, List.mem_singleton] at hp
      rcases hp with hp | rfl
      · exact hw x (List.mem_cons_of_mem _ hx) p hp
      · intro e
        exact hk.1 (List.mem_map.2 ⟨x, hx, e.symm⟩))
    simp only [Writer.run, List.map_cons, List.foldl_cons] at this ⊢
    rw [e]
    simpa using this

/-- What holds at the end of a run. -/
theorem run_inv (solver : Solver) (X : Ops P F V) (c : Config) (garbage : ℤ) (p0 : P) (f0 : F) (globals : List (String × V))
    (hk : (globals.map Prod.fst).Nodup) :
    Inv solver X c p0 f0 globals c.numTimeSteps.toNat (run solver X c garbage (St.init p0 f0 globals)) := by
  unfold run
  generalize c.numTimeSteps.toNat = n
  induction n with
  | zero =>
    obtain ⟨h1, h2, h3⟩ := globals_written globals hk (Writer.new V) (by simp [Writer.new])
    refine ⟨rfl, rfl, rfl, rfl, rfl, ?_, ?_, ?_, rfl⟩
    · simp only [List.range_zero, List.foldl_nil, St.init, h2]
      simp [Writer.new, energyGroups, dueSteps]
    · simp only [List.range_zero, List.foldl_nil, St.init, h3]
      rfl
    · simp only [List.range_zero, List.foldl_nil, St.init, h1]
      rfl
  | succ n ih =>
    rw [List.range_succ, List.foldl_append]
    exact body_eq solver X c garbage p0 f0 globals n _ ih

/-- **C87, the trajectory.** For all configurations, values of the uninitialised member and callbacks: after `run` the particles are those after
`max(0, num_time_steps)` time steps, each of them first half of the push, field solve, second half, callbacks in the order of registration; no diagnostic
changes them. -/
theorem trajectory (solver : Solver) (X : Ops P F V) (c : Config) (garbage : ℤ) (p0 : P) (f0 : F) (globals : List (String × V))
    (hk : (globals.map Prod.fst).Nodup) :
    (run solver X c garbage (St.init p0 f0 globals)).p = begin_ X p0 c.numTimeSteps.toNat :=
  (run_inv solver X c garbage p0 f0 globals hk).p

/-- **C87, the file of the energies.** On rank 0 with a positive period, the file has one group for each step that is a multiple of the period, in order and named
by the step, with the three energies of the particles and the potential at the end of that step; on other ranks, or without a positive period, it has none. All
HDF5 calls succeed, and the values of the constructor are kept. -/
theorem energy_file (solver : Solver) (X : Ops P F V) (c : Config) (garbage : ℤ) (p0 : P) (f0 : F) (globals : List (String × V))
    (hk : (globals.map Prod.fst).Nodup) :
    let w := (run solver X c garbage (St.init p0 f0 globals)).writer
    w.groups = (if c.rank = 0 then (dueSteps c.writeEnergy c.numTimeSteps.toNat).map fun (k : ℕ) => ((k : ℤ),
      [("field_energy", X.fieldEnergy (at_ X p0 k).2), ("kinetic_energy", X.kineticEnergy (at_ X p0 k).1),
       ("potential_energy", X.potentialEnergy (at_ X p0 k).1 (at_ X p0 k).2)]) else []) ∧
    w.failed = false ∧ w.global = globals := by
  have h := run_inv solver X c garbage p0 f0 globals hk
  refine ⟨?_, h.failed, h.global⟩
  rw [h.groups, energyGroups]
  by_cases hr : c.rank = 0
  · rw [if_pos hr]
    by_cases he : c.writeEnergy > 0
    · rw [if_pos (by simp [Config.hdf5, hr, he])]
    · have : dueSteps c.writeEnergy c.numTimeSteps.toNat = [] := by
        unfold dueSteps
        rw [List.filter_eq_nil_iff]
        intro k _
        simp only [decide_eq_true_eq, not_and]
        intro h; omega
      rw [this]
      split_ifs <;> rfl
  · rw [if_neg hr, if_neg (by simp [Config.hdf5, hr])]

/-- **C87, when there is a file of energies.** The process of rank zero opens it, if energies or particles are to be written at all. -/
theorem energy_file_opened (c : Config) : c.hdf5 = true ↔ c.rank = 0 ∧ (0 < c.writeEnergy ∨ 0 < c.writeParticle) := by
  simp [Config.hdf5]

/-- Selects outputs. -/
theorem select (solver : Solver) (X : Ops P F V) (c : Config) (garbage : ℤ) (p0 : P) (f0 : F) (globals : List (String × V))
    (hk : (globals.map Prod.fst).Nodup) {α : Type} (sel : Out P F V → Option α) (q : ℕ → Prop) [DecidablePred q] (g : ℕ → List α)
    (h : ∀ k, (diagOut solver X c p0 k ++ callOut k 0 X.callbacks (at_ X p0 k)).filterMap sel = if q k then g k else []) :
    (run solver X c garbage (St.init p0 f0 globals)).out.filterMap sel = ((List.range c.numTimeSteps.toNat).filter fun k => decide (q k)).flatMap g := by
  rw [(run_inv solver X c garbage p0 f0 globals hk).out, List.filterMap_flatMap]
  generalize List.range c.numTimeSteps.toNat = l
  induction l with
  | nil => rfl
  | cons k l ih =>
    rw [List.flatMap_cons, ih, h k]
    by_cases hq : q k <;> simp [hq]

theorem callOut_filterMap (k : ℕ) {α : Type} (sel : Out P F V → Option α) (hs : ∀ i k p f, sel (.callback i k p f) = none)
    (gs : List (ℕ → P → F → P × F)) (i : ℕ) (s : P × F) : (callOut k i gs s : List (Out P F V)).filterMap sel = [] := by
  induction gs generalizing i s with
  | nil => rfl
  | cons g gs ih => rw [callOut, List.filterMap_cons_none (hs _ _ _ _), ih]

def selParticles : Out P F V → Option P
  | .particles p => some p
  | _ => none

def selFields : Out P F V → Option (Bool × ℕ × F)
  | .forcing k f => some (true, k, f)
  | .potential k f => some (false, k, f)
  | _ => none

def selLines (deriv : Bool) : Out P F V → Option (ℕ × F)
  | .line k f => if deriv then none else some (k, f)
  | .lineDeriv k f => if deriv then some (k, f) else none
  | _ => none

def selPrinted : Out P F V → Option (ℕ × Option (Option V × Option V × Option V))
  | .printed k e => some (k, e)
  | _ => none

def selCallback : Out P F V → Option (ℕ × ℕ × P × F)
  | .callback i k p f => some (i, k, p, f)
  | _ => none

/-- **C87, writing of particles.** Exactly at the multiples of a positive period, in order, the particles at the end of the step. -/
theorem particle_writes (solver : Solver) (X : Ops P F V) (c : Config) (garbage : ℤ) (p0 : P) (f0 : F) (globals : List (String × V))
    (hk : (globals.map Prod.fst).Nodup) :
    (run solver X c garbage (St.init p0 f0 globals)).out.filterMap selParticles =
      (dueSteps c.writeParticle c.numTimeSteps.toNat).map fun k => (at_ X p0 k).1 := by
  rw [select solver X c garbage p0 f0 globals hk selParticles (fun k => 0 < c.writeParticle ∧ c.writeParticle ∣ (k : ℤ)) (fun k => [(at_ X p0 k).1])]
  · rw [dueSteps, ← List.map_eq_flatMap]
  · intro k
    rw [List.filterMap_append, callOut_filterMap k selParticles (fun _ _ _ _ => rfl), List.append_nil]
    unfold diagOut
    cases solver <;> split_ifs <;> simp [selParticles]

/-- **C87, writing of fields.** Exactly at the multiples of a positive period, forcing and potential of the step. -/
theorem field_writes (solver : Solver) (X : Ops P F V) (c : Config) (garbage : ℤ) (p0 : P) (f0 : F) (globals : List (String × V))
    (hk : (globals.map Prod.fst).Nodup) :
    (run solver X c garbage (St.init p0 f0 globals)).out.filterMap selFields =
      (dueSteps c.writeField c.numTimeSteps.toNat).flatMap fun k => [(true, k, (at_ X p0 k).2), (false, k, (at_ X p0 k).2)] := by
  rw [select solver X c garbage p0 f0 globals hk selFields (fun k => 0 < c.writeField ∧ c.writeField ∣ (k : ℤ))
    (fun k => [(true, k, (at_ X p0 k).2), (false, k, (at_ X p0 k).2)])]
  · rfl
  · intro k
    rw [List.filterMap_append, callOut_filterMap k selFields (fun _ _ _ _ => rfl), List.append_nil]
    unfold diagOut
    cases solver <;> split_ifs <;> simp [selFields, List.filterMap_cons]

/-- **C87, evaluations on lines.** Whatever value the uninitialised member has: values and derivatives are written exactly at the multiples of the period, if the
session defines a positive one. -/
theorem line_writes (solver : Solver) (X : Ops P F V) (c : Config) (garbage : ℤ) (p0 : P) (f0 : F) (globals : List (String × V))
    (hk : (globals.map Prod.fst).Nodup) (deriv : Bool) :
    (run solver X c garbage (St.init p0 f0 globals)).out.filterMap (selLines deriv) =
      match c.lineStep with
      | none => []
      | some period => (dueSteps period c.numTimeSteps.toNat).map fun k => (k, (at_ X p0 k).2) := by
  rw [select solver X c garbage p0 f0 globals hk (selLines deriv) (fun k => 0 < linePeriod c ∧ linePeriod c ∣ (k : ℤ)) (fun k => [(k, (at_ X p0 k).2)])]
  · rw [← List.map_eq_flatMap]
    unfold linePeriod
    cases c.lineStep with
    | none => simp
    | some n => rfl
  · intro k
    rw [List.filterMap_append, callOut_filterMap k (selLines deriv) (fun _ _ _ _ => rfl), List.append_nil]
    unfold diagOut
    cases solver <;> cases deriv <;> split_ifs <;> simp [selLines, List.filterMap_cons]

/-- The energies are computed last at the largest multiple of the period. -/
theorem lastEnergy_eq (c : Config) (k : ℕ) (h : 0 < c.writeEnergy) :
    lastEnergy c (k + 1) = some (k / c.writeEnergy.toNat * c.writeEnergy.toNat) := by
  unfold lastEnergy
  obtain ⟨w, hw⟩ := Int.eq_ofNat_of_zero_le h.le
  rw [hw] at h ⊢
  have hw0 : 0 < w := by exact_mod_cast h
  simp only [Int.toNat_natCast]
  induction k with
  | zero => simp [dueSteps_succ, hw0]
  | succ k ih =>
    rw [dueSteps_succ, List.getLast?_append, ih]
    by_cases hd : w ∣ (k + 1)
    · have : ((w : ℤ) ∣ ((k + 1 : ℕ) : ℤ)) := by exact_mod_cast hd
      rw [if_pos ⟨h, this⟩, Nat.div_mul_cancel hd]
      rfl
    · have : ¬ ((w : ℤ) ∣ ((k + 1 : ℕ) : ℤ)) := by exact_mod_cast hd
      rw [if_neg (fun h => this h.2), Nat.succ_div_of_not_dvd hd]
      rfl

/-- **C87, the screen.** Rank 0 prints exactly at the multiples of a positive period. With a positive period of the energies, the printed ones are those
computed last, at the largest multiple of their period (not the current ones, if the step is not a multiple). -/
theorem printed_lines (solver : Solver) (X : Ops P F V) (c : Config) (garbage : ℤ) (p0 : P) (f0 : F) (globals : List (String × V))
    (hk : (globals.map Prod.fst).Nodup) :
    (run solver X c garbage (St.init p0 f0 globals)).out.filterMap selPrinted =
      if c.rank = 0 then (dueSteps c.print c.numTimeSteps.toNat).map fun k => (k,
        if 0 < c.writeEnergy then
          let s := at_ X p0 (k / c.writeEnergy.toNat * c.writeEnergy.toNat)
          some (some (X.fieldEnergy s.2), some (X.kineticEnergy s.1), some (X.potentialEnergy s.1 s.2))
        else none)
      else [] := by
  rw [select solver X c garbage p0 f0 globals hk selPrinted (fun k => (0 < c.print ∧ c.print ∣ (k : ℤ)) ∧ c.rank = 0) (fun k => [(k,
        if 0 < c.writeEnergy then
          let s := at_ X p0 (k / c.writeEnergy.toNat * c.writeEnergy.toNat)
          some (some (X.fieldEnergy s.2), some (X.kineticEnergy s.1), some (X.potentialEnergy s.1 s.2))
        else none)])]
  · rw [← List.map_eq_flatMap]
    by_cases hr : c.rank = 0
    · simp only [hr, and_true, if_true]
      rfl
    · simp [hr]
  · intro k
    rw [List.filterMap_append, callOut_filterMap k selPrinted (fun _ _ _ _ => rfl), List.append_nil]
    by_cases he : 0 < c.writeEnergy
    · unfold diagOut
      rw [lastEnergy_eq c k he]
      cases solver <;> split_ifs <;> simp_all [selPrinted, List.filterMap_cons]
    · unfold diagOut
      cases solver <;> split_ifs <;> simp_all [selPrinted, List.filterMap_cons]

theorem callOut_calls (k : ℕ) (gs : List (ℕ → P → F → P × F)) (i : ℕ) (s : P × F) :
    (callOut k i gs s : List (Out P F V)).filterMap selCallback =
      (List.range gs.length).map fun j => (i + j, k, ((gs.take j).foldl (fun s g => g k s.1 s.2) s).1, ((gs.take j).foldl (fun s g => g k s.1 s.2) s).2) := by
  induction gs generalizing i s with
  | nil => rfl
  | cons g gs ih =>
    rw [callOut, List.filterMap_cons]
    simp only [selCallback]
    rw [ih, List.length_cons, List.range_succ_eq_map, List.map_cons, List.map_map]
    simp [Function.comp_def, Nat.add_assoc, Nat.add_comm 1]

/-- **C87, the callbacks.** In each step, after everything else, each callback is called once, in the order of registration, with the number of the step and the state that
the preceding ones have left. -/
theorem callback_calls (solver : Solver) (X : Ops P F V) (c : Config) (garbage : ℤ) (p0 : P) (f0 : F) (globals : List (String × V))
    (hk : (globals.map Prod.fst).Nodup) :
    (run solver X c garbage (St.init p0 f0 globals)).out.filterMap selCallback =
      (List.range c.numTimeSteps.toNat).flatMap fun k => (List.range X.callbacks.length).map fun j =>
        let s := (X.callbacks.take j).foldl (fun s g => g k s.1 s.2) (at_ X p0 k)
        (j, k, s.1, s.2) := by
  rw [select solver X c garbage p0 f0 globals hk selCallback (fun _ => True) (fun k => (List.range X.callbacks.length).map fun j =>
        let s := (X.callbacks.take j).foldl (fun s g => g k s.1 s.2) (at_ X p0 k)
        (j, k, s.1, s.2))]
  · simp
  · intro k
    rw [List.filterMap_append, callOut_calls]
    have : (diagOut solver X c p0 k).filterMap selCallback = [] := by
      unfold diagOut
      cases solver <;> split_ifs <;> simp [selCallback, List.filterMap_cons]
    rw [this]
    simp

/-! ### The integrators -/

open Verif.Model.Electrostatic

variable {ι U : Type}

/-- **C87, consistency, velocity Verlet only** (it fails for Boris, `diagnostics_consistent_fails`). What the diagnostics see is consistent: in each step the potential is that of the particles at the end of the step, and their
property `E` is its gradient. -/
theorem diagnostics_consistent_partial (prm : Params) (potential : (ι → (ℝ × ℝ) × ℝ) → U) (gradient : U → ℝ × ℝ → ℝ × ℝ)
    (fe : U → V) (ke : (ι → Particle) → V) (pe : (ι → Particle) → U → V) (p0 : ι → Particle) (k : ℕ) :
    let s := at_ (verletOps prm potential gradient fe ke pe) p0 k
    s.2 = potential (seen s.1) ∧ ∀ i, (s.1 i).e = gradient s.2 (s.1 i).pos := by
  refine ⟨?_, fun i => rfl⟩
  rfl

/-- With velocity Verlet the particles follow the steps of property C66. -/
theorem verlet_trajectory (prm : Params) (potential : (ι → (ℝ × ℝ) × ℝ) → U) (gradient : U → ℝ × ℝ → ℝ × ℝ)
    (fe : U → V) (ke : (ι → Particle) → V) (pe : (ι → Particle) → U → V) (p0 : ι → Particle) (n : ℕ) :
    begin_ (verletOps prm potential gradient fe ke pe) p0 n =
      steps prm (fun x i => gradient (potential x) (x i).1) n p0 := by
  induction n with
  | zero => rfl
  | succ n ih =>
    rw [Verif.Props.C66.steps_succ', ← ih]
    rfl

/-- **C87, Boris.** The field of a step is that of the particles at its begin, before they are moved: the diagnostics see the particles of the end with the
potential of the begin. -/
theorem boris_diagnostics_lag (prm : Params) (b : ℝ × ℝ × ℝ) (potential : (ι → (ℝ × ℝ) × ℝ) → U) (gradient : U → ℝ × ℝ → ℝ × ℝ)
    (fe : U → V) (ke : (ι → Particle) → V) (pe : (ι → Particle) → U → V) (p0 : ι → Particle) (k : ℕ) :
    let X := borisOps prm b potential gradient fe ke pe
    (at_ X p0 k).2 = potential (seen (begin_ X p0 k)) ∧ begin_ X p0 (k + 1) = (at_ X p0 k).1 :=
  ⟨rfl, rfl⟩

/-- **C87, Boris, one step.** The velocity solves the implicit equation of the Boris method with the gradient of the potential of the particles at the begin of the step, the position
moves with the new velocity into the periodic box, charge and mass are kept. -/
theorem boris_step (prm : Params) (b : ℝ × ℝ × ℝ) (potential : (ι → (ℝ × ℝ) × ℝ) → U) (gradient : U → ℝ × ℝ → ℝ × ℝ)
    (fe : U → V) (ke : (ι → Particle) → V) (pe : (ι → Particle) → U → V) (p0 : ι → Particle) (k : ℕ) (i : ι)
    (hm : (begin_ (borisOps prm b potential gradient fe ke pe) p0 k i).m ≠ 0) :
    let X := borisOps prm b potential gradient fe ke pe
    let p := begin_ X p0 k i
    let p' := begin_ X p0 (k + 1) i
    let g := gradient (potential (seen (begin_ X p0 k))) p.pos
    let s := prm.dt * (p.q / p.m)
    p'.v0 - p.v0 = s * (-(prm.eCoefficient * g.1) + ((p'.v1 + p.v1) / 2 * b.2.2 - (p'.v2 + p.v2) / 2 * b.2.1)) ∧
    p'.v1 - p.v1 = s * (-(prm.eCoefficient * g.2) + ((p'.v2 + p.v2) / 2 * b.1 - (p'.v0 + p.v0) / 2 * b.2.2)) ∧
    p'.v2 - p.v2 = s * ((p'.v0 + p.v0) / 2 * b.2.1 - (p'.v1 + p.v1) / 2 * b.1) ∧
    p'.pos = periodic prm (p.pos.1 + prm.dt * p'.v0, p.pos.2 + prm.dt * p'.v1) ∧ p'.q = p.q ∧ p'.m = p.m := by
  intro X p p' g s
  have hp' : p' = boris2P prm b { p with e := g } := rfl
  obtain ⟨r, hr, h1, h2, h3, h4, h5, h6, h7⟩ := Verif.Props.C51.boris_solves_implicit_equation
    (⟨prm.dt, b.1, b.2.1, b.2.2, prm.eCoefficient⟩ : Verif.Model.Boris.Params ℝ)
    ⟨p.pos.1, p.pos.2, ⟨p.v0, p.v1, p.v2⟩, p.m, p.q, g.1, g.2⟩ hm
  have hb : boris2P prm b { p with e := g } = { p with e := g, pos := periodic prm (r.p0, r.p1), v0 := r.v.x, v1 := r.v.y, v2 := r.v.z } := by
    unfold boris2P
    simp only [hr]
  rw [hp', hb]
  simp only [Verif.Spec.V3.sub, Verif.Spec.V3.add, Verif.Spec.V3.smul, Verif.Spec.V3.cross, Verif.Props.C51.eField, Verif.Props.C51.bField,
    Verif.Spec.V3.mk.injEq] at h1 h2 h3
  obtain ⟨k1, k2, k3⟩ := h1
  refine ⟨?_, ?_, ?_, ?_, rfl, rfl⟩
  · rw [k1]; simp only [s]; ring
  · rw [k2]; simp only [s]; ring
  · rw [k3]; simp only [s]; ring
  · rw [h2, h3]

/-- **C87, Boris, energy.** With the coefficient of the electric field set to zero, all recorded kinetic energies are that of the initial particles. -/
theorem boris_kinetic_energy [Fintype ι] (prm : Params) (b : ℝ × ℝ × ℝ) (potential : (ι → (ℝ × ℝ) × ℝ) → U) (gradient : U → ℝ × ℝ → ℝ × ℝ)
    (fe : U → ℝ) (mass : ℝ) (pe : (ι → Particle) → U → ℝ) (p0 : ι → Particle) (hm : ∀ i, (p0 i).m ≠ 0) (he : prm.eCoefficient = 0) (k : ℕ) :
    let X := borisOps prm b potential gradient fe (kineticEnergy mass) pe
    X.kineticEnergy (at_ X p0 k).1 = kineticEnergy mass p0 := by
  intro X
  have key : ∀ k, (∀ i, (begin_ X p0 k i).m ≠ 0) ∧ kineticEnergy mass (begin_ X p0 k) = kineticEnergy mass p0 := by
    intro k
    induction k with
    | zero => exact ⟨hm, rfl⟩
    | succ k ih =>
      refine ⟨fun i => ?_, ?_⟩
      · have := (boris_step prm b potential gradient fe (kineticEnergy mass) pe p0 k i (ih.1 i)).2.2.2.2.2
        rw [show (begin_ X p0 (k + 1) i).m = (begin_ X p0 k i).m from this]
        exact ih.1 i
      · rw [← ih.2]
        unfold kineticEnergy
        refine Finset.sum_congr rfl fun i _ => ?_
        obtain ⟨h1, h2, h3, -⟩ := boris_step prm b potential gradient fe (kineticEnergy mass) pe p0 k i (ih.1 i)
        rw [he] at h1 h2
        congr 1
        change (begin_ X p0 (k + 1) i).v0 - (begin_ X p0 k i).v0 = _ at h1
        change (begin_ X p0 (k + 1) i).v1 - (begin_ X p0 k i).v1 = _ at h2
        change (begin_ X p0 (k + 1) i).v2 - (begin_ X p0 k i).v2 = _ at h3
        set p := begin_ X p0 k i with hp
        set p' := begin_ X p0 (k + 1) i with hp'
        simp only [zero_mul, neg_zero, zero_add] at h1 h2
        linear_combination (p'.v0 + p.v0) * h1 + (p'.v1 + p.v1) * h2 + (p'.v2 + p.v2) * h3
  exact (key (k + 1)).2

/-- **C87 fails for the Boris integrator** in the sense that the potential of the diagnostics is in general not that of the particles of the diagnostics: one particle with velocity one whose
potential is its coordinate. The recorded potential energy then is not the one of the recorded particles. -/
theorem diagnostics_consistent_fails :
    ∃ (prm : Params) (b : ℝ × ℝ × ℝ) (potential : (Unit → (ℝ × ℝ) × ℝ) → ℝ) (p0 : Unit → Particle), (p0 ()).m ≠ 0 ∧
      ∀ (fe : ℝ → ℝ) (ke : (Unit → Particle) → ℝ),
        let X := borisOps prm b potential (fun _ _ => (0, 0)) fe ke (fun ps u => (ps ()).q * u)
        (at_ X p0 0).2 ≠ potential (seen (at_ X p0 0).1) ∧
        X.potentialEnergy (at_ X p0 0).1 (at_ X p0 0).2 ≠ X.potentialEnergy (at_ X p0 0).1 (potential (seen (at_ X p0 0).1)) := by
  refine ⟨⟨1, 1, (0, 0), (4, 4)⟩, (0, 0, 0), fun x => (x ()).1.1, fun _ => ⟨(1, 1), 1, 0, 0, 1, 1, (0, 0)⟩, one_ne_zero, fun fe ke => ?_⟩
  intro X
  have hx : (at_ X (fun _ => ⟨(1, 1), 1, 0, 0, 1, 1, (0, 0)⟩) 0).2 = 1 := rfl
  have hy : (seen (at_ X (fun _ => ⟨(1, 1), 1, 0, 0, 1, 1, (0, 0)⟩) 0).1 ()).1.1 = 2 := by
    have h := boris_step (V := ℝ) ⟨1, 1, (0, 0), (4, 4)⟩ (0, 0, 0) (fun x : Unit → (ℝ × ℝ) × ℝ => (x ()).1.1) (fun _ _ => (0, 0)) fe ke (fun ps u => (ps ()).q * u)
      (fun _ => ⟨(1, 1), 1, 0, 0, 1, 1, (0, 0)⟩) 0 () one_ne_zero
    obtain ⟨h1, h2, -, h4, -⟩ := h
    have e1 : (at_ X (fun _ => ⟨(1, 1), 1, 0, 0, 1, 1, (0, 0)⟩) 0).1 () = begin_ X (fun _ => ⟨(1, 1), 1, 0, 0, 1, 1, (0, 0)⟩) 1 () := rfl
    simp only [seen]
    rw [e1]
    simp only [mul_zero, sub_zero, neg_zero, add_zero] at h1
    have h1' : (begin_ X (fun _ => ⟨(1, 1), 1, 0, 0, 1, 1, (0, 0)⟩) 1 ()).v0 = 1 := by
      have : (begin_ X (fun _ => ⟨(1, 1), 1, 0, 0, 1, 1, (0, 0)⟩) 1 ()).v0 - 1 = 0 := h1
      linarith
    have h4' : (begin_ X (fun _ => ⟨(1, 1), 1, 0, 0, 1, 1, (0, 0)⟩) 1 ()).pos.1 =
        Verif.Model.Periodic.wrap 0 4 (1 + 1 * (begin_ X (fun _ => ⟨(1, 1), 1, 0, 0, 1, 1, (0, 0)⟩) 1 ()).v0) := congrArg Prod.fst h4
    rw [h4', h1']
    refine (Verif.Props.C27.in_domain_unique (by norm_num : (0 : ℝ) < 4) ?_ (Verif.Props.C27.wrap_in_domain_partial (by norm_num) _ (Or.inl (by norm_num))) ?_)
    · constructor <;> norm_num
    · obtain ⟨a, ha⟩ := Verif.Props.C27.wrap_same_modulo (0 : ℝ) 4 (1 + 1 * 1)
      exact ⟨a, by rw [ha]; norm_num⟩
  refine ⟨?_, ?_⟩
  · rw [hx]
    change (1 : ℝ) ≠ (seen (at_ X (fun _ => ⟨(1, 1), 1, 0, 0, 1, 1, (0, 0)⟩) 0).1 ()).1.1
    rw [hy]; norm_num
  · have hq : ((at_ X (fun _ => ⟨(1, 1), 1, 0, 0, 1, 1, (0, 0)⟩) 0).1 ()).q = 1 :=
      (boris_step (V := ℝ) ⟨1, 1, (0, 0), (4, 4)⟩ (0, 0, 0) (fun x : Unit → (ℝ × ℝ) × ℝ => (x ()).1.1) (fun _ _ => (0, 0)) fe ke (fun ps u => (ps ()).q * u)
        (fun _ => ⟨(1, 1), 1, 0, 0, 1, 1, (0, 0)⟩) 0 () one_ne_zero).2.2.2.2.1
    change ((at_ X (fun _ => ⟨(1, 1), 1, 0, 0, 1, 1, (0, 0)⟩) 0).1 ()).q * (at_ X (fun _ => ⟨(1, 1), 1, 0, 0, 1, 1, (0, 0)⟩) 0).2 ≠
      ((at_ X (fun _ => ⟨(1, 1), 1, 0, 0, 1, 1, (0, 0)⟩) 0).1 ()).q * (seen (at_ X (fun _ => ⟨(1, 1), 1, 0, 0, 1, 1, (0, 0)⟩) 0).1 ()).1.1
    rw [hy, hq, hx]; norm_num

/-- **C87, the printed energies are not always current**: with a period of the energies of 2 and printing in each step, step 1 prints the energies of step 0. -/
theorem printed_energies_current_fails :
    ∃ (X : Ops ℕ ℕ ℕ) (c : Config), c.rank = 0 ∧ 0 < c.writeEnergy ∧ 0 < c.print ∧ 1 < c.numTimeSteps ∧
      (1, some (some (X.fieldEnergy (at_ X 0 1).2), some (X.kineticEnergy (at_ X 0 1).1), some (X.potentialEnergy (at_ X 0 1).1 (at_ X 0 1).2))) ∉
        (run .twoStream X c 0 (St.init 0 0 [])).out.filterMap selPrinted := by
  refine ⟨⟨id, fun p => (p, p), (· + 1), id, id, fun p _ => p, []⟩, ⟨2, 0, 0, 2, 1, 0, none⟩, rfl, by decide, by decide, by decide, by decide⟩

/-- A run of three steps with period 2 of the energies, two callbacks and all outputs. -/
example : let X : Ops ℕ ℕ ℕ := ⟨id, fun p => (p, 10 * p), (· + 1), id, id, fun p f => p + f, [fun _ p f => (p + 100, f), fun k p f => (p, f + k)]⟩
    let r := run .bernstein X ⟨3, 3, 2, 2, 1, 0, some 2⟩ 7 (St.init 0 0 [("q", 5)])
    r.p = 303 ∧ r.writer.global = [("q", 5)] ∧
      r.writer.groups = [(0, [("field_energy", 0), ("kinetic_energy", 1), ("potential_energy", 1)]),
        (2, [("field_energy", 2020), ("kinetic_energy", 203), ("potential_energy", 2223)])] ∧
      r.out.filterMap selParticles = [1] ∧ (r.out.filterMap (selLines true)).map Prod.fst = [0, 2] ∧ (r.out.filterMap selCallback).map Prod.fst = [0, 1, 0, 1, 0, 1] := by
  decide

/-- **C87, the magnetic field of the Bernstein solver.** All three components are required, although the constructor first reads them as optional. -/
theorem bernstein_requires_all (bx by_ bz : Option ℝ) :
    (∃ b, bernsteinB bx by_ bz = some b) ↔ bx.isSome ∧ by_.isSome ∧ bz.isSome := by
  cases bx <;> cases by_ <;> cases bz <;> simp [bernsteinB]

theorem bernstein_b (x y z : ℝ) : bernsteinB (some x) (some y) (some z) = some (x, y, z) := rfl

/-- The two stream solver takes zero for components that are not defined. -/
theorem two_stream_b (bx by_ bz : Option ℝ) : ∀ f ∈ [((twoStreamB bx by_ bz).1, bx), ((twoStreamB bx by_ bz).2.1, by_), ((twoStreamB bx by_ bz).2.2, bz)],
    (f.2 = none → f.1 = 0) ∧ ∀ x, f.2 = some x → f.1 = x := by
  cases bx <;> cases by_ <;> cases bz <;> simp [twoStreamB]

end Verif.Props.C87
