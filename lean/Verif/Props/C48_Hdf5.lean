import Verif.Model.Hdf5Writer
import Mathlib.Data.List.Nodup
import Mathlib.Data.List.Basic
import Mathlib.Tactic.Ring

namespace Verif.Props.C48
open Verif.Model.Hdf5

variable {V : Type}

/-- Specification: the names of the steps that a sequence of `step_start` arguments asks for. A non-negative
argument is the name, otherwise the name is one more than the previous one; `next` is the name of
the first unnamed step. -/
def stepNames : ℤ → List ℤ → List ℤ
  | _, [] => []
  | next, a :: as => (if a ≥ 0 then a else next) :: stepNames ((if a ≥ 0 then a else next) + 1) as

/-- One time step of a user program: the argument of `step_start` and the values written. -/
abbrev Block (V : Type) := ℤ × List (String × V)

/-- The API calls for a time step. -/
def blockOps (b : Block V) : List (Op V) :=
  Op.start b.1 :: b.2.map (fun p => Op.write p.1 p.2) ++ [Op.stop]

theorem addTo_last (groups : List (ℤ × List (String × V))) (name : ℤ) (l : List (String × V)) (k : String)
    (v : V) (h : ∀ g ∈ groups, g.1 ≠ name) :
    addTo (groups ++ [(name, l)]) name k v = groups ++ [(name, l ++ [(k, v)])] := by
  unfold addTo
  rw [List.map_append]
  congr 1
  · conv_rhs => rw [← List.map_id groups]
    refine List.map_congr_left fun g hg => ?_
    rw [if_neg (h g hg)]; rfl
  · simp

theorem lookup_last (groups : List (ℤ × List (String × V))) (name : ℤ) (l : List (String × V))
    (h : ∀ g ∈ groups, g.1 ≠ name) : (groups ++ [(name, l)]).lookup name = some l := by
  induction groups with
  | nil => simp
  | cons g gs ih =>
    obtain ⟨a, b⟩ := g
    rw [List.cons_append, List.lookup_cons, beq_eq_false_iff_ne.2 (Ne.symm (h (a, b) (by simp))),
      ih fun g hg => h g (List.mem_cons_of_mem _ hg)]

theorem run_writes (w : Writer V) (name : ℤ) (groups : List (ℤ × List (String × V)))
    (done todo : List (String × V)) (hg : ∀ g ∈ groups, g.1 ≠ name)
    (hnd : ((done ++ todo).map Prod.fst).Nodup) (hh : w.handle = some (name, true))
    (hw : w.groups = groups ++ [(name, done)]) :
    w.run (fun _ => false) (todo.map (fun p => Op.write p.1 p.2)) =
      { w with groups := groups ++ [(name, done ++ todo)], nwrites := w.nwrites + todo.length } := by
  induction todo generalizing w done with
  | nil =>
    simp only [List.append_nil] at *
    rw [← hw]; rfl
  | cons p ps ih =>
    obtain ⟨k, v⟩ := p
    have hk : (done.any fun p => decide (p.1 = k)) = false := by
      rw [List.any_eq_false]
      intro q hq
      simp only [decide_eq_true_eq]
      intro he
      rw [List.map_append, List.nodup_append] at hnd
      exact hnd.2.2 q.1 (List.mem_map_of_mem hq) k (by simp) he
    have hstep : w.writeStep (fun _ => false) k v =
        { w with groups := groups ++ [(name, done ++ [(k, v)])], nwrites := w.nwrites + 1 } := by
      unfold Writer.writeStep
      rw [hh]
      simp only
      rw [hw, lookup_last _ _ _ hg]
      simp only [Option.getD_some, hk, Bool.or_false, Bool.false_eq_true, if_false, addTo_last _ _ _ _ _ hg]
      simp [Writer.check, h5chk, hh]
    have := ih (w.writeStep (fun _ => false) k v) (done ++ [(k, v)]) (by simpa using hnd)
      (by rw [hstep]; exact hh) (by rw [hstep])
    simp only [Writer.run, List.map_cons, List.foldl_cons, Writer.apply] at this ⊢
    rw [this, hstep]
    simp [Nat.add_comm, Nat.add_left_comm]

theorem run_append (fault : ℕ → Bool) (w : Writer V) (a b : List (Op V)) :
    w.run fault (a ++ b) = (w.run fault a).run fault b := by
  simp [Writer.run, List.foldl_append]

theorem run_block (w : Writer V) (b : Block V)
    (hname : ∀ g ∈ w.groups, g.1 ≠ (if b.1 ≥ 0 then b.1 else w.step)) (hnd : (b.2.map Prod.fst).Nodup) :
    w.run (fun _ => false) (blockOps b) =
      { w with
        step := (if b.1 ≥ 0 then b.1 else w.step) + 1
        groups := w.groups ++ [((if b.1 ≥ 0 then b.1 else w.step), b.2)]
        handle := some ((if b.1 ≥ 0 then b.1 else w.step), false)
        nwrites := w.nwrites + b.2.length } := by
  obtain ⟨a, ws⟩ := b
  simp only at *
  have hs : (if a > -1 then a else w.step) = (if a ≥ 0 then a else w.step) := by
    by_cases h : a ≥ 0
    · rw [if_pos h, if_pos (by omega)]
    · rw [if_neg h, if_neg (by omega)]
  have hst : w.stepStart a = { w with
      step := (if a ≥ 0 then a else w.step) + 1
      handle := some ((if a ≥ 0 then a else w.step), true)
      groups := w.groups ++ [((if a ≥ 0 then a else w.step), [])] } := by
    unfold Writer.stepStart
    simp only [hs]
    rw [if_neg]
    rw [List.any_eq_true]
    rintro ⟨g, hg, he⟩
    exact hname g hg (by simpa using he)
  have hops : blockOps (a, ws) = [Op.start a] ++ (ws.map (fun p => Op.write p.1 p.2) ++ [Op.stop]) := by
    simp [blockOps]
  rw [hops, run_append, run_append]
  have h1 : w.run (fun _ => false) [Op.start a] = w.stepStart a := rfl
  rw [h1, hst]
  rw [run_writes _ (if a ≥ 0 then a else w.step) w.groups [] ws hname (by simpa using hnd) rfl rfl]
  simp [Writer.run, Writer.apply, Writer.stepEnd, Writer.check, h5chk]

/-- **C48 (steps, partial).** Without faults, and for every program made of time steps with distinct
names and distinct keys within a step, the file ends up with exactly one group per step, in order, named as
asked (consecutively where no number was given), which holds exactly the values
written during that step. Missing from the full claim: programs which repeat a name or key or meet a
fault, for which data is lost silently; see `failure_never_reported` and `repeated_step_lost`. -/
theorem steps_hold_their_values_partial (blocks : List (Block V))
    (hnames : (stepNames (-1) (blocks.map Prod.fst)).Nodup)
    (hkeys : ∀ b ∈ blocks, (b.2.map Prod.fst).Nodup) :
    let w := (Writer.new V).run (fun _ => false) (blocks.flatMap blockOps)
    w.groups = (stepNames (-1) (blocks.map Prod.fst)).zip (blocks.map Prod.snd) ∧ w.failed = false := by
  have key : ∀ (w : Writer V), (stepNames w.step (blocks.map Prod.fst)).Nodup →
      (∀ g ∈ w.groups, g.1 ∉ stepNames w.step (blocks.map Prod.fst)) →
      (w.run (fun _ => false) (blocks.flatMap blockOps)).groups =
        w.groups ++ (stepNames w.step (blocks.map Prod.fst)).zip (blocks.map Prod.snd) ∧
      (w.run (fun _ => false) (blocks.flatMap blockOps)).failed = w.failed := by
    clear hnames
    induction blocks with
    | nil => intro w _ _; exact ⟨by simp [Writer.run, stepNames], rfl⟩
    | cons b bs ih =>
      intro w hn hg
      simp only [List.map_cons, stepNames, List.nodup_cons] at hn
      rw [List.flatMap_cons, run_append, run_block w b
        (fun g hgm he => hg g hgm (by simp [stepNames, he])) (hkeys b (by simp))]
      have := ih (fun b' hb' => hkeys b' (List.mem_cons_of_mem _ hb')) { w with
        step := (if b.1 ≥ 0 then b.1 else w.step) + 1
        groups := w.groups ++ [((if b.1 ≥ 0 then b.1 else w.step), b.2)]
        handle := some ((if b.1 ≥ 0 then b.1 else w.step), false)
        nwrites := w.nwrites + b.2.length } hn.2 (by
          intro g hgm
          simp only [List.mem_append, List.mem_singleton] at hgm
          rcases hgm with hgm | rfl
          · intro hmem; exact hg g hgm (by simp only [List.map_cons, stepNames]; exact List.mem_cons_of_mem _ hmem)
          · exact hn.1)
      refine ⟨?_, this.2⟩
      rw [this.1]
      simp [stepNames]
  have := key (Writer.new V) hnames (by intro g hg; simp [Writer.new] at hg)
  exact ⟨by rw [this.1]; simp [Writer.new], this.2⟩

/-- A time step whose name is taken: nothing is written, the counter moves on. -/
theorem run_block_taken (w : Writer V) (b : Block V) (hname : ∃ g ∈ w.groups, g.1 = (if b.1 ≥ 0 then b.1 else w.step)) :
    w.run (fun _ => false) (blockOps b) =
      { w with
        step := (if b.1 ≥ 0 then b.1 else w.step) + 1
        handle := none
        nwrites := w.nwrites + b.2.length
        failed := true } := by
  obtain ⟨a, ws⟩ := b
  simp only at *
  have hs : (if a > -1 then a else w.step) = (if a ≥ 0 then a else w.step) := by
    by_cases h : a ≥ 0
    · rw [if_pos h, if_pos (by omega)]
    · rw [if_neg h, if_neg (by omega)]
  have hst : w.stepStart a = { w with step := (if a ≥ 0 then a else w.step) + 1, handle := none, failed := true } := by
    unfold Writer.stepStart
    simp only [hs]
    rw [if_pos]
    rw [List.any_eq_true]
    obtain ⟨g, hg, he⟩ := hname
    exact ⟨g, hg, by simpa using he⟩
  have hops : blockOps (a, ws) = [Op.start a] ++ (ws.map (fun p => Op.write p.1 p.2) ++ [Op.stop]) := by
    simp [blockOps]
  have hw : ∀ (ws : List (String × V)) (w : Writer V), w.handle = none → w.failed = true →
      w.run (fun _ => false) (ws.map (fun p => Op.write p.1 p.2)) = { w with nwrites := w.nwrites + ws.length } := by
    intro ws
    induction ws with
    | nil => intro w _ _; rfl
    | cons p ps ih =>
      intro w hh hf
      have h1 : w.writeStep (fun _ => false) p.1 p.2 = { w with nwrites := w.nwrites + 1 } := by
        unfold Writer.writeStep
        rw [hh]
        simp [Writer.check, h5chk, hf, hh]
      have h2 := ih (w.writeStep (fun _ => false) p.1 p.2) (by rw [h1]; exact hh) (by rw [h1]; exact hf)
      simp only [Writer.run, List.map_cons, List.foldl_cons, Writer.apply] at h2 ⊢
      rw [h2, h1]
      simp [Nat.add_comm, Nat.add_left_comm]
  rw [hops, run_append, run_append]
  have h1 : w.run (fun _ => false) [Op.start a] = w.stepStart a := rfl
  rw [h1, hst, hw _ _ rfl rfl]
  simp [Writer.run, Writer.apply, Writer.stepEnd, Writer.check, h5chk]

theorem lookup_append (a b : List (ℤ × List (String × V))) (n : ℤ) :
    (a ++ b).lookup n = match a.lookup n with | some v => some v | none => b.lookup n := by
  induction a with
  | nil => rfl
  | cons x xs ih =>
    obtain ⟨i, v⟩ := x
    rw [List.cons_append, List.lookup_cons, List.lookup_cons]
    cases n == i
    · exact ih
    · rfl

theorem lookup_isSome (a : List (ℤ × List (String × V))) (n : ℤ) : (∃ g ∈ a, g.1 = n) ↔ ∃ v, a.lookup n = some v := by
  induction a with
  | nil => simp
  | cons x xs ih =>
    obtain ⟨i, v⟩ := x
    rw [List.lookup_cons]
    by_cases h : i = n
    · subst h; simp
    · rw [beq_eq_false_iff_ne.2 (Ne.symm h)]
      dsimp only
      rw [← ih]
      simp [h]

/-- **C48 (any step names).** For every program made of time steps, with names repeated or not, and without faults: each name asked for is a group which holds
exactly the values of the first time step with that name, and no other group exists; the values of the later steps of the name are lost. An HDF5 call
fails exactly when a name is repeated. -/
theorem first_step_kept (blocks : List (Block V)) (hkeys : ∀ b ∈ blocks, (b.2.map Prod.fst).Nodup) :
    let w := (Writer.new V).run (fun _ => false) (blocks.flatMap blockOps)
    (∀ name, w.groups.lookup name = ((stepNames (-1) (blocks.map Prod.fst)).zip (blocks.map Prod.snd)).lookup name) ∧
    (w.failed = false ↔ (stepNames (-1) (blocks.map Prod.fst)).Nodup) := by
  have key : ∀ (w : Writer V),
      (∀ name, (w.run (fun _ => false) (blocks.flatMap blockOps)).groups.lookup name =
        (w.groups ++ (stepNames w.step (blocks.map Prod.fst)).zip (blocks.map Prod.snd)).lookup name) ∧
      ((w.run (fun _ => false) (blocks.flatMap blockOps)).failed = false ↔
        w.failed = false ∧ (stepNames w.step (blocks.map Prod.fst)).Nodup ∧ ∀ g ∈ w.groups, g.1 ∉ stepNames w.step (blocks.map Prod.fst)) := by
    induction blocks with
    | nil => intro w; exact ⟨fun _ => by simp [Writer.run, stepNames], by simp [Writer.run, stepNames]⟩
    | cons b bs ih =>
      intro w
      have ih := ih fun b' hb' => hkeys b' (List.mem_cons_of_mem _ hb')
      rw [List.flatMap_cons, run_append]
      by_cases hn : ∃ g ∈ w.groups, g.1 = (if b.1 ≥ 0 then b.1 else w.step)
      · rw [run_block_taken w b hn]
        refine ⟨fun name => ?_, ?_⟩
        · rw [(ih _).1, lookup_append, lookup_append]
          simp only [List.map_cons, stepNames, List.zip_cons_cons]
          rw [List.lookup_cons]
          by_cases he : name = (if b.1 ≥ 0 then b.1 else w.step)
          · obtain ⟨v, hv⟩ := (lookup_isSome _ _).1 hn
            rw [he, hv]
          · rw [beq_eq_false_iff_ne.2 he]
        · rw [(ih _).2]
          simp only [Bool.true_eq_false, false_and, false_iff]
          rintro ⟨_, _, h3⟩
          obtain ⟨g, hg, he⟩ := hn
          exact h3 g hg (by simp [stepNames, he])
      · have hn' : ∀ g ∈ w.groups, g.1 ≠ (if b.1 ≥ 0 then b.1 else w.step) := fun g hg he => hn ⟨g, hg, he⟩
        rw [run_block w b hn' (hkeys b (by simp))]
        refine ⟨fun name => ?_, ?_⟩
        · rw [(ih _).1]
          simp only [List.map_cons, stepNames, List.zip_cons_cons, List.append_assoc, List.cons_append, List.nil_append]
        · rw [(ih _).2]
          simp only [List.map_cons, stepNames, List.nodup_cons, List.mem_append, List.mem_singleton, List.mem_cons, not_or]
          constructor
          · rintro ⟨h1, h2, h3⟩
            exact ⟨h1, ⟨h3 _ (Or.inr (Or.inl rfl)), h2⟩, fun g hg => ⟨hn' g hg, h3 g (Or.inl hg)⟩⟩
          · rintro ⟨h1, ⟨h2, h3⟩, h4⟩
            refine ⟨h1, h3, ?_⟩
            rintro g (hg | rfl | hg)
            · exact (h4 g hg).2
            · exact h2
            · cases hg
  have := key (Writer.new V)
  refine ⟨fun name => ?_, this.2.trans ?_⟩
  · exact (this.1 name).trans (by simp [Writer.new])
  · simp [Writer.new]

/-- Specification of the global values: the value of the first `write_value_global` of the key whose data write (the data writes are numbered from `n`) does
not fail. -/
def keptGlobal (fault : ℕ → Bool) (k : String) : ℕ → List (Op V) → Option V
  | _, [] => none
  | n, .writeGlobal k' v :: os => if k' = k ∧ fault n = false then some v else keptGlobal fault k (n + 1) os
  | n, .write _ _ :: os => keptGlobal fault k (n + 1) os
  | n, .start _ :: os => keptGlobal fault k n os
  | n, .stop :: os => keptGlobal fault k n os

/-- **C48 (global values).** For every sequence of calls and faults, the value stored globally for a key is the one of the first write of the key which does not
fault; calls of other kinds and other keys do not affect it. -/
theorem global_first_kept (fault : ℕ → Bool) (ops : List (Op V)) (k : String) :
    ((Writer.new V).run fault ops).global.lookup k = keptGlobal fault k 0 ops := by
  have key : ∀ (ops : List (Op V)) (w : Writer V), (w.run fault ops).global.lookup k =
      match w.global.lookup k with | some v => some v | none => keptGlobal fault k w.nwrites ops := by
    intro ops
    induction ops with
    | nil => intro w; cases h : w.global.lookup k <;> simp [Writer.run, keptGlobal, h]
    | cons o os ih =>
      intro w
      have e : w.run fault (o :: os) = (w.apply fault o).run fault os := rfl
      rw [e, ih]
      cases o with
      | start s =>
        have h1 : (w.stepStart s).global = w.global ∧ (w.stepStart s).nwrites = w.nwrites := by
          unfold Writer.stepStart; simp only; split_ifs <;> exact ⟨rfl, rfl⟩
        simp only [Writer.apply, h1.1, h1.2, keptGlobal]
      | stop =>
        have h1 : w.stepEnd.global = w.global ∧ w.stepEnd.nwrites = w.nwrites := by
          unfold Writer.stepEnd; split <;> exact ⟨rfl, rfl⟩
        simp only [Writer.apply, h1.1, h1.2, keptGlobal]
      | write k' v =>
        have h1 : (w.writeStep fault k' v).global = w.global ∧ (w.writeStep fault k' v).nwrites = w.nwrites + 1 := by
          unfold Writer.writeStep; split
          · split_ifs <;> exact ⟨rfl, rfl⟩
          · exact ⟨rfl, rfl⟩
        simp only [Writer.apply, h1.1, h1.2, keptGlobal]
      | writeGlobal k' v =>
        have hnw : (w.writeGlobal fault k' v).nwrites = w.nwrites + 1 := by
          unfold Writer.writeGlobal; split_ifs <;> rfl
        have look : ∀ l : List (String × V), ((l.any fun p => p.1 = k') = true) ↔ ∃ x, l.lookup k' = some x := by
          intro l
          induction l with
          | nil => simp
          | cons p ps ih =>
            obtain ⟨a, b⟩ := p
            rw [List.any_cons, Bool.or_eq_true, ih, List.lookup_cons]
            by_cases h : k' = a
            · subst h; simp
            · rw [beq_eq_false_iff_ne.2 h]; simp [Ne.symm h]
        have look2 : ∀ l : List (String × V), (l ++ [(k', v)]).lookup k =
            match l.lookup k with | some x => some x | none => if k' = k then some v else none := by
          intro l
          induction l with
          | nil =>
            by_cases h : k' = k
            · subst h; simp
            · simp [h, Ne.symm h]
          | cons p ps ih =>
            obtain ⟨a, b⟩ := p
            rw [List.cons_append, List.lookup_cons, List.lookup_cons]
            cases k == a
            · exact ih
            · rfl
        simp only [Writer.apply, hnw, keptGlobal]
        by_cases hc : ((w.global.any fun p => p.1 = k') || fault w.nwrites) = true
        · have hg : (w.writeGlobal fault k' v).global = w.global := by
            unfold Writer.writeGlobal; rw [if_pos hc]; rfl
          rw [hg]
          cases hl : w.global.lookup k with
          | some x => rfl
          | none =>
            dsimp only
            rw [if_neg]
            rintro ⟨rfl, hf⟩
            rw [hf, Bool.or_false, look] at hc
            obtain ⟨x, hx⟩ := hc
            rw [hl] at hx; cases hx
        · have hg : (w.writeGlobal fault k' v).global = w.global ++ [(k', v)] := by
            unfold Writer.writeGlobal; rw [if_neg hc]; rfl
          have hf : fault w.nwrites = false := by
            cases h : fault w.nwrites
            · rfl
            · rw [h, Bool.or_true] at hc; exact absurd rfl hc
          rw [hg, look2]
          cases hl : w.global.lookup k with
          | some x => rfl
          | none =>
            dsimp only
            by_cases h : k' = k
            · rw [if_pos h, if_pos ⟨h, hf⟩]
            · rw [if_neg h, if_neg fun hh => h hh.1]
  exact key ops (Writer.new V)

/-- **C48 (default names).** Steps started without a number are named `-1, 0, 1, ...`: distinct and in
increasing order. -/
theorem default_names (n : ℕ) :
    stepNames (-1) (List.replicate n (-1)) = (List.range n).map (fun i : ℕ => (i : ℤ) - 1) ∧
    (stepNames (-1) (List.replicate n (-1))).Nodup := by
  have h : ∀ (n : ℕ) (s : ℤ), stepNames s (List.replicate n (-1)) =
      (List.range n).map (fun i : ℕ => s + (i : ℤ)) := by
    intro n
    induction n with
    | zero => intro s; rfl
    | succ n ih =>
      intro s
      rw [List.replicate_succ, stepNames, if_neg (by decide), ih, List.range_succ_eq_map, List.map_cons,
        List.map_map]
      congr 1
      · simp
      · refine List.map_congr_left fun i _ => ?_
        simp only [Function.comp]; push_cast; ring
  have h' : stepNames (-1) (List.replicate n (-1)) = (List.range n).map (fun i : ℕ => (i : ℤ) - 1) := by
    rw [h]; exact List.map_congr_left fun i _ => by ring
  refine ⟨h', ?_⟩
  rw [h']
  refine List.Nodup.map ?_ List.nodup_range
  intro a b hab
  simp only at hab
  omega

/-- **Finding.** No history of calls, whatever fails inside of HDF5, is ever reported: the
error check can not fail because the return code is converted to `bool` first. -/
theorem failure_never_reported (fault : ℕ → Bool) (ops : List (Op V)) :
    ((Writer.new V).run fault ops).reported = false := by
  have hchk : ∀ r, h5chk r = true := by
    intro r; unfold h5chk; by_cases h : r = 0 <;> simp [h]
  have h : ∀ (w : Writer V), w.reported = false → (w.run fault ops).reported = false := by
    induction ops with
    | nil => intro w hw; exact hw
    | cons o os ih =>
      intro w hw
      refine ih (w.apply fault o) ?_
      cases o with
      | start s => unfold Writer.apply Writer.stepStart; simp only; split_ifs <;> exact hw
      | write k v =>
        unfold Writer.apply Writer.writeStep
        simp only
        split
        · split_ifs <;> simp [Writer.check, hchk, hw]
        · simp [Writer.check, hchk, hw]
      | writeGlobal k v =>
        unfold Writer.apply Writer.writeGlobal
        simp only
        split_ifs <;> simp [Writer.check, hchk, hw]
      | stop =>
        unfold Writer.apply Writer.stepEnd
        simp only
        split <;> simp [Writer.check, hchk, hw]
  exact h _ rfl

/-- **Finding.** For instance starting the same step twice loses what is written the second time, and a
failing write loses the value; neither raises an error. -/
theorem repeated_step_lost (k k' : String) (v v' : V) :
    let ops := blockOps (0, [(k, v)]) ++ blockOps (0, [(k', v')])
    let w := (Writer.new V).run (fun _ => false) ops
    w.failed = true ∧ w.reported = false ∧ w.groups = [(0, [(k, v)])] ∧
    (let w' := (Writer.new V).run (fun _ => true) (blockOps (0, [(k, v)]))
     w'.failed = true ∧ w'.reported = false ∧ w'.groups = [(0, [])]) := by
  simp [blockOps, Writer.run, Writer.apply, Writer.stepStart, Writer.new, Writer.writeStep, Writer.check,
    h5chk, Writer.stepEnd, addTo]

/-- **C48.** `step_end` and `write_value_step` without an open step fail: they change nothing in the file, and the failure is not reported. -/
theorem outside_step (fault : ℕ → Bool) (w : Writer V) (h : ∀ name, w.handle ≠ some (name, true)) (o : Op V) (ho : o = .stop ∨ ∃ k v, o = .write k v) :
    (w.apply fault o).failed = true ∧ (w.apply fault o).reported = w.reported ∧ (w.apply fault o).groups = w.groups ∧ (w.apply fault o).global = w.global := by
  rcases hw : w.handle with _ | ⟨name, b⟩
  · rcases ho with rfl | ⟨k, v, rfl⟩ <;> simp [Writer.apply, Writer.stepEnd, Writer.writeStep, hw, Writer.check, h5chk]
  · cases b with
    | true => exact absurd hw (h name)
    | false => rcases ho with rfl | ⟨k, v, rfl⟩ <;> simp [Writer.apply, Writer.stepEnd, Writer.writeStep, hw, Writer.check, h5chk]

example : let w := (Writer.new ℤ).run (fun _ => false) (blockOps (5, [("a", 1)]))
    (∀ name, w.handle ≠ some (name, true)) ∧ (w.apply (fun _ => false) .stop).failed = true := by
  refine ⟨?_, by decide⟩
  intro name
  simp [blockOps, Writer.run, Writer.apply, Writer.stepStart, Writer.new, Writer.writeStep, Writer.check, h5chk, Writer.stepEnd, addTo]

/-- Non-vacuity of `steps_hold_their_values_partial`. -/
example :
    let blocks : List (Block ℤ) := [(-1, [("a", 1), ("b", 2)]), (5, [("a", 3)]), (-1, [])]
    stepNames (-1) (blocks.map Prod.fst) = [-1, 5, 6] ∧
    (stepNames (-1) (blocks.map Prod.fst)).Nodup ∧ ∀ b ∈ blocks, (b.2.map Prod.fst).Nodup := by
  decide

/-- A repeated step and a repeated global key: the first ones are kept. -/
example : let w := (Writer.new ℤ).run (fun _ => false) (blockOps (5, [("a", 1)]) ++ blockOps (5, [("b", 2)]) ++ blockOps (-1, [("c", 3)]))
    w.groups = [(5, [("a", 1)]), (6, [("c", 3)])] ∧ w.failed = true := by decide

example : keptGlobal (V := ℤ) (fun n => decide (n = 0)) "a" 0 [.writeGlobal "a" 1, .start 0, .writeGlobal "b" 2, .writeGlobal "a" 3, .writeGlobal "a" 4] = some 3 := by decide

end Verif.Props.C48
