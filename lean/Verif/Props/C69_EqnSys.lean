import Verif.Model.EqnSys
import Verif.Props.C43_FieldIndexMap
import Mathlib.Data.List.Infix
import Mathlib.Tactic.Ring
import Mathlib.Tactic.IntervalCases

/-!
# C69: equation systems use the fields they name
-/

namespace Verif.Props.C69
open Verif.Model.EqnSys Verif.Model.Utilities

/-! ### Particles -/

/-- Particles are used exactly if the session has a particles element with a known particle system type; the run is refused if
the element is there and the type is missing or not known. -/
theorem start_spec (element : Bool) (parttype : Option String) (registered : String → Bool) :
    (∀ name, start element parttype registered = .particles name ↔
      element = true ∧ parttype = some name ∧ registered name = true) ∧
    (start element parttype registered = .fluidOnly ↔ element = false) := by
  cases element <;> cases parttype <;> simp [start]
  rename_i n
  cases h : registered n <;> simp [h]

/-- The particle system is freed once, after the solver loop and before the tasks at the end, if there is one. -/
theorem doSolve_spec (s : Start) :
    ((∃ n, s = .particles n) → doSolve s = [.solve, .freeParticles, .postSolve]) ∧
      ((¬ ∃ n, s = .particles n) → doSolve s = [.solve, .postSolve]) := by
  cases s <;> simp [doSolve]

/-! ### Fields -/

/-- Specification: position of a variable. -/
def IsVar (fs : Fields) (name : String) (i : ℕ) : Prop := (fs[i]?).map Prod.fst = some name

theorem isVar_names {fs : Fields} {name : String} {i : ℕ} : IsVar fs name i ↔ (fs.map Prod.fst)[i]? = some name := by
  rw [IsVar, List.getElem?_map]

theorem isVar_unique {fs : Fields} (hnd : (fs.map Prod.fst).Nodup) {name : String} {i j : ℕ} (h1 : IsVar fs name i)
    (h2 : IsVar fs name j) : i = j := by
  rw [isVar_names] at h1 h2
  obtain ⟨hi, h1⟩ := List.getElem?_eq_some_iff.mp h1
  obtain ⟨hj, h2⟩ := List.getElem?_eq_some_iff.mp h2
  exact (List.Nodup.getElem_inj_iff hnd).mp (h1.trans h2.symm)

theorem idx_cases {fs : Fields} (hnd : (fs.map Prod.fst).Nodup) (name : String) :
    (∃ i : ℕ, IsVar fs name i ∧ getIdx (indexMap fs) name = i ∧ indexAt (indexMap fs) name = some (i : ℤ)) ∨
      ((∀ i, ¬ IsVar fs name i) ∧ getIdx (indexMap fs) name = -1 ∧ indexAt (indexMap fs) name = none) := by
  have h := C43.field_index (fs.map Prod.fst) hnd
  by_cases hm : name ∈ fs.map Prod.fst
  · left
    obtain ⟨i, hi⟩ := List.mem_iff_getElem?.mp hm
    exact ⟨i, isVar_names.mpr hi, h.1 i name hi⟩
  · right
    refine ⟨fun i hi => hm ?_, h.2 name hm⟩
    exact List.mem_iff_getElem?.mpr ⟨i, isVar_names.mp hi⟩

/-- Specification: all required names are variables with as many points as the first. -/
def RequiredOk (fs : Fields) (required : List String) : Prop :=
  ∀ name ∈ required, ∃ (i : ℕ) (f g : String × ℕ), fs[i]? = some f ∧ fs[0]? = some g ∧ f.1 = name ∧ f.2 = g.2

theorem validate_iff {f : String × ℕ} {t : Fields} (hnd : ((f :: t).map Prod.fst).Nodup) (required : List String) :
    validateFields (f :: t) f.2 required = true ↔ RequiredOk (f :: t) required := by
  rw [validateFields, List.all_eq_true, RequiredOk]
  refine forall₂_congr fun name _ => ?_
  rcases idx_cases hnd name with ⟨i, hi, h1, _⟩ | ⟨hno, h1, _⟩
  · simp only [h1, Bool.and_eq_true, decide_eq_true_eq]
    constructor
    · rintro ⟨_, h2⟩
      rw [Int.toNat_natCast] at h2
      obtain ⟨a, ha, hb⟩ := Option.map_eq_some_iff.mp hi
      rw [ha] at h2
      exact ⟨i, a, f, ha, rfl, hb, Option.some.inj h2⟩
    · rintro ⟨j, a, g, ha, hg, hn, hp⟩
      have hj : IsVar (f :: t) name j := by rw [IsVar, ha]; simp [hn]
      have : i = j := isVar_unique hnd hi hj
      subst this
      refine ⟨by omega, ?_⟩
      rw [Int.toNat_natCast, ha]
      simp only [List.length_cons, Nat.zero_lt_succ, List.getElem?_cons_zero, Option.some.injEq] at hg
      rw [← hg] at hp
      simp [hp]
  · simp only [h1, Bool.and_eq_true, decide_eq_true_eq]
    constructor
    · rintro ⟨h, _⟩; omega
    · rintro ⟨j, a, g, ha, _, hn, _⟩
      exact absurd (by rw [IsVar, ha]; simp [hn]) (hno j)

theorem mapM_idx {fs : Fields} (hnd : (fs.map Prod.fst).Nodup) (names : List String) (vs : List ℤ) :
    (names.mapM fun name => let varIdx := getIdx (indexMap fs) name; if varIdx ≥ 0 then some varIdx else none) = some vs ↔
      List.Forall₂ (fun name (v : ℤ) => ∃ i : ℕ, v = i ∧ IsVar fs name i) names vs := by
  induction names generalizing vs with
  | nil =>
    simp only [List.mapM_nil, List.forall₂_nil_left_iff]
    constructor <;> intro h
    · exact (Option.some.inj h).symm
    · rw [h]; rfl
  | cons n t ih =>
    rw [List.mapM_cons]
    rcases idx_cases hnd n with ⟨i, hi, h1, _⟩ | ⟨hno, h1, _⟩
    · simp only [h1]
      rw [if_pos (by omega)]
      simp only [Option.bind_eq_bind, Option.bind_some]
      constructor
      · intro h
        obtain ⟨w, hw, h⟩ := Option.bind_eq_some_iff.mp h
        have := Option.some.inj h
        subst this
        exact List.Forall₂.cons ⟨i, rfl, hi⟩ ((ih w).mp hw)
      · intro h
        cases h with
        | cons h1 h2 =>
          obtain ⟨j, rfl, hj⟩ := h1
          have := isVar_unique hnd hi hj
          subst this
          rw [(ih _).mpr h2]
          rfl
    · simp only [h1]
      rw [if_neg (by omega)]
      simp only [Option.bind_eq_bind, Option.bind_none]
      constructor
      · intro h; cases h
      · intro h
        cases h with
        | cons h1 h2 => obtain ⟨j, _, hj⟩ := h1; exact absurd hj (hno j)

/-- The set up of a time evolving system succeeds exactly if all required fields are defined with the points of the first field
and all integrated fields are defined; the integrated variables are then the positions of their names, in order. -/
theorem timeInit_iff (fs : Fields) (hnd : (fs.map Prod.fst).Nodup) (required intNames : List String) (vs : List ℤ) :
    timeInit fs required intNames = some vs ↔
      fs ≠ [] ∧ RequiredOk fs required ∧ List.Forall₂ (fun name (v : ℤ) => ∃ i : ℕ, v = i ∧ IsVar fs name i) intNames vs := by
  cases fs with
  | nil => simp [timeInit]
  | cons f t =>
    simp only [timeInit]
    split_ifs with h
    · rw [validate_iff hnd] at h
      rw [mapM_idx hnd]
      simp [h]
    · rw [validate_iff hnd] at h
      simp [h]

/-! ### Reading by name -/

/-- Specification: the right hand side reads the values of the fields it names, whatever these values are. -/
def ReadsOwn (fs : Fields) (intNames : List String) (intVars : List ℤ) : Prop :=
  ∀ (vals : ℤ → ℝ), ∀ name ∈ intNames, ∃ i : ℕ, IsVar fs name i ∧ readByName fs (inArr vals intVars) name = some (vals i)

/-- Full claim: it does so for every accepted session. It does exactly for those sessions whose variables begin with the
integrated ones, in the order of the program. -/
theorem reads_own_iff (fs : Fields) (hnd : (fs.map Prod.fst).Nodup) (required intNames : List String) (hni : intNames.Nodup)
    (vs : List ℤ) (h : timeInit fs required intNames = some vs) :
    ReadsOwn fs intNames vs ↔ intNames <+: fs.map Prod.fst := by
  obtain ⟨_, _, hf⟩ := (timeInit_iff fs hnd required intNames vs).mp h
  have hlen := hf.length_eq
  have hget : ∀ i (h1 : i < intNames.length) (h2 : i < vs.length), ∃ k : ℕ, vs[i] = k ∧ IsVar fs intNames[i] k :=
    fun i h1 h2 => (List.forall₂_iff_get.mp hf).2 i h1 h2
  constructor
  · intro hr
    rw [List.prefix_iff_getElem?]
    intro i hi
    rw [← isVar_names]
    obtain ⟨k, hk, hkv⟩ := hget i hi (by omega)
    -- choose values which tell the fields apart
    obtain ⟨j, hj, hread⟩ := hr (fun z => (z : ℝ)) intNames[i] (List.getElem_mem hi)
    have hkj := isVar_unique hnd hkv hj
    subst hkj
    rcases idx_cases hnd intNames[i] with ⟨m, hm, _, hat⟩ | ⟨hno, _, _⟩
    · have hmk := isVar_unique hnd hm hj
      subst hmk
      rw [readByName, hat] at hread
      simp only [Option.bind_some] at hread
      rw [if_pos (by omega), Int.toNat_natCast, inArr, List.getElem?_map] at hread
      obtain ⟨z, hz, hzz⟩ := Option.map_eq_some_iff.mp hread
      obtain ⟨hml, hz⟩ := List.getElem?_eq_some_iff.mp hz
      obtain ⟨q, hq, hqv⟩ := hget m (by omega) hml
      have hqm : q = m := by
        rw [hz] at hq
        rw [hq] at hzz
        exact_mod_cast hzz
      subst hqm
      -- names at positions q and i of the integrated fields have the same variable
      have hsame : intNames[q]'(by omega) = intNames[i] := by
        have := hqv.symm.trans hm
        exact Option.some.inj this
      have : q = i := (List.Nodup.getElem_inj_iff hni).mp hsame
      subst this
      exact hm
    · exact absurd hj (hno _)
  · intro hp vals name hname
    obtain ⟨i, hi, rfl⟩ := List.mem_iff_getElem.mp hname
    have hv : IsVar fs intNames[i] i := isVar_names.mpr (List.prefix_iff_getElem?.mp hp i hi)
    refine ⟨i, hv, ?_⟩
    obtain ⟨k, hk, hkv⟩ := hget i hi (by omega)
    have hki := isVar_unique hnd hkv hv
    subst hki
    rcases idx_cases hnd intNames[k] with ⟨m, hm, _, hat⟩ | ⟨hno, _, _⟩
    · have := isVar_unique hnd hm hv
      subst this
      rw [readByName, hat]
      simp only [Option.bind_some]
      rw [if_pos (by omega), Int.toNat_natCast, inArr, List.getElem?_map, List.getElem?_eq_getElem (by omega), hk]
      rfl
    · exact absurd hv (hno _)

/-- The Blob2D system checks the order, so it reads its own fields for every accepted session. -/
theorem blob_reads_own (fs : Fields) (hnd : (fs.map Prod.fst).Nodup) (vs : List ℤ) (h : blobInit fs = some vs) :
    ReadsOwn fs ["ne", "w"] vs := by
  rw [blobInit] at h
  obtain ⟨ints, h1, h2⟩ := Option.bind_eq_some_iff.mp h
  split_ifs at h2 with hc
  have := Option.some.inj h2
  subst this
  rw [reads_own_iff fs hnd _ _ (by decide) _ h1]
  simp only [checkVarIdx, decide_eq_true_eq] at hc
  rw [List.prefix_iff_getElem?]
  intro i hi
  rw [← isVar_names]
  match i with
  | 0 => exact hc.1
  | 1 => exact hc.2.1

/-- The Rogers-Ricci system checks the order of all variables. -/
theorem rogersRicci_reads_own (fs : Fields) (hnd : (fs.map Prod.fst).Nodup) (particles : Bool) (vs : List ℤ)
    (h : rogersRicciInit fs particles = some vs) : ReadsOwn fs ["n", "T_e", "w"] vs := by
  rw [rogersRicciInit] at h
  obtain ⟨_, _, h2⟩ := Option.bind_eq_some_iff.mp h
  split_ifs at h2 with hc
  have := Option.some.inj h2
  subst this
  simp only [checkVarIdx, decide_eq_true_eq] at hc
  intro vals name hname
  have key : ∀ (k : ℕ), k < 3 → IsVar fs name k →
      ∃ i : ℕ, IsVar fs name i ∧ readByName fs (inArr vals [0, 1, 2]) name = some (vals i) := by
    intro k hk hv
    refine ⟨k, hv, ?_⟩
    rcases idx_cases hnd name with ⟨m, hm, _, hat⟩ | ⟨hno, _, _⟩
    · have := isVar_unique hnd hm hv
      subst this
      rw [readByName, hat]
      simp only [Option.bind_some]
      rw [if_pos (by omega), Int.toNat_natCast]
      interval_cases m <;> rfl
    · exact absurd hv (hno _)
  simp only [List.mem_cons, List.not_mem_nil, or_false] at hname
  rcases hname with rfl | rfl | rfl
  · exact key 0 (by omega) hc.2.1
  · exact key 1 (by omega) hc.2.2.1
  · exact key 2 (by omega) hc.2.2.2.1

/-- The Hasegawa-Wakatani and LAPD systems: right for sessions which list the integrated fields first. -/
theorem hw_reads_own_partial (fs : Fields) (hnd : (fs.map Prod.fst).Nodup) (particles : Bool) (vs : List ℤ)
    (h : hwInit fs particles = some vs) : ReadsOwn fs ["ne", "w"] vs ↔ ["ne", "w"] <+: fs.map Prod.fst := by
  rw [hwInit, driftReducedInit] at h
  obtain ⟨ints, h1, h2⟩ := Option.bind_eq_some_iff.mp h
  obtain ⟨_, _, h2⟩ := Option.map_eq_some_iff.mp h2
  subst h2
  exact reads_own_iff fs hnd _ _ (by decide) _ h1

theorem lapd_reads_own_partial (fs : Fields) (hnd : (fs.map Prod.fst).Nodup) (particles : Bool) (vs : List ℤ)
    (h : lapdInit fs particles = some vs) :
    ReadsOwn fs ["ne", "Ge", "Gd", "w"] vs ↔ ["ne", "Ge", "Gd", "w"] <+: fs.map Prod.fst := by
  rw [lapdInit, driftReducedInit] at h
  obtain ⟨ints, h1, h2⟩ := Option.bind_eq_some_iff.mp h
  obtain ⟨_, _, h2⟩ := Option.map_eq_some_iff.mp h2
  subst h2
  exact reads_own_iff fs hnd _ _ (by decide) _ h1

/-- An accepted session of the Hasegawa-Wakatani system in which the vorticity equation reads the density and the density equation
the vorticity. -/
theorem hw_swapped : hwInit [("w", 9), ("ne", 9), ("phi", 9)] false = some [1, 0] ∧
    ∀ vals : ℤ → ℝ, readByName [("w", 9), ("ne", 9), ("phi", 9)] (inArr vals [1, 0]) "ne" = some (vals 0) ∧
      readByName [("w", 9), ("ne", 9), ("phi", 9)] (inArr vals [1, 0]) "w" = some (vals 1) := by
  refine ⟨by decide, fun vals => ⟨?_, ?_⟩⟩ <;> rfl

/-- An accepted session in which it reads beyond the end of the array. -/
theorem hw_out_of_bounds : hwInit [("phi", 9), ("ne", 9), ("w", 9)] false = some [1, 2] ∧
    ∀ vals : ℤ → ℝ, readByName [("phi", 9), ("ne", 9), ("w", 9)] (inArr vals [1, 2]) "w" = none := by
  refine ⟨by decide, fun vals => rfl⟩

/-- Hypotheses of the positive part. -/
theorem hw_accepts : hwInit [("ne", 9), ("w", 9), ("phi", 9), ("ne_src", 9)] true = some [0, 1] ∧
    lapdInit [("ne", 9), ("Ge", 9), ("Gd", 9), ("w", 9), ("phi", 9)] false = some [0, 1, 2, 3] ∧
    blobInit [("ne", 9), ("w", 9), ("phi", 9)] = some [0, 1] ∧
    rogersRicciInit [("n", 9), ("T_e", 9), ("w", 9), ("phi", 9)] false = some [0, 1, 2] := by decide

/-- The Rogers-Ricci system cannot be run with particles: no session passes its checks. -/
theorem rogersRicci_no_particles (fs : Fields) (hnd : (fs.map Prod.fst).Nodup) : rogersRicciInit fs true = none := by
  by_contra hne
  obtain ⟨vs, h⟩ := Option.ne_none_iff_exists'.mp hne
  rw [rogersRicciInit] at h
  obtain ⟨ints, h1, h2⟩ := Option.bind_eq_some_iff.mp h
  split_ifs at h2 with hc
  rw [driftReducedInit] at h1
  obtain ⟨_, h1, _⟩ := Option.bind_eq_some_iff.mp h1
  obtain ⟨_, hreq, _⟩ := (timeInit_iff fs hnd _ _ _).mp h1
  obtain ⟨i, f, _, hf, _, hn, _⟩ := hreq "ne_src" (by simp)
  have hv : IsVar fs "ne_src" i := by rw [IsVar, hf]; simp [hn]
  simp only [checkVarIdx, decide_eq_true_eq] at hc
  have hi : i < 4 := by
    obtain ⟨h, _⟩ := List.getElem?_eq_some_iff.mp hf
    omega
  obtain ⟨_, c0, c1, c2, c3⟩ := hc
  have hv' : (fs[i]?).map Prod.fst = some "ne_src" := hv
  interval_cases i
  · rw [c0] at hv'; exact absurd (Option.some.inj hv') (by decide)
  · rw [c1] at hv'; exact absurd (Option.some.inj hv') (by decide)
  · rw [c2] at hv'; exact absurd (Option.some.inj hv') (by decide)
  · rw [c3] at hv'; exact absurd (Option.some.inj hv') (by decide)

/-- SimpleSOL: the same criterion. -/
theorem sol_reads_own_partial (fs : Fields) (hnd : (fs.map Prod.fst).Nodup) (dim : ℕ) (withParticles : Bool) (vs : List ℤ)
    (h : solInit fs dim withParticles = some vs) :
    ReadsOwn fs (solNames dim) vs ↔ solNames dim <+: fs.map Prod.fst := by
  rw [solInit] at h
  split_ifs at h <;>
  exact reads_own_iff fs hnd _ _ (by unfold solNames; split_ifs <;> decide) _ h

/-- SimpleSOL: what a session must contain, by the dimension of the mesh; other dimensions are refused. -/
theorem sol_session (fs : Fields) (hnd : (fs.map Prod.fst).Nodup) (dim : ℕ) (withParticles : Bool) (vs : List ℤ) :
    solInit fs dim withParticles = some vs ↔
      ((dim = 1 ∧ fs ≠ [] ∧ List.Forall₂ (fun name (v : ℤ) => ∃ i : ℕ, v = i ∧ IsVar fs name i) ["rho", "rhou", "E"] vs) ∨
        (dim = 2 ∧ fs ≠ [] ∧ List.Forall₂ (fun name (v : ℤ) => ∃ i : ℕ, v = i ∧ IsVar fs name i) ["rho", "rhou", "rhov", "E"] vs)) ∧
      RequiredOk fs (["rho", "rhou", "E"] ++ (if dim = 2 then ["rhov"] else []) ++
        if withParticles then ["rho_src", "rhou_src", "rhov_src", "E_src", "T"] else []) := by
  have hmem : ∀ a b : List String, (∀ x, x ∈ a ↔ x ∈ b) → (RequiredOk fs a ↔ RequiredOk fs b) := by
    intro a b h
    exact ⟨fun h1 n hn => h1 n ((h n).mpr hn), fun h1 n hn => h1 n ((h n).mp hn)⟩
  rw [solInit]
  by_cases h : dim = 1 ∨ dim = 2
  · rw [if_pos h, timeInit_iff fs hnd, and_left_comm]
    rcases h with rfl | rfl
    · have e : RequiredOk fs (if withParticles = true then solNames 1 ++ ["E_src", "rho_src", "rhou_src", "rhov_src", "T"] else solNames 1) ↔
          RequiredOk fs (["rho", "rhou", "E"] ++ (if 1 = 2 then ["rhov"] else []) ++
            if withParticles then ["rho_src", "rhou_src", "rhov_src", "E_src", "T"] else []) := by
        apply hmem; intro x
        cases withParticles <;> simp [solNames] <;> tauto
      rw [e]; simp [solNames]; tauto
    · have e : RequiredOk fs (if withParticles = true then solNames 2 ++ ["E_src", "rho_src", "rhou_src", "rhov_src", "T"] else solNames 2) ↔
          RequiredOk fs (["rho", "rhou", "E"] ++ (if 2 = 2 then ["rhov"] else []) ++
            if withParticles then ["rho_src", "rhou_src", "rhov_src", "E_src", "T"] else []) := by
        apply hmem; intro x
        cases withParticles <;> simp [solNames] <;> tauto
      rw [e]; simp [solNames]; tauto
  · rw [if_neg h]
    push Not at h
    simp [h.1, h.2]

theorem sol_swapped : solInit [("E", 9), ("rho", 9), ("rhou", 9)] 1 false = some [1, 2, 0] ∧
    ∀ vals : ℤ → ℝ, readByName [("E", 9), ("rho", 9), ("rhou", 9)] (inArr vals [1, 2, 0]) "E" = some (vals 1) := by
  refine ⟨by decide, fun vals => rfl⟩

/-! ### Particle sources -/

variable {N : ℕ}

theorem addAt_get (out : List (Fin N → ℝ)) (i j : ℕ) (v : Fin N → ℝ) (hj : j < out.length) :
    ∃ h : j < (addAt out i v).length, (addAt out i v)[j] = fun k => out[j] k + if i = j then v k else 0 := by
  refine ⟨by simpa [addAt] using hj, ?_⟩
  simp only [addAt, List.getElem_modify]
  funext k
  split_ifs <;> simp

/-- Specification: what the sources of the targets add to the equation of `name`. -/
noncomputable def gain (phys : ℤ → Fin N → ℝ) (src : String → ℤ) (targets : List String) (name : String) (k : Fin N) : ℝ :=
  (targets.map fun t => if t = name then phys (src t) k else 0).sum

/-- If the source field of every target exists and every target is integrated in time, the source of a target is added to the
equation of that target and to no other, whatever the order of the variables. -/
theorem sources_spec (fs : Fields) (hnd : (fs.map Prod.fst).Nodup) (intNames : List String) (hni : intNames.Nodup)
    (phys : ℤ → Fin N → ℝ) (targets : List String) (src : String → ℕ) (hsrc : ∀ t ∈ targets, IsVar fs (t ++ "_src") (src t))
    (hint : ∀ t ∈ targets, t ∈ intNames) (out : List (Fin N → ℝ)) (hlen : out.length = intNames.length) :
    ∃ out', addParticleSources fs intNames phys targets out = some out' ∧ out'.length = intNames.length ∧
      ∀ i (h : i < intNames.length) (h' : i < out'.length), out'[i] = fun k =>
        out[i] k + gain phys (fun t => (src t : ℤ)) targets intNames[i] k := by
  induction targets generalizing out with
  | nil =>
    refine ⟨out, rfl, hlen, fun i h h' => ?_⟩
    funext k
    simp [gain]
  | cons t ts ih =>
    obtain ⟨p, hp, hpe⟩ := List.mem_iff_getElem.mp (hint t List.mem_cons_self)
    have hidx : intNames.idxOf? t = some p := by
      rw [List.idxOf?_eq_some_iff]
      refine ⟨hp, hpe, fun j hj he => ?_⟩
      have := (List.Nodup.getElem_inj_iff hni (hi := by omega) (hj := hp)).mp (he.trans hpe.symm)
      omega
    have hat : indexAt (indexMap fs) (t ++ "_src") = some ((src t : ℕ) : ℤ) := by
      rcases idx_cases hnd (t ++ "_src") with ⟨m, hm, _, hat⟩ | ⟨hno, _, _⟩
      · rw [hat, isVar_unique hnd hm (hsrc t List.mem_cons_self)]
      · exact absurd (hsrc t List.mem_cons_self) (hno _)
    have hstep : addParticleSource fs intNames phys out t = some (addAt out p (phys (src t))) := by
      rw [addParticleSource, hat]
      simp only [Option.bind_some]
      rw [if_pos (by omega), hidx]
      rfl
    obtain ⟨out', h1, h2, h3⟩ := ih (fun u hu => hsrc u (List.mem_cons_of_mem _ hu)) (fun u hu => hint u (List.mem_cons_of_mem _ hu))
      (addAt out p (phys (src t))) (by simpa [addAt] using hlen)
    refine ⟨out', ?_, h2, fun i h h' => ?_⟩
    · rw [addParticleSources, List.foldlM_cons, hstep]
      exact h1
    · rw [h3 i h h']
      funext k
      obtain ⟨_, hg⟩ := addAt_get out p i (phys (src t)) (by omega)
      rw [hg]
      have hiff : (p = i) ↔ t = intNames[i] := by
        rw [← hpe]
        exact (List.Nodup.getElem_inj_iff hni).symm
      simp only [gain, List.map_cons, List.sum_cons]
      by_cases hpi : p = i
      · rw [if_pos hpi, if_pos (hiff.mp hpi)]; ring
      · rw [if_neg hpi, if_neg (fun h => hpi (hiff.mpr h))]; ring

/-- Full claim: "If it exists, add": targets without a source field are left alone. This is false: they stop the run. -/
theorem missing_source_throws (fs : Fields) (hnd : (fs.map Prod.fst).Nodup) (intNames : List String) (phys : ℤ → Fin N → ℝ)
    (before after : List String) (t : String) (hno : ∀ i, ¬ IsVar fs (t ++ "_src") i) (out : List (Fin N → ℝ)) :
    addParticleSources fs intNames phys (before ++ t :: after) out = none := by
  rw [addParticleSources, List.foldlM_append]
  cases h : List.foldlM (addParticleSource fs intNames phys) out before with
  | none => rfl
  | some o =>
    simp only [Option.bind_eq_bind, Option.bind_some, List.foldlM_cons]
    have : addParticleSource fs intNames phys o t = none := by
      rcases idx_cases hnd (t ++ "_src") with ⟨m, hm, _, _⟩ | ⟨_, _, hat⟩
      · exact absurd hm (hno m)
      · rw [addParticleSource, hat]; rfl
    rw [this]
    rfl

/-- For every accepted session of the Hasegawa-Wakatani systems with particles, the density source of the particles reaches the
equation of the density and nothing else. -/
theorem hw_sources (fs : Fields) (hnd : (fs.map Prod.fst).Nodup) (vs : List ℤ) (h : hwInit fs true = some vs)
    (phys : ℤ → Fin N → ℝ) (outNe outW : Fin N → ℝ) :
    ∃ s : ℕ, IsVar fs "ne_src" s ∧
      addParticleSources fs ["ne", "w"] phys ["ne"] [outNe, outW] = some [fun k => outNe k + phys s k, outW] := by
  rw [hwInit, driftReducedInit] at h
  obtain ⟨ints, h1, _⟩ := Option.bind_eq_some_iff.mp h
  obtain ⟨_, hreq, _⟩ := (timeInit_iff fs hnd _ _ _).mp h1
  obtain ⟨s, f, _, hf, _, hn, _⟩ := hreq "ne_src" (by simp)
  have hv : IsVar fs "ne_src" s := by rw [IsVar, hf]; simp [hn]
  refine ⟨s, hv, ?_⟩
  rcases idx_cases hnd ("ne" ++ "_src") with ⟨m, hm, _, hat⟩ | ⟨hno, _, _⟩
  · have := isVar_unique hnd hm hv
    subst this
    rw [addParticleSources, List.foldlM_cons, addParticleSource, hat]
    simp only [Option.bind_some]
    rw [if_pos (by omega)]
    rfl
  · exact absurd hv (hno _)

end Verif.Props.C69
