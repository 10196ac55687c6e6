import Verif.Lemmas.FloatExpansionLoops
import Verif.Props.C14_Project
import Verif.Lemmas.RoundingModes
import Mathlib.Data.List.Perm.Basic
import Mathlib.Data.List.Forall2

/-! C114: evaluation and projection of expansions in floating point arithmetic, with the atomic additions in any order. -/

namespace Verif.Props.C114
open Verif.Lemmas.Rounding Verif.Lemmas.FloatExpansion Verif.Spec.Rounding Verif.Spec.FloatExpansion Verif.Spec Verif.Model Verif.Model.FloatKernels Verif.Model.FloatExpansion
  Verif.Model.ExpansionLooping Verif.Model.BasisReference Verif.Model.BasisEvaluation Verif.Model.BasisEvaluateBase Verif.Lemmas Verif.Props.C13 Verif.Props.C14

variable {δ B : ℝ} {rnd : ℝ → ℝ}

/-- A particle of the cell: the value it deposits, its reference position, its collapsed coordinates and the values of the one dimensional functions the
kernels stored for it. -/
structure Particle where
  value : ℝ
  xi : ℝ × ℝ × ℝ
  e : ℝ × ℝ × ℝ
  l0 : List ℝ
  l1 : List ℝ
  l2 : List ℝ

/-- The collapsed coordinates are those of the reference position and not at the collapsed end, and the stored values are within `δ` of what the kernels compute
in exact arithmetic in local spaces of exactly the size needed. -/
def Computed (tol : ℝ) (cells : List (Shape × ℕ)) (shape : Shape) (n : ℕ) (δ B : ℝ) (p : Particle) : Prop :=
  CodeEta tol shape p.xi p.e ∧ OffCollapsed shape p.e.2.1 p.e.2.2 ∧
  ∃ L0 L1 L2, prepareBasis tol (tables ℝ cells) shape n p.xi (List.replicate (spaceSize shape n 0) none) (List.replicate (spaceSize shape n 1) none)
      (List.replicate (spaceSize shape n 2) none) = some (L0, L1, L2) ∧ Space δ B p.l0 L0 ∧ Space δ B p.l1 L1 ∧ Space δ B p.l2 L2

/-- The values of the basis functions of the element at the particle, in the order of the degrees of freedom. -/
noncomputable def basis (shape : Shape) (n : ℕ) (p : Particle) : List ℝ := evalModes shape n p.e.1 p.e.2.1 p.e.2.2

theorem basis_length (shape : Shape) (n : ℕ) (p : Particle) : (basis shape n p).length = (totalNumModesShape shape n).mode := by
  rw [basis, (eval_modes_is_basis shape n _ _ _).1, (eval_modes_is_basis shape n _ _ _).2]

/-! ### Evaluation -/

/-- **C114, evaluation.** The computed value of an expansion at a particle is its exact value up to the error of adding one product for each degree of freedom. -/
theorem evaluation_error (R : Rounding 53 (-1074) rnd) (contract : ℕ → Bool) (hδ : 0 ≤ δ) (hB : 1 ≤ B) (tol : ℝ) (cells : List (Shape × ℕ)) (shape : Shape) (n : ℕ)
    (hc : (shape, n) ∈ cells) (h2 : 2 ≤ n) (p : Particle) (hp : Computed tol cells shape n δ B p) (dofs : List ℝ) (hd : dofs.length = (totalNumModesShape shape n).mode) :
    ∃ v, loopEvaluateF rnd contract shape n dofs p.l0 p.l1 p.l2 = some v ∧
      |v - dot dofs (basis shape n p)| ≤ sumError δ B dofs.length 0 (dofs.map (|·|)).sum := by
  obtain ⟨⟨g0, g1, g2⟩, hoff, L0, L1, L2, hL, k0, k1, k2⟩ := hp
  have hex : evaluateParticle tol (tables ℝ cells) shape n p.xi (List.replicate (spaceSize shape n 0) none) (List.replicate (spaceSize shape n 1) none)
      (List.replicate (spaceSize shape n 2) none) dofs = some (some (dot dofs (basis shape n p))) := by
    unfold basis
    by_cases h3 : shape = .tri ∨ shape = .quad
    · rw [evaluate_is_reference_partial tol cells shape n hc h2 p.xi _ _ _ (by simp) (by simp) (by simp) dofs hd.ge p.e.1 p.e.2.1
        (collapse tol shape p.xi.1 p.xi.2.1 p.xi.2.2).2.2 (by rw [← g0, ← g1]) (by rcases h3 with rfl | rfl <;> exact hoff),
        evalModes_2d shape n p.e.1 p.e.2.1 _ p.e.2.2 h3]
    · have g2' := g2 (fun h => h3 (Or.inl h)) (fun h => h3 (Or.inr h))
      rw [evaluate_is_reference_partial tol cells shape n hc h2 p.xi _ _ _ (by simp) (by simp) (by simp) dofs hd.ge p.e.1 p.e.2.1 p.e.2.2
        (by rw [← g0, ← g1, ← g2']) hoff]
  rw [evaluateParticle, hL, Option.bind_some] at hex
  have h := evaluate_near R hδ hB contract shape n dofs k0 k1 k2
  dsimp only at hex
  rw [hex] at h
  cases hv : loopEvaluateF rnd contract shape n dofs p.l0 p.l1 p.l2 with
  | none => rw [hv] at h; exact h.elim
  | some v =>
    rw [hv] at h
    obtain ⟨k, hk, hW, hacc⟩ := h
    refine ⟨v, rfl, (hacc _ rfl).2.trans (accum_mono hδ hB hk hW ?_)⟩
    conv_rhs => rw [← List.take_append_drop k dofs]
    rw [List.map_append, List.sum_append]
    have : 0 ≤ ((dofs.drop k).map (|·|)).sum := List.sum_nonneg fun x hx => by
      obtain ⟨y, -, rfl⟩ := List.mem_map.mp hx
      exact abs_nonneg y
    linarith

/-! ### Projection -/

/-- An addition, with the value of the particle and the exact increment. -/
abbrev Tag := ℕ × ℝ × ℝ

/-- The tags of an entry. -/
def at_ (m : ℕ) (ts : List Tag) : List Tag := ts.filter fun t => t.1 = m

/-- Additions with their tags. -/
def Tagged (δ B : ℝ) (a : ℕ × ℝ) (t : Tag) : Prop := a.1 = t.1 ∧ Term δ B t.2.1 a.2 (some t.2.2)

theorem apply_near (R : Rounding 53 (-1074) rnd) (hδ : 0 ≤ δ) (hB : 1 ≤ B) {adds : List (ℕ × ℝ)} {ts : List Tag} (h : List.Forall₂ (Tagged δ B) adds ts)
    (c : ℕ → ℝ) (cur : List ℝ) (k : ℕ → ℕ) (W V : ℕ → ℝ) (hb : ∀ t ∈ ts, t.1 < cur.length)
    (h0 : ∀ m < cur.length, Accum δ B (c m) (k m) (W m) (cur.getD m 0) (some (V m))) :
    ∃ out, applyAddsF rnd cur adds = some out ∧ out.length = cur.length ∧ ∀ m < cur.length,
      Accum δ B (c m) (k m + (at_ m ts).length) (W m + ((at_ m ts).map fun t => |t.2.1|).sum) (out.getD m 0) (some (V m + ((at_ m ts).map fun t => t.2.2).sum)) := by
  induction h generalizing cur k W V with
  | nil => exact ⟨cur, rfl, rfl, fun m hm => by simpa [at_] using h0 m hm⟩
  | @cons a t adds ts hat _ ih =>
    obtain ⟨m0, v⟩ := a
    obtain ⟨hm0, hterm⟩ := hat
    dsimp only at hm0 hterm
    have hlt : m0 < cur.length := by rw [hm0]; exact hb t (by simp)
    have hrd : Mem.read cur (m0 : ℤ) = some (cur.getD m0 0) := by
      rw [Mem.read_ofNat, List.getElem?_eq_getElem hlt, List.getD_eq_getElem _ _ hlt]
    have hwr : Mem.write cur (m0 : ℤ) (rnd (cur.getD m0 0 + v)) = some (cur.set m0 (rnd (cur.getD m0 0 + v))) := by
      unfold Mem.write
      rw [if_pos ⟨by omega, by omega⟩, Int.toNat_natCast]
    obtain ⟨out, ho, hl, hout⟩ := ih (cur.set m0 (rnd (cur.getD m0 0 + v))) (fun m => if m = m0 then k m + 1 else k m) (fun m => if m = m0 then W m + |t.2.1| else W m)
      (fun m => if m = m0 then V m + t.2.2 else V m) (fun s hs => by rw [List.length_set]; exact hb s (by simp [hs])) (by
        intro m hm
        rw [List.length_set] at hm
        by_cases e : m = m0
        · subst e
          rw [if_pos rfl, if_pos rfl, if_pos rfl, List.getD_eq_getElem _ _ (by rw [List.length_set]; exact hm), List.getElem_set_self, add_comm (cur.getD m 0)]
          exact accum_step R hδ hB (h0 m hm) hterm
        · rw [if_neg e, if_neg e, if_neg e, List.getD_eq_getElem _ _ (by rw [List.length_set]; exact hm), List.getElem_set_ne (by omega), ← List.getD_eq_getElem _ 0 hm]
          exact h0 m hm)
    refine ⟨out, ?_, by rw [hl, List.length_set], fun m hm => ?_⟩
    · rw [applyAddsF, hrd, Option.bind_some, hwr, Option.bind_some, ho]
    · have := hout m (by rw [List.length_set]; exact hm)
      by_cases e : m = m0
      · rw [if_pos e, if_pos e, if_pos e] at this
        have e2 : at_ m (t :: ts) = t :: at_ m ts := by unfold at_; rw [List.filter_cons_of_pos (by simp [← hm0, e])]
        rw [e2, List.length_cons, List.map_cons, List.sum_cons, List.map_cons, List.sum_cons]
        rw [show k m + ((at_ m ts).length + 1) = k m + 1 + (at_ m ts).length by ring, ← add_assoc (W m), ← add_assoc (V m)]
        exact this
      · rw [if_neg e, if_neg e, if_neg e] at this
        have e2 : at_ m (t :: ts) = at_ m ts := by unfold at_; rw [List.filter_cons_of_neg (by simp [← hm0]; exact fun h => e h.symm)]
        rw [e2]
        exact this

/-- The tags of a particle. -/
noncomputable def tags (shape : Shape) (n : ℕ) (p : Particle) : List Tag := (basis shape n p).zipIdx.map fun vk => (vk.2, p.value, p.value * vk.1)

theorem at_tags (shape : Shape) (n : ℕ) (p : Particle) (m : ℕ) (hm : m < (totalNumModesShape shape n).mode) :
    at_ m (tags shape n p) = [(m, p.value, p.value * (basis shape n p).getD m 0)] := by
  have key : ∀ (l : List ℝ) (k : ℕ), k ≤ m → m < k + l.length →
      ((l.zipIdx k).map fun vk : ℝ × ℕ => ((vk.2, p.value, p.value * vk.1) : Tag)).filter (fun t => t.1 = m) = [(m, p.value, p.value * l.getD (m - k) 0)] := by
    intro l
    induction l with
    | nil => intro k h1 h2; simp at h2; omega
    | cons x l ih =>
      intro k h1 h2
      rw [List.zipIdx_cons, List.map_cons]
      by_cases e : k = m
      · subst e
        rw [List.filter_cons_of_pos (by simp), Nat.sub_self, List.getD_cons_zero]
        congr 1
        rw [List.filter_eq_nil_iff]
        intro t ht
        obtain ⟨⟨y, j⟩, hj, rfl⟩ := List.mem_map.mp ht
        have := List.le_snd_of_mem_zipIdx hj
        simp at this ⊢
        omega
      · rw [List.filter_cons_of_neg (by simpa using e), ih (k + 1) (by omega) (by simp at h2; omega)]
        obtain ⟨j, hj⟩ : ∃ j, m - k = j + 1 := ⟨m - k - 1, by omega⟩
        rw [hj, List.getD_cons_succ, show m - (k + 1) = j by omega]
  have := key (basis shape n p) 0 (Nat.zero_le _) (by rw [basis_length]; omega)
  simpa [at_, tags] using this

theorem at_all (shape : Shape) (n : ℕ) (ps : List Particle) (m : ℕ) (hm : m < (totalNumModesShape shape n).mode) :
    at_ m (ps.flatMap (tags shape n)) = ps.map fun p => (m, p.value, p.value * (basis shape n p).getD m 0) := by
  unfold at_
  induction ps with
  | nil => rfl
  | cons p ps ih =>
    rw [List.flatMap_cons, List.filter_append, ih, List.map_cons]
    have := at_tags shape n p m hm
    unfold at_ at this
    rw [this]; rfl

/-- The additions of one particle. -/
theorem particle_adds (R : Rounding 53 (-1074) rnd) (hδ : 0 ≤ δ) (hB : 1 ≤ B) (tol : ℝ) (cells : List (Shape × ℕ)) (shape : Shape) (n : ℕ)
    (hc : (shape, n) ∈ cells) (h2 : 2 ≤ n) (p : Particle) (hp : Computed tol cells shape n δ B p) :
    ∃ a, loopProjectF rnd shape n p.value p.l0 p.l1 p.l2 = some a ∧ List.Forall₂ (Tagged δ B) a (tags shape n p) := by
  obtain ⟨⟨g0, g1, g2⟩, hoff, L0, L1, L2, hL, k0, k1, k2⟩ := hp
  obtain ⟨adds, hex, h1, h2'⟩ := (projection_all tol cells shape n hc h2 p.xi (List.replicate (spaceSize shape n 0) none) (List.replicate (spaceSize shape n 1) none)
      (List.replicate (spaceSize shape n 2) none) (by simp) (by simp) (by simp) p.e ⟨g0, g1, g2⟩ p.value).1 hoff
  rw [projectParticle, hL, Option.bind_some] at hex
  have h := project_near R hδ hB shape n p.value k0 k1 k2
  dsimp only at hex
  rw [hex] at h
  cases hv : loopProjectF rnd shape n p.value p.l0 p.l1 p.l2 with
  | none => rw [hv] at h; exact h.elim
  | some a =>
    rw [hv] at h
    refine ⟨a, rfl, ?_⟩
    have e : tags shape n p = adds.map fun x => (x.1, p.value, x.2) := by
      refine List.ext_getElem ?_ fun i i1 i2 => ?_
      · have := congrArg List.length h2'
        simp only [List.length_map] at this
        simp [tags, basis, this]
      · have q1 : (adds.map Prod.fst)[i]'(by simpa using i2) = i := by simp [h1]
        have q2 : (adds.map Prod.snd)[i]'(by simpa using i2) = ((evalModes shape n p.e.1 p.e.2.1 p.e.2.2).map (p.value * ·))[i]'(by rw [← h2']; simpa using i2) := by simp only [h2']
        simp only [List.getElem_map] at q1 q2
        simp [tags, basis, q1, q2]
    rw [e, List.forall₂_map_right_iff]
    have h' : List.Forall₂ (fun x y => x.1 = y.1 ∧ IsFloat 53 (-1074) x.2 ∧ Near δ B p.value 3 x.2 y.2) a (lift adds) := h
    unfold lift at h'
    rw [List.forall₂_map_right_iff] at h'
    exact h'.imp fun x y hxy => ⟨hxy.1, hxy.2.2.term hδ hB le_rfl⟩

/-- **C114, projection.** Any number of particles of the cell, their atomic additions in any order: every degree of freedom of the element is increased by the sum over the particles of
the value times the basis function, up to the error of adding one product for each particle, and nothing else is changed. -/
theorem projection_error (R : Rounding 53 (-1074) rnd) (hδ : 0 ≤ δ) (hB : 1 ≤ B) (tol : ℝ) (cells : List (Shape × ℕ)) (shape : Shape) (n : ℕ)
    (hc : (shape, n) ∈ cells) (h2 : 2 ≤ n) (ps : List Particle) (hp : ∀ p ∈ ps, Computed tol cells shape n δ B p) :
    ∃ all : Particle → List (ℕ × ℝ), (∀ p ∈ ps, loopProjectF rnd shape n p.value p.l0 p.l1 p.l2 = some (all p)) ∧
      ∀ adds : List (ℕ × ℝ), adds.Perm (ps.flatMap all) → ∀ c : List ℝ, (totalNumModesShape shape n).mode ≤ c.length →
      ∃ out, applyAddsF rnd c adds = some out ∧ out.length = c.length ∧
        (∀ m < (totalNumModesShape shape n).mode, |out.getD m 0 - (c.getD m 0 + (ps.map fun p => p.value * (basis shape n p).getD m 0).sum)| ≤
          sumError δ B ps.length (c.getD m 0) (ps.map fun p => |p.value|).sum) ∧
        ∀ m, (totalNumModesShape shape n).mode ≤ m → out[m]? = c[m]? := by
  have hall : ∀ p ∈ ps, ∃ a, loopProjectF rnd shape n p.value p.l0 p.l1 p.l2 = some a ∧ List.Forall₂ (Tagged δ B) a (tags shape n p) := fun p h =>
    particle_adds R hδ hB tol cells shape n hc h2 p (hp p h)
  refine ⟨fun p => (loopProjectF rnd shape n p.value p.l0 p.l1 p.l2).getD [], fun p h => ?_, fun adds hperm c hcl => ?_⟩
  · obtain ⟨a, ha, -⟩ := hall p h
    dsimp only
    rw [ha, Option.getD_some]
  · have hF : List.Forall₂ (Tagged δ B) (ps.flatMap fun p => (loopProjectF rnd shape n p.value p.l0 p.l1 p.l2).getD []) (ps.flatMap (tags shape n)) := by
      clear hperm hp
      induction ps with
      | nil => exact List.Forall₂.nil
      | cons p ps ih =>
        rw [List.flatMap_cons, List.flatMap_cons]
        refine List.rel_append ?_ (ih fun p h => hall p (by simp [h]))
        obtain ⟨a, ha, ha2⟩ := hall p (by simp)
        rw [ha]; exact ha2
    obtain ⟨ts, hts, hperm2⟩ := List.perm_comp_forall₂ hperm hF
    have hidx : ∀ t ∈ ts, t.1 < (totalNumModesShape shape n).mode := by
      intro t ht
      obtain ⟨p, -, htp⟩ := List.mem_flatMap.mp (hperm2.subset ht)
      unfold tags at htp
      obtain ⟨⟨y, j⟩, hj, rfl⟩ := List.mem_map.mp htp
      have := List.snd_lt_of_mem_zipIdx hj
      rw [basis_length] at this
      exact this
    obtain ⟨out, ho, hl, hout⟩ := apply_near R hδ hB hts (fun m => c.getD m 0) c (fun _ => 0) (fun _ => 0) (fun m => c.getD m 0) (fun t ht => (hidx t ht).trans_le hcl)
      fun m _ => accum_init _
    refine ⟨out, ho, hl, fun m hm => ?_, fun m hm => ?_⟩
    · obtain ⟨-, h⟩ := hout m (by omega)
      have hpa : (at_ m ts).Perm (ps.map fun p => (m, p.value, p.value * (basis shape n p).getD m 0)) := by
        rw [← at_all shape n ps m hm]; exact hperm2.filter _
      have e1 : (at_ m ts).length = ps.length := by rw [hpa.length_eq, List.length_map]
      have e2 : ((at_ m ts).map fun t => |t.2.1|).sum = (ps.map fun p => |p.value|).sum := by
        rw [(hpa.map _).sum_eq, List.map_map]; rfl
      have e3 : ((at_ m ts).map fun t => t.2.2).sum = (ps.map fun p => p.value * (basis shape n p).getD m 0).sum := by
        rw [(hpa.map _).sum_eq, List.map_map]; rfl
      have := (h _ rfl).2
      rw [e1, e2, e3, zero_add, zero_add] at this
      exact this
    · clear hout
      -- untouched entries
      have key : ∀ (adds : List (ℕ × ℝ)) (cur out : List ℝ), (∀ a ∈ adds, a.1 ≠ m) → applyAddsF rnd cur adds = some out → out[m]? = cur[m]? := by
        intro adds
        induction adds with
        | nil => intro cur out _ h; rw [applyAddsF] at h; rw [Option.some.inj h]
        | cons a adds ih =>
          intro cur out hne h
          obtain ⟨m0, v⟩ := a
          rw [applyAddsF] at h
          obtain ⟨old, -, h⟩ := Option.bind_eq_some_iff.mp h
          obtain ⟨nxt, hw, h⟩ := Option.bind_eq_some_iff.mp h
          rw [ih nxt out (fun a ha => hne a (by simp [ha])) h]
          unfold Mem.write at hw
          split_ifs at hw
          rw [← Option.some.inj hw, Int.toNat_natCast, List.getElem?_set_ne (hne (m0, v) (by simp))]
      refine key adds c out (fun a ha e => ?_) ho
      obtain ⟨i, hi, hia⟩ := List.getElem_of_mem ha
      have hlen := hts.length_eq
      have := (List.forall₂_iff_get.mp hts).2 i hi (by omega)
      simp only [List.get_eq_getElem] at this
      rw [hia] at this
      have h3 := hidx _ (List.getElem_mem (l := ts) (by omega : i < ts.length))
      rw [← this.1, e] at h3
      omega

end Verif.Props.C114
