import Verif.Model.Mpi
import Mathlib.Data.Nat.Count
import Mathlib.Tactic.Ring
import Mathlib.Algebra.Order.BigOperators.Group.Finset
import Mathlib.Data.Fintype.BigOperators
import Mathlib.Algebra.BigOperators.Fin

/-!
A proof rule for programs of `Verif.Model.Mpi` which run through a common sequence of phases, each ended by a `waitall` or a barrier, such that the
messages sent in a phase are received in the same phase.
-/

namespace Verif.Lemmas.Mpi
open Verif.Model.Mpi

variable {n : ℕ} {M O : Type}

/-- What the ranks do in each phase. -/
structure Protocol (n : ℕ) (M O : Type) where
  /-- Phase, source, destination, tag: the messages sent. -/
  hist : ℕ → Fin n → Fin n → ℕ → List M
  /-- Phase, source, destination: the sum of the accumulations. -/
  accs : ℕ → Fin n → Fin n → ℤ
  isBar : ℕ → Bool
  isAcc : ℕ → Bool
  last : ℕ
  post : Fin n → O → Prop
  hacc : ∀ p, isAcc p = false → accs p = fun _ _ => 0

namespace Protocol
variable (P : Protocol n M O)

def H (p : ℕ) (s d : Fin n) (t : ℕ) : List M := (List.range p).flatMap fun q => P.hist q s d t
def C (p : ℕ) (s d : Fin n) : ℤ := ∑ q ∈ Finset.range p, P.accs q s d
def E (p : ℕ) : ℕ := Nat.count (fun q => P.isBar q = true) p
def Quiet (p : ℕ) : Prop := ∀ q, P.E q = P.E p → P.isAcc q = false
def AnySafe (p : ℕ) (r : Fin n) (t : ℕ) : Prop := ∀ q, p < q → P.E q = P.E p → ∀ s, P.hist q s r t = []
def Covers (r : Fin n) (p : ℕ) (pend : List (Key n)) : Prop :=
  ∀ t, (pend.count (none, t) = 0 ∧ ∀ s, pend.count (some s, t) = (P.hist p s r t).length) ∨
    ((∀ s, pend.count (some s, t) = 0) ∧ pend.count (none, t) = ∑ s, (P.hist p s r t).length ∧ P.AnySafe p r t)

theorem H_succ (p : ℕ) (s d : Fin n) (t : ℕ) : P.H (p + 1) s d t = P.H p s d t ++ P.hist p s d t := by
  unfold H; rw [List.range_succ, List.flatMap_append]; simp
theorem C_succ (p : ℕ) (s d : Fin n) : P.C (p + 1) s d = P.C p s d + P.accs p s d := Finset.sum_range_succ _ _
theorem E_succ (p : ℕ) : P.E (p + 1) = P.E p + if P.isBar p = true then 1 else 0 := Nat.count_succ _ _
theorem E_mono {a b : ℕ} (h : a ≤ b) : P.E a ≤ P.E b := Nat.count_monotone _ h

theorem H_prefix {a b : ℕ} (h : a ≤ b) (s d : Fin n) (t : ℕ) : P.H a s d t <+: P.H b s d t := by
  induction b, h using Nat.le_induction with
  | base => exact List.prefix_refl _
  | succ b _ ih => rw [H_succ]; exact ih.trans (List.prefix_append _ _)

theorem C_quiet {a b : ℕ} (h : P.E a = P.E b) (hq : P.Quiet a) (s d : Fin n) : P.C a s d = P.C b s d := by
  have key : ∀ a b, a ≤ b → P.E a = P.E b → P.Quiet a → P.C a s d = P.C b s d := by
    intro a b hab
    induction b, hab using Nat.le_induction with
    | base => intros; rfl
    | succ b hb ih =>
      intro h hq
      have h1 := P.E_mono hb
      have h2 := P.E_mono (Nat.le_succ b)
      have hE : P.E a = P.E b := le_antisymm h1 (h ▸ h2)
      rw [C_succ, ← ih hE hq, P.hacc b (hq b hE.symm)]; simp
  rcases le_total a b with hab | hab
  · exact key a b hab h hq
  · exact (key b a hab h.symm (fun q hq' => hq q (hq'.trans h.symm))).symm

theorem H_any {a b : ℕ} {r : Fin n} {t : ℕ} (hs : P.AnySafe a r t) (hab : a ≤ b) (h : P.E b = P.E a) (s : Fin n) :
    P.H (b + 1) s r t = P.H (a + 1) s r t := by
  induction b, hab using Nat.le_induction with
  | base => rfl
  | succ b hb ih =>
    have h1 := P.E_mono hb
    have h2 := P.E_mono (Nat.le_succ b)
    have hE : P.E b = P.E a := le_antisymm (h ▸ h2) h1
    rw [H_succ, hs (b + 1) (by omega) h s, List.append_nil, ih hE]
end Protocol

/-- The messages matched by the posted receives which come from `s` with tag `t`. -/
def D (got : Key n → List (Fin n × M)) (s : Fin n) (t : ℕ) : List M :=
  ((got (some s, t)) ++ (got (none, t)).filter (fun x => decide (x.1 = s))).map Prod.snd

/-- The receives `pend` of rank `r` matched exactly the messages of the phase `p`. -/
structure Matches (P : Protocol n M O) (r : Fin n) (p : ℕ) (pend : List (Key n)) (got : Key n → List (Fin n × M)) : Prop where
  len : ∀ key, (got key).length = pend.count key
  src : ∀ s t x, x ∈ got (some s, t) → x.1 = s
  eq : ∀ s t, D got s t = P.hist p s r t

structure Ghost (n : ℕ) (M : Type) where
  phase : ℕ
  sent : Fin n → ℕ → List M
  accd : Fin n → ℤ
  base : Option (ℤ × ℕ)
  mid : Bool
  pend : List (Key n)

/-- The ghost state at the start of a phase. -/
def Ghost.at (p : ℕ) (base : Option (ℤ × ℕ)) : Ghost n M := ⟨p, fun _ _ => [], fun _ => 0, base, false, []⟩

def addSent (sent : Fin n → ℕ → List M) (d : Fin n) (t : ℕ) (m : M) : Fin n → ℕ → List M :=
  fun d' t' => if d' = d ∧ t' = t then sent d' t' ++ [m] else sent d' t'

/-- The program of rank `r` follows the protocol from the ghost state on. -/
def Conf (P : Protocol n M O) (r : Fin n) : Prog n M O → Ghost n M → Prop
  | .done o, g => P.post r o ∧ g.mid = false ∧ g.phase = P.last ∧ P.isBar P.last = false ∧ P.Covers r g.phase g.pend ∧
      g.sent = P.hist g.phase r
  | .fail, _ => False
  | .send d t m k, g => g.mid = false ∧ P.isBar g.phase = false ∧ P.Covers r g.phase g.pend ∧
      g.sent d t ++ [m] <+: P.hist g.phase r d t ∧ Conf P r k { g with sent := addSent g.sent d t m }
  | .irecv s t k, g => g.mid = false ∧ P.isBar g.phase = false ∧
      (match s with
        | some _ => g.pend.count (none, t) = 0
        | none => ∀ s', g.pend.count (some s', t) = 0) ∧
      Conf P r k { g with pend := g.pend ++ [(s, t)] }
  | .waitall k, g => g.mid = false ∧ P.isBar g.phase = false ∧ g.phase < P.last ∧ P.Covers r g.phase g.pend ∧ g.sent = P.hist g.phase r ∧
      g.accd = P.accs g.phase r ∧
      ∀ got, Matches P r g.phase g.pend got → Conf P r (k (collect g.pend got)) (.at (g.phase + 1) g.base)
  | .ibarrier k, g => g.mid = false ∧ P.isBar g.phase = true ∧ g.phase < P.last ∧ g.pend = [] ∧ (P.hist g.phase = fun _ _ _ => []) ∧
      g.accd = P.accs g.phase r ∧ Conf P r k { g with mid := true }
  | .bwait k, g => g.mid = true ∧ Conf P r k (.at (g.phase + 1) g.base)
  | .winStore v k, g => g.mid = false ∧ P.Quiet g.phase ∧ Conf P r k { g with base := some (v, g.phase) }
  | .winLoad k, g => g.mid = false ∧ P.Quiet g.phase ∧ ∃ v q, g.base = some (v, q) ∧
      Conf P r (k (v + ∑ s, (P.C g.phase s r - P.C q s r))) g
  | .accumulate d v k, g => g.mid = false ∧ P.isAcc g.phase = true ∧
      Conf P r k { g with accd := Function.update g.accd d (g.accd d + v) }

/-- All of the messages from `s` to `r` with tag `t` which `r` has received. -/
def recvTot (P : Protocol n M O) (S : Sys n M O) (g : Fin n → Ghost n M) (s r : Fin n) (t : ℕ) : List M :=
  P.H (g r).phase s r t ++ D (S.got r) s t
/-- All of the messages from `s` to `r` with tag `t` which `s` has sent. -/
def sentTot (P : Protocol n M O) (g : Fin n → Ghost n M) (s r : Fin n) (t : ℕ) : List M :=
  P.H (g s).phase s r t ++ (g s).sent r t
/-- The sum of all accumulations of `s` to `r`. -/
def accTot (P : Protocol n M O) (g : Fin n → Ghost n M) (s r : Fin n) : ℤ := P.C (g s).phase s r + (g s).accd r

structure Inv (P : Protocol n M O) (S : Sys n M O) (g : Fin n → Ghost n M) : Prop where
  conf : ∀ r, Conf P r (S.prog r) (g r)
  pend : ∀ r, S.posted r = (g r).pend
  chan : ∀ s r t, recvTot P S g s r t ++ S.net s r t = sentTot P g s r t
  pre : ∀ s r t, (g s).sent r t <+: P.hist (g s).phase s r t
  uni : ∀ r t, (g r).pend.count (none, t) = 0 ∨ ∀ s, (g r).pend.count (some s, t) = 0
  glen : ∀ r key, (S.got r key).length ≤ (g r).pend.count key
  gsrc : ∀ r s t x, x ∈ S.got r (some s, t) → x.1 = s
  passed : ∀ r, S.passed r = P.E (g r).phase
  entered : ∀ r, S.entered r = P.E (g r).phase + if (g r).mid = true then 1 else 0
  bar : ∀ r s, S.passed s ≤ S.entered r
  midOk : ∀ r, (g r).mid = true → P.isBar (g r).phase = true ∧ (g r).phase < P.last ∧ (g r).pend = [] ∧
    (P.hist (g r).phase = fun _ _ _ => []) ∧ (g r).accd = P.accs (g r).phase r
  lastOk : ∀ r, (g r).phase ≤ P.last
  acc0 : ∀ r, P.isAcc (g r).phase = false → (g r).accd = fun _ => 0
  win : ∀ r v q, (g r).base = some (v, q) → S.win r = v + ∑ s, (accTot P g s r - P.C q s r)

namespace Inv
variable {P : Protocol n M O} {S : Sys n M O} {g : Fin n → Ghost n M}

theorem init (prog : Fin n → Prog n M O) (w : Fin n → ℤ) (h : ∀ r, Conf P r (prog r) (.at 0 none)) :
    Inv P (Sys.init prog w) (fun _ => .at 0 none) where
  conf := h
  pend _ := rfl
  chan s r t := by simp [recvTot, sentTot, Protocol.H, D, Sys.init, Ghost.at]
  pre s r t := List.nil_prefix
  uni r t := by simp [Ghost.at]
  glen r key := by simp [Sys.init]
  gsrc r s t x h := by simp [Sys.init] at h
  passed r := by simp [Sys.init, Protocol.E, Ghost.at]
  entered r := by simp [Sys.init, Protocol.E, Ghost.at]
  bar r s := Nat.zero_le _
  midOk r h := by simp [Ghost.at] at h
  lastOk r := Nat.zero_le _
  acc0 r _ := rfl
  win r v q h := by simp [Ghost.at] at h

/-- In a quiet phase of `r` all of the accumulations to `r` of the earlier phases have happened and no others. -/
theorem accTot_quiet (I : Inv P S g) {r : Fin n} (hmid : (g r).mid = false) (hq : P.Quiet (g r).phase) (s d : Fin n) :
    accTot P g s d = P.C (g r).phase s d := by
  unfold accTot
  have h1 := I.bar r s
  have h2 := I.bar s r
  rw [I.passed, I.entered, hmid] at h1
  rw [I.passed, I.entered] at h2
  simp only [Bool.false_eq_true, if_false, Nat.add_zero] at h1
  cases hm : (g s).mid with
  | false =>
    rw [hm] at h2
    simp only [Bool.false_eq_true, if_false, Nat.add_zero] at h2
    have hE : P.E (g s).phase = P.E (g r).phase := le_antisymm h1 h2
    rw [I.acc0 s (hq _ hE), add_zero]
    exact (P.C_quiet hE.symm hq s d).symm
  | true =>
    obtain ⟨hb, _, _, _, ha⟩ := I.midOk s hm
    rw [hm] at h2
    simp only [if_true] at h2
    by_cases hE : P.E (g s).phase = P.E (g r).phase
    · rw [I.acc0 s (hq _ hE), add_zero]
      exact (P.C_quiet hE.symm hq s d).symm
    · have hE' : P.E (g r).phase = P.E ((g s).phase + 1) := by
        rw [P.E_succ, if_pos hb]; omega
      rw [ha, ← P.C_succ]
      exact (P.C_quiet hE' hq s d).symm

theorem sent_prefix (I : Inv P S g) (s r : Fin n) (t : ℕ) : sentTot P g s r t <+: P.H ((g s).phase + 1) s r t := by
  unfold sentTot
  rw [P.H_succ]
  exact (List.prefix_append_right_inj _).mpr (I.pre s r t)

theorem recv_prefix (I : Inv P S g) (s r : Fin n) (t : ℕ) : recvTot P S g s r t <+: P.H ((g s).phase + 1) s r t :=
  ((List.prefix_append _ _).trans (by rw [I.chan s r t])).trans (I.sent_prefix s r t)

/-- Once the receives of the phase are posted the matched messages are messages of this phase. -/
theorem D_prefix (I : Inv P S g) {r : Fin n} (hmid : (g r).mid = false) (hc : P.Covers r (g r).phase (g r).pend) (s : Fin n) (t : ℕ) :
    D (S.got r) s t <+: P.hist (g r).phase s r t := by
  have hp := I.recv_prefix s r t
  rcases hc t with ⟨h0, h1⟩ | ⟨h0, h1, hs⟩
  · -- named: by the number of receives
    have hn : S.got r (none, t) = [] := List.length_eq_zero_iff.mp (Nat.le_zero.mp (h0 ▸ I.glen r (none, t)))
    have hl : (D (S.got r) s t).length ≤ (P.hist (g r).phase s r t).length := by
      unfold D; rw [hn]; simp only [List.filter_nil, List.append_nil, List.length_map]
      exact h1 s ▸ I.glen r (some s, t)
    have hp2 : recvTot P S g s r t <+: P.H (max ((g s).phase + 1) ((g r).phase + 1)) s r t := hp.trans (P.H_prefix (le_max_left _ _) _ _ _)
    have hp3 := P.H_prefix (le_max_right ((g s).phase + 1) ((g r).phase + 1)) s r t
    have hle : (recvTot P S g s r t).length ≤ (P.H ((g r).phase + 1) s r t).length := by
      unfold recvTot; rw [P.H_succ, List.length_append, List.length_append]; omega
    have := List.prefix_of_prefix_length_le hp2 hp3 hle
    unfold recvTot at this
    rw [P.H_succ] at this
    exact (List.prefix_append_right_inj _).mp this
  · -- any source: by the barrier
    have hb := I.bar r s
    rw [I.passed, I.entered, hmid] at hb
    simp only [Bool.false_eq_true, if_false, Nat.add_zero] at hb
    have hp2 : recvTot P S g s r t <+: P.H ((g r).phase + 1) s r t := by
      rcases le_total (g r).phase (g s).phase with h | h
      · rw [← P.H_any hs h (le_antisymm hb (P.E_mono h)) s]; exact hp
      · exact hp.trans (P.H_prefix (by omega) _ _ _)
    unfold recvTot at hp2
    rw [P.H_succ] at hp2
    exact (List.prefix_append_right_inj _).mp hp2

theorem length_filter_sum (l : List (Fin n × M)) : ∑ s, (l.filter (fun x => decide (x.1 = s))).length = l.length := by
  induction l with
  | nil => simp
  | cons a l ih =>
    simp only [List.filter_cons, List.length_cons]
    have : ∀ s, (if decide (a.1 = s) = true then a :: l.filter (fun x => decide (x.1 = s)) else l.filter (fun x => decide (x.1 = s))).length
        = (l.filter (fun x => decide (x.1 = s))).length + if a.1 = s then 1 else 0 := by
      intro s; by_cases h : a.1 = s <;> simp [h]
    simp only [this, Finset.sum_add_distrib, ih, Finset.sum_ite_eq, Finset.mem_univ, if_true]

/-- When all of the receives have matched they have matched exactly the messages of the phase. -/
theorem matches_of_full (I : Inv P S g) {r : Fin n} (hmid : (g r).mid = false) (hc : P.Covers r (g r).phase (g r).pend)
    (hf : ∀ key, (S.got r key).length = (g r).pend.count key) : Matches P r (g r).phase (g r).pend (S.got r) where
  len := hf
  src s t x hx := I.gsrc r s t x hx
  eq s t := by
    have hp := I.D_prefix hmid hc s t
    refine hp.eq_of_length ?_
    rcases hc t with ⟨h0, h1⟩ | ⟨h0, h1, hs⟩
    · have hn : S.got r (none, t) = [] := List.length_eq_zero_iff.mp (h0 ▸ hf (none, t))
      unfold D; rw [hn]; simp only [List.filter_nil, List.append_nil, List.length_map]
      rw [hf, h1]
    · have hle : ∀ s ∈ Finset.univ, (D (S.got r) s t).length ≤ (P.hist (g r).phase s r t).length :=
        fun s _ => (I.D_prefix hmid hc s t).length_le
      have hD : ∀ s, (D (S.got r) s t).length = ((S.got r (none, t)).filter (fun x => decide (x.1 = s))).length := by
        intro s
        have hn : S.got r (some s, t) = [] := List.length_eq_zero_iff.mp (h0 s ▸ hf (some s, t))
        unfold D; rw [hn]; simp
      have hsum : ∑ s, (D (S.got r) s t).length = ∑ s, (P.hist (g r).phase s r t).length := by
        simp only [hD]; rw [length_filter_sum, hf, h1]
      exact (Finset.sum_eq_sum_iff_of_le hle).mp hsum s (Finset.mem_univ s)

/-- While messages of this phase are missing there is a receive for them. -/
theorem open_of_missing (I : Inv P S g) {r : Fin n} (hmid : (g r).mid = false) (hc : P.Covers r (g r).phase (g r).pend) {s : Fin n} {t : ℕ}
    (hm : (D (S.got r) s t).length < (P.hist (g r).phase s r t).length) : ∃ key, S.open r s t key := by
  rcases hc t with ⟨h0, h1⟩ | ⟨h0, h1, hs⟩
  · refine ⟨(some s, t), Or.inl rfl, ?_⟩
    rw [I.pend, h1]
    have hn : S.got r (none, t) = [] := List.length_eq_zero_iff.mp (Nat.le_zero.mp (h0 ▸ I.glen r (none, t)))
    unfold D at hm; rw [hn] at hm; simpa using hm
  · refine ⟨(none, t), Or.inr rfl, ?_⟩
    rw [I.pend, h1, ← length_filter_sum]
    have hD : ∀ s, (D (S.got r) s t).length = ((S.got r (none, t)).filter (fun x => decide (x.1 = s))).length := by
      intro s
      have hn : S.got r (some s, t) = [] := List.length_eq_zero_iff.mp (Nat.le_zero.mp (h0 s ▸ I.glen r (some s, t)))
      unfold D; rw [hn]; simp
    simp only [← hD]
    exact Finset.sum_lt_sum (fun s _ => (I.D_prefix hmid hc s t).length_le) ⟨s, Finset.mem_univ s, hm⟩

/-- A step of rank `r`, with the new ghost state `γ`. -/
theorem modify (I : Inv P S g) (r : Fin n) (γ : Ghost n M) (S' : Sys n M O)
    (hprog : ∀ r', r' ≠ r → S'.prog r' = S.prog r') (hconf : Conf P r (S'.prog r) γ)
    (hpost : ∀ r', r' ≠ r → S'.posted r' = S.posted r') (hpend : S'.posted r = γ.pend)
    (hrecv : ∀ s t, P.H γ.phase s r t ++ D (S'.got r) s t = recvTot P S g s r t)
    (hsent : ∀ d t, recvTot P S g r d t ++ S'.net r d t = P.H γ.phase r d t ++ γ.sent d t)
    (hnet : ∀ s, s ≠ r → S'.net s = S.net s)
    (hpre : ∀ d t, γ.sent d t <+: P.hist γ.phase r d t)
    (huni : ∀ t, γ.pend.count (none, t) = 0 ∨ ∀ s, γ.pend.count (some s, t) = 0)
    (hgot : ∀ r', r' ≠ r → S'.got r' = S.got r')
    (hglen : ∀ key, (S'.got r key).length ≤ γ.pend.count key)
    (hgsrc : ∀ s t x, x ∈ S'.got r (some s, t) → x.1 = s)
    (hpas : ∀ r', r' ≠ r → S'.passed r' = S.passed r') (hpasr : S'.passed r = P.E γ.phase)
    (hent : ∀ r', r' ≠ r → S'.entered r' = S.entered r') (hentr : S'.entered r = P.E γ.phase + if γ.mid = true then 1 else 0)
    (hbar1 : ∀ s, S'.passed r ≤ S'.entered s) (hbar2 : S.entered r ≤ S'.entered r)
    (hmid : γ.mid = true → P.isBar γ.phase = true ∧ γ.phase < P.last ∧ γ.pend = [] ∧ (P.hist γ.phase = fun _ _ _ => []) ∧
      γ.accd = P.accs γ.phase r)
    (hlast : γ.phase ≤ P.last) (hacc0 : P.isAcc γ.phase = false → γ.accd = fun _ => 0)
    (hwin : ∀ r' v q, (Function.update g r γ r').base = some (v, q) →
      S'.win r' = v + ∑ s, (accTot P (Function.update g r γ) s r' - P.C q s r')) :
    Inv P S' (Function.update g r γ) where
  conf r' := by
    by_cases h : r' = r
    · subst h; rw [Function.update_self]; exact hconf
    · rw [Function.update_of_ne h, hprog r' h]; exact I.conf r'
  pend r' := by
    by_cases h : r' = r
    · subst h; rw [Function.update_self]; exact hpend
    · rw [Function.update_of_ne h, hpost r' h]; exact I.pend r'
  chan s r' t := by
    have h1 : recvTot P S' (Function.update g r γ) s r' t = recvTot P S g s r' t := by
      by_cases h : r' = r
      · subst h; rw [← hrecv]; unfold recvTot; rw [Function.update_self]
      · unfold recvTot; rw [Function.update_of_ne h, hgot r' h]
    rw [h1]
    by_cases h : s = r
    · subst h; rw [hsent]; unfold sentTot; rw [Function.update_self]
    · rw [hnet s h, I.chan]; unfold sentTot; rw [Function.update_of_ne h]
  pre s r' t := by
    by_cases h : s = r
    · subst h; rw [Function.update_self]; exact hpre r' t
    · rw [Function.update_of_ne h]; exact I.pre s r' t
  uni r' t := by
    by_cases h : r' = r
    · subst h; rw [Function.update_self]; exact huni t
    · rw [Function.update_of_ne h]; exact I.uni r' t
  glen r' key := by
    by_cases h : r' = r
    · subst h; rw [Function.update_self]; exact hglen key
    · rw [Function.update_of_ne h, hgot r' h]; exact I.glen r' key
  gsrc r' s t x hx := by
    by_cases h : r' = r
    · subst h; exact hgsrc s t x hx
    · rw [hgot r' h] at hx; exact I.gsrc r' s t x hx
  passed r' := by
    by_cases h : r' = r
    · subst h; rw [Function.update_self]; exact hpasr
    · rw [Function.update_of_ne h, hpas r' h]; exact I.passed r'
  entered r' := by
    by_cases h : r' = r
    · subst h; rw [Function.update_self]; exact hentr
    · rw [Function.update_of_ne h, hent r' h]; exact I.entered r'
  bar r' s := by
    by_cases h : s = r
    · subst h; exact hbar1 r'
    · rw [hpas s h]
      by_cases h' : r' = r
      · subst h'; exact (I.bar r' s).trans hbar2
      · rw [hent r' h']; exact I.bar r' s
  midOk r' := by
    by_cases h : r' = r
    · subst h; rw [Function.update_self]; exact hmid
    · rw [Function.update_of_ne h]; exact I.midOk r'
  lastOk r' := by
    by_cases h : r' = r
    · subst h; rw [Function.update_self]; exact hlast
    · rw [Function.update_of_ne h]; exact I.lastOk r'
  acc0 r' := by
    by_cases h : r' = r
    · subst h; rw [Function.update_self]; exact hacc0
    · rw [Function.update_of_ne h]; exact I.acc0 r'
  win := hwin

theorem accTot_same {r : Fin n} {γ : Ghost n M} (h : ∀ d, P.C γ.phase r d + γ.accd d = accTot P g r d) (s d : Fin n) :
    accTot P (Function.update g r γ) s d = accTot P g s d := by
  by_cases hs : s = r
  · subst hs; unfold accTot at h ⊢; rw [Function.update_self]; exact h d
  · unfold accTot; rw [Function.update_of_ne hs]

theorem win_same (I : Inv P S g) {r : Fin n} {γ : Ghost n M} {S' : Sys n M O} (h : ∀ d, P.C γ.phase r d + γ.accd d = accTot P g r d)
    (hb : γ.base = (g r).base) (hw : S'.win = S.win) (r' : Fin n) (v : ℤ) (q : ℕ)
    (hq : (Function.update g r γ r').base = some (v, q)) :
    S'.win r' = v + ∑ s, (accTot P (Function.update g r γ) s r' - P.C q s r') := by
  have hq' : (g r').base = some (v, q) := by
    by_cases h' : r' = r
    · subst h'; rw [Function.update_self, hb] at hq; exact hq
    · rwa [Function.update_of_ne h'] at hq
  rw [hw, I.win r' v q hq']
  congr 1
  exact Finset.sum_congr rfl fun s _ => by rw [accTot_same h]

theorem D_nil (s : Fin n) (t : ℕ) : D (fun _ => [] : Key n → List (Fin n × M)) s t = [] := rfl

theorem D_append {got : Key n → List (Fin n × M)} {s : Fin n} {t : ℕ} {m : M} {key : Key n}
    (hk : key = (some s, t) ∨ key = (none, t)) (hn : key = (some s, t) → got (none, t) = []) (s' : Fin n) (t' : ℕ) :
    D (Function.update got key (got key ++ [(s, m)])) s' t' = if s' = s ∧ t' = t then D got s' t' ++ [m] else D got s' t' := by
  unfold D
  rcases hk with rfl | rfl
  · by_cases h : s' = s ∧ t' = t
    · obtain ⟨rfl, rfl⟩ := h
      rw [if_pos ⟨rfl, rfl⟩, Function.update_self, Function.update_of_ne (by simp), hn rfl]; simp
    · rw [if_neg h, Function.update_of_ne (by simpa [Prod.ext_iff] using h), Function.update_of_ne (by simp)]
  · rw [Function.update_of_ne (by simp)]
    by_cases ht : t' = t
    · subst ht
      rw [Function.update_self, List.filter_append]
      by_cases hs : s' = s
      · subst hs; simp
      · rw [if_neg (fun h => hs h.1)]
        have : ([(s, m)] : List (Fin n × M)).filter (fun x => decide (x.1 = s')) = [] := by simp [Ne.symm hs]
        rw [this, List.append_nil]
    · rw [if_neg (fun h => ht h.2), Function.update_of_ne (by simp [ht])]

theorem step (I : Inv P S g) {S' : Sys n M O} {b : Bool} (hst : Step b S S') : ∃ g', Inv P S' g' := by
  cases hst with
  | send r d t m k h hs =>
    have hc := I.conf r
    rw [h] at hc
    obtain ⟨h1, h2, h3, h4, h5⟩ := hc
    refine ⟨_, I.modify r { g r with sent := addSent (g r).sent d t m } _ (fun r' h' => Function.update_of_ne h' _ _) (by
      simp only [Function.update_self]; exact h5) (fun _ _ => rfl) (I.pend r) (fun _ _ => rfl) ?_ ?_ ?_ (I.uni r) (fun _ _ => rfl) (I.glen r)
      (I.gsrc r) (fun _ _ => rfl) (I.passed r) (fun _ _ => rfl) (I.entered r) (fun s => I.bar s r) le_rfl (I.midOk r) (I.lastOk r) (I.acc0 r)
      (I.win_same (fun _ => rfl) rfl rfl)⟩
    · intro d' t'
      have := I.chan r d' t'
      unfold sentTot at this
      simp only [push, addSent]
      by_cases hd : d' = d ∧ t' = t
      · rw [if_pos ⟨trivial, hd⟩, if_pos hd, ← List.append_assoc, this, List.append_assoc]
      · rw [if_neg (fun h => hd h.2), if_neg hd, this]
    · intro s hs'
      funext d' t'
      simp only [push]
      rw [if_neg (fun h => hs' h.1)]
    · intro d' t'
      simp only [addSent]
      by_cases hd : d' = d ∧ t' = t
      · obtain ⟨rfl, rfl⟩ := hd
        rw [if_pos ⟨rfl, rfl⟩]; exact h4
      · rw [if_neg hd]; exact I.pre r d' t'
  | irecv r s t k h =>
    have hc := I.conf r
    rw [h] at hc
    obtain ⟨h1, h2, h3, h4⟩ := hc
    refine ⟨_, I.modify r { g r with pend := (g r).pend ++ [(s, t)] } _ (fun r' h' => Function.update_of_ne h' _ _) (by
      simp only [Function.update_self]; exact h4) (fun r' h' => Function.update_of_ne h' _ _) (by simp only [Function.update_self, I.pend])
      (fun _ _ => rfl) (fun d t => I.chan r d t) (fun _ _ => rfl) (I.pre r) ?_ (fun _ _ => rfl) ?_ (I.gsrc r) (fun _ _ => rfl) (I.passed r)
      (fun _ _ => rfl) (I.entered r) (fun s => I.bar s r) le_rfl (fun hm => by simp only [h1] at hm; exact absurd hm (by decide)) (I.lastOk r) (I.acc0 r)
      (I.win_same (fun _ => rfl) rfl rfl)⟩
    · intro t'
      by_cases ht : t' = t
      · subst ht
        cases s with
        | none =>
          right; intro s'
          rw [List.count_append, h3 s']; simp [List.count_cons]
        | some s =>
          left
          rw [List.count_append, h3]; simp [List.count_cons]
      · rcases I.uni r t' with hu | hu
        · left; rw [List.count_append, hu]; simp [List.count_cons, Ne.symm ht]
        · right; intro s'; rw [List.count_append, hu]; simp [List.count_cons, Ne.symm ht]
    · intro key
      rw [List.count_append]
      exact (I.glen r key).trans (Nat.le_add_right _ _)
  | deliver r s t m rest key h hk =>
    have hn : key = (some s, t) → S.got r (none, t) = [] := by
      rintro rfl
      have hlt := hk.2
      rw [I.pend] at hlt
      rcases I.uni r t with hu | hu
      · exact List.length_eq_zero_iff.mp (Nat.le_zero.mp (hu ▸ I.glen r (none, t)))
      · rw [hu s] at hlt; omega
    refine ⟨g, I.conf, I.pend, ?_, I.pre, I.uni, ?_, ?_, I.passed, I.entered, I.bar, I.midOk, I.lastOk, I.acc0, I.win⟩
    · intro s' r' t'
      rw [← I.chan s' r' t']
      unfold recvTot
      by_cases hr : r' = r
      · subst hr
        simp only [Function.update_self, D_append hk.1 hn, pop]
        by_cases hs : s' = s ∧ t' = t
        · obtain ⟨rfl, rfl⟩ := hs
          simp only [and_self, if_true]; rw [h]; simp
        · rw [if_neg hs, if_neg (by tauto)]
      · simp only [Function.update_of_ne hr, pop]
        rw [if_neg (fun h => hr h.2.1)]
    · intro r' key'
      by_cases hr : r' = r
      · subst hr
        simp only [Function.update_self]
        by_cases hkk : key' = key
        · subst hkk
          rw [Function.update_self, List.length_append]
          have := hk.2
          rw [I.pend] at this
          exact this
        · rw [Function.update_of_ne hkk]; exact I.glen r' key'
      · simp only [Function.update_of_ne hr]; exact I.glen r' key'
    · intro r' s' t' x hx
      by_cases hr : r' = r
      · subst hr
        simp only [Function.update_self] at hx
        by_cases hkk : (some s', t') = key
        · rw [hkk, Function.update_self, List.mem_append] at hx
          rcases hx with hx | hx
          · rw [← hkk] at hx; exact I.gsrc r' s' t' x hx
          · rcases hk.1 with h' | h'
            · rw [List.mem_singleton] at hx; subst hx
              rw [← hkk] at h'
              simp only [Prod.mk.injEq, Option.some.injEq] at h'
              exact h'.1.symm
            · rw [← hkk] at h'; simp at h'
        · rw [Function.update_of_ne hkk] at hx; exact I.gsrc r' s' t' x hx
      · simp only [Function.update_of_ne hr] at hx; exact I.gsrc r' s' t' x hx
  | waitall r k h hf =>
    have hc := I.conf r
    rw [h] at hc
    obtain ⟨h1, h2, h3, h4, h5, h6, h7⟩ := hc
    have hfull := I.matches_of_full h1 h4 (fun key => by rw [hf key, I.pend])
    have hE : P.E ((g r).phase + 1) = P.E (g r).phase := by rw [P.E_succ, h2]; simp
    refine ⟨_, I.modify r (.at ((g r).phase + 1) (g r).base) _ (fun r' h' => Function.update_of_ne h' _ _) (by
      simp only [Function.update_self, I.pend]; exact h7 _ hfull) (fun r' h' => Function.update_of_ne h' _ _)
      (by simp only [Function.update_self]; rfl) ?_ ?_ (fun _ _ => rfl) (fun _ _ => List.nil_prefix) (fun t => Or.inl rfl)
      (fun r' h' => Function.update_of_ne h' _ _) (by intro key; simp) (by intro s t x hx; simp at hx) (fun _ _ => rfl)
      ((I.passed r).trans hE.symm) (fun _ _ => rfl) (by rw [I.entered r, h1]; simp [Ghost.at, hE]) (fun s => I.bar s r) le_rfl
      (fun hm => by simp [Ghost.at] at hm) h3 (fun _ => rfl) (I.win_same ?_ rfl rfl)⟩
    · intro s t
      simp only [Function.update_self, D_nil, List.append_nil]
      unfold recvTot
      rw [hfull.eq, ← P.H_succ]; rfl
    · intro d t
      have := I.chan r d t
      unfold sentTot at this
      rw [this, h5, ← P.H_succ]
      simp [Ghost.at]
    · intro d
      unfold accTot
      rw [h6, ← P.C_succ]; simp [Ghost.at]
  | ibarrier r k h =>
    have hc := I.conf r
    rw [h] at hc
    obtain ⟨h1, h2, h3, h4, h5, h6, h7⟩ := hc
    refine ⟨_, I.modify r { g r with mid := true } _ (fun r' h' => Function.update_of_ne h' _ _) (by
      simp only [Function.update_self]; exact h7) (fun _ _ => rfl) (I.pend r) (fun _ _ => rfl) (fun d t => I.chan r d t) (fun _ _ => rfl) (I.pre r)
      (I.uni r) (fun _ _ => rfl) (I.glen r) (I.gsrc r) (fun _ _ => rfl) (I.passed r) (fun r' h' => Function.update_of_ne h' _ _)
      (by simp only [Function.update_self]; rw [I.entered, h1]; simp) ?_ (by simp) (fun _ => ⟨h2, h3, h4, h5, h6⟩) (I.lastOk r) (I.acc0 r)
      (I.win_same (fun _ => rfl) rfl rfl)⟩
    intro s
    by_cases hs : s = r
    · subst hs; simp only [Function.update_self]; exact (I.bar s s).trans (Nat.le_succ _)
    · simp only [Function.update_of_ne hs]; exact I.bar s r
  | bwait r k h hb =>
    have hc := I.conf r
    rw [h] at hc
    obtain ⟨h1, h7⟩ := hc
    obtain ⟨m1, m2, m3, m4, m5⟩ := I.midOk r h1
    have hE : P.E ((g r).phase + 1) = P.E (g r).phase + 1 := by rw [P.E_succ, if_pos m1]
    have hgot : ∀ key, S.got r key = [] := fun key =>
      List.length_eq_zero_iff.mp (Nat.le_zero.mp (by have := I.glen r key; rw [m3] at this; simpa using this))
    refine ⟨_, I.modify r (.at ((g r).phase + 1) (g r).base) _ (fun r' h' => Function.update_of_ne h' _ _) (by
      simp only [Function.update_self]; exact h7) (fun _ _ => rfl) ((I.pend r).trans m3) ?_ ?_ (fun _ _ => rfl) (fun _ _ => List.nil_prefix)
      (fun t => Or.inl rfl) (fun _ _ => rfl) (fun key => by simp [hgot]) (I.gsrc r) (fun r' h' => Function.update_of_ne h' _ _)
      (by simp only [Function.update_self]; rw [I.passed, ← hE]; rfl) (fun _ _ => rfl) (by rw [I.entered, h1]; simp [Ghost.at, hE])
      (by intro s; simp only [Function.update_self]; exact hb s) le_rfl (fun hm => by simp [Ghost.at] at hm) m2 (fun _ => rfl)
      (I.win_same ?_ rfl rfl)⟩
    · intro s t
      unfold recvTot
      simp only [Ghost.at]
      rw [P.H_succ, m4]; simp
    · intro d t
      have := I.chan r d t
      unfold sentTot at this
      have hp := I.pre r d t
      rw [m4] at hp
      rw [this, List.prefix_nil.mp hp]
      simp only [Ghost.at]
      rw [P.H_succ, m4]; simp
    · intro d
      unfold accTot
      rw [m5, ← P.C_succ]; simp [Ghost.at]
  | winStore r v k h =>
    have hc := I.conf r
    rw [h] at hc
    obtain ⟨h1, h2, h3⟩ := hc
    refine ⟨_, I.modify r { g r with base := some (v, (g r).phase) } _ (fun r' h' => Function.update_of_ne h' _ _) (by
      simp only [Function.update_self]; exact h3) (fun _ _ => rfl) (I.pend r) (fun _ _ => rfl) (fun d t => I.chan r d t) (fun _ _ => rfl) (I.pre r)
      (I.uni r) (fun _ _ => rfl) (I.glen r) (I.gsrc r) (fun _ _ => rfl) (I.passed r) (fun _ _ => rfl) (I.entered r) (fun s => I.bar s r) le_rfl
      (I.midOk r) (I.lastOk r) (I.acc0 r) ?_⟩
    intro r' v' q hq
    simp only [accTot_same (γ := { g r with base := some (v, (g r).phase) }) (fun _ => rfl)]
    by_cases hr : r' = r
    · subst hr
      simp only [Function.update_self, Option.some.injEq, Prod.mk.injEq] at hq ⊢
      obtain ⟨rfl, rfl⟩ := hq
      simp only [I.accTot_quiet h1 h2, sub_self, Finset.sum_const_zero, add_zero]
    · simp only [Function.update_of_ne hr] at hq ⊢
      exact I.win r' v' q hq
  | winLoad r k h =>
    have hc := I.conf r
    rw [h] at hc
    obtain ⟨h1, h2, v, q, hbq, h3⟩ := hc
    refine ⟨_, I.modify r (g r) _ (fun r' h' => Function.update_of_ne h' _ _) (by
      simp only [Function.update_self]
      rw [I.win r v q hbq]
      simp only [I.accTot_quiet h1 h2]
      exact h3) (fun _ _ => rfl) (I.pend r) (fun _ _ => rfl) (fun d t => I.chan r d t) (fun _ _ => rfl) (I.pre r)
      (I.uni r) (fun _ _ => rfl) (I.glen r) (I.gsrc r) (fun _ _ => rfl) (I.passed r) (fun _ _ => rfl) (I.entered r) (fun s => I.bar s r) le_rfl
      (I.midOk r) (I.lastOk r) (I.acc0 r) (I.win_same (fun _ => rfl) rfl rfl)⟩
  | accumulate r d v k h =>
    have hc := I.conf r
    rw [h] at hc
    obtain ⟨h1, h2, h3⟩ := hc
    refine ⟨_, I.modify r { g r with accd := Function.update (g r).accd d ((g r).accd d + v) } _ (fun r' h' => Function.update_of_ne h' _ _) (by
      simp only [Function.update_self]; exact h3) (fun _ _ => rfl) (I.pend r) (fun _ _ => rfl) (fun d t => I.chan r d t) (fun _ _ => rfl) (I.pre r)
      (I.uni r) (fun _ _ => rfl) (I.glen r) (I.gsrc r) (fun _ _ => rfl) (I.passed r) (fun _ _ => rfl) (I.entered r) (fun s => I.bar s r) le_rfl
      (fun hm => by simp only [h1] at hm; exact absurd hm (by decide)) (I.lastOk r) (fun ha => by simp [h2] at ha) ?_⟩
    intro r' v' q hq
    have hq' : (g r').base = some (v', q) := by
      by_cases h' : r' = r
      · subst h'; rw [Function.update_self] at hq; exact hq
      · rwa [Function.update_of_ne h'] at hq
    have hacc : ∀ s, accTot P (Function.update g r { g r with accd := Function.update (g r).accd d ((g r).accd d + v) }) s r'
        = accTot P g s r' + if s = r then (if r' = d then v else 0) else 0 := by
      intro s
      unfold accTot
      by_cases hs : s = r
      · subst hs
        rw [Function.update_self, if_pos rfl]
        by_cases hd : r' = d
        · subst hd; simp only [Function.update_self, if_true]; ring
        · simp only [Function.update_of_ne hd, if_neg hd, add_zero]
      · rw [Function.update_of_ne hs, if_neg hs, add_zero]
    simp only [hacc]
    have hsum : ∑ s, (accTot P g s r' + (if s = r then (if r' = d then v else 0) else 0) - P.C q s r')
        = ∑ s, (accTot P g s r' - P.C q s r') + if r' = d then v else 0 := by
      rw [show (∑ s, (accTot P g s r' + (if s = r then (if r' = d then v else 0) else 0) - P.C q s r'))
        = ∑ s, ((accTot P g s r' - P.C q s r') + (if s = r then (if r' = d then v else 0) else 0)) from
          Finset.sum_congr rfl fun s _ => by ring]
      rw [Finset.sum_add_distrib, Finset.sum_ite_eq' Finset.univ r]; simp
    rw [hsum]
    by_cases hd : r' = d
    · subst hd
      simp only [Function.update_self, if_true]
      rw [I.win r' v' q hq']; ring
    · simp only [Function.update_of_ne hd, if_neg hd, add_zero]
      exact I.win r' v' q hq'

theorem reachable {S' : Sys n M O} (h : Reachable S S') : ∀ g, Inv P S g → ∃ g', Inv P S' g' := by
  induction h with
  | refl => exact fun g I => ⟨g, I⟩
  | tail _ hst ih => intro g I; obtain ⟨g', I'⟩ := ih g I; exact I'.step hst

/-- A rank can make its next step unless it has returned or is at a `send`, a `waitall` or the end of a barrier. -/
theorem active (I : Inv P S g) (r : Fin n) : (∃ S', Step true S S') ∨ (∃ o, S.prog r = .done o) ∨ (∃ d t m k, S.prog r = .send d t m k) ∨
    (∃ k, S.prog r = .waitall k) ∨ (∃ k, S.prog r = .bwait k) := by
  have hc := I.conf r
  cases h : S.prog r with
  | done o => exact Or.inr (Or.inl ⟨o, rfl⟩)
  | fail => rw [h] at hc; exact hc.elim
  | send d t m k => exact Or.inr (Or.inr (Or.inl ⟨d, t, m, k, rfl⟩))
  | irecv s t k => exact Or.inl ⟨_, .irecv S r s t k h⟩
  | waitall k => exact Or.inr (Or.inr (Or.inr (Or.inl ⟨k, rfl⟩)))
  | ibarrier k => exact Or.inl ⟨_, .ibarrier S r k h⟩
  | bwait k => exact Or.inr (Or.inr (Or.inr (Or.inr ⟨k, rfl⟩)))
  | winStore v k => exact Or.inl ⟨_, .winStore S r v k h⟩
  | winLoad k => exact Or.inl ⟨_, .winLoad S r k h⟩
  | accumulate d v k => exact Or.inl ⟨_, .accumulate S r d v k h⟩

/-- A message in the channel which belongs to the phase of the receiver can be matched. -/
theorem deliver_progress (I : Inv P S g) {s r : Fin n} {t : ℕ} (hmid : (g r).mid = false) (hc : P.Covers r (g r).phase (g r).pend)
    (hm : (D (S.got r) s t).length < (P.hist (g r).phase s r t).length) (hne : S.net s r t ≠ []) : ∃ S', Step true S S' := by
  obtain ⟨key, hk⟩ := I.open_of_missing hmid hc hm
  cases hn : S.net s r t with
  | nil => exact absurd hn hne
  | cons m rest => exact ⟨_, .deliver S r s t m rest key hn hk⟩

theorem send_progress (I : Inv P S g) {p : ℕ} (hmin : ∀ s, p ≤ (g s).phase) {r d : Fin n} {t : ℕ} {m : M} {k : Prog n M O} (hr : (g r).phase = p)
    (h : S.prog r = .send d t m k) : ∃ S', Step true S S' := by
  have hc := I.conf r
  rw [h] at hc
  obtain ⟨_, hbar, _, h4, _⟩ := hc
  have hlt : ((g r).sent d t).length < (P.hist p r d t).length := by
    have := h4.length_le
    rw [hr] at this
    simp only [List.length_append, List.length_singleton] at this
    omega
  have hchan := congrArg List.length (I.chan r d t)
  unfold recvTot sentTot at hchan
  rw [hr] at hchan
  simp only [List.length_append] at hchan
  have hd : (g d).phase = p := by
    by_contra hne
    have hgt : p + 1 ≤ (g d).phase := by have := hmin d; omega
    have := (P.H_prefix hgt r d t).length_le
    rw [P.H_succ, List.length_append] at this
    omega
  rw [hd] at hchan
  have hmiss : (D (S.got d) r t).length < (P.hist (g d).phase r d t).length := by rw [hd]; omega
  rw [hr] at hbar
  have hgo : (g d).mid = false → P.Covers d (g d).phase (g d).pend → ∃ S', Step true S S' := by
    intro hm hcov
    by_cases hnet : S.net r d t = []
    · obtain ⟨key, hk⟩ := I.open_of_missing hm hcov hmiss
      exact ⟨_, .send S r d t m k h fun _ => ⟨hnet, key, hk⟩⟩
    · exact I.deliver_progress hm hcov hmiss hnet
  have hcd := I.conf d
  rcases I.active d with hs | ⟨o, ho⟩ | ⟨d', t', m', k', hp⟩ | ⟨k', hp⟩ | ⟨k', hp⟩
  · exact hs
  · rw [ho] at hcd; exact hgo hcd.2.1 hcd.2.2.2.2.1
  · rw [hp] at hcd; exact hgo hcd.1 hcd.2.2.1
  · rw [hp] at hcd; exact hgo hcd.1 hcd.2.2.2.1
  · rw [hp] at hcd
    have := (I.midOk d hcd.1).1
    rw [hd, hbar] at this
    exact absurd this (by decide)

/-- Some rank can make a step, even if no message is buffered, unless all have returned. -/
theorem progress (I : Inv P S g) (hnf : ¬ S.Finished) : ∃ S', Step true S S' := by
  classical
  unfold Sys.Finished at hnf
  push Not at hnf
  obtain ⟨r₀, h₀⟩ := hnf
  obtain ⟨r, hr, hmin'⟩ := Finset.exists_min_image (Finset.univ.filter fun r => ∀ o, S.prog r ≠ .done o) (fun r => (g r).phase)
    ⟨r₀, by simpa using h₀⟩
  rw [Finset.mem_filter] at hr
  have hmin : ∀ s, (g r).phase ≤ (g s).phase := by
    intro s
    by_cases hs : ∀ o, S.prog s ≠ .done o
    · exact hmin' s (by simpa using hs)
    · push Not at hs
      obtain ⟨o, ho⟩ := hs
      have := I.conf s
      rw [ho] at this
      rw [this.2.2.1]; exact I.lastOk r
  have hcr := I.conf r
  rcases I.active r with hs | ⟨o, ho⟩ | ⟨d', t', m', k', hp⟩ | ⟨k', hp⟩ | ⟨k', hp⟩
  · exact hs
  · exact absurd ho (hr.2 o)
  · exact I.send_progress hmin rfl hp
  · rw [hp] at hcr
    obtain ⟨h1, h2, h3, h4, h5, h6, h7⟩ := hcr
    by_cases hf : ∀ key, (S.got r key).length = (S.posted r).count key
    · exact ⟨_, .waitall S r k' hp hf⟩
    · -- a message is missing
      have hex : ∃ s t, (D (S.got r) s t).length < (P.hist (g r).phase s r t).length := by
        by_contra hno
        push Not at hno
        have heq : ∀ s t, (D (S.got r) s t).length = (P.hist (g r).phase s r t).length :=
          fun s t => le_antisymm (I.D_prefix h1 h4 s t).length_le (hno s t)
        apply hf
        rintro ⟨o, t⟩
        rw [I.pend]
        rcases h4 t with ⟨c0, c1⟩ | ⟨c0, c1, _⟩
        · have hn : S.got r (none, t) = [] := List.length_eq_zero_iff.mp (Nat.le_zero.mp (c0 ▸ I.glen r (none, t)))
          cases o with
          | none => rw [hn, c0]; rfl
          | some s =>
            have := heq s t
            unfold D at this; rw [hn] at this
            rw [c1, ← this]; simp
        · have hn : ∀ s, S.got r (some s, t) = [] := fun s =>
            List.length_eq_zero_iff.mp (Nat.le_zero.mp (c0 s ▸ I.glen r (some s, t)))
          cases o with
          | some s => rw [hn, c0]; rfl
          | none =>
            rw [c1, ← length_filter_sum]
            refine Finset.sum_congr rfl fun s _ => ?_
            rw [← heq s t]; unfold D; rw [hn]; simp
      obtain ⟨s, t, hm⟩ := hex
      have hchan := congrArg List.length (I.chan s r t)
      unfold recvTot sentTot at hchan
      simp only [List.length_append] at hchan
      by_cases hps : (g s).phase = (g r).phase
      · have hcs := I.conf s
        rcases I.active s with hs | ⟨o, ho⟩ | ⟨d', t', m', k'', hp'⟩ | ⟨k'', hp'⟩ | ⟨k'', hp'⟩
        · exact hs
        · rw [ho] at hcs
          have := hcs.2.2.1
          omega
        · exact I.send_progress hmin hps hp'
        · rw [hp'] at hcs
          refine I.deliver_progress h1 h4 hm fun hnil => ?_
          rw [hnil, hcs.2.2.2.2.1, hps, List.length_nil] at hchan
          omega
        · rw [hp'] at hcs
          have := (I.midOk s hcs.1).1
          rw [hps, h2] at this
          exact absurd this (by decide)
      · refine I.deliver_progress h1 h4 hm fun hnil => ?_
        have hgt : (g r).phase + 1 ≤ (g s).phase := by have := hmin s; omega
        have := (P.H_prefix hgt s r t).length_le
        rw [P.H_succ, List.length_append] at this
        rw [hnil, List.length_nil] at hchan
        omega
  · rw [hp] at hcr
    obtain ⟨hm, _⟩ := hcr
    obtain ⟨mb, ml, _, _, _⟩ := I.midOk r hm
    by_cases hb : ∀ s, S.passed r + 1 ≤ S.entered s
    · exact ⟨_, .bwait S r k' hp hb⟩
    · push Not at hb
      obtain ⟨s, hs⟩ := hb
      rw [I.passed, I.entered] at hs
      have hps : (g s).phase = (g r).phase := by
        by_contra hne
        have hgt : (g r).phase + 1 ≤ (g s).phase := by have := hmin s; omega
        have h1 := P.E_mono hgt
        rw [P.E_succ, if_pos mb] at h1
        omega
      rw [hps] at hs
      have hsm : (g s).mid = false := by
        cases h : (g s).mid with
        | false => rfl
        | true => rw [h] at hs; simp only [if_true] at hs; omega
      have hcs := I.conf s
      rcases I.active s with h | ⟨o, ho⟩ | ⟨d', t', m', k'', hp'⟩ | ⟨k'', hp'⟩ | ⟨k'', hp'⟩
      · exact h
      · rw [ho] at hcs
        have := hcs.2.2.1
        omega
      · rw [hp'] at hcs
        have := hcs.2.1
        rw [hps, mb] at this
        exact absurd this (by decide)
      · rw [hp'] at hcs
        have := hcs.2.1
        rw [hps, mb] at this
        exact absurd this (by decide)
      · rw [hp'] at hcs
        have := hcs.1
        rw [hsm] at this
        exact absurd this (by decide)
end Inv

/-- The proof rule: in every state of every execution no rank has failed, the results are those of the protocol, and while some rank has not
returned some rank can make a step, even if no message is buffered. -/
theorem correct (P : Protocol n M O) (prog : Fin n → Prog n M O) (w : Fin n → ℤ) (h : ∀ r, Conf P r (prog r) (.at 0 none))
    {S : Sys n M O} (hS : Reachable (Sys.init prog w) S) :
    (∀ r, S.prog r ≠ .fail) ∧ (∀ r o, S.prog r = .done o → P.post r o) ∧ (S.Finished ∨ ∃ S', Step true S S') := by
  obtain ⟨g, I⟩ := Inv.reachable hS _ (Inv.init prog w h)
  refine ⟨fun r hr => ?_, fun r o hr => ?_, ?_⟩
  · have := I.conf r; rw [hr] at this; exact this
  · have := I.conf r; rw [hr] at this; exact this.1
  · by_cases hf : S.Finished
    · exact Or.inl hf
    · exact Or.inr (I.progress hf)

end Verif.Lemmas.Mpi
