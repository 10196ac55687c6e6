import Verif.Lemmas.Mpi
import Verif.Model.MpiFragments

/-! Protocols given by a list of phases, and the proof rule for the fragments of `Model/MpiFragments.lean`. -/

namespace Verif.Lemmas.Mpi
open Verif.Model.Mpi

variable {n : ℕ} {M O : Type}

/-- A phase: a barrier, accumulations of one followed by a barrier, or at most one message for each pair of ranks. -/
inductive Phase (n : ℕ) (M : Type) where
  | bar
  | acc (A : Fin n → Fin n → Bool)
  | comm (tag : ℕ) (msg : Fin n → Fin n → Option M)

inductive Kind where
  | bar
  | acc
  | comm (tag : ℕ)
  deriving DecidableEq

def Phase.kind : Phase n M → Kind
  | .bar => .bar
  | .acc _ => .acc
  | .comm t _ => .comm t

def Kind.isBar : Kind → Bool
  | .comm _ => false
  | _ => true

def Phase.hist : Phase n M → Fin n → Fin n → ℕ → List M
  | .comm tag msg, s, d, t => if t = tag then (msg s d).toList else []
  | _, _, _, _ => []

def Phase.accs : Phase n M → Fin n → Fin n → ℤ
  | .acc A, s, d => if A s d = true then 1 else 0
  | _, _, _ => 0

/-- The protocol of a list of phases. -/
def ofPhases (ps : List (Phase n M)) (post : Fin n → O → Prop) : Protocol n M O where
  hist p := match ps[p]? with
    | some ph => ph.hist
    | none => fun _ _ _ => []
  accs p := match ps[p]? with
    | some ph => ph.accs
    | none => fun _ _ => 0
  isBar p := match ps[p]? with
    | some ph => ph.kind.isBar
    | none => false
  isAcc p := match ps[p]? with
    | some ph => decide (ph.kind = .acc)
    | none => false
  last := ps.length
  post := post
  hacc p h := by
    cases hp : ps[p]? with
    | none => rfl
    | some ph =>
      rw [hp] at h
      cases ph <;> simp_all [Phase.kind] <;> rfl

def barsBefore (ks : List Kind) (p : ℕ) : ℕ := ((ks.take p).filter Kind.isBar).length

/-- No accumulation between the two barriers around the phase `p`. -/
def quietB (ks : List Kind) (p : ℕ) : Bool :=
  (List.range ks.length).all fun q => decide (barsBefore ks q = barsBefore ks p → ks[q]? ≠ some .acc)

/-- No later message with the same tag until the next barrier. -/
def anyB (ks : List Kind) (p : ℕ) (t : ℕ) : Bool :=
  (List.range ks.length).all fun q => decide (p < q → barsBefore ks q = barsBefore ks p → ks[q]? ≠ some (.comm t))

section
variable {ps : List (Phase n M)} {post : Fin n → O → Prop}

theorem E_eq (p : ℕ) : (ofPhases ps post).E p = barsBefore (ps.map Phase.kind) p := by
  induction p with
  | zero => simp [Protocol.E, barsBefore]
  | succ p ih =>
    rw [Protocol.E_succ, ih]
    unfold barsBefore
    rw [List.take_add_one]
    simp only [ofPhases, List.getElem?_map]
    obtain ⟨x, hx⟩ : ∃ x, ps[p]? = x := ⟨_, rfl⟩
    cases x with
    | none => simp [hx]
    | some ph =>
      cases hb : ph.kind.isBar <;> simp [hx, hb]

theorem quiet_of (p : ℕ) (h : quietB (ps.map Phase.kind) p = true) : (ofPhases ps post).Quiet p := by
  intro q hq
  rw [E_eq, E_eq] at hq
  simp only [quietB, List.all_eq_true, List.mem_range, decide_eq_true_eq, List.length_map] at h
  simp only [ofPhases]
  cases hp : ps[q]? with
  | none => rfl
  | some ph =>
    have hlt : q < ps.length := by
      by_contra hc
      rw [List.getElem?_eq_none (by omega)] at hp
      cases hp
    have := h q hlt hq
    simp only [List.getElem?_map, hp, Option.map_some, ne_eq, Option.some.injEq] at this
    simpa using this

theorem anySafe_of (p t : ℕ) (h : anyB (ps.map Phase.kind) p t = true) (r : Fin n) : (ofPhases ps post).AnySafe p r t := by
  intro q hpq hq s
  rw [E_eq, E_eq] at hq
  simp only [anyB, List.all_eq_true, List.mem_range, decide_eq_true_eq, List.length_map] at h
  simp only [ofPhases]
  cases hp : ps[q]? with
  | none => rfl
  | some ph =>
    have hlt : q < ps.length := by
      by_contra hc
      rw [List.getElem?_eq_none (by omega)] at hp
      cases hp
    have := h q hlt hpq hq
    simp only [List.getElem?_map, hp, Option.map_some, ne_eq, Option.some.injEq] at this
    cases ph with
    | bar => rfl
    | acc A => rfl
    | comm tag msg =>
      simp only [Phase.kind, Kind.comm.injEq] at this
      simp only [Phase.hist]
      rw [if_neg (fun h => this h.symm)]

theorem lt_length {p : ℕ} {ph : Phase n M} (h : ps[p]? = some ph) : p < ps.length := by
  by_contra hc
  rw [List.getElem?_eq_none (by omega)] at h
  cases h

end

section
variable (P : Protocol n M O) (r : Fin n)

theorem conf_postAny (tag c : ℕ) (K : Prog n M O) : ∀ g : Ghost n M, g.mid = false → P.isBar g.phase = false →
    (∀ s, g.pend.count (some s, tag) = 0) → Conf P r K { g with pend := g.pend ++ List.replicate c (none, tag) } →
    Conf P r (postAny tag c K) g := by
  induction c with
  | zero => intro g _ _ _ h; simpa [postAny] using h
  | succ c ih =>
    intro g h1 h2 h3 h
    refine ⟨h1, h2, h3, ih _ h1 h2 ?_ ?_⟩
    · intro s; simp only [List.count_append, h3 s]; simp
    · simp only [List.append_assoc]
      simpa [List.replicate_succ] using h

theorem conf_postFrom (tag : ℕ) (l : List (Fin n)) (K : Prog n M O) : ∀ g : Ghost n M, g.mid = false → P.isBar g.phase = false →
    g.pend.count (none, tag) = 0 → Conf P r K { g with pend := g.pend ++ l.map fun s => (some s, tag) } →
    Conf P r (postFrom tag l K) g := by
  induction l with
  | nil => intro g _ _ _ h; simpa [postFrom] using h
  | cons a l ih =>
    intro g h1 h2 h3 h
    refine ⟨h1, h2, h3, ih _ h1 h2 ?_ ?_⟩
    · simp only [List.count_append, h3]; simp
    · simp only [List.append_assoc]
      simpa using h

/-- What has been sent after the messages `l`. -/
def sentAfter (tag : ℕ) (sent : Fin n → ℕ → List M) (l : List (Fin n × M)) : Fin n → ℕ → List M :=
  l.foldl (fun s x => addSent s x.1 tag x.2) sent

theorem sentAfter_eq (tag : ℕ) (l : List (Fin n × M)) (sent : Fin n → ℕ → List M) (d : Fin n) (t : ℕ) :
    sentAfter tag sent l d t = if t = tag then sent d t ++ (l.filter (fun x => decide (x.1 = d))).map Prod.snd else sent d t := by
  induction l generalizing sent with
  | nil => simp [sentAfter]
  | cons x l ih =>
    have : sentAfter tag sent (x :: l) = sentAfter tag (addSent sent x.1 tag x.2) l := rfl
    rw [this, ih]
    by_cases ht : t = tag
    · subst ht
      simp only [if_true, addSent, and_true]
      by_cases hd : d = x.1
      · subst hd; simp
      · rw [if_neg hd, List.filter_cons, decide_eq_false (fun h => hd h.symm)]; simp
    · simp [ht, addSent]

theorem conf_sendAll (tag : ℕ) (K : Prog n M O) (l : List (Fin n × M)) : ∀ g : Ghost n M, g.mid = false → P.isBar g.phase = false →
    P.Covers r g.phase g.pend →
    (∀ d t, sentAfter tag g.sent l d t = P.hist g.phase r d t) → Conf P r K { g with sent := P.hist g.phase r } →
    Conf P r (sendAll tag l K) g := by
  induction l with
  | nil =>
    intro g _ _ _ h h'
    have : g.sent = P.hist g.phase r := by funext d t; exact h d t
    rw [← this] at h'
    exact h'
  | cons x l ih =>
    intro g h1 h2 h3 h h'
    refine ⟨h1, h2, h3, ?_, ih { g with sent := addSent g.sent x.1 tag x.2 } h1 h2 h3 h h'⟩
    rw [← h x.1 tag]
    have : sentAfter tag g.sent (x :: l) = sentAfter tag (addSent g.sent x.1 tag x.2) l := rfl
    rw [this, sentAfter_eq, if_pos rfl]
    simp only [addSent, and_self, if_true]
    exact List.prefix_append _ _

theorem conf_accAll (K : Prog n M O) (l : List (Fin n)) : ∀ g : Ghost n M, g.mid = false → P.isAcc g.phase = true →
    Conf P r K { g with accd := fun d => g.accd d + l.count d } → Conf P r (accAll l K) g := by
  induction l with
  | nil =>
    intro g _ _ h
    simpa [accAll] using h
  | cons x l ih =>
    intro g h1 h2 h
    refine ⟨h1, h2, ih _ h1 h2 ?_⟩
    have : (fun d => (Function.update g.accd x (g.accd x + 1)) d + ((l.count d : ℕ) : ℤ)) = fun d => g.accd d + (((x :: l).count d : ℕ) : ℤ) := by
      funext d
      by_cases hd : d = x
      · subst hd; simp; ring
      · rw [Function.update_of_ne hd, List.count_cons_of_ne (fun h => hd h.symm)]
    simp only [this]
    exact h

/-- The receives of the phase gave one message for each source which sends to `r`, in some order. -/
structure Received (msg : Fin n → Fin n → Option M) (r : Fin n) (res : List (Fin n × M)) : Prop where
  nodup : (res.map Prod.fst).Nodup
  mem : ∀ s m, (s, m) ∈ res ↔ msg s r = some m

end

theorem collect_any (tag : ℕ) (got : Key n → List (Fin n × M)) (c : ℕ) (h : (got (none, tag)).length = c) :
    collect (List.replicate c (none, tag)) got = got (none, tag) := by
  induction c generalizing got with
  | zero => rw [List.length_eq_zero_iff.mp h]; rfl
  | succ c ih =>
    rw [List.replicate_succ]
    unfold collect
    cases hg : got (none, tag) with
    | nil => rw [hg] at h; simp at h
    | cons x xs =>
      rw [hg] at h
      simp only
      rw [ih]
      · simp
      · simpa using h

theorem collect_named (tag : ℕ) (l : List (Fin n)) (hl : l.Nodup) (got : Key n → List (Fin n × M)) (f : Fin n → M)
    (h : ∀ s ∈ l, got (some s, tag) = [(s, f s)]) : collect (l.map fun s => (some s, tag)) got = l.map fun s => (s, f s) := by
  induction l generalizing got with
  | nil => rfl
  | cons a l ih =>
    rw [List.map_cons, List.map_cons]
    unfold collect
    rw [h a List.mem_cons_self]
    simp only
    congr 1
    rw [List.nodup_cons] at hl
    refine ih hl.2 _ fun s hs => ?_
    have hne : s ≠ a := fun e => hl.1 (e ▸ hs)
    rw [Function.update_of_ne (by simp [hne])]
    exact h s (List.mem_cons_of_mem _ hs)

section
variable {ps : List (Phase n M)} {post : Fin n → O → Prop}

theorem filter_fst_of_nodup (l : List (Fin n × M)) (hl : (l.map Prod.fst).Nodup) (d : Fin n) (o : Option M) (h : ∀ m, (d, m) ∈ l ↔ o = some m) :
    (l.filter (fun x => decide (x.1 = d))).map Prod.snd = o.toList := by
  induction l with
  | nil =>
    cases o with
    | none => rfl
    | some m => have := (h m).mpr rfl; simp at this
  | cons x l ih =>
    rw [List.map_cons, List.nodup_cons] at hl
    by_cases hd : x.1 = d
    · have hx : o = some x.2 := (h x.2).mp (by rw [← hd]; exact List.mem_cons_self)
      have hnil : l.filter (fun x => decide (x.1 = d)) = [] := by
        rw [List.filter_eq_nil_iff]
        intro y hy
        simp only [decide_eq_true_eq]
        intro e
        exact hl.1 (by rw [hd, ← e]; exact List.mem_map_of_mem hy)
      rw [List.filter_cons, if_pos (by simpa using hd), hnil, hx]; rfl
    · rw [List.filter_cons, if_neg (by simpa using hd)]
      refine ih hl.2 fun m => ?_
      rw [← h m, List.mem_cons]
      constructor
      · exact Or.inr
      · rintro (e | e)
        · exact absurd (by rw [← e]) hd
        · exact e

theorem sum_toList_length (msg : Fin n → Fin n → Option M) (r : Fin n) :
    ∑ s, (msg s r).toList.length = (Finset.univ.filter fun s => (msg s r).isSome = true).card := by
  rw [Finset.card_filter]
  refine Finset.sum_congr rfl fun s _ => ?_
  cases msg s r <;> simp

/-- The messages to send: `l` lists exactly the messages of `r`. -/
structure SendsOf (msg : Fin n → Fin n → Option M) (r : Fin n) (l : List (Fin n × M)) : Prop where
  nodup : (l.map Prod.fst).Nodup
  mem : ∀ d m, (d, m) ∈ l ↔ msg r d = some m

theorem sentAfter_sendsOf {tag : ℕ} {msg : Fin n → Fin n → Option M} {r : Fin n} {l : List (Fin n × M)} (h : SendsOf msg r l) (d : Fin n) (t : ℕ) :
    sentAfter tag (fun _ _ => []) l d t = (Phase.comm tag msg).hist r d t := by
  rw [sentAfter_eq]
  simp only [Phase.hist]
  by_cases ht : t = tag
  · rw [if_pos ht, if_pos ht, List.nil_append, filter_fst_of_nodup l h.nodup d (msg r d) (fun m => h.mem d m)]
  · rw [if_neg ht, if_neg ht]

theorem isBar_comm {p tag : ℕ} {msg : Fin n → Fin n → Option M} (hp : ps[p]? = some (.comm tag msg)) : (ofPhases ps post).isBar p = false := by
  simp only [ofPhases, hp]; rfl

theorem hist_comm {p tag : ℕ} {msg : Fin n → Fin n → Option M} (hp : ps[p]? = some (.comm tag msg)) :
    (ofPhases ps post).hist p = (Phase.comm tag msg).hist := by
  simp only [ofPhases, hp]

theorem accs_comm {p tag : ℕ} {msg : Fin n → Fin n → Option M} (hp : ps[p]? = some (.comm tag msg)) :
    (ofPhases ps post).accs p = fun _ _ => 0 := by
  simp only [ofPhases, hp]; rfl

/-- Receives from any source, sends, and the wait. -/
theorem conf_any {r : Fin n} {p tag : ℕ} {msg : Fin n → Fin n → Option M} (hp : ps[p]? = some (.comm tag msg))
    (hs : anyB (ps.map Phase.kind) p tag = true) {c : ℕ} (hc : c = (Finset.univ.filter fun s => (msg s r).isSome = true).card)
    {l : List (Fin n × M)} (hl : SendsOf msg r l) {K : List (Fin n × M) → Prog n M O} {base : Option (ℤ × ℕ)}
    (hK : ∀ res, Received msg r res → Conf (ofPhases ps post) r (K res) (.at (p + 1) base)) :
    Conf (ofPhases ps post) r (postAny tag c (sendAll tag l (.waitall K))) (.at p base) := by
  have hcov : (ofPhases ps post).Covers r p (List.replicate c (none, tag)) := by
    intro t
    rw [hist_comm hp]
    by_cases ht : t = tag
    · subst ht
      right
      refine ⟨fun s => ?_, ?_, anySafe_of p t hs r⟩
      · rw [List.count_eq_zero]; intro hm; have := List.eq_of_mem_replicate hm; simp at this
      · simp only [Phase.hist, if_true]
        rw [List.count_replicate_self, sum_toList_length, hc]
    · left
      refine ⟨?_, fun s => ?_⟩
      · rw [List.count_eq_zero]; intro hm; have := List.eq_of_mem_replicate hm; simp at this; exact ht this
      · simp only [Phase.hist, if_neg ht, List.length_nil]
        rw [List.count_eq_zero]; intro hm; have := List.eq_of_mem_replicate hm; simp at this
  refine conf_postAny _ r tag c _ _ rfl (isBar_comm hp) (fun s => rfl) ?_
  refine conf_sendAll _ r tag _ l _ rfl (isBar_comm hp) (by simpa [Ghost.at] using hcov) ?_ ?_
  · intro d t
    simp only [Ghost.at]
    rw [hist_comm hp, sentAfter_sendsOf hl]
  · refine ⟨rfl, isBar_comm hp, lt_length hp, by simpa [Ghost.at] using hcov, rfl, ?_, ?_⟩
    · simp only [Ghost.at]; rw [accs_comm hp]
    · intro got hm
      simp only [Ghost.at, List.nil_append] at hm ⊢
      have hlen : (got (none, tag)).length = c := by rw [hm.len, List.count_replicate_self]
      rw [collect_any tag got c hlen]
      refine hK _ ?_
      have hsome : ∀ s, got (some s, tag) = [] := fun s => List.length_eq_zero_iff.mp (by
        rw [hm.len, List.count_eq_zero]; intro h; have := List.eq_of_mem_replicate h; simp at this)
      have hD : ∀ s, ((got (none, tag)).filter (fun x => decide (x.1 = s))).map Prod.snd = (msg s r).toList := by
        intro s
        have := hm.eq s tag
        unfold D at this
        rw [hsome, List.nil_append, hist_comm hp] at this
        simpa [Phase.hist] using this
      refine ⟨?_, fun s m => ?_⟩
      · rw [List.nodup_iff_count_le_one]
        intro s
        have hle : (((got (none, tag)).filter (fun x => decide (x.1 = s))).map Prod.snd).length ≤ 1 := by
          rw [hD]; cases msg s r <;> simp
        rw [List.length_map] at hle
        rw [List.count_eq_countP, List.countP_map, List.countP_eq_length_filter]
        refine le_of_eq_of_le ?_ hle
        congr 1
      · constructor
        · intro h
          have : m ∈ ((got (none, tag)).filter (fun x => decide (x.1 = s))).map Prod.snd :=
            List.mem_map.mpr ⟨(s, m), List.mem_filter.mpr ⟨h, by simp⟩, rfl⟩
          rw [hD] at this
          simpa using this
        · intro h
          have : m ∈ ((got (none, tag)).filter (fun x => decide (x.1 = s))).map Prod.snd := by rw [hD, h]; simp
          obtain ⟨⟨s', m'⟩, h1, rfl⟩ := List.mem_map.mp this
          rw [List.mem_filter] at h1
          have h2 : s' = s := by simpa using h1.2
          rw [← h2]; exact h1.1

/-- Receives from given sources, sends, and the wait: the messages arrive in the order of the sources. -/
theorem conf_named {r : Fin n} {p tag : ℕ} {msg : Fin n → Fin n → Option M} (hp : ps[p]? = some (.comm tag msg))
    {srcs : List (Fin n)} (hn : srcs.Nodup) (hsrc : ∀ s, s ∈ srcs ↔ (msg s r).isSome = true)
    {l : List (Fin n × M)} (hl : SendsOf msg r l) {K : List (Fin n × M) → Prog n M O} {base : Option (ℤ × ℕ)}
    (hK : ∀ res, Received msg r res → res.map Prod.fst = srcs → Conf (ofPhases ps post) r (K res) (.at (p + 1) base)) :
    Conf (ofPhases ps post) r (postFrom tag srcs (sendAll tag l (.waitall K))) (.at p base) := by
  have hcount : ∀ s, (srcs.map fun s => ((some s, tag) : Key n)).count (some s, tag) = (msg s r).toList.length := by
    intro s
    rw [List.count_map_of_injective srcs (fun s => ((some s, tag) : Key n)) (fun a b h => by simpa using h)]
    by_cases hm : s ∈ srcs
    · rw [List.count_eq_one_of_mem hn hm]
      obtain ⟨m, h⟩ := Option.isSome_iff_exists.mp ((hsrc s).mp hm)
      simp [h]
    · rw [List.count_eq_zero_of_not_mem hm]
      have : msg s r = none := by
        cases h : msg s r with
        | none => rfl
        | some m => exact absurd ((hsrc s).mpr (by simp [h])) hm
      simp [this]
  have hcov : (ofPhases ps post).Covers r p (srcs.map fun s => (some s, tag)) := by
    intro t
    rw [hist_comm hp]
    left
    refine ⟨?_, fun s => ?_⟩
    · rw [List.count_eq_zero]; intro hm; obtain ⟨_, _, h⟩ := List.mem_map.mp hm; simp at h
    · by_cases ht : t = tag
      · subst ht
        simp only [Phase.hist, if_true]
        exact hcount s
      · simp only [Phase.hist, if_neg ht, List.length_nil]
        rw [List.count_eq_zero]; intro hm; obtain ⟨_, _, h⟩ := List.mem_map.mp hm; simp at h; exact ht h.2.symm
  refine conf_postFrom _ r tag srcs _ _ rfl (isBar_comm hp) rfl ?_
  refine conf_sendAll _ r tag _ l _ rfl (isBar_comm hp) (by simpa [Ghost.at] using hcov) ?_ ?_
  · intro d t
    simp only [Ghost.at]
    rw [hist_comm hp, sentAfter_sendsOf hl]
  · refine ⟨rfl, isBar_comm hp, lt_length hp, by simpa [Ghost.at] using hcov, rfl, ?_, ?_⟩
    · simp only [Ghost.at]; rw [accs_comm hp]
    · intro got hm
      simp only [Ghost.at, List.nil_append] at hm ⊢
      have hnone : got (none, tag) = [] := List.length_eq_zero_iff.mp (by
        rw [hm.len, List.count_eq_zero]; intro hm; obtain ⟨_, _, h⟩ := List.mem_map.mp hm; simp at h)
      have hD : ∀ s, (got (some s, tag)).map Prod.snd = (msg s r).toList := by
        intro s
        have := hm.eq s tag
        unfold D at this
        rw [hnone, hist_comm hp] at this
        simpa [Phase.hist] using this
      have hf : ∀ s ∈ srcs, ∃ m, msg s r = some m ∧ got (some s, tag) = [(s, m)] := by
        intro s hs
        obtain ⟨m, h⟩ := Option.isSome_iff_exists.mp ((hsrc s).mp hs)
        refine ⟨m, h, ?_⟩
        have h1 := hD s
        rw [h] at h1
        cases hg : got (some s, tag) with
        | nil => rw [hg] at h1; simp at h1
        | cons x xs =>
          rw [hg] at h1
          simp only [List.map_cons, Option.toList_some, List.cons.injEq, List.map_eq_nil_iff] at h1
          have hx := hm.src s tag x (by rw [hg]; exact List.mem_cons_self)
          rw [h1.2, ← h1.1, ← hx]
      by_cases hM : srcs = []
      · subst hM
        refine hK _ ⟨by simp [collect], fun s m => ?_⟩ (by simp [collect])
        constructor
        · simp [collect]
        · intro h; have := (hsrc s).mpr (by simp [h]); simp at this
      · obtain ⟨s0, hs0⟩ := List.exists_mem_of_ne_nil _ hM
        obtain ⟨m0, -, -⟩ := hf s0 hs0
        have hc := collect_named tag srcs hn got (fun s => (msg s r).getD m0) (fun s hs => by
          obtain ⟨m, h1, h2⟩ := hf s hs
          rw [h2, h1]; rfl)
        rw [hc]
        have hfst : (srcs.map fun s => (s, (msg s r).getD m0)).map Prod.fst = srcs := by
          rw [List.map_map]; simp [Function.comp_def]
        refine hK _ ⟨by rw [hfst]; exact hn, fun s m => ?_⟩ hfst
        rw [List.mem_map]
        constructor
        · rintro ⟨s', hs', he⟩
          simp only [Prod.mk.injEq] at he
          obtain ⟨rfl, rfl⟩ := he
          obtain ⟨m, h1, -⟩ := hf s' hs'
          rw [h1]; rfl
        · intro h
          exact ⟨s, (hsrc s).mpr (by simp [h]), by rw [h]; rfl⟩

/-- Counting the ranks which have this rank in their list. -/
theorem conf_countRanks {r : Fin n} {p : ℕ} {A : Fin n → Fin n → Bool} (hp0 : ps[p]? = some .bar) (hp1 : ps[p + 1]? = some (.acc A))
    (hq0 : quietB (ps.map Phase.kind) p = true) (hq2 : quietB (ps.map Phase.kind) (p + 2) = true)
    {l : List (Fin n)} (hl : l.Nodup) (hA : ∀ d, d ∈ l ↔ A r d = true) {K : ℤ → Prog n M O} {base : Option (ℤ × ℕ)}
    (hK : Conf (ofPhases ps post) r (K ((Finset.univ.filter fun s => A s r = true).card : ℕ)) (.at (p + 2) (some (0, p)))) :
    Conf (ofPhases ps post) r (countRanks l K) (.at p base) := by
  have e0 : (ofPhases ps post).isBar p = true := by simp only [ofPhases, hp0]; rfl
  have e1 : (ofPhases ps post).isBar (p + 1) = true := by simp only [ofPhases, hp1]; rfl
  have a1 : (ofPhases ps post).isAcc (p + 1) = true := by simp [ofPhases, hp1, Phase.kind]
  have h0 : (ofPhases ps post).hist p = fun _ _ _ => [] := by simp only [ofPhases, hp0]; rfl
  have h1 : (ofPhases ps post).hist (p + 1) = fun _ _ _ => [] := by simp only [ofPhases, hp1]; rfl
  have c0 : (ofPhases ps post).accs p = fun _ _ => 0 := by simp only [ofPhases, hp0]; rfl
  have c1 : (ofPhases ps post).accs (p + 1) = (Phase.acc A : Phase n M).accs := by simp only [ofPhases, hp1]
  refine ⟨rfl, quiet_of p hq0, rfl, e0, lt_length hp0, rfl, h0, ?_, rfl, ?_⟩
  · simp only [Ghost.at]; rw [c0]
  · refine conf_accAll _ r _ l _ rfl a1 ⟨rfl, e1, lt_length hp1, rfl, h1, ?_, rfl, rfl, quiet_of (p + 2) hq2, 0, p, rfl, ?_⟩
    · simp only [Ghost.at]
      rw [c1]
      funext d
      simp only [Phase.accs, zero_add]
      by_cases h : A r d = true
      · rw [if_pos h, List.count_eq_one_of_mem hl ((hA d).mpr h)]; rfl
      · rw [if_neg h, List.count_eq_zero_of_not_mem (fun hm => h ((hA d).mp hm))]; rfl
    · have : (0 : ℤ) + ∑ s, ((ofPhases ps post).C (p + 2) s r - (ofPhases ps post).C p s r)
          = ((Finset.univ.filter fun s => A s r = true).card : ℕ) := by
        rw [zero_add, Finset.card_filter]
        push_cast
        refine Finset.sum_congr rfl fun s _ => ?_
        rw [show p + 2 = p + 1 + 1 from rfl, Protocol.C_succ, Protocol.C_succ, c0, c1]
        simp [Phase.accs]
      simp only [Ghost.at]
      rw [this]
      exact hK

/-- The end of the program. -/
theorem conf_done {r : Fin n} {o : O} {base : Option (ℤ × ℕ)} (h : post r o) :
    Conf (ofPhases ps post) r (.done o) (.at ps.length base) := by
  refine ⟨h, rfl, rfl, ?_, ?_, ?_⟩
  · simp [ofPhases]
  · intro t
    left
    simp [Ghost.at, ofPhases]
  · funext d t
    simp [Ghost.at, ofPhases]
end

end Verif.Lemmas.Mpi
