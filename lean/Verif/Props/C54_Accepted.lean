import Verif.Props.C54_Sections

/-! C54: which documents are accepted. -/

namespace Verif.Props.C54
open Verif.Model.ParticleReader
open Verif.Spec.Config Verif.Spec.NameValue

/-- **The elements visited** start with the first one of the given name. -/
theorem fromFirst_iff (e : Elem) (name : Str) (l : List Elem) : e.fromFirst name = l ↔ FromFirst e.elems name l := by
  unfold Elem.fromFirst FromFirst
  generalize e.elems = all
  constructor
  · rintro rfl
    refine ⟨all.takeWhile fun x => x.name ≠ name, (List.takeWhile_append_dropWhile).symm, fun x hx => ?_, fun x hx => ?_⟩
    · have : ∀ (q : Elem → Bool) (l : List Elem), x ∈ l.takeWhile q → q x = true := by
        intro q l
        induction l with
        | nil => simp
        | cons y l ih =>
          rw [List.takeWhile_cons]
          split_ifs with h
          · intro hx
            rcases List.mem_cons.1 hx with rfl | hx
            · exact h
            · exact ih hx
          · simp
      simpa using this _ _ hx
    · have := List.head?_dropWhile_not (fun x : Elem => decide (x.name ≠ name)) all
      rw [hx] at this
      simpa using this
  · rintro ⟨b, rfl, h1, h2⟩
    induction b with
    | nil =>
      cases l with
      | nil => rfl
      | cons x l => simp [h2 x rfl]
    | cons x b ih =>
      have hx := h1 x (by simp)
      rw [List.cons_append, List.dropWhile_cons_of_pos (by simpa using hx)]
      exact ih fun y hy => h1 y (by simp [hy])

/-- There is only one way to split. -/
theorem split_iff (c : Char) (s : Str) (l : List Str) : split c s = l ↔ IsSplit c s l := by
  constructor
  · rintro rfl
    exact split_spec c s
  · rintro ⟨h1, h2, h3⟩
    induction s generalizing l with
    | nil =>
      obtain ⟨f, r, rfl⟩ := List.exists_cons_of_ne_nil h3
      cases r with
      | nil => simp [List.intercalate] at h2; simp [split, h2]
      | cons g r => simp [List.intercalate] at h2
    | cons x s ih =>
      obtain ⟨f, r, rfl⟩ := List.exists_cons_of_ne_nil h3
      rw [split]
      cases f with
      | nil =>
        cases r with
        | nil => simp [List.intercalate] at h2
        | cons g r =>
          simp only [List.intercalate, List.intersperse_cons_cons, List.flatten_cons, List.nil_append, List.singleton_append, List.cons.injEq] at h2
          rw [if_pos h2.1.symm, ih (g :: r) (fun p hp => h1 p (by simp [hp])) h2.2 (by simp)]
      | cons y f =>
        have hy : y = x ∧ [c].intercalate (f :: r) = s := by
          cases r with
          | nil => simpa [List.intercalate] using h2
          | cons g r => simpa [List.intercalate] using h2
        obtain ⟨rfl, hs⟩ := hy
        have hc : y ≠ c := fun e => h1 (y :: f) (by simp) (by simp [e])
        rw [if_neg hc, ih (f :: r) (fun p hp => by
          rcases List.mem_cons.1 hp with rfl | hp
          · exact fun h => h1 (y :: p) (by simp) (by simp [h])
          · exact h1 p (by simp [hp])) hs (by simp)]

/-! ### Conditions -/

/-- `find_first_of` finds the first occurrence. -/
theorem find_pos (s : Str) (c : Char) (hs : s.length < npos) :
    (posInt (findFirstOf s c) = -1 ∧ c ∉ s) ∨ ∃ f r, s = f ++ c :: r ∧ c ∉ f ∧ posInt (findFirstOf s c) = f.length := by
  unfold posInt findFirstOf
  cases h : s.findIdx? (· == c) with
  | none =>
    rw [List.findIdx?_eq_none_iff] at h
    left
    refine ⟨by simp, fun hc => ?_⟩
    have := h c hc
    simp at this
  | some i =>
    rw [List.findIdx?_eq_some_iff_getElem] at h
    obtain ⟨hi, h1, h2⟩ := h
    right
    refine ⟨s.take i, s.drop (i + 1), ?_, ?_, ?_⟩
    · have : s[i] = c := by simpa using h1
      rw [← this, List.cons_getElem_drop_succ, List.take_append_drop]
    · intro hc
      obtain ⟨j, hj, e⟩ := List.mem_take_iff_getElem.1 hc
      have hj' : j < i := by omega
      have := h2 j hj'
      simp [e] at this
    · have hlen : (s.take i).length = i := by rw [List.length_take]; omega
      simp only [Option.getD_some, hlen]
      rw [if_neg (by omega)]

theorem pos_unique {c : Char} {f f' r r' : Str} (h : f ++ c :: r = f' ++ c :: r') (hf : c ∉ f) (hf' : c ∉ f') : f = f' ∧ r = r' := by
  rcases List.append_eq_append_iff.1 h with ⟨a, h1, h2⟩ | ⟨a, h1, h2⟩
  · cases a with
    | nil => simp at h1 h2; exact ⟨h1.symm, h2⟩
    | cons x a =>
      simp only [List.cons_append, List.cons.injEq] at h2
      exact absurd (by rw [h1, ← h2.1]; simp) hf'
  · cases a with
    | nil => simp at h1 h2; exact ⟨h1, h2.symm⟩
    | cons x a =>
      simp only [List.cons_append, List.cons.injEq] at h2
      exact absurd (by rw [h1, ← h2.1]; simp) hf

/-- **The VALUE of a periodic condition** is accepted exactly if it names one region. -/
theorem pValueOk_iff (P : Parsers) (s : Str) (hs : s.length < npos) : pValueOk P s = true ↔ PeriodicRegion P s := by
  have seq_iff : ∀ t, ((match P.seq t with | some l => decide (l.length = 1) | none => false) = true) ↔ ∃ n, P.seq t = some [n] := by
    intro t
    cases P.seq t with
    | none => simp
    | some l =>
      simp only [decide_eq_true_eq, Option.some.injEq, List.length_eq_one_iff]
  have hn : npos = 2 ^ 64 - 1 := rfl
  unfold pValueOk PeriodicRegion
  by_cases h0 : s = []
  · subst h0
    simp
  rw [if_neg h0]
  dsimp only
  constructor
  · intro h
    rcases find_pos s '[' hs with ⟨hb, hb'⟩ | ⟨f, r, hb, hbf, hbi⟩ <;> rcases find_pos s ']' hs with ⟨he, he'⟩ | ⟨f', r', he, hef, hei⟩
    · rw [hb, he] at h
      revert h
      cases substr s (-1 + 1 : ℤ).toNat (wrap (-1 - -1 - 1)) <;> simp
    · rw [hb, hei] at h
      have hw : wrap ((f'.length : ℤ) - -1 - 1) = f'.length := by
        have : s.length = f'.length + (r'.length + 1) := by rw [he]; simp
        unfold wrap; omega
      rw [hw] at h
      have hsub : substr s (-1 + 1 : ℤ).toNat f'.length = some f' := by
        unfold substr
        rw [show ((-1 : ℤ) + 1).toNat = 0 from rfl, if_neg (by omega), List.drop_zero, he, List.take_left]
      rw [hsub] at h
      simp only [Bool.and_eq_true] at h
      exact ⟨[], f', r', by simpa using he, by simpa using hef, Or.inl ⟨rfl, hb'⟩, (seq_iff _).1 h.2⟩
    · rw [hbi, he] at h
      revert h
      cases substr s ((f.length : ℤ) + 1).toNat (wrap (-1 - f.length - 1)) with
      | none => simp
      | some t =>
        simp only [Bool.and_eq_true, decide_eq_true_eq, and_imp]
        intro h
        omega
    · rw [hbi, hei] at h
      revert h
      cases ht : substr s ((f.length : ℤ) + 1).toNat (wrap ((f'.length : ℤ) - f.length - 1)) with
      | none => simp
      | some t =>
        simp only [Bool.and_eq_true, decide_eq_true_eq, and_imp]
        intro h hq
        -- the opening bracket lies before the closing one
        have hlt : f.length < f'.length := by omega
        obtain ⟨mid, hmid⟩ : ∃ mid, f' = f ++ '[' :: mid := by
          have e := hb.symm.trans he
          rcases List.append_eq_append_iff.1 e with ⟨a, h1, h2⟩ | ⟨a, h1, h2⟩
          · cases a with
            | nil => simp at h1; rw [h1] at hlt; omega
            | cons x a =>
              simp only [List.cons_append, List.cons.injEq] at h2
              exact ⟨a, by rw [h1, ← h2.1]⟩
          · have : f'.length ≤ f.length := by rw [h1]; simp
            omega
        have hw : wrap ((f'.length : ℤ) - f.length - 1) = mid.length := by
          have : s.length = f'.length + (r'.length + 1) := by rw [he]; simp
          have : f'.length = f.length + (mid.length + 1) := by rw [hmid]; simp
          unfold wrap; omega
        rw [hw] at ht
        have e2 : s = (f ++ ['[']) ++ (mid ++ ']' :: r') := by rw [he, hmid]; simp
        have hsub : substr s ((f.length : ℤ) + 1).toNat mid.length = some mid := by
          unfold substr
          have hl : ((f.length : ℤ) + 1).toNat = (f ++ ['[']).length := by simp
          rw [hl, if_neg (by rw [e2]; simp), e2, List.drop_left, List.take_left]
        rw [hsub, Option.some.injEq] at ht
        subst ht
        refine ⟨f ++ ['['], mid, r', by rw [e2]; simp, ?_, Or.inr ⟨f, rfl, hbf⟩, (seq_iff _).1 hq⟩
        rw [List.append_assoc, List.singleton_append, ← hmid]
        exact hef
  · rintro ⟨front, mid, back, hs1, hno, hfront, hseq⟩
    have hq := (seq_iff mid).2 hseq
    have hei : posInt (findFirstOf s ']') = (front ++ mid).length := by
      rcases find_pos s ']' hs with ⟨_, he'⟩ | ⟨f', r', he, hef, hei⟩
      · exact absurd (by rw [hs1]; simp) he'
      · rw [hei, (pos_unique (hs1.symm.trans he) hno hef).1]
    have hlen : s.length = front.length + mid.length + (back.length + 1) := by rw [hs1]; simp; omega
    rcases hfront with ⟨rfl, hno'⟩ | ⟨f, rfl, hf⟩
    · have hbi : posInt (findFirstOf s '[') = -1 := by
        rcases find_pos s '[' hs with ⟨hb, _⟩ | ⟨f', r', he, _, _⟩
        · exact hb
        · exact absurd (by rw [he]; simp) hno'
      rw [hbi, hei]
      have hw : wrap ((([] ++ mid : Str).length : ℤ) - -1 - 1) = mid.length := by
        rw [List.nil_append]; unfold wrap; omega
      rw [hw]
      have hsub : substr s (-1 + 1 : ℤ).toNat mid.length = some mid := by
        unfold substr
        rw [show ((-1 : ℤ) + 1).toNat = 0 from rfl, if_neg (by omega), List.drop_zero, hs1, List.nil_append, List.take_left]
      rw [hsub]
      simp only [Bool.and_eq_true, decide_eq_true_eq]
      exact ⟨by simp; omega, hq⟩
    · have hbi : posInt (findFirstOf s '[') = f.length := by
        rcases find_pos s '[' hs with ⟨_, hb'⟩ | ⟨f', r', he, hef, hei⟩
        · exact absurd (by rw [hs1]; simp) hb'
        · rw [hei]
          have : f ++ '[' :: (mid ++ ']' :: back) = f' ++ '[' :: r' := by rw [← he, hs1]; simp
          rw [(pos_unique this hf hef).1]
      rw [hbi, hei]
      have hw : wrap (((f ++ ['['] ++ mid).length : ℤ) - f.length - 1) = mid.length := by
        simp only [List.length_append, List.length_singleton] at hlen ⊢
        unfold wrap; omega
      rw [hw]
      have e2 : s = (f ++ ['[']) ++ (mid ++ ']' :: back) := by rw [hs1]; simp
      have hsub : substr s ((f.length : ℤ) + 1).toNat mid.length = some mid := by
        unfold substr
        have hl : ((f.length : ℤ) + 1).toNat = (f ++ ['[']).length := by simp
        rw [hl, if_neg (by rw [e2]; simp), e2, List.drop_left, List.take_left]
      rw [hsub]
      simp only [Bool.and_eq_true, decide_eq_true_eq]
      exact ⟨by simp, hq⟩

/-- The attribute values are shorter than the longest string. -/
def ShortAttrs (e : Elem) : Prop := ∀ a ∈ e.attrs, a.2.length < npos

/-- **Conditions.** A condition element is accepted exactly if it is well-formed. -/
theorem condition_accepted (P : Parsers) (all : List ℤ) (e : Elem) (hs : ShortAttrs e) (m : Map ℤ BType) :
    (∃ m', readCondition P all e m = some m') ↔ ConditionOk P e := by
  have hattr : ∀ d, e.attr "SPECIES".toList = some d → e.attrs ≠ [] := fun d h ha => by simp [Elem.attr, ha] at h
  have hc : cAttrsOk e.attrs = true ↔ ∀ a ∈ e.attrs, a.1 = "SPECIES".toList ∨ (a.1 = "VALUE".toList ∧ a.2 ≠ []) := by
    unfold cAttrsOk
    simp only [List.all_eq_true, Bool.or_eq_true, Bool.and_eq_true, decide_eq_true_eq]
  have hp : pAttrsOk P e.attrs = true ↔ ∀ a ∈ e.attrs, (a.1 = "user_definedTYPE".toList → a.2 ≠ []) ∧ (a.1 = "VALUE".toList → PeriodicRegion P a.2) := by
    unfold pAttrsOk
    rw [List.all_eq_true]
    refine forall₂_congr fun a ha => ?_
    have h1 : ("user_definedTYPE".toList : Str) ≠ "VALUE".toList := by decide
    have h2 : ("SPECIES".toList : Str) ≠ "VALUE".toList := by decide
    have h3 : ("SPECIES".toList : Str) ≠ "user_definedTYPE".toList := by decide
    rw [← pValueOk_iff P a.2 (hs a ha)]
    split_ifs with g1 g2 g3
    · rw [g1]; simp [h2, h3]
    · rw [g2]; simp [h1]
    · simp [g3, Ne.symm h1]
    · simp only [true_iff]; exact ⟨fun h => absurd h g2, fun h => absurd h g3⟩
  constructor
  · rintro ⟨m', h⟩
    obtain ⟨id, hid, _⟩ := condition_spec P all e m m' h
    refine ⟨⟨id, hid⟩, fun hC => ?_, fun hP => ?_⟩
    · obtain ⟨d, hd, hr⟩ := hid
      unfold readCondition at h
      have hne : d ≠ [] := fun hd => by rw [hd, ← stoi_iff, stoi_nil] at hr; exact absurd hr (by simp)
      rw [hd] at h
      dsimp only at h
      rw [(stoi_iff d id).2 hr] at h
      dsimp only at h
      rw [if_pos hC, if_neg hne, if_pos (hattr d hd)] at h
      split_ifs at h with h1
      exact hc.1 h1
    · obtain ⟨d, hd, hr⟩ := hid
      unfold readCondition at h
      have hne : d ≠ [] := fun hd => by rw [hd, ← stoi_iff, stoi_nil] at hr; exact absurd hr (by simp)
      rw [hd] at h
      dsimp only at h
      rw [(stoi_iff d id).2 hr] at h
      dsimp only at h
      rw [if_neg (by rw [hP]; decide), if_pos hP, if_neg hne, if_pos (hattr d hd)] at h
      split_ifs at h with h1
      exact hp.1 h1
  · rintro ⟨⟨id, d, hd, hr⟩, h1, h2⟩
    unfold readCondition
    have hne : d ≠ [] := fun hd => by rw [hd, ← stoi_iff, stoi_nil] at hr; exact absurd hr (by simp)
    rw [hd]
    dsimp only
    rw [(stoi_iff d id).2 hr]
    dsimp only
    by_cases hC : e.name = ['C']
    · rw [if_pos hC, if_neg hne, if_pos (hattr d hd), if_pos (hc.2 (h1 hC))]
      exact ⟨_, rfl⟩
    · rw [if_neg hC]
      by_cases hP : e.name = ['P']
      · rw [if_pos hP, if_neg hne, if_pos (hattr d hd), if_pos (hp.2 (h2 hP))]
        exact ⟨_, rfl⟩
      · rw [if_neg hP]
        exact ⟨_, rfl⟩

theorem conditions_accepted (P : Parsers) (all : List ℤ) : ∀ (l : List Elem) (_ : ∀ e ∈ l, ShortAttrs e) (m : Map ℤ BType),
    (∃ m', readConditions P all l m = some m') ↔ ∀ e ∈ l, ConditionOk P e
  | [], _, m => by simp [readConditions]
  | e :: l, hs, m => by
    rw [List.forall_mem_cons] at hs ⊢
    rw [readConditions]
    constructor
    · rintro ⟨m', h⟩
      rw [Option.bind_eq_some_iff] at h
      obtain ⟨m1, h1, h2⟩ := h
      exact ⟨(condition_accepted P all e hs.1 m).1 ⟨m1, h1⟩, (conditions_accepted P all l hs.2 m1).1 ⟨m', h2⟩⟩
    · rintro ⟨h1, h2⟩
      obtain ⟨m1, h1⟩ := (condition_accepted P all e hs.1 m).2 h1
      obtain ⟨m', h2⟩ := (conditions_accepted P all l hs.2 m1).2 h2
      exact ⟨m', by rw [h1]; exact h2⟩

/-- **Regions.** The boundary section is accepted exactly if every region has a reference, no two have the same, and all conditions are well-formed. -/
theorem regions_accepted (P : Parsers) (all : List ℤ) : ∀ (l : List Elem) (_ : ∀ e ∈ l, ∀ c ∈ e.elems, ShortAttrs c) (m : Map ℤ (Map ℤ BType)),
    (∃ m', readRegions P all l m = some m') ↔
      (∀ e ∈ l, ∃ id, AttrInt e "REF" id ∧ m id = none) ∧ l.Pairwise (fun e e' => ∀ id, AttrInt e "REF" id → ¬ AttrInt e' "REF" id) ∧
      ∀ e ∈ l, ∀ c ∈ e.elems, ConditionOk P c
  | [], _, m => by simp [readRegions]
  | e :: l, hs, m => by
    have hs' := hs
    rw [List.forall_mem_cons] at hs
    constructor
    · rintro ⟨m', h⟩
      obtain ⟨r1, r2, _⟩ := regions_spec P all _ _ _ h
      refine ⟨r1, r2, ?_⟩
      rw [readRegions] at h
      cases h1 : (e.attr "REF".toList).bind stoi with
      | none => rw [h1] at h; exact absurd h (by simp)
      | some id =>
        rw [h1] at h
        dsimp only at h
        split_ifs at h with h2
        rw [Option.bind_eq_some_iff] at h
        obtain ⟨c, hc, hr⟩ := h
        rw [List.forall_mem_cons]
        exact ⟨(conditions_accepted P all _ hs.1 _).1 ⟨c, hc⟩, ((regions_accepted P all l hs.2 _).1 ⟨m', hr⟩).2.2⟩
    · rintro ⟨r1, r2, r3⟩
      rw [List.forall_mem_cons] at r1 r3
      rw [List.pairwise_cons] at r2
      obtain ⟨⟨id, hid, hm⟩, r1⟩ := r1
      obtain ⟨c, hc⟩ := (conditions_accepted P all _ hs.1 fun _ => none).2 r3.1
      rw [readRegions, (attr_iff e "REF" id).2 hid]
      dsimp only
      rw [if_neg (by simp [hm]), hc]
      refine (regions_accepted P all l hs.2 _).2 ⟨fun x hx => ?_, r2.2, r3.2⟩
      obtain ⟨i, hi, hn⟩ := r1 x hx
      refine ⟨i, hi, ?_⟩
      have : i ≠ id := fun he => r2.1 x hx id hid (he ▸ hi)
      simp [Map.put, this, hn]

/-! ### Functions -/

/-- **Entries.** What an entry of a function defines. -/
theorem funDef_iff (P : Parsers) (v : Elem) (vars : List Str) (evars : Str) (fd : FunDef) (names : List Str) :
    funDef P v vars evars = some (fd, names) ↔ EntryDefines P v vars evars fd names := by
  unfold funDef EntryDefines
  by_cases hE : v.name = ['E']
  · have hF : v.name ≠ ['F'] := by rw [hE]; decide
    rw [if_pos hE]
    simp only [hE, true_and, (by decide : (['E'] : Str) ≠ ['F']), false_and, or_false]
    cases hv : v.attr "VALUE".toList with
    | none => simp
    | some s =>
      dsimp only
      by_cases h0 : s = []
      · simp [h0]
      · rw [if_neg h0]
        by_cases h1 : P.equation s evars = true
        · rw [if_pos h1]
          simp only [Option.some.injEq, Prod.mk.injEq, kExpression]
          constructor
          · rintro ⟨rfl, rfl⟩; exact ⟨s, rfl, h0, h1, rfl, rfl⟩
          · rintro ⟨_, rfl, _, _, rfl, rfl⟩; exact ⟨rfl, rfl⟩
        · rw [if_neg h1]
          simp only [reduceCtorEq, false_iff]
          rintro ⟨_, h, _, h2, _⟩
          rw [Option.some.injEq] at h
          exact h1 (h ▸ h2)
  · rw [if_neg hE]
    simp only [hE, false_and, false_or]
    by_cases hF : v.name = ['F']
    · rw [if_pos hF]
      simp only [hF, true_and]
      have htr : ∀ tr, (match v.attr "TIMEDEPENDENT".toList with | none => some false | some t => P.bool t) = some tr ↔
          ((v.attr "TIMEDEPENDENT".toList = none ∧ tr = false) ∨ ∃ t, v.attr "TIMEDEPENDENT".toList = some t ∧ P.bool t = some tr) := by
        intro tr
        cases v.attr "TIMEDEPENDENT".toList with
        | none => simp [eq_comm]
        | some t => simp
      rw [Option.bind_eq_some_iff]
      refine (exists_congr fun tr => and_congr_left' (htr tr)).trans ?_
      have kinds : ∀ tr : Bool, (if tr then kTransient else kFile) = if tr then 2 else 1 := fun tr => rfl
      constructor
      · rintro ⟨tr, h1, h2⟩
        cases hf : v.attr "FILE".toList with
        | none => rw [hf] at h2; exact absurd h2 (by simp)
        | some s =>
          rw [hf] at h2
          dsimp only at h2
          by_cases h0 : s = []
          · rw [if_pos h0] at h2; exact absurd h2 (by simp)
          rw [if_neg h0] at h2
          have hsp := split_spec ':' s
          revert hsp h2
          generalize split ':' s = pieces
          intro h2 hsp
          match pieces, hsp with
          | [], hsp => exact absurd hsp.2.2 (by simp)
          | [f], hsp =>
            simp only [Option.some.injEq, Prod.mk.injEq] at h2
            have e : f = s := by simpa [List.intercalate] using hsp.2.1
            exact ⟨tr, s, f, h1, rfl, h0, hsp.1 f (by simp), h2.1.symm, Or.inl ⟨e.symm, h2.2.symm⟩⟩
          | [f, list], hsp =>
            dsimp only at h2
            have e : f ++ ':' :: list = s := by simpa [List.intercalate] using hsp.2.1
            cases vars with
            | nil => simp at h2
            | cons v0 rest =>
              dsimp only at h2
              by_cases g1 : v0 = ['*']
              · rw [if_pos g1] at h2; exact absurd h2 (by simp)
              rw [if_neg g1] at h2
              by_cases g2 : (split ',' list).length ≠ (v0 :: rest).length
              · rw [if_pos g2] at h2; exact absurd h2 (by simp)
              rw [if_neg g2] at h2
              simp only [Option.some.injEq, Prod.mk.injEq] at h2
              refine ⟨tr, s, f, h1, rfl, h0, hsp.1 f (by simp), h2.1.symm, Or.inr ⟨list, v0, e.symm, hsp.1 list (by simp), rfl, g1, ?_, ?_⟩⟩
              · rw [← h2.2]; exact split_spec ',' list
              · rw [← h2.2]; simpa using g2
          | _ :: _ :: _ :: _, _ => simp at h2
      · rintro ⟨tr, s, f, h1, h2, h0, hf, rfl, h3⟩
        refine ⟨tr, h1, ?_⟩
        rw [h2]
        dsimp only
        rw [if_neg h0]
        rcases h3 with ⟨rfl, rfl⟩ | ⟨list, v0, rfl, hl, hv, hv0, hsp, hlen⟩
        · rw [(split_iff ':' s [s]).2 ⟨by simpa using hf, by simp [List.intercalate], by simp⟩]
          rfl
        · rw [(split_iff ':' _ [f, list]).2 ⟨by simp [hf, hl], by simp [List.intercalate], by simp⟩]
          dsimp only
          cases vars with
          | nil => simp at hv
          | cons w rest =>
            simp only [List.head?_cons, Option.some.injEq] at hv
            subst hv
            rw [(split_iff ',' list names).2 hsp]
            dsimp only
            rw [if_neg hv0, if_neg (by simpa using hlen)]
            rfl
    · rw [if_neg hF]
      simp [hF]

theorem addKeys_accepted (fd : FunDef) (fv : List Str) : ∀ (ks : List (ℕ × Str × ℕ)) (m : Map (Str × ℕ) FunDef),
    (∃ m', addKeys fd fv ks m = some m') ↔ (ks.map Prod.snd).Nodup ∧ (∀ k ∈ ks, m k.2 = none) ∧ (fv ≠ [] → ∀ k ∈ ks, k.1 < fv.length)
  | [], m => by simp [addKeys]
  | (i, v, d) :: l, m => by
    constructor
    · rintro ⟨m', h⟩
      obtain ⟨a1, a2, _⟩ := addKeys_spec fd fv _ _ _ h
      refine ⟨a1, fun k hk => (a2 k hk).1, fun hf k hk => ?_⟩
      have h3 := (a2 k hk).2
      rw [h3.1] at h3
      have := h3.2
      rw [storedDef, if_neg hf] at this
      by_contra hc
      rw [List.getElem?_eq_none (by omega)] at this
      simp at this
    · rintro ⟨h1, h2, h3⟩
      rw [List.map_cons, List.nodup_cons] at h1
      rw [List.forall_mem_cons] at h2
      have key : ∀ x, ∃ m', addKeys fd fv l (m.put (v, d) x) = some m' := fun x => by
        refine (addKeys_accepted fd fv l _).2 ⟨h1.2, fun k hk => ?_, fun hf k hk => h3 hf k (by simp [hk])⟩
        have hk' : k.2 ≠ (v, d) := fun e => h1.1 (List.mem_map.2 ⟨k, hk, e⟩)
        rw [Map.put, if_neg hk']
        exact h2.2 k hk
      rw [addKeys, if_neg (by rw [h2.1]; simp)]
      by_cases hf : fv = []
      · rw [if_neg (by simp [hf])]; exact key _
      · have hi := h3 hf (i, v, d) (by simp)
        rw [if_pos (List.length_pos_iff.2 hf), List.getElem?_eq_getElem hi]
        exact key _

/-- **Functions.** The entries of a function are accepted exactly if each defines something and no pair of a variable and a domain is given twice. -/
theorem entries_accepted (P : Parsers) : ∀ (l : List Elem) (m : Map (Str × ℕ) FunDef), (∃ m', readEntries P l m = some m') ↔
    (∀ v ∈ l, ∃ fd names, EntryDefines P v (entryVars P v) (entryEvars v) fd names) ∧
    (l.flatMap fun v => (keysOf (entryVars P v) (entryDomains P v)).map Prod.snd).Nodup ∧
    ∀ v ∈ l, ∀ x ∈ entryVars P v, ∀ d ∈ entryDomains P v, m (x, d) = none
  | [], m => by simp [readEntries]
  | v :: l, m => by
    constructor
    · rintro ⟨m', h⟩
      obtain ⟨e1, e2, _⟩ := entries_spec P _ _ _ h
      refine ⟨fun w hw => ?_, e1, fun w hw x hx d hd => ?_⟩
      · obtain ⟨fd, fv, h1, _⟩ := e2 w hw
        exact ⟨fd, fv, (funDef_iff P _ _ _ _ _).1 h1⟩
      · obtain ⟨fd, fv, _, h2⟩ := e2 w hw
        obtain ⟨i, hi⟩ := List.mem_iff_getElem?.1 hx
        exact (h2 i x d hi hd).1
    · rintro ⟨h1, h2, h3⟩
      rw [List.forall_mem_cons] at h1 h3
      rw [List.flatMap_cons, List.nodup_append] at h2
      obtain ⟨⟨fd, fv, hd⟩, h1⟩ := h1
      have hfv : fv ≠ [] → fv.length = (entryVars P v).length := by
        intro hf
        rcases hd with ⟨_, s, _, _, _, _, hn⟩ | ⟨_, tr, s, file, _, _, _, _, _, (⟨_, hn⟩ | ⟨_, _, _, _, _, _, _, hn⟩)⟩
        · exact absurd hn hf
        · exact absurd hn hf
        · exact hn
      have hk : ∃ m1, addKeys fd fv (keysOf (entryVars P v) (entryDomains P v)) m = some m1 := by
        refine (addKeys_accepted fd fv _ m).2 ⟨h2.1, ?_, ?_⟩
        · rintro ⟨i, x, d⟩ hk
          obtain ⟨g1, g2⟩ := (mem_keysOf _ _ i x d).1 hk
          exact h3.1 x (List.mem_of_getElem? g1) d g2
        · rintro hf ⟨i, x, d⟩ hk
          obtain ⟨g1, _⟩ := (mem_keysOf _ _ i x d).1 hk
          rw [hfv hf]
          exact (List.getElem?_eq_some_iff.1 g1).1
      obtain ⟨m1, hk⟩ := hk
      rw [readEntries, (funDef_iff P _ _ _ _ _).2 hd, Option.bind_some, hk, Option.bind_some]
      refine (entries_accepted P l m1).2 ⟨h1, h2.2.1, fun w hw x hx d hd' => ?_⟩
      obtain ⟨_, _, a3⟩ := addKeys_spec fd fv _ _ _ hk
      rw [a3 (x, d)]
      · exact h3.2 w hw x hx d hd'
      · rintro k hk' e
        obtain ⟨i, hi⟩ := List.mem_iff_getElem?.1 hx
        refine h2.2.2 (x, d) (List.mem_map.2 ⟨k, hk', e⟩) (x, d) (List.mem_flatMap.2 ⟨w, hw, ?_⟩) rfl
        exact List.mem_map.2 ⟨(i, x, d), (mem_keysOf _ _ i x d).2 ⟨hi, hd'⟩, rfl⟩

/-- The domains of an entry: those of the attribute, and without one the domain zero. -/
theorem entry_domains (P : Parsers) (h0 : P.seq ['0'] = some [0]) (v : Elem) :
    (v.attr "DOMAIN".toList = none → entryDomains P v = [0]) ∧
    ∀ s l, v.attr "DOMAIN".toList = some s → P.seq s = some l → entryDomains P v = l := by
  refine ⟨fun h => ?_, fun s l h hl => ?_⟩
  · rw [entryDomains, h, Option.getD_none, h0, Option.getD_some]
  · rw [entryDomains, h, Option.getD_some, hl, Option.getD_some]

/-- The variables of an entry: those of the attribute, and without one all of them. -/
theorem entry_vars (P : Parsers) (v : Elem) :
    (v.attr "VAR".toList = none → entryVars P v = P.vec "*".toList) ∧ ∀ s, v.attr "VAR".toList = some s → entryVars P v = P.vec s := by
  refine ⟨fun h => by rw [entryVars, h]; rfl, fun s h => by rw [entryVars, h]; rfl⟩

/-- The arguments of the expression of an entry: always the coordinates and the time, then those of the attribute. -/
theorem entry_evars (v : Elem) :
    (v.attr "EVARS".toList = none → entryEvars v = "x y z t".toList) ∧
      ∀ s, v.attr "EVARS".toList = some s → entryEvars v = "x y z t ".toList ++ s := by
  refine ⟨fun h => by rw [entryEvars, h], fun s h => by rw [entryEvars, h]; rfl⟩

/-- A function element is well-formed: it has a name, and its entries are accepted. -/
structure FunctionOk (P : Parsers) (f : Elem) : Prop where
  name : ∃ n, f.attr "NAME".toList = some n ∧ n ≠ []
  entries : ∀ v ∈ f.elems, ∃ fd names, EntryDefines P v (entryVars P v) (entryEvars v) fd names
  once : (f.elems.flatMap fun v => (keysOf (entryVars P v) (entryDomains P v)).map Prod.snd).Nodup

theorem functions_accepted (P : Parsers) : ∀ (l : List Elem) (m : Map Str (Map (Str × ℕ) FunDef)), (∃ m', readFunctions P l m = some m') ↔ ∀ f ∈ l, FunctionOk P f
  | [], m => by simp [readFunctions]
  | f :: l, m => by
    rw [List.forall_mem_cons, readFunctions]
    constructor
    · rintro ⟨m', h⟩
      cases hn : f.attr "NAME".toList with
      | none => rw [hn] at h; exact absurd h (by simp)
      | some n =>
        rw [hn] at h
        dsimp only at h
        split_ifs at h with h0
        rw [Option.bind_eq_some_iff] at h
        obtain ⟨fm, h1, h2⟩ := h
        obtain ⟨e1, e2, _⟩ := (entries_accepted P _ _).1 ⟨fm, h1⟩
        exact ⟨⟨⟨n, hn, h0⟩, e1, e2⟩, (functions_accepted P l _).1 ⟨m', h2⟩⟩
    · rintro ⟨⟨⟨n, hn, h0⟩, e1, e2⟩, h2⟩
      obtain ⟨fm, h1⟩ := (entries_accepted P f.elems fun _ => none).2 ⟨e1, e2, by simp⟩
      rw [hn]
      dsimp only
      rw [if_neg h0, h1]
      exact (functions_accepted P l _).2 h2

/-! ### Species and reactions -/

/-- A species element is well-formed. -/
structure SpeciesOk (P : Parsers) (e : Elem) : Prop where
  id : ∃ i, AttrInt e "ID" i
  name : ∃ n, e.attr "NAME".toList = some n ∧ n ≠ []
  functions : ∀ f ∈ e.named "FUNCTION".toList, FunctionOk P f

/-- A reaction element is well-formed: it has an identifier, a type, and a list of known species. -/
structure ReactionOk (known : ℤ → Prop) (e : Elem) : Prop where
  id : ∃ i, AttrInt e "ID" i
  type : ∃ t, e.attr "TYPE".toList = some t ∧ t ≠ []
  species : ∃ d ids, e.attr "SPECIES".toList = some d ∧ List.Forall₂ ReadsInt (split ',' d) ids ∧ ∀ i ∈ ids, known i

theorem definesAll_cons {σ V : Type} (I : Interp σ V) (s s'' : σ) (l : List Elem) (ls : List (List Elem)) :
    DefinesAll I s (l :: ls) s'' ↔ ∃ s' ds, Defines I s l s' ds ∧ DefinesAll I s' ls s'' := by
  constructor
  · intro h
    cases h with
    | cons _ _ s' _ _ ds h1 h2 => exact ⟨s', ds, h1, h2⟩
  · rintro ⟨s', ds, h1, h2⟩
    exact .cons _ _ _ _ _ _ h1 h2

/-- **Species.** The species section is accepted exactly if all elements are well-formed and their parameters can be evaluated one after the other. -/
theorem species_accepted {σ V : Type} (P : Parsers) (I : Interp σ V) : ∀ (l : List Elem) (_ : ∀ e ∈ l, C53.Short (e.fromFirst ['P']))
    (st : σ × Map ℤ (Species V)) (s' : σ), (∃ m', readSpeciesLoop P I l st = some (s', m')) ↔
      (∀ e ∈ l, SpeciesOk P e) ∧ DefinesAll I st.1 (l.map fun e => e.fromFirst ['P']) s'
  | [], _, st, s' => by
    simp only [readSpeciesLoop, Option.some.injEq, List.map_nil]
    constructor
    · rintro ⟨m', rfl⟩; exact ⟨by simp, .nil _⟩
    · rintro ⟨_, h⟩; cases h; exact ⟨st.2, rfl⟩
  | e :: l, hs, st, s' => by
    rw [List.forall_mem_cons] at hs
    rw [List.map_cons, definesAll_cons, List.forall_mem_cons, readSpeciesLoop]
    constructor
    · rintro ⟨m', h⟩
      rw [Option.bind_eq_some_iff] at h
      obtain ⟨⟨s1, m1⟩, h1, h2⟩ := h
      obtain ⟨r1, r2⟩ := (species_accepted P I l hs.2 (s1, m1) s').1 ⟨m', h2⟩
      unfold readSpecie at h1
      cases h3 : e.attr "ID".toList with
      | none => rw [h3] at h1; exact absurd h1 (by simp)
      | some d =>
        cases h4 : e.attr "NAME".toList with
        | none => rw [h3, h4] at h1; exact absurd h1 (by simp)
        | some nm =>
          rw [h3, h4] at h1
          dsimp only at h1
          split_ifs at h1 with h5 h6
          rw [Option.bind_eq_some_iff] at h1
          obtain ⟨⟨s2, ps⟩, hr, h1⟩ := h1
          rw [Option.bind_eq_some_iff] at h1
          obtain ⟨fs, hf, h1⟩ := h1
          rw [Option.map_eq_some_iff] at h1
          obtain ⟨i, hi, he⟩ := h1
          obtain ⟨rfl, _⟩ := Prod.mk.inj he
          obtain ⟨ds, hd, _⟩ := params_of I _ hs.1 _ _ _ hr
          exact ⟨⟨⟨⟨i, (attr_iff e "ID" i).1 (by rw [h3]; exact hi)⟩, ⟨nm, h4, h6⟩, (functions_accepted P _ _).1 ⟨fs, hf⟩⟩, r1⟩, s2, ds, hd, r2⟩
    · rintro ⟨⟨⟨⟨i, hi⟩, ⟨nm, h4, h6⟩, hf⟩, r1⟩, s2, ds, hd, r2⟩
      obtain ⟨fs, hf⟩ := (functions_accepted P _ fun _ => none).2 hf
      have hr := (C53.loop_iff I _ hs.1 st.1 (fun _ => none) s2 _).2 ⟨ds, hd, rfl⟩
      obtain ⟨d, h3, hi'⟩ := hi
      have h5 : d ≠ [] := fun hd => by rw [hd, ← stoi_iff, stoi_nil] at hi'; exact absurd hi' (by simp)
      have h1 : ∃ m1, readSpecie P I e st = some (s2, m1) := by
        unfold readSpecie
        rw [h3, h4]
        dsimp only
        rw [if_neg h5, if_neg h6, hr, Option.bind_some, hf, Option.bind_some, (stoi_iff d i).2 hi']
        exact ⟨_, rfl⟩
      obtain ⟨m1, h1⟩ := h1
      rw [h1, Option.bind_some]
      exact (species_accepted P I l hs.2 (s2, m1) s').2 ⟨r1, r2⟩

/-- **Reactions.** The same for the reactions. -/
theorem reactions_accepted {σ V S : Type} (I : Interp σ V) (species : Map ℤ S) : ∀ (l : List Elem) (_ : ∀ e ∈ l, C53.Short (e.fromFirst ['P']))
    (st : σ × Map ℤ (Reaction V)) (s' : σ), (∃ m', readReactionsLoop I species l st = some (s', m')) ↔
      (∀ e ∈ l, ReactionOk (fun i => (species i).isSome = true) e) ∧ DefinesAll I st.1 (l.map fun e => e.fromFirst ['P']) s'
  | [], _, st, s' => by
    simp only [readReactionsLoop, Option.some.injEq, List.map_nil]
    constructor
    · rintro ⟨m', rfl⟩; exact ⟨by simp, .nil _⟩
    · rintro ⟨_, h⟩; cases h; exact ⟨st.2, rfl⟩
  | e :: l, hs, st, s' => by
    rw [List.forall_mem_cons] at hs
    rw [List.map_cons, definesAll_cons, List.forall_mem_cons, readReactionsLoop]
    constructor
    · rintro ⟨m', h⟩
      rw [Option.bind_eq_some_iff] at h
      obtain ⟨⟨s1, m1⟩, h1, h2⟩ := h
      obtain ⟨r1, r2⟩ := (reactions_accepted I species l hs.2 (s1, m1) s').1 ⟨m', h2⟩
      unfold readReaction at h1
      cases h3 : e.attr "ID".toList with
      | none => rw [h3] at h1; exact absurd h1 (by simp)
      | some d =>
        cases h4 : e.attr "TYPE".toList with
        | none => rw [h3, h4] at h1; exact absurd h1 (by simp)
        | some ty =>
          cases h7 : e.attr "SPECIES".toList with
          | none => rw [h3, h4, h7] at h1; exact absurd h1 (by simp)
          | some sp =>
            rw [h3, h4, h7] at h1
            dsimp only at h1
            split_ifs at h1 with h5 h6
            rw [Option.bind_eq_some_iff] at h1
            obtain ⟨ids, hids, h1⟩ := h1
            rw [Option.bind_eq_some_iff] at h1
            obtain ⟨⟨s2, ps⟩, hr, h1⟩ := h1
            rw [Option.map_eq_some_iff] at h1
            obtain ⟨i, hi, he⟩ := h1
            obtain ⟨rfl, _⟩ := Prod.mk.inj he
            obtain ⟨ds, hd, _⟩ := params_of I _ hs.1 _ _ _ hr
            obtain ⟨g1, g2⟩ := (reactionSpecies_iff species _ _).1 hids
            exact ⟨⟨⟨⟨i, (attr_iff e "ID" i).1 (by rw [h3]; exact hi)⟩, ⟨ty, h4, h6⟩, ⟨sp, ids, h7, g1, g2⟩⟩, r1⟩, s2, ds, hd, r2⟩
    · rintro ⟨⟨⟨⟨i, hi⟩, ⟨ty, h4, h6⟩, ⟨sp, ids, h7, g1, g2⟩⟩, r1⟩, s2, ds, hd, r2⟩
      have hr := (C53.loop_iff I _ hs.1 st.1 (fun _ => none) s2 _).2 ⟨ds, hd, rfl⟩
      obtain ⟨d, h3, hi'⟩ := hi
      have h5 : d ≠ [] := fun hd => by rw [hd, ← stoi_iff, stoi_nil] at hi'; exact absurd hi' (by simp)
      have h1 : ∃ m1, readReaction I species e st = some (s2, m1) := by
        unfold readReaction
        rw [h3, h4, h7]
        dsimp only
        rw [if_neg h5, if_neg h6, (reactionSpecies_iff species _ _).2 ⟨g1, g2⟩, Option.bind_some, hr, Option.bind_some, (stoi_iff d i).2 hi']
        exact ⟨_, rfl⟩
      obtain ⟨m1, h1⟩ := h1
      rw [h1, Option.bind_some]
      exact (reactions_accepted I species l hs.2 (s2, m1) s').2 ⟨r1, r2⟩

/-- A document with short strings. -/
structure ShortDoc (p : Elem) : Prop where
  params : C53.Short (C53.paramElems p)
  species : ∀ e ∈ sub p "SPECIES" "S", C53.Short (e.fromFirst ['P'])
  regions : ∀ e ∈ sub p "BOUNDARYINTERACTION" "REGION", ∀ c ∈ e.elems, ShortAttrs c
  reactions : ∀ e ∈ sub p "REACTIONS" "R", C53.Short (e.fromFirst ['P'])

/-- **C54, accepted documents.** `read_particles` of a new reader succeeds exactly if: the parameters of the section, of the species and of the reactions can
be evaluated one after the other in this order; every species element has an identifier, a name and well-formed functions; no two regions have the same
reference and all their conditions are well-formed; and every reaction has an identifier, a type, and names only species of the species section. -/
theorem read_particles_accepted {σ V : Type} (P : Parsers) (I : Interp σ V) (keys : Map ℤ (Species V) → List ℤ) (p : Elem) (hs : ShortDoc p) (s : σ) :
    (∃ d, readParticles P I keys p s = some d) ↔
      (∃ s1 s2 s3 ds, Defines I s (C53.paramElems p) s1 ds ∧ DefinesAll I s1 ((sub p "SPECIES" "S").map fun e => e.fromFirst ['P']) s2 ∧
        DefinesAll I s2 ((sub p "REACTIONS" "R").map fun e => e.fromFirst ['P']) s3) ∧
      (∀ e ∈ sub p "SPECIES" "S", SpeciesOk P e) ∧
      ((∀ e ∈ sub p "BOUNDARYINTERACTION" "REGION", ∃ id, AttrInt e "REF" id) ∧
        (sub p "BOUNDARYINTERACTION" "REGION").Pairwise (fun e e' => ∀ id, AttrInt e "REF" id → ¬ AttrInt e' "REF" id) ∧
        ∀ e ∈ sub p "BOUNDARYINTERACTION" "REGION", ∀ c ∈ e.elems, ConditionOk P c) ∧
      (∀ e ∈ sub p "REACTIONS" "R", ReactionOk (fun i => ∃ e ∈ sub p "SPECIES" "S", AttrInt e "ID" i) e) := by
  have e1 : readParameters I p s = readParamLoop I (C53.paramElems p) (s, fun _ => none) := by
    unfold readParameters C53.paramElems
    cases p.first "PARAMETERS".toList <;> rfl
  have e2 : ∀ st, readSpecies P I p st = readSpeciesLoop P I (sub p "SPECIES" "S") st := fun st => by
    unfold readSpecies sub
    cases p.first "SPECIES".toList <;> rfl
  have e3 : ∀ all, readBoundary P all p false (fun _ => none) = readRegions P all (sub p "BOUNDARYINTERACTION" "REGION") fun _ => none := fun all => by
    unfold readBoundary sub
    simp only [Bool.false_eq_true, if_false]
    cases p.first "BOUNDARYINTERACTION".toList <;> rfl
  have e4 : ∀ (sp : Map ℤ (Species V)) st, readReactions I sp p st = readReactionsLoop I sp (sub p "REACTIONS" "R") st := fun sp st => by
    unfold readReactions sub
    cases p.first "REACTIONS".toList <;> rfl
  have known : ∀ (st : σ) (sp : σ × Map ℤ (Species V)), readSpeciesLoop P I (sub p "SPECIES" "S") (st, fun _ => none) = some sp →
      ∀ id, (sp.2 id).isSome = true ↔ ∃ e ∈ sub p "SPECIES" "S", AttrInt e "ID" id := by
    intro st sp h id
    obtain ⟨_, t2, t3⟩ := species_spec P I _ _ _ h
    rcases none_or_last (fun x => AttrInt x "ID" id) (sub p "SPECIES" "S") with hn | ⟨e, he⟩
    · rw [t3 id hn]
      simp only [Option.isSome_none, Bool.false_eq_true, false_iff, not_exists, not_and]
      exact hn
    · obtain ⟨x, hx, _⟩ := t2 id e he
      obtain ⟨_, _, he1, he2, _⟩ := he
      simp only [hx, Option.isSome_some, true_iff]
      exact ⟨e, by rw [he1]; simp, he2⟩
  unfold readParticles
  rw [e1]
  simp only [e2, e3, e4]
  constructor
  · rintro ⟨d, h⟩
    rw [Option.bind_eq_some_iff] at h
    obtain ⟨⟨s1, m1⟩, h1, h⟩ := h
    rw [Option.bind_eq_some_iff] at h
    obtain ⟨⟨s2, m2⟩, h2, h⟩ := h
    rw [Option.bind_eq_some_iff] at h
    obtain ⟨b, h3, h⟩ := h
    rw [Option.bind_eq_some_iff] at h
    obtain ⟨⟨s3, m3⟩, h4, h⟩ := h
    obtain ⟨ds, hd, _⟩ := params_of I _ hs.params _ _ _ h1
    obtain ⟨g1, g2⟩ := (species_accepted P I _ hs.species _ s2).1 ⟨m2, h2⟩
    obtain ⟨r1, r2⟩ := (reactions_accepted I m2 _ hs.reactions _ s3).1 ⟨m3, h4⟩
    obtain ⟨b1, b2, b3⟩ := (regions_accepted P _ _ hs.regions _).1 ⟨b, h3⟩
    refine ⟨⟨s1, s2, s3, ds, hd, g2, r2⟩, g1, ⟨fun e he => ?_, b2, b3⟩, fun e he => ?_⟩
    · obtain ⟨id, hid, _⟩ := b1 e he
      exact ⟨id, hid⟩
    · obtain ⟨q1, q2, d', ids, q3, q4, q5⟩ := r1 e he
      exact ⟨q1, q2, d', ids, q3, q4, fun i hi => (known _ _ h2 i).1 (q5 i hi)⟩
  · rintro ⟨⟨s1, s2, s3, ds, hd, g2, r2⟩, g1, ⟨b1, b2, b3⟩, r1⟩
    have h1 := (C53.loop_iff I _ hs.params s (fun _ => none) s1 _).2 ⟨ds, hd, rfl⟩
    rw [h1, Option.bind_some]
    obtain ⟨m2, h2⟩ := (species_accepted P I _ hs.species (s1, fun _ => none) s2).2 ⟨g1, g2⟩
    rw [h2, Option.bind_some]
    obtain ⟨b, h3⟩ := (regions_accepted P (keys m2) _ hs.regions fun _ => none).2 ⟨fun e he => by
      obtain ⟨id, hid⟩ := b1 e he
      exact ⟨id, hid, rfl⟩, b2, b3⟩
    rw [h3, Option.bind_some]
    obtain ⟨m3, h4⟩ := (reactions_accepted I m2 _ hs.reactions (s2, fun _ => none) s3).2 ⟨fun e he => by
      obtain ⟨q1, q2, d', ids, q3, q4, q5⟩ := r1 e he
      exact ⟨q1, q2, d', ids, q3, q4, fun i hi => (known _ _ h2 i).2 (q5 i hi)⟩, r2⟩
    rw [h4]
    exact ⟨_, rfl⟩

/-! ### Examples -/

/-- A periodic condition with a region in brackets, one without the opening bracket, and one without brackets. -/
example : pValueOk exParsers "[2]".toList = true ∧ pValueOk exParsers "2]".toList = true ∧ pValueOk exParsers "2".toList = false := by
  refine ⟨?_, ?_, ?_⟩ <;> rfl

theorem short_of (l : List Elem) (h : ∀ e ∈ l, (e.firstText.map List.length).getD 0 < npos) : C53.Short l := by
  intro e he t ht
  have := h e he
  rwa [ht] at this

/-- The document of the last file has short strings and is accepted, so it is well-formed. -/
example : ShortDoc exDoc ∧ (∃ d, readParticles exParsers C53.toy (fun _ => [0, 1]) exDoc [] = some d) ∧ ∀ e ∈ sub exDoc "SPECIES" "S", SpeciesOk exParsers e := by
  have hs : ShortDoc exDoc := by
    refine ⟨short_of _ (by decide +kernel), fun e he => short_of _ ?_, ?_, fun e he => short_of _ ?_⟩
    · revert e; decide +kernel
    · unfold ShortAttrs; decide +kernel
    · revert e; decide +kernel
  have hd : ∃ d, readParticles exParsers C53.toy (fun _ => [0, 1]) exDoc [] = some d := ⟨_, rfl⟩
  exact ⟨hs, hd, ((read_particles_accepted _ _ _ _ hs _).1 hd).2.1⟩

end Verif.Props.C54
