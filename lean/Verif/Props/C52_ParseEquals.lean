import Verif.Model.ParticleReader
import Verif.Spec.NameValue

/-! C52: `parse_equals`. -/

namespace Verif.Props.C52
open Verif.Model.ParticleReader
open Verif.Spec.NameValue

/-! ### Searching -/

theorem findIdx_split {p : Char → Bool} : ∀ (t : Str) (x : Char) (u : Str), (∀ c ∈ t, p c = false) → p x = true → (t ++ x :: u).findIdx? p = some t.length
  | [], x, u, _, hx => by simp [List.findIdx?_cons, hx]
  | y :: t, x, u, ht, hx => by
    rw [List.cons_append, List.findIdx?_cons, ht y (by simp), findIdx_split t x u (fun c hc => ht c (by simp [hc])) hx]
    simp

theorem split_or (p : Char → Bool) : ∀ s : Str, (∀ c ∈ s, p c = false) ∨ ∃ t x u, s = t ++ x :: u ∧ (∀ c ∈ t, p c = false) ∧ p x = true
  | [] => Or.inl (by simp)
  | y :: s => by
    by_cases hy : p y = true
    · exact Or.inr ⟨[], y, s, rfl, by simp, hy⟩
    · rw [Bool.not_eq_true] at hy
      rcases split_or p s with h | ⟨t, x, u, rfl, ht, hx⟩
      · exact Or.inl (by simpa [hy] using h)
      · exact Or.inr ⟨y :: t, x, u, rfl, by simpa [hy] using ht, hx⟩

theorem findFirst (t : Str) (x : Char) (u : Str) (p : Char → Bool) (ht : ∀ c ∈ t, p c = false) (hx : p x = true) :
    (((t ++ x :: u).findIdx? p).getD npos) = t.length := by
  rw [findIdx_split t x u ht hx]; rfl

theorem findLast (t : Str) (x : Char) (u : Str) (p : Char → Bool) (hu : ∀ c ∈ u, p c = false) (hx : p x = true) :
    ((((t ++ x :: u).reverse.findIdx? p).map fun i => (t ++ x :: u).length - 1 - i).getD npos) = t.length := by
  rw [List.reverse_append, List.reverse_cons, List.append_assoc, List.singleton_append,
    findIdx_split u.reverse x t.reverse (fun c hc => hu c (by simpa using hc)) hx]
  simp only [Option.map_some, Option.getD_some, List.length_append, List.length_cons, List.length_reverse]
  omega

theorem find_none (s : Str) (p : Char → Bool) (h : ∀ c ∈ s, p c = false) : s.findIdx? p = none := List.findIdx?_eq_none_iff.2 h

theorem wrap_small (n : ℕ) (h : n < 2 ^ 64) : wrap (n : ℤ) = n := by
  unfold wrap
  omega

/-- The part up to the last character that is not a space. -/
theorem trim_right (t : Str) (x : Char) (u : Str) (hu : ∀ c ∈ u, c = ' ') (hx : x ≠ ' ') (hl : (t ++ x :: u).length < npos) :
    substr (t ++ x :: u) 0 (wrap ((findLastNotOf (t ++ x :: u) ' ' : ℤ) + 1)) = some (t ++ [x]) := by
  have hf : findLastNotOf (t ++ x :: u) ' ' = t.length :=
    findLast t x u _ (fun c hc => by simp [hu c hc]) (by simpa using hx)
  rw [hf]
  have hw : wrap ((t.length : ℤ) + 1) = t.length + 1 := by
    have := wrap_small (t.length + 1) (by simp [npos] at hl; omega)
    simpa using this
  rw [hw, substr, if_neg (by omega)]
  simp [List.take_append]

/-- A string that is not empty and has no spaces at its ends. -/
theorem ends (l : Str) (hl : l ≠ []) (h : l.head? ≠ some ' ') (h' : l.getLast? ≠ some ' ') :
    (∃ x l', l = x :: l' ∧ x ≠ ' ') ∧ ∃ l' y, l = l' ++ [y] ∧ y ≠ ' ' := by
  constructor
  · cases l with
    | nil => exact absurd rfl hl
    | cons x l' => exact ⟨x, l', rfl, fun e => h (by simp [e])⟩
  · rcases List.eq_nil_or_concat l with e | ⟨l', y, e⟩
    · exact absurd e hl
    · subst e
      exact ⟨l', y, by simp, fun e => h' (by simp [e])⟩

/-- Lines of the form `name = value` are accepted with the trimmed sides. -/
theorem parse_of (line l r : Str) (hlen : line.length < npos) (h : NameValue line l r) : parseEquals line = some (l, r) := by
  obtain ⟨a, b, rfl, ha, hb, ⟨p1, q1, rfl, hp1, hq1, hh1, hg1⟩, ⟨p2, q2, rfl, hp2, hq2, hh2, hg2⟩, hl, hr⟩ := h
  obtain ⟨⟨x1, l1, e1, hx1⟩, m1, y1, f1, hy1⟩ := ends l hl hh1 hg1
  obtain ⟨⟨x2, l2, e2, hx2⟩, m2, y2, f2, hy2⟩ := ends r hr hh2 hg2
  set a := p1 ++ l ++ q1 with hadef
  set b := p2 ++ r ++ q2 with hbdef
  have hlen' : a.length + (b.length + 1) < npos := by simpa [List.length_append] using hlen
  have ff : findFirstOf (a ++ '=' :: b) '=' = a.length :=
    findFirst a '=' b _ (fun c hc => by simp only [beq_eq_false_iff_ne]; rintro rfl; exact ha hc) (by simp)
  have fl : findLastOf (a ++ '=' :: b) '=' = a.length :=
    findLast a '=' b _ (fun c hc => by simp only [beq_eq_false_iff_ne]; rintro rfl; exact hb hc) (by simp)
  have fn : findFirstNotOf (a ++ '=' :: b) ' ' = p1.length := by
    have : a ++ '=' :: b = p1 ++ x1 :: (l1 ++ q1 ++ '=' :: b) := by rw [hadef, e1]; simp
    rw [this]
    exact findFirst p1 x1 _ _ (fun c hc => by simp [hp1 c hc]) (by simpa using hx1)
  have hal : a.length = p1.length + l.length + q1.length := by rw [hadef]; simp [Nat.add_assoc]
  have hpos : 0 < l.length := List.length_pos_iff.2 hl
  have s1 : substr (a ++ '=' :: b) (findFirstNotOf (a ++ '=' :: b) ' ') (wrap ((a.length : ℤ) - p1.length)) = some (l ++ q1) := by
    have hw : wrap ((a.length : ℤ) - p1.length) = l.length + q1.length := by
      have := wrap_small (l.length + q1.length) (by simp only [npos] at hlen'; omega)
      rw [← this]; congr 1; rw [hal]; push_cast; omega
    rw [fn, hw, substr, if_neg (by simp; omega), hadef]
    congr 1
    rw [show p1 ++ l ++ q1 ++ '=' :: b = p1 ++ ((l ++ q1) ++ '=' :: b) by simp, List.drop_left,
      show l.length + q1.length = (l ++ q1).length by simp, List.take_left]
  have s2 : substr (l ++ q1) 0 (wrap ((findLastNotOf (l ++ q1) ' ' : ℤ) + 1)) = some l := by
    rw [f1, List.append_assoc, List.singleton_append]
    refine trim_right m1 y1 q1 hq1 hy1 ?_
    have : l.length = m1.length + 1 := by rw [f1]; simp
    simp only [List.length_append, List.length_cons]
    omega
  have s3 : substr (a ++ '=' :: b) (wrap ((findLastOf (a ++ '=' :: b) '=' : ℤ) + 1)) = some b := by
    have hw : wrap ((a.length : ℤ) + 1) = a.length + 1 := by
      have := wrap_small (a.length + 1) (by simp only [npos] at hlen'; omega)
      simpa using this
    rw [fl, hw, substr, if_neg (by simp)]
    congr 1
    rw [List.drop_append]
    simp only [show a.length + 1 - a.length = 1 by omega, List.drop_one, List.tail_cons]
    rw [List.drop_eq_nil_of_le (by omega), List.nil_append, List.take_of_length_le (by omega)]
  have s4 : substr b (findFirstNotOf b ' ') = some (r ++ q2) := by
    have fb : findFirstNotOf b ' ' = p2.length := by
      have : b = p2 ++ x2 :: (l2 ++ q2) := by rw [hbdef, e2]; simp
      rw [this]
      exact findFirst p2 x2 _ _ (fun c hc => by simp [hp2 c hc]) (by simpa using hx2)
    rw [fb, substr, if_neg (by rw [hbdef]; simp), hbdef]
    congr 1
    rw [List.append_assoc, List.drop_left, List.take_of_length_le]
    have : b.length = p2.length + (r ++ q2).length := by rw [hbdef]; simp [Nat.add_assoc]
    omega
  have s5 : substr (r ++ q2) 0 (wrap ((findLastNotOf (r ++ q2) ' ' : ℤ) + 1)) = some r := by
    rw [f2, List.append_assoc, List.singleton_append]
    refine trim_right m2 y2 q2 hq2 hy2 ?_
    have : b.length = p2.length + r.length + q2.length := by rw [hbdef]; simp [Nat.add_assoc]
    have : r.length = m2.length + 1 := by rw [f2]; simp
    simp only [List.length_append, List.length_cons]
    omega
  unfold parseEquals
  simp only [ff, fl, fn]
  rw [if_neg (by omega), if_neg (by simp), if_neg (by omega)]
  rw [fn] at s1
  rw [fl] at s3
  simp only [s1, s2, s3, s4, s5, Option.bind_eq_bind, Option.bind_some, Option.pure_def]

/-- The parts of a string that is not all spaces. -/
theorem trimmed_exists (s : Str) : (∀ c ∈ s, c = ' ') ∨ ∃ t, Trimmed s t ∧ t ≠ [] := by
  rcases split_or (fun c => c != ' ') s with h | ⟨t, x, u, rfl, ht, hx⟩
  · exact Or.inl fun c hc => by simpa using h c hc
  · right
    have hx' : x ≠ ' ' := by simpa using hx
    have ht' : ∀ c ∈ t, c = ' ' := fun c hc => by simpa using ht c hc
    rcases split_or (fun c => c != ' ') (x :: u).reverse with h | ⟨v, y, w, hs, hv, hy⟩
    · have := h x (by simp)
      simp [hx'] at this
    · have hy' : y ≠ ' ' := by simpa using hy
      have e : x :: u = w.reverse ++ [y] ++ v.reverse := by
        have := congrArg List.reverse hs
        simpa using this
      refine ⟨w.reverse ++ [y], ⟨t, v.reverse, by rw [List.append_assoc, ← e], ht', fun c hc => by simpa using hv c (by simpa using hc), ?_, ?_⟩, by simp⟩
      · cases hw : w.reverse with
        | nil => simpa using hy'
        | cons z w' =>
          rw [hw] at e
          simp only [List.cons_append, List.cons.injEq] at e
          simp only [List.cons_append, List.head?_cons, ne_eq, Option.some.injEq]
          rw [← e.1]; exact hx'
      · simpa using hy'

/-- **C52.** For every line shorter than the maximal length of a string: `parse_equals` returns `(l, r)` exactly if the line has a single `=` and `l` and
`r` are the sides without surrounding spaces, both not empty. All other lines are rejected. -/
theorem parse_iff (line l r : Str) (hlen : line.length < npos) : parseEquals line = some (l, r) ↔ NameValue line l r := by
  refine ⟨fun h => ?_, parse_of line l r hlen⟩
  rcases split_or (fun c => c == '=') line with hn | ⟨a, x, b, rfl, ha, hx⟩
  · exfalso
    have e1 : findFirstOf line '=' = npos := by rw [findFirstOf, find_none _ _ hn]; rfl
    unfold parseEquals at h
    simp only [e1] at h
    split_ifs at h
  · have hx' : x = '=' := by simpa using hx
    subst hx'
    have ha' : '=' ∉ a := fun hc => by simpa using ha _ hc
    have ff : findFirstOf (a ++ '=' :: b) '=' = a.length := findFirst a '=' b _ ha (by simp)
    by_cases hb : '=' ∈ b
    · exfalso
      rcases split_or (fun c => c == '=') b.reverse with hn | ⟨v, y, w, hs, hv, hy⟩
      · have := hn '=' (by simpa using hb)
        simp at this
      · have hy' : y = '=' := by simpa using hy
        subst hy'
        have e : b = w.reverse ++ '=' :: v.reverse := by
          have := congrArg List.reverse hs
          simpa using this
        have fl : findLastOf (a ++ '=' :: b) '=' = (a ++ '=' :: w.reverse).length := by
          rw [e, show a ++ '=' :: (w.reverse ++ '=' :: v.reverse) = (a ++ '=' :: w.reverse) ++ '=' :: v.reverse by simp]
          exact findLast _ '=' _ _ (fun c hc => hv c (by simpa using hc)) (by simp)
        unfold parseEquals at h
        simp only [ff, fl] at h
        split_ifs at h with h1 h2
        · simp at h2
    · rcases trimmed_exists a with has | ⟨l', hl', hne⟩
      · exfalso
        have fn : findFirstNotOf (a ++ '=' :: b) ' ' = a.length := findFirst a '=' b _ (fun c hc => by simp [has c hc]) (by simp)
        unfold parseEquals at h
        simp only [ff, fn, if_true] at h
        exact absurd h (by simp)
      · rcases trimmed_exists b with hbs | ⟨r', hr', hne'⟩
        · exfalso
          have fl : findLastOf (a ++ '=' :: b) '=' = a.length :=
            findLast a '=' b _ (fun c hc => by simp only [beq_eq_false_iff_ne]; rintro rfl; exact hb hc) (by simp)
          have fb : findFirstNotOf b ' ' = npos := by rw [findFirstNotOf, find_none _ _ (fun c hc => by simp [hbs c hc])]; rfl
          have hlen' : a.length + (b.length + 1) < npos := by simpa [List.length_append] using hlen
          have s3 : substr (a ++ '=' :: b) (wrap ((findLastOf (a ++ '=' :: b) '=' : ℤ) + 1)) = some b := by
            have hw : wrap ((a.length : ℤ) + 1) = a.length + 1 := by
              have := wrap_small (a.length + 1) (by simp only [npos] at hlen'; omega)
              simpa using this
            rw [fl, hw, substr, if_neg (by simp)]
            congr 1
            rw [List.drop_append]
            simp only [show a.length + 1 - a.length = 1 by omega, List.drop_one, List.tail_cons]
            rw [List.drop_eq_nil_of_le (by omega), List.nil_append, List.take_of_length_le (by omega)]
          have s4 : substr b (findFirstNotOf b ' ') = none := by rw [fb, substr, if_pos (by omega)]
          unfold parseEquals at h
          simp only [s3, s4, Option.bind_eq_bind, Option.bind_some, Option.bind_none, Option.bind_fun_none] at h
          split_ifs at h
        · have hnv : NameValue (a ++ '=' :: b) l' r' := ⟨a, b, rfl, ha', hb, hl', hr', hne, hne'⟩
          rw [parse_of _ l' r' hlen hnv] at h
          simp only [Option.some.injEq, Prod.mk.injEq] at h
          rw [← h.1, ← h.2]
          exact hnv

/-- At most one result. -/
theorem nameValue_unique (line l r l' r' : Str) (hlen : line.length < npos) (h : NameValue line l r) (h' : NameValue line l' r') : l = l' ∧ r = r' := by
  have := (parse_of line l r hlen h).symm.trans (parse_of line l' r' hlen h')
  simpa using this

example : parseEquals "  dt  =  0.1 * 2 ".toList = some ("dt".toList, "0.1 * 2".toList) ∧ parseEquals " = 1".toList = none ∧
    parseEquals "a = ".toList = none ∧ parseEquals "a == 1".toList = none ∧ parseEquals "a".toList = none ∧ parseEquals "  ".toList = none := by
  decide +kernel

end Verif.Props.C52
