import Verif.Props.Date
import Verif.Proofs.Recognise

/-! # C28: what is written as a date is seen -/

namespace Guessit
open Spec Re

section
variable {s : Str}

theorem pre_app {d r : Str} {i : Nat} (h : d ++ r <+: s.drop i) : d <+: s.drop i ∧ r <+: s.drop (i + d.length) := by
  obtain ⟨t, ht⟩ := h
  refine ⟨⟨r ++ t, by rw [← ht, List.append_assoc]⟩, ⟨t, ?_⟩⟩
  rw [← List.drop_drop, ← ht, List.append_assoc, List.drop_left]

theorem pre_cons {x : Char} {r : Str} {i : Nat} (h : x :: r <+: s.drop i) : s[i]? = some x ∧ r <+: s.drop (i + 1) := by
  have := pre_app (d := [x]) (r := r) h
  refine ⟨?_, this.2⟩
  obtain ⟨t, ht⟩ := this.1
  have := congrArg (·[0]?) ht
  simpa using this.symm

theorem pre_all {p : Char → Bool} {d : Str} {i : Nat} (h : d <+: s.drop i) (hd : ∀ c ∈ d, p c = true) : AllIn s p i (i + d.length) := by
  obtain ⟨t, ht⟩ := h
  intro k h1 h2
  have hk : s[k]? = (d ++ t)[k - i]? := by rw [ht, List.getElem?_drop]; congr 1; omega
  rw [List.getElem?_append_left (by omega), List.getElem?_eq_getElem (l := d) (by omega)] at hk
  exact ⟨_, hk, hd _ (List.getElem_mem _)⟩

theorem put_digits {u : Uni} {m M i : Nat} {d : Str} {c : Caps} (h : d <+: s.drop i) (hd : Digits u m M d) : (i + d.length, c) ∈ (digitsRe u m M).exec s i c := by
  unfold digitsRe
  rw [mem_rep_chr_bounded]
  exact ⟨rfl, by have := hd.1; omega, by have := hd.2.1; omega, pre_all h hd.2.2⟩

theorem put_sep {x : Char} {p : Char → Bool} {i : Nat} {c : Caps} (h : s[i]? = some x) (hp : p x = true) : (i + 1, c) ∈ (Re.chr p).exec s i c :=
  mem_chr.2 ⟨⟨x, h, hp⟩, rfl, rfl⟩

theorem sep_d {c : Char} (h : DateSep c) : dsep c = true := by
  unfold dsep; rcases h with rfl | rfl | rfl | rfl <;> decide

theorem sep_x {c : Char} (h : DateSepX c) : dsepBis c = true := by
  unfold dsepBis; rcases h with (rfl | rfl | rfl | rfl) | rfl | rfl <;> decide

/-- The pattern begins at the character before the date, if there is one. -/
theorem put_before {u : Uni} {a : Nat} {c : Caps} (h : ∀ x, 0 < a → s[a - 1]? = some x → u.isDigit x = false) (ha : a ≤ s.length) :
    (a, c) ∈ (beforeRe u).exec s (a - 1) c := by
  unfold beforeRe
  rw [mem_alt, mem_bol, mem_chr]
  cases a with
  | zero => exact .inl ⟨rfl, rfl, rfl⟩
  | succ a =>
    refine .inr ⟨⟨s[a]'(by omega), by simp, ?_⟩, by simp, rfl⟩
    simpa using h (s[a]'(by omega)) (by omega) (by simp)

theorem put_after {u : Uni} {b : Nat} {c : Caps} (h : ∀ x, s[b]? = some x → u.isDigit x = false) (hb : b ≤ s.length) :
    ∃ j, (j, c) ∈ (afterRe u).exec s b c := by
  unfold afterRe
  simp only [mem_alt]
  rcases Nat.eq_or_lt_of_le hb with hb | hb
  · exact ⟨b, .inl (mem_eol.2 ⟨.inl hb, rfl, rfl⟩)⟩
  · exact ⟨b + 1, .inr (mem_chr.2 ⟨⟨s[b], by simp [hb], by simpa using h s[b] (by simp [hb])⟩, rfl, rfl⟩)⟩

theorem put_opt {r : Re} {i j : Nat} {c c' : Caps} (h : (j, c') ∈ r.exec s i c) (hij : i < j) : (j, c') ∈ (Re.opt r).exec s i c := by
  unfold Re.opt
  simp only [exec, Option.getD_some, repExec, List.mem_append, List.mem_flatMap, if_true, List.mem_singleton]
  exact .inl ⟨(j, c'), List.mem_filter.2 ⟨h, by simp; omega⟩, rfl⟩

theorem put_skip {r : Re} {i : Nat} {c : Caps} : (i, c) ∈ (Re.opt r).exec s i c := by
  unfold Re.opt
  simp only [exec, Option.getD_some, repExec, List.mem_append, List.mem_flatMap, if_true, List.mem_singleton]
  exact .inr trivial

theorem put_two {p q : Char → Bool} {x y : Char} {i : Nat} {c : Caps} (h : [x, y] <+: s.drop i) (hp : p x = true) (hq : q y = true) :
    (i + 2, c) ∈ (Re.seq (.chr p) (.chr q)).exec s i c := by
  obtain ⟨h1, h2⟩ := pre_cons h
  exact mem_seq.2 ⟨i + 1, c, put_sep h1 hp, put_sep (pre_cons h2).1 hq⟩

theorem put_ordinal {o : Str} {i : Nat} {c : Caps} (h : o <+: s.drop i) (ho : Ordinal o) : (i + o.length, c) ∈ ordinalRe.exec s i c := by
  unfold ordinalRe
  rcases ho with rfl | ⟨a, b, rfl, ho⟩
  · exact put_skip
  · refine put_opt ?_ (by simp)
    simp only [Re.alts, mem_alt]
    rcases ho with ⟨h1, h2⟩ | ⟨h1, h2⟩ | ⟨h1, h2⟩ | ⟨h1, h2⟩
    · exact .inl (put_two h (by simpa using h1) (by simpa using h2))
    · exact .inr (.inl (put_two h (by simpa using h1) (by simpa using h2)))
    · exact .inr (.inr (.inl (put_two h (by simpa using h1) (by simpa using h2))))
    · exact .inr (.inr (.inr (put_two h (by simpa using h1) (by simpa using h2))))

theorem put_triple {u : Uni} {m1 M1 m2 M2 m3 M3 a : Nat} {p q : Char → Bool} {d1 d2 d3 : Str} {x y : Char} (h : d1 ++ x :: (d2 ++ y :: d3) <+: s.drop a)
    (hd1 : Digits u m1 M1 d1) (hx : p x = true) (hd2 : Digits u m2 M2 d2) (hy : q y = true) (hd3 : Digits u m3 M3 d3)
    (hb : ∀ c, 0 < a → s[a - 1]? = some c → u.isDigit c = false) (hl : a ≤ s.length)
    (ha : ∀ c, s[a + (d1 ++ x :: (d2 ++ y :: d3)).length]? = some c → u.isDigit c = false) :
    ∃ j c, (j, c) ∈ (tripleRe u m1 M1 p m2 M2 q m3 M3).exec s (a - 1) [] := by
  have hlen := h.length_le
  rw [List.length_drop] at hlen
  obtain ⟨g1, h1⟩ := pre_app h
  obtain ⟨g2, h2⟩ := pre_cons h1
  obtain ⟨g3, h3⟩ := pre_app h2
  obtain ⟨g4, h4⟩ := pre_cons h3
  have hend : a + (d1 ++ x :: (d2 ++ y :: d3)).length = a + d1.length + 1 + d2.length + 1 + d3.length := by simp; omega
  rw [hend] at ha
  unfold tripleRe
  simp only [Re.cat, mem_seq, mem_grp, mem_eps]
  obtain ⟨j, hj⟩ := put_after (c := [(1, (a, a + d1.length + 1 + d2.length + 1 + d3.length)), (4, (a + d1.length + 1 + d2.length + 1, a + d1.length + 1 + d2.length + 1 + d3.length)),
    (3, (a + d1.length + 1, a + d1.length + 1 + d2.length)), (2, (a, a + d1.length))]) ha (by omega)
  exact ⟨j, _, a, _, put_before hb hl, _, _, ⟨_, ⟨_, _, ⟨_, put_digits g1 hd1, rfl⟩, _, _, put_sep g2 hx, _, _, ⟨_, put_digits g3 hd2, rfl⟩, _, _, put_sep g4 hy, _, _, ⟨_, put_digits h4 hd3, rfl⟩, rfl, rfl⟩, rfl⟩,
    j, _, hj, rfl, rfl⟩

theorem put_worded {u : Uni} {a : Nat} {d o w y : Str} {p q : Char} (h : d ++ o ++ p :: (w ++ q :: y) <+: s.drop a)
    (hd : Digits u 1 2 d) (ho : Ordinal o) (hp : DateSep p) (hw1 : 3 ≤ w.length) (hw2 : w.length ≤ 10) (hw3 : ∀ c ∈ w, MonthLetter c) (hq : DateSep q) (hy : Digits u 4 4 y)
    (hb : ∀ c, 0 < a → s[a - 1]? = some c → u.isDigit c = false) (hl : a ≤ s.length)
    (ha : ∀ c, s[a + (d ++ o ++ p :: (w ++ q :: y)).length]? = some c → u.isDigit c = false) :
    ∃ j c, (j, c) ∈ (wordedRe u).exec s (a - 1) [] := by
  have hlen := h.length_le
  rw [List.length_drop] at hlen
  obtain ⟨g0, h1⟩ := pre_app h
  obtain ⟨g1, g1'⟩ := pre_app g0
  rw [List.length_append] at h1
  obtain ⟨g2, h2⟩ := pre_cons h1
  obtain ⟨g3, h3⟩ := pre_app h2
  obtain ⟨g4, h4⟩ := pre_cons h3
  have hend : a + (d ++ o ++ p :: (w ++ q :: y)).length = a + d.length + o.length + 1 + w.length + 1 + y.length := by simp; omega
  rw [hend] at ha
  rw [show a + (d.length + o.length) = a + d.length + o.length by omega] at g2 g3 g4 h4
  unfold wordedRe
  simp only [Re.cat, mem_seq, mem_grp, mem_eps]
  obtain ⟨j, hj⟩ := put_after (c := [(1, (a, a + d.length + o.length + 1 + w.length + 1 + y.length)), (2, (a, a + d.length + o.length + 1 + w.length + 1 + y.length))]) ha (by omega)
  have hw : ∀ c, (a + d.length + o.length + 1 + w.length, c) ∈ (Re.rep (.chr azIgnoreCase) 3 (some 10)).exec s (a + d.length + o.length + 1) c := by
    intro c
    rw [mem_rep_chr_bounded]
    exact ⟨rfl, by omega, by omega, pre_all g3 fun c hc => az_iff.2 (hw3 c hc)⟩
  exact ⟨j, _, a, _, put_before hb hl, _, _, ⟨_, ⟨_, ⟨_, _, put_digits g1 hd, _, _, put_ordinal g1' ho, _, _, put_sep g2 (sep_d hp), _, _, hw _, _, _, put_sep g4 (sep_d hq), _, _, put_digits h4 hy, rfl, rfl⟩, rfl⟩, rfl⟩,
    j, _, hj, rfl, rfl⟩

/-- Some pattern sees a date that is written. -/
theorem date_hit {u : Uni} {compact : Bool} {t : Str} {a b : Nat} (hab : a ≤ b) (hb : b ≤ s.length) (h : DateText u compact (textOf s a b) t) (hs : Surrounded u compact s a b) :
    ∃ re k, (re, k) ∈ dateRegexps u ∧ ∃ i ≤ s.length, ∃ j c, (j, c) ∈ re.exec s i [] := by
  have hpre : textOf s a b <+: s.drop a := by
    unfold textOf; rw [List.drop_take]; exact List.take_prefix _ _
  have hlen : a + (textOf s a b).length = b := by unfold textOf; simp; omega
  generalize textOf s a b = X at *
  cases h with
  | compact X h =>
    obtain ⟨⟨x, h0, h1, h2⟩, ⟨y, h3, h4⟩⟩ := hs
    have key : ∀ n, Digits u n n t → ∃ j c, (j, c) ∈ (compactRe u n).exec s (a - 1) [] := by
      intro n hn
      unfold compactRe
      simp only [Re.cat, mem_seq, mem_grp, mem_eps]
      have g1 : ∀ c, (a, c) ∈ (Re.chr dsep).exec s (a - 1) c := fun c => by
        have := put_sep (c := c) h1 (sep_d h2)
        rwa [show a - 1 + 1 = a by omega] at this
      exact ⟨_, _, a, _, g1 _, _, _, ⟨_, ⟨_, put_digits hpre hn, rfl⟩, rfl⟩, _, _, put_sep (by rw [hlen]; exact h3) (sep_d h4), rfl, rfl⟩
    rcases h with h | h
    · exact ⟨_, _, List.mem_of_getElem? (i := 0) rfl, a - 1, by omega, key 8 h⟩
    · exact ⟨_, _, List.mem_of_getElem? (i := 1) rfl, a - 1, by omega, key 6 h⟩
  | triple d1 d2 d3 p q h =>
    obtain ⟨h0, h1⟩ := hs
    rw [← hlen] at h1
    rcases h with ⟨g1, g2, g3, g4, g5⟩ | ⟨g1, g2, g3, g4, g5⟩ | ⟨g1, g2, g3, g4, g5⟩ | ⟨g1, g2, g3, g4, g5⟩
    · exact ⟨_, _, List.mem_of_getElem? (i := 2) rfl, a - 1, by omega, put_triple hpre g1 (sep_d g2) g3 (sep_d g4) g5 h0 (by omega) h1⟩
    · exact ⟨_, _, List.mem_of_getElem? (i := 3) rfl, a - 1, by omega, put_triple hpre g1 (sep_d g2) g3 (sep_d g4) g5 h0 (by omega) h1⟩
    · exact ⟨_, _, List.mem_of_getElem? (i := 4) rfl, a - 1, by omega, put_triple hpre g1 (sep_x g2) g3 (sep_d g4) g5 h0 (by omega) h1⟩
    · exact ⟨_, _, List.mem_of_getElem? (i := 5) rfl, a - 1, by omega, put_triple hpre g1 (sep_d g2) g3 (sep_x g4) g5 h0 (by omega) h1⟩
  | worded d o w y p q g1 g2 g3 g4 g5 g6 g7 g8 =>
    obtain ⟨h0, h1⟩ := hs
    rw [← hlen] at h1
    exact ⟨_, _, List.mem_of_getElem? (i := 6) rfl, a - 1, by omega, put_worded hpre g1 g2 g3 g4 g5 g6 g7 g8 h0 (by omega) h1⟩

/-- With a parser that reads everything as a plausible date, a pattern that occurs is read. -/
theorem loop_seen {u : Uni} {parse : DateParser} {yf : Option Bool} (hp : ∀ t d y, ∃ D, parse t d y = .ok D ∧ validYear D.year = true) {l : List (Re × Nat)}
    (h : ∃ re k, (re, k) ∈ l ∧ re.search s ≠ none) : ∀ df, searchDateLoop u parse s yf l df ≠ .ok none := by
  induction l with
  | nil => obtain ⟨_, _, h, _⟩ := h; cases h
  | cons x l ih =>
    obtain ⟨re, k⟩ := x
    intro df hn
    simp only [searchDateLoop] at hn
    split at hn
    · rename_i h0
      refine ih ?_ df hn
      obtain ⟨re', k', h1, h2⟩ := h
      rcases List.mem_cons.1 h1 with h1 | h1
      · simp only [Prod.mk.injEq] at h1
        rw [h1.1] at h2; exact absurd h0 h2
      · exact ⟨re', k', h1, h2⟩
    · split at hn
      · cases hn
      · rename_i df' _
        split at hn
        · cases hn
        · split at hn <;> cases hn
        · rename_i htry
          obtain ⟨d, y, hm⟩ : ∃ d y, (d, y) ∈ kwargsList yf df' := by
            simp only [mem_kwargs]
            refine ⟨df'.getD false, yf.getD false, fun b hb => by rw [hb]; rfl, fun b hb => by rw [hb]; rfl⟩
          obtain ⟨D, h1, h2⟩ := hp (joinDash ((List.range' 2 (k - 1)).map (groupText s _))) d y
          have := tryParses_none htry d y hm D h1
          rw [h2] at this; cases this

/-- C28: a text with a date written in it, in any of the shapes and apart from other digits, is not left without a date: when every reading of it
is a plausible date, one is found (or reading it raises). -/
theorem C28_seen (u : Uni) (parse : DateParser) (yf df : Option Bool) (a b : Nat) (compact : Bool) (t : Str) (hab : a ≤ b) (hb : b ≤ s.length)
    (h : DateText u compact (textOf s a b) t) (hs : Surrounded u compact s a b) (hp : ∀ t d y, ∃ D, parse t d y = .ok D ∧ 1920 ≤ D.year ∧ D.year ≤ 2029) :
    searchDate u parse s yf df ≠ .ok none := by
  refine loop_seen (fun t d y => ?_) ?_ df
  · obtain ⟨D, h1, h2, h3⟩ := hp t d y
    exact ⟨D, h1, by simp only [validYear, Bool.and_eq_true, decide_eq_true_eq]; omega⟩
  · obtain ⟨re, k, h1, i, h2, j, c, h3⟩ := date_hit hab hb h hs
    refine ⟨re, k, h1, fun hn => ?_⟩
    have := searchFrom_none hn i (by omega) (by omega)
    rw [matchAt_none] at this
    rw [this] at h3; cases h3

/-- Such a text, whose month is a word. -/
example : searchDate asciiUni (fun _ _ _ => .ok ⟨2012, 5, 3⟩) c!"x 3rd May 2012 y" none none ≠ .ok none := by
  refine C28_seen asciiUni _ none none 2 14 false _ (by decide) (by decide)
    (DateText.worded c!"3" c!"rd" c!"May" c!"2012" ' ' ' ' ⟨by decide, by decide, by decide⟩ (.inr ⟨'r', 'd', rfl, by decide⟩) (by simp [DateSep]) (by decide) (by decide) (by unfold MonthLetter; decide) (by simp [DateSep])
      ⟨by decide, by decide, by decide⟩) ?_ (fun _ _ _ => ⟨_, rfl, by decide, by decide⟩)
  refine ⟨fun c _ hc => ?_, fun c hc => ?_⟩
  · simp at hc; subst hc; decide
  · simp at hc; subst hc; decide

end
end Guessit
