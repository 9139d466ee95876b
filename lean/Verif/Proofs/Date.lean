import Verif.Proofs.Regex
import Verif.Spec.Date
import Verif.Spec.Numeral

namespace Guessit
open Spec Re

theorem textOf_append (s : Str) {i k j : Nat} (h1 : i ≤ k) (h2 : k ≤ j) : textOf s i j = textOf s i k ++ textOf s k j := by
  unfold textOf
  have e : s.take j = s.take k ++ (s.take j).drop k := by
    conv_lhs => rw [← List.take_append_drop k (s.take j)]
    rw [List.take_take, Nat.min_eq_left h2]
  rw [List.drop_take (l := s) (i := i), List.drop_take (i := i), List.drop_take (i := k)]
  have : j - i = (k - i) + (j - k) := by omega
  rw [this, List.take_add, List.drop_drop]
  congr 3; omega

theorem textOf_char {s : Str} {i : Nat} {c : Char} (h : s[i]? = some c) : textOf s i (i + 1) = [c] := by
  unfold textOf
  rw [List.drop_take]
  obtain ⟨hi, hc⟩ := List.getElem?_eq_some_iff.1 h
  rw [List.drop_eq_getElem_cons hi, hc]
  have : i + 1 - i = 1 := by omega
  rw [this]; simp

theorem textOf_self (s : Str) (i : Nat) : textOf s i i = [] := by
  unfold textOf; rw [List.drop_take]; simp

theorem AllIn_text {s : Str} {p : Char → Bool} {i j : Nat} (hij : i ≤ j) (h : AllIn s p i j) :
    (textOf s i j).length = j - i ∧ ∀ c ∈ textOf s i j, p c = true := by
  obtain ⟨d, rfl⟩ := Nat.exists_eq_add_of_le hij
  clear hij
  induction d with
  | zero => simp [textOf_self]
  | succ d ih =>
    obtain ⟨h1, h2⟩ := ih (fun k hk1 hk2 => h k hk1 (by omega))
    obtain ⟨x, hx, hp⟩ := h (i + d) (by omega) (by omega)
    have e : textOf s i (i + (d + 1)) = textOf s i (i + d) ++ [x] := by
      rw [textOf_append s (i := i) (k := i + d) (by omega) (by omega), ← textOf_char hx]; rfl
    rw [e]
    constructor
    · rw [List.length_append, h1, List.length_singleton]; omega
    · intro c hc
      rcases List.mem_append.1 hc with hc | hc
      · exact h2 c hc
      · simp only [List.mem_singleton] at hc; subst hc; exact hp

theorem mem_digits {u : Uni} {s : Str} {m M i j : Nat} {c c' : Caps} (h : (j, c') ∈ (digitsRe u m M).exec s i c) :
    c' = c ∧ i ≤ j ∧ Digits u m M (textOf s i j) := by
  unfold digitsRe at h
  rw [mem_rep_chr_bounded] at h
  obtain ⟨rfl, h1, h2, h3⟩ := h
  obtain ⟨h4, h5⟩ := AllIn_text (by omega) h3
  exact ⟨rfl, by omega, by omega, by omega, h5⟩

theorem mem_opt {r : Re} {s : Str} {i j : Nat} {c c' : Caps} (h : (j, c') ∈ (Re.opt r).exec s i c) :
    (j = i ∧ c' = c) ∨ (j, c') ∈ r.exec s i c := by
  unfold Re.opt at h
  simp only [exec, Option.getD_some, repExec, List.mem_append, List.mem_flatMap, if_true, List.mem_singleton] at h
  rcases h with ⟨⟨k, c1⟩, h1, h2⟩ | h
  · simp only [Prod.mk.injEq] at h2
    obtain ⟨rfl, rfl⟩ := h2
    exact Or.inr (List.mem_filter.1 h1).1
  · simp only [Prod.mk.injEq] at h; exact Or.inl h

theorem mem_two {p q : Char → Bool} {s : Str} {i j : Nat} {c c' : Caps} (h : (j, c') ∈ (Re.seq (.chr p) (.chr q)).exec s i c) :
    c' = c ∧ j = i + 2 ∧ ∃ a b, textOf s i j = [a, b] ∧ p a = true ∧ q b = true := by
  rw [mem_seq] at h
  obtain ⟨k, c1, h1, h2⟩ := h
  rw [mem_chr] at h1 h2
  obtain ⟨⟨x, hx, hp⟩, rfl, rfl⟩ := h1
  obtain ⟨⟨y, hy, hq⟩, rfl, rfl⟩ := h2
  refine ⟨rfl, rfl, x, y, ?_, hp, hq⟩
  rw [textOf_append s (i := i) (k := i + 1) (by omega) (by omega), textOf_char hx, textOf_char hy]; rfl

theorem mem_ordinal {s : Str} {i j : Nat} {c c' : Caps} (h : (j, c') ∈ ordinalRe.exec s i c) :
    c' = c ∧ i ≤ j ∧ Ordinal (textOf s i j) := by
  unfold ordinalRe at h
  rcases mem_opt h with ⟨rfl, rfl⟩ | h
  · exact ⟨rfl, Nat.le_refl _, Or.inl (textOf_self _ _)⟩
  · simp only [Re.alts, mem_alt] at h
    rcases h with h | h | h | h <;> obtain ⟨rfl, rfl, a, b, h1, h2, h3⟩ := mem_two h <;>
      simp only [List.contains_eq_mem, decide_eq_true_eq] at h2 h3 <;>
      refine ⟨rfl, by omega, Or.inr ⟨a, b, h1, ?_⟩⟩ <;> tauto

theorem dsep_iff {c : Char} (h : dsep c = true) : DateSep c := by
  unfold dsep at h
  simpa [DateSep] using h

theorem dsepBis_iff {c : Char} (h : dsepBis c = true) : DateSepX c := by
  unfold dsepBis at h
  simp at h
  unfold DateSepX DateSep
  tauto

theorem az_iff {c : Char} : azIgnoreCase c = true ↔ MonthLetter c := by
  have hlist : ∀ n : Fin 128, (azIgnoreCase (Char.ofNat n.1) = true ↔ Char.ofNat n.1 ∈ c!"abcdefghijklmnopqrstuvwxyzABCDEFGHIJKLMNOPQRSTUVWXYZİıſ\u212a") := by decide
  by_cases hc : c.toNat < 128
  · have := hlist ⟨c.toNat, hc⟩
    simp only [Char.ofNat_toNat] at this; exact this
  · have h1 : azIgnoreCase c = true ↔ c ∈ c!"İıſ\u212a" := by
      unfold azIgnoreCase
      have a1 : ¬ c ≤ 'z' := fun h => hc (by have : c.toNat ≤ 'z'.toNat := h; simp at this; omega)
      have a2 : ¬ c ≤ 'Z' := fun h => hc (by have : c.toNat ≤ 'Z'.toNat := h; simp at this; omega)
      simp [a1, a2]
    rw [h1, MonthLetter, show c!"abcdefghijklmnopqrstuvwxyzABCDEFGHIJKLMNOPQRSTUVWXYZİıſ\u212a" = c!"abcdefghijklmnopqrstuvwxyzABCDEFGHIJKLMNOPQRSTUVWXYZ" ++ c!"İıſ\u212a" from rfl, List.mem_append]
    have h2 : c ∉ c!"abcdefghijklmnopqrstuvwxyzABCDEFGHIJKLMNOPQRSTUVWXYZ" := fun h => hc ((by decide : ∀ x ∈ c!"abcdefghijklmnopqrstuvwxyzABCDEFGHIJKLMNOPQRSTUVWXYZ", x.toNat < 128) c h)
    exact ⟨.inr, fun h => h.resolve_left h2⟩

theorem mem_before {u : Uni} {s : Str} {i j : Nat} {c c' : Caps} (h : (j, c') ∈ (beforeRe u).exec s i c) :
    c' = c ∧ (∀ x, 0 < j → s[j - 1]? = some x → u.isDigit x = false) := by
  unfold beforeRe at h
  rw [mem_alt, mem_bol, mem_chr] at h
  rcases h with ⟨h1, h2, h3⟩ | ⟨⟨x, hx, hp⟩, h2, h3⟩
  · exact ⟨h3, fun x hj => absurd hj (by omega)⟩
  · refine ⟨h3, fun y _ hy => ?_⟩
    subst h2
    rw [show i + 1 - 1 = i by omega, hx] at hy
    simp only [Option.some.injEq] at hy
    subst hy; simpa using hp

theorem mem_after {u : Uni} (hu : Sane u) {s : Str} {i j : Nat} {c c' : Caps} (h : (j, c') ∈ (afterRe u).exec s i c) :
    c' = c ∧ ∀ x, s[i]? = some x → u.isDigit x = false := by
  unfold afterRe at h
  rw [mem_alt, mem_eol, mem_chr] at h
  rcases h with ⟨h1, h2, h3⟩ | ⟨⟨x, hx, hp⟩, h2, h3⟩
  · refine ⟨h3, fun x hx => ?_⟩
    rcases h1 with h1 | ⟨h1, h4⟩
    · subst h1; rw [List.getElem?_eq_none (Nat.le_refl _)] at hx; cases hx
    · rw [h4] at hx
      simp only [Option.some.injEq] at hx
      subst hx
      cases hd : u.isDigit '\n' with
      | false => rfl
      | true => have := hu.digit_space '\n' hd; rw [hu.newline] at this; cases this
  · refine ⟨h3, fun y hy => ?_⟩
    rw [hx] at hy; simp only [Option.some.injEq] at hy; subst hy; simpa using hp

theorem groupText_cons_eq {s : Str} {n : Nat} {a b : Nat} {c : Caps} : groupText s ((n, (a, b)) :: c) n = textOf s a b := by
  simp [groupText, textOf]

theorem groupText_cons_ne {s : Str} {n m : Nat} {x : Nat × Nat} {c : Caps} (h : n ≠ m) :
    groupText s ((m, x) :: c) n = groupText s c n := by
  have : (n == m) = false := by simpa using h
  simp [groupText, List.lookup, this]

/-- What a match of a date pattern gives: the span of group 1, and the text handed to the date parser. -/
def DateFound (u : Uni) (s : Str) (k : Nat) (caps : Caps) : Prop :=
  ∃ a b compact, caps.lookup 1 = some (a, b) ∧ a < b ∧ b ≤ s.length ∧
    DateText u compact (textOf s a b) (joinDash ((List.range' 2 (k - 1)).map (groupText s caps))) ∧ Surrounded u compact s a b

theorem length_textOf {s : Str} {a b : Nat} (hab : a < b) (h : (textOf s a b).length = b - a) : b ≤ s.length := by
  unfold textOf at h
  rw [List.length_drop, List.length_take] at h
  omega

theorem compact_found {u : Uni} {s : Str} {n i j : Nat} {caps : Caps} (hn : n = 8 ∨ n = 6)
    (h : (j, caps) ∈ (compactRe u n).exec s i []) : DateFound u s 2 caps := by
  unfold compactRe at h
  simp only [Re.cat, mem_seq, mem_grp, mem_chr, mem_eps] at h
  obtain ⟨k1, c1, ⟨⟨x, hx, hxp⟩, rfl, rfl⟩, k2, c2, ⟨c3, ⟨c4, h4, rfl⟩, rfl⟩, k3, c5, ⟨⟨y, hy, hyp⟩, rfl, rfl⟩, rfl, rfl⟩ := h
  unfold digitsRe at h4
  rw [mem_rep_chr_bounded] at h4
  obtain ⟨rfl, h5, h6, h7⟩ := h4
  obtain ⟨h8, h9⟩ := AllIn_text (by omega) h7
  have hpos : 0 < n := by rcases hn with rfl | rfl <;> omega
  refine ⟨i + 1, k2, true, by simp, by omega, h7.le (by omega), ?_, ?_⟩
  · have e : joinDash (List.map (groupText s [(1, i + 1, k2), (2, i + 1, k2)]) (List.range' 2 (2 - 1))) = textOf s (i + 1) k2 := by
      simp [joinDash, groupText, textOf, List.range', List.lookup]
    rw [e]
    apply DateText.compact
    rcases hn with rfl | rfl
    · exact Or.inl ⟨by omega, by omega, h9⟩
    · exact Or.inr ⟨by omega, by omega, h9⟩
  · unfold Surrounded
    rw [if_pos rfl]
    exact ⟨⟨x, by omega, by simpa using hx, dsep_iff hxp⟩, ⟨y, hy, dsep_iff hyp⟩⟩

theorem triple_found {u : Uni} (hu : Sane u) {s : Str} {a b c d e f i j : Nat} {p q : Char → Bool} {caps : Caps} (ha : 0 < a)
    (hshape : ∀ d1 x d2 y d3, Digits u a b d1 → p x = true → Digits u c d d2 → q y = true → Digits u e f d3 →
      (Digits u 2 2 d1 ∧ DateSep x ∧ Digits u 1 2 d2 ∧ DateSep y ∧ Digits u 1 2 d3) ∨
      (Digits u 1 2 d1 ∧ DateSep x ∧ Digits u 1 2 d2 ∧ DateSep y ∧ Digits u 2 2 d3) ∨
      (Digits u 4 4 d1 ∧ DateSepX x ∧ Digits u 1 2 d2 ∧ DateSep y ∧ Digits u 1 2 d3) ∨
      (Digits u 1 2 d1 ∧ DateSep x ∧ Digits u 1 2 d2 ∧ DateSepX y ∧ Digits u 4 4 d3))
    (h : (j, caps) ∈ (tripleRe u a b p c d q e f).exec s i []) : DateFound u s 4 caps := by
  unfold tripleRe at h
  simp only [Re.cat, mem_seq, mem_grp, mem_chr, mem_eps] at h
  obtain ⟨k0, c0, hb, k1, c1, ⟨c2, ⟨k2, c3, ⟨c4, h4, rfl⟩, k3, c5, ⟨⟨x, hx, hxp⟩, rfl, rfl⟩, k4, c6, ⟨c7, h7, rfl⟩, k5, c8,
    ⟨⟨y, hy, hyp⟩, rfl, rfl⟩, k6, c9, ⟨c10, h10, rfl⟩, rfl, rfl⟩, rfl⟩, k7, c11, haft, rfl, rfl⟩ := h
  obtain ⟨rfl, hbef⟩ := mem_before hb
  obtain ⟨rfl, hi4, hd1⟩ := mem_digits h4
  obtain ⟨rfl, hi7, hd2⟩ := mem_digits h7
  obtain ⟨rfl, hi10, hd3⟩ := mem_digits h10
  obtain ⟨rfl, haf⟩ := mem_after hu haft
  have hlen : (textOf s k0 k2).length ≤ k2 - k0 := by unfold textOf; simp; omega
  have hsplit : textOf s k0 k1 = textOf s k0 k2 ++ x :: (textOf s (k2 + 1) k4 ++ y :: textOf s (k4 + 1) k1) := by
    rw [textOf_append s (i := k0) (k := k2) hi4 (by omega), textOf_append s (i := k2) (k := k2 + 1) (by omega) (by omega),
      textOf_char hx, textOf_append s (i := k2 + 1) (k := k4) hi7 (by omega),
      textOf_append s (i := k4) (k := k4 + 1) (by omega) (by omega), textOf_char hy]
    rfl
  have hk4 : k4 < s.length := (List.getElem?_eq_some_iff.1 hy).1
  have hk1 : k1 ≤ s.length := by
    by_cases hlt : k4 + 1 < k1
    · unfold digitsRe at h10; rw [mem_rep_chr_bounded] at h10; exact h10.2.2.2.le hlt
    · omega
  refine ⟨k0, k1, false, by simp, by have := hd1.1; omega, hk1, ?_, ?_⟩
  · have e : joinDash (List.map (groupText s [(1, k0, k1), (4, k4 + 1, k1), (3, k2 + 1, k4), (2, k0, k2)]) (List.range' 2 (4 - 1))) =
        textOf s k0 k2 ++ '-' :: (textOf s (k2 + 1) k4 ++ '-' :: textOf s (k4 + 1) k1) := by
      simp [joinDash, groupText, textOf, List.range', List.lookup]
    rw [e, hsplit]
    exact DateText.triple _ _ _ _ _ (hshape _ _ _ _ _ hd1 hxp hd2 hyp hd3)
  · unfold Surrounded
    rw [if_neg (by simp)]
    exact ⟨hbef, haf⟩

theorem worded_found {u : Uni} (hu : Sane u) {s : Str} {i j : Nat} {caps : Caps} (h : (j, caps) ∈ (wordedRe u).exec s i []) :
    DateFound u s 2 caps := by
  unfold wordedRe at h
  simp only [Re.cat, mem_seq, mem_grp, mem_chr, mem_eps] at h
  obtain ⟨k0, c0, hb, k1, c1, ⟨c2, ⟨c3, ⟨k2, c4, h4, k3, c5, h5, k4, c6, ⟨⟨x, hx, hxp⟩, rfl, rfl⟩, k5, c7, h7, k6, c8,
    ⟨⟨y, hy, hyp⟩, rfl, rfl⟩, k8, c9, h9, rfl, rfl⟩, rfl⟩, rfl⟩, k9, c10, haft, rfl, rfl⟩ := h
  obtain ⟨rfl, hbef⟩ := mem_before hb
  obtain ⟨rfl, hi4, hd1⟩ := mem_digits h4
  obtain ⟨rfl, hi5, hord⟩ := mem_ordinal h5
  rw [mem_rep_chr_bounded] at h7
  obtain ⟨rfl, h71, h72, h73⟩ := h7
  obtain ⟨hw1, hw2⟩ := AllIn_text (by omega) h73
  obtain ⟨rfl, hi9, hd3⟩ := mem_digits h9
  obtain ⟨rfl, haf⟩ := mem_after hu haft
  have hlen : (textOf s k0 k2).length ≤ k2 - k0 := by unfold textOf; simp; omega
  have hk1 : k1 ≤ s.length := by
    unfold digitsRe at h9; rw [mem_rep_chr_bounded] at h9; exact h9.2.2.2.le (by omega)
  have hsplit : textOf s k0 k1 = textOf s k0 k2 ++ textOf s k2 k3 ++ x :: (textOf s (k3 + 1) k5 ++ y :: textOf s (k5 + 1) k1) := by
    rw [textOf_append s (i := k0) (k := k2) hi4 (by omega), textOf_append s (i := k2) (k := k3) hi5 (by omega),
      textOf_append s (i := k3) (k := k3 + 1) (by omega) (by omega),
      textOf_char hx, textOf_append s (i := k3 + 1) (k := k5) (by omega) (by omega),
      textOf_append s (i := k5) (k := k5 + 1) (by omega) (by omega), textOf_char hy]
    simp
  refine ⟨k0, k1, false, by simp, by have := hd1.1; omega, hk1, ?_, ?_⟩
  · have e : joinDash (List.map (groupText s [(1, k0, k1), (2, k0, k1)]) (List.range' 2 (2 - 1))) = textOf s k0 k1 := by
      simp [joinDash, groupText, textOf, List.range', List.lookup]
    rw [e, hsplit]
    exact DateText.worded _ _ _ _ _ _ hd1 hord (dsep_iff hxp) (by omega) (by omega) (fun c hc => az_iff.1 (hw2 c hc)) (dsep_iff hyp) hd3
  · unfold Surrounded
    rw [if_neg (by simp)]
    exact ⟨hbef, haf⟩

theorem regexps_found {u : Uni} (hu : Sane u) {s : Str} {re : Re} {k : Nat} (hre : (re, k) ∈ dateRegexps u) {i j : Nat} {caps : Caps}
    (h : (j, caps) ∈ re.exec s i []) : DateFound u s k caps := by
  unfold dateRegexps at hre
  simp only [List.mem_cons, Prod.mk.injEq, List.not_mem_nil, or_false] at hre
  rcases hre with ⟨rfl, rfl⟩ | ⟨rfl, rfl⟩ | ⟨rfl, rfl⟩ | ⟨rfl, rfl⟩ | ⟨rfl, rfl⟩ | ⟨rfl, rfl⟩ | ⟨rfl, rfl⟩
  · exact compact_found (Or.inl rfl) h
  · exact compact_found (Or.inr rfl) h
  · exact triple_found hu (by omega) (fun _ _ _ _ _ h1 h2 h3 h4 h5 => Or.inl ⟨h1, dsep_iff h2, h3, dsep_iff h4, h5⟩) h
  · exact triple_found hu (by omega) (fun _ _ _ _ _ h1 h2 h3 h4 h5 => Or.inr (Or.inl ⟨h1, dsep_iff h2, h3, dsep_iff h4, h5⟩)) h
  · exact triple_found hu (by omega) (fun _ _ _ _ _ h1 h2 h3 h4 h5 =>
      Or.inr (Or.inr (Or.inl ⟨h1, dsepBis_iff h2, h3, dsep_iff h4, h5⟩))) h
  · exact triple_found hu (by omega) (fun _ _ _ _ _ h1 h2 h3 h4 h5 =>
      Or.inr (Or.inr (Or.inr ⟨h1, dsep_iff h2, h3, dsepBis_iff h4, h5⟩))) h
  · exact worded_found hu h

end Guessit
