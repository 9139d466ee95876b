import Verif.Model.Processors
import Verif.Spec.Text
import Verif.Proofs.Matches
import Mathlib.Data.List.Nodup

/-! # C37: stripping separators -/

namespace Guessit
open Spec

/-- A separator that is not a bracket. -/
def Spec.BareSep (c : Char) : Prop := c ∈ seps ∧ c ∉ c!"[](){}"

theorem bareSep_iff {c : Char} : sepsNoGroups.contains c = true ↔ BareSep c := by
  have h1 : ∀ c ∈ sepsNoGroups, c ∈ seps ∧ c ∉ c!"[](){}" := by decide
  have h2 : ∀ c ∈ seps, c ∉ c!"[](){}" → c ∈ sepsNoGroups := by decide
  rw [List.contains_iff_mem]
  exact ⟨h1 c, fun h => h2 c h.1 h.2⟩

/-- One stripping step on the text. -/
def frontStep : Str → Str
  | [] => []
  | c :: rest => if sepsNoGroups.contains c && (decide (rest.length < 2) || (rest[1]?).any fun d => !sepsNoGroups.contains d) then rest
    else c :: rest

theorem frontStep_eq (r : Str) : frontStep r = r ∨ ∃ c, r = c :: frontStep r ∧ BareSep c := by
  cases r with
  | nil => exact Or.inl rfl
  | cons c rest =>
    simp only [frontStep]
    split
    · rename_i h
      rw [Bool.and_eq_true] at h
      exact Or.inr ⟨c, rfl, bareSep_iff.1 h.1⟩
    · exact Or.inl rfl

/-- Two stripping steps. -/
theorem frontStep_two (r : Str) : ∃ pre, r = pre ++ frontStep (frontStep r) ∧ pre.length ≤ 2 ∧ ∀ c ∈ pre, BareSep c := by
  rcases frontStep_eq r with h | ⟨c, h, hc⟩
  · rw [h]
    rcases frontStep_eq r with h | ⟨d, h, hd⟩
    · exact ⟨[], by simp [h], by simp, by simp⟩
    · exact ⟨[d], by simpa using h, by simp, by simpa using hd⟩
  · rcases frontStep_eq (frontStep r) with h' | ⟨d, h', hd⟩
    · exact ⟨[c], by rw [h']; simpa using h, by simp, by simpa using hc⟩
    · refine ⟨[c, d], ?_, by simp, by simp [hc, hd]⟩
      rw [List.cons_append, List.cons_append, List.nil_append, ← h', ← h]

theorem stripStartOnce_spec (input : Str) (m : Mt) :
    (m.raw input = [] ∧ stripStartOnce input m = .error .indexError) ∨
    (m.raw input ≠ [] ∧ ∃ a, stripStartOnce input m = .ok { m with rawStart := a } ∧
      ({ m with rawStart := a } : Mt).raw input = frontStep (m.raw input)) := by
  unfold stripStartOnce
  cases h : m.raw input with
  | nil => exact Or.inl ⟨rfl, rfl⟩
  | cons c rest =>
    refine Or.inr ⟨by simp, ?_⟩
    simp only [List.getElem?_cons_zero, frontStep, List.length_cons, List.getElem?_cons_succ,
      show (rest.length + 1 < 3) = (rest.length < 2) by rw [eq_iff_iff]; omega]
    split
    · refine ⟨some (m.rawA + 1), rfl, ?_⟩
      unfold Mt.raw at *
      have hd : (input.take m.rawB).drop (m.rawA + 1) = rest := by
        rw [← List.drop_drop, h]; rfl
      exact hd
    · exact ⟨m.rawStart, rfl, h⟩

theorem stripEndOnce_spec (input : Str) (m : Mt) (hb : m.rawB ≤ input.length) :
    (m.raw input = [] ∧ stripEndOnce input m = .error .indexError) ∨
    (m.raw input ≠ [] ∧ ∃ b, stripEndOnce input m = .ok { m with rawStop := b } ∧
      ({ m with rawStop := b } : Mt).raw input = (frontStep (m.raw input).reverse).reverse ∧
      ({ m with rawStop := b } : Mt).rawB ≤ input.length) := by
  unfold stripEndOnce
  rcases List.eq_nil_or_concat (m.raw input) with h | ⟨r, c, h⟩
  · rw [h]; exact Or.inl ⟨rfl, rfl⟩
  · rw [h]
    refine Or.inr ⟨by simp, ?_⟩
    have hidx : r.length + 1 < 3 ∨ (r ++ [c])[(r ++ [c]).length - 3]? = r.reverse[1]? := by
      by_cases hlt : r.length + 1 < 3
      · exact Or.inl hlt
      · refine Or.inr ?_
        rw [List.getElem?_reverse (by omega), List.getElem?_append_left (by simp; omega)]
        congr 1; simp; omega
    have hcond : (sepsNoGroups.contains c && (decide ((r ++ [c]).length < 3) || ((r ++ [c])[(r ++ [c]).length - 3]?).any fun d => !sepsNoGroups.contains d)) =
        (sepsNoGroups.contains c && (decide (r.reverse.length < 2) || (r.reverse[1]?).any fun d => !sepsNoGroups.contains d)) := by
      rcases hidx with hlt | he
      · have h1 : (r ++ [c]).length < 3 := by simp; omega
        have h2 : r.reverse.length < 2 := by simp; omega
        rw [decide_eq_true h1, decide_eq_true h2, Bool.true_or, Bool.true_or]
      · rw [he]
        congr 2
        rw [Bool.eq_iff_iff]; simp; omega
    simp only [List.concat_eq_append] at h ⊢
    simp only [List.getLast?_append, List.getLast?_singleton, Option.some_or, List.reverse_append, List.reverse_singleton,
      List.singleton_append, frontStep]
    rw [hcond]
    split
    · refine ⟨some (m.rawB - 1), rfl, ?_, ?_⟩
      · unfold Mt.raw at *
        have hlen := congrArg List.length h
        simp only [List.length_drop, List.length_take, List.length_append, List.length_singleton] at hlen
        have hd : (input.take (m.rawB - 1)).drop m.rawA = r := by
          have e1 : (input.take (m.rawB - 1)).drop m.rawA = ((input.take m.rawB).drop m.rawA).dropLast := by
            rw [List.dropLast_eq_take, List.drop_take, List.drop_take, List.take_take]
            congr 1
            simp only [List.length_take, List.length_drop]
            omega
          rw [e1, h]; simp
        rw [List.reverse_reverse]; exact hd
      · show m.rawB - 1 ≤ input.length; omega
    · exact ⟨m.rawStop, rfl, by simpa using h, hb⟩

theorem frontStep_nil {r : Str} : frontStep r = [] ↔ r = [] ∨ ∃ c, r = [c] ∧ BareSep c := by
  cases r with
  | nil => simp [frontStep]
  | cons c rest =>
    simp only [frontStep]
    constructor
    · split
      · rename_i h
        rintro rfl
        rw [Bool.and_eq_true] at h
        exact Or.inr ⟨c, rfl, bareSep_iff.1 h.1⟩
      · simp
    · rintro (h | ⟨d, h, hd⟩)
      · simp at h
      · cases h
        rw [if_pos (by rw [bareSep_iff.2 hd]; simp)]

/-- The pure function computed on the text. -/
def stripText (r : Str) : Str :=
  let f := frontStep (frontStep r)
  (frontStep (frontStep f.reverse)).reverse

theorem stripMatch_spec (input : Str) (m : Mt) (hb : m.rawB ≤ input.length) :
    (∀ e, stripMatch input m = .error e → e = .indexError) ∧
    (∀ m', stripMatch input m = .ok m' → ∃ a b, m' = { m with rawStart := a, rawStop := b } ∧
      m'.raw input = stripText (m.raw input)) ∧
    ((∃ e, stripMatch input m = .error e) ↔
      m.raw input = [] ∨ frontStep (m.raw input) = [] ∨ frontStep (frontStep (m.raw input)) = [] ∨
        frontStep (frontStep (frontStep (m.raw input))).reverse = []) := by
  unfold stripMatch
  rcases stripStartOnce_spec input m with ⟨h1, e1⟩ | ⟨h1, a1, e1, r1⟩
  · rw [e1]; simp [h1]
  rw [e1]; simp only
  rcases stripStartOnce_spec input { m with rawStart := a1 } with ⟨h2, e2⟩ | ⟨h2, a2, e2, r2⟩
  · rw [e2]
    rw [r1] at h2
    simp [h2]
  rw [e2]; simp only
  rw [r1] at r2 h2
  rcases stripEndOnce_spec input { m with rawStart := a2 } hb with ⟨h3, e3⟩ | ⟨h3, b3, e3, r3, hb3⟩
  · rw [e3]
    have h3' : ({ m with rawStart := a2 } : Mt).raw input = [] := h3
    rw [show ({ m with rawStart := a2 } : Mt).raw input = frontStep (frontStep (m.raw input)) from r2] at h3'
    simp [h3']
  rw [e3]; simp only
  have r2' : ({ m with rawStart := a2 } : Mt).raw input = frontStep (frontStep (m.raw input)) := r2
  rw [r2'] at r3 h3
  rcases stripEndOnce_spec input { m with rawStart := a2, rawStop := b3 } hb3 with ⟨h4, e4⟩ | ⟨h4, b4, e4, r4, _⟩
  · rw [e4]
    have h4' : (frontStep (frontStep (frontStep (m.raw input))).reverse).reverse = [] := by
      rw [← r3]; exact h4
    rw [List.reverse_eq_nil_iff] at h4'
    simp [h4']
  · rw [e4]
    refine ⟨by simp, ?_, ?_⟩
    · intro m' hm
      simp only [Except.ok.injEq] at hm
      subst hm
      refine ⟨a2, b4, rfl, ?_⟩
      have r3' : ({ m with rawStart := a2, rawStop := b3 } : Mt).raw input = (frontStep (frontStep (frontStep (m.raw input))).reverse).reverse := r3
      rw [r3'] at r4
      simp only [List.reverse_reverse] at r4
      exact r4
    · constructor
      · rintro ⟨e, h⟩; simp at h
      · rintro (h | h | h | h)
        · exact absurd h h1
        · exact absurd h h2
        · exact absurd h h3
        · refine absurd ?_ h4
          have : ({ m with rawStart := a2, rawStop := b3 } : Mt).raw input = (frontStep (frontStep (frontStep (m.raw input))).reverse).reverse := r3
          rw [this, h]; rfl

/-- C37: stripping never touches the span, the name or an explicit value; it only takes bare separators off the two ends
of the raw text, at most two on each side. -/
theorem C37_inside (input : Str) (m m' : Mt) (hb : m.rawB ≤ input.length) (h : stripMatch input m = .ok m') :
    (∃ a b, m' = { m with rawStart := a, rawStop := b }) ∧
    ∃ pre post, m.raw input = pre ++ m'.raw input ++ post ∧ pre.length ≤ 2 ∧ post.length ≤ 2 ∧
      (∀ c ∈ pre, BareSep c) ∧ ∀ c ∈ post, BareSep c := by
  obtain ⟨_, h2, _⟩ := stripMatch_spec input m hb
  obtain ⟨a, b, e, hr⟩ := h2 m' h
  refine ⟨⟨a, b, e⟩, ?_⟩
  obtain ⟨pre, p1, p2, p3⟩ := frontStep_two (m.raw input)
  obtain ⟨post, q1, q2, q3⟩ := frontStep_two (frontStep (frontStep (m.raw input))).reverse
  refine ⟨pre, post.reverse, ?_, p2, by simpa using q2, p3, by simpa using q3⟩
  rw [hr]
  unfold stripText
  have : frontStep (frontStep (m.raw input)) =
      (frontStep (frontStep (frontStep (frontStep (m.raw input))).reverse)).reverse ++ post.reverse := by
    rw [← List.reverse_append, ← q1, List.reverse_reverse]
  rw [List.append_assoc, ← this]
  exact p1

/-- C37: a separator in front of the raw text is kept only if the text looks like an acronym (another separator two places
further), and then the text is left alone in front; the same at the end. -/
theorem C37_acronym (input : Str) (m m' : Mt) (hb : m.rawB ≤ input.length) (h : stripMatch input m = .ok m') :
    (∀ x y z rest, m.raw input = x :: y :: z :: rest → BareSep z →
      ∃ post, m.raw input = m'.raw input ++ post ∧ ∀ c ∈ post, BareSep c) ∧
    (∀ x y z rest, m.raw input = x :: y :: z :: rest → BareSep x → ¬ BareSep z →
      ∃ post, (m'.raw input ++ post = y :: z :: rest ∨ m'.raw input ++ post = z :: rest) ∧ ∀ c ∈ post, BareSep c) := by
  obtain ⟨_, h2, _⟩ := stripMatch_spec input m hb
  obtain ⟨a, b, e, hr⟩ := h2 m' h
  obtain ⟨post, q1, q2, q3⟩ := frontStep_two (frontStep (frontStep (m.raw input))).reverse
  have hall : frontStep (frontStep (m.raw input)) = m'.raw input ++ post.reverse := by
    rw [hr]; unfold stripText
    rw [← List.reverse_append, ← q1, List.reverse_reverse]
  constructor
  · intro x y z rest hraw hz
    refine ⟨post.reverse, ?_, by simpa using q3⟩
    have hf : frontStep (m.raw input) = m.raw input := by
      rw [hraw]
      simp only [frontStep]
      rw [if_neg]
      simp [bareSep_iff.2 hz]
      intro hx
      have := bareSep_iff.2 hz
      simpa using this
    rw [← hall, hf, hf]
  · intro x y z rest hraw hx hz
    refine ⟨post.reverse, ?_, by simpa using q3⟩
    have hz' : sepsNoGroups.contains z = false := by
      rw [← Bool.not_eq_true]; exact fun hh => hz (bareSep_iff.1 hh)
    have hf : frontStep (m.raw input) = y :: z :: rest := by
      rw [hraw]
      simp only [frontStep]
      rw [if_pos]
      rw [bareSep_iff.2 hx]
      simp only [List.getElem?_cons_succ, List.getElem?_cons_zero, Option.any_some, hz', Bool.not_false, Bool.or_true, Bool.and_true]
    rw [← hall, hf]
    rcases frontStep_eq (y :: z :: rest) with hh | ⟨c, hh, _⟩
    · exact Or.inl hh
    · refine Or.inr ?_
      have := List.cons.inj hh
      exact this.2.symm

/-- C37: stripping fails (with an `IndexError`) exactly on a raw text that is empty or made of one or two separators. -/
theorem C37_fails_iff (input : Str) (m : Mt) (hb : m.rawB ≤ input.length) :
    (∀ e, stripMatch input m = .error e → e = .indexError) ∧
    ((∃ e, stripMatch input m = .error e) ↔ (m.raw input).length ≤ 2 ∧ ∀ c ∈ m.raw input, BareSep c) := by
  obtain ⟨h1, _, h3⟩ := stripMatch_spec input m hb
  refine ⟨h1, ?_⟩
  rw [h3]
  generalize m.raw input = r
  have hbs : ∀ {c}, BareSep c → c ∈ sepsNoGroups := fun h => List.contains_iff_mem.1 (bareSep_iff.2 h)
  have hn : ∀ {c}, ¬ BareSep c → c ∉ sepsNoGroups := fun h hh => h (bareSep_iff.1 (List.contains_iff_mem.2 hh))
  constructor
  · have a1 : ∀ r : Str, (r.length ≤ 2 ∧ ∀ c ∈ r, BareSep c) ↔ frontStep (frontStep r) = [] := by
      intro r
      match r with
      | [] => simp [frontStep]
      | [c] =>
        by_cases hc : BareSep c
        · simp [frontStep, hbs hc, hc]
        · simp [frontStep, hn hc, hc]
      | [c, d] =>
        by_cases hc : BareSep c <;> by_cases hd : BareSep d <;> simp [frontStep, hc, hd, hbs, hn]
      | c :: d :: e :: r =>
        simp only [List.length_cons]
        constructor
        · intro h; omega
        · intro h
          rw [frontStep_nil] at h
          have hlen : ∀ r : Str, r.length ≤ (frontStep r).length + 1 := by
            intro r; rcases frontStep_eq r with h | ⟨c, h, _⟩
            · rw [h]; omega
            · have := congrArg List.length h
              simp only [List.length_cons] at this; omega
          have := hlen (c :: d :: e :: r)
          rcases h with h | ⟨x, h, _⟩ <;> (rw [h] at this; simp only [List.length_cons, List.length_nil] at this; omega)
    have mono : frontStep r = [] → frontStep (frontStep r) = [] := by intro h; rw [h]; rfl
    rintro (rfl | h | h | h)
    · simp
    · exact (a1 r).2 (mono h)
    · exact (a1 r).2 h
    · rw [frontStep_nil] at h
      rcases h with h | ⟨c, h, hc⟩
      · rw [List.reverse_eq_nil_iff] at h; exact (a1 r).2 h
      · have hr : frontStep (frontStep r) = [c] := by
          have := congrArg List.reverse h; simpa using this
        exfalso
        -- the remaining character would be a separator in a text of at most three characters
        rcases frontStep_eq (frontStep r) with h1 | ⟨d, h1, hd⟩
        · rw [h1] at hr
          have : frontStep [c] = [] := frontStep_nil.2 (Or.inr ⟨c, rfl, hc⟩)
          rw [hr, this] at h1; simp at h1
        · rw [hr] at h1
          rcases frontStep_eq r with h2 | ⟨e, h2, he⟩
          · rw [h2] at h1
            rw [h1] at h2
            simp [frontStep, hbs hd] at h2
          · rw [h1] at h2
            rw [h2] at h1
            simp [frontStep, hbs he, hbs hc] at h1
  · rintro ⟨hlen, hall⟩
    match r with
    | [] => exact Or.inl rfl
    | [c] => exact Or.inr (Or.inl (frontStep_nil.2 (Or.inr ⟨c, rfl, hall c (by simp)⟩)))
    | [c, d] =>
      refine Or.inr (Or.inr (Or.inl ?_))
      have hc := hbs (hall c (by simp))
      have hd := hbs (hall d (by simp))
      simp [frontStep, hc, hd]
    | c :: d :: e :: r => simp at hlen

/-- C37: the rule strips each match on its own, in order, and touches neither the input nor the markers. -/
theorem C37_all (s s' : Ms) (h : stripSeparators s = .ok s') :
    s'.input = s.input ∧ s'.markers = s.markers ∧
      List.Forall₂ (fun m m' => stripMatch s.input m = .ok m') s.live s'.live := by
  unfold stripSeparators at h
  cases h1 : stripAll s.input s.live with
  | error e => rw [h1] at h; simp at h
  | ok l =>
    rw [h1] at h
    simp only [Except.ok.injEq] at h
    subst h
    refine ⟨rfl, rfl, ?_⟩
    show List.Forall₂ _ s.live l
    generalize s.live = ms at h1
    induction ms generalizing l with
    | nil => simp only [stripAll, Except.ok.injEq] at h1; subst h1; exact .nil
    | cons m ms ih =>
      simp only [stripAll] at h1
      cases h2 : stripMatch s.input m with
      | error e => rw [h2] at h1; simp at h1
      | ok m' =>
        rw [h2] at h1
        simp only at h1
        cases h3 : stripAll s.input ms with
        | error e => rw [h3] at h1; simp at h1
        | ok l' =>
          rw [h3] at h1
          simp only [Except.ok.injEq] at h1
          subst h1
          exact .cons h2 (ih l' h3)

/-- C37 cannot be strengthened to "never fails": a match whose raw text is a lone separator makes the rule raise. -/
theorem C37_never_fails_counterexample :
    ∃ (input : Str) (m : Mt), m.rawB ≤ input.length ∧ m.raw input = c!"-" ∧ stripMatch input m = .error .indexError :=
  ⟨c!"a-b", { id := 0, start := 1, stop := 2, name := some c!"title" }, by decide, by decide, rfl⟩

/-- `._Title.-` loses its separators, `.S.H.` keeps them. -/
example : (stripMatch c!"._Title.-" { id := 0, start := 0, stop := 9, name := none }).map (Mt.raw c!"._Title.-") = .ok c!"Title" ∧
    (stripMatch c!".S.H." { id := 0, start := 0, stop := 5, name := none }).map (Mt.raw c!".S.H.") = .ok c!".S.H." := ⟨rfl, rfl⟩

end Guessit
