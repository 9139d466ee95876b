import Verif.Proofs.Date
import Verif.Props.Numeral

/-!
# Properties C28, C51: dates
-/

namespace Guessit
open Spec Re

theorem tryParses_some {parse : DateParser} {text : Str} {l : List (Bool × Bool)} {date : PyDate}
    (h : tryParses parse text l = .ok (some date)) : validYear date.year = true ∧ ∃ d y, (d, y) ∈ l ∧ parse text d y = .ok date := by
  induction l with
  | nil => simp [tryParses] at h
  | cons x l ih =>
    obtain ⟨d, y⟩ := x
    simp only [tryParses] at h
    have step : tryParses parse text l = .ok (some date) → validYear date.year = true ∧ ∃ d' y', (d', y') ∈ (d, y) :: l ∧ parse text d' y' = .ok date := by
      intro h'
      obtain ⟨h1, d', y', h2, h3⟩ := ih h'
      exact ⟨h1, d', y', by simp [h2], h3⟩
    split at h
    · rename_i dt hp
      split at h
      · simp only [Except.ok.injEq, Option.some.injEq] at h
        subst h
        exact ⟨by assumption, d, y, by simp, hp⟩
      · exact step h
    · exact step h
    · exact step h
    · cases h

theorem tryParses_none {parse : DateParser} {text : Str} {l : List (Bool × Bool)} (h : tryParses parse text l = .ok none) :
    ∀ d y, (d, y) ∈ l → ∀ date, parse text d y = .ok date → validYear date.year = false := by
  induction l with
  | nil => simp
  | cons x l ih =>
    obtain ⟨d, y⟩ := x
    simp only [tryParses] at h
    intro d' y' hm date hp'
    rcases List.mem_cons.1 hm with he | hm
    · simp only [Prod.mk.injEq] at he
      obtain ⟨rfl, rfl⟩ := he
      rw [hp'] at h
      simp only at h
      split at h
      · cases h
      · rename_i hv; simpa using hv
    · refine ih ?_ d' y' hm date hp'
      split at h
      · split at h
        · cases h
        · exact h
      · exact h
      · exact h
      · cases h

theorem mem_kwargs {yf df : Option Bool} {d y : Bool} :
    (d, y) ∈ kwargsList yf df ↔ (∀ b, yf = some b → y = b) ∧ (∀ b, df = some b → d = b) := by
  rcases yf with _ | _ | _ <;> rcases df with _ | _ | _ <;> cases d <;> cases y <;> simp [kwargsList]

theorem dayFirstFor_spec {u : Uni} {yf df df' : Option Bool} {groups : List Str} (h : dayFirstFor u yf df groups = .ok df') :
    (∀ b, df = some b → df' = some b) ∧ (yf = some true → df = none → df' = some false) := by
  unfold dayFirstFor at h
  simp only at h
  constructor
  · rintro b rfl
    simp only [reduceCtorEq, and_false, if_false] at h
    simpa using h.symm
  · rintro rfl rfl
    simp only [and_self, if_true] at h
    simpa using h.symm

/-- The options obeyed by the current value of `day_first`. -/
theorem loop_sound {u : Uni} (hu : Sane u) {parse : DateParser} {s : Str} {yf : Option Bool} {l : List (Re × Nat)}
    (hl : ∀ r ∈ l, r ∈ dateRegexps u) {df : Option Bool} {a b : Nat} {date : PyDate}
    (h : searchDateLoop u parse s yf l df = .ok (some (a, b, date))) :
    validYear date.year = true ∧ a < b ∧ b ≤ s.length ∧ ∃ compact text d y, DateText u compact (textOf s a b) text ∧
      Surrounded u compact s a b ∧ parse text d y = .ok date ∧ FlagsAllowed yf df d y := by
  induction l generalizing df with
  | nil => simp [searchDateLoop] at h
  | cons x l ih =>
    obtain ⟨re, k⟩ := x
    have hl' : ∀ r ∈ l, r ∈ dateRegexps u := fun r hr => hl r (by simp [hr])
    simp only [searchDateLoop] at h
    split at h
    · exact ih hl' h
    · rename_i i j caps hs
      have hm := matchAt_mem (searchFrom_some hs).1
      obtain ⟨a', b', compact, h1, h2, h3, h4, h5⟩ := regexps_found hu (hl (re, k) (by simp)) hm
      split at h
      · cases h
      · rename_i df' hdf
        obtain ⟨g1, g2⟩ := dayFirstFor_spec hdf
        split at h
        · cases h
        · rename_i date' htry
          rw [h1] at h
          simp only [Except.ok.injEq, Option.some.injEq, Prod.mk.injEq] at h
          obtain ⟨rfl, rfl, rfl⟩ := h
          obtain ⟨v, d, y, hdy, hp⟩ := tryParses_some htry
          obtain ⟨k1, k2⟩ := mem_kwargs.1 hdy
          exact ⟨v, h2, h3, compact, _, d, y, h4, h5, hp, k1, fun b hb => k2 b (g1 b hb), fun e1 e2 => k2 false (g2 e1 e2)⟩
        · obtain ⟨v, h6, h7, compact, text, d, y, h8, h9, h10, h11, h12, h13⟩ := ih hl' h
          refine ⟨v, h6, h7, compact, text, d, y, h8, h9, h10, h11, fun b hb => h12 b (g1 b hb), fun e1 e2 => ?_⟩
          exact h12 false (g2 e1 e2)

/-- C28: a date that is found is plausible, its span lies in the text and holds a date-like text delimited as documented,
and the date is what the date parser reads in exactly that text, with flags that obey the options. -/
theorem C28_sound (u : Uni) (hu : Sane u) (parse : DateParser) (s : Str) (yf df : Option Bool) (a b : Nat) (date : PyDate)
    (h : searchDate u parse s yf df = .ok (some (a, b, date))) :
    1920 ≤ date.year ∧ date.year ≤ 2029 ∧ a < b ∧ b ≤ s.length ∧ ∃ compact text d y,
      DateText u compact (textOf s a b) text ∧ Surrounded u compact s a b ∧ parse text d y = .ok date ∧ FlagsAllowed yf df d y := by
  obtain ⟨hv, h1, h2, h3⟩ := loop_sound hu (fun r hr => hr) h
  unfold validYear at hv
  simp only [Bool.and_eq_true, decide_eq_true_eq] at hv
  exact ⟨by omega, by omega, h1, h2, h3⟩

theorem loop_none {u : Uni} {parse : DateParser} {s : Str} {yf : Option Bool} {l : List (Re × Nat)} {df : Option Bool}
    (hdf : df.isSome = true ∨ yf = some true)
    (h : searchDateLoop u parse s yf l df = .ok none) : ∀ re k, (re, k) ∈ l → ∀ i j caps, re.search s = some (i, j, caps) →
    ∀ d y date, FlagsAllowed yf df d y →
      parse (joinDash ((List.range' 2 (k - 1)).map (groupText s caps))) d y = .ok date → validYear date.year = false := by
  induction l generalizing df with
  | nil => simp
  | cons x l ih =>
    obtain ⟨re, k⟩ := x
    intro re' k' hm i j caps hs d y date hfl hp
    simp only [searchDateLoop] at h
    rcases List.mem_cons.1 hm with he | hm
    · simp only [Prod.mk.injEq] at he
      obtain ⟨rfl, rfl⟩ := he
      rw [hs] at h
      simp only at h
      split at h
      · cases h
      · rename_i df' hdf'
        split at h
        · cases h
        · split at h <;> cases h
        · rename_i htry
          refine tryParses_none htry d y ?_ date hp
          rw [mem_kwargs]
          refine ⟨hfl.1, ?_⟩
          obtain ⟨g1, g2⟩ := dayFirstFor_spec hdf'
          intro b hb
          rcases df with _ | x
          · rcases hdf with hdf | hdf
            · simp at hdf
            · rw [g2 hdf rfl] at hb
              rw [hfl.2.2 hdf rfl]
              simpa using hb
          · rw [g1 x rfl] at hb
            rw [hfl.2.1 x rfl]; simpa using hb
    · split at h
      · exact ih hdf h re' k' hm i j caps hs d y date hfl hp
      · split at h
        · cases h
        · rename_i df' hdf'
          obtain ⟨g1, g2⟩ := dayFirstFor_spec hdf'
          split at h
          · cases h
          · split at h <;> cases h
          · have hdf2 : df'.isSome = true := by
              rcases df with _ | x
              · rcases hdf with hdf | hdf
                · simp at hdf
                · rw [g2 hdf rfl]; rfl
              · rw [g1 x rfl]; rfl
            refine ih (Or.inl hdf2) h re' k' hm i j caps hs d y date ⟨hfl.1, ?_, ?_⟩ hp
            · intro b hb
              rcases df with _ | x
              · rcases hdf with hdf | hdf
                · simp at hdf
                · rw [g2 hdf rfl] at hb
                  rw [hfl.2.2 hdf rfl]; simpa using hb
              · rw [g1 x rfl] at hb
                rw [hfl.2.1 x rfl]; simpa using hb
            · intro _ hn
              rw [hn] at hdf2; simp at hdf2

/-- C28: when the reading is fixed by the options and nothing is found, then none of the date patterns' first occurrences
can be read as a plausible date with allowed flags. -/
theorem C28_none (u : Uni) (parse : DateParser) (s : Str) (yf df : Option Bool) (hdf : df.isSome = true ∨ yf = some true)
    (h : searchDate u parse s yf df = .ok none) (re : Re) (k : Nat) (hre : (re, k) ∈ dateRegexps u) (i j : Nat) (caps : Caps)
    (hs : re.search s = some (i, j, caps)) (d y : Bool) (hfl : FlagsAllowed yf df d y) (date : PyDate)
    (hp : parse (joinDash ((List.range' 2 (k - 1)).map (groupText s caps))) d y = .ok date) :
    ¬ (1920 ≤ date.year ∧ date.year ≤ 2029) := by
  have := loop_none hdf h re k hre i j caps hs d y date hfl hp
  intro ⟨h1, h2⟩
  unfold validYear at this
  simp only [Bool.and_eq_false_iff, decide_eq_false_iff_not] at this
  omega

/-! A date parser for the examples: it knows one triple in both readings. -/
def toyParser : DateParser := fun text d _ =>
  if text = c!"05-03-2012" then .ok (if d then ⟨2012, 3, 5⟩ else ⟨2012, 5, 3⟩)
  else if text = c!"2002-04-22" then .ok ⟨2002, 4, 22⟩
  else .error .valueError

example : searchDate asciiUni toyParser c!" This happened on 2002-04-22. " none none = .ok (some (18, 28, ⟨2002, 4, 22⟩)) := by rfl
example : ∃ compact text d y, DateText asciiUni compact c!"2002-04-22" text ∧
    Surrounded asciiUni compact c!" This happened on 2002-04-22. " 18 28 ∧ toyParser text d y = .ok ⟨2002, 4, 22⟩ ∧
    FlagsAllowed none none d y :=
  (C28_sound asciiUni asciiUni_sane toyParser c!" This happened on 2002-04-22. " none none 18 28 _ (by rfl)).2.2.2.2

/-! ## C51 -/

/-- C51: without options, the first date pattern that occurs decides the order from its own digits: a text starting with a
plausible four-digit year is never read day first, a text ending with one always is. -/
theorem C51_first_pattern_partial (u : Uni) (hu : Sane u) (parse : DateParser) (s : Str) (pre post : List (Re × Nat)) (re : Re) (k : Nat)
    (hsplit : dateRegexps u = pre ++ (re, k) :: post) (hpre : ∀ r ∈ pre, r.1.search s = none)
    (i j : Nat) (caps : Caps) (hs : re.search s = some (i, j, caps)) (first last : Str) (mid : List Str)
    (hg : (List.range' 2 (k - 1)).map (groupText s caps) = first :: (mid ++ [last]))
    (hf : ∀ c ∈ first, u.isDigit c = true) (hfl : first ≠ []) (hl : ∀ c ∈ last, u.isDigit c = true) (hll : last ≠ [])
    (a b : Nat) (date : PyDate)
    (hplausible : ∀ d y, ∃ dt, parse (joinDash (first :: (mid ++ [last]))) d y = .ok dt ∧ validYear dt.year = true)
    (h : searchDate u parse s none none = .ok (some (a, b, date))) :
    (validYear (digitsValue u (first.take 4)) = true →
      ∃ y, parse (joinDash (first :: (mid ++ [last]))) false y = .ok date) ∧
    (validYear (digitsValue u (first.take 4)) = false → validYear (digitsValue u (lastN 4 last)) = true →
      ∃ y, parse (joinDash (first :: (mid ++ [last]))) true y = .ok date) := by
  have hskip : ∀ l, (∀ r ∈ l, r.1.search s = none) →
      searchDateLoop u parse s none (l ++ (re, k) :: post) none = searchDateLoop u parse s none ((re, k) :: post) none := by
    intro l
    induction l with
    | nil => intro _; rfl
    | cons x l ih =>
      intro hx
      obtain ⟨r, m⟩ := x
      have := hx (r, m) (by simp)
      simp only [List.cons_append, searchDateLoop] at this ⊢
      rw [this]
      exact ih (fun r hr => hx r (by simp [hr]))
  have hint : ∀ g part test, g ≠ [] → part ≠ [] → (∀ c ∈ g, u.isDigit c = true) → (∀ c ∈ part, c ∈ g) →
      intTest u g part test = .ok (test (digitsValue u part)) := by
    intro g part test h1 h2 h3 h4
    unfold intTest isInt
    rw [pyInt_digits u hu g h1 h3, pyInt_digits u hu part h2 (fun c hc => h3 c (h4 c hc))]
    rfl
  have e1 := hint first (first.take 4) validYear hfl (by simp [hfl]) hf (fun c hc => List.mem_of_mem_take hc)
  have e2 := hint last (lastN 4 last) validYear hll (by
    unfold lastN; intro h0
    have := congrArg List.length h0
    rw [List.length_drop] at this
    have := List.length_pos_iff.2 hll
    simp at *; omega) hl (fun c hc => List.mem_of_mem_drop hc)
  unfold searchDate at h
  rw [hsplit, hskip pre hpre] at h
  simp only [searchDateLoop, hs, hg] at h
  have hguess : guessDayFirst u (first :: (mid ++ [last])) = firstTest [
      (.ok (validYear (digitsValue u (first.take 4))), false),
      (.ok (validYear (digitsValue u (lastN 4 last))), true),
      (intTest u first (first.take 2) (fun n => n > 31), false),
      (intTest u last (lastN 2 last) (fun n => n > 31), true)] := by
    unfold guessDayFirst
    have : (first :: (mid ++ [last])).getLast? = some last := by
      rw [show first :: (mid ++ [last]) = (first :: mid) ++ [last] from rfl, List.getLast?_append]; simp
    simp only [List.head?_cons, this, e1, e2]
  have hdf : ∀ d, guessDayFirst u (first :: (mid ++ [last])) = .ok (some d) →
      ∃ y, parse (joinDash (first :: (mid ++ [last]))) d y = .ok date := by
    intro d hd
    have : dayFirstFor u none none (first :: (mid ++ [last])) = .ok (some d) := by
      unfold dayFirstFor; simpa using hd
    rw [this] at h
    simp only at h
    split at h
    · cases h
    · rename_i date' htry
      split at h
      · simp only [Except.ok.injEq, Option.some.injEq, Prod.mk.injEq] at h
        obtain ⟨_, _, rfl⟩ := h
        obtain ⟨_, d', y', hdy, hp⟩ := tryParses_some htry
        have := (mem_kwargs.1 hdy).2 d rfl
        subst this
        exact ⟨y', hp⟩
      · cases h
    · rename_i htry
      exfalso
      obtain ⟨dt, hp, hv⟩ := hplausible d false
      rw [tryParses_none htry d false (mem_kwargs.2 ⟨by simp, by simp⟩) dt hp] at hv
      cases hv
  constructor
  · intro hv
    exact hdf false (by rw [hguess, hv]; rfl)
  · intro hv1 hv2
    exact hdf true (by rw [hguess, hv1, hv2]; rfl)

/-- C51 fails in general: the flag guessed for an unreadable run of digits is still used for a later date, so the same
date is read as 5 March alone and as 3 May after other digits. -/
theorem C51_counterexample_flag_leaks :
    searchDate asciiUni toyParser c!" 05-03-2012 " none none = .ok (some (1, 11, ⟨2012, 3, 5⟩)) ∧
    searchDate asciiUni toyParser c!" 20101399 05-03-2012 " none none = .ok (some (10, 20, ⟨2012, 5, 3⟩)) := by
  constructor <;> rfl

end Guessit
