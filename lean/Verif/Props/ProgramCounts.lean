import Verif.Props.ProgramVersions
import Verif.Props.SeasonWords
import Verif.Props.EpisodeWords
import Verif.Props.Numerals

/-! # Counts: what the declarations give, and the program (C164) -/

namespace Guessit
open Spec Re

section
variable {E : RxEnv} {s : Str}

/-- Digits after `of` or `sur`. -/
def DigitsAfterOf (E : RxEnv) (s : Str) (a b : Nat) : Prop := ∃ i, WordThen E [c!"of", c!"sur"] s i a ∧ a < b ∧ AllOf s (Digit E) a b

/-- What the expression for numerals takes, after `of` or `sur`. -/
def NumeralAfterOf (E : RxEnv) (s : Str) (a b : Nat) : Prop :=
  ∃ i, WordThen E [c!"of", c!"sur"] s i a ∧ a < b ∧ Takes E s a b ∧ (AllOf s (Digit E) a b ∨ Standing s a b)

theorem digits_count (hE : Usual E) {a b : Nat} (h : DigitsAfterOf E s a b) : Smooth (textOf s a b) ∧ ∃ k : Int, CountWritten E s k ∧ pyInt E.u (textOf s a b) = .ok k := by
  obtain ⟨i, hw, h1, h2⟩ := h
  have hn : Number E s a b (digitsValue E.u (textOf s a b)) := ⟨h1, h2, rfl⟩
  exact ⟨smooth_number hE hn, _, ⟨i, a, b, _, rfl, hw, Or.inl hn⟩, number_pyInt hE hn⟩

theorem smooth_nosep {a b : Nat} (hab : a < b) (h : ∀ k, a ≤ k → k < b → CharAt s (fun x => x ∉ seps) k) : Smooth (textOf s a b) := by
  have hsub : ∀ c, c ∉ seps → sepsNoGroups.contains c = false := by
    have h : ∀ c ∈ sepsNoGroups, c ∈ seps := by decide +kernel
    intro c hc
    cases hcc : sepsNoGroups.contains c with
    | false => rfl
    | true => exact absurd (h c (by simpa using hcc)) hc
  obtain ⟨x, hx, hsx⟩ := h a (Nat.le_refl _) hab
  obtain ⟨y, hy, hsy⟩ := h (b - 1) (by omega) (by omega)
  have hlen : b ≤ s.length := by
    have := (List.getElem?_eq_some_iff.1 hy).1
    omega
  refine ⟨⟨x, ?_, hsub x hsx⟩, y, ?_, hsub y hsy⟩
  · rw [textOf_at (by omega)]
    exact hx
  · rw [List.getLast?_eq_getElem?]
    have : (textOf s a b).length = b - a := by simp [textOf]; omega
    rw [this, textOf_at (by omega), ← hy]
    congr 1
    omega

theorem numeral_count (hE : Usual E) (hC : Cased E.u) (hP : PlainCase E s) {a b : Nat} (h : NumeralAfterOf E s a b) :
    Smooth (textOf s a b) ∧ ∃ k : Int, CountWritten E s k ∧ wordedValue E s (a, b) = .ok k := by
  obtain ⟨i, hw, h1, h2, h3⟩ := h
  obtain ⟨n, h4, h5, _⟩ := takes_reads hE hC hP h2 h1
  exact ⟨smooth_nosep h1 (takes_nosep hE hP h2), n, ⟨i, a, b, n, rfl, hw, Or.inr ⟨h4, h3⟩⟩, h5⟩

theorem marks_count : (E.countRe defaultEpisodeWords.ofWords).Marks s 9 (DigitsAfterOf E s) := by
  intro i j c c' he hi a b hab
  obtain ⟨x, ⟨y, z, _, h1, h2⟩, h3, rfl⟩ := mem_count.1 he
  rcases List.mem_cons.1 hab with h | h
  · cases h
    exact Or.inr ⟨y, ⟨z, h1, h2⟩, h3⟩
  · exact Or.inl h

theorem version_nos {n : Nat} (h : n ≠ 8) : n ∉ E.versionRe.groupNos := by
  simp [RxEnv.versionRe, RxEnv.letter, Re.cat, Re.groupNos, RxEnv.digits, RxEnv.digit, h]

theorem episodeWord_counts {number : Re} (h : 9 ∉ number.groupNos) : (episodeWordRe E defaultEpisodeWords number).Marks s 9 (DigitsAfterOf E s) := by
  refine marks_cat fun r hr => ?_
  simp only [List.mem_cons, List.not_mem_nil, or_false] at hr
  rcases hr with rfl | rfl | rfl | rfl | rfl
  · exact marks_none (by simp [Re.groupNos, words_nos])
  · exact marks_none (by simp [dashRe, Re.opt, Re.groupNos])
  · exact marks_none (by simpa [Re.groupNos] using h)
  · exact marks_rep (marks_none (version_nos (by decide))) _ _
  · exact marks_rep marks_count _ _

theorem detached_counts : (detachedPattern E defaultEpisodeWords).re.Marks s 9 (DigitsAfterOf E s) := by
  refine marks_cat fun r hr => ?_
  simp only [List.mem_cons, List.not_mem_nil, or_false] at hr
  rcases hr with rfl | rfl | rfl | rfl
  · exact marks_none (by simp [Re.groupNos, RxEnv.digits, RxEnv.digit])
  · exact marks_count
  · exact marks_none (by simp [dashRe, Re.opt, Re.groupNos])
  · exact marks_none (by simp [Re.opt, Re.groupNos, words_nos])

theorem kept_uncounted {C : EpisodeConfig} {k : EpisodeChain} : ∀ hs ∈ k.kept E C s, ∀ h ∈ hs, MarkedBy 9 (fun _ _ => False) h := by
  intro hs hhs h hh
  refine (kept_hitOf hs hhs h hh).marked fun p hp => ?_
  refine marks_none ?_
  cases k with
  | numbers k =>
    simp only [EpisodeChain.first, EpisodeChain.rest, List.mem_cons, List.not_mem_nil, or_false] at hp
    rcases hp with rfl | rfl | rfl
    · cases k <;> simp [Numbering.firstRe, Re.groupNos, Re.cat, Re.opt, word_nos, digitsRe]
    · exact version_nos (by decide)
    · simp [Numbering.moreRe, Re.groupNos, words_nos, digitsRe]
  | _ =>
    simp only [EpisodeChain.first, EpisodeChain.rest, List.mem_cons, List.not_mem_nil, or_false] at hp
    try rcases hp with rfl | rfl | rfl
    all_goals try rcases hp with rfl | rfl
    all_goals try rcases hp with rfl
    all_goals simp [RxEnv.seasonEpisode, RxEnv.moreEpisodes, RxEnv.crossed, RxEnv.seasonOnly, RxEnv.extras, RxEnv.moreSeasons, Re.groupNos, Re.cat, words_nos, word_nos,
      RxEnv.digits, RxEnv.digit, dashRe, Re.opt]

theorem loose_uncounted {C : EpisodeConfig} {k : LooseChain} : ∀ hs ∈ k.kept E C s, ∀ h ∈ hs, MarkedBy 9 (fun _ _ => False) h := by
  intro hs hhs h hh
  refine (loose_hitOf hs hhs h hh).marked fun p hp => ?_
  refine marks_none ?_
  have hmore : ∀ k : LooseChain, 9 ∉ (k.moreRe E).groupNos := by
    intro k
    cases k <;> simp [LooseChain.moreRe, Re.groupNos, Re.cat, words_nos, digitsRe]
  have hfirst : 9 ∉ (k.firstRe E).groupNos := by
    cases k <;> simp [LooseChain.firstRe, Re.groupNos, Re.cat, word_nos, digitsRe, dashRe, Re.opt]
  rcases List.mem_cons.1 hp with rfl | hp
  · exact hfirst
  · cases k <;> simp only [LooseChain.rest, List.mem_cons, List.not_mem_nil, or_false] at hp
    · rcases hp with rfl | rfl
      · exact version_nos (by decide)
      · exact hmore .zero
    · rcases hp with rfl | rfl
      · exact version_nos (by decide)
      · exact hmore .ep
    · rcases hp with rfl
      exact hmore .cap

theorem worded_counts (hE : Usual E) (hC : Cased E.u) (hP : PlainCase E s) :
    ∀ hs ∈ wordedKept E defaultEpisodes seasonWords defaultEpisodeWords.ofWords s, ∀ h ∈ hs, MarkedBy 9 (NumeralAfterOf E s) h := by
  intro hs hhs h hh a b hl
  obtain ⟨l, hll, rfl⟩ := List.mem_map.1 hhs
  obtain ⟨hmem, hvalid⟩ := List.mem_filter.1 (mem_trimmed hh)
  obtain ⟨p, hp, hi, hm⟩ := marked_chains_of l hll h hmem
  simp only [List.mem_cons, List.not_mem_nil, or_false] at hp
  have hin := (matchAt_in hm hi).lookup hl
  rcases hp with rfl | rfl | rfl
  · obtain ⟨x, y, _, _, _, _, hc⟩ := seasonWord_inv hE hm
    rw [hc] at hl
    simp [List.lookup] at hl
  · obtain ⟨x, y, h1, h2, h3, h4, hc⟩ := ofCount_inv hE hm
    rw [hc] at hl
    simp only [List.lookup_cons_self, Option.some.injEq, Prod.mk.injEq] at hl
    obtain ⟨rfl, rfl⟩ := hl
    refine ⟨_, ⟨x, h1, h2⟩, h3, h4, (validRoman_iff hE hC hP h4 h3).1 ?_⟩
    have := List.all_eq_true.1 hvalid 9 (by simp)
    rw [hc] at this
    exact this
  · have := hin.1
    simp [RxEnv.nextSeason, Re.cat, Re.groupNos, words_nos, RxEnv.digits, RxEnv.digit, dashRe, Re.opt] at this

theorem plainCount_reads (hE : Usual E) {V : Type} {give : V → MVal} {format : Str → Str → Except PyErr V}
    (h : ∀ t k, pyInt E.u t = .ok k → formatted give format c!"count" t = .int k) : Reads (CountWritten E s) (DigitsAfterOf E s) s (formatted give format c!"count") := by
  intro a b hab
  obtain ⟨h1, k, h2, h3⟩ := digits_count hE hab
  exact ⟨h1, k, h2, h _ _ h3⟩

theorem wordCount_reads (hE : Usual E) (hC : Cased E.u) (hP : PlainCase E s) : Reads (CountWritten E s) (NumeralAfterOf E s) s (wordNumber E c!"count") := by
  intro a b hab
  obtain ⟨h1, k, h2, h3⟩ := numeral_count hE hC hP hab
  refine ⟨h1, k, h2, ?_⟩
  have e2 : [c!"season", c!"count"].contains c!"count" = true := by decide
  have e3 : parseNumeral E.u (textOf s a b) true true true true = .ok k := h3
  simp only [wordNumber, e2, if_true, formatted, e3]

variable {W : Int → Prop} {n : Str}

/-- The names a count gets in the end are not given by the declarations. -/
theorem episodes_unnamed (hn : n = c!"episode_count" ∨ n = c!"season_count") :
    ∀ d ∈ episodesDeclared E, ∀ g fs, d.found g s = .ok fs → ∀ F ∈ fs, F.TellsV W n s := by
  intro d hd g fs hf
  simp only [episodesDeclared, List.mem_cons, List.not_mem_nil, or_false] at hd
  have htal : n ∈ tallyNames := by rcases hn with rfl | rfl <;> decide
  have hch : (chainGroups.all fun x => !(x.2 == n)) = true := by rcases hn with rfl | rfl <;> rfl
  have hnil : (([] : Str) == n) = false := by rcases hn with rfl | rfl <;> rfl
  have hlong : (c!"weak_episode" == n) = false := by rcases hn with rfl | rfl <;> rfl
  have hdup : (c!"weak_duplicate" == n) = false := by rcases hn with rfl | rfl <;> rfl
  rcases hd with rfl | rfl | rfl | rfl | rfl | rfl | rfl | rfl | rfl | rfl | rfl | rfl | rfl | rfl | rfl | rfl | rfl | rfl | rfl | rfl <;> cases hf
  · exact chain_without hch hnil
  · exact chain_without hch hnil
  · exact chain_without hch hnil
  · exact chain_without hch hnil
  · exact fun F hF => (flatMap_cleared (fun w hw => str_cleared rfl) F hF).tells htal
  · exact chain_without hch hnil
  · exact rx_without (by rcases hn with rfl | rfl <;> rfl)
  · exact rx_without (by rcases hn with rfl | rfl <;> rfl)
  · exact rx_without (by rcases hn with rfl | rfl <;> rfl)
  · exact chain_without hch hnil
  · exact chain_without hch hnil
  · exact chain_without hch hlong
  · exact chain_without hch hnil
  · exact chain_without hch hnil
  · exact chain_without hch hnil
  · exact chain_without hch hnil
  · exact chain_without hch hdup
  · exact rx_without (by rcases hn with rfl | rfl <;> rfl)
  · refine strippedRoot_tells (rx_without (by rcases hn with rfl | rfl <;> rfl)) fun F hF hname => ?_
    simp only [RxPattern.families, List.mem_map] at hF
    obtain ⟨x, _, rfl⟩ := hF
    cases hname
  · exact rx_without (by rcases hn with rfl | rfl <;> rfl)

theorem episodes_count (hE : Usual E) (hC : Cased E.u) (hP : PlainCase E s) :
    ∀ d ∈ episodesDeclared E, ∀ g fs, d.found g s = .ok fs → ∀ F ∈ fs, F.TellsV (CountWritten E s) c!"count" s := by
  intro d hd g fs hf
  simp only [episodesDeclared, List.mem_cons, List.not_mem_nil, or_false] at hd
  have h9 : ∀ x ∈ chainGroups, x.2 = c!"count" → x.1 = 9 := by decide
  have hno : ∀ v, Reads (CountWritten E s) (fun _ _ => False) s v := fun _ _ _ h => h.elim
  rcases hd with rfl | rfl | rfl | rfl | rfl | rfl | rfl | rfl | rfl | rfl | rfl | rfl | rfl | rfl | rfl | rfl | rfl | rfl | rfl | rfl <;> cases hf
  · exact marked_chain h9 (hno _) rfl (by decide) kept_uncounted
  · exact marked_chain h9 (hno _) rfl (by decide) kept_uncounted
  · exact marked_chain h9 (hno _) rfl (by decide) kept_uncounted
  · exact marked_chain h9 (hno _) rfl (by decide) kept_uncounted
  · exact fun F hF => (flatMap_cleared (fun w hw => str_cleared rfl) F hF).tells (by decide)
  · exact marked_chain h9 (wordCount_reads hE hC hP) rfl (by decide) (worded_counts hE hC hP)
  · exact marked_rx rfl rfl (episodeWord_counts (by simp [RxEnv.digits, RxEnv.digit, Re.groupNos])) (plainCount_reads hE fun t k h => by
      simp [formatted, wordedEpisode, wordedGive, markedPattern, wordedPattern, h, Except.map])
  · exact marked_rx rfl rfl (episodeWord_counts (numeral_unnumbered 9)) (plainCount_reads hE fun t k h => by
      simp [formatted, numeralEpisode, wordedGive, markedPattern, numeralPattern, h, Except.map])
  · exact rx_without rfl
  · exact marked_chain h9 (hno _) rfl (by decide) kept_uncounted
  · exact marked_chain h9 (hno _) rfl (by decide) loose_uncounted
  · exact marked_chain h9 (hno _) rfl (by decide) kept_uncounted
  · exact marked_chain h9 (hno _) rfl (by decide) kept_uncounted
  · exact marked_chain h9 (hno _) rfl (by decide) kept_uncounted
  · exact marked_chain h9 (hno _) rfl (by decide) loose_uncounted
  · exact marked_chain h9 (hno _) rfl (by decide) loose_uncounted
  · exact marked_chain h9 (hno _) rfl (by decide) kept_uncounted
  · exact rx_without rfl
  · refine strippedRoot_tells (marked_rx rfl rfl detached_counts (plainCount_reads hE fun t k h => by
      simp [formatted, detachedPattern, h])) fun F hF hname => ?_
    simp only [RxPattern.families, List.mem_map] at hF
    obtain ⟨x, _, rfl⟩ := hF
    cases hname
  · exact rx_without rfl

end

variable {O : Outside} {s : Str}

/-- The names of counts. -/
def countNames : List Str := [c!"count", c!"episode_count", c!"season_count"]

theorem count_quiet : Quiet countNames fun _ k => CountWritten O.rx s k := by
  refine ⟨by decide +kernel, fun d hd k hk h => Or.inl ?_, fun h => absurd h (by decide), fun h => absurd h (by decide)⟩
  have := (by decide +kernel : ∀ d ∈ allRules, ∀ k ∈ Guessit.births d.cls, k.into ∈ countNames → k.root = .named c!"count") d hd k hk h
  exact ⟨_, List.mem_cons_self, this, fun _ h => h⟩

/-- C164 for the program. -/
theorem C164_program (O : Outside) (base : RuleEnv) (hl : ∀ t, base.uni.lower t = [] ↔ t = []) (g : Dict) (s : Str) (hs : Spec.Numbered O s) (s' : Ms)
    (h : program O base g s = .ok s') : ∀ m ∈ s'.live, ∀ n ∈ countNames, m.name = some n → ∃ k, CountWritten O.rx s k ∧ m.value s = .int k := by
  obtain ⟨gs, hg, h⟩ := program_starts h
  have hall := C162_engine (count_quiet (O := O) (s := s)) _ (program_natural hl hg) g (beginning g gs s) s'
    (marked_early (context := g) (by decide) rfl (grown_ids hg) fun m hm => ⟨(grown_raw hg m hm).1, (grown_raw hg m hm).2.1⟩)
    (fun m hm _ => grown_tallies (by decide) (fun n hn => by
      simp only [countNames, List.mem_cons, List.not_mem_nil, or_false] at hn
      rcases hn with rfl | rfl | rfl <;> exact rx_without rfl) (fun n hn => by
      simp only [countNames, List.mem_cons, List.not_mem_nil, or_false] at hn
      rcases hn with rfl | hn
      · exact episodes_count hs.usual hs.cased hs.plain
      · exact episodes_unnamed hn) hg m hm) h
  exact fun m hm n hn hname => (hall m hm n hn hname).2

end Guessit
