import Verif.Props.ProgramCounts
import Verif.Spec.SeasonNumbers
import Verif.Props.Numbers

/-! # Numbers of seasons, and years: what the declarations give, and the program (C165) -/

namespace Guessit
open Spec Re

section
variable {E : RxEnv} {s : Str}

/-- Digits. -/
def DigitsAt (E : RxEnv) (s : Str) (a b : Nat) : Prop := a < b ∧ AllOf s (Digit E) a b

/-- Digits, or what the expression for numerals takes and stands between separators. -/
def NumeralThere (E : RxEnv) (s : Str) (a b : Nat) : Prop := DigitsAt E s a b ∨ (a < b ∧ Takes E s a b ∧ (AllOf s (Digit E) a b ∨ Standing s a b))

theorem BetweenWritten_one {n : Nat} (h : NumberSomewhere E s n) : BetweenWritten E s n := ⟨n, n, h, h, by omega, by omega⟩

theorem digits_season (hE : Usual E) {a b : Nat} (h : DigitsAt E s a b) :
    Smooth (textOf s a b) ∧ ∃ k : Int, SeasonOrYear E s c!"season" k ∧ pyInt E.u (textOf s a b) = .ok k := by
  have hn : Number E s a b (digitsValue E.u (textOf s a b)) := ⟨h.1, h.2, rfl⟩
  exact ⟨smooth_number hE hn, _, ⟨BetweenWritten_one ⟨a, b, Or.inl hn⟩, fun h => absurd h (by decide)⟩, number_pyInt hE hn⟩

theorem marks_grp {n : Nat} {Q : Nat → Nat → Prop} {r : Re} (hn : n ∉ r.groupNos)
    (h : ∀ i j c c', (j, c') ∈ r.exec s i c → i ≤ s.length → Q i j) : (Re.grp n r).Marks s n Q := by
  intro i j c c' he hi a b hab
  obtain ⟨c1, h1, rfl⟩ := mem_grp.1 he
  rcases List.mem_cons.1 hab with hab | hab
  · cases hab
    exact Or.inr (h _ _ _ _ h1 hi)
  · rcases (exec_within r h1 hi).2.2 _ hab with h' | ⟨h', _⟩
    · exact Or.inl h'
    · exact absurd h' hn

theorem digits_marks : (Re.grp 1 E.digits).Marks s 1 (DigitsAt E s) :=
  marks_grp (by simp [RxEnv.digits, RxEnv.digit, Re.groupNos]) fun _ _ _ _ h _ => (mem_number.1 h).2

theorem bounded_marks {m M : Nat} (hm : 1 ≤ m) : (Re.grp 1 (digitsRe E.u m M)).Marks s 1 (DigitsAt E s) := by
  refine marks_grp (by simp [digitsRe, Re.groupNos]) fun i j c c' h _ => ?_
  unfold digitsRe at h
  rw [mem_rep_chr_bounded] at h
  obtain ⟨rfl, h1, h2, h3⟩ := h
  exact ⟨by omega, (allIn_iff (P := Digit E) (fun _ => Iff.rfl)).1 h3⟩

theorem marks_free {r : Re} (h : 1 ∉ r.groupNos) : r.Marks s 1 (DigitsAt E s) := marks_none h

theorem word_free {n : Nat} {w : Str} (h : n ≠ 1) : (Re.grp n (E.word w)).Marks s 1 (DigitsAt E s) :=
  marks_free (by simp [Re.groupNos, word_nos, Ne.symm h])
theorem words_free {n : Nat} {ws : List Str} (h : n ≠ 1) : (Re.grp n (E.words ws)).Marks s 1 (DigitsAt E s) :=
  marks_free (by simp [Re.groupNos, words_nos, Ne.symm h])
theorem dash_free : dashRe.Marks s 1 (DigitsAt E s) := marks_free (by simp [dashRe, Re.opt, Re.groupNos])
theorem two_free {r : Re} (h : r.groupNos = []) : (Re.grp 2 r).Marks s 1 (DigitsAt E s) := marks_free (by simp [Re.groupNos, h])

theorem seasonOnly_seasons {C : EpisodeConfig} : (E.seasonOnly C).Marks s 1 (DigitsAt E s) := by
  refine marks_cat fun r hr => ?_
  simp only [List.mem_cons, List.not_mem_nil, or_false] at hr
  rcases hr with rfl | rfl
  · exact words_free (by decide)
  · exact digits_marks

theorem moreSeasons_seasons {ws : List Str} : (E.moreSeasons ws).Marks s 1 (DigitsAt E s) := by
  refine marks_cat fun r hr => ?_
  simp only [List.mem_cons, List.not_mem_nil, or_false] at hr
  rcases hr with rfl | rfl
  · exact words_free (by decide)
  · exact digits_marks

theorem crossed_seasons {C : EpisodeConfig} : (E.crossed C).Marks s 1 (DigitsAt E s) := by
  refine marks_cat fun r hr => ?_
  simp only [List.mem_cons, List.not_mem_nil, or_false] at hr
  rcases hr with rfl | rfl | rfl | rfl | rfl
  · exact digits_marks
  · exact dash_free
  · exact words_free (by decide)
  · exact dash_free
  · exact two_free rfl

theorem seasonEpisode_seasons {C : EpisodeConfig} : (E.seasonEpisode C).Marks s 1 (DigitsAt E s) := by
  refine marks_cat fun r hr => ?_
  simp only [List.mem_cons, List.not_mem_nil, or_false] at hr
  rcases hr with rfl | rfl | rfl | rfl | rfl | rfl
  · exact words_free (by decide)
  · exact digits_marks
  · exact dash_free
  · exact words_free (by decide)
  · exact dash_free
  · exact two_free rfl

theorem moreEpisodes_seasons {ws : List Str} : (E.moreEpisodes ws).Marks s 1 (DigitsAt E s) :=
  marks_free (by simp [RxEnv.moreEpisodes, Re.groupNos, Re.cat, words_nos, RxEnv.digits, RxEnv.digit])

theorem first_seasons : ∀ k : Numbering, (k.firstRe E).Marks s 1 (DigitsAt E s)
  | .marked => by
    refine marks_cat fun r hr => ?_
    simp only [List.mem_cons, List.not_mem_nil, or_false] at hr
    rcases hr with rfl | rfl | rfl
    · exact marks_rep (bounded_marks (by decide)) _ _
    · exact word_free (by decide)
    · exact two_free rfl
  | .duplicate => marks_seq (bounded_marks (by decide)) (two_free rfl)
  | .two => two_free rfl
  | .long => two_free rfl
  | .one => two_free rfl

theorem kept_seasons {C : EpisodeConfig} {k : EpisodeChain} : ∀ hs ∈ k.kept E C s, ∀ h ∈ hs, MarkedBy 1 (DigitsAt E s) h := by
  intro hs hhs h hh
  refine (kept_hitOf hs hhs h hh).marked fun p hp => ?_
  cases k <;> simp only [EpisodeChain.first, EpisodeChain.rest, List.mem_cons, List.not_mem_nil, or_false] at hp
  · rcases hp with rfl | rfl
    · exact seasonEpisode_seasons
    · exact moreEpisodes_seasons
  · subst hp
    exact crossed_seasons
  · rcases hp with rfl | rfl
    · exact crossed_seasons
    · exact moreEpisodes_seasons
  · rcases hp with rfl | rfl | rfl
    · exact seasonOnly_seasons
    · exact word_free (by decide)
    · exact moreSeasons_seasons
  · rcases hp with rfl | rfl | rfl
    · exact first_seasons _
    · exact marks_none (version_nos (by decide))
    · exact marks_free (by simp [Numbering.moreRe, Re.groupNos, words_nos, digitsRe])

theorem loose_seasons {C : EpisodeConfig} {k : LooseChain} : ∀ hs ∈ k.kept E C s, ∀ h ∈ hs, MarkedBy 1 (DigitsAt E s) h := by
  intro hs hhs h hh
  refine (loose_hitOf hs hhs h hh).marked fun p hp => ?_
  have hmore : ∀ k : LooseChain, (k.moreRe E).Marks s 1 (DigitsAt E s) := by
    intro k
    cases k with
    | cap =>
      refine marks_cat fun r hr => ?_
      simp only [List.mem_cons, List.not_mem_nil, or_false] at hr
      rcases hr with rfl | rfl | rfl
      · exact marks_free (by simp [Re.groupNos])
      · exact bounded_marks (by decide)
      · exact two_free rfl
    | _ => exact marks_free (by simp [LooseChain.moreRe, Re.groupNos, Re.cat, words_nos, digitsRe])
  have hfirst : (k.firstRe E).Marks s 1 (DigitsAt E s) := by
    cases k with
    | cap =>
      refine marks_cat fun r hr => ?_
      simp only [List.mem_cons, List.not_mem_nil, or_false] at hr
      rcases hr with rfl | rfl | rfl | rfl
      · exact word_free (by decide)
      · exact dash_free
      · exact bounded_marks (by decide)
      · exact two_free rfl
    | _ => exact marks_free (by simp [LooseChain.firstRe, Re.groupNos, Re.cat, word_nos, digitsRe, dashRe, Re.opt])
  rcases List.mem_cons.1 hp with rfl | hp
  · exact hfirst
  · cases k <;> simp only [LooseChain.rest, List.mem_cons, List.not_mem_nil, or_false] at hp
    · rcases hp with rfl | rfl
      · exact marks_none (version_nos (by decide))
      · exact hmore .zero
    · rcases hp with rfl | rfl
      · exact marks_none (version_nos (by decide))
      · exact hmore .ep
    · rcases hp with rfl
      exact hmore .cap

theorem worded_seasons (hE : Usual E) (hL : Literal E) (hC : Cased E.u) (hP : PlainCase E s) :
    ∀ hs ∈ wordedKept E defaultEpisodes seasonWords defaultEpisodeWords.ofWords s, ∀ h ∈ hs, MarkedBy 1 (NumeralThere E s) h := by
  intro hs hhs h hh a b hl
  obtain ⟨l, hll, rfl⟩ := List.mem_map.1 hhs
  obtain ⟨hmem, hvalid⟩ := List.mem_filter.1 (mem_trimmed hh)
  obtain ⟨p, hp, hi, hm⟩ := marked_chains_of l hll h hmem
  simp only [List.mem_cons, List.not_mem_nil, or_false] at hp
  rcases hp with rfl | rfl | rfl
  · obtain ⟨x, y, h1, h2, h3, h4, hc⟩ := seasonWord_inv hE hm
    rw [hc] at hl
    simp only [List.lookup_cons_self, Option.some.injEq, Prod.mk.injEq] at hl
    obtain ⟨rfl, rfl⟩ := hl
    refine Or.inr ⟨h3, h4, (validRoman_iff hE hC hP h4 h3).1 ?_⟩
    have := List.all_eq_true.1 hvalid 1 (by simp)
    rw [hc] at this
    exact this
  · obtain ⟨x, y, h1, h2, h3, h4, hc⟩ := ofCount_inv hE hm
    rw [hc] at hl
    simp [List.lookup] at hl
  · obtain ⟨x, y, d, h1, hc⟩ := mem_nextSeason hL (matchAt_mem hm)
    rw [hc] at hl
    simp only [List.lookup_cons_self, Option.some.injEq, Prod.mk.injEq] at hl
    obtain ⟨rfl, rfl⟩ := hl
    exact Or.inl h1.number

theorem all_seasons : (allPattern E defaultEpisodeWords).re.Marks s 1 (DigitsAt E s) := by
  refine marks_cat fun r hr => ?_
  simp only [List.mem_cons, List.not_mem_nil, or_false] at hr
  rcases hr with rfl | rfl | rfl | rfl | rfl | rfl
  · exact marks_free (by simp [RxEnv.letter, Re.opt, Re.groupNos])
  · exact digits_marks
  · exact dash_free
  · exact marks_free (by simp [words_nos])
  · exact dash_free
  · exact words_free (by decide)

theorem plainSeason_reads (hE : Usual E) : Reads (SeasonOrYear E s c!"season") (DigitsAt E s) s (plainNumber E c!"season") := by
  intro a b h
  obtain ⟨h1, k, h2, h3⟩ := digits_season hE h
  have e1 : c!"season" ≠ c!"other" := by decide
  have e2 : [c!"season", c!"episode", c!"version", c!"count"].contains c!"season" = true := by decide
  exact ⟨h1, k, h2, by simp only [plainNumber, if_neg e1, e2, if_true, formatted, h3]⟩

theorem rxSeason_reads (hE : Usual E) {V : Type} {give : V → MVal} {format : Str → Str → Except PyErr V}
    (h : ∀ t k, pyInt E.u t = .ok k → formatted give format c!"season" t = .int k) :
    Reads (SeasonOrYear E s c!"season") (DigitsAt E s) s (formatted give format c!"season") := by
  intro a b hab
  obtain ⟨h1, k, h2, h3⟩ := digits_season hE hab
  exact ⟨h1, k, h2, h _ _ h3⟩

theorem wordSeason_reads (hE : Usual E) (hC : Cased E.u) (hP : PlainCase E s) :
    Reads (SeasonOrYear E s c!"season") (NumeralThere E s) s (wordNumber E c!"season") := by
  intro a b hab
  have e2 : [c!"season", c!"count"].contains c!"season" = true := by decide
  rcases hab with hab | ⟨h1, h2, h3⟩
  · have hn : Number E s a b (digitsValue E.u (textOf s a b)) := ⟨hab.1, hab.2, rfl⟩
    have e3 : parseNumeral E.u (textOf s a b) true true true true = .ok _ := digits_worded hE hab
    exact ⟨smooth_number hE hn, _, ⟨BetweenWritten_one ⟨a, b, Or.inl hn⟩, fun h => absurd h (by decide)⟩, by simp only [wordNumber, e2, if_true, formatted, e3]⟩
  · obtain ⟨n, h4, h5, _⟩ := takes_reads hE hC hP h2 h1
    have e3 : parseNumeral E.u (textOf s a b) true true true true = .ok (n : Int) := h5
    exact ⟨smooth_nosep h1 (takes_nosep hE hP h2), n, ⟨BetweenWritten_one ⟨a, b, Or.inr ⟨h4, h3⟩⟩, fun h => absurd h (by decide)⟩,
      by simp only [wordNumber, e2, if_true, formatted, e3]⟩

theorem episodes_season (hE : Usual E) (hL : Literal E) (hC : Cased E.u) (hP : PlainCase E s) :
    ∀ d ∈ episodesDeclared E, ∀ g fs, d.found g s = .ok fs → ∀ F ∈ fs, F.TellsV (SeasonOrYear E s c!"season") c!"season" s := by
  intro d hd g fs hf
  simp only [episodesDeclared, List.mem_cons, List.not_mem_nil, or_false] at hd
  have h1 : ∀ x ∈ chainGroups, x.2 = c!"season" → x.1 = 1 := by decide
  have hp := plainSeason_reads (s := s) hE
  rcases hd with rfl | rfl | rfl | rfl | rfl | rfl | rfl | rfl | rfl | rfl | rfl | rfl | rfl | rfl | rfl | rfl | rfl | rfl | rfl | rfl <;> cases hf
  · exact marked_chain h1 hp rfl (by decide) kept_seasons
  · exact marked_chain h1 hp rfl (by decide) kept_seasons
  · exact marked_chain h1 hp rfl (by decide) kept_seasons
  · exact marked_chain h1 hp rfl (by decide) kept_seasons
  · exact fun F hF => (flatMap_cleared (fun w hw => str_cleared rfl) F hF).tells (by decide)
  · exact marked_chain h1 (wordSeason_reads hE hC hP) rfl (by decide) (worded_seasons hE hL hC hP)
  · exact rx_without rfl
  · exact rx_without rfl
  · exact marked_rx rfl rfl all_seasons (rxSeason_reads hE fun t k h => by
      have e1 : c!"season" ≠ c!"other" := by decide
      simp [formatted, allPattern, h, Except.map, e1])
  · exact marked_chain h1 hp rfl (by decide) kept_seasons
  · exact marked_chain h1 hp rfl (by decide) loose_seasons
  · exact marked_chain h1 hp rfl (by decide) kept_seasons
  · exact marked_chain h1 hp rfl (by decide) kept_seasons
  · exact marked_chain h1 hp rfl (by decide) kept_seasons
  · exact marked_chain h1 hp rfl (by decide) loose_seasons
  · exact marked_chain h1 hp rfl (by decide) loose_seasons
  · exact marked_chain h1 hp rfl (by decide) kept_seasons
  · exact rx_without rfl
  · refine strippedRoot_tells (rx_without rfl) fun F hF hname => ?_
    simp only [RxPattern.families, List.mem_map] at hF
    obtain ⟨x, _, rfl⟩ := hF
    cases hname
  · exact rx_without rfl

theorem episodes_unyeared : ∀ d ∈ episodesDeclared E, ∀ g fs, d.found g s = .ok fs → ∀ F ∈ fs, F.TellsV (SeasonOrYear E s c!"year") c!"year" s := by
  intro d hd g fs hf
  simp only [episodesDeclared, List.mem_cons, List.not_mem_nil, or_false] at hd
  rcases hd with rfl | rfl | rfl | rfl | rfl | rfl | rfl | rfl | rfl | rfl | rfl | rfl | rfl | rfl | rfl | rfl | rfl | rfl | rfl | rfl <;> cases hf
  · exact chain_without rfl rfl
  · exact chain_without rfl rfl
  · exact chain_without rfl rfl
  · exact chain_without rfl rfl
  · exact fun F hF => (flatMap_cleared (fun w hw => str_cleared rfl) F hF).tells (by decide)
  · exact chain_without rfl rfl
  · exact rx_without rfl
  · exact rx_without rfl
  · exact rx_without rfl
  · exact chain_without rfl rfl
  · exact chain_without rfl rfl
  · exact chain_without rfl rfl
  · exact chain_without rfl rfl
  · exact chain_without rfl rfl
  · exact chain_without rfl rfl
  · exact chain_without rfl rfl
  · exact chain_without rfl rfl
  · exact rx_without rfl
  · refine strippedRoot_tells (rx_without rfl) fun F hF hname => ?_
    simp only [RxPattern.families, List.mem_map] at hF
    obtain ⟨x, _, rfl⟩ := hF
    cases hname
  · exact rx_without rfl

/-- What is reported for years. -/
theorem years_tell (hE : Usual E) : ∀ F ∈ (yearPattern E).families MVal.int { solver := some .year } s, F.TellsV (SeasonOrYear E s c!"year") c!"year" s := by
  intro F hF
  simp only [RxPattern.families, RxPattern.foundWithin, List.map_map, List.mem_map, Function.comp] at hF
  obtain ⟨h, hh, rfl⟩ := hF
  have hfound : (yearPattern E).parent s h ∈ (yearPattern E).found s := by
    unfold RxPattern.found
    refine List.mem_flatMap.2 ⟨h, hh, ?_⟩
    simp [yearPattern]
  obtain ⟨_, _, _, n, hn, h1, h2, hv⟩ := (C114_exact E hE s _).1 hfound
  intro b hb _ hname
  simp only [RxPattern.kids, yearPattern, List.filterMap_nil, List.map_nil, List.mem_singleton] at hb
  subst hb
  refine ⟨rfl, smooth_number hE hn, n, ⟨BetweenWritten_one ⟨_, _, Or.inl hn⟩, fun _ => by omega⟩, ?_⟩
  have hv' : pyInt E.u (textOf s h.start h.stop) = .ok (n : Int) := hv
  show formatted MVal.int (fun _ => pyInt E.u) c!"year" (textOf s h.start h.stop) = .int n
  simp only [formatted, hv']

theorem seasons_unyeared : ∀ F ∈ (yearPattern E).families MVal.int { solver := some .year } s, F.TellsV (SeasonOrYear E s c!"season") c!"season" s := rx_without rfl

end

variable {O : Outside} {s : Str}

/-- The two names. -/
def datedNames : List Str := [c!"season", c!"year"]

theorem season_quiet : Quiet datedNames fun n k => SeasonOrYear O.rx s n k := by
  refine ⟨by decide +kernel, fun d hd k hk h => ?_, fun _ a b j ha hb h1 h2 => ?_, fun _ k hk hv => ?_⟩
  · rcases (by decide +kernel : ∀ d ∈ allRules, ∀ k ∈ Guessit.births d.cls, k.into ∈ datedNames →
        (k.root = .named c!"year" ∧ k.into = c!"season") ∨ (d.cls = .SeasonSeparatorRange ∧ k.into = c!"season" ∨ d.cls = .SeasonYear ∧ k.into = c!"year")) d hd k hk h with
      ⟨h1, h2⟩ | h1
    · refine Or.inl ⟨_, by decide, h1, fun j hj => ⟨hj.1, fun hh => ?_⟩⟩
      rw [h2] at hh
      exact absurd hh (by decide)
    · exact Or.inr ⟨by decide, h1⟩
  · obtain ⟨⟨lo, _, h3, _, h4, _⟩, _⟩ := ha
    obtain ⟨⟨_, hi, _, h5, _, h6⟩, _⟩ := hb
    exact ⟨⟨⟨lo, hi, h3, h5, by omega, by omega⟩, fun h => absurd h (by decide)⟩, by omega⟩
  · refine ⟨hk.1, fun _ => ?_⟩
    unfold validYear at hv
    simpa using hv

/-- C165 for the program. -/
theorem C165_program (O : Outside) (base : RuleEnv) (hl : ∀ t, base.uni.lower t = [] ↔ t = []) (g : Dict) (s : Str) (hs : Spec.Numbered O s) (hL : Literal O.rx) (s' : Ms)
    (h : program O base g s = .ok s') : ∀ m ∈ s'.live, ∀ n ∈ datedNames, m.name = some n → ∃ k, SeasonOrYear O.rx s n k ∧ m.value s = .int k := by
  obtain ⟨gs, hg, h⟩ := program_starts h
  have hall := C162_engine (season_quiet (O := O) (s := s)) _ (program_natural hl hg) g (beginning g gs s) s'
    (marked_early (context := g) (by decide) rfl (grown_ids hg) fun m hm => ⟨(grown_raw hg m hm).1, (grown_raw hg m hm).2.1⟩)
    (fun m hm _ => grown_tallies (by decide) (fun n hn => by
      simp only [datedNames, List.mem_cons, List.not_mem_nil, or_false] at hn
      rcases hn with rfl | rfl
      · exact seasons_unyeared
      · exact years_tell hs.usual) (fun n hn => by
      simp only [datedNames, List.mem_cons, List.not_mem_nil, or_false] at hn
      rcases hn with rfl | rfl
      · exact episodes_season hs.usual hL hs.cased hs.plain
      · exact episodes_unyeared) hg m hm) h
  exact fun m hm n hn hname => (hall m hm n hn hname).2

end Guessit
