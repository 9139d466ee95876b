import Verif.Props.ProgramClear
import Verif.Props.ProgramNumbers
import Verif.Proofs.Marks
import Verif.Props.NumberingFound

/-! # Versions: what the declarations give, and the program (C163) -/

namespace Guessit
open Spec Re

section
variable {E : RxEnv} {s : Str}

/-- A text that follows a `v` and is a number. -/
def AfterV (E : RxEnv) (s : Str) (a b : Nat) : Prop := ∃ i, a = i + 1 ∧ VersionAt E s i b

theorem marks_version : E.versionRe.Marks s 8 (AfterV E s) := by
  intro i j c c' he hi a b hab
  obtain ⟨h1, rfl⟩ := mem_version.1 he
  rcases List.mem_cons.1 hab with h | h
  · cases h
    exact Or.inr ⟨i, rfl, h1⟩
  · exact Or.inl h

theorem version_int (hE : Usual E) {a b : Nat} (h : AfterV E s a b) : Smooth (textOf s a b) ∧ ∃ k : Int, VersionWritten E s k ∧ pyInt E.u (textOf s a b) = .ok k := by
  obtain ⟨i, rfl, h⟩ := h
  have hn : Number E s (i + 1) b (digitsValue E.u (textOf s (i + 1) b)) := ⟨h.2.1, h.2.2, rfl⟩
  exact ⟨smooth_number hE hn, _, ⟨i, b, _, rfl, h, hn⟩, number_pyInt hE hn⟩

/-- What is reported under the name is a number, as that is written. -/
def Bud.TellsV (W : Int → Prop) (name : Str) (s : Str) (b : Bud) : Prop := b.live = true → b.name = some name →
  b.val = none ∧ Smooth (textOf s b.start b.stop) ∧ ∃ k, W k ∧ b.fmt (textOf s b.start b.stop) = .int k

def Family.TellsV (W : Int → Prop) (name : Str) (s : Str) (F : Family) : Prop := ∀ b ∈ F.root :: F.kids, b.TellsV W name s

/-- What a formatter makes of what the group captures. -/
def Reads (W : Int → Prop) (A : Nat → Nat → Prop) (s : Str) (value : Str → MVal) : Prop := ∀ a b, A a b →
  Smooth (textOf s a b) ∧ ∃ k, W k ∧ value (textOf s a b) = .int k

variable {W : Int → Prop} {A : Nat → Nat → Prop} {n : Str} {no : Nat}

theorem Family.Clear.tells {F : Family} (h : F.Clear) (hn : n ∈ tallyNames) : F.TellsV W n s :=
  fun b hb _ hname => absurd hname (h b hb _ hn)

theorem marked_chain {kept : List (List RxHit)} {value : Str → Str → MVal} {name : Str} {tags extra : List Str}
    (hno : ∀ x ∈ chainGroups, x.2 = n → x.1 = no) (hv : Reads W A s (value n)) (hq : (name == n) = false) (hn : n ≠ [])
    (hk : ∀ hs ∈ kept, ∀ h ∈ hs, MarkedBy no A h) : ∀ F ∈ chainFamilies kept value name tags extra, F.TellsV W n s := by
  intro F hF
  simp only [chainFamilies, List.mem_filterMap] at hF
  obtain ⟨hs, hhs, hm⟩ := hF
  split at hm
  · cases hm
  · cases hm
    intro b hb _ hname
    rcases List.mem_cons.1 hb with rfl | hb
    · have := nameOf_some hname
      rw [this] at hq
      simp at hq
    · obtain ⟨h', hh', hb⟩ := List.mem_flatMap.1 hb
      simp only [hitBuds, List.mem_filterMap] at hb
      obtain ⟨x, hx, hb⟩ := hb
      split at hb
      · rename_i a c hl
        split at hb
        · cases hb
          simp only [Option.some.injEq] at hname
          rw [hno x hx hname] at hl
          obtain ⟨h1, k, h2, h3⟩ := hv a c (hk _ hhs h' hh' a c hl)
          exact ⟨rfl, h1, k, h2, by simp only [hname]; exact h3⟩
        · cases hb
      · cases hb

theorem marked_rx {V : Type} {P : RxPattern V} {give : V → MVal} {st : Style} (hn : (P.name == n) = false)
    (h8 : (P.groups.all fun g => !(g.2 == n) || g.1 == no) = true) (hm : P.re.Marks s no A)
    (hv : Reads W A s (formatted give P.format n)) : ∀ F ∈ P.families give st s, F.TellsV W n s := by
  intro F hF
  simp only [RxPattern.families, List.mem_map] at hF
  obtain ⟨⟨m, ks⟩, hx, rfl⟩ := hF
  simp only [RxPattern.foundWithin, List.mem_map, Prod.mk.injEq] at hx
  obtain ⟨hit, hh, rfl, rfl⟩ := hx
  intro b hb _ hname
  rcases List.mem_cons.1 hb with rfl | hb
  · have := nameOf_some hname
    rw [this] at hn
    simp at hn
  · obtain ⟨k, hk, rfl⟩ := List.mem_map.1 hb
    obtain ⟨x, hx, hl, _, hkn, _⟩ := mem_kids_name hk
    have hnn := (nameOf_some hname).symm
    have h9 : x.1 = no := by
      have := List.all_eq_true.1 h8 x hx
      rw [← hkn, hnn] at this
      simpa using this
    rw [h9] at hl
    obtain ⟨hm1, hm2⟩ := hits_sound (List.mem_filter.1 hh).1
    obtain ⟨h1, v, h2, h3⟩ := hv _ _ (marks_at hm hm1 hm2 hl)
    refine ⟨rfl, h1, v, h2, ?_⟩
    simp only [hnn]
    exact h3

theorem rx_without {V : Type} {P : RxPattern V} {give : V → MVal} {st : Style} (h : ((P.name :: P.groups.map Prod.snd).all fun x => !(x == n)) = true) :
    ∀ F ∈ P.families give st s, F.TellsV W n s := by
  intro F hF
  simp only [RxPattern.families, List.mem_map] at hF
  obtain ⟨⟨m, ks⟩, hx, rfl⟩ := hF
  simp only [RxPattern.foundWithin, List.mem_map, Prod.mk.injEq] at hx
  obtain ⟨hit, hh, rfl, rfl⟩ := hx
  intro b hb _ hname
  rcases List.mem_cons.1 hb with rfl | hb
  · have h1 := List.all_eq_true.1 h _ List.mem_cons_self
    rw [nameOf_some hname] at h1
    simp at h1
  · obtain ⟨k, hk, rfl⟩ := List.mem_map.1 hb
    obtain ⟨x, hx, _, _, hkn, _⟩ := mem_kids_name hk
    have h1 := List.all_eq_true.1 h _ (List.mem_cons_of_mem _ (List.mem_map_of_mem (f := Prod.snd) hx))
    rw [← hkn, ← nameOf_some hname] at h1
    simp at h1

theorem chain_without {kept : List (List RxHit)} {value : Str → Str → MVal} {name : Str} {tags extra : List Str} (h : (chainGroups.all fun x => !(x.2 == n)) = true)
    (hq : (name == n) = false) : ∀ F ∈ chainFamilies kept value name tags extra, F.TellsV W n s := by
  intro F hF
  simp only [chainFamilies, List.mem_filterMap] at hF
  obtain ⟨hs, hhs, hm⟩ := hF
  split at hm
  · cases hm
  · cases hm
    intro b hb _ hname
    rcases List.mem_cons.1 hb with rfl | hb
    · rw [nameOf_some hname] at hq
      simp at hq
    · obtain ⟨h', hh', hb⟩ := List.mem_flatMap.1 hb
      obtain ⟨x, hx, hl, _, hbn, _⟩ := mem_hitBuds hb
      rw [hbn] at hname
      cases hname
      have := List.all_eq_true.1 h x hx
      simp at this

theorem strippedRoot_tells {l : List Family} (h : ∀ F ∈ l, F.TellsV W n s) (hn : ∀ F ∈ l, F.root.name ≠ some n) : ∀ F ∈ l.map (strippedRoot s), F.TellsV W n s := by
  intro F hF
  obtain ⟨F, hF', rfl⟩ := List.mem_map.1 hF
  intro b hb
  rcases List.mem_cons.1 hb with rfl | hb
  · intro _ hname
    exact absurd hname (hn F hF')
  · exact h F hF' b (List.mem_cons_of_mem _ hb)

theorem kept_hitOf {C : EpisodeConfig} {k : EpisodeChain} : ∀ hs ∈ k.kept E C s, ∀ h ∈ hs, HitOf s (k.first E C :: k.rest E C) h := by
  intro hs hhs h hh
  obtain ⟨l, hl, rfl⟩ := List.mem_map.1 hhs
  exact marked_chains_of l hl h (mem_trimmed hh)

theorem loose_hitOf {C : EpisodeConfig} {k : LooseChain} : ∀ hs ∈ k.kept E C s, ∀ h ∈ hs, HitOf s (⟨k.firstRe E, some 1⟩ :: k.rest E) h := by
  intro hs hhs h hh
  obtain ⟨l, hl, rfl⟩ := List.mem_map.1 hhs
  exact marked_chains_of l hl h (mem_trimmed hh)

theorem kept_marked {C : EpisodeConfig} {k : EpisodeChain} : ∀ hs ∈ k.kept E C s, ∀ h ∈ hs, MarkedBy 8 (AfterV E s) h := by
  intro hs hhs h hh
  refine (kept_hitOf hs hhs h hh).marked fun p hp => ?_
  cases k with
  | numbers k =>
    simp only [EpisodeChain.first, EpisodeChain.rest, List.mem_cons, List.not_mem_nil, or_false] at hp
    rcases hp with rfl | rfl | rfl
    · refine marks_none ?_
      cases k <;> simp [Numbering.firstRe, Re.groupNos, Re.cat, Re.opt, word_nos, digitsRe]
    · exact marks_version
    · refine marks_none ?_
      simp [Numbering.moreRe, Re.groupNos, words_nos, digitsRe]
  | _ =>
    simp only [EpisodeChain.first, EpisodeChain.rest, List.mem_cons, List.not_mem_nil, or_false] at hp
    refine marks_none ?_
    try rcases hp with rfl | rfl | rfl
    all_goals try rcases hp with rfl | rfl
    all_goals try rcases hp with rfl
    all_goals simp [RxEnv.seasonEpisode, RxEnv.moreEpisodes, RxEnv.crossed, RxEnv.seasonOnly, RxEnv.extras, RxEnv.moreSeasons, Re.groupNos, Re.cat, words_nos, word_nos,
      RxEnv.digits, RxEnv.digit, dashRe, Re.opt]

theorem loose_marked {C : EpisodeConfig} {k : LooseChain} : ∀ hs ∈ k.kept E C s, ∀ h ∈ hs, MarkedBy 8 (AfterV E s) h := by
  intro hs hhs h hh
  refine (loose_hitOf hs hhs h hh).marked fun p hp => ?_
  have hmore : ∀ k : LooseChain, (k.moreRe E).Marks s 8 (AfterV E s) := by
    intro k
    refine marks_none ?_
    cases k <;> simp [LooseChain.moreRe, Re.groupNos, Re.cat, words_nos, digitsRe]
  have hfirst : (k.firstRe E).Marks s 8 (AfterV E s) := by
    refine marks_none ?_
    cases k <;> simp [LooseChain.firstRe, Re.groupNos, Re.cat, word_nos, digitsRe, dashRe, Re.opt]
  rcases List.mem_cons.1 hp with rfl | hp
  · exact hfirst
  · cases k <;> simp only [LooseChain.rest, List.mem_cons, List.not_mem_nil, or_false] at hp
    · rcases hp with rfl | rfl
      · exact marks_version
      · exact hmore .zero
    · rcases hp with rfl | rfl
      · exact marks_version
      · exact hmore .ep
    · rcases hp with rfl
      exact hmore .cap

theorem numeral_unnumbered (n : Nat) : n ∉ E.numeral.groupNos := by
  have : E.numeral.groupNos = [] := by
    refine alts_nos _ fun r hr => ?_
    simp only [List.mem_cons, List.not_mem_nil, or_false] at hr
    rcases hr with rfl | rfl | rfl
    · rfl
    · rfl
    · first | exact words_nos _ | rfl
  simp [this]

theorem episodeWord_marks {W : EpisodeWords} {number : Re} (h : 8 ∉ number.groupNos) : (episodeWordRe E W number).Marks s 8 (AfterV E s) := by
  refine marks_cat fun r hr => ?_
  simp only [List.mem_cons, List.not_mem_nil, or_false] at hr
  rcases hr with rfl | rfl | rfl | rfl | rfl
  · exact marks_none (by simp [Re.groupNos, words_nos])
  · exact marks_none (by simp [dashRe, Re.opt, Re.groupNos])
  · exact marks_none (by simpa [Re.groupNos] using h)
  · exact marks_rep marks_version _ _
  · exact marks_none (by simp [RxEnv.countRe, Re.cat, dashRe, Re.opt, Re.groupNos, words_nos, RxEnv.digits, RxEnv.digit])

theorem plain_reads (hE : Usual E) : Reads (VersionWritten E s) (AfterV E s) s (plainNumber E c!"version") := by
  intro a b h
  obtain ⟨h1, k, h2, h3⟩ := version_int hE h
  have e1 : c!"version" ≠ c!"other" := by decide
  have e2 : [c!"season", c!"episode", c!"version", c!"count"].contains c!"version" = true := by decide
  exact ⟨h1, k, h2, by simp only [plainNumber, if_neg e1, e2, if_true, formatted, h3]⟩

theorem rx_reads (hE : Usual E) {V : Type} {give : V → MVal} {format : Str → Str → Except PyErr V}
    (h : ∀ t k, pyInt E.u t = .ok k → formatted give format c!"version" t = .int k) : Reads (VersionWritten E s) (AfterV E s) s (formatted give format c!"version") := by
  intro a b hab
  obtain ⟨h1, k, h2, h3⟩ := version_int hE hab
  exact ⟨h1, k, h2, h _ _ h3⟩

theorem episodes_tell (hE : Usual E) : ∀ d ∈ episodesDeclared E, ∀ g fs, d.found g s = .ok fs → ∀ F ∈ fs, F.TellsV (VersionWritten E s) c!"version" s := by
  intro d hd g fs hf
  simp only [episodesDeclared, List.mem_cons, List.not_mem_nil, or_false] at hd
  have h8 : ∀ x ∈ chainGroups, x.2 = c!"version" → x.1 = 8 := by decide
  have hp := plain_reads (s := s) hE
  rcases hd with rfl | rfl | rfl | rfl | rfl | rfl | rfl | rfl | rfl | rfl | rfl | rfl | rfl | rfl | rfl | rfl | rfl | rfl | rfl | rfl <;> cases hf
  · exact marked_chain h8 hp rfl (by decide) kept_marked
  · exact marked_chain h8 hp rfl (by decide) kept_marked
  · exact marked_chain h8 hp rfl (by decide) kept_marked
  · exact marked_chain h8 hp rfl (by decide) kept_marked
  · exact fun F hF => (flatMap_cleared (fun w hw => str_cleared rfl) F hF).tells (by decide)
  · exact marked_chain (no := 8) (A := fun _ _ => False) h8 (fun _ _ h => h.elim) rfl (by decide) fun hs hhs h hh a b hl => by
      have := ((worded_in hs hhs h hh).lookup hl).1
      rw [worded_nos] at this
      simp at this
  · exact marked_rx rfl rfl (episodeWord_marks (by simp [RxEnv.digits, RxEnv.digit, Re.groupNos])) (rx_reads hE fun t k h => by
      simp [formatted, wordedEpisode, wordedGive, markedPattern, wordedPattern, h, Except.map])
  · exact marked_rx rfl rfl (episodeWord_marks (numeral_unnumbered 8)) (rx_reads hE fun t k h => by
      simp [formatted, numeralEpisode, wordedGive, markedPattern, numeralPattern, h, Except.map])
  · exact rx_without rfl
  · exact marked_chain h8 hp rfl (by decide) kept_marked
  · exact marked_chain h8 hp rfl (by decide) loose_marked
  · exact marked_chain h8 hp rfl (by decide) kept_marked
  · exact marked_chain h8 hp rfl (by decide) kept_marked
  · exact marked_chain h8 hp rfl (by decide) kept_marked
  · exact marked_chain h8 hp rfl (by decide) loose_marked
  · exact marked_chain h8 hp rfl (by decide) loose_marked
  · exact marked_chain h8 hp rfl (by decide) kept_marked
  · exact marked_rx rfl rfl marks_version (rx_reads hE fun t k h => by simp [formatted, versionPattern, h])
  · refine strippedRoot_tells (marked_rx (no := 8) (A := fun _ _ => False) rfl rfl (marks_none ?_) fun _ _ h => h.elim) fun F hF hname => ?_
    · simp [detachedPattern, RxEnv.countRe, Re.cat, dashRe, Re.opt, Re.groupNos, words_nos, RxEnv.digits, RxEnv.digit]
    · simp only [RxPattern.families, List.mem_map] at hF
      obtain ⟨x, _, rfl⟩ := hF
      cases hname
  · exact fun F hF => (rx_cleared rfl F hF).tells (by decide)

end

variable {O : Outside} {s : Str}

theorem version_quiet : Quiet [c!"version"] fun _ k => VersionWritten O.rx s k :=
  ⟨by decide +kernel, fun d hd k hk h => absurd h ((by decide +kernel : ∀ d ∈ allRules, ∀ k ∈ Guessit.births d.cls, k.into ∉ [c!"version"]) d hd k hk),
    fun h => absurd h (by decide), fun h => absurd h (by decide)⟩

theorem grown_tallies {W : Str → Int → Prop} {N : List Str} (hN : ∀ n ∈ N, n ∈ tallyNames)
    (hY : ∀ n ∈ N, ∀ F ∈ (yearPattern O.rx).families MVal.int { solver := some .year } s, F.TellsV (W n) n s)
    (hW : ∀ n ∈ N, ∀ d ∈ episodesDeclared O.rx, ∀ g fs, d.found g s = .ok fs → ∀ F ∈ fs, F.TellsV (W n) n s) {g : Dict} {gs : List Grown} (hg : grownOf O g s = .ok gs) :
    ∀ m ∈ reportedBy gs, Counted N W s m := by
  obtain ⟨fs, rfl, hfs⟩ := grownOf_spec hg
  intro m hm n hn hname
  obtain ⟨G, hG, hm⟩ := List.mem_flatMap.1 hm
  obtain ⟨x, hx, _, i, rfl⟩ := mem_growFrom hG
  obtain ⟨d, hd, _, _, l, hl, hF⟩ := hfs x hx
  have hT : x.2.TellsV (W n) n s := by
    rcases all_cleared O d hd with hf | rfl | hf
    · exact (hf g s l hl x.2 hF).tells (hN n hn)
    · cases hl
      exact hY n hn x.2 hF
    · exact hW n hn d hf g l hl x.2 hF
  have key : ∀ b ∈ x.2.root :: x.2.kids, b.live = true → m.name = b.name → m.val = b.val → m.fmt = b.fmt →
      m.raw s = textOf s b.start b.stop → Smooth (m.raw s) ∧ ∃ k, W n k ∧ m.value s = .int k := by
    intro b hb hl h2 h3 h4 h5
    obtain ⟨h6, h7, k, h8, h9⟩ := hT b hb hl (h2 ▸ hname)
    refine ⟨h5 ▸ h7, k, h8, ?_⟩
    unfold Mt.value
    rw [h3, h6, h4, h5]
    exact h9
  rcases mem_grow_live hm with ⟨rfl, hl⟩ | ⟨b, hb, _, hl, i, rfl⟩
  · exact key _ List.mem_cons_self hl rfl rfl rfl rfl
  · exact key b (List.mem_cons_of_mem _ hb) hl rfl rfl rfl rfl

/-- C163 for the program. -/
theorem C163_program (O : Outside) (base : RuleEnv) (hl : ∀ t, base.uni.lower t = [] ↔ t = []) (g : Dict) (s : Str) (hE : Usual O.rx) (s' : Ms)
    (h : program O base g s = .ok s') : ∀ m ∈ s'.live, m.name = some c!"version" → ∃ k, VersionWritten O.rx s k ∧ m.value s = .int k := by
  obtain ⟨gs, hg, h⟩ := program_starts h
  have hall := C162_engine (version_quiet (O := O) (s := s)) _ (program_natural hl hg) g (beginning g gs s) s'
    (marked_early (context := g) (by decide) rfl (grown_ids hg) fun m hm => ⟨(grown_raw hg m hm).1, (grown_raw hg m hm).2.1⟩) (fun m hm _ => grown_tallies (by decide) (fun n hn => by
      rw [List.mem_singleton] at hn
      subst hn
      exact rx_without rfl) (fun n hn => by
      rw [List.mem_singleton] at hn
      subst hn
      exact episodes_tell hE) hg m hm) h
  exact fun m hm hname => (hall m hm _ (List.mem_singleton_self _) hname).2

end Guessit
