import Verif.Props.EnginePlaceAfter

/-! # C152: what is reported is somewhere in the name -/

namespace Guessit
open Spec

/-- What the rules need of the environment for an input: while the matches are stretches of the input, what belongs to a screen size or to
a marked episode is a non-empty one; lowering the empty text leaves it empty. -/
structure Inside (e : RuleEnv) (input : Str) : Prop where
  sizes : ∀ s m c, s.input = input → Held input s.live → m ∈ s.live → m.name = some c!"screen_size" → c ∈ (e.kin s).children m → Placed input c
  marked : ∀ s m c, s.input = input → Held input s.live → m ∈ s.live → m.name = some c!"episodeMarker" →
    c ∈ (e.kin s).children ((e.kin s).initiator m) → Placed input c
  lower : e.title.lower [] = []

/-- The markers: stretches of the input; a group has no value but its text, opens with a separator and closes with one. -/
structure Marked (s : Ms) : Prop where
  wf : WellFormed s.input s.markers
  plain : PlainGroups s
  ends : EndsInSeps s

theorem place_drop {s : Ms} {ms : List Mt} (hw : Held s.input s.live) : Held s.input (dropping s ms).live :=
  held_sub hw fun _ hm => removeAll_subset hm

theorem placeOk {s s' t : Ms} (h : Held s.input t.live) (he : (Except.ok t : Except PyErr Ms) = .ok s') : Held s.input s'.live := by
  cases he; exact h

/-- Every rule but three leaves stretches of the input. -/
theorem rule_place {e : RuleEnv} (he : Natural e) {g : Dict} {arg : Str} {s s' : Ms} (hi : Inside e s.input) (hk : Marked s) {cls : Cls}
    (h1 : cls ≠ .EnlargeGroupMatches) (h2 : cls ≠ .Mimetype) (h3 : cls ≠ .TypeProcessor) (hw : Held s.input s.live)
    (h : ruleStep e g arg s cls = .ok s') : Held s.input s'.live := by
  cases cls with
  | ConflictSolver => exact placeOk (place_drop hw) h
  | PrivateRemover => exact placeOk (held_sub hw fun _ hm => (List.mem_filter.1 hm).1) h
  | WeakConflictSolver => exact placeOk (place_weak hw) h
  | SeePatternRange => exact place_see hw (orRaise_ok h)
  | EpisodeNumberSeparatorRange => exact place_range hw (Or.inl rfl) (orRaise_ok h)
  | SeasonSeparatorRange => exact place_range hw (Or.inr rfl) (orRaise_ok h)
  | RemoveWeakIfMovie =>
    refine placeOk ?_ h
    unfold removeWeakIfMovie
    split
    · exact hw
    · exact place_drop hw
  | RemoveDetachedEpisodeNumber =>
    have := orRaise_ok h
    unfold removeDetached at this
    dsimp only at this
    split at this
    · cases this; exact hw
    · split at this
      · cases this
      · split at this
        · split at this
          · cases this; exact place_drop hw
          · cases this; exact hw
        · cases this; exact hw
  | RemoveWeak => exact placeOk (place_removeWeak hw) h
  | RenameToAbsoluteEpisode => exact place_absolute hw (orRaise_ok h)
  | CountValidator => exact placeOk (place_count hw) h
  | RenameToDiscMatch => exact placeOk (place_disc hw fun m c => hi.marked s m c rfl hw) h
  | UltraHdBlurayRule => exact placeOk (place_ultra hw) h
  | PostProcessScreenSize => exact place_size hw (fun m c => hi.sizes s m c rfl hw) (orRaise_ok h)
  | ScreenSizeOnlyOne => exact placeOk (held_sub hw fun _ hm => removeAll_subset hm) h
  | KeepMarkedYearInFilepart => exact placeOk (held_sub hw fun _ hm => removeAll_subset hm) h
  | TitleFromPosition => exact place_title hi.lower rfl hw hk.wf h
  | PreferTitleWithYear => exact placeOk (place_preferYear hw) h
  | RemoveConflictsWithEpisodeTitle => exact placeOk (held_sub hw fun _ hm => removeAll_subset hm) h
  | EpisodeTitleFromPosition =>
    simp only [ruleStep, episodeTitleRun] at h
    split at h
    · exact place_title (e := e.title) hi.lower rfl hw hk.wf h
    · cases h; exact hw
  | AlternativeTitleReplace => exact placeOk (place_alternative hw) h
  | TitleToEpisodeTitle => exact placeOk (place_titleToEpisodeTitle hw) h
  | Filepart3EpisodeTitle => exact placeOk (place_filepart3 hw) h
  | Filepart2EpisodeTitle => exact placeOk (place_filepart2 hw) h
  | RenameEpisodeTitleWhenMovieType => exact placeOk (place_movie hw) h
  | SubtitleExtensionRule => exact placeOk (place_extension hw) h
  | SubtitlePrefixLanguageRule => exact place_subtitled hw (subtitlePrefix_adds (orRaise_ok h)).2.2
  | SubtitleSuffixLanguageRule => exact place_subtitled hw (subtitleSuffix_adds (orRaise_ok h)).2.2
  | DashSeparatedReleaseGroup => exact placeOk (place_dash hw) h
  | SceneReleaseGroup => exact placeOk (place_scene hw hk.wf hk.plain hk.ends) h
  | AnimeReleaseGroup => exact placeOk (place_anime hw hk.wf hk.plain) h
  | RenameAnotherToOther => exact placeOk (place_rename (from' := c!"another") hw fun m hm => mem_named.1 hm) h
  | ProperCountRule => exact placeOk (place_proper hw) h
  | BitRateTypeRule => exact placeOk (place_bitRate hw) h
  | BonusTitleRule => exact place_bonus hw h
  | FilmTitleRule => exact place_film hw h
  | EnlargeGroupMatches => exact absurd rfl h1
  | EquivalentHoles => exact place_echo he.lower hw hk.wf h
  | RemoveLessSpecificSeasonEpisode => exact placeOk (held_sub hw fun _ hm => removeAll_subset hm) h
  | RemoveAmbiguous => exact placeOk (held_sub hw fun _ hm => removeAll_subset hm) h
  | SeasonYear => exact place_seasonYear hw h
  | YearSeason => exact placeOk (place_yearSeason hw) h
  | Processors => exact placeOk hw h
  | StripSeparators => exact place_strip hw h
  | Mimetype => exact absurd rfl h2
  | TypeProcessor => exact absurd rfl h3
  | _ => exact placeOk (place_drop hw) h

/-! ### The run -/

theorem Marked.of {s t : Ms} (h : Marked s) (h1 : t.input = s.input) (h2 : t.markers = s.markers) : Marked t := by
  have hin : ∀ g, InGroups t g → InGroups s g := by
    intro g hg
    unfold InGroups at hg ⊢
    rwa [h2] at hg
  refine ⟨by rw [h1, h2]; exact h.wf, fun g hg => h.plain g (hin g hg), fun g hg => ?_⟩
  rw [h1]
  exact h.ends g (hin g hg)

/-- Through a run of rules that are none of the three. -/
theorem run_place {e : RuleEnv} (he : Natural e) {g : Dict} {rs : List (Decl Cls)} {s s' : Ms} (hi : Inside e s.input) (hk : Marked s)
    (hrs : ∀ d ∈ rs, d.cls ≠ .EnlargeGroupMatches ∧ d.cls ≠ .Mimetype ∧ d.cls ≠ .TypeProcessor) (hw : Held s.input s.live)
    (h : runRules e g rs s = .ok s') : Held s'.input s'.live := by
  have := run_keeps (P := fun t => t.input = s.input ∧ t.markers = s.markers ∧ Held t.input t.live) (e := e) (g := g) (rs := rs) (s := s) (s' := s') ?_ h
    ⟨rfl, rfl, hw⟩
  · exact this.2.2
  · rintro d hd a b hab ⟨h1, h2, h3⟩
    have hf := rule_follows he hab
    refine ⟨hf.input.trans h1, hf.markers.trans h2, ?_⟩
    rw [hf.input]
    exact rule_place he (by rw [h1]; exact hi) (hk.of h1 h2) (hrs d hd).1 (hrs d hd).2.1 (hrs d hd).2.2 h3 hab

theorem runRules_snoc {e : RuleEnv} {g : Dict} {d : Decl Cls} : ∀ {xs : List (Decl Cls)} {s t u : Ms}, runRules e g xs s = .ok t →
    ruleStep e g d.arg t d.cls = .ok u → runRules e g (xs ++ [d]) s = .ok u := by
  intro xs
  induction xs with
  | nil => intro s t u h1 h2; cases h1; rw [List.nil_append, runRules, h2]; rfl
  | cons x xs ih =>
    intro s t u h1 h2
    obtain ⟨v, h3, h4⟩ := runRules_cons h1
    rw [List.cons_append, runRules, h3]
    exact ih h4 h2

def enlargeDecl : Decl Cls := { cls := .EnlargeGroupMatches, priority := 2048 }

theorem early_rules : ∀ d ∈ allRules, 2048 ≤ d.priority → d.cls = .ConflictSolver ∨ d = enlargeDecl := by decide +kernel

theorem enlarge_once : ∀ d ∈ allRules, d.cls = .EnlargeGroupMatches → d = enlargeDecl := by decide +kernel

theorem enlarge_runs (context : Dict) : enlargeDecl ∈ rulesRun id context :=
  runs_of_plug (p := processorsPlug) (by simp [guessitPlugs]) rfl (by decide) (by decide) rfl

/-- Before the last three rules. -/
theorem place_before {e : RuleEnv} (he : Natural e) {context : Dict} {s s' : Ms} {xs ys : List (Decl Cls)} (e1 : rulesRun id context = xs ++ ys)
    (hen : enlargeDecl ∈ xs) (hxs : ∀ d ∈ xs, d.cls ≠ .Mimetype ∧ d.cls ≠ .TypeProcessor) (hi : Inside e s.input) (hk : Marked s) (hb : Early s)
    (hw : WellFormed s.input s.live) (h : runRules e context xs s = .ok s') : Held s'.input s'.live := by
  obtain ⟨us, vs, rfl⟩ := List.append_of_mem hen
  have hrun := fun d (hd : d ∈ us ++ enlargeDecl :: vs) => mem_allRules (mem_rulesRun.1 (e1 ▸ List.mem_append_left _ hd : d ∈ rulesRun id context)).1
  have hn := (C108_guessit (shuffle := id) (fun l => List.Perm.refl l) context).2.2.1
  have hpr := (C108_guessit (shuffle := id) (fun l => List.Perm.refl l) context).2.2.2.1
  have hnd : (rulesRun id context).Nodup := List.Nodup.filter _ hn
  rw [e1, List.append_assoc, List.nodup_append] at hnd
  have hus : ∀ d ∈ us, d.cls = .ConflictSolver := by
    intro d hd
    have hda := hrun d (by simp [hd])
    have hde : d ∈ rulesRun id context := by rw [e1]; simp [hd]
    have hpd : 2048 ≤ d.priority := by
      by_contra hlt
      obtain ⟨as, bs, rfl⟩ := List.append_of_mem hd
      have hlt' : d.priority < enlargeDecl.priority := by show d.priority < 2048; omega
      exact not_after (us := as) (ys := bs ++ enlargeDecl :: vs ++ ys)
        (hpr d (mem_rulesRun.1 hde).1 enlargeDecl (mem_rulesRun.1 (enlarge_runs context)).1 hlt') (by rw [e1]; simp) (by simp)
    rcases early_rules d hda hpd with h1 | h1
    · exact h1
    · exact absurd h1 (hnd.2.2 d hd enlargeDecl (by simp))
  have hvs : ∀ d ∈ vs, d.cls ≠ .EnlargeGroupMatches := by
    intro d hd hc
    have := enlarge_once d (hrun d (by simp [hd])) hc
    subst this
    have h2 := (List.nodup_cons.1 hnd.2.1).1
    exact h2 (by simp [hd])
  obtain ⟨t, h1, h2⟩ := runRules_append h
  obtain ⟨u, h3, h4⟩ := runRules_cons h2
  have hsub : ∃ l, l.Sublist s.live ∧ t = { s with live := l } := by
    refine run_keeps (P := fun t => ∃ l, l.Sublist s.live ∧ t = { s with live := l }) ?_ h1 ⟨s.live, List.Sublist.refl _, rfl⟩
    rintro d hd a b hab ⟨l, hl, rfl⟩
    rw [hus d hd] at hab
    cases hab
    exact ⟨_, (removeAll_sublist _ _ _).trans hl, rfl⟩
  obtain ⟨l, hl, rfl⟩ := hsub
  cases h3
  have hwl := place_enlarge (Early.sub hb hl) (fun m hm => hw m (hl.subset hm))
  refine run_place he (s := enlargeGroupMatches { s with live := l }) hi (hk.of rfl rfl) (fun d hd => ⟨hvs d hd, hxs d (by simp [hd])⟩)
    ⟨hwl.1.stretched, hwl.2⟩ h4

theorem last_three : ∀ d ∈ allRules, d.cls = .Mimetype ∨ d.cls = .TypeProcessor → d = mimeDecl ∨ d = typeDecl := by decide +kernel

theorem not_before_strip : mayFollow mimeDecl stripDecl = false ∧ mayFollow typeDecl stripDecl = false := by decide +kernel

/-- A run: the rules before the separators are stripped, the stripping, and at most three rules after it. -/
theorem strip_split {e : RuleEnv} (he : Natural e) {context : Dict} {s s' : Ms} (hi : Inside e s.input) (hk : Marked s) (hb : Early s)
    (hw : WellFormed s.input s.live) (h : engine e context s = .ok s') :
    ∃ xs ys t u, (∀ d ∈ xs, d ∈ rulesRun id context ∧ d.cls ≠ .Mimetype ∧ d.cls ≠ .TypeProcessor) ∧ runRules e context xs s = .ok t ∧
      Held t.input t.live ∧ ruleStep e context stripDecl.arg t stripDecl.cls = .ok u ∧
      (∀ d ∈ ys, d = movieDecl ∨ d = mimeDecl ∨ d = typeDecl) ∧ runRules e context ys u = .ok s' ∧ xs ++ stripDecl :: ys = rulesRun id context := by
  obtain ⟨xs, ys, e1, hxs, hys, hfol⟩ := followers (strip_runs context) rfl
  rw [after_strip] at hfol
  have hno : ∀ d ∈ xs, d.cls ≠ .Mimetype ∧ d.cls ≠ .TypeProcessor := by
    have key : ∀ d ∈ xs, d ≠ mimeDecl ∧ d ≠ typeDecl := by
      intro d hd
      have hgo : ∀ z, z.priority = postProcess → mayFollow z stripDecl = false → d ≠ z := by
        intro z hz hm hdz
        subst hdz
        obtain ⟨as, bs, e2, _, _, hb⟩ := followers (hxs d hd).1 hz
        have hst : stripDecl ∈ bs := by
          have hn := (C108_guessit (shuffle := id) (fun l => List.Perm.refl l) context).2.2.1
          have hnd : (rulesRun id context).Nodup := List.Nodup.filter _ hn
          obtain ⟨p, q, rfl⟩ := List.append_of_mem hd
          have e3 : as ++ d :: bs = p ++ d :: (q ++ stripDecl :: ys) := by rw [← e2, e1]; simp
          rw [e2] at hnd
          have hup : as = p := by
            have hp1 : d ∉ as := fun hh => (List.nodup_append.1 hnd).2.2 d hh d (by simp) rfl
            have hnd' := hnd
            rw [e3] at hnd'
            have hp2 : d ∉ p := fun hh => (List.nodup_append.1 hnd').2.2 d hh d (by simp) rfl
            rcases List.append_eq_append_iff.1 e3 with ⟨w, rfl, h7⟩ | ⟨w, rfl, h7⟩
            · cases w with
              | nil => simp
              | cons x w => rw [List.cons_append, List.cons.injEq] at h7; exact absurd (by simp [h7.1] : d ∈ as ++ x :: w) hp2
            · cases w with
              | nil => simp
              | cons x w => rw [List.cons_append, List.cons.injEq] at h7; exact absurd (by simp [h7.1] : d ∈ p ++ x :: w) hp1
          rw [hup, List.append_cancel_left_eq, List.cons.injEq] at e3
          rw [e3.2]; simp
        have := (List.mem_filter.1 (hb _ hst)).2
        rw [hm] at this
        cases this
      exact ⟨hgo mimeDecl rfl not_before_strip.1, hgo typeDecl rfl not_before_strip.2⟩
    intro d hd
    have hda := mem_allRules (mem_rulesRun.1 (hxs d hd).1).1
    refine ⟨fun hc => ?_, fun hc => ?_⟩
    · rcases last_three d hda (Or.inl hc) with h1 | h1
      · exact (key d hd).1 h1
      · exact (key d hd).2 h1
    · rcases last_three d hda (Or.inr hc) with h1 | h1
      · exact (key d hd).1 h1
      · exact (key d hd).2 h1
  have hex : enlargeDecl ∈ xs := by
    have := enlarge_runs context
    rw [e1] at this
    rcases List.mem_append.1 this with h1 | h1
    · exact h1
    · rcases List.mem_cons.1 h1 with h1 | h1
      · exact absurd h1 (by decide)
      · exact absurd (hfol _ h1) (by decide)
  have h' := h
  unfold engine at h'
  rw [e1] at h'
  obtain ⟨t, h1, h2⟩ := runRules_append h'
  obtain ⟨u, h3, h4⟩ := runRules_cons h2
  refine ⟨xs, ys, t, u, fun d hd => ⟨(hxs d hd).1, hno d hd⟩, h1, place_before he e1 hex hno hi hk hb hw h1, h3, fun d hd => ?_, h4, e1.symm⟩
  have := hfol d hd
  simpa using this

/-- C152: whatever is reported is a non-empty stretch of the name of the file, except the `type` and the `mimetype`, which are at its
end. -/
theorem C152_place (e : RuleEnv) (he : Natural e) (context : Dict) (s s' : Ms) (hf : PatternsGive context s.input s.live) (hi : Inside e s.input)
    (hk : Marked s) (hb : Early s) (hw : WellFormed s.input s.live) (h : engine e context s = .ok s') :
    ∀ m ∈ s'.live, (m.name ≠ some c!"type" → m.name ≠ some c!"mimetype" → m.start < m.stop ∧ m.stop ≤ s.input.length) ∧
      (m.name = some c!"type" ∨ m.name = some c!"mimetype" → m.start = s.input.length ∧ m.stop = s.input.length) := by
  have hnames := C146_names_partial e he context s s' hf h
  obtain ⟨xs, ys, t, u, hxs, h1, ht, h3, hfol, h4, _⟩ := strip_split he hi hk hb hw h
  have hti := run_input he h1
  have hu : Held u.input u.live := by
    have hif := (rule_follows he h3).input
    rw [hif]
    exact place_strip ht h3
  have hun : ∀ m ∈ u.live, m.name ≠ some c!"type" ∧ m.name ≠ some c!"mimetype" := by
    have hrun : runRules e context (xs ++ [stripDecl]) s = .ok u := by
      exact runRules_snoc h1 h3
    refine run_keeps (P := fun t => ∀ m ∈ t.live, m.name ≠ some c!"type" ∧ m.name ≠ some c!"mimetype") ?_ hrun ?_
    · intro d hd a b hab ha m hm
      have hb : ∀ d ∈ allRules, d.cls ≠ .Mimetype → d.cls ≠ .TypeProcessor → ∀ k ∈ births d.cls, k.into ≠ c!"mimetype" ∧ k.into ≠ c!"type" := by decide +kernel
      have hdx : d ∈ allRules ∧ d.cls ≠ .Mimetype ∧ d.cls ≠ .TypeProcessor := by
        rcases List.mem_append.1 hd with hd | hd
        · exact ⟨mem_allRules (mem_rulesRun.1 (hxs d hd).1).1, (hxs d hd).2⟩
        · rw [List.mem_singleton] at hd; subst hd; exact ⟨by decide +kernel, by decide, by decide⟩
      rcases (rule_follows he hab).live m hm with ⟨m', hm', hk⟩ | ⟨k, hk, _, hinto, _, _⟩ | ⟨_, _, m', hm', h2⟩
      · rw [hk.1]; exact ha m' hm'
      · have := hb d hdx.1 hdx.2.1 hdx.2.2 k hk
        rw [hinto]
        exact ⟨fun hh => this.2 (Option.some.inj hh), fun hh => this.1 (Option.some.inj hh)⟩
      · rw [h2]; exact ha m' hm'
    · intro m hm
      refine ⟨fun hname => ?_, found_unmimed hf m hm⟩
      have hs : ∀ p ∈ sources, c!"type" ∉ p.gives := by decide +kernel
      obtain ⟨p, hp, _, _, ⟨h0, _⟩ | ⟨⟨n, hn, hn2, _⟩, _⟩⟩ := hf m hm
      · rw [hname] at h0; cases h0
      · rw [hname] at hn2; cases hn2; exact hs p hp hn
  have hui : u.input = s.input := (rule_follows he h3).input.trans hti.1
  have hfin : s'.input = s.input ∧ ∀ m ∈ s'.live, ((m.name ≠ some c!"type" ∧ m.name ≠ some c!"mimetype") ∧ m.stop ≤ s.input.length ∧ (m.start < m.stop ∨ RangeSeparator m)) ∨
      ((m.name = some c!"type" ∨ m.name = some c!"mimetype") ∧ m.start = s.input.length ∧ m.stop = s.input.length) := by
    refine run_keeps (P := fun t => t.input = s.input ∧ ∀ m ∈ t.live, ((m.name ≠ some c!"type" ∧ m.name ≠ some c!"mimetype") ∧ m.stop ≤ s.input.length ∧ (m.start < m.stop ∨ RangeSeparator m)) ∨
      ((m.name = some c!"type" ∨ m.name = some c!"mimetype") ∧ m.start = s.input.length ∧ m.stop = s.input.length)) ?_ h4 ⟨hui, fun m hm => Or.inl ⟨hun m hm, by rw [← hui]; exact hu.1 m hm⟩⟩
    rintro d hd a b hab ⟨hai, ha⟩
    have hbi := (rule_follows he hab).input
    refine ⟨hbi.trans hai, ?_⟩
    rcases hfol d hd with rfl | rfl | rfl
    · cases hab
      unfold renameEpisodeTitleWhenMovie
      split
      · intro m hm
        rcases renameEach_mem hm with h | ⟨x, hx, rfl⟩
        · exact ha m h
        · have hx' := mem_named.1 hx
          rcases ha x hx'.1 with ⟨_, h6, h7⟩ | ⟨h6, _⟩
          · refine Or.inl ⟨⟨by simp, by simp⟩, h6, ?_⟩
            rcases h7 with h7 | ⟨_, h8, _⟩
            · exact Or.inl h7
            · rw [hx'.2] at h8; exact absurd h8 (by decide)
          · rw [hx'.2] at h6; exact absurd h6 (by decide)
      · exact ha
    · cases hab
      unfold mimetypeRule
      split
      · intro m hm
        rcases List.mem_append.1 hm with hm | hm
        · exact ha m hm
        · rw [List.mem_singleton] at hm
          subst hm
          exact Or.inr ⟨Or.inr rfl, by rw [← hai]; rfl, by rw [← hai]; rfl⟩
      · exact ha
    · cases hab
      unfold typeProcessor
      intro m hm
      rcases List.mem_append.1 hm with hm | hm
      · exact ha m hm
      · rw [List.mem_singleton] at hm
        subst hm
        exact Or.inr ⟨Or.inl rfl, by rw [← hai]; rfl, by rw [← hai]; rfl⟩
  intro m hm
  rcases hfin.2 m hm with ⟨⟨h5, h6⟩, h7, h8⟩ | ⟨h5, h6⟩
  · refine ⟨fun _ _ => ⟨?_, h7⟩, fun hh => ?_⟩
    · rcases h8 with h8 | ⟨_, h9, _⟩
      · exact h8
      · obtain ⟨n, hn, h10⟩ := hnames m hm
        exfalso
        rw [hn] at h9
        have hd : ∀ n ∈ documented ++ undocumented, n ≠ c!"episodeSeparator" ∧ n ≠ c!"seasonSeparator" := by decide +kernel
        have hn2 : n ≠ c!"episodeSeparator" ∧ n ≠ c!"seasonSeparator" := by
          rcases h10 with h10 | ⟨rfl, _⟩
          · exact hd n h10
          · decide
        rcases h9 with h9 | h9
        · exact hn2.1 (Option.some.inj h9)
        · exact hn2.2 (Option.some.inj h9)
    · rcases hh with hh | hh
      · exact absurd hh h5
      · exact absurd hh h6
  · refine ⟨fun h7 h8 => ?_, fun _ => h6⟩
    rcases h5 with h5 | h5
    · exact absurd h5 h7
    · exact absurd h5 h8

end Guessit
