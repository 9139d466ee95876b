import Verif.Proofs.Schedule
import Verif.Model.Processors

/-!
# C108–C111: the order in which the rules run
-/

namespace Guessit

open Spec

variable {κ : Type} [DecidableEq κ]

/-! ### General facts -/

theorem runsBefore_iff {l : List (Decl κ)} {a b : Decl κ} : RunsBefore l a b ↔ ∃ l1 l2, l = l1 ++ b :: l2 ∧ a ∈ l1 := by
  constructor
  · rintro ⟨x, y, z, rfl⟩
    exact ⟨x ++ a :: y, z, by simp, by simp⟩
  · rintro ⟨l1, l2, rfl, h⟩
    obtain ⟨x, y, rfl⟩ := List.append_of_mem h
    exact ⟨x, y, l2, by simp⟩

theorem split_unique {α : Type} {b : α} : ∀ {x x' y y' : List α}, (x ++ b :: y).Nodup → x ++ b :: y = x' ++ b :: y' → x = x'
  | [], [], _, _, _, _ => rfl
  | [], c :: x', y, y', h, e => by
    rw [List.nil_append, List.cons_append, List.cons.injEq] at e
    rw [List.nil_append, List.nodup_cons, e.2] at h
    exact absurd (by simp) h.1
  | c :: x, [], y, y', h, e => by
    rw [List.nil_append, List.cons_append, List.cons.injEq] at e
    rw [List.cons_append, List.nodup_cons, e.1] at h
    exact absurd (by simp) h.1
  | c :: x, c' :: x', y, y', h, e => by
    rw [List.cons_append, List.cons_append, List.cons.injEq] at e
    rw [List.cons_append, List.nodup_cons] at h
    rw [e.1, split_unique h.2 e.2]

theorem Spec.RunsBefore.trans {l : List (Decl κ)} (hn : l.Nodup) {a b c : Decl κ} (h1 : RunsBefore l a b) (h2 : RunsBefore l b c) :
    RunsBefore l a c := by
  rw [runsBefore_iff] at h1 h2 ⊢
  obtain ⟨x, y, rfl, ha⟩ := h1
  obtain ⟨x', y', e, hb⟩ := h2
  refine ⟨x', y', e, ?_⟩
  obtain ⟨u, v, rfl⟩ := List.append_of_mem hb
  have : x = u := split_unique hn (by rw [e, List.append_assoc]; rfl)
  subst this
  exact List.mem_append_left _ ha

theorem Spec.RunsBefore.asymm {l : List (Decl κ)} (hn : l.Nodup) {a b : Decl κ} (h1 : RunsBefore l a b) : ¬ RunsBefore l b a := by
  intro h2
  obtain ⟨x, y, e, ha⟩ := runsBefore_iff.1 (h1.trans hn h2)
  rw [e, List.nodup_append] at hn
  exact hn.2.2 a ha a (by simp) rfl

theorem schedule_nodup {shuffle : List (Decl κ) → List (Decl κ)} (hs : Shuffles shuffle) {rs : List (Decl κ)} (h : OnePerClass rs) :
    (schedule shuffle rs).1.Nodup := by
  obtain ⟨left, p, _⟩ := schedule_spec hs h
  exact (List.nodup_append.1 (p.nodup_iff.2 h.nodup)).1

/-! ### C108 -/

/-- C108 (once): without an error, every effective rule has its turn exactly once, whatever the order in which sets are
enumerated. -/
theorem C108_once {shuffle : List (Decl κ) → List (Decl κ)} (hs : Shuffles shuffle) (rs : List (Decl κ)) (h : OnePerClass rs)
    (hok : (schedule shuffle rs).2 = none) : (schedule shuffle rs).1.Perm rs := by
  obtain ⟨left, p, hl, _⟩ := schedule_spec hs h
  rw [hl hok, List.append_nil] at p
  exact p

/-- C108 (priority): a rule of a higher priority never has its turn after one of a lower priority. -/
theorem C108_priority {shuffle : List (Decl κ) → List (Decl κ)} (hs : Shuffles shuffle) (rs : List (Decl κ)) (h : OnePerClass rs)
    (a b : Decl κ) (hab : RunsBefore (schedule shuffle rs).1 a b) : b.priority ≤ a.priority := by
  obtain ⟨_, _, _, _, hp, _⟩ := schedule_spec hs h
  obtain ⟨x, y, z, e⟩ := hab
  rw [e, List.pairwise_append] at hp
  exact (List.pairwise_cons.1 hp.2.1).1 b (by simp)

/-- C108 (dependency): when the turn of a rule comes, every effective rule it depends on, unless of a lower priority, has
had its turn; so has every rule of a higher priority.  This holds even when a circle ends the execution before all rules
had their turn. -/
theorem C108_dependency {shuffle : List (Decl κ) → List (Decl κ)} (hs : Shuffles shuffle) (rs : List (Decl κ)) (h : OnePerClass rs)
    (a b : Decl κ) (ha : a ∈ (schedule shuffle rs).1) (hb : b ∈ rs)
    (hab : a.priority < b.priority ∨ (DependsOn a b ∧ a.priority ≤ b.priority)) : RunsBefore (schedule shuffle rs).1 b a := by
  obtain ⟨_, _, _, _, _, hd⟩ := schedule_spec hs h
  apply hd a ha b hb
  rcases hab with hab | ⟨hab, hle⟩
  · exact Or.inl hab
  · by_cases hlt : a.priority < b.priority
    · exact Or.inl hlt
    · exact Or.inr ⟨by omega, hab⟩

/-- C108 (lower priority): a declared dependency on a rule of a lower priority is ignored: the other rule runs afterwards. -/
theorem C108_ignored {shuffle : List (Decl κ) → List (Decl κ)} (hs : Shuffles shuffle) (rs : List (Decl κ)) (h : OnePerClass rs)
    (a b : Decl κ) (ha : a ∈ rs) (hb : b ∈ (schedule shuffle rs).1) (hlt : b.priority < a.priority) :
    RunsBefore (schedule shuffle rs).1 a b :=
  C108_dependency hs rs h b a hb ha (Or.inl hlt)

/-- A first member of a list with a property. -/
theorem first_in {l : List (Decl κ)} {S : List (Decl κ)} {a : Decl κ} (ha : a ∈ l) (haS : a ∈ S) :
    ∃ x c y, l = x ++ c :: y ∧ c ∈ S ∧ ∀ b ∈ x, b ∉ S := by
  induction l with
  | nil => cases ha
  | cons d l ih =>
    by_cases hd : d ∈ S
    · exact ⟨[], d, l, rfl, hd, nofun⟩
    · rcases List.mem_cons.1 ha with rfl | ha
      · exact absurd haS hd
      · obtain ⟨x, c, y, rfl, hc, hx⟩ := ih ha
        refine ⟨d :: x, c, y, rfl, hc, ?_⟩
        intro b hb
        rcases List.mem_cons.1 hb with rfl | hb
        · exact hd
        · exact hx b hb

/-- C108 (circle): the execution ends in an error exactly when some rules of equal priority wait for each other, and the error
is the cycle error. -/
theorem C108_circle {shuffle : List (Decl κ) → List (Decl κ)} (hs : Shuffles shuffle) (rs : List (Decl κ)) (h : OnePerClass rs) :
    ((schedule shuffle rs).2 = none ∧ ¬ ∃ stuck, Deadlock rs stuck) ∨
      ((schedule shuffle rs).2 = some .cyclic ∧ ∃ stuck, Deadlock rs stuck) := by
  obtain ⟨_, _, _, hc, _⟩ := schedule_spec hs h
  rcases hc with hok | hc
  · refine Or.inl ⟨hok, ?_⟩
    rintro ⟨S, hS⟩
    have hp := C108_once hs rs h hok
    obtain ⟨a, ha⟩ := List.exists_mem_of_ne_nil _ hS.some
    obtain ⟨x, c, y, e, hcS, hx⟩ := first_in (hp.mem_iff.2 (hS.among a ha)) ha
    obtain ⟨d, hd, hdep⟩ := hS.wait c hcS
    have hrun := C108_dependency hs rs h c d (by rw [e]; simp) (hS.among d hd) (Or.inr ⟨hdep, by rw [hS.level c hcS d hd]; exact Int.le_refl _⟩)
    obtain ⟨x', y', e', hm⟩ := runsBefore_iff.1 hrun
    have hn := schedule_nodup hs h
    rw [e] at hn e'
    rw [split_unique hn e'] at hx
    exact hx d hm hd
  · exact Or.inr hc

/-- C108 (progress): even when a circle ends the execution, a rule misses its turn only if it waits for a rule of its priority that
misses its turn too, or comes after one by priority. -/
theorem C108_progress {shuffle : List (Decl κ) → List (Decl κ)} (hs : Shuffles shuffle) (rs : List (Decl κ)) (h : OnePerClass rs)
    (a : Decl κ) (ha : a ∈ rs) (hna : a ∉ (schedule shuffle rs).1) :
    ∃ b ∈ rs, b ∉ (schedule shuffle rs).1 ∧ (a.priority < b.priority ∨ a.priority = b.priority ∧ DependsOn a b) := by
  have hp : (groupRules (byPriority rs)).flatten.Perm rs := by rw [groupRules_flatten]; exact sortBy_perm _ _
  obtain ⟨b, hb, hr⟩ := runGroups_left hs (all := rs) (groupRules_descending (byPriority_sorted rs)) (h.perm hp.symm) a (hp.mem_iff.2 ha) hna
  exact ⟨b, hp.mem_iff.1 hb, hr⟩

/-- C108 (deterministic): the order does not depend on the order in which Python enumerates sets. -/
theorem C108_deterministic {shuffle : List (Decl κ) → List (Decl κ)} (hs : Shuffles shuffle) (rs : List (Decl κ)) (h : OnePerClass rs) :
    schedule shuffle rs = schedule id rs := by
  refine runGroups_shuffle hs h ?_
  intro a ha
  rw [groupRules_flatten] at ha
  exact (sortBy_perm _ _).mem_iff.1 ha

/-- No effective rule of the same priority is declared as a dependency of `a`. -/
def Spec.Unhindered (rs : List (Decl κ)) (a : Decl κ) : Prop := ∀ d ∈ rs, d.priority = a.priority → ¬ DependsOn a d

/-- C108 (ties): a rule that waits for no effective rule of its priority runs before those of its priority that do wait, and
before those registered later. -/
theorem C108_ties {shuffle : List (Decl κ) → List (Decl κ)} (hs : Shuffles shuffle) (rs : List (Decl κ)) (h : OnePerClass rs)
    (a b : Decl κ) (hb : b ∈ (schedule shuffle rs).1) (ha : a ∈ rs) (hp : a.priority = b.priority)
    (hfree : Spec.Unhindered rs a) (hab : ¬ Spec.Unhindered rs b ∨ RunsBefore rs a b) : RunsBefore (schedule shuffle rs).1 a b := by
  have hperm : (groupRules (byPriority rs)).flatten.Perm rs := by rw [groupRules_flatten]; exact sortBy_perm _ _
  have hdesc := groupRules_descending (byPriority_sorted rs)
  have h1 := h.perm hperm.symm
  have hbr : b ∈ rs := by
    obtain ⟨left, p, _⟩ := schedule_spec hs h
    exact p.mem_iff.1 (List.mem_append_left _ hb)
  obtain ⟨g, hg, hbg, x, y, e⟩ := runGroups_part hs (all := rs) hdesc h1 hb
  have hag : a ∈ g := by
    obtain ⟨g', hg', hag'⟩ := List.mem_flatten.1 (hperm.mem_iff.2 ha)
    rwa [hdesc.same hg' hg hag' hbg hp] at hag'
  have hg1 : OnePerClass g := h1.sublist (List.sublist_flatten_of_mem hg)
  have hin : ∀ z ∈ g, z ∈ rs := fun z hz => hperm.mem_iff.1 (List.mem_flatten.2 ⟨g, hg, hz⟩)
  have hsame : ∀ z ∈ rs, z.priority = b.priority → z ∈ g := by
    intro z hz hzp
    obtain ⟨g', hg', hzg'⟩ := List.mem_flatten.1 (hperm.mem_iff.2 hz)
    rwa [hdesc.same hg' hg hzg' hbg hzp] at hzg'
  unfold schedule at hb ⊢
  rw [e]
  refine (RunsBefore.append_left ?_ x).append_right y
  have hbo : b ∈ (runGroup shuffle rs g).1 := runGroups_in hs hdesc h1 hb hg hbg
  refine runGroup_free hs h hg1 hin hag hbo ?_ ?_
  · intro d hd
    exact hfree d (hin d hd) (by rw [hp]; exact hdesc.level g hg d hd b hbg)
  · rcases hab with hab | hab
    · left
      apply Classical.byContradiction
      intro hc
      exact hab fun d hd hdp hdd => hc ⟨d, hsame d hd hdp, hdd⟩
    · exact Or.inr hab

/-- C108 (effective rules): what is scheduled are the registered rules of the sub-rebulks that are not disabled, in their order,
only the first one of each class. -/
theorem C108_effective (plugs : List (Plug κ)) (context : Dict) : OnePerClass (effectiveRules plugs context) ∧
    (effectiveRules plugs context).Sublist (Registered plugs context) ∧
    ∀ r, r ∈ effectiveRules plugs context ↔ FirstOfClass (Registered plugs context) r := by
  refine ⟨effectiveRules_nodup plugs context, ?_, fun r => mem_effectiveRules⟩
  rw [effectiveRules_eq]
  exact extendSafe_sublist _ []

/-- A circle of two, a rule before it and one after it: the circle ends the execution. -/
example : (schedule id [({ cls := 0, deps := [1] } : Decl Nat), { cls := 1, deps := [0] }, { cls := 2, priority := 5 }, { cls := 3, priority := -5 },
    { cls := 4 }]) = ([{ cls := 2, priority := 5 }, { cls := 4 }], some .cyclic) := by decide

/-- Rule 0 depends on rule 1 (registered later) and on rule 2 (of a lower priority): the second dependency is ignored. -/
example : (schedule List.reverse [({ cls := 0, deps := [1, 2] } : Decl Nat), { cls := 1 }, { cls := 2, priority := -5 }]).1.map Decl.cls =
    [1, 0, 2] := by decide

example : Shuffles (List.reverse : List (Decl Nat) → _) := fun l => List.reverse_perm l

/-! ### guessit's own rules -/

/-- Every rule guessit registers. -/
def allRules : List (Decl Cls) := guessitPlugs.flatMap Plug.rules

open Cls in
/-- A witness that the declared dependencies have no circle. -/
def depth : Cls → Nat
  | RemoveDetachedEpisodeNumber | VersionValidator | ValidateWeakSource | SubtitleSuffixLanguageRule | Mimetype | TypeProcessor
  | DtsHDRule | DtsRule | AacRule | DolbyDigitalRule => 1
  | HqConflictRule | TitleFromPosition | RenameEpisodeTitleWhenMovieType => 2
  | UltraHdBlurayRule | PreferTitleWithYear | TitleToEpisodeTitle | SceneReleaseGroup | EpisodeSingleDigitValidator
  | BonusTitleRule => 3
  | EpisodeTitleFromPosition | AnimeReleaseGroup => 4
  | AlternativeTitleReplace => 5
  | _ => 0

theorem depth_ok : ∀ r ∈ allRules, ∀ d ∈ r.deps, depth d < depth r.cls := by decide +kernel

/-- No rule depends on one of a lower priority. -/
theorem deps_not_lower : ∀ a ∈ allRules, ∀ b ∈ allRules, b.cls ∈ a.deps → a.priority ≤ b.priority := by decide +kernel

theorem mem_allRules {context : Dict} {r : Decl Cls} (h : r ∈ effectiveRules guessitPlugs context) : r ∈ allRules := by
  obtain ⟨xs, ys, e, _⟩ := mem_effectiveRules.1 h
  have hr : r ∈ Registered guessitPlugs context := by rw [e]; simp
  unfold Registered at hr
  obtain ⟨p, hp, hr⟩ := List.mem_flatMap.1 hr
  exact List.mem_flatMap.2 ⟨p, (List.mem_filter.1 hp).1, hr⟩

theorem no_deadlock {rs S : List (Decl Cls)} (hrs : ∀ r ∈ rs, r ∈ allRules) : ¬ Deadlock rs S := by
  intro h
  have key : ∀ n, ∀ a ∈ S, depth a.cls < n → False := by
    intro n
    induction n with
    | zero => intro a _ h; omega
    | succ n ih =>
      intro a ha hn
      obtain ⟨b, hb, hd⟩ := h.wait a ha
      have := depth_ok a (hrs a (h.among a ha)) b.cls hd.1
      exact ih b hb (by omega)
  obtain ⟨a, ha⟩ := List.exists_mem_of_ne_nil _ h.some
  exact key _ a ha (Nat.lt_succ_self _)

/-- C108 for guessit: whatever the options disable, the schedule has no error, every effective rule has its turn exactly once,
higher priorities first, and after every effective rule it depends on. -/
theorem C108_guessit {shuffle : List (Decl Cls) → List (Decl Cls)} (hs : Shuffles shuffle) (context : Dict) :
    let rs := effectiveRules guessitPlugs context
    let order := (schedule shuffle rs).1
    (schedule shuffle rs).2 = none ∧ order.Perm rs ∧ order.Nodup ∧
      (∀ a ∈ rs, ∀ b ∈ rs, a.priority < b.priority → RunsBefore order b a) ∧
      ∀ a ∈ rs, ∀ b ∈ rs, DependsOn a b → RunsBefore order b a := by
  have h := effectiveRules_nodup guessitPlugs context
  have hok : (schedule shuffle (effectiveRules guessitPlugs context)).2 = none := by
    rcases C108_circle hs _ h with hc | ⟨_, S, hS⟩
    · exact hc.1
    · exact absurd hS (no_deadlock fun r hr => mem_allRules hr)
  have hp := C108_once hs _ h hok
  refine ⟨hok, hp, schedule_nodup hs h, ?_, ?_⟩
  · intro a ha b hb hab
    exact C108_dependency hs _ h a b (hp.mem_iff.2 ha) hb (Or.inl hab)
  · intro a ha b hb hab
    exact C108_dependency hs _ h a b (hp.mem_iff.2 ha) hb
      (Or.inr ⟨hab, deps_not_lower a (mem_allRules ha) b (mem_allRules hb) hab.1⟩)

/-- C108: the order without any option. -/
theorem C108_default_order : (rulesRun id []).map Decl.cls = [
    .ConflictSolver, .EnlargeGroupMatches,
    .WeakConflictSolver, .SeePatternRange, .EpisodeNumberSeparatorRange, .SeasonSeparatorRange, .AudioChannelsValidatorRule,
    .ValidateStreamingService,
    .RemoveInvalidSeason, .RemoveInvalidEpisode, .RemoveWeakIfMovie, .RemoveWeakIfSxxExx, .RemoveWeakDuplicate,
    .EpisodeDetailValidator, .CountValidator, .ValidateSourcePrefixSuffix, .ValidateVideoCodec, .AudioValidatorRule,
    .ValidateWebsitePrefix, .KeepMarkedYearInFilepart, .RemoveConflictsWithEpisodeTitle, .ValidateHasNeighbor,
    .ValidateHasNeighborAfter, .ValidateHasNeighborBefore, .ValidateScreenerRule, .ValidateMuxRule, .ValidateReal,
    .RemoveDetachedEpisodeNumber, .VersionValidator, .ValidateWeakSource, .DtsHDRule, .DtsRule, .AacRule, .DolbyDigitalRule,
    .RemoveInvalidLanguages, .RemoveUndeterminedLanguages, .RenameAnotherToOther, .ValidateHardcodedSubs,
    .ValidateStreamingServiceNeighbor, .ValidateAtEnd,
    .RemoveWeak,
    .RenameToAbsoluteEpisode, .RenameToDiscMatch, .VideoProfileRule, .HqConflictRule, .PostProcessScreenSize,
    .ScreenSizeOnlyOne, .ResolveScreenSizeConflicts, .PreferTitleOverWebsite, .Filepart3EpisodeTitle, .Filepart2EpisodeTitle,
    .SubtitleExtensionRule, .SubtitlePrefixLanguageRule, .DashSeparatedReleaseGroup, .BitRateTypeRule, .FilmTitleRule,
    .UltraHdBlurayRule, .SubtitleSuffixLanguageRule,
    .TitleFromPosition,
    .EpisodeSingleDigitValidator, .PreferTitleWithYear, .TitleToEpisodeTitle, .SceneReleaseGroup, .BonusTitleRule,
    .EpisodeTitleFromPosition, .AnimeReleaseGroup,
    .AlternativeTitleReplace,
    .PrivateRemover, .ProperCountRule, .EquivalentHoles, .RemoveLessSpecificSeasonEpisode, .RemoveAmbiguous, .SeasonYear, .YearSeason,
    .Processors, .StripSeparators,
    .Mimetype, .TypeProcessor,
    .RenameEpisodeTitleWhenMovieType] := by decide +kernel

/-! ### C109 -/

theorem mustPrecede_runs {order rs : List (Decl κ)} (hn : order.Nodup)
    (h1 : ∀ a ∈ rs, ∀ b ∈ rs, a.priority < b.priority → RunsBefore order b a)
    (h2 : ∀ a ∈ rs, ∀ b ∈ rs, DependsOn a b → a.priority ≤ b.priority → RunsBefore order b a)
    {a b : Decl κ} (h : MustPrecede rs a b) : RunsBefore order a b := by
  induction h with
  | priority ha hb hlt => exact h1 _ hb _ ha hlt
  | dependency ha hb hd hle => exact h2 _ hb _ ha hd hle
  | trans _ _ i1 i2 => exact i1.trans hn i2

/-- C109 (what is guaranteed): whatever the options, two rules run in the order that their priorities and the dependencies among
the effective rules impose. -/
theorem C109_order_partial {shuffle : List (Decl Cls) → List (Decl Cls)} (hs : Shuffles shuffle) (context : Dict) (a b : Decl Cls)
    (h : MustPrecede (effectiveRules guessitPlugs context) a b) :
    RunsBefore (schedule shuffle (effectiveRules guessitPlugs context)).1 a b ∧
      ¬ RunsBefore (schedule shuffle (effectiveRules guessitPlugs context)).1 b a := by
  obtain ⟨_, _, hn, h1, h2⟩ := C108_guessit hs context
  have := mustPrecede_runs hn h1 (fun a ha b hb hd _ => h2 a ha b hb hd) h
  exact ⟨this, this.asymm hn⟩

/-- The test behind `RunsBefore`. -/
def comesBefore (order : List (Decl κ)) (a b : Decl κ) : Bool :=
  match order with
  | [] => false
  | x :: xs => if x = a then xs.contains b else comesBefore xs a b

theorem comesBefore_runs {a b : Decl κ} : ∀ {order : List (Decl κ)}, comesBefore order a b = true → RunsBefore order a b
  | [], h => by simp [comesBefore] at h
  | x :: xs, h => by
    unfold comesBefore at h
    split at h
    · rename_i hx
      subst hx
      rw [List.contains_iff_mem] at h
      obtain ⟨y, z, rfl⟩ := List.append_of_mem h
      exact ⟨[], y, z, rfl⟩
    · exact (comesBefore_runs h).append_left [x]

/-- The rule that guesses titles. -/
def titleDecl : Decl Cls :=
  { cls := .TitleFromPosition, deps := [.FilmTitleRule, .SubtitlePrefixLanguageRule, .SubtitleSuffixLanguageRule, .SubtitleExtensionRule] }

/-- The rule that guesses a release group after the last dash. -/
def dashDecl : Decl Cls := { cls := .DashSeparatedReleaseGroup }

/-- `excludes = ['film', 'language', 'subtitle_language']`. -/
def noFilmLanguage : Dict := [(.str c!"excludes", .list [.str c!"film", .str c!"language", .str c!"subtitle_language"])]

/-- C109 (counterexample): excluding properties changes the order in which the rules of *other* properties run.  Without options
the release group is guessed before the title; with `film`, `language` and `subtitle_language` excluded, the title is guessed
before the release group. -/
theorem C109_counterexample {shuffle : List (Decl Cls) → List (Decl Cls)} (hs : Shuffles shuffle) :
    RunsBefore (schedule shuffle (effectiveRules guessitPlugs [])).1 dashDecl titleDecl ∧
    RunsBefore (schedule shuffle (effectiveRules guessitPlugs noFilmLanguage)).1 titleDecl dashDecl ∧
    titleDecl ∈ rulesRun shuffle noFilmLanguage ∧ dashDecl ∈ rulesRun shuffle noFilmLanguage := by
  unfold rulesRun
  rw [C108_deterministic hs _ (effectiveRules_nodup _ _), C108_deterministic hs _ (effectiveRules_nodup _ _)]
  exact ⟨comesBefore_runs (by decide +kernel), comesBefore_runs (by decide +kernel), by decide +kernel, by decide +kernel⟩

/-- Non-trivial cases of `C109_order_partial`: by dependencies through other rules, the subtitle languages come before the anime
release groups. -/
example : MustPrecede (effectiveRules guessitPlugs []) { cls := .SubtitlePrefixLanguageRule }
    { cls := .AnimeReleaseGroup, deps := [.SceneReleaseGroup, .TitleFromPosition] } :=
  .trans (b := titleDecl) (.dependency (by decide +kernel) (by decide +kernel) ⟨by decide, by decide⟩ (by decide))
    (.dependency (by decide +kernel) (by decide +kernel) ⟨by decide, by decide⟩ (by decide))

/-! ### C110 -/

theorem Shuffles.mem {shuffle : List (Decl Cls) → List (Decl Cls)} (hs : Shuffles shuffle) {context : Dict} {r : Decl Cls} :
    r ∈ (schedule shuffle (effectiveRules guessitPlugs context)).1 ↔ r ∈ effectiveRules guessitPlugs context :=
  (C108_guessit hs context).2.1.mem_iff

/-- C110 (what is guaranteed): a rule has its turn exactly when it is the first registered rule of its class among the
sub-rebulks that are not disabled. -/
theorem C110_first_partial {shuffle : List (Decl Cls) → List (Decl Cls)} (hs : Shuffles shuffle) (context : Dict) (r : Decl Cls) :
    r ∈ (schedule shuffle (effectiveRules guessitPlugs context)).1 ↔ FirstOfClass (Registered guessitPlugs context) r := by
  rw [hs.mem, mem_effectiveRules]

/-- The rules of `processors` that keep the most specific season and the most specific episode. -/
def specificDecl (name : Str) : Decl Cls := { cls := .RemoveLessSpecificSeasonEpisode, arg := name, priority := postProcess }

theorem specific_registered : specificDecl c!"season" ∈ processorsPlug.rules ∧ specificDecl c!"episode" ∈ processorsPlug.rules := by
  decide +kernel

theorem only_processors : ∀ p ∈ guessitPlugs, (∃ r ∈ p.rules, r.cls = .RemoveLessSpecificSeasonEpisode) → p.rules = processorsPlug.rules ∧ p.names = [] := by
  decide +kernel

theorem season_effective (context : Dict) : specificDecl c!"season" ∈ effectiveRules guessitPlugs context := by
  -- the class is registered, so a rule of the class is effective; it is one of two, and the first comes before the second
  rw [mem_effectiveRules]
  have e : guessitPlugs = (guessitPlugs.take 26) ++ processorsPlug :: (guessitPlugs.drop 27) := by rfl
  have hoff : (!processorsPlug.off context) = true := rfl
  have hbefore : ∀ p ∈ guessitPlugs.take 26, ∀ r ∈ p.rules, r.cls ≠ .RemoveLessSpecificSeasonEpisode := by decide +kernel
  refine ⟨Registered (guessitPlugs.take 26) context ++ processorsPlug.rules.take 2,
    processorsPlug.rules.drop 3 ++ Registered (guessitPlugs.drop 27) context, ?_, ?_⟩
  · conv => lhs; rw [e]
    unfold Registered
    rw [List.filter_append, List.filter_cons_of_pos (p := fun p => !Plug.off context p) hoff, List.flatMap_append, List.flatMap_cons]
    have : processorsPlug.rules = processorsPlug.rules.take 2 ++ specificDecl c!"season" :: processorsPlug.rules.drop 3 := rfl
    conv => lhs; rw [this]
    simp only [List.append_assoc, List.cons_append]
  · intro x hx
    rcases List.mem_append.1 hx with hx | hx
    · obtain ⟨p, hp, hr⟩ := List.mem_flatMap.1 hx
      exact hbefore p (List.mem_filter.1 hp).1 x hr
    · have : ∀ x ∈ processorsPlug.rules.take 2, x.cls ≠ .RemoveLessSpecificSeasonEpisode := by decide +kernel
      exact this x hx

/-- C110 (counterexample): guessit registers a rule that keeps the most specific episode, but as an instance of the class of the
rule registered just before for seasons.  It never has its turn, whatever the options; the one for seasons always has. -/
theorem C110_counterexample {shuffle : List (Decl Cls) → List (Decl Cls)} (hs : Shuffles shuffle) (context : Dict) :
    specificDecl c!"episode" ∈ processorsPlug.rules ∧ processorsPlug.off context = false ∧
    specificDecl c!"season" ∈ rulesRun shuffle context ∧
    ∀ r ∈ (schedule shuffle (effectiveRules guessitPlugs context)).1, r ≠ specificDecl c!"episode" := by
  refine ⟨specific_registered.2, rfl, ?_, ?_⟩
  · unfold rulesRun
    rw [List.mem_filter, hs.mem]
    exact ⟨season_effective context, rfl⟩
  · intro r hr e
    have := (effectiveRules_nodup guessitPlugs context).inj (season_effective context) (hs.mem.1 hr) (by rw [e]; rfl)
    rw [e] at this
    exact absurd this (by decide)

/-- Two file parts, `S01E05` in the first one, `E07` with more properties in the second one. -/
def episodeState : Ms where
  input := c!"S01E05/720p.x264.E07"
  live := [{ id := 0, start := 1, stop := 3, name := some c!"season", val := some (.int 1), tags := [c!"SxxExx"] },
    { id := 1, start := 4, stop := 6, name := some c!"episode", val := some (.int 5), tags := [c!"SxxExx"] },
    { id := 2, start := 7, stop := 11, name := some c!"screen_size" },
    { id := 3, start := 12, stop := 16, name := some c!"video_codec" },
    { id := 4, start := 18, stop := 20, name := some c!"episode", val := some (.int 7) }]
  markers := [{ id := 5, start := 0, stop := 6, name := some c!"path" }, { id := 6, start := 7, stop := 20, name := some c!"path" }]

/-- C110 (effect): the rule would matter: with it the episode of `S01E05` would be kept, without it the other one is. -/
theorem C110_effect : (removeAmbiguous (removeLessSpecific c!"season" episodeState)).live.map Mt.id = [0, 2, 3, 4] ∧
    (removeAmbiguous (removeLessSpecific c!"episode" (removeLessSpecific c!"season" episodeState))).live.map Mt.id = [0, 1, 2, 3] := by
  decide +kernel

/-! ### C111 -/

/-- C111 (counterexample): excluding `alternative_title` switches off the rule that guesses the title, although `title` is not
excluded; the other rules run as before. -/
theorem C111_counterexample {shuffle : List (Decl Cls) → List (Decl Cls)} (hs : Shuffles shuffle) (context : Dict)
    (h : isDisabled context c!"alternative_title" = true) : ∀ r ∈ rulesRun shuffle context, r.cls ≠ .TitleFromPosition := by
  intro r hr e
  unfold rulesRun at hr
  rw [List.mem_filter, e] at hr
  simp [ruleEnabled, h] at hr

/-- `excludes = ['alternative_title']`. -/
def noAlternative : Dict := [(.str c!"excludes", .list [.str c!"alternative_title"])]

/-- The case is real: `title` is not disabled, its sub-rebulk is not, and `TitleFromPosition` is the only rule missing. -/
example : isDisabled noAlternative c!"alternative_title" = true ∧ isDisabled noAlternative c!"title" = false ∧
    titlePlug.off noAlternative = false ∧
    (rulesRun id []).filter (fun r => decide (r.cls ≠ .TitleFromPosition)) = rulesRun id noAlternative := by decide +kernel

/-- The property names whose exclusion can matter to the choice and the order of the rules. -/
def ruleNames : List Str := [
  c!"source", c!"website", c!"title", c!"episode_title", c!"language", c!"subtitle_language", c!"release_group",
  c!"streaming_service", c!"other", c!"audio_bit_rate", c!"video_bit_rate", c!"bonus", c!"film", c!"mimetype", c!"type",
  c!"film_title", c!"audio_profile", c!"audio_channels", c!"video_codec", c!"video_profile", c!"year", c!"alternative_title"]

theorem plug_names : ∀ p ∈ guessitPlugs, p.rules = [] ∨ ∀ n ∈ p.names, n ∈ ruleNames := by decide +kernel

theorem registered_congr {c c' : Dict} (h : ∀ n ∈ ruleNames, isDisabled c n = isDisabled c' n) :
    Registered guessitPlugs c = Registered guessitPlugs c' := by
  have key : ∀ plugs : List (Plug Cls), (∀ p ∈ plugs, p.rules = [] ∨ ∀ n ∈ p.names, n ∈ ruleNames) →
      Registered plugs c = Registered plugs c' := by
    intro plugs
    induction plugs with
    | nil => intro _; rfl
    | cons p ps ih =>
      intro hp
      have ih := ih fun q hq => hp q (List.mem_cons_of_mem _ hq)
      unfold Registered at ih ⊢
      rcases hp p (by simp) with hr | hr
      · rw [List.filter_cons, List.filter_cons]
        split <;> split <;> simp only [List.flatMap_cons, hr, List.nil_append, ih]
      · have ho : p.off c = p.off c' := by
          have ha : p.names.all (isDisabled c) = p.names.all (isDisabled c') := by
            rw [Bool.eq_iff_iff, List.all_eq_true, List.all_eq_true]
            exact ⟨fun hh n hn => by rw [← h n (hr n hn)]; exact hh n hn, fun hh n hn => by rw [h n (hr n hn)]; exact hh n hn⟩
          unfold Plug.off; rw [ha]
        rw [List.filter_cons, List.filter_cons, ho]
        split <;> simp only [List.flatMap_cons, ih]
  exact key guessitPlugs plug_names

/-- C111 (what is guaranteed): which rules run, and in which order, depends on the options only through the `type` option and
whether those twenty-two names are disabled; excluding any other property changes nothing. -/
theorem C111_unaffected_partial (shuffle : List (Decl Cls) → List (Decl Cls)) (c c' : Dict)
    (h : ∀ n ∈ ruleNames, isDisabled c n = isDisabled c' n) (ht : c.getD (.str c!"type") = c'.getD (.str c!"type")) :
    rulesRun shuffle c = rulesRun shuffle c' := by
  unfold rulesRun
  rw [effectiveRules_eq, effectiveRules_eq, registered_congr h]
  congr 1
  funext r
  unfold ruleEnabled
  have e : ∀ n, n ∈ ruleNames → isDisabled c n = isDisabled c' n := h
  rw [ht, e c!"film_title" (by decide), e c!"audio_profile" (by decide), e c!"audio_channels" (by decide),
    e c!"video_codec" (by decide), e c!"video_profile" (by decide), e c!"year" (by decide), e c!"subtitle_language" (by decide),
    e c!"language" (by decide), e c!"alternative_title" (by decide)]

/-- Two contexts that differ and meet the hypotheses: `screen_size` and `size` are excluded in one of them. -/
example : ∀ n ∈ ruleNames, isDisabled [(.str c!"excludes", .list [.str c!"screen_size", .str c!"size"])] n = isDisabled [] n := by decide +kernel

/-- C111 (each name matters): excluding any one of these names changes the rules that run, but for the two bit rates, which have
to be excluded together. -/
theorem C111_names : ∀ n ∈ ruleNames, n ≠ c!"audio_bit_rate" → n ≠ c!"video_bit_rate" →
    rulesRun id [(.str c!"excludes", .list [.str n])] ≠ rulesRun id [] := by decide +kernel

end Guessit
