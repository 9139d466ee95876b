import Verif.Model.Engine
import Verif.Props.Refine
import Verif.Props.Title
import Verif.Props.Schedule

/-! # What each rule of the engine may leave

For each class of rules, where the matches it leaves come from: kept (possibly moved, retagged, with another value), or made
by the rule, with the names listed by `births`. -/

namespace Guessit
open Spec

/-- Where a match made by a rule comes from. -/
inductive Root where
  | text
  | named (n : Str)
  /-- a match of the same name, given another number -/
  | kin (n : Str)
  | weak
  | any
  deriving DecidableEq

/-- A name under which a rule may add matches: the properties that must not be disabled, and whether the match is private. -/
structure Birth where
  into : Str
  root : Root := .text
  needs : List Str := []
  hidden : Bool := false

/-- The tag of weak episodes. -/
def Weak (m : Mt) : Prop := c!"weak-episode" ∈ m.tags

/-- `m` is `m'`, possibly moved or retagged. -/
def KeptN (m' m : Mt) : Prop := m.name = m'.name ∧ (Weak m → Weak m') ∧ (m'.priv = true → m.priv = true)

/-- The names whose matches a rule may give another value. -/
def movable : List Str := [c!"screen_size"]

/-- The value of `m` is made as that of `m'`, unless it is a match whose value rules change. -/
def SteadyV (m' m : Mt) : Prop := (m.val = m'.val ∧ m.fmt = m'.fmt) ∨ (m'.name = some c!"source" ∧ m.val = some (.str c!"Ultra HD Blu-ray")) ∨
  ∃ n ∈ movable, m'.name = some n

/-- `m` is `m'`, possibly moved, retagged or cut, with its value. -/
def KeptL (m' m : Mt) : Prop := KeptN m' m ∧ SteadyV m' m

/-- `m` is `m'`, possibly moved or retagged, with its value and its text. -/
structure KeptV (m' m : Mt) : Prop where
  named : KeptN m' m
  steady : SteadyV m' m
  left : m.rawA = m'.rawA
  right : m.rawB = m'.rawB

/-- `m` is made out of `before` as `k` says. -/
def Birth.Makes (k : Birth) (g : Dict) (before : List Mt) (m : Mt) : Prop :=
  (∀ n ∈ k.needs, isDisabled g n = false) ∧ m.name = some k.into ∧ (k.hidden = true → m.priv = true) ∧
    match k.root with
    | .text => ¬ Weak m
    | .named n => ∃ m' ∈ before, m'.name = some n ∧ (Weak m → Weak m') ∧ (m'.priv = true → m.priv = true) ∧ m.val = m'.val ∧ m.fmt = m'.fmt ∧
        m.rawA = m'.rawA ∧ m.rawB = m'.rawB
    | .kin n => ∃ m' ∈ before, m'.name = some n ∧ (Weak m → Weak m')
    | .weak => ∃ m' ∈ before, Weak m'
    | .any => ∃ m' ∈ before, Weak m → Weak m'

/-- The name of an existing match, given to another text. -/
def Echo (before : List Mt) (m : Mt) : Prop := ¬ Weak m ∧ ∃ m' ∈ before, m.name = m'.name

open Cls in
/-- The names under which a rule may add matches. -/
def births : Cls → List Birth
  | CountValidator => [{ into := c!"episode_count", root := .named c!"count" }, { into := c!"season_count", root := .named c!"count" }]
  | EpisodeNumberSeparatorRange => [{ into := c!"episodeSeparator", hidden := true }, { into := c!"episode", root := .kin c!"episode" }]
  | SeasonSeparatorRange => [{ into := c!"seasonSeparator", hidden := true }, { into := c!"season", root := .kin c!"season" }]
  | SeePatternRange => [{ into := c!"episode", root := .kin c!"episode" }]
  | RenameToAbsoluteEpisode => [{ into := c!"absolute_episode", root := .any }]
  | RemoveWeak => [{ into := c!"episode", root := .weak }]
  | RenameToDiscMatch => [{ into := c!"disc", needs := [c!"disc"] },
      { into := c!"discMarker", root := .named c!"episodeMarker", needs := [c!"disc"] }]
  | PostProcessScreenSize => [{ into := c!"frame_rate", needs := [c!"frame_rate"] }, { into := c!"aspect_ratio", needs := [c!"aspect_ratio"] }]
  | TitleFromPosition => [{ into := c!"title" }, { into := c!"alternative_title" }, { into := c!"episode_title" }]
  | EpisodeTitleFromPosition => [{ into := c!"episode_title" }]
  | TitleToEpisodeTitle => [{ into := c!"episode_title", root := .named c!"title" }]
  | AlternativeTitleReplace => [{ into := c!"episode_title", root := .named c!"alternative_title" }]
  | RenameEpisodeTitleWhenMovieType => [{ into := c!"alternative_title", root := .named c!"episode_title" }]
  | Filepart3EpisodeTitle => [{ into := c!"title" }]
  | Filepart2EpisodeTitle => [{ into := c!"title" }]
  | SubtitlePrefixLanguageRule => [{ into := c!"subtitle_language", root := .named c!"language" }]
  | SubtitleSuffixLanguageRule => [{ into := c!"subtitle_language", root := .named c!"language" }]
  | SubtitleExtensionRule => [{ into := c!"subtitle_language", root := .named c!"language" }]
  | DashSeparatedReleaseGroup => [{ into := c!"release_group" }]
  | SceneReleaseGroup => [{ into := c!"release_group" }]
  | AnimeReleaseGroup => [{ into := c!"release_group" }]
  | ProperCountRule => [{ into := c!"proper_count" }]
  | RenameAnotherToOther => [{ into := c!"other", root := .named c!"another" }]
  | BitRateTypeRule => [{ into := c!"video_bit_rate", root := .named c!"audio_bit_rate", needs := [c!"video_bit_rate"] }]
  | BonusTitleRule => [{ into := c!"bonus_title" }]
  | FilmTitleRule => [{ into := c!"film_title" }]
  | SeasonYear => [{ into := c!"year", root := .named c!"season" }]
  | YearSeason => [{ into := c!"season", root := .named c!"year" }]
  | Cls.Mimetype => [{ into := c!"mimetype" }]
  | TypeProcessor => [{ into := c!"type" }]
  | _ => []

/-- What the class may leave of the matches `before`. -/
def TracedV (g : Dict) (cls : Cls) (before : List Mt) (m : Mt) : Prop :=
  (∃ m' ∈ before, KeptV m' m) ∨ (∃ k ∈ births cls, k.Makes g before m) ∨ (cls = .EquivalentHoles ∧ (Echo before m ∨ ∃ m' ∈ before, KeptN m' m)) ∨
    (cls ∈ [Cls.StripSeparators, .EnlargeGroupMatches] ∧ ∃ m' ∈ before, KeptL m' m)

theorem KeptN.refl (m : Mt) : KeptN m m := ⟨rfl, id, id⟩

theorem KeptN.trans {a b c : Mt} (h1 : KeptN a b) (h2 : KeptN b c) : KeptN a c :=
  ⟨h2.1.trans h1.1, fun h => h1.2.1 (h2.2.1 h), fun h => h2.2.2 (h1.2.2 h)⟩

theorem KeptV.refl (m : Mt) : KeptV m m := ⟨KeptN.refl m, Or.inl ⟨rfl, rfl⟩, rfl, rfl⟩

theorem KeptV.same {m' m : Mt} (h : KeptN m' m) (hv : m.val = m'.val := by rfl) (hf : m.fmt = m'.fmt := by rfl)
    (ha : m.rawA = m'.rawA := by rfl) (hb : m.rawB = m'.rawB := by rfl) : KeptV m' m := ⟨h, Or.inl ⟨hv, hf⟩, ha, hb⟩

theorem KeptL.same {m' m : Mt} (h : KeptN m' m) (hv : m.val = m'.val := by rfl) (hf : m.fmt = m'.fmt := by rfl) : KeptL m' m := ⟨h, Or.inl ⟨hv, hf⟩⟩

theorem KeptL.refl (m : Mt) : KeptL m m := KeptL.same (KeptN.refl m)

theorem KeptL.trans {a b c : Mt} (h1 : KeptL a b) (h2 : KeptL b c) : KeptL a c := by
  refine ⟨h1.1.trans h2.1, ?_⟩
  rcases h2.2 with h' | ⟨hn, h'⟩ | ⟨n, hn, h'⟩
  · rcases h1.2 with h | ⟨hn, h⟩ | h
    · exact Or.inl ⟨h'.1.trans h.1, h'.2.trans h.2⟩
    · exact Or.inr (Or.inl ⟨hn, h'.1.trans h⟩)
    · exact Or.inr (Or.inr h)
  · exact Or.inr (Or.inl ⟨h1.1.1.symm.trans hn, h'⟩)
  · exact Or.inr (Or.inr ⟨n, hn, h1.1.1.symm.trans h'⟩)

theorem KeptV.loose {m' m : Mt} (h : KeptV m' m) : KeptL m' m := ⟨h.1, h.2⟩

theorem KeptV.trans {a b c : Mt} (h1 : KeptV a b) (h2 : KeptV b c) : KeptV a c :=
  have h := h1.loose.trans h2.loose
  ⟨h.1, h.2, h2.left.trans h1.left, h2.right.trans h1.right⟩

/-- The state is only changed in its matches, and those are traced. -/
structure FollowsV (g : Dict) (cls : Cls) (s s' : Ms) : Prop where
  input : s'.input = s.input
  markers : s'.markers = s.markers
  live : ∀ m ∈ s'.live, TracedV g cls s.live m

theorem follows_subset {g : Dict} {cls : Cls} {s : Ms} {l : List Mt} (h : ∀ m ∈ l, m ∈ s.live) : FollowsV g cls s { s with live := l } :=
  ⟨rfl, rfl, fun m hm => Or.inl ⟨m, h m hm, KeptV.refl m⟩⟩

theorem follows_self {g : Dict} {cls : Cls} {s : Ms} : FollowsV g cls s s := follows_subset fun _ h => h

theorem follows_dropping {g : Dict} {cls : Cls} {s : Ms} {ms : List Mt} : FollowsV g cls s (dropping s ms) :=
  follows_subset fun _ h => removeAll_subset h

theorem follows_kept {g : Dict} {cls : Cls} {s : Ms} {l : List Mt} (h : ∀ m ∈ l, ∃ m' ∈ s.live, KeptV m' m) :
    FollowsV g cls s { s with live := l } := ⟨rfl, rfl, fun m hm => Or.inl (h m hm)⟩

theorem follows_loose {g : Dict} {cls : Cls} {s : Ms} {l : List Mt} (hc : cls ∈ [Cls.StripSeparators, .EnlargeGroupMatches])
    (h : ∀ m ∈ l, ∃ m' ∈ s.live, KeptL m' m) : FollowsV g cls s { s with live := l } := ⟨rfl, rfl, fun m hm => Or.inr (Or.inr (Or.inr ⟨hc, h m hm⟩))⟩

theorem follows_ok {g : Dict} {cls : Cls} {s s' t : Ms} (h : FollowsV g cls s t) (he : (Except.ok t : Except PyErr Ms) = .ok s') :
    FollowsV g cls s s' := by cases he; exact h

theorem orRaise_ok {x : PyErr} {o : Option Ms} {s' : Ms} (h : orRaise x o = .ok s') : o = some s' := by
  cases o with
  | none => cases h
  | some t => cases h; rfl

theorem not_weak_of {m : Mt} {t : List Str} (h : m.tags = t) (hd : c!"weak-episode" ∉ t) : ¬ Weak m := by
  unfold Weak; rw [h]; exact hd

/-- What the rules need of the environment: lowering a text does not make it empty or non-empty; what belongs to a screen size,
and what belongs to a marked episode, is not tagged as a weak episode. -/
structure Natural (e : RuleEnv) : Prop where
  lower : ∀ t, e.uni.lower t = [] ↔ t = []
  sizes : ∀ s m c, m ∈ s.live → m.name = some c!"screen_size" → c ∈ (e.kin s).children m → ¬ Weak c
  marked : ∀ s m c, m ∈ s.live → m.name = some c!"episodeMarker" → c ∈ (e.kin s).children ((e.kin s).initiator m) → ¬ Weak c

/-! ### The rules that do not only remove -/

theorem collect_adds {f : Mt → Option (List Mt × List Mt)} : ∀ {l : List Mt} {r : List Mt × List Mt}, collect f l = some r →
    ∀ m ∈ r.2, ∃ x r', f x = some r' ∧ m ∈ r'.2 := by
  intro l
  induction l with
  | nil => intro r h m hm; rw [collect] at h; cases h; simp at hm
  | cons x l ih =>
    intro r h m hm
    rw [collect] at h
    split at h
    · rename_i a b ha hb
      cases h
      rcases List.mem_append.1 hm with hm | hm
      · exact ⟨x, a, ha, hm⟩
      · exact ih hb m hm
    · cases h

theorem seePatternRange_adds {rs : List Str} {s s' : Ms} (h : seePatternRange rs s = some s') : s'.input = s.input ∧ s'.markers = s.markers ∧
    ∀ m ∈ s'.live, m ∈ s.live ∨ ∃ m' ∈ s.live, m'.name = some c!"episode" ∧ ∃ v, m = { m' with val := v } := by
  unfold seePatternRange at h
  split at h
  · rename_i a ha
    cases h
    refine ⟨rfl, rfl, fun m hm => ?_⟩
    rcases mem_appendAll hm with hm | hm
    · exact Or.inl (removeAll_subset hm)
    · obtain ⟨x, r', hr, hm'⟩ := collect_adds ha m hm
      exact Or.inr (seeStep_copies hr m hm')
  · cases h

theorem follow_see {g : Dict} {rs : List Str} {s s' : Ms} (h : seePatternRange rs s = some s') : FollowsV g .SeePatternRange s s' := by
  obtain ⟨h1, h2, h3⟩ := seePatternRange_adds h
  refine ⟨h1, h2, fun m hm => ?_⟩
  rcases h3 m hm with h | ⟨m', hm', hn, v, rfl⟩
  · exact Or.inl ⟨m, h, KeptV.refl m⟩
  refine Or.inr (Or.inl ?_)
  · exact ⟨{ into := c!"episode", root := .kin c!"episode" }, List.mem_singleton.2 rfl, by simp, hn, by simp, m', hm', hn, id⟩

theorem separatorRange_frame {rs : List Str} {prop : Str} {canStart : Mt → Bool} {s s' : Ms}
    (h : separatorRange rs prop canStart s = some s') : s'.input = s.input ∧ s'.markers = s.markers := by
  unfold separatorRange at h
  split at h
  · cases h; exact ⟨rfl, rfl⟩
  · cases h

theorem follow_range {g : Dict} {cls : Cls} {rs : List Str} {prop : Str} {canStart : Mt → Bool} {s s' : Ms}
    (hk : births cls = [{ into := sepName prop, hidden := true }, { into := prop, root := .kin prop }])
    (h : separatorRange rs prop canStart s = some s') : FollowsV g cls s s' := by
  refine ⟨(separatorRange_frame h).1, (separatorRange_frame h).2, fun m hm => ?_⟩
  rcases separatorRange_adds h m hm with h1 | ⟨m', hm', hn, v, rfl⟩ | ⟨hn, ht, hpr, _, _⟩
  · exact Or.inl ⟨m, h1, KeptV.refl m⟩
  · exact Or.inr (Or.inl ⟨{ into := prop, root := .kin prop }, by rw [hk]; simp, by simp, hn, by simp, m', hm', hn, id⟩)
  · refine Or.inr (Or.inl ⟨_, by rw [hk]; exact List.mem_cons_self, by simp, hn, fun _ => hpr, ?_⟩)
    show ¬ Weak m
    rw [Weak, ht]; decide

theorem weakStep_adds {kin : Kin} {s : Ms} {anime : Bool} {acc : List Mt × List Mt} {part m : Mt} (h : m ∈ (weakStep kin s anime acc part).2) :
    m ∈ acc.2 ∨ ∃ m' ∈ s.live, ∃ t, (Weak { m' with tags := t } → Weak m') ∧ m = { m' with tags := t } := by
  have anm : m ∈ ((animeEpisodes s part).map fun m => { m with tags := m.tags ++ [c!"anime"] }) →
      ∃ m' ∈ s.live, ∃ t, (Weak { m' with tags := t } → Weak m') ∧ m = { m' with tags := t } := by
    intro h
    obtain ⟨x, hx, rfl⟩ := List.mem_map.1 h
    refine ⟨x, (mem_rangeOf.1 hx).1, _, ?_, rfl⟩
    intro hw
    have hw' : c!"weak-episode" ∈ x.tags ++ [c!"anime"] := hw
    rw [List.mem_append] at hw'
    rcases hw' with hw' | hw'
    · exact hw'
    · exact absurd hw' (by decide)
  have rng : m ∈ ((rangedEpisodes kin s part).map fun m => { m with tags := [] }) →
      ∃ m' ∈ s.live, ∃ t, (Weak { m' with tags := t } → Weak m') ∧ m = { m' with tags := t } := by
    intro h
    obtain ⟨x, hx, rfl⟩ := List.mem_map.1 h
    refine ⟨x, (mem_rangeOf.1 hx).1, _, ?_, rfl⟩
    intro hw
    exact absurd hw (List.not_mem_nil)
  unfold weakStep at h
  dsimp only at h
  split at h
  · split at h
    · exact Or.inl h
    · rcases List.mem_append.1 h with h | h
      · exact Or.inl h
      · exact Or.inr (anm h)
  · split at h
    · exact Or.inl h
    · split at h
      · split at h <;> exact Or.inl h
      · have h2 : m ∈ acc.2 ++ (rangedEpisodes kin s part).map fun m => { m with tags := [] } := by split at h <;> exact h
        rcases List.mem_append.1 h2 with h3 | h3
        · exact Or.inl h3
        · exact Or.inr (rng h3)

theorem weakFold_adds {kin : Kin} {s : Ms} {anime : Bool} : ∀ {parts : List Mt} {acc : List Mt × List Mt} {m : Mt},
    m ∈ (parts.foldl (weakStep kin s anime) acc).2 →
    m ∈ acc.2 ∨ ∃ m' ∈ s.live, ∃ t, (Weak { m' with tags := t } → Weak m') ∧ m = { m' with tags := t } := by
  intro parts
  induction parts with
  | nil => intro acc m h; exact Or.inl h
  | cons part parts ih =>
    intro acc m h
    rcases ih h with h1 | h1
    · exact weakStep_adds h1
    · exact Or.inr h1

theorem weakConflicts_adds {kin : Kin} {type : Option Str} {s : Ms} {m : Mt} (h : m ∈ (weakConflicts kin type s).live) :
    m ∈ s.live ∨ ∃ m' ∈ s.live, ∃ t, (Weak { m' with tags := t } → Weak m') ∧ m = { m' with tags := t } := by
  unfold weakConflicts at h
  split at h
  · exact Or.inl h
  · rcases mem_appendAll h with h | h
    · exact Or.inl (removeAll_subset h)
    · rcases weakFold_adds h with h | h
      · exact absurd h (List.not_mem_nil)
      · exact Or.inr h

theorem follow_weak {g : Dict} {kin : Kin} {type : Option Str} {s : Ms} : FollowsV g .WeakConflictSolver s (weakConflicts kin type s) := by
  refine ⟨by unfold weakConflicts; split <;> rfl, by unfold weakConflicts; split <;> rfl, fun m hm => Or.inl ?_⟩
  rcases weakConflicts_adds hm with h | ⟨m', hm', t, hw, rfl⟩
  · exact ⟨m, h, KeptV.refl m⟩
  · exact ⟨m', hm', KeptV.same ⟨rfl, hw, id⟩⟩

theorem firstTrue_pos {l : List Mt} {p : Mt} (h : firstTrue l = some p) : p.start < p.stop := by
  cases l with
  | nil => simp [firstTrue] at h
  | cons m l =>
    rw [firstTrue] at h
    split at h
    · cases h; simpa using ‹_›
    · cases h

theorem removeWeak_adds {lower : Str → Str} {toInt : MVal → Option Int} {words : List Str} {s : Ms} {m : Mt}
    (h : m ∈ (removeWeak lower toInt words s).live) :
    m ∈ s.live ∨ ∃ weak ∈ s.live, Weak weak ∧ ∃ p ∈ s.live, (p.start < p.stop ∧ p.stop ≤ weak.start) ∧ ∃ n, m = weakCopy weak p n := by
  unfold removeWeak at h
  dsimp only at h
  rcases mem_appendAll h with h | h
  · exact Or.inl (removeAll_subset h)
  · right
    obtain ⟨r, hr, hm⟩ := List.mem_flatMap.1 h
    obtain ⟨part, _, rfl⟩ := List.mem_map.1 hr
    unfold removeWeakPart at hm
    dsimp only at hm
    split at hm
    · exact absurd hm (List.not_mem_nil)
    · rename_i weak rest hw
      have hweak := mem_rangeOf.1 (hw ▸ List.mem_cons_self .. :
        weak ∈ rangeOf s.input s.live part.start part.stop fun m => m.tagged c!"weak-episode")
      split at hm
      · exact absurd hm (List.not_mem_nil)
      · rename_i p hp
        split at hm
        · exact absurd hm (List.not_mem_nil)
        · dsimp only at hm
          split at hm
          · have hpm := mem_previous.1 (Guessit.firstTrue_mem hp)
            rw [Option.mem_toList] at hm
            obtain ⟨n, _, rfl⟩ := Option.map_eq_some_iff.1 hm
            exact ⟨weak, hweak.1, by simpa [Mt.tagged, Weak] using hweak.2.2.2.2, p, hpm.1.1, ⟨firstTrue_pos hp, hpm.1.2.1⟩, n, rfl⟩
          · exact absurd hm (List.not_mem_nil)

theorem follow_removeWeak {g : Dict} {lower : Str → Str} {toInt : MVal → Option Int} {words : List Str} {s : Ms} :
    FollowsV g .RemoveWeak s (removeWeak lower toInt words s) := by
  refine ⟨rfl, rfl, fun m hm => ?_⟩
  rcases removeWeak_adds hm with h | ⟨w, hw, hwk, p, _, _, n, rfl⟩
  · exact Or.inl ⟨m, h, KeptV.refl m⟩
  · exact Or.inr (Or.inl ⟨_, List.mem_singleton.2 rfl, by simp, rfl, by simp, w, hw, hwk⟩)

/-- A renamed match. -/
theorem follow_rename {g : Dict} {cls : Cls} {s : Ms} {name from' : Str} {ms : List Mt} {k : Birth} (hk : k ∈ births cls)
    (hroot : k.root = .named from') (hh : k.hidden = false) (hinto : k.into = name) (hneeds : ∀ n ∈ k.needs, isDisabled g n = false)
    (hms : ∀ m ∈ ms, m ∈ s.live ∧ m.name = some from') : FollowsV g cls s { s with live := renameAll s.input name s.live ms } := by
  refine ⟨rfl, rfl, fun m hm => ?_⟩
  rcases renameAll_mem hm with h | ⟨x, hx, rfl⟩
  · exact Or.inl ⟨m, h, KeptV.refl m⟩
  · refine Or.inr (Or.inl ⟨k, hk, hneeds, by rw [hinto], by simp [hh], ?_⟩)
    rw [hroot]
    exact ⟨x, (hms x hx).1, (hms x hx).2, id, id, rfl, rfl, rfl, rfl⟩

theorem follow_count {g : Dict} {s : Ms} : FollowsV g .CountValidator s (countValidator s) := by
  refine ⟨rfl, rfl, fun m hm => ?_⟩
  unfold countValidator at hm
  dsimp only at hm
  rcases renameAll_mem hm with hm | ⟨x, hx, rfl⟩
  · rcases renameAll_mem hm with hm | ⟨x, hx, rfl⟩
    · exact Or.inl ⟨m, removeAll_subset hm, KeptV.refl _⟩
    · have hx' := mem_named.1 (List.mem_filter.1 hx).1
      exact Or.inr (Or.inl ⟨_, List.mem_cons_self .., by simp, rfl, by simp, x, hx'.1, hx'.2, id, id, rfl, rfl, rfl, rfl⟩)
  · have hx' := mem_named.1 (List.mem_filter.1 hx).1
    exact Or.inr (Or.inl ⟨{ into := c!"season_count", root := .named c!"count" }, by simp [births], by simp, rfl, by simp, x, hx'.1, hx'.2, id, id, rfl, rfl, rfl, rfl⟩)

theorem absoluteCandidates_mem {s : Ms} {part m : Mt} (h : m ∈ absoluteCandidates s part) : m ∈ s.live := by
  unfold absoluteCandidates at h
  split at h
  · exact absurd h (List.not_mem_nil)
  · exact (List.mem_filter.1 (List.mem_filter.1 h).1).1

theorem renameAbsolute_adds {kin : Kin} {s s' : Ms} (h : renameAbsolute kin s = some s') : s'.input = s.input ∧ s'.markers = s.markers ∧
    ∀ m ∈ s'.live, m ∈ s.live ∨ ∃ m' ∈ s.live, m = { m' with name := some c!"absolute_episode" } := by
  have ep : ∀ i m, m ∈ episodesOf kin s i → m ∈ s.live := fun i m hm => (mem_named.1 (List.mem_filter.1 hm).1).1
  unfold renameAbsolute at h
  split at h
  · split at h
    · cases h; exact ⟨rfl, rfl, fun m hm => Or.inl hm⟩
    · dsimp only at h
      split at h
      · cases h; exact ⟨rfl, rfl, fun m hm => Or.inl hm⟩
      · split at h
        · split at h
          · cases h
            refine ⟨rfl, rfl, fun m hm => ?_⟩
            rcases renameAll_mem hm with hm | ⟨x, hx, rfl⟩
            · exact Or.inl hm
            · exact Or.inr ⟨x, ep _ _ hx, rfl⟩
          · split at h
            · cases h
              refine ⟨rfl, rfl, fun m hm => ?_⟩
              rcases renameAll_mem hm with hm | ⟨x, hx, rfl⟩
              · exact Or.inl hm
              · exact Or.inr ⟨x, ep _ _ hx, rfl⟩
            · cases h; exact ⟨rfl, rfl, fun m hm => Or.inl hm⟩
        · cases h
  · cases h
    refine ⟨rfl, rfl, fun m hm => ?_⟩
    rcases renameAll_mem (removeAll_subset hm) with hm | ⟨x, hx, rfl⟩
    · exact Or.inl hm
    · obtain ⟨part, _, hx⟩ := List.mem_flatMap.1 hx
      split at hx
      · exact absurd hx (List.not_mem_nil)
      · exact Or.inr ⟨x, absoluteCandidates_mem hx, rfl⟩

theorem follow_absolute {g : Dict} {kin : Kin} {s s' : Ms} (h : renameAbsolute kin s = some s') : FollowsV g .RenameToAbsoluteEpisode s s' := by
  obtain ⟨h1, h2, h3⟩ := renameAbsolute_adds h
  refine ⟨h1, h2, fun m hm => ?_⟩
  rcases h3 m hm with h | ⟨m', hm', rfl⟩
  · exact Or.inl ⟨m, h, KeptV.refl m⟩
  · exact Or.inr (Or.inl ⟨_, List.mem_singleton.2 rfl, by simp, rfl, by simp, m', hm', id⟩)

theorem mem_sortValues {input : Str} {l : List Mt} {m : Mt} : m ∈ sortValues input l ↔ m ∈ l := (sortBy_perm _ _).mem_iff

theorem follow_disc {g : Dict} {kin : Kin} {lower : Str → Str} {s : Ms}
    (hc : ∀ m c, m ∈ s.live → m.name = some c!"episodeMarker" → c ∈ kin.children (kin.initiator m) → ¬ Weak c) :
    FollowsV g .RenameToDiscMatch s (renameDisc kin lower (isDisabled g c!"disc") s) := by
  unfold renameDisc
  dsimp only
  split
  · exact follows_dropping
  · rename_i hd
    have hd' : ∀ n ∈ [c!"disc"], isDisabled g n = false := by simpa using hd
    refine ⟨rfl, rfl, fun m hm => ?_⟩
    rcases renameAll_mem hm with hm | ⟨x, hx, rfl⟩
    · rcases renameAll_mem hm with hm | ⟨x, hx, rfl⟩
      · exact Or.inl ⟨m, hm, KeptV.refl _⟩
      · obtain ⟨k, hk, hx⟩ := List.mem_flatMap.1 hx
        have hx' := mem_named.1 (mem_sortValues.1 hx)
        have hk' := mem_named.1 (List.mem_filter.1 hk).1
        exact Or.inr (Or.inl ⟨_, List.mem_cons_self .., hd', rfl, by simp, hc k x hk'.1 hk'.2 hx'.1⟩)
    · have hx' := mem_named.1 (List.mem_filter.1 hx).1
      exact Or.inr (Or.inl ⟨{ into := c!"discMarker", root := .named c!"episodeMarker", needs := [c!"disc"] }, by simp [births], hd', rfl,
        by simp, x, hx'.1, hx'.2, id, id, rfl, rfl, rfl, rfl⟩)

/-! ### Sources, sizes, bit rates -/

theorem ultraStep_kept {s : Ms} {part m : Mt} {st : List Mt × List Mt} (h1 : ∀ x ∈ st.1, ∃ y ∈ s.live, KeptV y x)
    (h2 : ∀ x ∈ st.2, ∃ y ∈ s.live, KeptV y x) (hm : ∃ y ∈ s.live, KeptV y m) :
    (∀ x ∈ (ultraStep s part st m).1, ∃ y ∈ s.live, KeptV y x) ∧ ∀ x ∈ (ultraStep s part st m).2, ∃ y ∈ s.live, KeptV y x := by
  have happ : ∀ x ∈ st.2 ++ [m], ∃ y ∈ s.live, KeptV y x := by
    intro x hx
    rcases List.mem_append.1 hx with hx | hx
    · exact h2 x hx
    · rw [List.mem_singleton] at hx; subst hx; exact hm
  unfold ultraStep
  split
  · exact ⟨h1, h2⟩
  · exact ⟨h1, happ⟩
  · refine ⟨?_, happ⟩
    intro x hx
    obtain ⟨z, hz, rfl⟩ := List.mem_map.1 hx
    obtain ⟨y, hy, hk⟩ := h1 z hz
    refine ⟨y, hy, ?_⟩
    split
    · exact hk.trans (KeptV.same ⟨rfl, id, fun _ => rfl⟩)
    · exact hk

theorem ultraFold_kept {s : Ms} {part : Mt} : ∀ {ms : List Mt} {st : List Mt × List Mt}, (∀ x ∈ st.1, ∃ y ∈ s.live, KeptV y x) →
    (∀ x ∈ st.2, ∃ y ∈ s.live, KeptV y x) → (∀ m ∈ ms, ∃ y ∈ s.live, KeptV y m) →
    (∀ x ∈ (ms.foldl (ultraStep s part) st).1, ∃ y ∈ s.live, KeptV y x) ∧
      ∀ x ∈ (ms.foldl (ultraStep s part) st).2, ∃ y ∈ s.live, KeptV y x := by
  intro ms
  induction ms with
  | nil => intro st h1 h2 _; exact ⟨h1, h2⟩
  | cons m ms ih =>
    intro st h1 h2 hm
    have := ultraStep_kept (part := part) h1 h2 (hm m (by simp))
    exact ih this.1 this.2 fun x hx => hm x (by simp [hx])

theorem ultraParts_kept {s : Ms} : ∀ {parts : List Mt} {st : List Mt × List Mt}, (∀ x ∈ st.1, ∃ y ∈ s.live, KeptV y x) →
    (∀ x ∈ st.2, ∃ y ∈ s.live, KeptV y x) →
    (∀ x ∈ (parts.foldl (ultraPart s) st).1, ∃ y ∈ s.live, KeptV y x) ∧ ∀ x ∈ (parts.foldl (ultraPart s) st).2, ∃ y ∈ s.live, KeptV y x := by
  intro parts
  induction parts with
  | nil => intro st h1 h2; exact ⟨h1, h2⟩
  | cons part parts ih =>
    intro st h1 h2
    have : (∀ x ∈ (ultraPart s st part).1, ∃ y ∈ s.live, KeptV y x) ∧ ∀ x ∈ (ultraPart s st part).2, ∃ y ∈ s.live, KeptV y x :=
      ultraFold_kept h1 h2 fun m hm => h1 m (mem_rangeOf.1 hm).1
    exact ih this.1 this.2

theorem ultraFold_sources {s : Ms} {part : Mt} : ∀ {ms : List Mt} {st : List Mt × List Mt}, (∀ x ∈ st.2, x.name = some c!"source") →
    (∀ m ∈ ms, m.name = some c!"source") → ∀ x ∈ (ms.foldl (ultraStep s part) st).2, x.name = some c!"source" := by
  intro ms
  induction ms with
  | nil => intro st h _; exact h
  | cons m ms ih =>
    intro st h hm
    refine ih ?_ fun x hx => hm x (by simp [hx])
    have happ : ∀ x ∈ st.2 ++ [m], x.name = some c!"source" := by
      intro x hx
      rcases List.mem_append.1 hx with hx | hx
      · exact h x hx
      · rw [List.mem_singleton] at hx; subst hx; exact hm _ (by simp)
    unfold ultraStep
    split
    · exact h
    · exact happ
    · exact happ

theorem ultraParts_sources {s : Ms} : ∀ {parts : List Mt} {st : List Mt × List Mt}, (∀ x ∈ st.2, x.name = some c!"source") →
    ∀ x ∈ (parts.foldl (ultraPart s) st).2, x.name = some c!"source" := by
  intro parts
  induction parts with
  | nil => intro st h; exact h
  | cons part parts ih =>
    intro st h
    refine ih (ultraFold_sources h fun m hm => ?_)
    have := (mem_rangeOf.1 hm).2
    simp only [isBluray, Bool.and_eq_true, decide_eq_true_eq] at this
    tauto

theorem follow_ultra {g : Dict} {s : Ms} : FollowsV g .UltraHdBlurayRule s (ultraHdBluray s) := by
  have := ultraParts_kept (s := s) (parts := pathParts s) (st := (s.live, [])) (fun x hx => ⟨x, hx, KeptV.refl x⟩)
    (fun x hx => absurd hx (List.not_mem_nil))
  refine follows_kept fun m hm => ?_
  rcases mem_appendAll hm with hm | hm
  · exact this.1 m (removeAll_subset hm)
  · obtain ⟨x, hx, rfl⟩ := List.mem_map.1 hm
    obtain ⟨y, hy, hk⟩ := this.2 x hx
    have hn := ultraParts_sources (s := s) (parts := pathParts s) (st := (s.live, [])) (fun x hx => absurd hx (List.not_mem_nil)) x hx
    exact ⟨y, hy, hk.trans ⟨⟨rfl, id, id⟩, Or.inr (Or.inl ⟨hn, rfl⟩), rfl, rfl⟩⟩

theorem resize_kept (e : SizeEnv) (kin : Kin) (input : Str) (m : Mt) : ∃ v, resize e kin input m = { m with val := v } := by
  unfold resize
  split
  · split
    · exact ⟨_, rfl⟩
    · exact ⟨m.val, rfl⟩
  · exact ⟨m.val, rfl⟩

theorem sizeExtras_mem {e : SizeEnv} {kin : Kin} {noFrames noRatio : Bool} {input : Str} {z m : Mt}
    (h : m ∈ sizeExtras e kin noFrames noRatio input z) :
    (noFrames = false ∧ ∃ c ∈ kin.children z, c.name = some c!"frame_rate" ∧ m = { c with fmt := e.frames }) ∨
    (noRatio = false ∧ ∃ v, m = { id := 0, start := z.start, stop := z.stop, name := some c!"aspect_ratio", val := some v }) := by
  unfold sizeExtras at h
  rcases List.mem_append.1 h with h | h
  · left
    split at h
    · exact absurd h (List.not_mem_nil)
    · rename_i hf
      obtain ⟨c, hc, rfl⟩ := List.mem_map.1 h
      have := mem_named.1 hc
      exact ⟨by simpa using hf, c, this.1, this.2, rfl⟩
  · right
    split at h
    · split at h
      · exact absurd h (List.not_mem_nil)
      · rename_i hr
        rw [List.mem_singleton] at h
        exact ⟨by simpa using hr, _, h⟩
    · exact absurd h (List.not_mem_nil)

theorem postProcessSize_adds {e : SizeEnv} {kin : Kin} {noFrames noRatio : Bool} {s s' : Ms}
    (h : postProcessSize e kin noFrames noRatio s = some s') : s'.input = s.input ∧ s'.markers = s.markers ∧
    ∀ m ∈ s'.live, (∃ m' ∈ s.live, ∃ v, m = { m' with val := v }) ∨ ∃ z ∈ s.live, z.name = some c!"screen_size" ∧
      ((noFrames = false ∧ ∃ c ∈ kin.children z, c.name = some c!"frame_rate" ∧ m = { c with fmt := e.frames }) ∨
      (noRatio = false ∧ ∃ v, m = { id := 0, start := z.start, stop := z.stop, name := some c!"aspect_ratio", val := some v })) := by
  unfold postProcessSize at h
  dsimp only at h
  split at h
  · cases h
    refine ⟨rfl, rfl, fun m hm => ?_⟩
    rcases mem_appendAll hm with hm | hm
    · obtain ⟨x, hx, rfl⟩ := List.mem_map.1 hm
      exact Or.inl ⟨x, hx, resize_kept ..⟩
    · obtain ⟨z, hz, hm⟩ := List.mem_flatMap.1 hm
      have hz := mem_named.1 hz
      exact Or.inr ⟨z, hz.1, hz.2, sizeExtras_mem hm⟩
  · cases h

theorem resize_steady (e : SizeEnv) (kin : Kin) (input : Str) (m : Mt) : KeptV m (resize e kin input m) := by
  unfold resize
  split
  · split
    · exact ⟨⟨rfl, id, id⟩, Or.inr (Or.inr ⟨c!"screen_size", by decide, ‹_›⟩), rfl, rfl⟩
    · exact KeptV.refl m
  · exact KeptV.refl m

theorem postProcessSize_kept {e : SizeEnv} {kin : Kin} {noFrames noRatio : Bool} {s s' : Ms}
    (h : postProcessSize e kin noFrames noRatio s = some s') :
    ∀ m ∈ s'.live, (∃ m' ∈ s.live, KeptV m' m) ∨ ∃ z ∈ s.live, z.name = some c!"screen_size" ∧
      ((noFrames = false ∧ ∃ c ∈ kin.children z, c.name = some c!"frame_rate" ∧ m = { c with fmt := e.frames }) ∨
      (noRatio = false ∧ ∃ v, m = { id := 0, start := z.start, stop := z.stop, name := some c!"aspect_ratio", val := some v })) := by
  unfold postProcessSize at h
  dsimp only at h
  split at h
  · cases h
    refine fun m hm => ?_
    rcases mem_appendAll hm with hm | hm
    · obtain ⟨x, hx, rfl⟩ := List.mem_map.1 hm
      exact Or.inl ⟨x, hx, resize_steady ..⟩
    · obtain ⟨z, hz, hm⟩ := List.mem_flatMap.1 hm
      have hz := mem_named.1 hz
      exact Or.inr ⟨z, hz.1, hz.2, sizeExtras_mem hm⟩
  · cases h

theorem follow_size {g : Dict} {e : SizeEnv} {kin : Kin} {s s' : Ms}
    (hc : ∀ m c, m ∈ s.live → m.name = some c!"screen_size" → c ∈ kin.children m → ¬ Weak c)
    (h : postProcessSize e kin (isDisabled g c!"frame_rate") (isDisabled g c!"aspect_ratio") s = some s') :
    FollowsV g .PostProcessScreenSize s s' := by
  obtain ⟨h1, h2, _⟩ := postProcessSize_adds h
  have h3 := postProcessSize_kept h
  refine ⟨h1, h2, fun m hm => ?_⟩
  rcases h3 m hm with ⟨m', hm', hk⟩ | ⟨z, hz, hzn, ⟨hf, c, hcz, hcn, rfl⟩ | ⟨hr, v, rfl⟩⟩
  · exact Or.inl ⟨m', hm', hk⟩
  · exact Or.inr (Or.inl ⟨_, List.mem_cons_self .., by simpa using hf, hcn, by simp, hc z c hz hzn hcz⟩)
  · refine Or.inr (Or.inl ⟨{ into := c!"aspect_ratio", needs := [c!"aspect_ratio"] }, by simp [births], by simpa using hr, rfl, by simp, ?_⟩)
    exact List.not_mem_nil

theorem follow_bitRate {g : Dict} {slow : MVal → Bool} {s : Ms} :
    FollowsV g .BitRateTypeRule s (bitRateType slow (isDisabled g c!"audio_bit_rate") (isDisabled g c!"video_bit_rate") s) := by
  unfold bitRateType
  dsimp only
  split
  · exact follows_dropping
  · split
    · exact follows_dropping
    · rename_i hv
      refine follow_rename (k := { into := c!"video_bit_rate", root := .named c!"audio_bit_rate", needs := [c!"video_bit_rate"] })
        (by simp [births]) rfl rfl rfl (by simpa using hv) fun m hm => mem_named.1 (List.mem_filter.1 hm).1

/-! ### Titles -/

/-- What `TitleBaseRule` makes. -/
def TitleShaped (r : TitleRule) (t : Mt) : Prop :=
  ∃ h n i, t = { titleMt r n h with iname := i } ∧ (n = r.name ∨ some n = r.altName ∨ n = c!"episode_title")

theorem titlesOf_shaped {r : TitleRule} {input : Str} {h : Nat × Nat} {t : Mt} (ht : t ∈ titlesOf r input h) : TitleShaped r t := by
  unfold titlesOf at ht
  split at ht
  · rw [List.mem_singleton] at ht; exact ⟨_, _, _, ht, Or.inl rfl⟩
  · rename_i alt halt
    split at ht
    · exact absurd ht (List.not_mem_nil)
    · split at ht
      · exact absurd ht (List.not_mem_nil)
      · rcases List.mem_cons.1 ht with ht | ht
        · exact ⟨_, _, _, ht, Or.inl rfl⟩
        · obtain ⟨x, _, rfl⟩ := List.mem_map.1 ht
          exact ⟨_, _, _, rfl, Or.inr (Or.inl halt.symm)⟩

theorem checkPart_shaped {r : TitleRule} {type : Option Str} {s : Ms} {extra : Mt → Bool} {part : Mt} {x : List Mt × List Mt}
    (h : checkPart r type s extra part = .ok (some x)) : ∀ t ∈ x.1, TitleShaped r t := by
  obtain ⟨_, hole, _, _, hh, _⟩ := firstFound_some h
  obtain ⟨ts, rm⟩ := x
  obtain ⟨_, _, _, _, rfl, _⟩ := checkHole_some hh
  exact fun t ht => titlesOf_shaped ht

theorem firstTitled_shaped {r : TitleRule} {type : Option Str} {s : Ms} : ∀ {l : List Mt} {x : List Mt × List Mt} {rest : List Mt},
    firstTitled r type s l = .ok (some (x, rest)) → ∀ t ∈ x.1, TitleShaped r t := by
  intro l
  induction l with
  | nil => intro x rest h; cases h
  | cons part l ih =>
    intro x rest h
    rw [firstTitled] at h
    split at h
    · cases h
    · rename_i y hy; cases h; exact checkPart_shaped hy
    · exact ih h

theorem yearTitles_shaped {r : TitleRule} {type : Option Str} {s : Ms} : ∀ {l : List Mt} {y : List Mt × List Mt},
    yearTitles r type s l = .ok y → ∀ t ∈ y.1, TitleShaped r t := by
  intro l
  induction l with
  | nil => intro y h t ht; cases h; exact absurd ht (List.not_mem_nil)
  | cons part l ih =>
    intro y h t ht
    rw [yearTitles] at h
    split at h
    · cases h
    · rename_i x hx
      split at h
      · cases h
      · rename_i acc hacc
        split at h
        · cases h
          rcases List.mem_append.1 ht with ht | ht
          · exact checkPart_shaped hx t ht
          · exact ih hacc t ht
        · cases h; exact ih hacc t ht

theorem serieTitle_shaped {kin : Kin} {r : TitleRule} {type : Option Str} {s : Ms} {parts : List Mt} {t : Mt} {rm : List Mt}
    (h : serieTitle kin r type s parts = .ok (some (t, rm))) : TitleShaped r t := by
  unfold serieTitle at h
  split at h
  · cases h
  · split at h
    · split at h
      · cases h
      · rename_i hx
        cases h
        exact checkPart_shaped hx t (by simp)
      · cases h
    · cases h

theorem titleWhen_shaped {kin : Kin} {r : TitleRule} {type : Option Str} {s : Ms} {add rm : List Mt}
    (h : titleWhen kin r type s = .ok (add, rm)) : ∀ t ∈ add, TitleShaped r t := by
  unfold titleWhen at h
  split at h
  · cases h; intro t ht; exact absurd ht (List.not_mem_nil)
  · split at h
    · cases h
    · rename_i serie hserie
      have key : ∀ st : List Mt × List Mt, (∀ t ∈ st.1, TitleShaped r t) →
          (match firstTitled r type s (titleParts r s) with
            | .error e => .error e
            | .ok none => .ok st
            | .ok (some ((ts, rm), rest)) => match yearTitles r type s (rest.filter (hasYear s)) with
              | .error e => .error e
              | .ok y => .ok (st.1 ++ renameUnless s.input serie ts ++ y.1, st.2 ++ rm ++ y.2)) = (.ok (add, rm) : Except PyErr _) →
          ∀ t ∈ add, TitleShaped r t := by
        intro st hst h
        split at h
        · cases h
        · cases h; exact hst
        · rename_i ts rm' rest hft
          split at h
          · cases h
          · rename_i y hy
            simp only [Except.ok.injEq, Prod.mk.injEq] at h
            intro t ht
            rw [← h.1] at ht
            rcases List.mem_append.1 ht with ht | ht
            · rcases List.mem_append.1 ht with ht | ht
              · exact hst t ht
              · obtain ⟨t0, ht0, rfl | rfl⟩ := renameUnless_mem ht
                · exact firstTitled_shaped hft t ht0
                · obtain ⟨hh, n, i, rfl, _⟩ := firstTitled_shaped hft t0 ht0
                  exact ⟨hh, c!"episode_title", i, rfl, Or.inr (Or.inr rfl)⟩
            · exact yearTitles_shaped hy t ht
      cases serie with
      | none => exact key ([], []) (fun t ht => absurd ht (List.not_mem_nil)) h
      | some x =>
        obtain ⟨x, rm'⟩ := x
        refine key ([x], rm') (fun t ht => ?_) h
        rw [List.mem_singleton] at ht
        subst ht
        exact serieTitle_shaped hserie

theorem follow_title {g : Dict} {cls : Cls} {kin : Kin} {r : TitleRule} {type : Option Str} {s s' : Ms} (htags : r.tags = [c!"title"])
    (hb : ∀ n, (n = r.name ∨ some n = r.altName ∨ n = c!"episode_title") → ∃ k ∈ births cls, k.into = n ∧ k.root = .text ∧ k.needs = [] ∧ k.hidden = false)
    (h : titleRun kin r type s = .ok s') : FollowsV g cls s s' := by
  obtain ⟨add, rm, hw, rfl⟩ := titleRun_ok h
  refine ⟨rfl, rfl, fun m hm => ?_⟩
  rcases mem_appendAll (removeAll_subset hm) with hm | hm
  · exact Or.inl ⟨m, hm, KeptV.refl m⟩
  · obtain ⟨h, n, i, rfl, hn⟩ := titleWhen_shaped hw m hm
    obtain ⟨k, hk, h1, h2, h3, h4⟩ := hb n hn
    refine Or.inr (Or.inl ⟨k, hk, by simp [h3], by rw [h1]; rfl, by simp [h4], ?_⟩)
    rw [h2]
    show ¬ (c!"weak-episode" ∈ r.tags)
    rw [htags]; decide

theorem mem_removeMatch {input : Str} {l : List Mt} {m x : Mt} (h : x ∈ removeMatch input l m) : x ∈ l :=
  (removeMatch_sublist input l m).subset h

theorem renameEach_mem {input name : Str} : ∀ {ms l : List Mt} {x : Mt}, x ∈ renameEach input name l ms →
    x ∈ l ∨ ∃ m ∈ ms, x = { m with name := some name } := by
  intro ms
  induction ms with
  | nil => intro l x h; exact Or.inl h
  | cons m ms ih =>
    intro l x h
    rcases ih h with h | ⟨y, hy, rfl⟩
    · rcases List.mem_append.1 h with h | h
      · exact Or.inl (mem_removeMatch h)
      · rw [List.mem_singleton] at h; exact Or.inr ⟨m, by simp, h⟩
    · exact Or.inr ⟨y, by simp [hy], rfl⟩

/-- Matches of one name that get another. -/
theorem follow_named {g : Dict} {cls : Cls} {s : Ms} {l : List Mt} {name from' : Str} {k : Birth} (hk : k ∈ births cls)
    (hroot : k.root = .named from') (hh : k.hidden = false) (hinto : k.into = name) (hneeds : k.needs = [])
    (h : ∀ m ∈ l, m ∈ s.live ∨ ∃ x ∈ s.live, x.name = some from' ∧ m.name = some name ∧ (Weak m → Weak x) ∧ m.priv = x.priv ∧ m.val = x.val ∧ m.fmt = x.fmt ∧
      m.rawA = x.rawA ∧ m.rawB = x.rawB) :
    FollowsV g cls s { s with live := l } := by
  refine ⟨rfl, rfl, fun m hm => ?_⟩
  rcases h m hm with h | ⟨x, hx, h1, h2, h3, h4, h5⟩
  · exact Or.inl ⟨m, h, KeptV.refl m⟩
  · refine Or.inr (Or.inl ⟨k, hk, by simp [hneeds], by rw [hinto]; exact h2, by simp [hh], ?_⟩)
    rw [hroot]
    exact ⟨x, hx, h1, h3, by rw [h4]; exact id, h5⟩

theorem follow_titleToEpisodeTitle {g : Dict} {s : Ms} : FollowsV g .TitleToEpisodeTitle s (titleToEpisodeTitle s) := by
  refine follow_named (k := { into := c!"episode_title", root := .named c!"title" }) (by simp [births]) rfl rfl rfl rfl fun m hm => ?_
  rcases renameEach_mem hm with h | ⟨x, hx, rfl⟩
  · exact Or.inl h
  · have : x ∈ named s.live c!"title" := by
      unfold titlesAfterEpisode at hx
      split at hx
      · exact absurd hx (List.not_mem_nil)
      · exact (List.mem_filter.1 hx).1
    have hx' := mem_named.1 this
    exact Or.inr ⟨x, hx'.1, hx'.2, rfl, id, rfl, rfl, rfl, rfl, rfl⟩

theorem alternativeToReplace_mem {kin : Kin} {s : Ms} {alt : Mt} (h : alternativeToReplace kin s = some alt) : alt ∈ s.live ∧ alt.name = some c!"alternative_title" := by
  unfold alternativeToReplace at h
  split at h
  · cases h
  · split at h
    · cases h
    · rename_i a ha
      have := mem_rangeOf.1 (Guessit.firstTrue_mem ha)
      have hh : alt = a := by
        split at h
        · cases h
        · split at h
          · cases h; rfl
          · cases h
      subst hh
      exact ⟨this.1, by simpa using this.2.2.2.2⟩

theorem follow_alternative {kin : Kin} {g : Dict} {s : Ms} : FollowsV g .AlternativeTitleReplace s (alternativeTitleReplace kin s) := by
  unfold alternativeTitleReplace
  split
  · exact follows_self
  · rename_i alt ha
    refine follow_named (k := { into := c!"episode_title", root := .named c!"alternative_title" }) (by simp [births]) rfl rfl rfl rfl fun m hm => ?_
    rcases List.mem_append.1 hm with hm | hm
    · exact Or.inl (mem_removeMatch hm)
    · rw [List.mem_singleton] at hm
      subst hm
      refine Or.inr ⟨alt, (alternativeToReplace_mem ha).1, (alternativeToReplace_mem ha).2, rfl, fun hw => ?_, rfl, rfl, rfl, rfl, rfl⟩
      have hw' : c!"weak-episode" ∈ alt.tags ++ [c!"alternative-replaced"] := hw
      rw [List.mem_append] at hw'
      rcases hw' with hw' | hw'
      · exact hw'
      · exact absurd hw' (by decide)

theorem follow_movie {g : Dict} {s : Ms} : FollowsV g .RenameEpisodeTitleWhenMovieType s (renameEpisodeTitleWhenMovie s) := by
  unfold renameEpisodeTitleWhenMovie
  split
  · refine follow_named (k := { into := c!"alternative_title", root := .named c!"episode_title" }) (by simp [births]) rfl rfl rfl rfl fun m hm => ?_
    rcases renameEach_mem hm with h | ⟨x, hx, rfl⟩
    · exact Or.inl h
    · have hx' := mem_named.1 hx
      exact Or.inr ⟨x, hx'.1, hx'.2, rfl, id, rfl, rfl, rfl, rfl, rfl⟩
  · exact follows_self

/-- A match made out of the text. -/
theorem follow_text {g : Dict} {cls : Cls} {s : Ms} {l : List Mt} {name : Str} {k : Birth} (hk : k ∈ births cls)
    (hroot : k.root = .text) (hh : k.hidden = false) (hinto : k.into = name) (hneeds : k.needs = [])
    (h : ∀ m ∈ l, m ∈ s.live ∨ (m.name = some name ∧ ¬ Weak m)) : FollowsV g cls s { s with live := l } := by
  refine ⟨rfl, rfl, fun m hm => ?_⟩
  rcases h m hm with h | ⟨h1, h2⟩
  · exact Or.inl ⟨m, h, KeptV.refl m⟩
  · refine Or.inr (Or.inl ⟨k, hk, by simp [hneeds], by rw [hinto]; exact h1, by simp [hh], ?_⟩)
    rw [hroot]
    exact h2

theorem follow_filepart3 {g : Dict} {upper : Str → Bool} {s : Ms} : FollowsV g .Filepart3EpisodeTitle s (filepart3 upper s) := by
  unfold filepart3
  split
  · exact follows_self
  · split
    · split
      · split
        · refine follow_text (k := { into := c!"title" }) (by simp [births]) rfl rfl rfl rfl fun m hm => ?_
          rcases appendNamed_mem hm with h | ⟨x, hx, rfl⟩
          · exact Or.inl h
          · rw [List.mem_singleton] at hx
            subst hx
            exact Or.inr ⟨rfl, List.not_mem_nil⟩
        · exact follows_self
      · exact follows_self
    · exact follows_self

theorem follow_filepart2 {g : Dict} {upper : Str → Bool} {s : Ms} : FollowsV g .Filepart2EpisodeTitle s (filepart2 upper s) := by
  unfold filepart2
  split
  · exact follows_self
  · split
    · split
      · split
        · refine follow_text (k := { into := c!"title" }) (by simp [births]) rfl rfl rfl rfl fun m hm => ?_
          rcases appendNamed_mem hm with h | ⟨x, hx, rfl⟩
          · exact Or.inl h
          · rw [List.mem_singleton] at hx
            subst hx
            exact Or.inr ⟨rfl, not_weak_of (t := [c!"filepart-title"]) rfl (by decide)⟩
        · exact follows_self
      · exact follows_self
    · exact follows_self

/-! ### Subtitles -/

/-- What the subtitle rules leave. -/
def Subtitled (s : Ms) (m : Mt) : Prop := m ∈ s.live ∨ ∃ x ∈ s.live, x.name = some c!"language" ∧ m = { x with name := some c!"subtitle_language" }

theorem prefixFold_mem {s : Ms} : ∀ {ps : List (Mt × Mt)} {acc : Option (List Mt)} {l : List Mt}, (∀ q ∈ ps, q.2 ∈ s.live ∧ q.2.name = some c!"language") →
    (∀ a, acc = some a → ∀ m ∈ a, Subtitled s m) → ps.foldl (prefixStep s.input) acc = some l → ∀ m ∈ l, Subtitled s m := by
  intro ps
  induction ps with
  | nil => intro acc l _ h1 h2; exact h1 l h2
  | cons q ps ih =>
    intro acc l hq h1 h2
    refine ih (fun x hx => hq x (by simp [hx])) ?_ h2
    intro a ha m hm
    unfold prefixStep at ha
    split at ha
    · cases ha
    · rename_i b
      dsimp only at ha
      split at ha
      · cases ha
        rcases List.mem_append.1 hm with hm | hm
        · exact h1 b rfl m (mem_removeMatch (mem_removeMatch hm))
        · rw [List.mem_singleton] at hm
          exact Or.inr ⟨q.2, (hq q (by simp)).1, (hq q (by simp)).2, hm⟩
      · cases ha

theorem suffixFold_mem {s : Ms} : ∀ {ps : List Mt} {acc : Option (List Mt)} {l : List Mt}, (∀ q ∈ ps, q ∈ s.live ∧ q.name = some c!"language") →
    (∀ a, acc = some a → ∀ m ∈ a, Subtitled s m) → ps.foldl (suffixStep s.input) acc = some l → ∀ m ∈ l, Subtitled s m := by
  intro ps
  induction ps with
  | nil => intro acc l _ h1 h2; exact h1 l h2
  | cons q ps ih =>
    intro acc l hq h1 h2
    refine ih (fun x hx => hq x (by simp [hx])) ?_ h2
    intro a ha m hm
    unfold suffixStep at ha
    split at ha
    · cases ha
    · rename_i b
      split at ha
      · cases ha
        rcases List.mem_append.1 hm with hm | hm
        · exact h1 b rfl m (mem_removeMatch hm)
        · rw [List.mem_singleton] at hm
          exact Or.inr ⟨q, (hq q (by simp)).1, (hq q (by simp)).2, hm⟩
      · cases ha

theorem subtitlePrefix_adds {s s' : Ms} (h : subtitlePrefixRule s = some s') : s'.input = s.input ∧ s'.markers = s.markers ∧ ∀ m ∈ s'.live, Subtitled s m := by
  unfold subtitlePrefixRule at h
  obtain ⟨l, hl, rfl⟩ := Option.map_eq_some_iff.1 h
  refine ⟨rfl, rfl, prefixFold_mem ?_ ?_ hl⟩
  · intro q hq
    obtain ⟨lang, hlang, hq⟩ := List.mem_filterMap.1 hq
    obtain ⟨p, _, rfl⟩ := Option.map_eq_some_iff.1 hq
    exact mem_named.1 hlang
  · intro a ha m hm
    cases ha
    exact Or.inl (removeAll_subset hm)

theorem subtitleSuffix_adds {s s' : Ms} (h : subtitleSuffixRule s = some s') : s'.input = s.input ∧ s'.markers = s.markers ∧ ∀ m ∈ s'.live, Subtitled s m := by
  unfold subtitleSuffixRule at h
  obtain ⟨l, hl, rfl⟩ := Option.map_eq_some_iff.1 h
  refine ⟨rfl, rfl, suffixFold_mem ?_ ?_ hl⟩
  · intro q hq
    obtain ⟨x, hx, rfl⟩ := List.mem_map.1 hq
    obtain ⟨lang, hlang, hx⟩ := List.mem_filterMap.1 hx
    obtain ⟨p, _, rfl⟩ := Option.map_eq_some_iff.1 hx
    exact mem_named.1 hlang
  · intro a ha m hm
    cases ha
    exact Or.inl (removeAll_subset hm)

theorem follow_subtitled {g : Dict} {cls : Cls} {s s' : Ms} (hk : births cls = [{ into := c!"subtitle_language", root := .named c!"language" }])
    (h : s'.input = s.input ∧ s'.markers = s.markers ∧ ∀ m ∈ s'.live, Subtitled s m) : FollowsV g cls s s' := by
  refine ⟨h.1, h.2.1, fun m hm => ?_⟩
  rcases h.2.2 m hm with h | ⟨x, hx, hn, rfl⟩
  · exact Or.inl ⟨m, h, KeptV.refl m⟩
  · exact Or.inr (Or.inl ⟨{ into := c!"subtitle_language", root := .named c!"language" }, by rw [hk]; exact List.mem_singleton.2 rfl,
      by simp, rfl, by simp, x, hx, hn, id, id, rfl, rfl, rfl, rfl⟩)

theorem follow_extension {g : Dict} {s : Ms} : FollowsV g .SubtitleExtensionRule s (subtitleExtension s) := by
  unfold subtitleExtension
  split
  · exact follows_self
  · split
    · exact follows_self
    · rename_i lang hlang
      have hl := mem_previous.1 (Guessit.firstTrue_mem hlang)
      refine ⟨rfl, rfl, fun m hm => ?_⟩
      rcases renameAll_mem hm with hm | ⟨x, hx, rfl⟩
      · obtain ⟨y, hy, rfl⟩ := List.mem_map.1 (removeAll_subset hm)
        refine Or.inl ⟨y, hy, ?_⟩
        unfold hideWeak
        split
        · exact KeptV.same ⟨rfl, id, fun _ => rfl⟩
        · exact KeptV.refl y
      · rw [List.mem_singleton] at hx
        subst hx
        exact Or.inr (Or.inl ⟨_, List.mem_singleton.2 rfl, by simp, rfl, by simp, x, hl.1.1, by simpa using hl.2, id, id, rfl, rfl, rfl, rfl⟩)

/-! ### Release groups -/

theorem groupFor_mem {e : GroupEnv} {s : Ms} {c m : Mt} (h : m ∈ groupFor e s c) :
    m = { id := 0, start := c.start, stop := c.stop, name := some c!"release_group", fmt := fun t => .str (cleanGroup e t) } := by
  unfold groupFor at h
  split at h
  · exact absurd h (List.not_mem_nil)
  · exact List.mem_singleton.1 h

theorem unlessEmpty_some {r r' : List Mt × List Mt} (h : (if r.1.isEmpty && r.2.isEmpty then none else some r) = some r') : r' = r := by
  split at h
  · cases h
  · cases h; rfl

theorem dashPart_mem {e : GroupEnv} {s : Ms} {part : Mt} {r : List Mt × List Mt} (h : dashPart e s part = some r) {m : Mt} (hm : m ∈ r.2) :
    ∃ c, m ∈ groupFor e s c := by
  have hr := unlessEmpty_some h
  subst hr
  cases hd : detectEnd e s part with
  | some c => rw [hd] at hm; exact ⟨c, hm⟩
  | none =>
    rw [hd] at hm
    cases hs : detectStart s part with
    | some c => rw [hs] at hm; exact ⟨c, hm⟩
    | none => rw [hs] at hm; exact absurd hm (List.not_mem_nil)

theorem follow_dash {g : Dict} {e : GroupEnv} {s : Ms} : FollowsV g .DashSeparatedReleaseGroup s (dashRun e s) := by
  unfold dashRun
  split
  · exact follows_self
  · split
    · exact follows_self
    · rename_i gone new hf
      obtain ⟨part, _, hp⟩ := List.exists_of_findSome?_eq_some hf
      refine follow_text (k := { into := c!"release_group" }) (by simp [births]) rfl rfl rfl rfl fun m hm => ?_
      rcases mem_appendAll hm with hm | hm
      · exact Or.inl (removeAll_subset hm)
      · obtain ⟨c, hc⟩ := dashPart_mem hp hm
        rw [groupFor_mem hc]
        exact Or.inr ⟨rfl, List.not_mem_nil⟩

theorem sceneFound_shape {e : GroupEnv} {s : Ms} {part m : Mt} (h : sceneFound e s part = some m) :
    m.name = some c!"release_group" ∧ ¬ Weak m := by
  unfold sceneFound at h
  split at h
  · split at h
    · cases h
    · split at h
      · cases h
      · split at h
        · cases h
          unfold sceneMatch
          dsimp only
          split
          · split
            · exact ⟨rfl, not_weak_of (t := [c!"anime"]) rfl (by decide)⟩
            · exact ⟨rfl, not_weak_of (t := [c!"scene"]) rfl (by decide)⟩
          · exact ⟨rfl, not_weak_of (t := [c!"scene"]) rfl (by decide)⟩
        · cases h
  · cases h

theorem sceneFold_mem {e : GroupEnv} {s : Ms} : ∀ {parts : List Mt} {acc : Ms × List Mt},
    (acc.1.input = s.input ∧ acc.1.markers = s.markers ∧ ∀ m ∈ acc.1.live, m ∈ s.live) →
    (∀ m ∈ acc.2, m.name = some c!"release_group" ∧ ¬ Weak m) →
    ((parts.foldl (sceneStep e) acc).1.input = s.input ∧ (parts.foldl (sceneStep e) acc).1.markers = s.markers ∧
      ∀ m ∈ (parts.foldl (sceneStep e) acc).1.live, m ∈ s.live) ∧
    ∀ m ∈ (parts.foldl (sceneStep e) acc).2, m.name = some c!"release_group" ∧ ¬ Weak m := by
  intro parts
  induction parts with
  | nil => intro acc h1 h2; exact ⟨h1, h2⟩
  | cons part parts ih =>
    intro acc h1 h2
    rw [List.foldl_cons]
    unfold sceneStep
    split
    · exact ih h1 h2
    · rename_i m hm
      refine ih ⟨h1.1, h1.2.1, fun x hx => h1.2.2 x (removeAll_subset hx)⟩ fun x hx => ?_
      rcases List.mem_append.1 hx with hx | hx
      · exact h2 x hx
      · rw [List.mem_singleton] at hx; subst hx; exact sceneFound_shape hm

theorem follow_scene {g : Dict} {e : GroupEnv} {s : Ms} : FollowsV g .SceneReleaseGroup s (sceneRun e s) := by
  have := sceneFold_mem (e := e) (s := s) (parts := markerSorted s.input s.live (named s.markers c!"path") (markerPredicate s.input)) (acc := (s, []))
    ⟨rfl, rfl, fun m hm => hm⟩ (fun m hm => absurd hm (List.not_mem_nil))
  refine ⟨this.1.1, this.1.2.1, fun m hm => ?_⟩
  rcases mem_appendAll hm with hm | hm
  · exact Or.inl ⟨m, this.1.2.2 m hm, KeptV.refl m⟩
  · exact Or.inr (Or.inl ⟨_, List.mem_singleton.2 rfl, by simp, (this.2 m hm).1, by simp, (this.2 m hm).2⟩)

theorem follow_anime {g : Dict} {e : GroupEnv} {s : Ms} : FollowsV g .AnimeReleaseGroup s (animeRun e s) := by
  unfold animeRun
  split
  · exact follows_self
  · refine follow_text (k := { into := c!"release_group" }) (by simp [births]) rfl rfl rfl rfl fun m hm => ?_
    rcases mem_appendAll hm with hm | hm
    · exact Or.inl (removeAll_subset hm)
    · obtain ⟨x, _, rfl⟩ := List.mem_map.1 hm
      exact Or.inr ⟨rfl, not_weak_of (t := [c!"anime"]) rfl (by decide)⟩

/-! ### Bonus, film, processors -/

theorem appendFirstHole_adds {s s' : Ms} {name : Str} {hs : List (Nat × Nat)} (h : appendFirstHole s name hs = .ok s') :
    s' = s ∨ ∃ a ∈ hs, a.1 < a.2 ∧ s' = { s with live := appendAll s.input s.live [{ cleanHole a with name := some name }] } := by
  cases hs with
  | nil => cases h; exact Or.inl rfl
  | cons a hs =>
    simp only [appendFirstHole] at h
    split at h
    · cases h
    · split at h
      · rename_i hc
        cases h
        rw [Bool.and_eq_true] at hc
        exact Or.inr ⟨a, by simp, of_decide_eq_true hc.1, rfl⟩
      · cases h; exact Or.inl rfl

theorem follow_firstHole {g : Dict} {cls : Cls} {s s' : Ms} {name : Str} {hs : List (Nat × Nat)} (hk : births cls = [{ into := name }])
    (h : appendFirstHole s name hs = .ok s') : FollowsV g cls s s' := by
  rcases appendFirstHole_adds h with rfl | ⟨a, _, _, rfl⟩
  · exact follows_self
  · refine follow_text (k := { into := name }) (by rw [hk]; exact List.mem_singleton.2 rfl) rfl rfl rfl rfl fun m hm => ?_
    rcases mem_appendAll hm with hm | hm
    · exact Or.inl hm
    · rw [List.mem_singleton] at hm
      subst hm
      exact Or.inr ⟨rfl, List.not_mem_nil⟩

theorem follow_bonus {g : Dict} {s s' : Ms} (h : bonusTitle s = .ok s') : FollowsV g .BonusTitleRule s s' := by
  unfold bonusTitle at h
  split at h
  · cases h
  · cases h; exact follows_self
  · exact follow_firstHole rfl h

theorem follow_film {g : Dict} {s s' : Ms} (h : filmTitle s = .ok s') : FollowsV g .FilmTitleRule s s' := by
  unfold filmTitle at h
  split at h
  · cases h
  · cases h; exact follows_self
  · exact follow_firstHole rfl h

theorem enlargeFold_kept {s : Ms} {f : List Mt → Mt → List Mt}
    (hf : ∀ l m, ∀ x ∈ f l m, x ∈ l ∨ KeptL (current l m) x) : ∀ {ms l : List Mt}, (∀ m ∈ ms, m ∈ s.live) → (∀ m ∈ l, ∃ y ∈ s.live, KeptL y m) →
    ∀ x ∈ ms.foldl f l, ∃ y ∈ s.live, KeptL y x := by
  intro ms
  induction ms with
  | nil => intro l _ h; exact h
  | cons m ms ih =>
    intro l hms hl
    refine ih (fun x hx => hms x (by simp [hx])) fun x hx => ?_
    rcases hf l m x hx with h | h
    · exact hl x h
    · have : ∃ y ∈ s.live, KeptL y (current l m) := by
        unfold current
        cases hfi : l.find? fun x => decide (x.id = m.id) with
        | none => exact ⟨m, hms m (by simp), KeptL.refl m⟩
        | some z => exact hl z (List.mem_of_find?_eq_some hfi)
      obtain ⟨y, hy, hk⟩ := this
      exact ⟨y, hy, hk.trans h⟩

theorem follow_enlarge {g : Dict} {s : Ms} : FollowsV g .EnlargeGroupMatches s (enlargeGroupMatches s) := by
  refine follows_loose (by decide) (enlargeFold_kept ?_ ?_ (enlargeFold_kept ?_ ?_ fun m hm => ⟨m, hm, KeptL.refl m⟩))
  · intro l m x hx
    rcases List.mem_append.1 hx with hx | hx
    · exact Or.inl (mem_removeMatch hx)
    · rw [List.mem_singleton] at hx; subst hx; exact Or.inr (KeptL.same ⟨rfl, id, id⟩)
  · intro m hm
    obtain ⟨_, _, hm⟩ := List.mem_flatMap.1 hm
    exact (List.mem_filter.1 hm).1
  · intro l m x hx
    rcases List.mem_append.1 hx with hx | hx
    · exact Or.inl (mem_removeMatch hx)
    · rw [List.mem_singleton] at hx; subst hx; exact Or.inr (KeptL.same ⟨rfl, id, id⟩)
  · intro m hm
    obtain ⟨_, _, hm⟩ := List.mem_flatMap.1 hm
    exact (List.mem_filter.1 hm).1

theorem tagAll_kept {input tag : Str} {l ms : List Mt} (ht : tag ≠ c!"weak-episode") {m : Mt} (hm : m ∈ tagAll input tag l ms) :
    ∃ x ∈ l, KeptV x m := by
  obtain ⟨x, hx, rfl⟩ := List.mem_map.1 hm
  refine ⟨x, hx, ?_⟩
  split
  · refine KeptV.same ⟨rfl, fun hw => ?_, id⟩
    have hw' : c!"weak-episode" ∈ x.tags ++ [tag] := hw
    rw [List.mem_append] at hw'
    rcases hw' with hw' | hw'
    · exact hw'
    · exact absurd (List.mem_singleton.1 hw').symm ht
  · exact KeptV.refl x

theorem follow_preferYear {g : Dict} {s : Ms} : FollowsV g .PreferTitleWithYear s (preferTitleWithYear s) := by
  refine follows_kept fun m hm => ?_
  obtain ⟨x, hx, hk⟩ := tagAll_kept (by decide) hm
  exact ⟨x, removeAll_subset hx, hk⟩

theorem follow_echo {g : Dict} {u : Uni} {t : CaseTables} (hl : ∀ s, u.lower s = [] ↔ s = []) {s s' : Ms} (h : equivalentHoles u t s = .ok s') :
    FollowsV g .EquivalentHoles s s' := by
  obtain ⟨live1, added, rfl, hf, ha⟩ := C36_holes u t hl s s' h
  refine ⟨rfl, rfl, fun m hm => ?_⟩
  rcases List.mem_append.1 hm with hm | hm
  · obtain ⟨m', hm', hr⟩ := forall2_mem hf hm
    refine Or.inr (Or.inr (Or.inl ⟨rfl, Or.inr ⟨m', hm', ?_⟩⟩))
    rcases hr with rfl | ⟨v, w, hv, rfl, hw, _⟩
    · exact KeptN.refl _
    · exact ⟨rfl, id, id⟩
  · obtain ⟨h1, _, ⟨m', hm', hn, _⟩, _⟩ := ha m hm
    exact Or.inr (Or.inr (Or.inl ⟨rfl, Or.inl ⟨by unfold Weak; rw [h1]; decide, m', hm', hn⟩⟩))

theorem follow_yearSeason {g : Dict} {s : Ms} : FollowsV g .YearSeason s (yearSeason s) := by
  unfold yearSeason
  split
  · refine follow_named (k := { into := c!"season", root := .named c!"year" }) (by simp [births]) rfl rfl rfl rfl fun m hm => ?_
    rcases mem_appendAll hm with hm | hm
    · exact Or.inl hm
    · obtain ⟨x, hx, rfl⟩ := List.mem_map.1 hm
      have hx' := mem_named.1 hx
      exact Or.inr ⟨x, hx'.1, hx'.2, rfl, id, rfl, rfl, rfl, rfl, rfl⟩
  · exact follows_self

theorem seasonYears_mem {input : Str} : ∀ {ms ys : List Mt}, seasonYears input ms = .ok ys → ∀ y ∈ ys, ∃ x ∈ ms, y = { x with name := some c!"year" } ∧
    isValidYear (x.value input) = true := by
  intro ms
  induction ms with
  | nil => intro ys h y hy; rw [seasonYears] at h; cases h; simp at hy
  | cons x ms ih =>
    intro ys h y hy
    rw [seasonYears] at h
    split at h
    · cases h
    · rename_i b hv
      split at h
      · cases h
      · rename_i rest hrest
        simp only [Except.ok.injEq] at h
        subst h
        have hx : b = true → isValidYear (x.value input) = true := by
          intro hb
          cases hval : x.value input with
          | int n => rw [hval] at hv; simp only [validYearVal, Except.ok.injEq] at hv; rw [isValidYear, hv, hb]
          | str t => rw [hval] at hv; simp [validYearVal] at hv
          | obj t => rw [hval] at hv; simp [validYearVal] at hv
        cases b with
        | true =>
          simp only [if_true] at hy
          rcases List.mem_cons.1 hy with hy | hy
          · exact ⟨x, by simp, hy, hx rfl⟩
          · obtain ⟨z, hz, h2⟩ := ih hrest y hy; exact ⟨z, by simp [hz], h2⟩
        | false =>
          simp only [Bool.false_eq_true, if_false] at hy
          obtain ⟨z, hz, h2⟩ := ih hrest y hy; exact ⟨z, by simp [hz], h2⟩

theorem follow_seasonYear {g : Dict} {s s' : Ms} (h : seasonYear s = .ok s') : FollowsV g .SeasonYear s s' := by
  unfold seasonYear at h
  split at h
  · split at h
    · cases h
    · rename_i ys hys
      cases h
      refine follow_named (k := { into := c!"year", root := .named c!"season" }) (by simp [births]) rfl rfl rfl rfl fun m hm => ?_
      rcases mem_appendAll hm with hm | hm
      · exact Or.inl hm
      · obtain ⟨x, hx, rfl, _⟩ := seasonYears_mem hys m hm
        have hx' := mem_named.1 hx
        exact Or.inr ⟨x, hx'.1, hx'.2, rfl, id, rfl, rfl, rfl, rfl, rfl⟩
  · cases h; exact follows_self

theorem follow_proper {g : Dict} {u : Uni} {count : Mt → Option Int} {s : Ms} : FollowsV g .ProperCountRule s (properCount u count s) := by
  unfold properCount
  dsimp only
  split
  · exact follows_self
  · refine follow_text (k := { into := c!"proper_count" }) (by simp [births]) rfl rfl rfl rfl fun m hm => ?_
    rcases mem_appendAll hm with hm | hm
    · exact Or.inl hm
    · rw [List.mem_singleton] at hm
      subst hm
      exact Or.inr ⟨rfl, List.not_mem_nil⟩

theorem follow_mimetype {g : Dict} {guess : Str → Option Str} {s : Ms} : FollowsV g .Mimetype s (mimetypeRule guess s) := by
  unfold mimetypeRule
  split
  · refine follow_text (k := { into := c!"mimetype" }) (by simp [births]) rfl rfl rfl rfl fun m hm => ?_
    rcases List.mem_append.1 hm with hm | hm
    · exact Or.inl hm
    · rw [List.mem_singleton] at hm
      subst hm
      exact Or.inr ⟨rfl, List.not_mem_nil⟩
  · exact follows_self

theorem follow_type {g : Dict} {o : Option Str} {s : Ms} : FollowsV g .TypeProcessor s (typeProcessor o s) := by
  refine follow_text (k := { into := c!"type" }) (by simp [births]) rfl rfl rfl rfl fun m hm => ?_
  rcases List.mem_append.1 hm with hm | hm
  · exact Or.inl hm
  · rw [List.mem_singleton] at hm
    subst hm
    exact Or.inr ⟨rfl, List.not_mem_nil⟩

theorem stripStart_kept {input : Str} {m m' : Mt} (h : stripStartOnce input m = .ok m') : KeptL m m' := by
  unfold stripStartOnce at h
  dsimp only at h
  split at h
  · cases h
  · split at h
    · cases h; exact KeptL.same ⟨rfl, id, id⟩
    · cases h; exact KeptL.refl _

theorem stripEnd_kept {input : Str} {m m' : Mt} (h : stripEndOnce input m = .ok m') : KeptL m m' := by
  unfold stripEndOnce at h
  dsimp only at h
  split at h
  · cases h
  · split at h
    · cases h; exact KeptL.same ⟨rfl, id, id⟩
    · cases h; exact KeptL.refl _

theorem stripMatch_kept {input : Str} {m m' : Mt} (h : stripMatch input m = .ok m') : KeptL m m' := by
  unfold stripMatch at h
  split at h
  · cases h
  · rename_i a ha
    split at h
    · cases h
    · rename_i b hb
      split at h
      · cases h
      · rename_i c hc
        exact (((stripStart_kept ha).trans (stripStart_kept hb)).trans (stripEnd_kept hc)).trans (stripEnd_kept h)

theorem stripAll_mem {input : Str} : ∀ {l l' : List Mt}, stripAll input l = .ok l' → ∀ m' ∈ l', ∃ m ∈ l, stripMatch input m = .ok m' := by
  intro l
  induction l with
  | nil => intro l' h m' hm; cases h; exact absurd hm (List.not_mem_nil)
  | cons m l ih =>
    intro l' h m' hm
    rw [stripAll] at h
    split at h
    · cases h
    · rename_i a ha
      split at h
      · cases h
      · rename_i r hr
        cases h
        rcases List.mem_cons.1 hm with rfl | hm
        · exact ⟨m, by simp, ha⟩
        · obtain ⟨x, hx, h2⟩ := ih hr m' hm; exact ⟨x, by simp [hx], h2⟩

theorem follow_strip {g : Dict} {s s' : Ms} (h : stripSeparators s = .ok s') : FollowsV g .StripSeparators s s' := by
  unfold stripSeparators at h
  split at h
  · cases h
  · rename_i l hl
    cases h
    refine follows_loose (by decide) fun m hm => ?_
    obtain ⟨x, hx, h2⟩ := stripAll_mem hl m hm
    exact ⟨x, hx, stripMatch_kept h2⟩

/-! ### Every rule -/

theorem follows_detached {g : Dict} {cls : Cls} {kin : Kin} {s s' : Ms} (h : removeDetached kin s = some s') : FollowsV g cls s s' := by
  unfold removeDetached at h
  dsimp only at h
  split at h
  · cases h; exact follows_self
  · split at h
    · cases h
    · split at h
      · split at h
        · cases h; exact follows_dropping
        · cases h; exact follows_self
      · cases h; exact follows_self

/-- A rule leaves what its class may leave. -/
theorem rule_followsV {e : RuleEnv} (he : Natural e) {g : Dict} {arg : Str} {s s' : Ms} {cls : Cls} (h : ruleStep e g arg s cls = .ok s') :
    FollowsV g cls s s' := by
  cases cls with
  | ConflictSolver => exact follows_ok follows_dropping h
  | PrivateRemover => exact follows_ok (follows_subset fun _ hm => (List.mem_filter.1 hm).1) h
  | WeakConflictSolver => exact follows_ok follow_weak h
  | SeePatternRange => exact follow_see (orRaise_ok h)
  | EpisodeNumberSeparatorRange => exact follow_range (prop := c!"episode") rfl (orRaise_ok h)
  | SeasonSeparatorRange => exact follow_range (prop := c!"season") rfl (orRaise_ok h)
  | RemoveWeakIfMovie =>
    refine follows_ok ?_ h
    unfold removeWeakIfMovie
    split
    · exact follows_self
    · exact follows_dropping
  | RemoveDetachedEpisodeNumber => exact follows_detached (orRaise_ok h)
  | RemoveWeak => exact follows_ok follow_removeWeak h
  | RenameToAbsoluteEpisode => exact follow_absolute (orRaise_ok h)
  | CountValidator => exact follows_ok follow_count h
  | RenameToDiscMatch => exact follows_ok (follow_disc (he.marked s)) h
  | UltraHdBlurayRule => exact follows_ok follow_ultra h
  | PostProcessScreenSize => exact follow_size (he.sizes s) (orRaise_ok h)
  | ScreenSizeOnlyOne => exact follows_ok (follows_subset fun _ hm => removeAll_subset hm) h
  | KeepMarkedYearInFilepart => exact follows_ok (follows_subset fun _ hm => removeAll_subset hm) h
  | TitleFromPosition =>
    refine follow_title rfl ?_ h
    rintro n (rfl | hn | rfl)
    · exact ⟨{ into := c!"title" }, by simp [births], rfl, rfl, rfl, rfl⟩
    · cases hn; exact ⟨{ into := c!"alternative_title" }, by simp [births], rfl, rfl, rfl, rfl⟩
    · exact ⟨{ into := c!"episode_title" }, by simp [births], rfl, rfl, rfl, rfl⟩
  | PreferTitleWithYear => exact follows_ok follow_preferYear h
  | RemoveConflictsWithEpisodeTitle => exact follows_ok (follows_subset fun _ hm => removeAll_subset hm) h
  | EpisodeTitleFromPosition =>
    simp only [ruleStep, episodeTitleRun] at h
    split at h
    · refine follow_title rfl ?_ h
      rintro n (rfl | hn | rfl)
      · exact ⟨{ into := c!"episode_title" }, by simp [births], rfl, rfl, rfl, rfl⟩
      · cases hn
      · exact ⟨{ into := c!"episode_title" }, by simp [births], rfl, rfl, rfl, rfl⟩
    · cases h; exact follows_self
  | AlternativeTitleReplace => exact follows_ok follow_alternative h
  | TitleToEpisodeTitle => exact follows_ok follow_titleToEpisodeTitle h
  | Filepart3EpisodeTitle => exact follows_ok follow_filepart3 h
  | Filepart2EpisodeTitle => exact follows_ok follow_filepart2 h
  | RenameEpisodeTitleWhenMovieType => exact follows_ok follow_movie h
  | SubtitleExtensionRule => exact follows_ok follow_extension h
  | SubtitlePrefixLanguageRule => exact follow_subtitled rfl (subtitlePrefix_adds (orRaise_ok h))
  | SubtitleSuffixLanguageRule => exact follow_subtitled rfl (subtitleSuffix_adds (orRaise_ok h))
  | DashSeparatedReleaseGroup => exact follows_ok follow_dash h
  | SceneReleaseGroup => exact follows_ok follow_scene h
  | AnimeReleaseGroup => exact follows_ok follow_anime h
  | RenameAnotherToOther =>
    refine follows_ok ?_ h
    exact follow_rename (k := { into := c!"other", root := .named c!"another" }) (by simp [births]) rfl rfl rfl (by simp)
      fun m hm => mem_named.1 hm
  | ProperCountRule => exact follows_ok follow_proper h
  | BitRateTypeRule => exact follows_ok follow_bitRate h
  | BonusTitleRule => exact follow_bonus h
  | FilmTitleRule => exact follow_film h
  | EnlargeGroupMatches => exact follows_ok follow_enlarge h
  | EquivalentHoles => exact follow_echo he.lower h
  | RemoveLessSpecificSeasonEpisode => exact follows_ok (follows_subset fun _ hm => removeAll_subset hm) h
  | RemoveAmbiguous => exact follows_ok (follows_subset fun _ hm => removeAll_subset hm) h
  | SeasonYear => exact follow_seasonYear h
  | YearSeason => exact follows_ok follow_yearSeason h
  | Processors => exact follows_ok follows_self h
  | StripSeparators => exact follow_strip h
  | Mimetype => exact follows_ok follow_mimetype h
  | TypeProcessor => exact follows_ok follow_type h
  | _ => exact follows_ok follows_dropping h

/-- What the class may leave of the matches `before`, their values apart. -/
def Traced (g : Dict) (cls : Cls) (before : List Mt) (m : Mt) : Prop :=
  (∃ m' ∈ before, KeptN m' m) ∨ (∃ k ∈ births cls, k.Makes g before m) ∨ (cls = .EquivalentHoles ∧ Echo before m)

/-- The state is only changed in its matches, and those are traced. -/
structure Follows (g : Dict) (cls : Cls) (s s' : Ms) : Prop where
  input : s'.input = s.input
  markers : s'.markers = s.markers
  live : ∀ m ∈ s'.live, Traced g cls s.live m

theorem FollowsV.plain {g : Dict} {cls : Cls} {s s' : Ms} (h : FollowsV g cls s s') : Follows g cls s s' := by
  refine ⟨h.input, h.markers, fun m hm => ?_⟩
  rcases h.live m hm with ⟨m', hm', hk⟩ | hb | ⟨hc, he | hk⟩ | ⟨_, m', hm', hk⟩
  · exact Or.inl ⟨m', hm', hk.1⟩
  · exact Or.inr (Or.inl hb)
  · exact Or.inr (Or.inr ⟨hc, he⟩)
  · exact Or.inl hk
  · exact Or.inl ⟨m', hm', hk.1⟩

theorem rule_follows {e : RuleEnv} (he : Natural e) {g : Dict} {arg : Str} {s s' : Ms} {cls : Cls} (h : ruleStep e g arg s cls = .ok s') :
    Follows g cls s s' := (rule_followsV he h).plain

end Guessit
