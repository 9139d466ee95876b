import Verif.Props.EngineType
import Verif.Props.GroupName
import Verif.Props.SizesExamples
import Verif.Props.Equivalent
import Verif.Props.Numeral

/-! # The engine on a name -/

namespace Guessit
open Spec

/-- Families from the parents recorded in the matches. -/
def familyKin (s : Ms) : Kin where
  initiator := fun m => match m.parent with
    | some p => (s.live.find? fun x => decide (x.id = p)).getD m
    | none => m
  children := fun m => s.live.filter fun x => decide (x.start < x.stop) && (decide (x.parent = some m.id) && !x.tags.contains c!"weak-episode")
  pattern := fun m => m.id
  ancestors := fun _ => []

/-- An environment for names in ASCII. -/
def asciiEnv : RuleEnv where
  kin := familyKin
  solverOf := fun _ _ => none
  uni := asciiUni
  cases := ⟨fun s => s.head?.any Char.isUpper, fun s => s.all Char.isUpper⟩
  title := ⟨asciiUni.lower, fun s => s.all Char.isUpper, []⟩
  group := stdGroup
  size := sizeEnv
  ranges := [c!"-", c!"~"]
  toInt := fun _ => none
  slow := fun _ => false
  number := fun _ => none
  words := []
  safe := []
  common := []
  und := .str []
  mime := fun _ => some c!"video/x-matroska"

theorem asciiEnv_natural : Natural asciiEnv where
  lower := by
    intro t
    show asciiUni.lower t = [] ↔ t = []
    cases t <;> simp [asciiUni]
  sizes := by
    intro s m c _ _ hc
    have := (List.mem_filter.1 hc).2
    intro hw
    unfold Weak at hw
    simp [hw] at this
  marked := by
    intro s m c _ _ hc
    have := (List.mem_filter.1 hc).2
    intro hw
    unfold Weak at hw
    simp [hw] at this

/-- What the patterns find in `The.Show.S01E02.The.Pilot.720p.HDTV.x264-GRP.mkv`. -/
def pilot : Ms where
  input := c!"The.Show.S01E02.The.Pilot.720p.HDTV.x264-GRP.mkv"
  markers := [{ id := 100, start := 0, stop := 48, name := some c!"path" }]
  live := [{ id := 1, start := 9, stop := 15, name := none, priv := true },
    { id := 7, start := 9, stop := 10, name := some c!"seasonMarker", priv := true, parent := some 1 },
    { id := 2, start := 10, stop := 12, name := some c!"season", val := some (.int 1), parent := some 1, tags := [c!"SxxExx"] },
    { id := 9, start := 12, stop := 13, name := some c!"episodeMarker", priv := true, parent := some 1 },
    { id := 3, start := 13, stop := 15, name := some c!"episode", val := some (.int 2), parent := some 1, tags := [c!"SxxExx"] },
    { id := 4, start := 26, stop := 30, name := some c!"screen_size" },
    { id := 5, start := 31, stop := 35, name := some c!"source" },
    { id := 6, start := 36, stop := 40, name := some c!"video_codec", val := some (.str c!"H.264") },
    { id := 8, start := 44, stop := 48, name := some c!"container", tags := [c!"extension"] }]

/-- What is reported: names, positions and values. -/
def reported : Except PyErr Ms → Option (List (Option Str × Nat × Nat × MVal))
  | .ok s => some (s.live.map fun m => (m.name, m.start, m.stop, m.value s.input))
  | .error _ => none


/-- The patterns of the default configuration may find it, as long as nothing is disabled. -/
theorem pilot_given (g : Dict) (hg : ∀ n ∈ [c!"episode", c!"season", c!"screen_size", c!"source", c!"video_codec", c!"container"], isDisabled g n = false) :
    PatternsGive g pilot.input pilot.live := by
  have key : ∀ p ∈ sources, (∀ n ∈ p.needs.flatten, n ∈ [c!"episode", c!"season", c!"screen_size", c!"source", c!"video_codec", c!"container"]) →
      (∀ c ∈ p.needs, c ≠ []) → passes g p.needs = true := by
    intro p _ h1 h2
    unfold passes
    rw [List.all_eq_true]
    intro c hc
    obtain ⟨n, hn⟩ := List.exists_mem_of_ne_nil _ (h2 c hc)
    exact List.any_eq_true.2 ⟨n, hn, by rw [hg n (h1 n (List.mem_flatten.2 ⟨c, hc, hn⟩))]; rfl⟩
  have give : ∀ (p : Source) (m : Mt), p ∈ sources → (∀ n ∈ p.needs.flatten, n ∈ [c!"episode", c!"season", c!"screen_size", c!"source", c!"video_codec", c!"container"]) →
      (∀ c ∈ p.needs, c ≠ []) → p.Gives pilot.input m → ∃ p ∈ sources, passes g p.needs = true ∧ p.Gives pilot.input m :=
    fun p m hp h1 h2 h3 => ⟨p, hp, key p hp h1 h2, h3⟩
  let ep : Source := { needs := [[c!"episode"], [c!"season"]], gives := [c!"seasonMarker", c!"season", c!"episodeMarker", c!"episode", c!"episodeSeparator"] }
  have hep : ep ∈ sources := by simp [ep, sources, episodesSources]
  have g1 : ∀ m, (¬ c!"weak-episode" ∈ m.tags) → ((m.name = none ∧ m.priv = true) ∨ ∃ n ∈ ep.gives, m.name = some n ∧ (n ∈ privateNames → m.priv = true)) →
      ∃ p ∈ sources, passes g p.needs = true ∧ p.Gives pilot.input m := by
    intro m hw h
    refine give ep m hep (by decide) (by decide) ⟨fun hh => absurd hh hw, ?_⟩
    rcases h with h | h
    · exact Or.inl h
    · exact Or.inr ⟨h, rfl⟩
  intro m hm
  simp only [pilot, List.mem_cons, List.not_mem_nil, or_false] at hm
  rcases hm with rfl | rfl | rfl | rfl | rfl | rfl | rfl | rfl | rfl
  · exact g1 _ (by decide) (Or.inl ⟨rfl, rfl⟩)
  · exact g1 _ (by decide) (Or.inr ⟨c!"seasonMarker", by decide, rfl, fun _ => rfl⟩)
  · exact g1 _ (by decide) (Or.inr ⟨c!"season", by decide, rfl, fun h => absurd h (by decide)⟩)
  · exact g1 _ (by decide) (Or.inr ⟨c!"episodeMarker", by decide, rfl, fun _ => rfl⟩)
  · exact g1 _ (by decide) (Or.inr ⟨c!"episode", by decide, rfl, fun h => absurd h (by decide)⟩)
  · exact give { needs := [[c!"screen_size"]], gives := [c!"screen_size"] } _ (by simp [sources, otherSources]) (by decide) (by decide)
      ⟨fun h => absurd h (by decide), Or.inr ⟨⟨c!"screen_size", by decide, rfl, fun h => absurd h (by decide)⟩, rfl⟩⟩
  · exact give { needs := [[c!"source"]], gives := [c!"source", c!"other", c!"another"] } _ (by simp [sources, otherSources]) (by decide) (by decide)
      ⟨fun h => absurd h (by decide), Or.inr ⟨⟨c!"source", by decide, rfl, fun h => absurd h (by decide)⟩, rfl⟩⟩
  · exact give { needs := [[c!"video_codec"]], gives := [c!"video_codec", c!"color_depth"] } _ (by simp [sources, otherSources]) (by decide) (by decide)
      ⟨fun h => absurd h (by decide), Or.inr ⟨⟨c!"video_codec", by decide, rfl, fun h => absurd h (by decide)⟩, rfl⟩⟩
  · exact give { needs := [[c!"container"]], gives := [c!"container"] } _ (by simp [sources, otherSources]) (by decide) (by decide)
      ⟨fun h => absurd h (by decide), Or.inr ⟨⟨c!"container", by decide, rfl, fun h => absurd h (by decide)⟩, rfl⟩⟩

/-- What is reported for it. -/
theorem pilot_reported : reported (engine asciiEnv [] pilot) = some [
    (some c!"season", 10, 12, .int 1), (some c!"episode", 13, 15, .int 2), (some c!"screen_size", 26, 30, .str c!"720p"),
    (some c!"source", 31, 35, .str c!"HDTV"), (some c!"video_codec", 36, 40, .str c!"H.264"), (some c!"container", 44, 48, .str c!"mkv"),
    (some c!"release_group", 40, 44, .str c!"GRP"), (some c!"title", 0, 9, .str c!"The Show"),
    (some c!"episode_title", 15, 26, .str c!"The Pilot"), (some c!"mimetype", 48, 48, .str c!"video/x-matroska"),
    (some c!"type", 48, 48, .str c!"episode")] := by decide +kernel

/-- `excludes = ['type']`. -/
def noType : Dict := [(.str c!"excludes", .list [.str c!"type"])]

/-- C148 (counterexample): with `type` excluded, the title of the episode is not reported as `episode_title` any more, although there
is an episode: it becomes an alternative title. -/
theorem C148_counterexample : PatternsGive noType pilot.input pilot.live ∧ Natural asciiEnv ∧ reported (engine asciiEnv noType pilot) = some [
    (some c!"season", 10, 12, .int 1), (some c!"episode", 13, 15, .int 2), (some c!"screen_size", 26, 30, .str c!"720p"),
    (some c!"source", 31, 35, .str c!"HDTV"), (some c!"video_codec", 36, 40, .str c!"H.264"), (some c!"container", 44, 48, .str c!"mkv"),
    (some c!"release_group", 40, 44, .str c!"GRP"), (some c!"title", 0, 9, .str c!"The Show"),
    (some c!"alternative_title", 15, 26, .str c!"The Pilot"), (some c!"mimetype", 48, 48, .str c!"video/x-matroska")] :=
  ⟨pilot_given noType (by decide +kernel), asciiEnv_natural, by decide +kernel⟩

/-- What the patterns find in `Movie.2010.WEBCap`: the pattern of the source also names `another`. -/
def webcap : Ms where
  input := c!"Movie.2010.WEBCap.mkv"
  markers := [{ id := 100, start := 0, stop := 21, name := some c!"path" }]
  live := [{ id := 1, start := 6, stop := 10, name := some c!"year", val := some (.int 2010) },
    { id := 2, start := 11, stop := 17, name := some c!"source", val := some (.str c!"Web") },
    { id := 3, start := 14, stop := 17, name := some c!"another", val := some (.str c!"Rip"), parent := some 2 },
    { id := 4, start := 17, stop := 21, name := some c!"container", tags := [c!"extension"] }]

/-- `excludes = ['other']`. -/
def noOther : Dict := [(.str c!"excludes", .list [.str c!"other"])]

theorem webcap_given : PatternsGive noOther webcap.input webcap.live := by
  intro m hm
  simp only [webcap, List.mem_cons, List.not_mem_nil, or_false] at hm
  rcases hm with rfl | rfl | rfl | rfl
  · exact ⟨{ needs := [[c!"year"]], gives := [c!"year"], valid := isValidYear }, by simp [sources, otherSources], by decide +kernel, fun h => absurd h (by decide),
      Or.inr ⟨⟨c!"year", by decide, rfl, fun h => absurd h (by decide)⟩, by decide⟩⟩
  · exact ⟨{ needs := [[c!"source"]], gives := [c!"source", c!"other", c!"another"] }, by simp [sources, otherSources], by decide +kernel, fun h => absurd h (by decide),
      Or.inr ⟨⟨c!"source", by decide, rfl, fun h => absurd h (by decide)⟩, rfl⟩⟩
  · exact ⟨{ needs := [[c!"source"]], gives := [c!"source", c!"other", c!"another"] }, by simp [sources, otherSources], by decide +kernel, fun h => absurd h (by decide),
      Or.inr ⟨⟨c!"another", by decide, rfl, fun h => absurd h (by decide)⟩, rfl⟩⟩
  · exact ⟨{ needs := [[c!"container"]], gives := [c!"container"] }, by simp [sources, otherSources], by decide +kernel, fun h => absurd h (by decide),
      Or.inr ⟨⟨c!"container", by decide, rfl, fun h => absurd h (by decide)⟩, rfl⟩⟩

/-- C146 (counterexample): with `other` excluded, a property named `another` is reported; and an episode title, which the list of
properties of the documentation does not have, is reported without any option. -/
theorem C146_counterexample :
    (∃ s', engine asciiEnv noOther webcap = .ok s' ∧ ∃ m ∈ s'.live, m.name = some c!"another" ∧ c!"another" ∉ documented) ∧
    (∃ s', engine asciiEnv [] pilot = .ok s' ∧ ∃ m ∈ s'.live, m.name = some c!"episode_title" ∧ c!"episode_title" ∉ documented) := by
  have key : ∀ (g : Dict) (s : Ms) (n : Str), ((reported (engine asciiEnv g s)).any fun l => l.any fun x => decide (x.1 = some n)) = true → n ∉ documented →
      ∃ s', engine asciiEnv g s = .ok s' ∧ ∃ m ∈ s'.live, m.name = some n ∧ n ∉ documented := by
    intro g s n h hd
    cases hr : engine asciiEnv g s with
    | error x => rw [hr] at h; cases h
    | ok s' =>
      rw [hr] at h
      simp only [reported, Option.any_some, List.any_map, List.any_eq_true, Function.comp, decide_eq_true_eq] at h
      obtain ⟨m, hm, hn⟩ := h
      exact ⟨s', rfl, m, hm, hn, hd⟩
  exact ⟨key _ _ _ (by decide +kernel) (by decide), key _ _ _ (by decide +kernel) (by decide)⟩

end Guessit
