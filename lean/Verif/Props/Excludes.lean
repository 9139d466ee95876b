import Verif.Model.Pipeline
import Verif.Spec.Rules
import Verif.Proofs.Matches
import Verif.Props.Text

/-! # C18 and C27: excluded properties, plausible years and weeks, on every run of the engine -/

namespace Guessit

/-! ### Guards -/

theorem passes_single {c : Dict} {needs : List (List Str)} {n : Str} (h : passes c needs = true) (hn : [n] ∈ needs) :
    isDisabled c n = false := by
  rw [passes, List.all_eq_true] at h
  have := h _ hn
  simpa using this

/-- The declarations and rules cannot bring a match named `n` when `n` is disabled: each declaration that gives `n` is guarded
by `n`, and so is each creation, unless it starts from a match that is itself named `n` (or from a weak episode, when weak
episodes are guarded by `n`). -/
def guarded (n : Str) : Bool :=
  (sources.all fun p => !p.gives.contains n || p.needs.contains [n]) && creationGuarded n
where
  weakGuarded (n : Str) : Bool := sources.all fun p => !p.weak || p.needs.contains [n]
  creationGuarded (n : Str) : Bool := ruleEntries.all fun r => r.needs.contains [n] || r.creates.all fun k =>
    !decide (k.into = n) || k.needs.contains [n] || decide (k.origin = .named n) || (decide (k.origin = .weak) && weakGuarded n)

/-- No match is named `n`; and none is tagged `weak-episode` when weak episodes are guarded by `n`. -/
def Absent (n : Str) (l : List Mt) : Prop :=
  (∀ m ∈ l, m.name ≠ some n) ∧ (guarded.weakGuarded n = true → ∀ m ∈ l, c!"weak-episode" ∉ m.tags)

theorem weak_step {n : Str} {c : Dict} {input : Str} {r : RuleEntry} {a b : List Mt} (h : RuleStep c input r a b)
    (ha : ∀ m ∈ a, c!"weak-episode" ∉ m.tags) : ∀ m ∈ b, c!"weak-episode" ∉ m.tags := by
  rw [RuleStep] at h
  split at h
  · intro m hm ht
    rcases h.1 m hm with ⟨m', hm', hk⟩ | ⟨k, _, hk⟩ | ⟨_, hd⟩
    · exact ha m' hm' (hk.2.1 ht)
    · obtain ⟨_, _, _, ho⟩ := hk
      cases hor : k.origin with
      | text => rw [hor] at ho; exact ho ht
      | named x => rw [hor] at ho; obtain ⟨m', hm', _, hw⟩ := ho; exact ha m' hm' (hw ht)
      | weak => rw [hor] at ho; obtain ⟨m', hm', hw⟩ := ho; exact ha m' hm' hw
    · exact hd.1 ht
  · rw [h]; exact ha

theorem absent_step {n : Str} {c : Dict} {input : Str} {r : RuleEntry} {a b : List Mt} (hg : guarded.creationGuarded n = true)
    (hr : r ∈ ruleEntries ∨ r = remover) (hdis : isDisabled c n = true) (h : RuleStep c input r a b) (ha : Absent n a) :
    Absent n b := by
  refine ⟨?_, fun hw => weak_step (n := n) h (ha.2 hw)⟩
  rw [RuleStep] at h
  split at h
  · rename_i hpass
    intro m hm hname
    rcases h.1 m hm with ⟨m', hm', hk⟩ | ⟨k, hk, hmk⟩ | ⟨_, hd⟩
    · exact ha.1 m' hm' (by rw [← hk.1]; exact hname)
    · rcases hr with hr | hr
      · obtain ⟨hp, hn, _, ho⟩ := hmk
        have hto : k.into = n := by rw [hname] at hn; exact (Option.some.inj hn).symm
        rw [guarded.creationGuarded, List.all_eq_true] at hg
        have := hg r hr
        rw [Bool.or_eq_true] at this
        rcases this with h1 | h1
        · rw [passes_single hpass (by simpa using h1)] at hdis; exact absurd hdis (by decide)
        · rw [List.all_eq_true] at h1
          have h2 := h1 k hk
          rw [Bool.or_eq_true, Bool.or_eq_true, Bool.or_eq_true] at h2
          rcases h2 with ((h2 | h2) | h2) | h2
          · simp [hto] at h2
          · rw [passes_single hp (by simpa using h2)] at hdis; exact absurd hdis (by decide)
          · rw [of_decide_eq_true h2] at ho
            obtain ⟨m', hm', hn', _⟩ := ho
            exact ha.1 m' hm' hn'
          · rw [Bool.and_eq_true] at h2
            rw [of_decide_eq_true h2.1] at ho
            obtain ⟨m', hm', hw⟩ := ho
            exact ha.2 h2.2 m' hm' hw
      · rw [hr] at hk; simp [remover] at hk
    · obtain ⟨_, _, m', hm', hn', _⟩ := hd
      exact ha.1 m' hm' (by rw [hn']; exact hname)
  · rw [h]; exact ha.1

theorem absent_run {n : Str} {c : Dict} {input : Str} (hg : guarded.creationGuarded n = true) (hdis : isDisabled c n = true) :
    ∀ {rs : List RuleEntry} {a b : List Mt}, (∀ r ∈ rs, r ∈ ruleEntries ∨ r = remover) → RulesRun c input rs a b → Absent n a →
      Absent n b := by
  intro rs a b hr h
  induction h with
  | nil => exact id
  | cons hs _ ih =>
    intro ha
    exact ih (fun r hh => hr r (by simp [hh])) (absent_step hg (hr _ (by simp)) hdis hs ha)

theorem order_mem {order : List RuleEntry} (hp : (order.filter fun r => decide (r.rule ≠ c!"remover")).Perm ruleEntries)
    (hrem : ∀ r ∈ order, r.rule = c!"remover" → r = remover) : ∀ r ∈ order, r ∈ ruleEntries ∨ r = remover := by
  intro r hr
  by_cases h : r.rule = c!"remover"
  · exact Or.inr (hrem r hr h)
  · exact Or.inl (hp.mem_iff.1 (List.mem_filter.2 ⟨hr, by simpa using h⟩))

theorem excluded_guarded {n : Str} {c : Dict} {input : Str} {result : List Mt} (hg : guarded n = true)
    (hdis : isDisabled c n = true) (h : EngineRun c input result) : ∀ m ∈ result, m.name ≠ some n := by
  obtain ⟨found, order, hf, hp, hrem, hrun⟩ := h
  rw [guarded, Bool.and_eq_true] at hg
  refine (absent_run hg.2 hdis (order_mem hp hrem) hrun ⟨?_, ?_⟩).1
  · intro m hm hname
    obtain ⟨p, hps, hpass, _, ⟨h0, _⟩ | ⟨⟨x, hx, hxn, _⟩, _⟩⟩ := hf m hm
    · rw [h0] at hname; cases hname
    have hxe : x = n := by rw [hname] at hxn; exact (Option.some.inj hxn).symm
    rw [List.all_eq_true] at hg
    have h1 := hg.1 p hps
    rw [Bool.or_eq_true] at h1
    rcases h1 with h1 | h1
    · rw [hxe] at hx; simp [hx] at h1
    · rw [passes_single hpass (by simpa using h1)] at hdis; exact absurd hdis (by decide)
  · intro hw m hm ht
    obtain ⟨p, hps, hpass, hpw, _⟩ := hf m hm
    rw [guarded.weakGuarded, List.all_eq_true] at hw
    have h1 := hw p hps
    rw [hpw ht] at h1
    rw [passes_single hpass (by simpa using h1)] at hdis
    exact absurd hdis (by decide)

/-! ### Names that are found although disabled, then removed by a rule -/

/-- `n` is removed by a rule when disabled, that rule runs whenever the declarations that give `n` do, and no rule creates it. -/
def cleared (n : Str) : Bool :=
  !guarded.weakGuarded n && guarded.creationGuarded n &&
    ruleEntries.any fun r => r.clears.contains n && sources.all fun p => !p.gives.contains n || decide (p.needs = r.needs)

theorem run_append {c : Dict} {input : Str} : ∀ {xs ys : List RuleEntry} {a b : List Mt}, RulesRun c input (xs ++ ys) a b →
    ∃ m, RulesRun c input xs a m ∧ RulesRun c input ys m b
  | [], _, a, _, h => ⟨a, .nil a, h⟩
  | _ :: _, _, _, _, .cons hs hr => by
    obtain ⟨m, h1, h2⟩ := run_append hr
    exact ⟨m, .cons hs h1, h2⟩

theorem excluded_cleared {n : Str} {c : Dict} {input : Str} {result : List Mt} (hg : cleared n = true)
    (hdis : isDisabled c n = true) (h : EngineRun c input result) : ∀ m ∈ result, m.name ≠ some n := by
  obtain ⟨found, order, hf, hp, hrem, hrun⟩ := h
  rw [cleared, Bool.and_eq_true, Bool.and_eq_true, List.any_eq_true] at hg
  obtain ⟨⟨hnw, hcg⟩, r, hr, hrc⟩ := hg
  rw [Bool.and_eq_true, List.all_eq_true] at hrc
  have hnw' : guarded.weakGuarded n = true → False := by intro hh; rw [hh] at hnw; exact absurd hnw (by decide)
  have hmem := order_mem hp hrem
  by_cases hpass : passes c r.needs = true
  · have hro : r ∈ order := (List.mem_filter.1 (hp.mem_iff.2 hr)).1
    obtain ⟨xs, ys, hxy⟩ := List.append_of_mem hro
    rw [hxy] at hrun hmem
    obtain ⟨mid, _, h2⟩ := run_append hrun
    cases h2 with
    | cons hs hrest =>
      refine (absent_run hcg hdis (fun x hx => hmem x (by simp [hx])) hrest ⟨?_, fun hw => (hnw' hw).elim⟩).1
      rw [RuleStep, if_pos hpass] at hs
      exact hs.2 n (by simpa using hrc.1) hdis
  · refine (absent_run hcg hdis hmem hrun ⟨?_, fun hw => (hnw' hw).elim⟩).1
    intro m hm hname
    obtain ⟨p, hps, hpp, _, ⟨h0, _⟩ | ⟨⟨x, hx, hxn, _⟩, _⟩⟩ := hf m hm
    · rw [h0] at hname; cases hname
    have hxe : x = n := by rw [hname] at hxn; exact (Option.some.inj hxn).symm
    have h1 := hrc.2 p hps
    rw [Bool.or_eq_true] at h1
    rcases h1 with h1 | h1
    · rw [hxe] at hx; simp [hx] at h1
    · rw [of_decide_eq_true h1] at hpp; exact hpass hpp

/-! ## C18 -/

/-- The properties an `excludes` (or an `includes` without them) really keeps out of the result. -/
def excludable : List Str := [c!"episode", c!"disc", c!"episode_details", c!"episode_format", c!"container", c!"source",
  c!"video_codec", c!"audio_codec", c!"audio_profile", c!"audio_channels", c!"video_profile", c!"video_api", c!"screen_size",
  c!"frame_rate", c!"aspect_ratio", c!"website", c!"date", c!"language", c!"subtitle_language", c!"country", c!"release_group",
  c!"streaming_service", c!"size", c!"audio_bit_rate", c!"video_bit_rate", c!"edition", c!"cd", c!"bonus", c!"film",
  c!"film_title", c!"part", c!"crc32", c!"mimetype", c!"type"]

theorem excludable_ok : ∀ n ∈ excludable, guarded n = true ∨ cleared n = true := by decide +kernel

/-- C18: in every run of the engine — whatever the patterns find and wherever, whatever the rules keep, in whatever order they
run — no match of the result bears the name of a property that is excluded, or left out of a non-empty `includes`, for each of
the properties of `excludable`. -/
theorem C18_excluded_partial (context : Dict) (input : Str) (result : List Mt) (excludes includes : List Str) (n : Str)
    (he : NamesOption (context.getD (.str c!"excludes")) excludes) (hi : NamesOption (context.getD (.str c!"includes")) includes)
    (hn : n ∈ excludes ∨ (includes ≠ [] ∧ n ∉ includes)) (hk : n ∈ excludable) (h : EngineRun context input result) :
    ∀ m ∈ result, m.name ≠ some n := by
  have hdis : isDisabled context n = true := (C17_disabled_iff context excludes includes he hi n).2 hn
  rcases excludable_ok n hk with hg | hg
  · exact excluded_guarded hg hdis h
  · exact excluded_cleared hg hdis h

/-- The properties that some declaration or rule can still produce when they are excluded. -/
def leaking : List Str := [c!"season", c!"version", c!"episode_count", c!"season_count", c!"absolute_episode", c!"year", c!"week",
  c!"title", c!"alternative_title", c!"episode_title", c!"bonus_title", c!"color_depth", c!"other", c!"proper_count", c!"cd_count",
  c!"uuid"]

/-- C18, the finding: for each of the remaining properties there is a declaration, or a rule, that produces it and is not guarded
by it. -/
theorem C18_leaks : ∀ n ∈ leaking,
    (∃ p ∈ sources, n ∈ p.gives ∧ ∀ clause ∈ p.needs, n ∉ clause) ∨
    (∃ r ∈ ruleEntries, (∀ clause ∈ r.needs, n ∉ clause) ∧ ∃ k ∈ r.creates, k.into = n ∧ k.origin ≠ .named n ∧ ∀ clause ∈ k.needs, n ∉ clause) := by
  decide +kernel

/-- C18, the finding on the code of one of these rules: with `year` excluded, `SeasonYear` still adds the year (it does not look at
the options): `Show.S2010E01` is reported with year 2010. -/
theorem C18_counterexample_year :
    let season : Mt := { id := 0, start := 1, stop := 5, name := some c!"season", val := some (.int 2010) }
    ∃ s', seasonYear { input := c!"S2010E01", live := [season], markers := [] } = .ok s' ∧
      ∃ m ∈ s'.live, m.name = some c!"year" ∧ m.priv = false := by
  refine ⟨_, rfl, ?_⟩
  decide

/-! ## C27 -/

/-- Every match named `n` has a value that satisfies `ok`. -/
def AllValid (input : Str) (n : Str) (ok : MVal → Bool) (l : List Mt) : Prop :=
  ∀ m ∈ l, m.name = some n → ok (m.value input) = true

theorem valid_step {n : Str} {ok : MVal → Bool} {c : Dict} {input : Str} {r : RuleEntry} {a b : List Mt}
    (hnot : ∀ t, ok (.str t) = false)
    (hc : ∀ k ∈ r.creates, k.into = n → ∀ v, k.valid v = true → ok v = true) (h : RuleStep c input r a b)
    (ha : AllValid input n ok a) : AllValid input n ok b := by
  rw [RuleStep] at h
  split at h
  · intro m hm hname
    rcases h.1 m hm with ⟨m', hm', hk⟩ | ⟨k, hk, _, hn, hv, _⟩ | ⟨_, _, _, m', hm', hn', t, ht⟩
    · have hm'v := ha m' hm' (by rw [← hk.1]; exact hname)
      rcases hk.2.2.2 with ⟨_, t, ht⟩ | he
      · rw [ht, hnot] at hm'v; exact absurd hm'v (by decide)
      · rw [he]; exact hm'v
    · exact hc k hk (by rw [hname] at hn; exact (Option.some.inj hn).symm) _ hv
    · have := ha m' hm' (by rw [hn']; exact hname)
      rw [ht, hnot] at this; exact absurd this (by decide)
  · rw [h]; exact ha

theorem valid_run {n : Str} {ok : MVal → Bool} {c : Dict} {input : Str} (hnot : ∀ t, ok (.str t) = false)
    (hc : ∀ r ∈ ruleEntries, ∀ k ∈ r.creates, k.into = n → ∀ v, k.valid v = true → ok v = true) :
    ∀ {rs : List RuleEntry} {a b : List Mt}, (∀ r ∈ rs, r ∈ ruleEntries ∨ r = remover) → RulesRun c input rs a b →
      AllValid input n ok a → AllValid input n ok b := by
  intro rs a b hr h
  induction h with
  | nil => exact id
  | cons hs _ ih =>
    intro ha
    refine ih (fun r hh => hr r (by simp [hh])) (valid_step hnot ?_ hs ha)
    rcases hr _ (List.mem_cons_self ..) with h1 | h1
    · exact hc _ h1
    · rw [h1]; intro k hk; simp [remover] at hk

theorem valid_result {n : Str} {ok : MVal → Bool} {c : Dict} {input : Str} {result : List Mt} (hnot : ∀ t, ok (.str t) = false)
    (hs : ∀ p ∈ sources, n ∈ p.gives → ∀ v, p.valid v = true → ok v = true)
    (hc : ∀ r ∈ ruleEntries, ∀ k ∈ r.creates, k.into = n → ∀ v, k.valid v = true → ok v = true)
    (h : EngineRun c input result) : AllValid input n ok result := by
  obtain ⟨found, order, hf, hp, hrem, hrun⟩ := h
  refine valid_run hnot hc (order_mem hp hrem) hrun ?_
  intro m hm hname
  obtain ⟨p, hps, _, _, ⟨h0, _⟩ | ⟨⟨x, hx, hxn, _⟩, hv⟩⟩ := hf m hm
  · rw [h0] at hname; cases hname
  have hxe : x = n := by rw [hname] at hxn; exact (Option.some.inj hxn).symm
  exact hs p hps (hxe ▸ hx) _ hv

theorem year_sources : ∀ p ∈ sources, c!"year" ∈ p.gives → ∀ v, p.valid v = true → isValidYear v = true := by
  intro p hp hg
  simp only [sources, episodesSources, otherSources, List.cons_append, List.nil_append, List.mem_cons, List.not_mem_nil, or_false] at hp
  repeat' first
    | (rcases hp with hp | hp)
  all_goals (first | exact absurd hg (by decide) | exact fun v hv => hv)

theorem week_sources : ∀ p ∈ sources, c!"week" ∈ p.gives → ∀ v, p.valid v = true → isValidWeek v = true := by
  intro p hp hg
  simp only [sources, episodesSources, otherSources, List.cons_append, List.nil_append, List.mem_cons, List.not_mem_nil, or_false] at hp
  repeat' first
    | (rcases hp with hp | hp)
  all_goals (first | exact absurd hg (by decide) | exact fun v hv => hv)

theorem year_creations : ∀ r ∈ ruleEntries, ∀ k ∈ r.creates, k.into = c!"year" → ∀ v, k.valid v = true → isValidYear v = true := by
  have h : ∀ r ∈ ruleEntries, (∀ k ∈ r.creates, k.into ≠ c!"year") ∨
      r.creates = [{ origin := .named c!"season", into := c!"year", valid := isValidYear }] := by
    intro r hr
    simp only [ruleEntries, List.mem_cons, List.not_mem_nil, or_false] at hr
    repeat' first
      | (rcases hr with hr | hr)
    all_goals (first | (left; decide) | (right; rfl))
  intro r hr k hk hto v hv
  rcases h r hr with h1 | h1
  · exact absurd hto (h1 k hk)
  · rw [h1, List.mem_singleton] at hk; subst hk; exact hv

theorem week_creations : ∀ r ∈ ruleEntries, ∀ k ∈ r.creates, k.into ≠ c!"week" := by decide +kernel

/-- C27: every year of the result is a number from 1920 to 2029. -/
theorem C27_year (context : Dict) (input : Str) (result : List Mt) (h : EngineRun context input result) :
    ∀ m ∈ result, m.name = some c!"year" → ∃ y : Int, m.value input = .int y ∧ 1920 ≤ y ∧ y ≤ 2029 := by
  intro m hm hn
  have hv := valid_result (ok := isValidYear) (fun _ => rfl) year_sources year_creations h m hm hn
  cases hval : m.value input with
  | str t => rw [hval] at hv; simp [isValidYear, isValidWeek] at hv
  | obj t => rw [hval] at hv; simp [isValidYear] at hv
  | int y =>
    rw [hval] at hv
    simp only [isValidYear, validYear, Bool.and_eq_true, decide_eq_true_eq] at hv
    exact ⟨y, rfl, hv.1, by omega⟩

/-- C27: every week of the result is a number from 1 to 52. -/
theorem C27_week (context : Dict) (input : Str) (result : List Mt) (h : EngineRun context input result) :
    ∀ m ∈ result, m.name = some c!"week" → ∃ w : Int, m.value input = .int w ∧ 1 ≤ w ∧ w ≤ 52 := by
  intro m hm hn
  have hv := valid_result (ok := isValidWeek) (fun _ => rfl) week_sources
    (fun r hr k hk hto => absurd hto (week_creations r hr k hk)) h m hm hn
  cases hval : m.value input with
  | str t => rw [hval] at hv; simp [isValidYear, isValidWeek] at hv
  | obj t => rw [hval] at hv; simp [isValidWeek] at hv
  | int y =>
    rw [hval] at hv
    simp only [isValidWeek, validWeek, Bool.and_eq_true, decide_eq_true_eq] at hv
    exact ⟨y, rfl, hv.1, by omega⟩

/-! ### The hypotheses are met: there are runs -/

theorem Kept.refl (input : Str) (m : Mt) : Kept input m m := ⟨rfl, id, id, Or.inr rfl⟩

/-- A rule that changes nothing is a step of any entry that clears nothing present. -/
theorem idle_step {c : Dict} {input : Str} {r : RuleEntry} {l : List Mt} (h : ∀ n ∈ r.clears, ∀ m ∈ l, m.name ≠ some n) :
    RuleStep c input r l l := by
  rw [RuleStep]
  split
  · exact ⟨fun m hm => Or.inl ⟨m, hm, Kept.refl input m⟩, fun n hn _ => h n hn⟩
  · rfl

theorem idle_run {c : Dict} {input : Str} {l : List Mt} : ∀ {rs : List RuleEntry}, (∀ r ∈ rs, ∀ n ∈ r.clears, ∀ m ∈ l, m.name ≠ some n) →
    RulesRun c input rs l l
  | [], _ => .nil l
  | r :: rs, h => .cons (idle_step (h r (by simp))) (idle_run fun r' hr' => h r' (by simp [hr']))

/-- A run on `Show 2019 week 7` with `language` excluded, in which both a year and a week are reported. -/
example :
    let year : Mt := { id := 0, start := 5, stop := 9, name := some c!"year", val := some (.int 2019) }
    let week : Mt := { id := 1, start := 15, stop := 16, name := some c!"week", val := some (.int 7) }
    let context : Dict := [(.str c!"excludes", .list [.str c!"language"])]
    NamesOption (context.getD (.str c!"excludes")) [c!"language"] ∧ c!"language" ∈ excludable ∧
      EngineRun context c!"Show 2019 week 7" [year, week] := by
  refine ⟨Or.inr rfl, by decide, [_, _], ruleEntries, ?_, ?_, ?_, idle_run ?_⟩
  · intro m hm
    rw [List.mem_cons, List.mem_singleton] at hm
    rcases hm with rfl | rfl
    · refine ⟨{ needs := [[c!"year"]], gives := [c!"year"], valid := isValidYear }, ?_, by decide, by decide, Or.inr ⟨⟨c!"year", by decide, rfl, by decide⟩, by decide⟩⟩
      simp [sources, otherSources]
    · refine ⟨{ needs := [], gives := [c!"week"], valid := isValidWeek }, ?_, by decide, by decide, Or.inr ⟨⟨c!"week", by decide, rfl, by decide⟩, by decide⟩⟩
      simp [sources, otherSources]
  · rw [List.filter_eq_self.2 (by decide +kernel)]
  · intro r hr h
    exact absurd h ((by decide +kernel : ∀ r ∈ ruleEntries, r.rule ≠ c!"remover") r hr)
  · decide +kernel

end Guessit
