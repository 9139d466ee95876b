import Verif.Props.Excludes
import Verif.Props.Equivalent
import Verif.Props.Episodes
import Verif.Props.Completion
import Verif.Props.Counts

/-! # The rules modelled step by step are steps of the engine model

`EngineRun` (Model/Pipeline.lean) describes each rule by an entry of a table.  For the rules whose code is modelled function by
function, this file proves that the code does what its entry says, so that C18 and C27 do not rest on a reading of those rules. -/

namespace Guessit
open Spec

/-- Running the rule of that name in state `s` may give `s'`, according to the table. -/
def Implements (rule : Str) (c : Dict) (s s' : Ms) : Prop :=
  ∃ r ∈ ruleEntries, r.rule = rule ∧ RuleStep c s.input r s.live s'.live

/-- Running a rule that only removes. -/
def OnlyRemoves (c : Dict) (s s' : Ms) : Prop := RuleStep c s.input remover s.live s'.live

theorem onlyRemoves_of_subset {c : Dict} {s s' : Ms} (h : ∀ m ∈ s'.live, m ∈ s.live) : OnlyRemoves c s s' := by
  rw [OnlyRemoves, RuleStep, if_pos (by rfl)]
  refine ⟨fun m hm => Or.inl ⟨m, h m hm, Kept.refl _ _⟩, ?_⟩
  intro n hn; simp [remover] at hn

/-- `RemoveAmbiguous` (processors.py:87-123) only removes. -/
theorem C18_removeAmbiguous (c : Dict) (s : Ms) : OnlyRemoves c s (removeAmbiguous s) :=
  onlyRemoves_of_subset fun _ hm => removeAll_subset hm

/-- `RemoveLessSpecificSeasonEpisode` (processors.py:126-146) only removes. -/
theorem C18_removeLessSpecific (c : Dict) (name : Str) (s : Ms) : OnlyRemoves c s (removeLessSpecific name s) :=
  onlyRemoves_of_subset fun _ hm => removeAll_subset hm

/-- `KeepMarkedYearInFilepart` (date.py:67-97) only removes. -/
theorem C18_keepMarkedYear (c : Dict) (s : Ms) : OnlyRemoves c s (keepMarkedYear s) :=
  onlyRemoves_of_subset fun _ hm => removeAll_subset hm

/-- `ScreenSizeOnlyOne` (screen_size.py:113-127) only removes. -/
theorem C18_screenSizeOnlyOne (c : Dict) (s : Ms) : OnlyRemoves c s (screenSizeOnlyOne s) :=
  onlyRemoves_of_subset fun _ hm => removeAll_subset hm

/-- `SeasonYear` (processors.py:177-192). -/
theorem C18_seasonYear (c : Dict) (s s' : Ms) (h : seasonYear s = .ok s') : Implements c!"SeasonYear" c s s' := by
  refine ⟨{ rule := c!"SeasonYear", creates := [{ origin := .named c!"season", into := c!"year", valid := isValidYear }] },
    by simp [ruleEntries], rfl, ?_⟩
  rw [RuleStep, if_pos (by rfl)]
  refine ⟨?_, by intro n hn; simp at hn⟩
  intro m hm
  unfold seasonYear at h
  split at h
  · cases hys : seasonYears s.input (named s.live c!"season") with
    | error e => rw [hys] at h; simp at h
    | ok ys =>
      rw [hys] at h
      simp only [Except.ok.injEq] at h
      subst h
      rcases mem_appendAll hm with hm | hm
      · exact Or.inl ⟨m, hm, Kept.refl _ _⟩
      · right; left
        have key : ∀ (ms ys : List Mt), seasonYears s.input ms = .ok ys → ∀ y ∈ ys, ∃ x ∈ ms, y = { x with name := some c!"year" } ∧
            isValidYear (x.value s.input) = true := by
          intro ms
          induction ms with
          | nil => intro ys h y hy; rw [seasonYears] at h; cases h; simp at hy
          | cons x ms ih =>
            intro ys h y hy
            rw [seasonYears] at h
            cases hv : validYearVal (x.value s.input) with
            | error e => rw [hv] at h; simp at h
            | ok b =>
              rw [hv] at h
              dsimp only at h
              cases hrest : seasonYears s.input ms with
              | error e => rw [hrest] at h; simp at h
              | ok rest =>
                rw [hrest] at h
                simp only [Except.ok.injEq] at h
                subst h
                have hx : b = true → isValidYear (x.value s.input) = true := by
                  intro hb
                  cases hval : x.value s.input with
                  | int n => rw [hval] at hv; simp only [validYearVal, Except.ok.injEq] at hv; rw [isValidYear, hv, hb]
                  | str t => rw [hval] at hv; simp [validYearVal] at hv
                  | obj t => rw [hval] at hv; simp [validYearVal] at hv
                cases b with
                | true =>
                  simp only [if_true] at hy
                  rw [List.mem_cons] at hy
                  rcases hy with hy | hy
                  · exact ⟨x, by simp, hy, hx rfl⟩
                  · obtain ⟨z, hz, h2⟩ := ih rest hrest y hy; exact ⟨z, by simp [hz], h2⟩
                | false =>
                  simp only [Bool.false_eq_true, if_false] at hy
                  obtain ⟨z, hz, h2⟩ := ih rest hrest y hy; exact ⟨z, by simp [hz], h2⟩
        obtain ⟨x, hx, rfl, hv⟩ := key _ _ hys m hm
        rw [mem_named] at hx
        exact ⟨_, List.mem_singleton.2 rfl, rfl, rfl, hv, x, hx.1, hx.2, id⟩
  · cases h; exact Or.inl ⟨m, hm, Kept.refl _ _⟩

/-- `YearSeason` (processors.py:195-209). -/
theorem C18_yearSeason (c : Dict) (s : Ms) : Implements c!"YearSeason" c s (yearSeason s) := by
  refine ⟨{ rule := c!"YearSeason", creates := [{ origin := .named c!"year", into := c!"season" }] }, by simp [ruleEntries], rfl, ?_⟩
  rw [RuleStep, if_pos (by rfl)]
  refine ⟨?_, by intro n hn; simp at hn⟩
  intro m hm
  unfold yearSeason at hm
  split at hm
  · rcases mem_appendAll hm with hm | hm
    · exact Or.inl ⟨m, hm, Kept.refl _ _⟩
    · right; left
      obtain ⟨x, hx, rfl⟩ := List.mem_map.1 hm
      rw [mem_named] at hx
      exact ⟨_, List.mem_singleton.2 rfl, rfl, rfl, rfl, x, hx.1, hx.2, id⟩
  · exact Or.inl ⟨m, hm, Kept.refl _ _⟩

/-- `EquivalentHoles` (processors.py:54-84). -/
theorem C18_equivalentHoles (c : Dict) (u : Uni) (t : CaseTables) (hl : ∀ s, u.lower s = [] ↔ s = []) (s s' : Ms)
    (h : equivalentHoles u t s = .ok s') : Implements c!"EquivalentHoles" c s s' := by
  refine ⟨{ rule := c!"EquivalentHoles", duplicates := true }, by simp [ruleEntries], rfl, ?_⟩
  rw [RuleStep, if_pos (by rfl)]
  refine ⟨?_, by intro n hn; simp at hn⟩
  obtain ⟨live1, added, rfl, hf, ha⟩ := C36_holes u t hl s s' h
  intro m hm
  rcases List.mem_append.1 hm with hm | hm
  · left
    obtain ⟨m', hm', hr⟩ := forall2_mem hf hm
    refine ⟨m', hm', ?_⟩
    rcases hr with rfl | ⟨v, w, hv, rfl, hw, _⟩
    · exact Kept.refl _ _
    · exact ⟨rfl, id, id, Or.inl ⟨⟨w, hw⟩, v, hv⟩⟩
  · right; right
    obtain ⟨h1, _, ⟨m', hm', hn, v, w, hv, hw, _⟩, _⟩ := ha m hm
    exact ⟨rfl, by rw [h1]; decide, ⟨w, hw⟩, m', hm', hn.symm, v, hv⟩

theorem firstTrue_mem {l : List Mt} {m : Mt} (h : firstTrue l = some m) : m ∈ l := by
  cases l with
  | nil => simp [firstTrue] at h
  | cons x l =>
    simp only [firstTrue] at h
    split at h
    · cases h; simp
    · cases h

theorem previousFrom_mem {l : List Mt} {m : Mt} : ∀ {k : Nat}, m ∈ previousFrom l k → m ∈ l := by
  intro k
  induction k with
  | zero => intro h; rw [previousFrom] at h; exact (List.mem_filter.1 h).1
  | succ k ih =>
    intro h
    rw [previousFrom] at h
    split at h
    · exact ih h
    · exact (List.mem_filter.1 h).1

theorem nextFrom_mem {l : List Mt} {m : Mt} : ∀ {f i : Nat}, m ∈ nextFrom l f i → m ∈ l := by
  intro f
  induction f with
  | zero => intro i h; simp [nextFrom] at h
  | succ f ih =>
    intro i h
    rw [nextFrom] at h
    split at h
    · exact ih h
    · exact (List.mem_filter.1 h).1

theorem copiesBetween_mem {input : Str} {p n : Mt} {l : List Mt} (h : copiesBetween input p n = some l) {m : Mt} (hm : m ∈ l) :
    ∃ k, m = { n with val := some (.int k) } := by
  unfold copiesBetween at h
  split at h
  · cases h
    obtain ⟨k, _, rfl⟩ := List.mem_map.1 hm
    exact ⟨k, rfl⟩
  · cases h

/-- What a range rule may add: copies of matches of the property, and separators. -/
def RangeAdds (prop : Str) (l : List Mt) (m : Mt) : Prop :=
  (∃ m' ∈ l, m'.name = some prop ∧ ∃ v, m = { m' with val := v }) ∨ 
    (m.name = some (sepName prop) ∧ m.tags = [] ∧ m.priv = true ∧ m.iname = m.name ∧ m.rawStop = none ∧ ∃ n ∈ l, n.name = some prop ∧ m.stop ≤ n.start)

theorem sepStep_adds {rs : List Str} {prop : Str} {s : Ms} {sep : Mt} {r : List Mt × List Mt} (h : sepStep rs prop s sep = some r) :
    ∀ m ∈ r.2, RangeAdds prop s.live m := by
  unfold sepStep at h
  split at h
  · rename_i p n hp hn
    have hn' := List.mem_filter.1 (firstTrue_mem hn)
    have hnl : n ∈ s.live := nextFrom_mem hn'.1
    have hnn : n.name = some prop := of_decide_eq_true hn'.2
    split at h
    · cases hc : copiesBetween s.input p n with
      | none => rw [hc] at h; cases h
      | some l =>
        rw [hc] at h
        simp only [Option.map_some, Option.some.injEq] at h
        subst h
        intro m hm
        rcases List.mem_append.1 hm with hm | hm
        · obtain ⟨k, rfl⟩ := copiesBetween_mem hc hm
          exact Or.inl ⟨n, hnl, hnn, _, rfl⟩
        · rw [List.mem_singleton] at hm; subst hm
          exact Or.inl ⟨m, hnl, hnn, m.val, rfl⟩
    · cases h; intro m hm; simp at hm
  · cases h; intro m hm; simp at hm

theorem pairStep_adds {rs : List Str} {prop : Str} {input : Str} {p n : Mt} {r : List Mt × List Mt} {l : List Mt} (hn : n ∈ l)
    (hnn : n.name = some prop) (h : pairStep rs prop input p n = some r) : ∀ m ∈ r.2, RangeAdds prop l m := by
  unfold pairStep at h
  split at h
  · cases hc : copiesBetween input p n with
    | none => rw [hc] at h; cases h
    | some l' =>
      rw [hc] at h
      simp only [Option.map_some, Option.some.injEq] at h
      subst h
      intro m hm
      simp only [List.mem_append, List.mem_cons, List.not_mem_nil, or_false] at hm
      rcases hm with hm | hm | hm
      · obtain ⟨k, rfl⟩ := copiesBetween_mem hc hm
        exact Or.inl ⟨n, hn, hnn, _, rfl⟩
      · subst hm; exact Or.inr ⟨rfl, rfl, rfl, rfl, rfl, n, hn, hnn, Nat.sub_le _ _⟩
      · subst hm; exact Or.inl ⟨m, hn, hnn, m.val, rfl⟩
  · cases h
    intro m hm
    simp only [List.mem_singleton] at hm
    subst hm
    exact Or.inl ⟨m, hn, hnn, m.val, rfl⟩

theorem pairLoop_adds {rs : List Str} {prop : Str} {canStart : Mt → Bool} {input : Str} {l : List Mt} : ∀ (todo : List Mt) (p : Option Mt)
    (r : List Mt × List Mt), (∀ n ∈ todo, n ∈ l ∧ n.name = some prop) → pairLoop rs prop canStart input p todo = some r →
    ∀ m ∈ r.2, RangeAdds prop l m := by
  intro todo
  induction todo with
  | nil => intro p r _ h m hm; cases p <;> (rw [pairLoop] at h; cases h; simp at hm)
  | cons n rest ih =>
    intro p r hl h
    have hrest : ∀ x ∈ rest, x ∈ l ∧ x.name = some prop := fun x hx => hl x (by simp [hx])
    cases p with
    | none => rw [pairLoop] at h; exact ih _ r hrest h
    | some p =>
      rw [pairLoop] at h
      split at h
      · rename_i a b ha hb
        cases h
        intro m hm
        rcases List.mem_append.1 hm with hm | hm
        · exact pairStep_adds (hl n (by simp)).1 (hl n (by simp)).2 ha m hm
        · exact ih _ b hrest hb m hm
      · cases h

theorem separatorRange_adds {rs : List Str} {prop : Str} {canStart : Mt → Bool} {s s' : Ms}
    (h : separatorRange rs prop canStart s = some s') : ∀ m ∈ s'.live, m ∈ s.live ∨ RangeAdds prop s.live m := by
  unfold separatorRange at h
  split at h
  · rename_i a b ha hb
    cases h
    intro m hm
    rcases mem_appendAll hm with hm | hm
    · exact Or.inl (removeAll_subset hm)
    · right
      rcases List.mem_append.1 hm with hm | hm
      · have key : ∀ (l : List Mt) (r : List Mt × List Mt), collect (sepStep rs prop s) l = some r → ∀ m ∈ r.2, RangeAdds prop s.live m := by
          intro l
          induction l with
          | nil => intro r h m hm; rw [collect] at h; cases h; simp at hm
          | cons x l ih =>
            intro r h m hm
            rw [collect] at h
            split at h
            · rename_i a' b' ha' hb'
              cases h
              rcases List.mem_append.1 hm with hm | hm
              · exact sepStep_adds ha' m hm
              · exact ih b' hb' m hm
            · cases h
        exact key _ a ha m hm
      · refine pairLoop_adds _ _ b ?_ hb m hm
        intro n hn
        exact mem_named.1 ((sortBy_perm _ _).mem_iff.1 hn)
  · cases h

theorem rangeStep {c : Dict} {s s' : Ms} {rule prop : Str} (h : ∀ m ∈ s'.live, m ∈ s.live ∨ RangeAdds prop s.live m) :
    RuleStep c s.input { rule := rule, creates := [{ origin := .named prop, into := prop }, { into := sepName prop }] } s.live s'.live := by
  rw [RuleStep, if_pos (by rfl)]
  refine ⟨?_, by intro n hn; simp at hn⟩
  intro m hm
  rcases h m hm with h1 | ⟨m', hm', hn', v, rfl⟩ | ⟨hn, ht, _⟩
  · exact Or.inl ⟨m, h1, Kept.refl _ _⟩
  · right; left
    exact ⟨_, List.mem_cons_self .., rfl, hn', rfl, m', hm', hn', id⟩
  · right; left
    exact ⟨{ into := sepName prop }, by simp, rfl, hn, rfl, by show _ ∉ m.tags; rw [ht]; decide⟩

/-- `EpisodeNumberSeparatorRange` (episodes.py:617-627). -/
theorem C18_episodeRange (c : Dict) (rs : List Str) (s s' : Ms) (h : episodeRange rs s = some s') :
    Implements c!"EpisodeNumberSeparatorRange" c s s' :=
  ⟨{ rule := c!"EpisodeNumberSeparatorRange", creates := [{ origin := .named c!"episode", into := c!"episode" },
      { into := sepName c!"episode" }] }, by simp [ruleEntries, sepName], rfl, rangeStep (separatorRange_adds h)⟩

/-- `SeasonSeparatorRange` (episodes.py:630-637). -/
theorem C18_seasonRange (c : Dict) (rs : List Str) (s s' : Ms) (h : seasonRange rs s = some s') :
    Implements c!"SeasonSeparatorRange" c s s' :=
  ⟨{ rule := c!"SeasonSeparatorRange", creates := [{ origin := .named c!"season", into := c!"season" },
      { into := sepName c!"season" }] }, by simp [ruleEntries, sepName], rfl, rangeStep (separatorRange_adds h)⟩

theorem appendNamed_mem {input : Str} {name : Str} : ∀ {ms l : List Mt} {x : Mt}, x ∈ appendNamed input name l ms →
    x ∈ l ∨ ∃ m ∈ ms, x = { m with name := some name } := by
  intro ms
  induction ms with
  | nil => intro l x h; exact Or.inl h
  | cons m ms ih =>
    intro l x h
    rw [appendNamed, List.foldl_cons] at h
    rcases ih h with h1 | ⟨m', hm', rfl⟩
    · split at h1
      · exact Or.inl h1
      · rcases List.mem_append.1 h1 with h1 | h1
        · exact Or.inl h1
        · rw [List.mem_singleton] at h1; exact Or.inr ⟨m, by simp, h1⟩
    · exact Or.inr ⟨m', by simp [hm'], rfl⟩

theorem removedBy_mem {input : Str} : ∀ {ms l : List Mt} {x : Mt}, x ∈ removedBy input l ms → x ∈ ms := by
  intro ms
  induction ms with
  | nil => intro l x h; simp [removedBy] at h
  | cons m ms ih =>
    intro l x h
    rw [removedBy] at h
    split at h
    · rw [List.mem_cons] at h
      rcases h with h | h
      · simp [h]
      · simp [ih h]
    · simp [ih h]

theorem renameAll_mem {input : Str} {name : Str} {ms l : List Mt} {x : Mt} (h : x ∈ renameAll input name l ms) :
    x ∈ l ∨ ∃ m ∈ ms, x = { m with name := some name } := by
  rcases appendNamed_mem h with h | ⟨m, hm, he⟩
  · exact Or.inl (removeAll_subset h)
  · exact Or.inr ⟨m, removedBy_mem hm, he⟩

/-- `CountValidator` (episodes.py:445-470). -/
theorem C18_countValidator (c : Dict) (s : Ms) : Implements c!"CountValidator" c s (countValidator s) := by
  refine ⟨{ rule := c!"CountValidator", creates := [{ origin := .named c!"count", into := c!"episode_count" },
      { origin := .named c!"count", into := c!"season_count" }] }, by simp [ruleEntries], rfl, ?_⟩
  rw [RuleStep, if_pos (by rfl)]
  refine ⟨?_, by intro n hn; simp at hn⟩
  intro m hm
  unfold countValidator at hm
  dsimp only at hm
  rcases renameAll_mem hm with hm | ⟨x, hx, rfl⟩
  · rcases renameAll_mem hm with hm | ⟨x, hx, rfl⟩
    · exact Or.inl ⟨m, removeAll_subset hm, Kept.refl _ _⟩
    · right; left
      have hx' := mem_named.1 (List.mem_filter.1 hx).1
      exact ⟨_, List.mem_cons_self .., rfl, rfl, rfl, x, hx'.1, hx'.2, id⟩
  · right; left
    have hx' := mem_named.1 (List.mem_filter.1 hx).1
    exact ⟨{ origin := .named c!"count", into := c!"season_count" }, by simp, rfl, rfl, rfl, x, hx'.1, hx'.2, id⟩

theorem seeStep_copies {rs : List Str} {s : Ms} {sep : Mt} {r : List Mt × List Mt} (h : seeStep rs s sep = some r) :
    ∀ m ∈ r.2, ∃ m' ∈ s.live, m'.name = some c!"episode" ∧ ∃ v, m = { m' with val := v } := by
  unfold seeStep at h
  dsimp only at h
  split at h
  · cases h; intro m hm; simp at hm
  · split at h
    · rename_i p n hp hn
      have hn' := List.mem_filter.1 (firstTrue_mem hn)
      have hnl : n ∈ s.live := nextFrom_mem hn'.1
      have hnn : n.name = some c!"episode" := by
        have := hn'.2
        simp only [Bool.and_eq_true, decide_eq_true_eq] at this
        exact this.1
      split at h
      · split at h
        · cases h
          intro m hm
          obtain ⟨k, _, rfl⟩ := List.mem_map.1 hm
          exact ⟨n, hnl, hnn, _, rfl⟩
        · cases h
      · cases h; intro m hm; simp at hm
    · cases h; intro m hm; simp at hm

/-- `SeePatternRange` (episodes.py:473-507). -/
theorem C18_seePatternRange (c : Dict) (rs : List Str) (s s' : Ms) (h : seePatternRange rs s = some s') :
    Implements c!"SeePatternRange" c s s' := by
  refine ⟨{ rule := c!"SeePatternRange", creates := [{ origin := .named c!"episode", into := c!"episode" }] }, by simp [ruleEntries], rfl, ?_⟩
  rw [RuleStep, if_pos (by rfl)]
  refine ⟨?_, by intro n hn; simp at hn⟩
  intro m hm
  unfold seePatternRange at h
  split at h
  · rename_i a ha
    cases h
    rcases mem_appendAll hm with hm | hm
    · exact Or.inl ⟨m, removeAll_subset hm, Kept.refl _ _⟩
    · have key : ∀ (l : List Mt) (r : List Mt × List Mt), collect (seeStep rs s) l = some r → ∀ m ∈ r.2,
          ∃ m' ∈ s.live, m'.name = some c!"episode" ∧ ∃ v, m = { m' with val := v } := by
        intro l
        induction l with
        | nil => intro r h m hm; rw [collect] at h; cases h; simp at hm
        | cons x l ih =>
          intro r h m hm
          rw [collect] at h
          split at h
          · rename_i a' b' ha' hb'
            cases h
            rcases List.mem_append.1 hm with hm | hm
            · exact seeStep_copies ha' m hm
            · exact ih b' hb' m hm
          · cases h
      right; left
      obtain ⟨m', hm', h1, v, rfl⟩ := key _ a ha m hm
      exact ⟨_, List.mem_singleton.2 rfl, rfl, h1, rfl, m', hm', h1, id⟩
  · cases h

/-- `ProperCountRule` (other.py:71-110). -/
theorem C18_properCount (c : Dict) (u : Uni) (count : Mt → Option Int) (s : Ms) (hon : isDisabled c c!"other" = false) :
    Implements c!"ProperCountRule" c s (properCount u count s) := by
  refine ⟨{ rule := c!"ProperCountRule", needs := [[c!"other"]], creates := [{ origin := .named c!"other", into := c!"proper_count" }] },
    by simp [ruleEntries], rfl, ?_⟩
  rw [RuleStep, if_pos (by simp [passes, hon])]
  refine ⟨?_, by intro n hn; simp at hn⟩
  intro m hm
  unfold properCount at hm
  dsimp only at hm
  split at hm
  · exact Or.inl ⟨m, hm, Kept.refl _ _⟩
  · rename_i hne
    rcases mem_appendAll hm with hm | hm
    · exact Or.inl ⟨m, hm, Kept.refl _ _⟩
    · right; left
      rw [List.mem_singleton] at hm
      obtain ⟨x, hx⟩ : ∃ x, x ∈ (named s.live c!"other").filter fun m => m.value s.input = .str c!"Proper" := by
        cases hl : (named s.live c!"other").filter fun m => m.value s.input = .str c!"Proper" with
        | nil => rw [hl] at hne; simp at hne
        | cons x l => exact ⟨x, by simp⟩
      have hx' := mem_named.1 (List.mem_filter.1 hx).1
      subst hm
      exact ⟨_, List.mem_singleton.2 rfl, rfl, rfl, rfl, x, hx'.1, hx'.2, by intro h; simp at h⟩

/-- `Mimetype` (mimetype.py:30-50). -/
theorem C18_mimetype (c : Dict) (guess : Str → Option Str) (s : Ms) (hon : isDisabled c c!"mimetype" = false) :
    Implements c!"Mimetype" c s (mimetypeRule guess s) := by
  refine ⟨{ rule := c!"Mimetype", needs := [[c!"mimetype"]], creates := [{ into := c!"mimetype" }] }, by simp [ruleEntries], rfl, ?_⟩
  rw [RuleStep, if_pos (by simp [passes, hon])]
  refine ⟨?_, by intro n hn; simp at hn⟩
  intro m hm
  unfold mimetypeRule at hm
  split at hm
  · rcases List.mem_append.1 hm with hm | hm
    · exact Or.inl ⟨m, hm, Kept.refl _ _⟩
    · right; left
      rw [List.mem_singleton] at hm
      subst hm
      exact ⟨_, List.mem_singleton.2 rfl, rfl, rfl, rfl, by simp [endMatch]⟩
  · exact Or.inl ⟨m, hm, Kept.refl _ _⟩

/-- `TypeProcessor` (type.py:38-82). -/
theorem C18_typeProcessor (c : Dict) (o : Option Str) (s : Ms) (hon : isDisabled c c!"type" = false) :
    Implements c!"TypeProcessor" c s (typeProcessor o s) := by
  refine ⟨{ rule := c!"TypeProcessor", needs := [[c!"type"]], creates := [{ into := c!"type" }] }, by simp [ruleEntries], rfl, ?_⟩
  rw [RuleStep, if_pos (by simp [passes, hon])]
  refine ⟨?_, by intro n hn; simp at hn⟩
  intro m hm
  rcases List.mem_append.1 hm with hm | hm
  · exact Or.inl ⟨m, hm, Kept.refl _ _⟩
  · right; left
    rw [List.mem_singleton] at hm
    subst hm
    exact ⟨_, List.mem_singleton.2 rfl, rfl, rfl, rfl, by simp [endMatch]⟩

end Guessit
