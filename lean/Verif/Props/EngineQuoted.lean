import Verif.Props.EngineValues
import Verif.Props.GroupName
import Verif.Spec.Quoted

/-! # Texts taken from the name, through the rules -/

namespace Guessit
open Spec

theorem Spec.WrittenWith.of_sublist {t w : Str} (h : (wordChars w).Sublist (wordChars t)) : WrittenWith t w := ⟨wordChars t, [], by simp, by simpa using h⟩

theorem Spec.WrittenWith.refl (t : Str) : WrittenWith t t := .of_sublist (List.Sublist.refl _)


theorem Spec.WrittenWith.congr {t t' w : Str} (h : WrittenWith t w) (ht : wordChars t = wordChars t') : WrittenWith t' w := by
  obtain ⟨x, y, h1, h2⟩ := h
  exact ⟨x, y, ht ▸ h1, h2⟩

/-- An end of the title, a space, and a beginning that ends before it. -/
theorem written_swap (title : Str) (i j : Nat) (h : i ≤ j) : WrittenWith title (title.drop j ++ c!" " ++ title.take i) := by
  refine ⟨wordChars (title.take j), wordChars (title.drop j), by rw [← wordChars_append, List.take_append_drop], ?_⟩
  rw [wordChars_append, wordChars_append, show wordChars c!" " = [] by decide, List.append_nil]
  refine List.Sublist.append (List.Sublist.refl _) ((List.Sublist.filter _ ?_))
  rw [show title.take i = (title.take j).take i by rw [List.take_take, Nat.min_eq_left h]]
  exact List.take_sublist ..

theorem reorderWith_written {lower : Str → Str} {title article : Str} (ha : article ≠ []) : ∀ {separators : List Str} {w : Str},
    reorderWith lower title article separators = some w → WrittenWith title w
  | [], _, h => by cases h
  | sep :: rest, w, h => by
    rw [reorderWith] at h
    split at h
    · cases h
      have hlen : 0 < article.length := List.length_pos_iff.2 ha
      have hn : pyBound title.length (title.length : Int) = title.length := by
        unfold pyBound
        rw [if_neg (by omega)]
        simp
      have h0 : pyBound title.length 0 = 0 := by simp [pyBound]
      rw [pySlice, hn, List.take_length, pySlice, h0, List.drop_zero]
      refine written_swap _ _ _ ?_
      unfold pyBound
      rw [List.length_append, if_pos (by omega), if_pos (by omega)]
      omega
    · exact reorderWith_written ha h

theorem reorderTitle_written {lower : Str → Str} {separators : List Str} {title : Str} : ∀ {articles : List Str}, (∀ a ∈ articles, a ≠ []) →
    WrittenWith title (reorderTitle lower articles separators title)
  | [], _ => .refl _
  | a :: rest, h => by
    rw [reorderTitle]
    split
    · rename_i t ht
      exact reorderWith_written (h a (by simp)) ht
    · exact reorderTitle_written fun b hb => h b (by simp [hb])

/-- Whatever the text is, the value is a text taken from it. -/
def Quotes (f : Str → MVal) : Prop := ∀ t, ∃ w, f t = .str w ∧ WrittenWith t w

theorem quotes_id : Quotes MVal.str := fun t => ⟨t, rfl, .refl t⟩

theorem quotes_clean : Quotes fun t => .str (cleanup t) := fun t => ⟨_, rfl, .of_sublist (by rw [C20_word_characters])⟩

theorem quotes_title (lower : Str → Str) : Quotes fun t => .str (reorderTitle lower [c!"the"] [c!",", c!", "] (cleanup t)) := fun t =>
  ⟨_, rfl, (reorderTitle_written (lower := lower) (separators := [c!",", c!", "]) (title := cleanup t) (articles := [c!"the"]) (by decide)).congr (C20_word_characters t)⟩

theorem quotes_group (e : GroupEnv) : Quotes fun t => .str (cleanGroup e t) := fun t => ⟨_, rfl, .of_sublist (C86_nothing_invented e t)⟩

theorem Spec.TakenFrom.slice {input : Str} {lower : Str → Str} {w : Str} (a b : Nat) (h : WrittenWith ((input.take b).drop a) w) : TakenFrom input lower w :=
  ⟨w, a, b, rfl, h⟩

theorem Spec.TakenFrom.respell {input : Str} {lower : Str → Str} {v w : Str} (h : TakenFrom input lower v) (hw : lower w = lower v) : TakenFrom input lower w := by
  obtain ⟨v', a, b, h1, h2⟩ := h
  exact ⟨v', a, b, h1.trans hw.symm, h2⟩

/-- The value is a text taken from the name, and stays one wherever the match is moved. -/
def Quoted (input : Str) (lower : Str → Str) (m : Mt) : Prop :=
  Quotes m.fmt ∧ ∀ v, m.val = some v → v.truthy = true → ∃ w, v = .str w ∧ TakenFrom input lower w

def Free (input : Str) (lower : Str → Str) (m : Mt) : Prop := ∀ n ∈ freeNames, m.name = some n → Quoted input lower m

theorem Quoted.value {input : Str} {lower : Str → Str} {m : Mt} (h : Quoted input lower m) : ∃ w, m.value input = .str w ∧ TakenFrom input lower w := by
  obtain ⟨w, hw, ht⟩ := h.1 (m.raw input)
  have ht' : TakenFrom input lower w := .slice m.rawA m.rawB ht
  unfold Mt.value
  split
  · rename_i v hv
    split
    · rename_i hc
      obtain ⟨w', rfl, h2⟩ := h.2 v hv hc
      exact ⟨w', rfl, h2⟩
    · exact ⟨w, hw, ht'⟩
  · exact ⟨w, hw, ht'⟩

theorem Quoted.fresh {input : Str} {lower : Str → Str} {m : Mt} (hf : Quotes m.fmt) (hv : m.val = none := by rfl) : Quoted input lower m :=
  ⟨hf, fun v h => by rw [hv] at h; cases h⟩

theorem free_fixed : ∀ n ∈ freeNames, n ∉ movable ∧ n ≠ c!"source" := by decide +kernel

theorem Free.kept {input : Str} {lower : Str → Str} {m' m : Mt} (hk : KeptL m' m) (h : Free input lower m') : Free input lower m := by
  intro n hn hm
  have hn' : m'.name = some n := hk.1.1 ▸ hm
  rcases hk.2 with ⟨hv, hf⟩ | ⟨hs, hv⟩ | ⟨x, hx, hs⟩
  · have := h n hn hn'
    unfold Quoted
    rw [hv, hf]
    exact this
  · rw [hs] at hn'
    cases hn'
    exact absurd rfl (free_fixed _ hn).2
  · rw [hs] at hn'
    cases hn'
    exact absurd hx (free_fixed _ hn).1

/-- The classes that give texts a free name. -/
def freeing : List Cls := [.TitleFromPosition, .EpisodeTitleFromPosition, .AlternativeTitleReplace, .TitleToEpisodeTitle, .Filepart3EpisodeTitle,
  .Filepart2EpisodeTitle, .RenameEpisodeTitleWhenMovieType, .DashSeparatedReleaseGroup, .SceneReleaseGroup, .AnimeReleaseGroup, .BonusTitleRule,
  .FilmTitleRule]

theorem free_births (cls : Cls) (h : cls ∉ freeing) : ∀ k ∈ births cls, k.into ∉ freeNames := by
  cases cls <;> first | exact absurd (by decide) h | decide

/-- A rename among the free names. -/
theorem free_renamed {input : Str} {lower : Str → Str} {x : Mt} {p : Str} (hp : p ∈ freeNames) (hx : x.name = some p) (h : Free input lower x) {m : Mt}
    (hv : m.val = x.val) (hf : m.fmt = x.fmt) : Free input lower m := by
  intro n hn hm
  have := h p hp hx
  unfold Quoted
  rw [hv, hf]
  exact this

theorem free_title {kin : Kin} {r : TitleRule} {type : Option Str} {s s' : Ms} {lower : Str → Str} (hr : Quotes fun t => .str (r.fmt t))
    (h : titleRun kin r type s = .ok s') (hs : ∀ m ∈ s.live, Free s.input lower m) : ∀ m ∈ s'.live, Free s.input lower m := by
  obtain ⟨add, rm, hw, rfl⟩ := titleRun_ok h
  intro m hm
  rcases mem_appendAll (removeAll_subset hm) with hm | hm
  · exact hs m hm
  · obtain ⟨h, n, i, rfl, hn⟩ := titleWhen_shaped hw m hm
    exact fun _ _ _ => .fresh hr

theorem free_firstHole {s s' : Ms} {lower : Str → Str} {name : Str} {hs : List (Nat × Nat)} (h : appendFirstHole s name hs = .ok s')
    (hl : ∀ m ∈ s.live, Free s.input lower m) : ∀ m ∈ s'.live, Free s.input lower m := by
  rcases appendFirstHole_adds h with rfl | ⟨a, _, _, rfl⟩
  · exact hl
  · intro m hm
    rcases mem_appendAll hm with hm | hm
    · exact hl m hm
    · rw [List.mem_singleton] at hm
      subst hm
      exact fun _ _ _ => .fresh quotes_clean

theorem free_appended {s : Ms} {lower : Str → Str} {name : Str} {x : Mt} (hl : ∀ m ∈ s.live, Free s.input lower m) (hx : Quoted s.input lower x) :
    ∀ m ∈ appendNamed s.input name s.live [x], Free s.input lower m := by
  intro m hm
  rcases appendNamed_mem hm with hm | ⟨y, hy, rfl⟩
  · exact hl m hm
  · rw [List.mem_singleton] at hy
    subst hy
    exact fun _ _ _ => hx

theorem free_sceneFound {e : GroupEnv} {s : Ms} {lower : Str → Str} {part m : Mt} (h : sceneFound e s part = some m) : Free s.input lower m := by
  unfold sceneFound at h
  split at h
  · split at h
    · cases h
    · split at h
      · cases h
      · split at h
        · cases h
          unfold sceneMatch
          dsimp only
          split
          · split
            · exact fun _ _ _ => .fresh (quotes_group e)
            · exact fun _ _ _ => .fresh (quotes_group e)
          · exact fun _ _ _ => .fresh (quotes_group e)
        · cases h
  · cases h

theorem free_sceneFold {e : GroupEnv} {input : Str} {lower : Str → Str} : ∀ {parts : List Mt} {acc : Ms × List Mt}, acc.1.input = input →
    (∀ m ∈ acc.1.live, Free input lower m) → (∀ m ∈ acc.2, Free input lower m) →
    (∀ m ∈ (parts.foldl (sceneStep e) acc).1.live, Free input lower m) ∧ ∀ m ∈ (parts.foldl (sceneStep e) acc).2, Free input lower m
  | [], _, _, h1, h2 => ⟨h1, h2⟩
  | part :: parts, acc, h0, h1, h2 => by
    rw [List.foldl_cons]
    unfold sceneStep
    split
    · exact free_sceneFold h0 h1 h2
    · rename_i m hm
      refine free_sceneFold h0 (fun x hx => h1 x (removeAll_subset hx)) fun x hx => ?_
      rcases List.mem_append.1 hx with hx | hx
      · exact h2 x hx
      · rw [List.mem_singleton] at hx; subst hx; exact h0 ▸ free_sceneFound hm

/-- The groups of the name are plain text. -/
def MarksQuote (s : Ms) : Prop := ∀ k ∈ s.markers, Quotes k.fmt ∧ k.val = none

theorem free_holes {u : Uni} {t : CaseTables} (hl : ∀ s, u.lower s = [] ↔ s = []) {s s' : Ms} (h : equivalentHoles u t s = .ok s')
    (hs : ∀ m ∈ s.live, Free s.input u.lower m) : ∀ m ∈ s'.live, Free s.input u.lower m := by
  have hfmt : ∀ m ∈ s'.live, (∃ m0 ∈ s.live, m0.start = m.start ∧ m0.stop = m.stop) ∨ (∀ t, m.fmt t = .str (cleanup t)) := by
    refine equivalentHoles_keeps (P := fun m => (∃ m0 ∈ s.live, m0.start = m.start ∧ m0.stop = m.stop) ∨ (∀ t, m.fmt t = .str (cleanup t)))
      (fun _ _ _ _ hm => hm) h ?_ fun m hm => Or.inl ⟨m, hm, rfl, rfl⟩
    intro part _ l m hm
    obtain ⟨r, _, rfl⟩ := List.mem_map.1 hm
    exact Or.inr fun _ => rfl
  obtain ⟨live1, added, rfl, hf, hadd⟩ := C36_holes u t hl s s' h
  intro m hm n hn hname
  rcases List.mem_append.1 hm with hm' | hm'
  · obtain ⟨x, hx, hr⟩ := forall2_back hf hm'
    rcases hr with rfl | ⟨v, w, hv, rfl, _, hlw, _⟩
    · exact hs m hx n hn hname
    · have hq := hs x hx n hn hname
      obtain ⟨v', hv', ht⟩ := hq.value
      rw [hv] at hv'
      cases hv'
      refine ⟨hq.1, fun y hy _ => ⟨w, (Option.some.inj hy).symm, ht.respell hlw⟩⟩
  · obtain ⟨_, _, ⟨x, hx, hxn, v, w, hv, hw, hlw, _, hlc⟩, ⟨part, hp, _, h1, h2, h3⟩, hov⟩ := hadd m hm'
    obtain ⟨v', hv', ht⟩ := (hs x hx n hn (hxn ▸ hname)).value
    rw [hv] at hv'
    cases hv'
    have hf := (hfmt m hm).resolve_left fun ⟨y, hy, e1, e2⟩ => hov y hy (by omega) ⟨by omega, by omega⟩
    refine ⟨?_, fun y hy hyt => ⟨w, ?_, ht.respell hlw⟩⟩
    · rw [show m.fmt = fun t => .str (cleanup t) from funext hf]
      exact quotes_clean
    · rw [← hw]
      simp [Mt.value, hy, hyt]

theorem free_rule {e : RuleEnv} (he : Natural e) {g : Dict} {arg : Str} {s s' : Ms} {cls : Cls} (h : ruleStep e g arg s cls = .ok s') (hk : MarksQuote s)
    (hs : ∀ m ∈ s.live, Free s.input e.uni.lower m) : ∀ m ∈ s'.live, Free s.input e.uni.lower m := by
  by_cases hfr : cls ∈ freeing
  · simp only [freeing, List.mem_cons, List.not_mem_nil, or_false] at hfr
    rcases hfr with rfl | rfl | rfl | rfl | rfl | rfl | rfl | rfl | rfl | rfl | rfl | rfl
    · exact free_title (quotes_title _) h hs
    · simp only [ruleStep, episodeTitleRun] at h
      split at h
      · exact free_title (quotes_title _) h hs
      · cases h; exact hs
    · cases h
      unfold alternativeTitleReplace
      split
      · exact hs
      · rename_i alt ha
        intro m hm
        rcases List.mem_append.1 hm with hm | hm
        · exact hs m (mem_removeMatch hm)
        · rw [List.mem_singleton] at hm
          subst hm
          exact free_renamed (p := c!"alternative_title") (by decide) (alternativeToReplace_mem ha).2 (hs alt (alternativeToReplace_mem ha).1) rfl rfl
    · cases h
      intro m hm
      rcases renameEach_mem hm with h | ⟨x, hx, rfl⟩
      · exact hs m h
      · have : x ∈ named s.live c!"title" := by
          unfold titlesAfterEpisode at hx
          split at hx
          · exact absurd hx (List.not_mem_nil)
          · exact (List.mem_filter.1 hx).1
        exact free_renamed (p := c!"title") (by decide) (mem_named.1 this).2 (hs x (mem_named.1 this).1) rfl rfl
    · cases h
      unfold filepart3
      split
      · exact hs
      · split
        · split
          · split
            · exact free_appended hs (.fresh quotes_clean)
            · exact hs
          · exact hs
        · exact hs
    · cases h
      unfold filepart2
      split
      · exact hs
      · split
        · split
          · split
            · exact free_appended hs (.fresh quotes_clean)
            · exact hs
          · exact hs
        · exact hs
    · cases h
      unfold renameEpisodeTitleWhenMovie
      split
      · intro m hm
        rcases renameEach_mem hm with h | ⟨x, hx, rfl⟩
        · exact hs m h
        · exact free_renamed (p := c!"episode_title") (by decide) (mem_named.1 hx).2 (hs x (mem_named.1 hx).1) rfl rfl
      · exact hs
    · cases h
      unfold dashRun
      split
      · exact hs
      · split
        · exact hs
        · rename_i gone new hf
          obtain ⟨part, _, hp⟩ := List.exists_of_findSome?_eq_some hf
          intro m hm
          rcases mem_appendAll hm with hm | hm
          · exact hs m (removeAll_subset hm)
          · obtain ⟨c, hc⟩ := dashPart_mem hp hm
            rw [groupFor_mem hc]
            exact fun _ _ _ => .fresh (quotes_group e.group)
    · cases h
      have := free_sceneFold (e := e.group) (input := s.input) (lower := e.uni.lower)
        (parts := markerSorted s.input s.live (named s.markers c!"path") (markerPredicate s.input)) (acc := (s, [])) rfl hs (by simp)
      intro m hm
      rcases mem_appendAll hm with hm | hm
      · exact this.1 m hm
      · exact this.2 m hm
    · cases h
      unfold animeRun
      split
      · exact hs
      · intro m hm
        rcases mem_appendAll hm with hm | hm
        · exact hs m (removeAll_subset hm)
        · obtain ⟨x, hx, rfl⟩ := List.mem_map.1 hm
          obtain ⟨part, _, hx⟩ := List.mem_filterMap.1 hx
          have hk := hk x (mem_rangeOf.1 (Guessit.firstTrue_mem hx)).1
          exact fun _ _ _ => .fresh hk.1 hk.2
    · simp only [ruleStep, bonusTitle] at h
      split at h
      · cases h
      · cases h; exact hs
      · exact free_firstHole h hs
    · simp only [ruleStep, filmTitle] at h
      split at h
      · cases h
      · cases h; exact hs
      · exact free_firstHole h hs
  · intro m hm
    rcases (rule_followsV he h).live m hm with ⟨m', hm', hk⟩ | ⟨k, hk, _, hinto, _, _⟩ | ⟨rfl, _⟩ | ⟨_, m', hm', hk⟩
    · exact (hs m' hm').kept hk.loose
    · intro n hn hname
      rw [hinto] at hname
      cases hname
      exact absurd hn (free_births cls hfr k hk)
    · exact free_holes he.lower h hs m hm
    · exact (hs m' hm').kept hk

/-- C159 for the rules. -/
theorem C159_engine (e : RuleEnv) (he : Natural e) (context : Dict) (s s' : Ms) (hk : MarksQuote s) (hs : ∀ m ∈ s.live, Free s.input e.uni.lower m)
    (h : engine e context s = .ok s') : ∀ m ∈ s'.live, ∀ n ∈ freeNames, m.name = some n → ∃ w, m.value s.input = .str w ∧ TakenFrom s.input e.uni.lower w := by
  have := run_keeps (P := fun t => (t.input = s.input ∧ t.markers = s.markers) ∧ ∀ m ∈ t.live, Free s.input e.uni.lower m) (fun d _ t t' ht hp => by
    have hf := rule_follows he ht
    refine ⟨⟨hf.input.trans hp.1.1, hf.markers.trans hp.1.2⟩, ?_⟩
    rw [← hp.1.1]
    exact free_rule he ht (fun k hk' => hk k (hp.1.2 ▸ hk')) (by rw [hp.1.1]; exact hp.2)) h ⟨⟨rfl, rfl⟩, hs⟩
  exact fun m hm n hn hname => (this.2 m hm n hn hname).value

end Guessit
