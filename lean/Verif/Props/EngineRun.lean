import Verif.Props.EngineTrace
import Verif.Props.Excludes

/-! # Runs of the whole engine

What every run of the rules, in the order in which they are scheduled, leaves. -/

namespace Guessit
open Spec

/-! ### The rules that run -/

theorem mem_rulesRun {context : Dict} {d : Decl Cls} :
    d ∈ rulesRun id context ↔ d ∈ effectiveRules guessitPlugs context ∧ ruleEnabled context d.cls = true := by
  unfold rulesRun
  rw [List.mem_filter, Shuffles.mem (shuffle := id) fun l => List.Perm.refl l]

theorem effective_plug {context : Dict} {d : Decl Cls} (h : d ∈ effectiveRules guessitPlugs context) :
    ∃ p ∈ guessitPlugs, p.off context = false ∧ d ∈ p.rules := by
  obtain ⟨xs, ys, e, _⟩ := mem_effectiveRules.1 h
  have hr : d ∈ Registered guessitPlugs context := by rw [e]; simp
  unfold Registered at hr
  obtain ⟨p, hp, hr⟩ := List.mem_flatMap.1 hr
  obtain ⟨h1, h2⟩ := List.mem_filter.1 hp
  exact ⟨p, h1, by simpa using h2, hr⟩

/-- Only one class is registered twice. -/
theorem class_once : ∀ d ∈ allRules, d.cls ≠ .RemoveLessSpecificSeasonEpisode → ∀ d' ∈ allRules, d'.cls = d.cls → d' = d := by
  decide +kernel

theorem firstOfClass_exists : ∀ {l : List (Decl Cls)} {c : Cls}, (∃ d ∈ l, d.cls = c) → ∃ d, d.cls = c ∧ FirstOfClass l d := by
  intro l c
  induction l with
  | nil => rintro ⟨_, h, _⟩; simp at h
  | cons x l ih =>
    rintro ⟨d, hd, hc⟩
    by_cases hx : x.cls = c
    · exact ⟨x, hx, [], l, rfl, by simp⟩
    · rcases List.mem_cons.1 hd with rfl | hd
      · exact absurd hc hx
      · obtain ⟨d', hc', xs, ys, e, h⟩ := ih ⟨d, hd, hc⟩
        refine ⟨d', hc', x :: xs, ys, by rw [e]; rfl, ?_⟩
        intro y hy
        rcases List.mem_cons.1 hy with rfl | hy
        · rw [hc']; exact hx
        · exact h y hy

/-- A rule of a class registered once runs as soon as its sub-rebulk is not disabled and it is enabled. -/
theorem runs_of_plug {context : Dict} {p : Plug Cls} {d : Decl Cls} (hp : p ∈ guessitPlugs) (hoff : p.off context = false) (hd : d ∈ p.rules)
    (hc : d.cls ≠ .RemoveLessSpecificSeasonEpisode) (he : ruleEnabled context d.cls = true) : d ∈ rulesRun id context := by
  refine mem_rulesRun.2 ⟨?_, he⟩
  have hreg : d ∈ Registered guessitPlugs context :=
    List.mem_flatMap.2 ⟨p, List.mem_filter.2 ⟨hp, by simp [hoff]⟩, hd⟩
  obtain ⟨d', hc', hf⟩ := firstOfClass_exists ⟨d, hreg, rfl⟩
  have hd' := mem_effectiveRules.2 hf
  have : d' = d := class_once d (List.mem_flatMap.2 ⟨p, hp, hd⟩) hc d' (mem_allRules hd') hc'
  rw [← this]; exact hd'

open Cls in
/-- The properties that must not be disabled for the class to be enabled. -/
def enabledNeeds : Cls → List Str
  | FilmTitleRule => [c!"film_title"]
  | SubtitlePrefixLanguageRule | SubtitleSuffixLanguageRule | SubtitleExtensionRule => [c!"subtitle_language"]
  | TitleFromPosition => [c!"alternative_title"]
  | _ => []

theorem enabledNeeds_ok {context : Dict} {cls : Cls} (h : ruleEnabled context cls = true) {n : Str} (hn : n ∈ enabledNeeds cls) :
    isDisabled context n = false := by
  cases cls <;> simp only [enabledNeeds, List.not_mem_nil, List.mem_singleton] at hn <;>
    (subst hn; simpa [ruleEnabled] using h)

theorem plug_single {context : Dict} {p : Plug Cls} (hoff : p.off context = false) {n : Str} (hn : p.names = [n]) :
    isDisabled context n = false := by
  unfold Plug.off at hoff
  rw [hn] at hoff
  simpa using hoff

/-! ### Runs -/

theorem runRules_append {e : RuleEnv} {g : Dict} : ∀ {xs ys : List (Decl Cls)} {s s' : Ms}, runRules e g (xs ++ ys) s = .ok s' →
    ∃ t, runRules e g xs s = .ok t ∧ runRules e g ys t = .ok s' := by
  intro xs
  induction xs with
  | nil => intro ys s s' h; exact ⟨s, rfl, h⟩
  | cons d xs ih =>
    intro ys s s' h
    rw [List.cons_append, runRules] at h
    split at h
    · cases h
    · rename_i t ht
      obtain ⟨u, h1, h2⟩ := ih h
      exact ⟨u, by rw [runRules, ht]; exact h1, h2⟩

theorem runRules_cons {e : RuleEnv} {g : Dict} {d : Decl Cls} {xs : List (Decl Cls)} {s s' : Ms} (h : runRules e g (d :: xs) s = .ok s') :
    ∃ t, ruleStep e g d.arg s d.cls = .ok t ∧ runRules e g xs t = .ok s' := by
  rw [runRules] at h
  split at h
  · cases h
  · rename_i t ht
    exact ⟨t, ht, h⟩

/-- What each rule preserves, a run preserves. -/
theorem run_keeps {e : RuleEnv} {g : Dict} {P : Ms → Prop} : ∀ {rs : List (Decl Cls)} {s s' : Ms},
    (∀ d ∈ rs, ∀ t t', ruleStep e g d.arg t d.cls = .ok t' → P t → P t') → runRules e g rs s = .ok s' → P s → P s' := by
  intro rs
  induction rs with
  | nil => intro s s' _ h hp; cases h; exact hp
  | cons d rs ih =>
    intro s s' hd h hp
    obtain ⟨t, h1, h2⟩ := runRules_cons h
    exact ih (fun d' hd' => hd d' (by simp [hd'])) h2 (hd d (by simp) s t h1 hp)

/-- The name analysed, and the markers, never change. -/
theorem run_input {e : RuleEnv} (he : Natural e) {g : Dict} {rs : List (Decl Cls)} {s s' : Ms} (h : runRules e g rs s = .ok s') :
    s'.input = s.input ∧ s'.markers = s.markers :=
  run_keeps (P := fun t => t.input = s.input ∧ t.markers = s.markers) (fun d _ t t' hs hp => by
    have := rule_follows he hs
    exact ⟨this.input.trans hp.1, this.markers.trans hp.2⟩) h ⟨rfl, rfl⟩

/-- What runs before a rule does not run after it. -/
theorem not_after {context : Dict} {a b : Decl Cls} (hab : RunsBefore (schedule id (effectiveRules guessitPlugs context)).1 a b)
    {us ys : List (Decl Cls)} (e : rulesRun id context = us ++ b :: ys) : a ∉ ys := by
  obtain ⟨_, _, hn, _, _⟩ := C108_guessit (shuffle := id) (fun l => List.Perm.refl l) context
  have hnd : (rulesRun id context).Nodup := List.Nodup.filter _ hn
  intro hay
  obtain ⟨l1, l2, e1, ha⟩ := runsBefore_iff.1 hab
  have hbf : ruleEnabled context b.cls = true := (mem_rulesRun.1 (by rw [e]; simp)).2
  have haf : ruleEnabled context a.cls = true := (mem_rulesRun.1 (by rw [e]; simp [hay])).2
  have e2 : rulesRun id context = l1.filter (fun r => ruleEnabled context r.cls) ++ b :: l2.filter fun r => ruleEnabled context r.cls := by
    unfold rulesRun
    rw [e1, List.filter_append, List.filter_cons_of_pos (p := fun r : Decl Cls => ruleEnabled context r.cls) hbf]
  have e3 : us ++ b :: ys = l1.filter (fun r => ruleEnabled context r.cls) ++ b :: l2.filter fun r => ruleEnabled context r.cls := by
    rw [← e2, e]
  have hnd3 : (us ++ b :: ys).Nodup := by rw [← e]; exact hnd
  have hau : a ∈ us := by rw [split_unique hnd3 e3]; exact List.mem_filter.2 ⟨ha, haf⟩
  rw [List.nodup_append] at hnd3
  exact hnd3.2.2 a hau a (by simp [hay]) rfl

/-- The place of a rule that runs: what follows has at most its priority, and is neither itself nor anything that must run before
it. -/
theorem run_split {context : Dict} {d : Decl Cls} (h : d ∈ rulesRun id context) :
    ∃ xs ys, rulesRun id context = xs ++ d :: ys ∧ (∀ x ∈ xs, x ∈ rulesRun id context) ∧ (∀ y ∈ ys, y ∈ rulesRun id context) ∧
      (∀ y ∈ ys, y.priority ≤ d.priority) ∧ d ∉ ys ∧
      ∀ y ∈ ys, ¬ RunsBefore (schedule id (effectiveRules guessitPlugs context)).1 y d := by
  obtain ⟨xs, ys, e⟩ := List.append_of_mem h
  obtain ⟨_, _, hn, hpr, _⟩ := C108_guessit (shuffle := id) (fun l => List.Perm.refl l) context
  have hnd : (rulesRun id context).Nodup := List.Nodup.filter _ hn
  have hys : ∀ y ∈ ys, y ∈ rulesRun id context := fun y hy => by rw [e]; simp [hy]
  refine ⟨xs, ys, e, fun x hx => by rw [e]; simp [hx], hys, ?_, ?_, fun y hy hb => not_after hb e hy⟩
  · intro y hy
    by_contra hlt
    exact not_after (hpr d (mem_rulesRun.1 h).1 y (mem_rulesRun.1 (hys y hy)).1 (by omega)) e hy
  · rw [e, List.nodup_append] at hnd
    exact (List.nodup_cons.1 hnd.2.1).1

/-! ### C18 -/

/-- No rule can bring a match named `n` when `n` is disabled. -/
def birthGuarded (n : Str) : Bool := guessitPlugs.all fun p => p.rules.all fun d =>
  decide (p.names = [n]) || (enabledNeeds d.cls).contains n || (births d.cls).all fun k =>
    !decide (k.into = n) || k.needs.contains n || decide (k.root = .named n) || decide (k.root = .kin n) || (decide (k.root = .weak) && guarded.weakGuarded n)

theorem notWeak_step {e : RuleEnv} (he : Natural e) {g : Dict} {arg : Str} {cls : Cls} {s s' : Ms} (h : ruleStep e g arg s cls = .ok s')
    (hs : ∀ m ∈ s.live, ¬ Weak m) : ∀ m ∈ s'.live, ¬ Weak m := by
  intro m hm hw
  rcases (rule_follows he h).live m hm with ⟨m', hm', hk⟩ | ⟨k, _, _, _, _, hroot⟩ | ⟨_, hd, _⟩
  · exact hs m' hm' (hk.2.1 hw)
  · split at hroot
    · exact hroot hw
    · obtain ⟨m', hm', _, h2, _⟩ := hroot; exact hs m' hm' (h2 hw)
    · obtain ⟨m', hm', _, h2⟩ := hroot; exact hs m' hm' (h2 hw)
    · obtain ⟨m', hm', h2⟩ := hroot; exact hs m' hm' h2
    · obtain ⟨m', hm', h2⟩ := hroot; exact hs m' hm' (h2 hw)
  · exact hd hw

theorem absent_rule {e : RuleEnv} (he : Natural e) {g : Dict} {n : Str} (hg : birthGuarded n = true) (hdis : isDisabled g n = true)
    {d : Decl Cls} (hd : d ∈ rulesRun id g) {s s' : Ms} (h : ruleStep e g d.arg s d.cls = .ok s') (hs : Absent n s.live) : Absent n s'.live := by
  refine ⟨?_, fun hw => notWeak_step he h (hs.2 hw)⟩
  obtain ⟨heff, hen⟩ := mem_rulesRun.1 hd
  obtain ⟨p, hp, hoff, hdp⟩ := effective_plug heff
  unfold birthGuarded at hg
  have hgd := List.all_eq_true.1 (List.all_eq_true.1 hg p hp) d hdp
  rw [Bool.or_eq_true, Bool.or_eq_true] at hgd
  have hcontra : isDisabled g n = false → ∀ m ∈ s'.live, m.name ≠ some n := fun hh => by rw [hh] at hdis; cases hdis
  rcases hgd with (hgd | hgd) | hgd
  · exact hcontra (plug_single hoff (of_decide_eq_true hgd))
  · exact hcontra (enabledNeeds_ok hen (by simpa using hgd))
  · intro m hm hname
    rcases (rule_follows he h).live m hm with ⟨m', hm', hk⟩ | ⟨k, hk, hneeds, hinto, _, hroot⟩ | ⟨_, _, m', hm', h2⟩
    · exact hs.1 m' hm' (hk.1 ▸ hname)
    · have hin : k.into = n := by rw [hinto] at hname; exact Option.some.inj hname
      have hkg := List.all_eq_true.1 hgd k hk
      rw [Bool.or_eq_true, Bool.or_eq_true, Bool.or_eq_true, Bool.or_eq_true, Bool.and_eq_true] at hkg
      rcases hkg with (((hkg | hkg) | hkg) | hkg) | ⟨hkg, hw⟩
      · simp [hin] at hkg
      · exact hcontra (hneeds n (by simpa using hkg)) m hm hname
      · rw [of_decide_eq_true hkg] at hroot
        obtain ⟨m', hm', h2, _⟩ := hroot
        exact hs.1 m' hm' h2
      · rw [of_decide_eq_true hkg] at hroot
        obtain ⟨m', hm', h2, _⟩ := hroot
        exact hs.1 m' hm' h2
      · rw [of_decide_eq_true hkg] at hroot
        obtain ⟨m', hm', h2⟩ := hroot
        exact hs.2 hw m' hm' h2
    · exact hs.1 m' hm' (h2 ▸ hname)

theorem absent_found {g : Dict} {n : Str} {input : Str} {found : List Mt} (hsrc : ∀ p ∈ sources, n ∈ p.gives → passes g p.needs = true → False)
    (hdis : isDisabled g n = true) (hf : PatternsGive g input found) : Absent n found := by
  refine ⟨?_, ?_⟩
  · intro m hm hname
    obtain ⟨p, hp, hpass, _, ⟨h0, _⟩ | ⟨⟨x, hx, hxn, _⟩, _⟩⟩ := hf m hm
    · rw [hname] at h0; cases h0
    · rw [hname] at hxn
      cases hxn
      exact hsrc p hp hx hpass
  · intro hw m hm ht
    obtain ⟨p, hp, hpass, hwk, _⟩ := hf m hm
    have hpw := List.all_eq_true.1 hw p hp
    rw [Bool.or_eq_true] at hpw
    rcases hpw with hpw | hpw
    · rw [hwk ht] at hpw; cases hpw
    · have := passes_single hpass (by simpa using hpw)
      rw [this] at hdis; cases hdis

theorem named_gone {input : Str} {l : List Mt} {n : Str} : ∀ y ∈ removeAll input l (named l n), y.name ≠ some n := by
  intro y hy hname
  refine removeAll_gone (x := y) ?_ y hy rfl
  have : ∀ l : List Mt, countKey input (y.key input) l ≤ countKey input (y.key input) (named l n) := by
    intro l
    induction l with
    | nil => exact Nat.le_refl _
    | cons x l ih =>
      rw [countKey_cons]
      by_cases hx : x.name = some n
      · have : named (x :: l) n = x :: named l n := by simp [named, hx]
        rw [this, countKey_cons]; omega
      · have hk : ¬ x.key input = y.key input := fun hk => hx (by have := congrArg MtKey.name hk; exact this.trans hname)
        have : named (x :: l) n = named l n := by simp [named, hx]
        rw [if_neg hk, this]; exact ih
  exact this l

/-- The two properties whose matches are removed by a rule: the plug of the rule and the rule itself. -/
def clearers : List (Str × Plug Cls × Decl Cls) := [
  (c!"language", languagePlug, { cls := .RemoveLanguage }),
  (c!"audio_bit_rate", { names := [c!"audio_bit_rate", c!"video_bit_rate"], rules := [{ cls := .BitRateTypeRule }] }, { cls := .BitRateTypeRule })]

theorem clearers_ok : ∀ x ∈ clearers, x.2.2 ∈ x.2.1.rules ∧ x.2.2.cls ≠ .RemoveLessSpecificSeasonEpisode ∧ birthGuarded x.1 = true ∧
    guarded.weakGuarded x.1 = false ∧ x.2.1.names ≠ [] ∧ (∀ p ∈ sources, x.1 ∈ p.gives → x.2.1.names ∈ p.needs) := by
  decide +kernel

theorem clearers_plug : ∀ x ∈ clearers, x.2.1 ∈ guessitPlugs := by
  intro x hx
  simp only [clearers, List.mem_cons, List.not_mem_nil, or_false] at hx
  rcases hx with rfl | rfl <;> simp [guessitPlugs]

theorem clears {e : RuleEnv} {g : Dict} {arg : Str} {s s' : Ms} : ∀ x ∈ clearers, isDisabled g x.1 = true → 
    (ruleEnabled g x.2.2.cls = true) ∧ (ruleStep e g arg s x.2.2.cls = .ok s' → ∀ m ∈ s'.live, m.name ≠ some x.1) := by
  intro x hx hdis
  simp only [clearers, List.mem_cons, List.not_mem_nil, or_false] at hx
  rcases hx with rfl | rfl
  · refine ⟨hdis, fun h => ?_⟩
    cases h
    exact named_gone
  · refine ⟨rfl, fun h => ?_⟩
    simp only [ruleStep, bitRateType] at h
    dsimp only at hdis
    rw [hdis] at h
    cases h
    exact named_gone

theorem cleared_run {e : RuleEnv} (he : Natural e) {g : Dict} {s s' : Ms} (h : engine e g s = .ok s') (hf : PatternsGive g s.input s.live)
    {x : Str × Plug Cls × Decl Cls} (hx : x ∈ clearers) (hdis : isDisabled g x.1 = true) : ∀ m ∈ s'.live, m.name ≠ some x.1 := by
  obtain ⟨hd, hc, hb, hw, hne, hsrc⟩ := clearers_ok x hx
  have hp := clearers_plug x hx
  unfold engine at h
  by_cases hoff : x.2.1.off g = true
  · refine (run_keeps (P := fun t => Absent x.1 t.live) (fun d hdr t t' ht => absent_rule he hb hdis hdr ht) h (absent_found ?_ hdis hf)).1
    intro p hps hgive hpass
    have := List.all_eq_true.1 hpass _ (hsrc p hps hgive)
    unfold Plug.off at hoff
    rw [Bool.and_eq_true, List.all_eq_true] at hoff
    obtain ⟨n, hn, hn2⟩ := List.any_eq_true.1 this
    rw [hoff.2 n hn] at hn2
    cases hn2
  · have hrun := runs_of_plug hp (by simpa using hoff) hd hc (clears (e := e) (arg := []) (s := s) (s' := s) x hx hdis).1
    obtain ⟨xs, ys, e1, _, hys, _, _⟩ := run_split hrun
    rw [e1] at h
    obtain ⟨t, h1, h2⟩ := runRules_append h
    obtain ⟨u, h3, h4⟩ := runRules_cons h2
    have hu := (clears x hx hdis).2 h3
    refine (run_keeps (P := fun t => Absent x.1 t.live) (fun d hdr t t' ht => absent_rule he hb hdis (hys d hdr) ht) h4 ⟨hu, ?_⟩).1
    intro hh; rw [hw] at hh; cases hh

theorem excludable_engine : ∀ n ∈ excludable, (birthGuarded n = true ∧ ∀ p ∈ sources, n ∈ p.gives → [n] ∈ p.needs) ∨ n ∈ clearers.map Prod.fst := by
  decide +kernel

/-- C18, for the rules themselves: whatever the patterns that are not disabled find, the rules guessit runs leave no match bearing
the name of a property of `excludable` that is excluded, or left out of a non-empty `includes`. -/
theorem C18_engine_partial (e : RuleEnv) (he : Natural e) (context : Dict) (s s' : Ms) (excludes includes : List Str) (n : Str)
    (hex : NamesOption (context.getD (.str c!"excludes")) excludes) (hin : NamesOption (context.getD (.str c!"includes")) includes)
    (hn : n ∈ excludes ∨ (includes ≠ [] ∧ n ∉ includes)) (hk : n ∈ excludable) (hf : PatternsGive context s.input s.live)
    (h : engine e context s = .ok s') : ∀ m ∈ s'.live, m.name ≠ some n := by
  have hdis : isDisabled context n = true := (C17_disabled_iff context excludes includes hex hin n).2 hn
  rcases excludable_engine n hk with ⟨hb, hsrc⟩ | hc
  · unfold engine at h
    refine (run_keeps (P := fun t => Absent n t.live) (fun d hdr t t' ht => absent_rule he hb hdis hdr ht) h (absent_found ?_ hdis hf)).1
    intro p hp hg hpass
    rw [passes_single hpass (hsrc p hp hg)] at hdis
    cases hdis
  · obtain ⟨x, hx, rfl⟩ := List.mem_map.1 hc
    exact cleared_run he h hf hx hdis

end Guessit
