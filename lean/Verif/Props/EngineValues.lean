import Verif.Props.EngineStrip
import Verif.Spec.Values

/-! # Values through the rules: what has its value from a table keeps it, up to case -/

namespace Guessit
open Spec

/-- Whatever its text is, the value of the match is `c`. -/
def Constant (m : Mt) (c : MVal) : Prop := (m.val = none ∧ ∀ t, m.fmt t = c) ∨ (m.val = some c ∧ c.truthy = true)

theorem Constant.value {m : Mt} {c : MVal} (h : Constant m c) (input : Str) : m.value input = c := by
  rcases h with ⟨h1, h2⟩ | ⟨h1, h2⟩ <;> simp [Mt.value, h1, h2]

/-- A value made of the words: a word, or a list of words. -/
def ValueIn (codes : List Str → Nat) (words : List Str) (c : MVal) : Prop :=
  (∃ w ∈ words, c = .str w) ∨ ∃ vs, (∀ w ∈ vs, w ∈ words) ∧ c = .obj (codes vs)

/-- The words of a name; `another` becomes `other`. -/
def vocab (n : Str) : List Str := if n = c!"another" then lexicon c!"other" else lexicon n

def vocabNames : List Str := c!"another" :: listedNames

/-- A match with a name that has words has its value from them. -/
def Drawn (codes : List Str → Nat) (m : Mt) : Prop := ∀ n ∈ vocabNames, m.name = some n → ∃ c, ValueIn codes (vocab n) c ∧ Constant m c

theorem unlisted_movable : ∀ n ∈ movable, n ∉ vocabNames := by decide +kernel

theorem unlisted_births : ∀ d ∈ allRules, d.cls ≠ .RenameAnotherToOther → ∀ k ∈ births d.cls, k.into ∉ vocabNames := by decide +kernel

theorem words_some : ∀ n ∈ vocabNames, ∀ w ∈ vocab n, w ≠ [] := by decide +kernel

theorem Drawn.kept {codes : List Str → Nat} {m' m : Mt} (hk : KeptL m' m) (h : Drawn codes m') : Drawn codes m := by
  intro n hn hm
  have hn' : m'.name = some n := hk.1.1 ▸ hm
  rcases hk.2 with ⟨hv, hf⟩ | ⟨hs, hv⟩ | ⟨x, hx, hs⟩
  · obtain ⟨c, h1, h2⟩ := h n hn hn'
    refine ⟨c, h1, ?_⟩
    unfold Constant
    rw [hv, hf]
    exact h2
  · rw [hs] at hn'
    cases hn'
    exact ⟨.str c!"Ultra HD Blu-ray", Or.inl ⟨_, by decide +kernel, rfl⟩, Or.inr ⟨hv, by decide⟩⟩
  · rw [hs] at hn'
    cases hn'
    exact absurd hn (unlisted_movable _ hx)

/-- No rule but `EquivalentHoles` gives another value. -/
theorem good_rule {codes : List Str → Nat} {e : RuleEnv} (he : Natural e) {g : Dict} {d : Decl Cls} (hd : d ∈ allRules) (hne : d.cls ≠ .EquivalentHoles)
    {s s' : Ms} (h : ruleStep e g d.arg s d.cls = .ok s') (hs : ∀ m ∈ s.live, Drawn codes m) : ∀ m ∈ s'.live, Drawn codes m := by
  by_cases hc : d.cls = .RenameAnotherToOther
  · rw [hc] at h
    cases h
    intro m hm
    rcases renameAll_mem hm with h | ⟨x, hx, rfl⟩
    · exact hs m h
    · intro n hn hname
      cases hname
      have hx' := mem_named.1 hx
      obtain ⟨c, h1, h2⟩ := hs x hx'.1 c!"another" (by decide) hx'.2
      exact ⟨c, h1, h2⟩
  · intro m hm
    rcases (rule_followsV he h).live m hm with ⟨m', hm', hk⟩ | ⟨k, hk, _, hinto, _, _⟩ | ⟨h1, _⟩ | ⟨_, m', hm', hk⟩
    · exact (hs m' hm').kept hk.loose
    · intro n hn hname
      rw [hinto] at hname
      cases hname
      exact absurd hn (unlisted_births d hd hc k hk)
    · exact absurd h1 hne
    · exact (hs m' hm').kept hk

/-! ### `EquivalentHoles` -/

theorem forall2_back {α : Type} {R : α → α → Prop} {a b : List α} (h : List.Forall₂ R a b) {y : α} (hy : y ∈ b) : ∃ x ∈ a, R x y := by
  induction h with
  | nil => cases hy
  | cons hd _ ih =>
    rcases List.mem_cons.1 hy with rfl | hm
    · exact ⟨_, by simp, hd⟩
    · obtain ⟨m, h1, h2⟩ := ih hm; exact ⟨m, by simp [h1], h2⟩

/-- What a match may be after `EquivalentHoles`: its value is fixed and is read as one of its words; or it is a hole, still to be read. -/
def Settled (codes : List Str → Nat) (input : Str) (lower : Str → Str) (m : Mt) : Prop := ∀ n ∈ listedNames, m.name = some n →
  (∃ c, ValueIn codes (lexicon n) c ∧ Constant m c) ∨ (∃ w d, d ∈ lexicon n ∧ lower w = lower d ∧ Constant m (.str w)) ∨
    ((∀ v, m.val = some v → v.truthy = false) ∧ (∀ t, m.fmt t = .str (cleanup t)) ∧ m.rawB ≤ input.length ∧
      ∃ d ∈ lexicon n, lower (cleanup (m.raw input)) = lower d)

theorem settled_holes {codes : List Str → Nat} {u : Uni} {t : CaseTables} (hl : ∀ s, u.lower s = [] ↔ s = []) {s s' : Ms}
    (hk : ∀ p ∈ s.markers, p.stop ≤ s.input.length) (h : equivalentHoles u t s = .ok s') (hs : ∀ m ∈ s.live, Drawn codes m) :
    ∀ m ∈ s'.live, Settled codes s.input u.lower m := by
  have hfmt : ∀ m ∈ s'.live, (∃ m0 ∈ s.live, m0.start = m.start ∧ m0.stop = m.stop) ∨ (∀ t, m.fmt t = .str (cleanup t)) := by
    refine equivalentHoles_keeps (P := fun m => (∃ m0 ∈ s.live, m0.start = m.start ∧ m0.stop = m.stop) ∨ (∀ t, m.fmt t = .str (cleanup t)))
      (fun _ _ _ _ hm => hm) h ?_ fun m hm => Or.inl ⟨m, hm, rfl, rfl⟩
    intro part _ l m hm
    obtain ⟨r, _, rfl⟩ := List.mem_map.1 hm
    exact Or.inr fun _ => rfl
  have hall : ∀ m ∈ s.live, ∀ n ∈ listedNames, m.name = some n → ∃ c, ValueIn codes (lexicon n) c ∧ Constant m c := by
    intro m hm n hn hname
    obtain ⟨c, h1, h2⟩ := hs m hm n (List.mem_cons_of_mem _ hn) hname
    have : n ≠ c!"another" := fun hh => absurd (hh ▸ hn) (by decide +kernel)
    rw [vocab, if_neg this] at h1
    exact ⟨c, h1, h2⟩
  have htext : ∀ m ∈ s.live, ∀ n ∈ listedNames, m.name = some n → ∀ v, m.value s.input = .str v → v ∈ lexicon n ∧ v ≠ [] := by
    intro m hm n hn hname v hv
    obtain ⟨c, h1, h2⟩ := hall m hm n hn hname
    rw [h2.value] at hv
    subst hv
    rcases h1 with ⟨w, hw, he⟩ | ⟨vs, _, he⟩
    · cases he
      refine ⟨hw, words_some n (List.mem_cons_of_mem _ hn) v ?_⟩
      rw [vocab, if_neg (fun hh => absurd (hh ▸ hn) (by decide +kernel))]
      exact hw
    · cases he
  obtain ⟨live1, added, rfl, hf, hadd⟩ := C36_holes u t hl s s' h
  intro m hm n hn hname
  rcases List.mem_append.1 hm with hm' | hm'
  · obtain ⟨x, hx, hr⟩ := forall2_back hf hm'
    rcases hr with rfl | ⟨v, w, hv, rfl, _, hlw, _⟩
    · exact Or.inl (hall m hx n hn hname)
    · obtain ⟨hvw, hvn⟩ := htext x hx n hn hname v hv
      refine Or.inr (Or.inl ⟨w, v, hvw, hlw, Or.inr ⟨rfl, ?_⟩⟩)
      cases w with
      | nil => exact absurd ((hl v).1 (hlw.symm.trans ((hl []).2 rfl))) hvn
      | cons a b => rfl
  · obtain ⟨_, ⟨hr1, hr2⟩, ⟨x, hx, hxn, v, w, hv, hw, hlw, _, hlc⟩, ⟨part, hp, _, h1, h2, h3⟩, hov⟩ := hadd m hm'
    obtain ⟨hvw, hvn⟩ := htext x hx n hn (hxn ▸ hname) v hv
    have hwn : w ≠ [] := fun hh => hvn ((hl v).1 (hlw.symm.trans (by rw [hh]; exact (hl []).2 rfl)))
    have hf := (hfmt m hm).resolve_left fun ⟨y, hy, e1, e2⟩ => hov y hy (by omega) ⟨by omega, by omega⟩
    by_cases hval : ∃ v, m.val = some v ∧ v.truthy = true
    · obtain ⟨y, hy, hyt⟩ := hval
      have : y = .str w := by
        rw [← hw]
        simp [Mt.value, hy, hyt]
      subst this
      exact Or.inr (Or.inl ⟨w, v, hvw, hlw, Or.inr ⟨hy, hyt⟩⟩)
    · right; right
      refine ⟨fun y hy => ?_, hf, ?_, v, hvw, ?_⟩
      · cases hyt : y.truthy
        · rfl
        · exact absurd ⟨y, hy, hyt⟩ hval
      · have := hk part hp
        simp only [Mt.rawB, hr2, Option.getD_none]
        omega
      · rw [← hlw, hlc]
        simp [Mt.raw, Mt.rawA, Mt.rawB, hr1, hr2]

/-! ### After `EquivalentHoles` -/

def equivalentDecl : Decl Cls := { cls := .EquivalentHoles, priority := postProcess }

theorem equivalent_runs (context : Dict) : equivalentDecl ∈ rulesRun id context :=
  runs_of_plug (p := processorsPlug) (by simp [guessitPlugs]) rfl (by decide) (by decide) rfl

theorem equivalent_once : ∀ d ∈ allRules, d.cls = .EquivalentHoles → d = equivalentDecl := by decide +kernel

theorem after_equivalent : ∀ y ∈ allRules.filter (mayFollow equivalentDecl), y = stripDecl ∨ y.cls ∈ [Cls.RenameEpisodeTitleWhenMovieType,
    .RemoveLessSpecificSeasonEpisode, .RemoveAmbiguous, .SeasonYear, .YearSeason, .Processors, .Mimetype, .TypeProcessor] := by
  decide +kernel

/-- What the last rules leave under a name with words was there. -/
theorem listed_kept {e : RuleEnv} {g : Dict} {arg : Str} {cls : Cls} (hc : cls ∈ [Cls.RenameEpisodeTitleWhenMovieType,
    .RemoveLessSpecificSeasonEpisode, .RemoveAmbiguous, .SeasonYear, .YearSeason, .Processors, .Mimetype, .TypeProcessor])
    {s s' : Ms} (h : ruleStep e g arg s cls = .ok s') : ∀ m ∈ s'.live, ∀ n ∈ listedNames, m.name = some n → m ∈ s.live := by
  simp only [List.mem_cons, List.not_mem_nil, or_false] at hc
  intro m hm n hn hname
  have hout : ∀ x ∈ [c!"alternative_title", c!"year", c!"season", c!"mimetype", c!"type"], some x ≠ m.name := by
    intro x hx hh
    rw [hname] at hh
    cases hh
    have : ∀ n ∈ listedNames, n ∉ [c!"alternative_title", c!"year", c!"season", c!"mimetype", c!"type"] := by decide +kernel
    exact this _ hn hx
  rcases hc with rfl | rfl | rfl | rfl | rfl | rfl | rfl | rfl
  · cases h
    unfold renameEpisodeTitleWhenMovie at hm
    split at hm
    · rcases renameEach_mem hm with h | ⟨x, hx, rfl⟩
      · exact h
      · exact absurd rfl (hout c!"alternative_title" (by simp))
    · exact hm
  · cases h; exact removeAll_subset hm
  · cases h; exact removeAll_subset hm
  · obtain ⟨added, rfl, a1, _⟩ := C35_year s s' h
    rcases List.mem_append.1 hm with hm | hm
    · exact hm
    · obtain ⟨_, x, hx, _, rfl, _⟩ := a1 m hm
      exact absurd rfl (hout c!"year" (by simp))
  · cases h
    obtain ⟨added, e1, a1, _⟩ := C35_season s
    rw [e1] at hm
    rcases List.mem_append.1 hm with hm | hm
    · exact hm
    · obtain ⟨_, _, x, hx, _, rfl⟩ := a1 m hm
      exact absurd rfl (hout c!"season" (by simp))
  · cases h; exact hm
  · cases h
    unfold mimetypeRule at hm
    split at hm
    · rcases List.mem_append.1 hm with hm | hm
      · exact hm
      · rw [List.mem_singleton] at hm; subst hm
        exact absurd rfl (hout c!"mimetype" (by simp))
    · exact hm
  · cases h
    rcases List.mem_append.1 hm with hm | hm
    · exact hm
    · rw [List.mem_singleton] at hm; subst hm
      exact absurd rfl (hout c!"type" (by simp))

/-- A value that a match of a name with words may have in the end. -/
def Spec.Told (codes : List Str → Nat) (input : Str) (lower : Str → Str) (n : Str) (c : MVal) : Prop :=
  (∃ w, c = .str w ∧ MeantAs input lower cleanup (lexicon n) w) ∨ ∃ vs, (∀ w ∈ vs, w ∈ lexicon n) ∧ c = .obj (codes vs)

def AllTold (codes : List Str → Nat) (input : Str) (lower : Str → Str) (l : List Mt) : Prop :=
  ∀ m ∈ l, ∀ n ∈ listedNames, m.name = some n → Told codes input lower n (m.value input)

theorem ValueIn.told {codes : List Str → Nat} {input : Str} {lower : Str → Str} {n : Str} {c : MVal} (h : ValueIn codes (lexicon n) c) :
    Told codes input lower n c := by
  rcases h with ⟨w, hw, rfl⟩ | h
  · exact Or.inl ⟨w, rfl, w, hw, Or.inl rfl⟩
  · exact Or.inr h

theorem stripText_peeled (t : Str) : Peeled t (stripText t) := by
  obtain ⟨pre, h1, h2, h3⟩ := frontStep_two t
  obtain ⟨post, h4, h5, h6⟩ := frontStep_two (frontStep (frontStep t)).reverse
  refine ⟨pre, post.reverse, ?_, h2, by simpa using h5, h3, fun c hc => h6 c (List.mem_reverse.1 hc)⟩
  have h7 := congrArg List.reverse h4
  rw [List.reverse_reverse, List.reverse_append] at h7
  unfold stripText
  rw [List.append_assoc, ← h7]
  exact h1

/-- A settled match, its text peeled or not. -/
theorem Settled.told {codes : List Str → Nat} {input : Str} {lower : Str → Str} {m m' : Mt} (h : Settled codes input lower m)
    (hs : m' = m ∨ stripMatch input m = .ok m') : ∀ n ∈ listedNames, m'.name = some n → Told codes input lower n (m'.value input) := by
  intro n hn hname
  have hfr : m'.name = m.name ∧ m'.val = m.val ∧ m'.fmt = m.fmt := by
    rcases hs with rfl | hs
    · exact ⟨rfl, rfl, rfl⟩
    · obtain ⟨a, b, rfl⟩ := stripOnce_raw hs
      exact ⟨rfl, rfl, rfl⟩
  have hcon : ∀ c, Constant m c → m'.value input = c := by
    intro c hc
    refine Constant.value (m := m') ?_ input
    unfold Constant
    rw [hfr.2.1, hfr.2.2]
    exact hc
  rcases h n hn (hfr.1 ▸ hname) with ⟨c, h1, h2⟩ | ⟨w, d, h1, h2, h3⟩ | ⟨h1, h2, h3, d, h4, h5⟩
  · rw [hcon c h2]
    exact h1.told
  · rw [hcon _ h3]
    exact Or.inl ⟨w, rfl, d, h1, Or.inl h2⟩
  · have hv : m'.value input = .str (cleanup (m'.raw input)) := by
      unfold Mt.value
      rw [hfr.2.1, hfr.2.2]
      split
      · rename_i v hv
        rw [if_neg (by simp [h1 v hv]), h2]
      · rw [h2]
    rw [hv]
    refine Or.inl ⟨_, rfl, d, h4, ?_⟩
    rcases hs with rfl | hs
    · exact Or.inl h5
    · obtain ⟨a, b, _, hr⟩ := (stripMatch_spec input m h3).2.1 m' hs
      exact Or.inr ⟨m.raw input, m'.raw input, ⟨_, _, rfl⟩, h5, hr ▸ stripText_peeled _, rfl⟩

/-- C158 for the rules: if every match of a name with words has one of them for its value when the rules begin, then so it is in the end, up to case. -/
theorem C158_engine (e : RuleEnv) (he : Natural e) (codes : List Str → Nat) (context : Dict) (s s' : Ms) (hk : ∀ p ∈ s.markers, p.stop ≤ s.input.length)
    (hs : ∀ m ∈ s.live, Drawn codes m) (h : engine e context s = .ok s') : AllTold codes s.input e.uni.lower s'.live := by
  obtain ⟨xs, ys, e1, hxs, hys, hfol⟩ := followers (equivalent_runs context) rfl
  have hn := (C108_guessit (shuffle := id) (fun l => List.Perm.refl l) context).2.2.1
  have hnd : (rulesRun id context).Nodup := List.Nodup.filter _ hn
  unfold engine at h
  rw [e1] at h hnd
  obtain ⟨t, h1, h2⟩ := runRules_append h
  obtain ⟨u, h3, h4⟩ := runRules_cons h2
  have hti := run_input he h1
  have ht : ∀ m ∈ t.live, Drawn codes m := run_keeps (P := fun t => ∀ m ∈ t.live, Drawn codes m) (fun d hd a b hab ha => by
    have hda := mem_allRules (mem_rulesRun.1 (hxs d hd).1).1
    exact good_rule he hda (fun hc => (hxs d hd).2 (equivalent_once d hda hc)) hab ha) h1 hs
  have hu : ∀ m ∈ u.live, Settled codes s.input e.uni.lower m := by
    rw [← hti.1]
    exact settled_holes he.lower (by rw [hti.1, hti.2]; exact hk) h3 ht
  have hui : u.input = s.input := ((rule_follows he h3).input).trans hti.1
  have hlate : ∀ d ∈ ys, d ≠ stripDecl → ∀ {a b : Ms}, ruleStep e context d.arg a d.cls = .ok b → ∀ m ∈ b.live, ∀ n ∈ listedNames, m.name = some n → m ∈ a.live :=
    fun d hd hne a b hab => listed_kept ((after_equivalent d (hfol d hd)).resolve_left hne) hab
  have hsettle : ∀ {rs : List (Decl Cls)} {a b : Ms}, (∀ d ∈ rs, d ∈ ys ∧ d ≠ stripDecl) → runRules e context rs a = .ok b →
      (∀ m ∈ a.live, Settled codes s.input e.uni.lower m) → ∀ m ∈ b.live, Settled codes s.input e.uni.lower m := by
    intro rs a b hrs hab ha
    exact run_keeps (P := fun t => ∀ m ∈ t.live, Settled codes s.input e.uni.lower m) (fun d hd a b hab ha m hm n hn hname =>
      ha m (hlate d (hrs d hd).1 (hrs d hd).2 hab m hm n hn hname) n hn hname) hab ha
  by_cases hst : stripDecl ∈ ys
  · obtain ⟨p, q, rfl⟩ := List.append_of_mem hst
    obtain ⟨v, h5, h6⟩ := runRules_append h4
    obtain ⟨w, h7, h8⟩ := runRules_cons h6
    have hnd' : (p ++ stripDecl :: q).Nodup := by
      rw [List.nodup_append] at hnd
      exact (List.nodup_cons.1 hnd.2.1).2
    rw [List.nodup_append] at hnd'
    have hv := hsettle (fun d hd => ⟨by simp [hd], fun hh => hnd'.2.2 d hd stripDecl (by simp) hh⟩) h5 hu
    have hvi : v.input = s.input := ((run_input he h5).1).trans hui
    have hw : AllTold codes s.input e.uni.lower w.live := by
      have h9 : stripSeparators v = .ok w := h7
      unfold stripSeparators at h9
      split at h9
      · cases h9
      · rename_i l hl
        cases h9
        intro m hm
        obtain ⟨x, hx, hxm⟩ := stripAll_mem hl m hm
        rw [hvi] at hxm
        exact (hv x hx).told (Or.inr hxm)
    refine run_keeps (P := fun t => AllTold codes s.input e.uni.lower t.live) (fun d hd a b hab ha m hm n hn hname => ?_) h8 hw
    exact ha m (hlate d (by simp [hd]) (fun hh => (List.nodup_cons.1 hnd'.2.1).1 (hh ▸ hd)) hab m hm n hn hname) n hn hname
  · have := hsettle (fun d hd => ⟨hd, fun hh => hst (hh ▸ hd)⟩) h4 hu
    exact fun m hm => (this m hm).told (Or.inl rfl)

end Guessit
