import Verif.Props.EngineNames
import Verif.Props.Rules

/-! # C147, C148: the type, and what depends on it -/

namespace Guessit
open Spec

/-- The rules of the type and of the renaming that looks at it. -/
def typeDecl : Decl Cls := { cls := .TypeProcessor, priority := postProcess, deps := [.Processors] }
def movieDecl : Decl Cls := { cls := .RenameEpisodeTitleWhenMovieType, priority := postProcess, deps := [.TypeProcessor] }
def mimeDecl : Decl Cls := { cls := .Mimetype, priority := postProcess, deps := [.Processors] }
def processorsDecl : Decl Cls := { cls := .Processors, priority := postProcess }

theorem type_runs {context : Dict} (h : isDisabled context c!"type" = false) : typeDecl ∈ rulesRun id context :=
  runs_of_plug (p := { names := [c!"type"], rules := [{ cls := .TypeProcessor, priority := postProcess, deps := [.Processors] }] })
    (by simp [guessitPlugs]) (by simp [Plug.off, h]) (by decide) (by decide) rfl

theorem movie_runs {context : Dict} (h : isDisabled context c!"episode_title" = false) : movieDecl ∈ rulesRun id context :=
  runs_of_plug (p := episodeTitlePlug) (by simp [guessitPlugs]) (by simp [Plug.off, episodeTitlePlug, h]) (by decide) (by decide) rfl

theorem processors_run (context : Dict) : processorsDecl ∈ rulesRun id context :=
  runs_of_plug (p := processorsPlug) (by simp [guessitPlugs]) rfl (by decide) (by decide) rfl

/-- After the type, only these two rules run. -/
theorem after_type {context : Dict} {xs ys : List (Decl Cls)} (e : rulesRun id context = xs ++ typeDecl :: ys) :
    (∀ x ∈ xs, x.cls ≠ .TypeProcessor) ∧ ∀ y ∈ ys, y = mimeDecl ∨ y = movieDecl := by
  have hs : Shuffles (id : List (Decl Cls) → List (Decl Cls)) := fun l => List.Perm.refl l
  obtain ⟨_, _, hn, hpr, _⟩ := C108_guessit hs context
  have hnd : (rulesRun id context).Nodup := List.Nodup.filter _ hn
  have hrun : ∀ y ∈ ys, y ∈ effectiveRules guessitPlugs context := fun y hy => (mem_rulesRun.1 (by rw [e]; simp [hy])).1
  have htype : typeDecl ∈ effectiveRules guessitPlugs context := (mem_rulesRun.1 (by rw [e]; simp)).1
  have hproc := (mem_rulesRun.1 (processors_run context)).1
  constructor
  · intro x hx hc
    have : x = typeDecl := class_once typeDecl (by decide +kernel) (by decide) x (mem_allRules (mem_rulesRun.1 (by rw [e]; simp [hx])).1) hc
    subst this
    rw [e, List.nodup_append] at hnd
    exact hnd.2.2 _ hx _ (by simp) rfl
  · intro y hy
    have hlow : y.priority = postProcess := by
      have h1 : postProcess ≤ y.priority := by
        have : ∀ d ∈ allRules, postProcess ≤ d.priority := by decide +kernel
        exact this y (mem_allRules (hrun y hy))
      have h2 : ¬ typeDecl.priority < y.priority := fun hlt => not_after (hpr typeDecl htype y (hrun y hy) hlt) e hy
      simp only [typeDecl] at h2
      omega
    have hdeps : y.deps ≠ [] := by
      intro hd
      refine not_after (C108_ties hs _ (effectiveRules_nodup guessitPlugs context) y typeDecl (hs.mem.2 htype) (hrun y hy) hlow ?_ (Or.inl ?_)) e hy
      · intro d _ _ hdd
        have := hdd.1
        rw [hd] at this
        simp at this
      · intro hfree
        exact hfree processorsDecl hproc rfl ⟨by decide, by decide⟩
    have hcases : ∀ d ∈ allRules, d.priority = postProcess → d.deps ≠ [] → d = mimeDecl ∨ d = movieDecl ∨ d = typeDecl := by decide +kernel
    rcases hcases y (mem_allRules (hrun y hy)) hlow hdeps with h | h | h
    · exact Or.inl h
    · exact Or.inr h
    · subst h
      rw [e, List.nodup_append] at hnd
      exact absurd hy (List.nodup_cons.1 hnd.2.1).1

/-! ### What these two rules leave alone -/

theorem named_append {a b : List Mt} {n : Str} : named (a ++ b) n = named a n ++ named b n := by simp [named]

theorem named_removeMatch {input : Str} {m : Mt} {n : Str} (h : m.name ≠ some n) : ∀ l, named (removeMatch input l m) n = named l n := by
  intro l
  induction l with
  | nil => rfl
  | cons x l ih =>
    rw [removeMatch]
    split
    · rename_i hk
      have : x.name ≠ some n := by
        have := congrArg MtKey.name (eqv_iff.1 hk)
        intro hx
        exact h (this.trans hx)
      simp [named, this]
    · simp only [named, List.filter_cons] at ih ⊢
      rw [ih]

theorem named_renameEach {input : Str} {old new n : Str} (h1 : n ≠ old) (h2 : n ≠ new) : ∀ (ms l : List Mt), (∀ m ∈ ms, m.name = some old) →
    named (renameEach input new l ms) n = named l n := by
  intro ms
  induction ms with
  | nil => intro l _; rfl
  | cons m ms ih =>
    intro l h
    rw [renameEach, List.foldl_cons]
    refine (ih _ fun x hx => h x (by simp [hx])).trans ?_
    rw [named_append, named_removeMatch (by rw [h m (by simp)]; intro hh; exact h1 (Option.some.inj hh).symm)]
    have : named [{ m with name := some new }] n = [] := by
      simp only [named, List.filter_cons, List.filter_nil]
      rw [if_neg]
      simpa using fun hh : new = n => h2 hh.symm
    rw [this, List.append_nil]

/-- The matches of any other name than these three are the same. -/
theorem late_same {e : RuleEnv} {g : Dict} {y : Decl Cls} (hy : y = mimeDecl ∨ y = movieDecl) {s s' : Ms} (h : ruleStep e g y.arg s y.cls = .ok s')
    {n : Str} (h1 : n ≠ c!"mimetype") (h2 : n ≠ c!"episode_title") (h3 : n ≠ c!"alternative_title") :
    named s'.live n = named s.live n := by
  rcases hy with rfl | rfl
  · cases h
    unfold mimetypeRule
    split
    · rw [named_append]
      have : ∀ v, named [endMatch s c!"mimetype" v] n = [] := by
        intro v
        simp only [named, endMatch, List.filter_cons, List.filter_nil]
        rw [if_neg]
        simpa using fun hh : c!"mimetype" = n => h1 hh.symm
      rw [this, List.append_nil]
    · rfl
  · cases h
    unfold renameEpisodeTitleWhenMovie
    split
    · exact named_renameEach h2 h3 _ _ fun m hm => (mem_named.1 hm).2
    · rfl

theorem late_input {e : RuleEnv} {g : Dict} {y : Decl Cls} (hy : y = mimeDecl ∨ y = movieDecl) {s s' : Ms} (h : ruleStep e g y.arg s y.cls = .ok s') :
    s'.input = s.input := by
  rcases hy with rfl | rfl
  · cases h; unfold mimetypeRule; split <;> rfl
  · cases h; unfold renameEpisodeTitleWhenMovie; split <;> rfl

theorem named_found {l : List Mt} {n : Str} : Found l n ↔ named l n ≠ [] := by
  constructor
  · rintro ⟨m, h1, h2⟩ h
    have := mem_named.2 ⟨h1, h2⟩
    rw [h] at this; cases this
  · intro h
    obtain ⟨m, hm⟩ := List.exists_mem_of_ne_nil _ h
    exact ⟨m, (mem_named.1 hm).1, (mem_named.1 hm).2⟩

theorem found_congr {l l' : List Mt} {n : Str} (h : named l' n = named l n) : Found l' n ↔ Found l n := by
  rw [named_found, named_found, h]

/-- The evidence for an episode only depends on names that the two rules leave alone. -/
theorem evidence_congr {l l' : List Mt} (h : ∀ n, n ≠ c!"mimetype" → n ≠ c!"episode_title" → n ≠ c!"alternative_title" → named l' n = named l n) :
    EpisodeEvidence l' ↔ EpisodeEvidence l := by
  have hr : (∃ m ∈ l', m.name = some c!"release_group" ∧ c!"anime" ∈ m.tags) ↔ ∃ m ∈ l, m.name = some c!"release_group" ∧ c!"anime" ∈ m.tags := by
    have : ∀ l : List Mt, (∃ m ∈ l, m.name = some c!"release_group" ∧ c!"anime" ∈ m.tags) ↔ ∃ m ∈ named l c!"release_group", c!"anime" ∈ m.tags := by
      intro l
      simp only [mem_named, and_assoc]
    rw [this, this, h _ (by decide) (by decide) (by decide)]
  unfold EpisodeEvidence
  rw [found_congr (h c!"episode" (by decide) (by decide) (by decide)), found_congr (h c!"season" (by decide) (by decide) (by decide)),
    found_congr (h c!"episode_details" (by decide) (by decide) (by decide)), found_congr (h c!"absolute_episode" (by decide) (by decide) (by decide)),
    found_congr (h c!"film" (by decide) (by decide) (by decide)), found_congr (h c!"date" (by decide) (by decide) (by decide)),
    found_congr (h c!"bonus" (by decide) (by decide) (by decide)), found_congr (h c!"year" (by decide) (by decide) (by decide)),
    found_congr (h c!"crc32" (by decide) (by decide) (by decide)), hr]

theorem found_untyped {g : Dict} {input : Str} {found : List Mt} (hf : PatternsGive g input found) : ∀ m ∈ found, m.name ≠ some c!"type" := by
  intro m hm hname
  have hs : ∀ p ∈ sources, c!"type" ∉ p.gives := by decide +kernel
  obtain ⟨p, hp, _, _, ⟨h0, _⟩ | ⟨⟨n, hn, hn2, _⟩, _⟩⟩ := hf m hm
  · rw [hname] at h0; cases h0
  · rw [hname] at hn2; cases hn2; exact hs p hp hn

/-- C147: unless the property `type` is disabled, exactly one type is reported; it is the one asked for when there is one, else it is
`episode` when what is reported with it is the evidence for an episode, and `movie` when it is not. -/
theorem C147_type (e : RuleEnv) (he : Natural e) (context : Dict) (s s' : Ms) (hf : PatternsGive context s.input s.live)
    (hon : isDisabled context c!"type" = false) (h : engine e context s = .ok s') :
    ∃ m ∈ s'.live, m.name = some c!"type" ∧ (s'.live.filter fun x => decide (x.name = some c!"type")) = [m] ∧
      (∀ t, typeOption context = some t → t ≠ [] → m.value s'.input = .str t) ∧
      ((typeOption context = none ∨ typeOption context = some []) →
        (EpisodeEvidence s'.live → m.value s'.input = .str c!"episode") ∧ (¬ EpisodeEvidence s'.live → m.value s'.input = .str c!"movie")) := by
  obtain ⟨xs, ys, e1, hxs, hys, _⟩ := run_split (type_runs hon)
  obtain ⟨hbefore, hafter⟩ := after_type e1
  unfold engine at h
  rw [e1] at h
  obtain ⟨t, h1, h2⟩ := runRules_append h
  obtain ⟨u, h3, h4⟩ := runRules_cons h2
  have ht : ∀ m ∈ t.live, m.name ≠ some c!"type" := by
    refine run_keeps (P := fun t => ∀ m ∈ t.live, m.name ≠ some c!"type") ?_ h1 (found_untyped hf)
    intro d hd a b hab ha m hm hname
    have hb : ∀ d ∈ allRules, d.cls ≠ .TypeProcessor → ∀ k ∈ births d.cls, k.into ≠ c!"type" := by decide +kernel
    rcases (rule_follows he hab).live m hm with ⟨m', hm', hk⟩ | ⟨k, hk, _, hinto, _, _⟩ | ⟨_, _, m', hm', h2⟩
    · exact ha m' hm' (hk.1 ▸ hname)
    · rw [hinto] at hname
      exact hb d (mem_allRules (mem_rulesRun.1 (hxs d hd)).1) (hbefore d hd) k hk (Option.some.inj hname)
    · exact ha m' hm' (h2 ▸ hname)
  cases h3
  obtain ⟨m, hu1, hu2, hu3, _⟩ := C31_exactly_one (typeOption context) t fun ⟨m, hm, hn⟩ => ht m hm hn
  have hone : named (typeProcessor (typeOption context) t).live c!"type" = [m] := by
    rw [hu1, named_append]
    have h5 : named t.live c!"type" = [] := by
      rw [List.eq_nil_iff_forall_not_mem]
      intro x hx
      exact ht x (mem_named.1 hx).1 (mem_named.1 hx).2
    rw [h5]
    simp [named, hu2]
  have hsame : s'.input = t.input ∧ ∀ n, n ≠ c!"mimetype" → n ≠ c!"episode_title" → n ≠ c!"alternative_title" →
      named s'.live n = named (typeProcessor (typeOption context) t).live n := by
    refine run_keeps (P := fun x => x.input = t.input ∧ ∀ n, n ≠ c!"mimetype" → n ≠ c!"episode_title" → n ≠ c!"alternative_title" →
      named x.live n = named (typeProcessor (typeOption context) t).live n) ?_ h4 ⟨rfl, fun _ _ _ _ => rfl⟩
    intro d hd a b hab ⟨hi, ha⟩
    exact ⟨(late_input (hafter d hd) hab).trans hi, fun n n1 n2 n3 => (late_same (hafter d hd) hab n1 n2 n3).trans (ha n n1 n2 n3)⟩
  have hfin : named s'.live c!"type" = [m] := (hsame.2 _ (by decide) (by decide) (by decide)).trans hone
  have hmem : m ∈ s'.live := (mem_named.1 (by rw [hfin]; simp : m ∈ named s'.live c!"type")).1
  have hev : EpisodeEvidence s'.live ↔ EpisodeEvidence t.live := by
    refine (evidence_congr hsame.2).trans ?_
    have : ∀ n, n ≠ c!"type" → named (typeProcessor (typeOption context) t).live n = named t.live n := by
      intro n hn
      rw [hu1, named_append]
      have : named [m] n = [] := by
        simp only [named, List.filter_cons, List.filter_nil, hu2]
        rw [if_neg]
        simpa using fun hh : c!"type" = n => hn hh.symm
      rw [this, List.append_nil]
    have hr : (∃ x ∈ (typeProcessor (typeOption context) t).live, x.name = some c!"release_group" ∧ c!"anime" ∈ x.tags) ↔
        ∃ x ∈ t.live, x.name = some c!"release_group" ∧ c!"anime" ∈ x.tags := by
      have h9 : ∀ l : List Mt, (∃ m ∈ l, m.name = some c!"release_group" ∧ c!"anime" ∈ m.tags) ↔ ∃ m ∈ named l c!"release_group", c!"anime" ∈ m.tags := by
        intro l
        simp only [mem_named, and_assoc]
      rw [h9, h9, this _ (by decide)]
    unfold EpisodeEvidence
    rw [found_congr (this c!"episode" (by decide)), found_congr (this c!"season" (by decide)), found_congr (this c!"episode_details" (by decide)),
      found_congr (this c!"absolute_episode" (by decide)), found_congr (this c!"film" (by decide)), found_congr (this c!"date" (by decide)),
      found_congr (this c!"bonus" (by decide)), found_congr (this c!"year" (by decide)), found_congr (this c!"crc32" (by decide)), hr]
  obtain ⟨d1, d2⟩ := C31_decision (typeOption context) t
  refine ⟨m, hmem, hu2, hfin, ?_, ?_⟩
  · intro o ho hne
    rw [hsame.1, hu3, d1 o ho hne]
  · intro ho
    rw [hsame.1, hu3, hev]
    exact ⟨fun hh => by rw [(d2 ho).1 hh], fun hh => by rw [(d2 ho).2 hh]⟩

/-! ### C148 -/

theorem after_movie {context : Dict} (hon : isDisabled context c!"type" = false) {xs ys : List (Decl Cls)}
    (e : rulesRun id context = xs ++ movieDecl :: ys) : typeDecl ∈ xs ∧ ∀ y ∈ ys, y = mimeDecl := by
  have hs : Shuffles (id : List (Decl Cls) → List (Decl Cls)) := fun l => List.Perm.refl l
  obtain ⟨_, _, hn, hpr, hdep⟩ := C108_guessit hs context
  have hnd : (rulesRun id context).Nodup := List.Nodup.filter _ hn
  have htype := type_runs hon
  have hmovie : movieDecl ∈ rulesRun id context := by rw [e]; simp
  have hbefore := hdep movieDecl (mem_rulesRun.1 hmovie).1 typeDecl (mem_rulesRun.1 htype).1 ⟨by decide, by decide⟩
  have hnot := not_after hbefore e
  have hx : typeDecl ∈ xs := by
    rw [e] at htype
    rcases List.mem_append.1 htype with h | h
    · exact h
    · rcases List.mem_cons.1 h with h | h
      · exact absurd h (by decide)
      · exact absurd h hnot
  refine ⟨hx, fun y hy => ?_⟩
  obtain ⟨us, vs, rfl⟩ := List.append_of_mem hx
  have e' : rulesRun id context = us ++ typeDecl :: (vs ++ movieDecl :: ys) := by rw [e]; simp
  rcases (after_type e').2 y (by simp [hy]) with h | h
  · exact h
  · subst h
    rw [e, List.nodup_append] at hnd
    exact absurd hy (List.nodup_cons.1 hnd.2.1).1

theorem countKey_renameEach {input name : Str} {k : MtKey} (hk : k.name ≠ some name) : ∀ (ms l : List Mt),
    countKey input k (renameEach input name l ms) = countKey input k l - countKey input k ms := by
  intro ms
  induction ms with
  | nil => intro l; simp [renameEach, countKey]
  | cons m ms ih =>
    intro l
    rw [renameEach, List.foldl_cons]
    refine (ih _).trans ?_
    have : ¬ ({ m with name := some name } : Mt).key input = k := fun h => hk (by rw [← h]; rfl)
    rw [countKey_append, countKey_removeMatch, countKey_cons, countKey_cons, if_neg this]
    simp [countKey]
    omega

theorem renameEach_gone {s : Ms} {old new : Str} (h : old ≠ new) : ∀ m ∈ renameEach s.input new s.live (named s.live old), m.name ≠ some old := by
  intro m hm hname
  have hk : (m.key s.input).name = some old := hname
  have hpos := countKey_pos (input := s.input) (k := m.key s.input).2 ⟨m, hm, rfl⟩
  rw [countKey_renameEach (by rw [hk]; simpa using h), countKey_named hk s.live] at hpos
  omega

/-- C148 (what holds): unless `type` or `episode_title` is disabled, when the reported type is not `episode`, the only episode titles
reported are those that replaced an alternative title. -/
theorem C148_movie_partial (e : RuleEnv) (he : Natural e) (context : Dict) (s s' : Ms) (hon : isDisabled context c!"type" = false)
    (hon2 : isDisabled context c!"episode_title" = false) (h : engine e context s = .ok s')
    (hm : ∀ m ∈ s'.live, m.name = some c!"type" → m.value s'.input ≠ .str c!"episode") :
    ∀ m ∈ s'.live, m.name = some c!"episode_title" → c!"alternative-replaced" ∈ m.tags := by
  obtain ⟨xs, ys, e1, _, hys, _⟩ := run_split (movie_runs hon2)
  obtain ⟨_, hafter⟩ := after_movie hon e1
  unfold engine at h
  rw [e1] at h
  obtain ⟨t, h1, h2⟩ := runRules_append h
  obtain ⟨u, h3, h4⟩ := runRules_cons h2
  have hsame : s'.input = u.input ∧ ∀ n, n ≠ c!"mimetype" → named s'.live n = named u.live n := by
    refine run_keeps (P := fun x => x.input = u.input ∧ ∀ n, n ≠ c!"mimetype" → named x.live n = named u.live n) ?_ h4 ⟨rfl, fun _ _ => rfl⟩
    intro d hd a b hab ⟨hi, ha⟩
    have hdm := hafter d hd
    refine ⟨(late_input (Or.inl hdm) hab).trans hi, fun n n1 => ?_⟩
    rw [← ha n n1]
    subst hdm
    cases hab
    unfold mimetypeRule
    split
    · rw [named_append]
      have : ∀ v, named [endMatch a c!"mimetype" v] n = [] := by
        intro v
        simp only [named, endMatch, List.filter_cons, List.filter_nil]
        rw [if_neg]
        simpa using fun hh : c!"mimetype" = n => n1 hh.symm
      rw [this, List.append_nil]
    · rfl
  have hut : named u.live c!"type" = named t.live c!"type" ∧ u.input = t.input :=
    ⟨late_same (Or.inr rfl) h3 (by decide) (by decide) (by decide), late_input (Or.inr rfl) h3⟩
  intro m hmem hname
  have hmu : m ∈ named u.live c!"episode_title" := by
    rw [← hsame.2 _ (by decide)]; exact mem_named.2 ⟨hmem, hname⟩
  have hno : (named t.live c!"type").any (fun m => decide (m.value t.input = .str c!"episode")) = false := by
    rw [List.any_eq_false]
    intro x hx
    rw [← hut.1, ← hsame.2 _ (by decide)] at hx
    have hx' := mem_named.1 hx
    have := hm x hx'.1 hx'.2
    rw [hsame.1, hut.2] at this
    simpa using this
  have hmu' := mem_named.1 hmu
  have hue : u = renameEpisodeTitleWhenMovie t := by cases h3; rfl
  unfold renameEpisodeTitleWhenMovie at hue
  split at hue
  · subst hue
    exact absurd hname (renameEach_gone (s := t) (by decide) m hmu'.1)
  · rename_i hc
    subst hue
    rw [hno, Bool.not_false, Bool.and_true, List.any_eq_true] at hc
    by_contra hnt
    refine hc ⟨m, hmu, ?_⟩
    simpa [Mt.tagged] using hnt

end Guessit
