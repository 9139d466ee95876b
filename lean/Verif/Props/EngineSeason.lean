import Verif.Props.EngineEcho
import Verif.Props.Strip

/-! # C149–C151: what the last rules leave, on every run of the engine -/

namespace Guessit
open Spec

def seasonYearDecl : Decl Cls := { cls := .SeasonYear, priority := postProcess }
def yearSeasonDecl : Decl Cls := { cls := .YearSeason, priority := postProcess }
def stripDecl : Decl Cls := { cls := .StripSeparators, priority := postProcess }

theorem seasonYear_runs (context : Dict) : seasonYearDecl ∈ rulesRun id context :=
  runs_of_plug (p := processorsPlug) (by simp [guessitPlugs]) rfl (by decide) (by decide) rfl

theorem yearSeason_runs (context : Dict) : yearSeasonDecl ∈ rulesRun id context :=
  runs_of_plug (p := processorsPlug) (by simp [guessitPlugs]) rfl (by decide) (by decide) rfl

theorem strip_runs (context : Dict) : stripDecl ∈ rulesRun id context :=
  runs_of_plug (p := processorsPlug) (by simp [guessitPlugs]) rfl (by decide) (by decide) rfl

theorem mime_runs {context : Dict} (h : isDisabled context c!"mimetype" = false) : mimeDecl ∈ rulesRun id context :=
  runs_of_plug (p := { names := [c!"mimetype"], rules := [{ cls := .Mimetype, priority := postProcess, deps := [.Processors] }] })
    (by simp [guessitPlugs]) (by simp [Plug.off, h]) (by decide) (by decide) rfl

theorem after_yearSeason : allRules.filter (mayFollow yearSeasonDecl) = [movieDecl, processorsDecl, stripDecl, mimeDecl, typeDecl] := by
  decide +kernel

theorem after_seasonYear : allRules.filter (mayFollow seasonYearDecl) = [movieDecl, yearSeasonDecl, processorsDecl, stripDecl, mimeDecl, typeDecl] := by
  decide +kernel

theorem after_mime : allRules.filter (mayFollow mimeDecl) = [movieDecl, typeDecl] := by decide +kernel

theorem after_strip : allRules.filter (mayFollow stripDecl) = [movieDecl, mimeDecl, typeDecl] := by decide +kernel

/-! ### The matches of a name, through the last rules -/

/-- The same matches, but for their raw text. -/
def SameBut (l l' : List Mt) : Prop := List.Forall₂ (fun m m' => ∃ a b, m' = { m with rawStart := a, rawStop := b }) l l'

theorem SameBut.refl (l : List Mt) : SameBut l l := by
  induction l with
  | nil => exact .nil
  | cons m l ih => exact .cons ⟨m.rawStart, m.rawStop, rfl⟩ ih

theorem SameBut.trans {a b c : List Mt} (h1 : SameBut a b) (h2 : SameBut b c) : SameBut a c := by
  unfold SameBut at *
  induction h1 generalizing c with
  | nil => cases h2; exact .nil
  | cons hd _ ih =>
    cases h2 with
    | cons hd' tl' =>
      obtain ⟨x, y, rfl⟩ := hd
      obtain ⟨z, w, rfl⟩ := hd'
      exact .cons ⟨z, w, rfl⟩ (ih tl')

theorem SameBut.found {a b : List Mt} (h : SameBut a b) (n : Str) : Found a n ↔ Found b n := by
  unfold SameBut at h
  induction h with
  | nil => exact Iff.rfl
  | cons hd _ ih =>
    obtain ⟨x, y, rfl⟩ := hd
    unfold Found at *
    simp only [List.mem_cons, exists_eq_or_imp]
    rw [ih]

theorem SameBut.back {a b : List Mt} (h : SameBut a b) {m' : Mt} (hm : m' ∈ b) : ∃ m ∈ a, ∃ x y, m' = { m with rawStart := x, rawStop := y } := by
  unfold SameBut at h
  induction h with
  | nil => cases hm
  | cons hd _ ih =>
    rcases List.mem_cons.1 hm with rfl | hm
    · exact ⟨_, by simp, hd⟩
    · obtain ⟨m, h1, h2⟩ := ih hm; exact ⟨m, by simp [h1], h2⟩

theorem stripOnce_raw {input : Str} {m m' : Mt} (h : stripMatch input m = .ok m') : ∃ a b, m' = { m with rawStart := a, rawStop := b } := by
  have h1 : ∀ {m m' : Mt}, stripStartOnce input m = .ok m' → ∃ a b, m' = { m with rawStart := a, rawStop := b } := by
    intro m m' h
    unfold stripStartOnce at h
    dsimp only at h
    split at h
    · cases h
    · split at h <;> · cases h; exact ⟨_, _, rfl⟩
  have h2 : ∀ {m m' : Mt}, stripEndOnce input m = .ok m' → ∃ a b, m' = { m with rawStart := a, rawStop := b } := by
    intro m m' h
    unfold stripEndOnce at h
    dsimp only at h
    split at h
    · cases h
    · split at h <;> · cases h; exact ⟨_, _, rfl⟩
  unfold stripMatch at h
  split at h
  · cases h
  · rename_i x hx
    split at h
    · cases h
    · rename_i y hy
      split at h
      · cases h
      · rename_i z hz
        obtain ⟨_, _, rfl⟩ := h1 hx
        obtain ⟨_, _, rfl⟩ := h1 hy
        obtain ⟨_, _, rfl⟩ := h2 hz
        obtain ⟨_, _, rfl⟩ := h2 h
        exact ⟨_, _, rfl⟩

theorem strip_same {s s' : Ms} (h : stripSeparators s = .ok s') : SameBut s.live s'.live := by
  have := (C37_all s s' h).2.2
  unfold SameBut
  exact List.Forall₂.imp (fun _ _ hh => stripOnce_raw hh) this

theorem SameBut.named {a b : List Mt} (h : SameBut a b) (n : Str) : SameBut (Guessit.named a n) (Guessit.named b n) := by
  unfold SameBut at *
  induction h with
  | nil => exact .nil
  | cons hd _ ih =>
    obtain ⟨x, y, rfl⟩ := hd
    unfold Guessit.named at *
    rw [List.filter_cons, List.filter_cons]
    dsimp only
    split
    · exact .cons ⟨x, y, rfl⟩ ih
    · exact ih

/-- The rules after `YearSeason`. -/
theorem last_same {e : RuleEnv} {g : Dict} {y : Decl Cls} (hy : y ∈ [movieDecl, processorsDecl, stripDecl, mimeDecl, typeDecl]) {s s' : Ms}
    (h : ruleStep e g y.arg s y.cls = .ok s') {n : Str} (h1 : n ≠ c!"mimetype") (h2 : n ≠ c!"episode_title") (h3 : n ≠ c!"alternative_title")
    (h4 : n ≠ c!"type") : SameBut (named s.live n) (named s'.live n) := by
  simp only [List.mem_cons, List.not_mem_nil, or_false] at hy
  rcases hy with rfl | rfl | rfl | rfl | rfl
  · rw [late_same (Or.inr rfl) h h1 h2 h3]; exact .refl _
  · cases h; exact .refl _
  · exact (strip_same h).named n
  · rw [late_same (Or.inl rfl) h h1 h2 h3]; exact .refl _
  · cases h
    unfold typeProcessor
    dsimp only
    rw [named_append]
    have : ∀ v, named [endMatch s c!"type" v] n = [] := by
      intro v
      simp only [named, endMatch, List.filter_cons, List.filter_nil]
      rw [if_neg]
      simpa using fun hh : c!"type" = n => h4 hh.symm
    rw [this, List.append_nil]
    exact .refl _

theorem last_run {e : RuleEnv} {g : Dict} {ys : List (Decl Cls)} (hys : ∀ y ∈ ys, y ∈ [movieDecl, processorsDecl, stripDecl, mimeDecl, typeDecl]) {s s' : Ms}
    (h : runRules e g ys s = .ok s') {n : Str} (h1 : n ≠ c!"mimetype") (h2 : n ≠ c!"episode_title") (h3 : n ≠ c!"alternative_title")
    (h4 : n ≠ c!"type") : SameBut (named s.live n) (named s'.live n) := by
  refine run_keeps (P := fun t => SameBut (named s.live n) (named t.live n)) ?_ h (.refl _)
  intro d hd a b hab ha
  exact ha.trans (last_same (hys d hd) hab h1 h2 h3 h4)

theorem found_named {l : List Mt} {n : Str} : Found l n ↔ Found (named l n) n := by
  constructor
  · rintro ⟨m, h1, h2⟩; exact ⟨m, mem_named.2 ⟨h1, h2⟩, h2⟩
  · rintro ⟨m, h1, h2⟩; exact ⟨m, (mem_named.1 h1).1, h2⟩

theorem yearSeason_found (s : Ms) (hy : Found (yearSeason s).live c!"year") (he : Found (yearSeason s).live c!"episode") :
    Found (yearSeason s).live c!"season" := by
  obtain ⟨added, e1, e2, e3⟩ := C35_season s
  by_cases hs : Found s.live c!"season"
  · obtain ⟨m, h1, h2⟩ := hs
    rw [e1]
    exact ⟨m, by simp [h1], h2⟩
  · have back : ∀ n, n ≠ c!"season" → Found (yearSeason s).live n → Found s.live n := by
      intro n hn ⟨m, h1, h2⟩
      rw [e1] at h1
      rcases List.mem_append.1 h1 with h1 | h1
      · exact ⟨m, h1, h2⟩
      · obtain ⟨_, _, x, _, _, rfl⟩ := e2 m h1
        exact absurd (Option.some.inj h2).symm hn
    obtain ⟨m, hm, hn⟩ := back _ (by decide) hy
    obtain ⟨x, hx, hxn, _⟩ := e3 hs (back _ (by decide) he) m hm hn
    exact ⟨x, hx, hxn⟩

/-- C149: whenever a year and an episode are reported, a season is reported. -/
theorem C149_season (e : RuleEnv) (context : Dict) (s s' : Ms) (h : engine e context s = .ok s') (hy : Found s'.live c!"year")
    (he : Found s'.live c!"episode") : Found s'.live c!"season" := by
  obtain ⟨xs, ys, e1, _, _, hf⟩ := followers (yearSeason_runs context) rfl
  rw [after_yearSeason] at hf
  unfold engine at h
  rw [e1] at h
  obtain ⟨t, h1, h2⟩ := runRules_append h
  obtain ⟨u, h3, h4⟩ := runRules_cons h2
  have key : ∀ n, n ≠ c!"mimetype" → n ≠ c!"episode_title" → n ≠ c!"alternative_title" → n ≠ c!"type" → (Found u.live n ↔ Found s'.live n) := by
    intro n a b c d
    rw [found_named, @found_named s'.live]
    exact (last_run hf h4 a b c d).found n
  cases h3
  rw [← key _ (by decide) (by decide) (by decide) (by decide)] at hy he ⊢
  exact yearSeason_found t hy he

/-- C149: whenever a season is reported whose value is a number from 1920 to 2029, a year is reported. -/
theorem C149_year (e : RuleEnv) (context : Dict) (s s' : Ms) (h : engine e context s = .ok s') (m : Mt) (hm : m ∈ s'.live)
    (hs : m.name = some c!"season") (n : Int) (hv : m.val = some (.int n)) (h1 : 1920 ≤ n) (h2 : n ≤ 2029) : Found s'.live c!"year" := by
  obtain ⟨xs, ys, e1, _, _, hf⟩ := followers (seasonYear_runs context) rfl
  rw [after_seasonYear] at hf
  unfold engine at h
  rw [e1] at h
  obtain ⟨t, h3, h4⟩ := runRules_append h
  obtain ⟨u, h5, h6⟩ := runRules_cons h4
  have hu : Found u.live c!"year" ∨ ∀ x ∈ u.live, x.name = some c!"season" → x.val ≠ some (.int n) := by
    by_contra hh
    push Not at hh
    obtain ⟨hno, x, hx, hxn, hxv⟩ := hh
    obtain ⟨added, rfl, a1, a2⟩ := C35_year t u h5
    have hyt : ¬ Found t.live c!"year" := fun ⟨y, p, q⟩ => hno ⟨y, by simp [p], q⟩
    have hxt : x ∈ t.live := by
      rcases List.mem_append.1 hx with hx | hx
      · exact hx
      · obtain ⟨_, _, _, _, rfl, _⟩ := a1 x hx
        exact absurd (Option.some.inj hxn) (by decide : c!"year" ≠ c!"season")
    have hval : x.value t.input = .int n := by
      unfold Mt.value
      rw [hxv]
      have : n ≠ 0 := by omega
      simp [MVal.truthy, this]
    obtain ⟨y, hy, hyn, _⟩ := a2 hyt x hxt hxn n hval h1 h2
    exact hno ⟨y, hy, hyn⟩
  have hfin : Found s'.live c!"year" ∨ ∀ x ∈ s'.live, x.name = some c!"season" → x.val ≠ some (.int n) := by
    refine run_keeps (P := fun t => Found t.live c!"year" ∨ ∀ x ∈ t.live, x.name = some c!"season" → x.val ≠ some (.int n)) ?_ h6 hu
    intro d hd a b hab ha
    have hd' : d = yearSeasonDecl ∨ d ∈ [movieDecl, processorsDecl, stripDecl, mimeDecl, typeDecl] := by
      have := hf d hd
      simp only [List.mem_cons, List.not_mem_nil, or_false] at this ⊢
      rcases this with h | h | h | h | h | h <;> simp [h]
    rcases hd' with rfl | hd'
    · cases hab
      obtain ⟨added, b1, b2, _⟩ := C35_season a
      rw [b1]
      rcases ha with ⟨y, p, q⟩ | ha
      · exact Or.inl ⟨y, by simp [p], q⟩
      · cases hadd : added with
        | nil => right; simpa using ha
        | cons z zs =>
          obtain ⟨_, _, y, hy, hyn, _⟩ := b2 z (by rw [hadd]; simp)
          exact Or.inl ⟨y, by simp [hy], hyn⟩
    · rcases ha with ha | ha
      · left
        rw [found_named] at ha ⊢
        exact ((last_same hd' hab (by decide) (by decide) (by decide) (by decide)).found _).1 ha
      · right
        intro x hx hxn
        obtain ⟨x0, hx0, _, _, rfl⟩ := (last_same (n := c!"season") hd' hab (by decide) (by decide) (by decide) (by decide)).back (mem_named.2 ⟨hx, hxn⟩)
        exact ha x0 (mem_named.1 hx0).1 (mem_named.1 hx0).2
  exact hfin.resolve_right fun hh => hh m hm hs hv

/-! ### C150 -/

theorem found_unmimed {g : Dict} {input : Str} {found : List Mt} (hf : PatternsGive g input found) : ∀ m ∈ found, m.name ≠ some c!"mimetype" := by
  intro m hm hname
  have hs : ∀ p ∈ sources, c!"mimetype" ∉ p.gives := by decide +kernel
  obtain ⟨p, hp, _, _, ⟨h0, _⟩ | ⟨⟨n, hn, hn2, _⟩, _⟩⟩ := hf m hm
  · rw [hname] at h0; cases h0
  · rw [hname] at hn2; cases hn2; exact hs p hp hn

/-- C150: unless the property is disabled, a mimetype is reported exactly when the name of the file has one, once, with that value, and
at the end of the name. -/
theorem C150_mimetype (e : RuleEnv) (he : Natural e) (context : Dict) (s s' : Ms) (hf : PatternsGive context s.input s.live)
    (hon : isDisabled context c!"mimetype" = false) (h : engine e context s = .ok s') :
    (∀ v, e.mime s.input = some v → v ≠ [] → ∃ m, (s'.live.filter fun x => decide (x.name = some c!"mimetype")) = [m] ∧ m.value s'.input = .str v ∧
      m.start = s.input.length ∧ m.stop = s.input.length) ∧
    ((e.mime s.input = none ∨ e.mime s.input = some []) → ¬ Found s'.live c!"mimetype") := by
  obtain ⟨xs, ys, e1, hxs, _, hfol⟩ := followers (mime_runs hon) rfl
  rw [after_mime] at hfol
  unfold engine at h
  rw [e1] at h
  obtain ⟨t, h1, h2⟩ := runRules_append h
  obtain ⟨u, h3, h4⟩ := runRules_cons h2
  have hti : t.input = s.input := (run_input he h1).1
  have ht : ∀ m ∈ t.live, m.name ≠ some c!"mimetype" := by
    refine run_keeps (P := fun t => ∀ m ∈ t.live, m.name ≠ some c!"mimetype") ?_ h1 (found_unmimed hf)
    intro d hd a b hab ha m hm hname
    have hb : ∀ d ∈ allRules, d ≠ mimeDecl → ∀ k ∈ births d.cls, k.into ≠ c!"mimetype" := by decide +kernel
    rcases (rule_follows he hab).live m hm with ⟨m', hm', hk⟩ | ⟨k, hk, _, hinto, _, _⟩ | ⟨_, _, m', hm', h2⟩
    · exact ha m' hm' (hk.1 ▸ hname)
    · rw [hinto] at hname
      exact hb d (mem_allRules (mem_rulesRun.1 (hxs d hd).1).1) (hxs d hd).2 k hk (Option.some.inj hname)
    · exact ha m' hm' (h2 ▸ hname)
  have hnil : named t.live c!"mimetype" = [] := by
    rw [List.eq_nil_iff_forall_not_mem]
    intro x hx
    exact ht x (mem_named.1 hx).1 (mem_named.1 hx).2
  have hsame : named s'.live c!"mimetype" = named u.live c!"mimetype" := by
    refine run_keeps (P := fun t => named t.live c!"mimetype" = named u.live c!"mimetype") ?_ h4 rfl
    intro d hd a b hab ha
    rw [← ha]
    have := hfol d hd
    simp only [List.mem_cons, List.not_mem_nil, or_false] at this
    rcases this with rfl | rfl
    · cases hab
      unfold renameEpisodeTitleWhenMovie
      split
      · exact named_renameEach (by decide) (by decide) _ _ fun m hm => (mem_named.1 hm).2
      · rfl
    · cases hab
      unfold typeProcessor
      dsimp only
      rw [named_append]
      have : ∀ v, named [endMatch a c!"type" v] c!"mimetype" = [] := fun v => by
        simp only [named, endMatch, List.filter_cons, List.filter_nil]
        exact if_neg (by simp)
      rw [this, List.append_nil]
  cases h3
  constructor
  · intro v hv hne
    obtain ⟨c, w, rfl⟩ := List.exists_cons_of_ne_nil hne
    have hu : mimetypeRule e.mime t = { t with live := t.live ++ [endMatch t c!"mimetype" (c :: w)] } := by
      unfold mimetypeRule
      rw [hti, hv]
    refine ⟨endMatch t c!"mimetype" (c :: w), ?_, ?_, ?_, ?_⟩
    · show named s'.live c!"mimetype" = _
      rw [hsame, hu, named_append, hnil]
      rfl
    · rfl
    · show t.input.length = _; rw [hti]
    · show t.input.length = _; rw [hti]
  · intro hno hfound
    rw [named_found, hsame] at hfound
    apply hfound
    have hu : mimetypeRule e.mime t = t := by
      unfold mimetypeRule
      rw [hti]
      rcases hno with hno | hno <;> rw [hno]
    rw [hu, hnil]

/-! ### C151 -/

def Public (l : List Mt) : Prop := ∀ m ∈ l, m.priv = false

theorem after_remover : ∀ y ∈ allRules.filter (mayFollow removerDecl), y.cls ∈ [Cls.RenameEpisodeTitleWhenMovieType, .ProperCountRule,
    .EquivalentHoles, .RemoveLessSpecificSeasonEpisode, .RemoveAmbiguous, .SeasonYear, .YearSeason, .Processors, .StripSeparators, .Mimetype, .TypeProcessor] := by
  decide +kernel

theorem public_step {e : RuleEnv} {g : Dict} {arg : Str} {cls : Cls} (hc : cls ∈ [Cls.RenameEpisodeTitleWhenMovieType, .ProperCountRule,
    .EquivalentHoles, .RemoveLessSpecificSeasonEpisode, .RemoveAmbiguous, .SeasonYear, .YearSeason, .Processors, .StripSeparators, .Mimetype, .TypeProcessor])
    {s s' : Ms} (h : ruleStep e g arg s cls = .ok s') (hp : Public s.live) : Public s'.live := by
  simp only [List.mem_cons, List.not_mem_nil, or_false] at hc
  rcases hc with rfl | rfl | rfl | rfl | rfl | rfl | rfl | rfl | rfl | rfl | rfl
  · cases h
    unfold renameEpisodeTitleWhenMovie
    split
    · intro m hm
      rcases renameEach_mem hm with h | ⟨x, hx, rfl⟩
      · exact hp m h
      · exact hp x (mem_named.1 hx).1
    · exact hp
  · cases h
    unfold properCount
    dsimp only
    split
    · exact hp
    · intro m hm
      rcases mem_appendAll hm with hm | hm
      · exact hp m hm
      · rw [List.mem_singleton] at hm; subst hm; rfl
  · refine equivalentHoles_keeps (P := fun m => m.priv = false) (fun _ _ _ _ hm => hm) h ?_ hp
    intro part _ l m hm
    obtain ⟨r, _, rfl⟩ := List.mem_map.1 hm
    rfl
  · cases h
    intro m hm
    exact hp m (removeAll_subset hm)
  · cases h
    intro m hm
    exact hp m (removeAll_subset hm)
  · obtain ⟨added, rfl, a1, _⟩ := C35_year s s' h
    intro m hm
    rcases List.mem_append.1 hm with hm | hm
    · exact hp m hm
    · obtain ⟨_, x, hx, _, rfl, _⟩ := a1 m hm; exact hp x hx
  · cases h
    obtain ⟨added, e1, a1, _⟩ := C35_season s
    rw [e1]
    intro m hm
    rcases List.mem_append.1 hm with hm | hm
    · exact hp m hm
    · obtain ⟨_, _, x, hx, _, rfl⟩ := a1 m hm; exact hp x hx
  · cases h; exact hp
  · intro m hm
    obtain ⟨x, hx, _, _, rfl⟩ := (strip_same h).back hm
    exact hp x hx
  · cases h
    unfold mimetypeRule
    split
    · intro m hm
      rcases List.mem_append.1 hm with hm | hm
      · exact hp m hm
      · rw [List.mem_singleton] at hm; subst hm; rfl
    · exact hp
  · cases h
    intro m hm
    rcases List.mem_append.1 hm with hm | hm
    · exact hp m hm
    · rw [List.mem_singleton] at hm; subst hm; rfl

/-- C151: nothing private is reported: the matches that only serve the rules (markers of episodes, separators, ...) are removed. -/
theorem C151_public (e : RuleEnv) (context : Dict) (s s' : Ms) (h : engine e context s = .ok s') :
    ∀ m ∈ s'.live, m.priv = false := by
  obtain ⟨xs, ys, e1, _, _, hfol⟩ := followers (remover_runs context) rfl
  unfold engine at h
  rw [e1] at h
  obtain ⟨t, h1, h2⟩ := runRules_append h
  obtain ⟨u, h3, h4⟩ := runRules_cons h2
  cases h3
  exact run_keeps (P := fun t => Public t.live) (fun d hd a b hab ha => public_step (after_remover d (hfol d hd)) hab ha) h4
    fun m hm => by simpa using (List.mem_filter.1 hm).2

end Guessit
