import Verif.Props.EngineRun
import Verif.Spec.Engine

/-! # C146: the names of the reported properties -/

namespace Guessit
open Spec

/-- What may be called something else before the end. -/
def passing : List Str := [c!"count", c!"another"]

/-- Private, or under a name that is reported. -/
def Presentable (m : Mt) : Prop := m.priv = true ∨ ∃ n ∈ documented ++ undocumented ++ passing, m.name = some n

theorem sources_named : ∀ p ∈ sources, ∀ n ∈ p.gives, n ∈ privateNames ∨ n ∈ documented ++ undocumented ++ passing := by decide +kernel

theorem births_named : ∀ d ∈ allRules, ∀ k ∈ births d.cls, k.into ∈ documented ++ undocumented ∨ k.hidden = true ∨
    k.into = c!"discMarker" ∧ k.root = .named c!"episodeMarker" := by decide +kernel

theorem found_presentable {g : Dict} {input : Str} {found : List Mt} (hf : PatternsGive g input found) : ∀ m ∈ found, Presentable m := by
  intro m hm
  obtain ⟨p, hp, _, _, ⟨_, h0⟩ | ⟨⟨n, hn, hname, hpriv⟩, _⟩⟩ := hf m hm
  · exact Or.inl h0
  · rcases sources_named p hp n hn with h | h
    · exact Or.inl (hpriv h)
    · exact Or.inr ⟨n, h, hname⟩

/-- Every rule but the one that duplicates names leaves presentable matches. -/
theorem presentable_rule {e : RuleEnv} (he : Natural e) {g : Dict} {d : Decl Cls} (hd : d ∈ allRules) (hne : d.cls ≠ .EquivalentHoles)
    {s s' : Ms} (h : ruleStep e g d.arg s d.cls = .ok s') (hs : ∀ m ∈ s.live, Presentable m) : ∀ m ∈ s'.live, Presentable m := by
  intro m hm
  rcases (rule_follows he h).live m hm with ⟨m', hm', hk⟩ | ⟨k, hk, _, hinto, hhid, hroot⟩ | ⟨hc, _⟩
  · rcases hs m' hm' with h1 | ⟨n, hn, h1⟩
    · exact Or.inl (hk.2.2 h1)
    · exact Or.inr ⟨n, hn, hk.1.trans h1⟩
  · rcases births_named d hd k hk with h1 | h1 | ⟨_, h1⟩
    · exact Or.inr ⟨_, List.mem_append_left _ h1, hinto⟩
    · exact Or.inl (hhid h1)
    · rw [h1] at hroot
      obtain ⟨m', hm', hn', _, hpr⟩ := hroot
      rcases hs m' hm' with h2 | ⟨n, hn, h2⟩
      · exact Or.inl (hpr.1 h2)
      · rw [hn'] at h2; cases h2; exact absurd hn (by decide +kernel)
  · exact absurd hc hne

/-- After the private matches are gone, nothing with another name appears. -/
theorem late_named {e : RuleEnv} (he : Natural e) {g : Dict} {d : Decl Cls} (hd : d ∈ allRules) (hpost : d.priority ≤ postProcess)
    {s s' : Ms} (h : ruleStep e g d.arg s d.cls = .ok s') {K : List Str} (hK : ∀ n ∈ documented ++ undocumented, n ∈ K)
    (hs : ∀ m ∈ s.live, ∃ n ∈ K, m.name = some n) :
    ∀ m ∈ s'.live, ∃ n ∈ K, m.name = some n := by
  have hb : ∀ d ∈ allRules, d.priority ≤ postProcess → ∀ k ∈ births d.cls, k.into ∈ documented ++ undocumented := by decide +kernel
  intro m hm
  rcases (rule_follows he h).live m hm with ⟨m', hm', hk⟩ | ⟨k, hk, _, hinto, _, _⟩ | ⟨_, _, m', hm', hn⟩
  · obtain ⟨n, hn, h1⟩ := hs m' hm'; exact ⟨n, hn, hk.1.trans h1⟩
  · exact ⟨_, hK _ (hb d hd hpost k hk), hinto⟩
  · obtain ⟨n, hn', h1⟩ := hs m' hm'; exact ⟨n, hn', hn.trans h1⟩

/-! ### Counts and `another` -/

theorem countKey_append (input : Str) (k : MtKey) (a b : List Mt) : countKey input k (a ++ b) = countKey input k a + countKey input k b := by
  simp [countKey, List.countP_append]

theorem countKey_appendNamed {input name : Str} {k : MtKey} (hk : k.name ≠ some name) : ∀ (ms l : List Mt),
    countKey input k (appendNamed input name l ms) = countKey input k l := by
  intro ms
  induction ms with
  | nil => intro l; rfl
  | cons m ms ih =>
    intro l
    rw [appendNamed, List.foldl_cons]
    refine (ih _).trans ?_
    split
    · rfl
    · rw [countKey_append, countKey_cons]
      have : ¬ ({ m with name := some name } : Mt).key input = k := fun h => hk (by rw [← h]; rfl)
      rw [if_neg this]
      simp [countKey]

theorem countKey_renameAll {input name : Str} {k : MtKey} (hk : k.name ≠ some name) (l ms : List Mt) :
    countKey input k (renameAll input name l ms) = countKey input k l - countKey input k ms := by
  unfold renameAll
  rw [countKey_appendNamed hk, countKey_removeAll]

theorem countKey_named {input n : Str} {k : MtKey} (hk : k.name = some n) : ∀ l : List Mt, countKey input k l = countKey input k (named l n) := by
  intro l
  induction l with
  | nil => rfl
  | cons x l ih =>
    rw [countKey_cons]
    by_cases hx : x.name = some n
    · have : named (x :: l) n = x :: named l n := by simp [named, hx]
      rw [this, countKey_cons, ih]
    · have hxk : ¬ x.key input = k := fun h => hx (by rw [← hk, ← h]; rfl)
      have : named (x :: l) n = named l n := by simp [named, hx]
      rw [if_neg hxk, this, ih]; rfl

theorem countKey_three {input : Str} {k : MtKey} {p q r : Mt → Bool} : ∀ l : List Mt, (∀ m ∈ l, p m = true ∨ q m = true ∨ r m = true) →
    countKey input k l ≤ countKey input k (l.filter p) + countKey input k (l.filter q) + countKey input k (l.filter r) := by
  intro l
  induction l with
  | nil => intro _; simp [countKey]
  | cons x l ih =>
    intro h
    have h1 := ih fun m hm => h m (by simp [hm])
    have h2 := h x (by simp)
    simp only [List.filter_cons, countKey_cons]
    cases hp : p x <;> cases hq : q x <;> cases hr : r x <;> simp [hp, hq, hr] at h2 <;>
      simp only [if_true, Bool.false_eq_true, if_false, countKey_cons] <;> split <;> omega

/-- No count is left as such. -/
theorem count_gone (s : Ms) : ∀ m ∈ (countValidator s).live, m.name ≠ some c!"count" := by
  intro m hm hname
  have hk : (m.key s.input).name = some c!"count" := hname
  have hpos := countKey_pos (input := s.input) (k := m.key s.input).2 ⟨m, hm, rfl⟩
  have key : countKey s.input (m.key s.input) (countValidator s).live = 0 := by
    unfold countValidator
    dsimp only
    rw [countKey_renameAll (by rw [hk]; decide), countKey_renameAll (by rw [hk]; decide), countKey_removeAll, countKey_named hk s.live]
    have := countKey_three (input := s.input) (k := m.key s.input) (p := fun c => decide (countOf s c = none))
      (q := fun c => decide (countOf s c = some c!"episode")) (r := fun c => decide (countOf s c = some c!"season")) (named s.live c!"count")
      (by
        intro c _
        simp only [decide_eq_true_eq]
        unfold countOf
        cases hf : firstTrue (previous s.live c fun m => m.name = some c!"episode" || m.name = some c!"season") with
        | none => left; rfl
        | some x =>
          have hx := (mem_previous.1 (Guessit.firstTrue_mem hf)).2
          simp only [Bool.or_eq_true, decide_eq_true_eq] at hx
          right
          simpa using hx)
    omega
  omega

theorem another_gone (s : Ms) : ∀ m ∈ (anotherToOther s).live, m.name ≠ some c!"another" := by
  intro m hm hname
  have hk : (m.key s.input).name = some c!"another" := hname
  have hpos := countKey_pos (input := s.input) (k := m.key s.input).2 ⟨m, hm, rfl⟩
  unfold anotherToOther at hpos
  dsimp only at hpos
  rw [countKey_renameAll (by rw [hk]; decide), countKey_named hk s.live] at hpos
  omega

/-- A name under which nothing is made does not come back. -/
theorem unborn_rule {e : RuleEnv} (he : Natural e) {g : Dict} {n : Str} (hn : ∀ d ∈ allRules, ∀ k ∈ births d.cls, k.into ≠ n) {d : Decl Cls}
    (hd : d ∈ allRules) {s s' : Ms} (h : ruleStep e g d.arg s d.cls = .ok s') (hs : ∀ m ∈ s.live, m.name ≠ some n) : ∀ m ∈ s'.live, m.name ≠ some n := by
  intro m hm hname
  rcases (rule_follows he h).live m hm with ⟨m', hm', hk⟩ | ⟨k, hk, _, hinto, _, _⟩ | ⟨_, _, m', hm', h2⟩
  · exact hs m' hm' (hk.1 ▸ hname)
  · rw [hinto] at hname; exact hn d hd k hk (Option.some.inj hname)
  · exact hs m' hm' (h2 ▸ hname)

/-- Once a rule has removed a name under which nothing is made, it is not in the result. -/
theorem gone_after {e : RuleEnv} (he : Natural e) {g : Dict} {n : Str} (hn : ∀ d ∈ allRules, ∀ k ∈ births d.cls, k.into ≠ n)
    {d : Decl Cls} (hd : d ∈ rulesRun id g) (hgone : ∀ t t', ruleStep e g d.arg t d.cls = .ok t' → ∀ m ∈ t'.live, m.name ≠ some n)
    {s s' : Ms} (h : engine e g s = .ok s') : ∀ m ∈ s'.live, m.name ≠ some n := by
  obtain ⟨xs, ys, e1, _, hys, _⟩ := run_split hd
  unfold engine at h
  rw [e1] at h
  obtain ⟨t, h1, h2⟩ := runRules_append h
  obtain ⟨u, h3, h4⟩ := runRules_cons h2
  exact run_keeps (P := fun t => ∀ m ∈ t.live, m.name ≠ some n)
    (fun d' hd' t t' ht => unborn_rule he hn (mem_allRules (mem_rulesRun.1 (hys d' hd')).1) ht) h4 (hgone t u h3)

/-- The rule that removes the private matches. -/
def removerDecl : Decl Cls := { cls := .PrivateRemover, priority := postProcess }

theorem remover_runs (context : Dict) : removerDecl ∈ rulesRun id context :=
  runs_of_plug (p := rootPlug) (by simp [guessitPlugs]) rfl (by decide) (by decide) rfl

theorem extendSafe_prefix : ∀ (src acc : List (Decl Cls)), ∃ rest, extendSafe acc src = acc ++ rest := by
  intro src
  induction src with
  | nil => intro acc; exact ⟨[], by simp [extendSafe]⟩
  | cons r src ih =>
    intro acc
    rw [extendSafe, List.foldl_cons]
    split
    · exact ih acc
    · obtain ⟨rest, hr⟩ := ih (acc ++ [r])
      exact ⟨r :: rest, by rw [extendSafe] at hr; rw [hr]; simp⟩

theorem effective_prefix (context : Dict) : ∃ rest, effectiveRules guessitPlugs context = rootPlug.rules ++ rest := by
  have key : ∀ (ps : List (Plug Cls)) (acc : List (Decl Cls)), ∃ rest,
      ps.foldl (fun acc p => if p.off context then acc else extendSafe acc p.rules) acc = acc ++ rest := by
    intro ps
    induction ps with
    | nil => intro acc; exact ⟨[], by simp⟩
    | cons p ps ih =>
      intro acc
      rw [List.foldl_cons]
      split
      · exact ih acc
      · obtain ⟨r1, h1⟩ := extendSafe_prefix p.rules acc
        obtain ⟨r2, h2⟩ := ih (extendSafe acc p.rules)
        exact ⟨r1 ++ r2, by rw [h2, h1]; simp⟩
  unfold effectiveRules guessitPlugs
  rw [List.foldl_cons]
  exact key _ _

/-- The private matches are removed before the other rules of the last stage. -/
theorem remover_first {context : Dict} {y : Decl Cls} (hy : y ∈ effectiveRules guessitPlugs context) (hp : y.priority = postProcess)
    (hne : y ≠ removerDecl) : RunsBefore (schedule id (effectiveRules guessitPlugs context)).1 removerDecl y := by
  have hs : Shuffles (id : List (Decl Cls) → List (Decl Cls)) := fun l => List.Perm.refl l
  refine C108_ties hs _ (effectiveRules_nodup guessitPlugs context) removerDecl y (hs.mem.2 hy) (mem_rulesRun.1 (remover_runs context)).1 hp.symm ?_ (Or.inr ?_)
  · intro d _ _ hd
    exact absurd hd.1 (by simp [removerDecl])
  · obtain ⟨rest, e⟩ := effective_prefix context
    rw [e] at hy ⊢
    have hyr : y ∈ rest := by
      rcases List.mem_append.1 hy with h | h
      · simp only [rootPlug, List.mem_cons, List.not_mem_nil, or_false] at h
        rcases h with rfl | rfl
        · exact absurd hp (by decide)
        · exact absurd rfl hne
      · exact h
    obtain ⟨us, vs, rfl⟩ := List.append_of_mem hyr
    refine runsBefore_iff.2 ⟨rootPlug.rules ++ us, vs, by simp, List.mem_append_left _ (by decide)⟩

/-- C146 (what holds): every reported match bears the name of a documented property, or of one of the three undocumented ones — or
`another`, but only when the property `other` is disabled.  (The documentation of guessit does not list `absolute_episode`,
`episode_title` and `proper_count`.) -/
theorem C146_names_partial (e : RuleEnv) (he : Natural e) (context : Dict) (s s' : Ms) (hf : PatternsGive context s.input s.live)
    (h : engine e context s = .ok s') : ∀ m ∈ s'.live, ∃ n, m.name = some n ∧
      (n ∈ documented ++ undocumented ∨ n = c!"another" ∧ isDisabled context c!"other" = true) := by
  have hall : ∀ m ∈ s'.live, ∃ n ∈ documented ++ undocumented ++ passing, m.name = some n := by
    obtain ⟨xs, ys, e1, hxs, hys, hlow, _, hord⟩ := run_split (remover_runs context)
    have h' := h
    unfold engine at h'
    rw [e1] at h'
    obtain ⟨t, h1, h2⟩ := runRules_append h'
    obtain ⟨u, h3, h4⟩ := runRules_cons h2
    have hbefore : ∀ d ∈ xs, d.cls ≠ .EquivalentHoles := by
      intro d hd hc
      have hda := mem_allRules (mem_rulesRun.1 (hxs d hd)).1
      have hde : d = { cls := .EquivalentHoles, priority := postProcess } :=
        class_once _ (by decide +kernel) (by decide) d hda hc
      have hr := remover_first (mem_rulesRun.1 (hxs d hd)).1 (by rw [hde]) (by rw [hde]; decide)
      obtain ⟨us, vs, rfl⟩ := List.append_of_mem hd
      exact not_after (us := us) (ys := vs ++ removerDecl :: ys) hr (by rw [e1]; simp) (by simp)
    have ht : ∀ m ∈ t.live, Presentable m := run_keeps (P := fun t => ∀ m ∈ t.live, Presentable m)
      (fun d hd a b hab => presentable_rule he (mem_allRules (mem_rulesRun.1 (hxs d hd)).1) (hbefore d hd) hab) h1 (found_presentable hf)
    have hu : ∀ m ∈ u.live, ∃ n ∈ documented ++ undocumented ++ passing, m.name = some n := by
      cases h3
      intro m hm
      obtain ⟨h5, h6⟩ := List.mem_filter.1 hm
      rcases ht m h5 with h7 | h7
      · rw [h7] at h6; cases h6
      · exact h7
    exact run_keeps (P := fun t => ∀ m ∈ t.live, ∃ n ∈ documented ++ undocumented ++ passing, m.name = some n)
      (fun d hd a b hab => late_named he (mem_allRules (mem_rulesRun.1 (hys d hd)).1) (hlow d hd) hab
        fun n hn => List.mem_append_left _ hn) h4 hu
  intro m hm
  obtain ⟨n, hn, hname⟩ := hall m hm
  refine ⟨n, hname, ?_⟩
  rcases List.mem_append.1 hn with hn | hn
  · exact Or.inl hn
  · simp only [passing, List.mem_cons, List.not_mem_nil, or_false] at hn
    rcases hn with rfl | rfl
    · refine absurd hname (gone_after he (by decide +kernel) (d := { cls := .CountValidator, priority := 64 }) ?_ ?_ h m hm)
      · exact runs_of_plug (p := episodesPlug) (by simp [guessitPlugs]) rfl (by decide) (by decide) rfl
      · intro t t' ht; cases ht; exact count_gone t
    · cases ho : isDisabled context c!"other" with
      | true => exact Or.inr ⟨rfl, rfl⟩
      | false =>
        refine absurd hname (gone_after he (by decide +kernel) (d := { cls := .RenameAnotherToOther, priority := 32 }) ?_ ?_ h m hm)
        · exact runs_of_plug (p := otherPlug) (by simp [guessitPlugs]) (by simp [Plug.off, otherPlug, ho]) (by decide) (by decide) rfl
        · intro t t' ht; cases ht; exact another_gone t

end Guessit
