import Verif.Props.EngineObjects
import Verif.Props.EngineRanges
import Verif.Props.EngineNames
import Verif.Props.EnginePlaceMarks
import Verif.Props.Enlarge

/-! # Values through the rules: numbers stay what they are -/

namespace Guessit
open Spec

/-- The numbers that no rule makes or changes. -/
def countedNames : List Str := [c!"week", c!"part", c!"cd", c!"cd_count", c!"bonus", c!"film"]

/-- No rule makes or changes a value under one of the names, except by giving it to a match of another of them, whose numbers are right for it too; the numbers between
those of two seasons are right for a season, and a season that is a valid year is right for a year. -/
structure Quiet (N : List Str) (Q : Str → Int → Prop) : Prop where
  movable : ∀ n ∈ N, n ∉ movable ∧ n ≠ c!"source"
  births : ∀ d ∈ allRules, ∀ k ∈ births d.cls, k.into ∈ N → (∃ n ∈ N, k.root = .named n ∧ ∀ j, Q n j → Q k.into j) ∨
    (c!"season" ∈ N ∧ (d.cls = .SeasonSeparatorRange ∧ k.into = c!"season" ∨ d.cls = .SeasonYear ∧ k.into = c!"year"))
  between : c!"season" ∈ N → ∀ a b j, Q c!"season" a → Q c!"season" b → a < j → j < b → Q c!"season" j ∧ j ≠ 0
  years : c!"season" ∈ N → ∀ k, Q c!"season" k → validYear k = true → Q c!"year" k

theorem counted_quiet (Q : Str → Int → Prop) : Quiet countedNames Q := by
  refine ⟨by decide +kernel, ?_, fun h => absurd h (by decide), fun h => absurd h (by decide)⟩
  exact fun d hd k hk h => absurd h ((by decide +kernel : ∀ d ∈ allRules, ∀ k ∈ Guessit.births d.cls, k.into ∉ countedNames) d hd k hk)

/-- The text neither begins nor finishes with a separator that is stripped. -/
def Smooth (t : Str) : Prop := (∃ c, t[0]? = some c ∧ sepsNoGroups.contains c = false) ∧ ∃ c, t.getLast? = some c ∧ sepsNoGroups.contains c = false

/-- A match with one of the names has a number for its value, that is right for it. -/
def Counted (N : List Str) (Q : Str → Int → Prop) (input : Str) (m : Mt) : Prop := ∀ n ∈ N, m.name = some n →
  Smooth (m.raw input) ∧ ∃ k, Q n k ∧ m.value input = .int k

variable {N : List Str} {Q : Str → Int → Prop} {input : Str}

theorem Counted.as {m' m : Mt} (hn : m.name = m'.name) (hv : m.val = m'.val) (hf : m.fmt = m'.fmt) (ha : m.rawA = m'.rawA) (hb : m.rawB = m'.rawB)
    (h : Counted N Q input m') : Counted N Q input m := by
  have hr : m.raw input = m'.raw input := by unfold Mt.raw; rw [ha, hb]
  have hw : m.value input = m'.value input := by unfold Mt.value; rw [hv, hf, hr]
  intro n hn' hm
  rw [hr, hw]
  exact h n hn' (hn ▸ hm)

theorem Counted.kept (hN : Quiet N Q) {m' m : Mt} (hk : KeptV m' m) (h : Counted N Q input m') : Counted N Q input m := by
  rcases hk.2 with ⟨hv, hf⟩ | ⟨hs, _⟩ | ⟨x, hx, hs⟩
  · exact h.as hk.1.1 hv hf hk.left hk.right
  · intro n hn hm
    have := hk.1.1 ▸ hm
    rw [hs] at this
    cases this
    exact absurd rfl (hN.movable _ hn).2
  · intro n hn hm
    have := hk.1.1 ▸ hm
    rw [hs] at this
    cases this
    exact absurd hx (hN.movable _ hn).1

/-! ### Stripping -/

theorem smooth_start {m : Mt} (h : Smooth (m.raw input)) : stripStartOnce input m = .ok m := by
  obtain ⟨⟨c, h1, h2⟩, _⟩ := h
  unfold stripStartOnce
  simp only [h1, h2, Bool.false_and, Bool.false_eq_true, if_false]

theorem smooth_stop {m : Mt} (h : Smooth (m.raw input)) : stripEndOnce input m = .ok m := by
  obtain ⟨_, c, h1, h2⟩ := h
  unfold stripEndOnce
  simp only [h1, h2, Bool.false_and, Bool.false_eq_true, if_false]

theorem smooth_strip {m m' : Mt} (h : Smooth (m.raw input)) (hs : stripMatch input m = .ok m') : m' = m := by
  unfold stripMatch at hs
  rw [smooth_start h] at hs
  simp only [smooth_start h, smooth_stop h] at hs
  cases hs
  rfl

theorem counted_strip {s s' : Ms} (h : stripSeparators s = .ok s') (hs : ∀ m ∈ s.live, Counted N Q s.input m) : ∀ m ∈ s'.live, Counted N Q s.input m := by
  unfold stripSeparators at h
  split at h
  · cases h
  · rename_i l hl
    cases h
    intro m hm n hn hname
    obtain ⟨x, hx, hxm⟩ := stripAll_mem hl m hm
    have hxn : x.name = some n := by
      rw [← hname]
      exact (stripMatch_kept hxm).1.1.symm
    have := hs x hx n hn hxn
    rw [smooth_strip this.1 hxm]
    exact this

/-! ### `EquivalentHoles` -/

theorem counted_holes {u : Uni} {t : CaseTables} (hl : ∀ s, u.lower s = [] ↔ s = []) {s s' : Ms}
    (h : equivalentHoles u t s = .ok s') (hs : ∀ m ∈ s.live, Counted N Q s.input m) : ∀ m ∈ s'.live, Counted N Q s.input m := by
  have hno : ∀ x ∈ s.live, ∀ n ∈ N, x.name = some n → ∀ v, x.value s.input ≠ .str v := by
    intro x hx n hn hname v hv
    obtain ⟨_, k, _, hk⟩ := hs x hx n hn hname
    rw [hk] at hv
    cases hv
  obtain ⟨live1, added, rfl, hf, hadd⟩ := C36_holes u t hl s s' h
  intro m hm n hn hname
  rcases List.mem_append.1 hm with hm' | hm'
  · obtain ⟨x, hx, hr⟩ := forall2_back hf hm'
    rcases hr with rfl | ⟨v, w, hv, rfl, _, _, _⟩
    · exact hs m hx n hn hname
    · exact absurd hv (hno x hx n hn hname v)
  · obtain ⟨_, _, ⟨x, hx, hxn, v, w, hv, _⟩, _⟩ := hadd m hm'
    exact absurd hv (hno x hx n hn (hxn ▸ hname) v)

/-! ### The run -/

theorem marked_early {context : Dict} {opening closing : Str} (hdis : ∀ c ∈ opening, c ∉ closing) {s : Ms}
    (hm : s.markers = marksOf context opening closing s.input) (hi : (s.live.map Mt.id).Nodup) (hr : ∀ m ∈ s.live, m.rawStart = none ∧ m.rawStop = none) :
    Early s := by
  have hb : Early { s with live := [] } := marksOf_before hdis hm ⟨List.nodup_nil, by simp, by simp⟩
  exact ⟨hi, hr, hb.groups, hb.starts, hb.stops⟩

/-- The seasons and years made by the two rules that look at their values. -/
theorem counted_seasons (hN : Quiet N Q) {e : RuleEnv} {g : Dict} {d : Decl Cls} {s s' : Ms} {k : Birth} (hs0 : c!"season" ∈ N)
    (hd : d.cls = .SeasonSeparatorRange ∧ k.into = c!"season" ∨ d.cls = .SeasonYear ∧ k.into = c!"year")
    (h : ruleStep e g d.arg s d.cls = .ok s') (hs : ∀ m ∈ s.live, Counted N Q s.input m) {m : Mt} (hm : m ∈ s'.live) (hname : m.name = some k.into) :
    Counted N Q s.input m := by
  rcases hd with ⟨hd, hk⟩ | ⟨hd, hk⟩
  · rw [hd] at h
    rcases separatorRange_fills (prop := c!"season") (orRaise_ok h) m hm with h1 | h1 | ⟨p, hp, n, hn, hpn, hnn, a, b, j, ha, hb, h1, h2, rfl⟩
    · exact hs m h1
    · rw [hname, hk] at h1
      exact absurd h1 (by decide)
    · obtain ⟨_, a', ha', hva⟩ := hs p hp _ hs0 hpn
      obtain ⟨hr, b', hb', hvb⟩ := hs n hn _ hs0 hnn
      rw [ha] at hva
      rw [hb] at hvb
      cases hva
      cases hvb
      obtain ⟨h3, h4⟩ := hN.between hs0 a b j ha' hb' h1 h2
      intro x hx hxn
      have : x = c!"season" := by
        have hxn : n.name = some x := hxn
        rw [hnn] at hxn
        exact (Option.some.inj hxn).symm
      subst this
      refine ⟨hr, j, h3, ?_⟩
      simp [Mt.value, MVal.truthy, h4]
  · rw [hd] at h
    rcases seasonYear_years h m hm with h1 | ⟨x, hx, hxn, rfl, j, hj, hv⟩
    · exact hs m h1
    · obtain ⟨hr, j', hj', hvj⟩ := hs x hx _ hs0 hxn
      rw [hj] at hvj
      cases hvj
      intro y hy hyn
      have : y = c!"year" := (Option.some.inj hyn).symm
      subst this
      exact ⟨hr, j, hN.years hs0 j hj' hv, hj⟩

/-- A match made of one of the names. -/
theorem counted_born (hN : Quiet N Q) {e : RuleEnv} {g : Dict} {d : Decl Cls} (hd : d ∈ allRules) {s s' : Ms} (h : ruleStep e g d.arg s d.cls = .ok s')
    {k : Birth} (hk : k ∈ births d.cls) {m : Mt} (hmem : m ∈ s'.live)
    (hm : k.Makes g s.live m) (hs : ∀ x ∈ s.live, (x.priv = true → m.priv = true) ∨ c!"season" ∈ N → Counted N Q s.input x) : Counted N Q s.input m := by
  obtain ⟨_, hinto, _, hroot⟩ := hm
  intro n hn hname
  rw [hinto] at hname
  cases hname
  rcases hN.births d hd k hk hn with ⟨n, hn', hr, hQ⟩ | ⟨hs0, hc⟩
  · rw [hr] at hroot
    obtain ⟨x, hx, hxn, _, hxp, hv, hf, ha, hb⟩ := hroot
    obtain ⟨h1, j, h2, h3⟩ := hs x hx (Or.inl hxp) n hn' hxn
    have hraw : m.raw s.input = x.raw s.input := by unfold Mt.raw; rw [ha, hb]
    have hval : m.value s.input = x.value s.input := by unfold Mt.value; rw [hv, hf, hraw]
    exact ⟨hraw ▸ h1, j, hQ j h2, hval ▸ h3⟩
  · exact counted_seasons hN hs0 hc h (fun x hx => hs x hx (Or.inr hs0)) hmem hinto _ hn hinto

/-- Every rule but the first ones. -/
theorem counted_rule (hN : Quiet N Q) {e : RuleEnv} (he : Natural e) {g : Dict} {d : Decl Cls} (hd : d ∈ allRules) (hne : d.cls ≠ .EnlargeGroupMatches)
    {s s' : Ms} (h : ruleStep e g d.arg s d.cls = .ok s') (hs : ∀ m ∈ s.live, Counted N Q s.input m) : ∀ m ∈ s'.live, Counted N Q s.input m := by
  intro m hm
  by_cases h1 : d.cls = .EquivalentHoles
  · rw [h1] at h
    exact counted_holes he.lower h hs m hm
  by_cases h2 : d.cls = .StripSeparators
  · rw [h2] at h
    exact counted_strip h hs m hm
  rcases (rule_followsV he h).live m hm with ⟨m', hm', hk⟩ | ⟨k, hk, hmake⟩ | ⟨h3, _⟩ | ⟨h3, _⟩
  · exact (hs m' hm').kept hN hk
  · exact counted_born hN hd h hk hm hmake fun x hx _ => hs x hx
  · exact absurd h3 h1
  · simp only [List.mem_cons, List.not_mem_nil, or_false] at h3
    exact absurd h3 (fun hh => hh.elim h2 hne)

/-- Before the private matches are removed. -/
theorem counted_shown (hN : Quiet N Q) {e : RuleEnv} (he : Natural e) {g : Dict} {d : Decl Cls} (hd : d ∈ allRules) (hne : d.cls ≠ .EnlargeGroupMatches)
    (hh : d.cls ≠ .EquivalentHoles) {s s' : Ms} (h : ruleStep e g d.arg s d.cls = .ok s')
    (hs : ∀ m ∈ s.live, m.priv = false ∨ c!"season" ∈ N → Counted N Q s.input m) : ∀ m ∈ s'.live, m.priv = false ∨ c!"season" ∈ N → Counted N Q s.input m := by
  intro m hm hp
  by_cases h2 : d.cls = .StripSeparators
  · rw [h2] at h
    change stripSeparators s = .ok s' at h
    unfold stripSeparators at h
    split at h
    · cases h
    · rename_i l hl
      cases h
      intro n hn hname
      obtain ⟨x, hx, hxm⟩ := stripAll_mem hl m hm
      have hk := (stripMatch_kept hxm).1
      have := hs x hx (hp.imp_left fun hp => by
        cases hxp : x.priv with
        | false => rfl
        | true => rw [hk.2.2 hxp] at hp; cases hp) n hn (hk.1 ▸ hname)
      rw [smooth_strip this.1 hxm]
      exact this
  rcases (rule_followsV he h).live m hm with ⟨m', hm', hk⟩ | ⟨k, hk, hmake⟩ | ⟨h3, _⟩ | ⟨h3, _⟩
  · refine (hs m' hm' (hp.imp_left fun hp => ?_)).kept hN hk
    cases hxp : m'.priv with
    | false => rfl
    | true => rw [hk.named.2.2 hxp] at hp; cases hp
  · refine counted_born hN hd h hk hm hmake fun x hx hxp => hs x hx ?_
    rcases hxp with hxp | hxp
    · refine hp.imp_left fun hp => ?_
      cases h : x.priv with
      | false => rfl
      | true => rw [hxp h] at hp; cases hp
    · exact Or.inr hxp
  · exact absurd h3 hh
  · simp only [List.mem_cons, List.not_mem_nil, or_false] at h3
    exact absurd h3 (fun hh => hh.elim h2 hne)

/-- C162 for the rules: what a number is when the rules begin, it is in the end. -/
theorem C162_engine (hN : Quiet N Q) (e : RuleEnv) (he : Natural e) (context : Dict) (s s' : Ms) (hb : Early s) (hs : ∀ m ∈ s.live, m.priv = false ∨ c!"season" ∈ N → Counted N Q s.input m)
    (h : engine e context s = .ok s') : ∀ m ∈ s'.live, Counted N Q s.input m := by
  unfold engine at h
  have hrun := fun {d} (hd : d ∈ rulesRun id context) => mem_allRules (mem_rulesRun.1 hd).1
  obtain ⟨xs, ys, e1, hxs, hys, _, _, _⟩ := run_split (remover_runs context)
  have hord := (C108_guessit (shuffle := id) (fun l => List.Perm.refl l) context)
  have hpr := hord.2.2.2.1
  have hnd : (rulesRun id context).Nodup := List.Nodup.filter _ hord.2.2.1
  have hbefore : ∀ d ∈ xs, d.cls ≠ .EquivalentHoles := by
    intro d hd hc
    have hde : d = { cls := .EquivalentHoles, priority := postProcess } := class_once _ (by decide +kernel) (by decide) d (hrun (hxs d hd)) hc
    have hr := remover_first (mem_rulesRun.1 (hxs d hd)).1 (by rw [hde]) (by rw [hde]; decide)
    obtain ⟨us, vs, rfl⟩ := List.append_of_mem hd
    exact not_after (us := us) (ys := vs ++ removerDecl :: ys) hr (by rw [e1]; simp) (by simp)
  have hin : enlargeDecl ∈ xs := by
    have hh := enlarge_runs context
    rw [e1] at hh
    rcases List.mem_append.1 hh with hh | hh
    · exact hh
    · rcases List.mem_cons.1 hh with hh | hh
      · exact absurd hh (by decide)
      · refine absurd hh (not_after (us := xs) (ys := ys) ?_ e1)
        exact hpr removerDecl (mem_rulesRun.1 (remover_runs context)).1 enlargeDecl (mem_rulesRun.1 (enlarge_runs context)).1 (by decide)
  obtain ⟨us, vs, rfl⟩ := List.append_of_mem hin
  rw [e1] at h hnd
  have hus : ∀ d ∈ us, d.cls = .ConflictSolver := by
    intro d hd
    have hde : d ∈ rulesRun id context := hxs d (by simp [hd])
    have hpd : 2048 ≤ d.priority := by
      by_contra hlt
      obtain ⟨as, bs, rfl⟩ := List.append_of_mem hd
      have hlt' : d.priority < enlargeDecl.priority := by show d.priority < 2048; omega
      exact not_after (us := as) (ys := bs ++ enlargeDecl :: vs ++ removerDecl :: ys)
        (hpr d (mem_rulesRun.1 hde).1 enlargeDecl (mem_rulesRun.1 (enlarge_runs context)).1 hlt') (by rw [e1]; simp) (by simp)
    rcases early_rules d (hrun hde) hpd with h1 | h1
    · exact h1
    · rw [List.append_assoc] at hnd
      exact absurd h1 ((List.nodup_append.1 hnd).2.2 d hd enlargeDecl (by simp))
  have hlate : enlargeDecl ∉ vs ∧ enlargeDecl ∉ ys := by
    rw [List.append_assoc, List.cons_append] at hnd
    have := (List.nodup_cons.1 (List.nodup_append.1 hnd).2.1).1
    simp only [List.mem_append, List.mem_cons, not_or] at this
    exact ⟨this.1, this.2.2⟩
  have hvs : ∀ d ∈ vs, d.cls ≠ .EnlargeGroupMatches := fun d hd hc => by
    have := enlarge_once d (hrun (hxs d (by simp [hd]))) hc
    subst this
    exact hlate.1 hd
  have hys' : ∀ d ∈ ys, d.cls ≠ .EnlargeGroupMatches := fun d hd hc => by
    have := enlarge_once d (hrun (hys d hd)) hc
    subst this
    exact hlate.2 hd
  rw [List.append_assoc] at h
  obtain ⟨t, h1, h2⟩ := runRules_append h
  rw [List.cons_append] at h2
  obtain ⟨u, h3, h4⟩ := runRules_cons h2
  obtain ⟨v, h5, h6⟩ := runRules_append h4
  obtain ⟨w, h7, h8⟩ := runRules_cons h6
  have hsub : ∃ l, l.Sublist s.live ∧ t = { s with live := l } := by
    refine run_keeps (P := fun t => ∃ l, l.Sublist s.live ∧ t = { s with live := l }) ?_ h1 ⟨s.live, List.Sublist.refl _, rfl⟩
    rintro d hd a b hab ⟨l, hl, rfl⟩
    rw [hus d hd] at hab
    cases hab
    exact ⟨_, (removeAll_sublist _ _ _).trans hl, rfl⟩
  obtain ⟨l, hl, rfl⟩ := hsub
  cases h3
  have hearly : Early { s with live := l } := ⟨(hl.map _).nodup hb.ids, fun m hm => hb.raw m (hl.subset hm), hb.groups, hb.starts, hb.stops⟩
  have hu : ∀ m ∈ (enlargeGroupMatches { s with live := l }).live, m.priv = false ∨ c!"season" ∈ N → Counted N Q s.input m := by
    intro m hm hp
    obtain ⟨_, _, y, hy, hk⟩ := early_enlarge hearly m hm
    exact (hs y (hl.subset hy) (hp.imp_left fun hp => hk.priv ▸ hp)).as hk.name hk.val hk.fmt hk.left hk.right
  have hv := run_keeps (P := fun t => t.input = s.input ∧ ∀ m ∈ t.live, m.priv = false ∨ c!"season" ∈ N → Counted N Q s.input m) (fun d hd a b hab hp => by
    refine ⟨(rule_follows he hab).input.trans hp.1, ?_⟩
    rw [← hp.1]
    exact counted_shown hN he (hrun (hxs d (by simp [hd]))) (hvs d hd) (hbefore d (by simp [hd])) hab (by rw [hp.1]; exact hp.2)) h5 ⟨rfl, hu⟩
  have hw : w.input = s.input ∧ ∀ m ∈ w.live, Counted N Q s.input m := by
    cases h7
    refine ⟨hv.1, fun m hm => ?_⟩
    obtain ⟨h9, h10⟩ := List.mem_filter.1 hm
    exact hv.2 m h9 (Or.inl (by simpa using h10))
  have := run_keeps (P := fun t => t.input = s.input ∧ ∀ m ∈ t.live, Counted N Q s.input m) (fun d hd a b hab hp => by
    refine ⟨(rule_follows he hab).input.trans hp.1, ?_⟩
    rw [← hp.1]
    exact counted_rule hN he (hrun (hys d hd)) (hys' d hd) hab (by rw [hp.1]; exact hp.2)) h8 hw
  exact this.2

end Guessit
