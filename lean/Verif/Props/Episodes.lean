import Verif.Proofs.Episodes

/-! # C32: episode and season ranges -/

namespace Guessit
open Spec

/-- `p` and `n` are the ends of a range of `prop`: a range separator match stands between them, or they are successive in
the order of their starts and the text between their patterns is a range separator. -/
def Joined (rs : List Str) (prop : Str) (canStart : Mt → Bool) (s : Ms) (p n : Mt) : Prop :=
  RangeMatch s.input s.live rs prop p n ∨
    (Successive (byStart (named s.live prop)) canStart p n ∧ RangeText s.input rs p n)

/-- The state the rule runs on: matches are not empty, and the values of the property are non-negative integers (its
patterns match digits or numerals). -/
structure RangeInput (prop : Str) (s : Ms) : Prop where
  nonempty : ∀ m ∈ s.live, m.start < m.stop
  ints : ∀ m ∈ s.live, m.name = some prop → ∃ v : Int, m.value s.input = .int v ∧ 0 ≤ v

/-- `byStart` lists the matches in the order of their starts. -/
theorem byStart_perm (l : List Mt) : (byStart l).Perm l := sortBy_perm _ l

theorem start_strictWeak : StrictWeak (fun a b : Mt => decide (a.start < b.start)) where
  asymm := by intro a b h; simp at *; omega
  trans := by intro a b c h1 h2; simp at *; omega

theorem byStart_sorted (l : List Mt) : (byStart l).Pairwise fun a b => a.start ≤ b.start :=
  (sortBy_sorted start_strictWeak l).imp (by intro a b h; simpa using h)

theorem mem_byStart {l : List Mt} {prop : Str} {m : Mt} : m ∈ byStart (named l prop) ↔ m ∈ l ∧ m.name = some prop := by
  rw [(byStart_perm _).mem_iff, mem_named]

theorem pyRange_between (a b : Int) : pyRange (a + 1) b = between a b := rfl

theorem mem_between {a b k : Int} : k ∈ between a b ↔ a < k ∧ k < b := by
  unfold between
  simp only [List.mem_map, List.mem_range]
  constructor
  · rintro ⟨i, h1, rfl⟩; omega
  · rintro ⟨h1, h2⟩; exact ⟨(k - (a + 1)).toNat, by omega, by omega⟩

theorem between_nodup (a b : Int) : (between a b).Nodup := by
  unfold between
  rw [List.nodup_iff_pairwise_ne, List.pairwise_map]
  refine List.nodup_range.imp ?_
  intro i j h h'
  omega

theorem sepName_ne (prop : Str) : sepName prop ≠ prop := by
  intro h
  have := congrArg List.length h
  simp [sepName] at this

theorem value_copy (input : Str) (n : Mt) {k : Int} (hk : k ≠ 0) : Mt.value input { n with val := some (.int k) } = .int k := by
  simp [Mt.value, MVal.truthy, hk]

theorem copiesBetween_eq {s : Ms} {p n : Mt} {a b : Int} (ha : p.value s.input = .int a) (hb : n.value s.input = .int b) :
    copiesBetween s.input p n = some ((between a b).map fun k => { n with val := some (.int k) }) := by
  rw [copiesBetween, intValue_iff.2 ha, intValue_iff.2 hb]
  rfl

/-- What one separator contributes. -/
theorem sepStep_spec {rs : List Str} {prop : Str} {s : Ms} (h : RangeInput prop s) (sep : Mt) :
    (∃ p n a b, JustBefore s.live (· = prop) sep p ∧ JustAfter s.live prop sep n ∧ (∃ r ∈ rs, sep.value s.input = .str r) ∧
      p.value s.input = .int a ∧ n.value s.input = .int b ∧ 0 ≤ a ∧
      sepStep rs prop s sep = some ([n, sep], (between a b).map (fun k => { n with val := some (.int k) }) ++ [n])) ∨
    ((¬ ∃ p n, JustBefore s.live (· = prop) sep p ∧ JustAfter s.live prop sep n ∧ (∃ r ∈ rs, sep.value s.input = .str r)) ∧
      sepStep rs prop s sep = some ([sep], [])) := by
  have hp := fun p => previous_iff h.nonempty (fun m => decide (m.name = some prop)) (· = prop) (by intro m; simp) sep p
  have hn := fun n => next_iff (input := s.input) h.nonempty prop sep n
  unfold sepStep
  cases h1 : firstTrue (previous s.live sep fun m => decide (m.name = some prop)) with
  | none =>
    right
    refine ⟨?_, rfl⟩
    rintro ⟨p, n, hjb, _⟩
    rw [← hp p, h1] at hjb; cases hjb
  | some p =>
    cases h2 : firstTrue (nextOf s.input s.live sep fun m => decide (m.name = some prop)) with
    | none =>
      right
      refine ⟨?_, rfl⟩
      rintro ⟨p, n, _, hja, _⟩
      rw [← hn n, h2] at hja; cases hja
    | some n =>
      have hjb := (hp p).1 h1
      have hja := (hn n).1 h2
      dsimp only
      by_cases hr : isRangeSep s.input rs sep = true
      · left
        obtain ⟨hpm, ⟨nm, hpn, rfl⟩, _⟩ := (firstOf_mem hjb)
        obtain ⟨hnm, hnn, _⟩ := (firstOf_mem hja)
        obtain ⟨a, ha, ha0⟩ := h.ints p hpm hpn
        obtain ⟨b, hb, _⟩ := h.ints n hnm hnn
        refine ⟨p, n, a, b, hjb, hja, isRangeSep_iff.1 hr, ha, hb, ha0, ?_⟩
        rw [if_pos hr, copiesBetween_eq ha hb]; rfl
      · right
        refine ⟨?_, by rw [if_neg hr]⟩
        rintro ⟨_, _, _, _, hh⟩
        exact hr (isRangeSep_iff.2 hh)

/-- What one successive pair contributes. -/
theorem pairStep_spec {rs : List Str} {prop : Str} {s : Ms} {p n : Mt} {a b : Int} (ha : p.value s.input = .int a)
    (hb : n.value s.input = .int b) :
    pairStep rs prop s.input p n = some ([n], if textJoins rs s.input p n then
      (between a b).map (fun k => { n with val := some (.int k) }) ++
        [{ id := 0, start := p.stop, stop := n.start - 1, name := some (sepName prop), priv := true }, n] else [n]) := by
  unfold pairStep
  split
  · rw [copiesBetween_eq ha hb]; rfl
  · rfl

/-- The lists of the rule. -/
structure RangeRun (rs : List Str) (prop : Str) (canStart : Mt → Bool) (s s' : Ms) (r1 a1 r2 a2 : List Mt) : Prop where
  result : s' = { s with live := appendAll s.input (removeAll s.input s.live (r1 ++ r2)) (a1 ++ a2) }
  r1 : r1 = (named s.live (sepName prop)).flatMap fun x => (sepStep rs prop s x).elim [] Prod.fst
  a1 : a1 = (named s.live (sepName prop)).flatMap fun x => (sepStep rs prop s x).elim [] Prod.snd
  r2 : r2 = (((byStart (named s.live prop)).dropWhile fun m => !canStart m).zip
    ((byStart (named s.live prop)).dropWhile fun m => !canStart m).tail).flatMap
      fun q => (pairStep rs prop s.input q.1 q.2).elim [] Prod.fst
  a2 : a2 = (((byStart (named s.live prop)).dropWhile fun m => !canStart m).zip
    ((byStart (named s.live prop)).dropWhile fun m => !canStart m).tail).flatMap
      fun q => (pairStep rs prop s.input q.1 q.2).elim [] Prod.snd

theorem rangeRun {rs : List Str} {prop : Str} {canStart : Mt → Bool} {s s' : Ms} (h : RangeInput prop s)
    (hr : separatorRange rs prop canStart s = some s') : ∃ r1 a1 r2 a2, RangeRun rs prop canStart s s' r1 a1 r2 a2 := by
  unfold separatorRange at hr
  rw [pairLoop_none _ _ _ _ _ (fun m hm => h.nonempty m (mem_byStart.1 hm).1)] at hr
  split at hr
  · rename_i a b ha hb
    obtain ⟨_, h1, h2⟩ := collect_some ha
    obtain ⟨_, h3, h4⟩ := collect_some hb
    simp only [Option.some.injEq] at hr
    exact ⟨a.1, a.2, b.1, b.2, hr.symm, h1, h2, h3, h4⟩
  · cases hr

theorem successive_mem {l : List Mt} {canStart : Mt → Bool} {p n : Mt} (h : Successive l canStart p n) : p ∈ l ∧ n ∈ l := by
  obtain ⟨pre, post, h1, _⟩ := h
  simp [h1]

/-- C32: the rule does not fail. -/
theorem C32_never_fails (rs : List Str) (prop : Str) (canStart : Mt → Bool) (s : Ms) (h : RangeInput prop s) :
    ∃ s', separatorRange rs prop canStart s = some s' := by
  unfold separatorRange
  rw [pairLoop_none _ _ _ _ _ (fun m hm => h.nonempty m (mem_byStart.1 hm).1)]
  obtain ⟨a, ha⟩ : ∃ r, collect (sepStep rs prop s) (named s.live (sepName prop)) = some r := by
    apply collect_total
    intro x _
    rcases sepStep_spec h x (rs := rs) with ⟨_, _, _, _, _, _, _, _, _, _, he⟩ | ⟨_, he⟩
    · exact ⟨_, he⟩
    · exact ⟨_, he⟩
  rw [ha]
  obtain ⟨b, hb⟩ : ∃ r, collect (fun q : Mt × Mt => pairStep rs prop s.input q.1 q.2)
      (((byStart (named s.live prop)).dropWhile fun m => !canStart m).zip
      ((byStart (named s.live prop)).dropWhile fun m => !canStart m).tail) = some r := by
    apply collect_total
    rintro ⟨p, n⟩ hq
    obtain ⟨hp, hn⟩ := successive_mem (successive_iff.2 hq)
    rw [mem_byStart] at hp hn
    obtain ⟨a, ha, _⟩ := h.ints p hp.1 hp.2
    obtain ⟨b, hb, _⟩ := h.ints n hn.1 hn.2
    exact ⟨_, pairStep_spec ha hb⟩
  rw [hb]
  exact ⟨_, rfl⟩

/-- Everything added: the ends of ranges, the numbers between, and private separators. -/
theorem added_cases {rs : List Str} {prop : Str} {canStart : Mt → Bool} {s s' : Ms} {r1 a1 r2 a2 : List Mt}
    (h : RangeInput prop s) (hr : RangeRun rs prop canStart s s' r1 a1 r2 a2) {m : Mt} (hm : m ∈ a1 ++ a2) :
    (m ∈ s.live ∧ m.name = some prop) ∨ (m.name = some (sepName prop) ∧ m.priv = true) ∨
    ∃ p n a b k, Joined rs prop canStart s p n ∧ p.value s.input = .int a ∧ n.value s.input = .int b ∧ 0 ≤ a ∧ a < k ∧ k < b ∧
      m = { n with val := some (.int k) } := by
  rcases List.mem_append.1 hm with hm | hm
  · rw [hr.a1, List.mem_flatMap] at hm
    obtain ⟨sep, hsep, hm⟩ := hm
    rw [mem_named] at hsep
    rcases sepStep_spec h sep (rs := rs) with ⟨p, n, a, b, hjb, hja, hrs, ha, hb, ha0, he⟩ | ⟨_, he⟩
    · rw [he] at hm
      simp only [Option.elim_some, List.mem_append, List.mem_map, List.mem_singleton] at hm
      rcases hm with ⟨k, hk, rfl⟩ | rfl
      · rw [mem_between] at hk
        exact Or.inr (Or.inr ⟨p, n, a, b, k, Or.inl ⟨sep, hsep.1, hsep.2, hrs, hjb, hja⟩, ha, hb, ha0, hk.1, hk.2, rfl⟩)
      · exact Or.inl ⟨(firstOf_mem hja).1, (firstOf_mem hja).2.1⟩
    · rw [he] at hm; simp at hm
  · rw [hr.a2, List.mem_flatMap] at hm
    obtain ⟨⟨p, n⟩, hq, hm⟩ := hm
    have hs := successive_iff.2 hq
    obtain ⟨hp, hn⟩ := successive_mem hs
    rw [mem_byStart] at hp hn
    obtain ⟨a, ha, ha0⟩ := h.ints p hp.1 hp.2
    obtain ⟨b, hb, _⟩ := h.ints n hn.1 hn.2
    rw [pairStep_spec ha hb] at hm
    simp only [Option.elim_some] at hm
    split at hm
    · rename_i ht
      simp only [List.mem_append, List.mem_map, List.mem_cons, List.not_mem_nil, or_false] at hm
      rcases hm with ⟨k, hk, rfl⟩ | rfl | rfl
      · rw [mem_between] at hk
        exact Or.inr (Or.inr ⟨p, n, a, b, k, Or.inr ⟨hs, textJoins_iff.1 ht⟩, ha, hb, ha0, hk.1, hk.2, rfl⟩)
      · exact Or.inr (Or.inl ⟨rfl, rfl⟩)
      · exact Or.inl hn
    · simp only [List.mem_singleton] at hm
      subst hm; exact Or.inl hn

/-- C32: nothing is invented: a `prop` present afterwards was there before, or it stands for a number strictly between
the two ends of a range, at the position of the second end. -/
theorem C32_nothing_else (rs : List Str) (prop : Str) (canStart : Mt → Bool) (s s' : Ms) (h : RangeInput prop s)
    (hr : separatorRange rs prop canStart s = some s') (m : Mt) (hm : m ∈ s'.live) (hname : m.name = some prop) :
    m ∈ s.live ∨ ∃ p n a b k, Joined rs prop canStart s p n ∧ p.value s.input = .int a ∧ n.value s.input = .int b ∧
      a < k ∧ k < b ∧ m.value s.input = .int k ∧ m = { n with val := some (.int k) } := by
  obtain ⟨r1, a1, r2, a2, hrun⟩ := rangeRun h hr
  rw [hrun.result] at hm
  rcases mem_appendAll hm with hm | hm
  · exact Or.inl (removeAll_subset hm)
  · rcases added_cases h hrun hm with h1 | h1 | ⟨p, n, a, b, k, hj, ha, hb, ha0, h1, h2, he⟩
    · exact Or.inl h1.1
    · rw [hname] at h1
      exact absurd (Option.some.inj h1.1).symm (sepName_ne prop)
    · exact Or.inr ⟨p, n, a, b, k, hj, ha, hb, h1, h2, by rw [he]; exact value_copy _ _ (by omega), he⟩

/-- A number to add is in the lists of the rule. -/
theorem joined_added {rs : List Str} {prop : Str} {canStart : Mt → Bool} {s s' : Ms} {r1 a1 r2 a2 : List Mt}
    (h : RangeInput prop s) (hr : RangeRun rs prop canStart s s' r1 a1 r2 a2) {p n : Mt} {a b : Int}
    (hj : Joined rs prop canStart s p n) (ha : p.value s.input = .int a) (hb : n.value s.input = .int b) {k : Int}
    (h1 : a < k) (h2 : k < b) : ({ n with val := some (.int k) } : Mt) ∈ a1 ++ a2 := by
  rcases hj with ⟨sep, hsep, hname, hrs, hjb, hja⟩ | ⟨hs, ht⟩
  · rw [List.mem_append]
    left
    rw [hr.a1, List.mem_flatMap]
    refine ⟨sep, mem_named.2 ⟨hsep, hname⟩, ?_⟩
    have hp' := (previous_iff h.nonempty (fun m => decide (m.name = some prop)) (· = prop) (by intro m; simp) sep p).2 hjb
    have hn' := (next_iff (input := s.input) h.nonempty prop sep n).2 hja
    rcases sepStep_spec h sep (rs := rs) with ⟨p', n', a', b', hjb', hja', _, ha', hb', _, he⟩ | ⟨hno, _⟩
    · have e1 : p' = p := by
        have := (previous_iff h.nonempty (fun m => decide (m.name = some prop)) (· = prop) (by intro m; simp) sep p').2 hjb'
        rw [this] at hp'; exact Option.some.inj hp'
      have e2 : n' = n := by
        have := (next_iff (input := s.input) h.nonempty prop sep n').2 hja'
        rw [this] at hn'; exact Option.some.inj hn'
      subst e1; subst e2
      rw [ha] at ha'; rw [hb] at hb'
      cases ha'; cases hb'
      rw [he]
      simp only [Option.elim_some, List.mem_append, List.mem_map]
      exact Or.inl ⟨k, mem_between.2 ⟨h1, h2⟩, rfl⟩
    · exact absurd ⟨p, n, hjb, hja, hrs⟩ hno
  · rw [List.mem_append]
    right
    rw [hr.a2, List.mem_flatMap]
    refine ⟨(p, n), successive_iff.1 hs, ?_⟩
    rw [pairStep_spec ha hb, if_pos (textJoins_iff.2 ht)]
    simp only [Option.elim_some, List.mem_append, List.mem_map]
    exact Or.inl ⟨k, mem_between.2 ⟨h1, h2⟩, rfl⟩

/-- C32: every number strictly between the two ends of a range is there, as a `prop` at the position of the second end. -/
theorem C32_every_number (rs : List Str) (prop : Str) (canStart : Mt → Bool) (s s' : Ms) (h : RangeInput prop s)
    (hr : separatorRange rs prop canStart s = some s') (p n : Mt) (a b k : Int) (hj : Joined rs prop canStart s p n)
    (ha : p.value s.input = .int a) (hb : n.value s.input = .int b) (h1 : a < k) (h2 : k < b) :
    ∃ m ∈ s'.live, m.name = some prop ∧ m.value s.input = .int k ∧ m.start = n.start ∧ m.stop = n.stop := by
  obtain ⟨r1, a1, r2, a2, hrun⟩ := rangeRun h hr
  have hadd := joined_added h hrun hj ha hb h1 h2
  have hends : p ∈ s.live ∧ p.name = some prop ∧ n.name = some prop := by
    rcases hj with ⟨_, _, _, _, hjb, hja⟩ | ⟨hs, _⟩
    · obtain ⟨hpm, ⟨nm, hpn, rfl⟩, _⟩ := (firstOf_mem hjb)
      exact ⟨hpm, hpn, (firstOf_mem hja).2.1⟩
    · obtain ⟨hp, hn⟩ := successive_mem hs
      rw [mem_byStart] at hp hn
      exact ⟨hp.1, hp.2, hn.2⟩
  obtain ⟨v, hv, hv0⟩ := h.ints p hends.1 hends.2.1
  rw [ha] at hv; cases hv
  obtain ⟨x, hx, hk⟩ := appendAll_has s.input (a1 ++ a2) (removeAll s.input s.live (r1 ++ r2)) _ hadd
  refine ⟨x, by rw [hrun.result]; exact hx, ?_⟩
  simp only [Mt.key, MtKey.mk.injEq] at hk
  rw [value_copy _ _ (by omega)] at hk
  exact ⟨by rw [← hk.2.2.2.1]; exact hends.2.2, hk.2.2.1.symm, hk.1.symm, hk.2.1.symm⟩

/-- The matches removed that are not separators. -/
theorem removed_cases {rs : List Str} {prop : Str} {canStart : Mt → Bool} {s s' : Ms} {r1 a1 r2 a2 : List Mt}
    (h : RangeInput prop s) (hr : RangeRun rs prop canStart s s' r1 a1 r2 a2) {m : Mt} (hm : m ∈ r1 ++ r2) :
    (m ∈ s.live ∧ m.name = some (sepName prop)) ∨ (m ∈ a1 ++ a2 ∧ m ∈ s.live ∧ m.name = some prop) := by
  rcases List.mem_append.1 hm with hm | hm
  · rw [hr.r1, List.mem_flatMap] at hm
    obtain ⟨sep, hsep, hm⟩ := hm
    rcases sepStep_spec h sep (rs := rs) with ⟨p, n, a, b, hjb, hja, hrs, ha, hb, ha0, he⟩ | ⟨_, he⟩
    · rw [he] at hm
      simp only [Option.elim_some, List.mem_cons, List.not_mem_nil, or_false] at hm
      rcases hm with rfl | rfl
      · refine Or.inr ⟨?_, (firstOf_mem hja).1, (firstOf_mem hja).2.1⟩
        rw [List.mem_append]; left
        rw [hr.a1, List.mem_flatMap]
        exact ⟨sep, hsep, by rw [he]; simp⟩
      · exact Or.inl (mem_named.1 hsep)
    · rw [he] at hm
      simp only [Option.elim_some, List.mem_singleton] at hm
      subst hm; exact Or.inl (mem_named.1 hsep)
  · rw [hr.r2, List.mem_flatMap] at hm
    obtain ⟨⟨p, n⟩, hq, hm⟩ := hm
    obtain ⟨hp, hn⟩ := successive_mem (successive_iff.2 hq)
    rw [mem_byStart] at hp hn
    obtain ⟨a, ha, ha0⟩ := h.ints p hp.1 hp.2
    obtain ⟨b, hb, _⟩ := h.ints n hn.1 hn.2
    have he := pairStep_spec (rs := rs) (prop := prop) ha hb
    rw [he] at hm
    simp only [Option.elim_some, List.mem_singleton] at hm
    subst hm
    refine Or.inr ⟨?_, hn⟩
    rw [List.mem_append]; right
    rw [hr.a2, List.mem_flatMap]
    refine ⟨(p, m), hq, ?_⟩
    rw [he]
    simp only [Option.elim_some]
    split <;> simp

/-- C32: no number is lost: every `prop` present before is still there (an equal match). -/
theorem C32_ends_kept (rs : List Str) (prop : Str) (canStart : Mt → Bool) (s s' : Ms) (h : RangeInput prop s)
    (hr : separatorRange rs prop canStart s = some s') (m : Mt) (hm : m ∈ s.live) (hname : m.name = some prop) :
    ∃ x ∈ s'.live, x.key s.input = m.key s.input := by
  obtain ⟨r1, a1, r2, a2, hrun⟩ := rangeRun h hr
  rw [hrun.result]
  by_cases hex : ∃ y ∈ r1 ++ r2, y.key s.input = m.key s.input
  · obtain ⟨y, hy, hk⟩ := hex
    rcases removed_cases h hrun hy with hc | ⟨hc, _⟩
    · have := congrArg MtKey.name hk
      simp only [Mt.key] at this
      rw [hc.2, hname] at this
      exact absurd (Option.some.inj this) (sepName_ne prop)
    · obtain ⟨x, hx, hxk⟩ := appendAll_has s.input (a1 ++ a2) (removeAll s.input s.live (r1 ++ r2)) y hc
      exact ⟨x, hx, by rw [← hxk, hk]⟩
  · exact ⟨m, appendAll_keeps (removeAll_stays hm (fun y hy hk => hex ⟨y, hy, hk⟩)), rfl⟩

/-- C32: exactly once: no two equal matches afterwards if there were none before. -/
theorem C32_once (rs : List Str) (prop : Str) (canStart : Mt → Bool) (s s' : Ms) (h : RangeInput prop s)
    (hr : separatorRange rs prop canStart s = some s') (hnd : (s.live.map (Mt.key s.input)).Nodup) :
    (s'.live.map (Mt.key s.input)).Nodup := by
  obtain ⟨r1, a1, r2, a2, hrun⟩ := rangeRun h hr
  rw [hrun.result]
  exact appendAll_nodup _ _ _ (((removeAll_sublist s.input _ _).map _).nodup hnd)

/-- C32: only private separators remain, so that none is reported. -/
theorem C32_no_separator_reported (rs : List Str) (prop : Str) (canStart : Mt → Bool) (s s' : Ms) (h : RangeInput prop s)
    (hr : separatorRange rs prop canStart s = some s') (hnd : (s.live.map (Mt.key s.input)).Nodup) (m : Mt) (hm : m ∈ s'.live)
    (hname : m.name = some (prop ++ c!"Separator")) : m.priv = true := by
  obtain ⟨r1, a1, r2, a2, hrun⟩ := rangeRun h hr
  rw [hrun.result] at hm
  rcases mem_appendAll hm with hm | hm
  · rw [mem_removeAll_nodup hnd] at hm
    exfalso
    have hmem : m ∈ r1 ++ r2 := by
      rw [List.mem_append]; left
      rw [hrun.r1, List.mem_flatMap]
      refine ⟨m, mem_named.2 ⟨hm.1, hname⟩, ?_⟩
      rcases sepStep_spec h m (rs := rs) with ⟨p, n, a, b, hjb, hja, hrs, ha, hb, ha0, he⟩ | ⟨_, he⟩
      · rw [he]; simp
      · rw [he]; simp
    exact hm.2 m hmem rfl
  · rcases added_cases h hrun hm with h1 | h1 | ⟨p, n, a, b, k, hj, _, _, _, _, _, he⟩
    · rw [hname] at h1; exact absurd (Option.some.inj h1.2) (sepName_ne prop)
    · exact h1.2
    · exfalso
      have hn : n.name = some prop := by
        rcases hj with ⟨_, _, _, _, _, hja⟩ | ⟨hs, _⟩
        · exact (firstOf_mem hja).2.1
        · exact (mem_byStart.1 (successive_mem hs).2).2
      rw [he] at hname
      simp only at hname
      rw [hn] at hname
      exact sepName_ne prop (Option.some.inj hname).symm

/-! ### The order in which the numbers are reported -/

/-- The copies of `n` for the numbers between two values. -/
def copiesOf (n : Mt) (a b : Int) : List Mt := (between a b).map fun k => { n with val := some (.int k) }

theorem copies_nodup {s : Ms} {n : Mt} {a b : Int} (ha : 0 ≤ a) (hb : n.value s.input = .int b) :
    ((copiesOf n a b ++ [n]).map (Mt.key s.input)).Nodup := by
  have hval : ∀ m ∈ copiesOf n a b, ∃ k, a < k ∧ k < b ∧ m.value s.input = .int k := by
    intro m hm
    obtain ⟨k, hk, rfl⟩ := List.mem_map.1 hm
    rw [mem_between] at hk
    exact ⟨k, hk.1, hk.2, value_copy _ _ (by omega)⟩
  rw [List.map_append, List.nodup_append]
  refine ⟨?_, by simp, ?_⟩
  · unfold copiesOf
    rw [List.map_map, List.nodup_iff_pairwise_ne, List.pairwise_map]
    refine (List.Pairwise.imp_of_mem ?_ (between_nodup a b))
    intro i j hi hj hne he
    rw [mem_between] at hi hj
    have := congrArg MtKey.value he
    simp only [Function.comp_apply, Mt.key] at this
    rw [value_copy _ _ (by omega), value_copy _ _ (by omega)] at this
    exact hne (MVal.int.inj this)
  · intro x hx y hy hxy
    obtain ⟨m, hm, rfl⟩ := List.mem_map.1 hx
    simp only [List.map_cons, List.map_nil, List.mem_singleton] at hy
    obtain ⟨k, h1, h2, h3⟩ := hval m hm
    have := congrArg MtKey.value hxy
    rw [hy] at this
    simp only [Mt.key] at this
    rw [h3, hb] at this
    have := MVal.int.inj this
    omega

theorem copies_values {s : Ms} {n : Mt} {a b : Int} (ha : 0 ≤ a) (hb : n.value s.input = .int b) :
    (copiesOf n a b ++ [n]).map (Mt.value s.input) = (between a b ++ [b]).map MVal.int := by
  rw [List.map_append, List.map_append]
  congr 1
  · unfold copiesOf
    rw [List.map_map]
    apply List.map_congr_left
    intro k hk
    rw [mem_between] at hk
    exact value_copy _ _ (by omega)
  · simp [hb]

theorem removeAll_single {input : Str} {n : Mt} {ms : List Mt} (h : n ∈ ms) : removeAll input [n] ms = [] := by
  have h1 : countKey input (n.key input) [n] ≤ countKey input (n.key input) ms := by
    have : 0 < countKey input (n.key input) ms := countKey_pos.2 ⟨n, h, rfl⟩
    have h2 : countKey input (n.key input) [n] = 1 := by simp [countKey]
    omega
  cases hr : removeAll input [n] ms with
  | nil => rfl
  | cons y ys =>
    have hy : y ∈ removeAll input [n] ms := by rw [hr]; simp
    have hsub := removeAll_subset hy
    simp only [List.mem_singleton] at hsub
    exact absurd (by rw [hsub]) (removeAll_gone h1 y hy)

/-- The matches of `prop` are the chain `e0, es`: in the order of their starts, which are all different; `e0` may start a
range, and a range separator match only stands between successive elements. -/
structure Chain (rs : List Str) (prop : Str) (canStart : Mt → Bool) (s : Ms) (e0 : Mt) (es : List Mt) : Prop where
  list : byStart (named s.live prop) = e0 :: es
  distinct : (e0 :: es).Pairwise fun a b => a.start < b.start
  starts : canStart e0 = true
  seps : ∀ p n, RangeMatch s.input s.live rs prop p n → (p, n) ∈ (e0 :: es).zip es

section
variable {rs : List Str} {prop : Str} {canStart : Mt → Bool} {s s' : Ms} {e0 : Mt} {es : List Mt}

theorem Chain.mem (hc : Chain rs prop canStart s e0 es) {e : Mt} : e ∈ e0 :: es ↔ e ∈ s.live ∧ e.name = some prop := by
  rw [← hc.list, mem_byStart]

theorem Chain.dropped (hc : Chain rs prop canStart s e0 es) :
    (byStart (named s.live prop)).dropWhile (fun m => !canStart m) = e0 :: es := by
  rw [hc.list, List.dropWhile_cons_of_neg (by simp [hc.starts])]

/-- Selecting one position of one property: an `==`-invariant test. -/
def atPlace (prop : Str) (k : Nat) (m : Mt) : Bool := decide (m.name = some prop) && decide (m.start = k)

theorem atPlace_key (input : Str) (prop : Str) (k : Nat) (a b : Mt) (h : a.key input = b.key input) :
    atPlace prop k a = atPlace prop k b := by
  simp only [Mt.key, MtKey.mk.injEq] at h
  unfold atPlace
  rw [h.1, h.2.2.2.1]

theorem Chain.live_at (hc : Chain rs prop canStart s e0 es) {e : Mt} (he : e ∈ e0 :: es) :
    s.live.filter (atPlace prop e.start) = [e] := by
  have h1 : s.live.filter (atPlace prop e.start) = (named s.live prop).filter fun m => decide (m.start = e.start) := by
    unfold named
    rw [List.filter_filter]
    apply List.filter_congr
    intro m _
    unfold atPlace
    rw [Bool.and_comm]
  have h2 : ((named s.live prop).filter fun m => decide (m.start = e.start)).Perm [e] := by
    have := ((byStart_perm (named s.live prop)).symm.filter fun m => decide (m.start = e.start))
    rw [hc.list, filter_start hc.distinct he] at this
    exact this
  rw [h1]
  exact List.perm_singleton.1 h2

theorem zip_snd_mem {p n : Mt} (h : (p, n) ∈ (e0 :: es).zip es) : p ∈ e0 :: es ∧ n ∈ es :=
  ⟨(List.of_mem_zip h).1, (List.of_mem_zip h).2⟩

/-- The first loop restricted to one position. -/
theorem Chain.sep_at (h : RangeInput prop s) (hc : Chain rs prop canStart s e0 es) (k : Nat) {sep : Mt}
    (hsep : sep ∈ named s.live (sepName prop)) :
    (((sepStep rs prop s sep).elim [] Prod.snd).filter (atPlace prop k) = [] ∧
      ∀ m ∈ ((sepStep rs prop s sep).elim [] Prod.fst).filter (atPlace prop k), m ∈ es) ∨
    ∃ p n a b, (p, n) ∈ (e0 :: es).zip es ∧ k = n.start ∧ RangeMatch s.input s.live rs prop p n ∧
      p.value s.input = .int a ∧ n.value s.input = .int b ∧
      ((sepStep rs prop s sep).elim [] Prod.snd).filter (atPlace prop k) = copiesOf n a b ++ [n] ∧
      ∀ m ∈ ((sepStep rs prop s sep).elim [] Prod.fst).filter (atPlace prop k), m ∈ es := by
  rw [mem_named] at hsep
  have hsepno : atPlace prop k sep = false := by
    unfold atPlace
    rw [hsep.2]
    have : ¬ sepName prop = prop := sepName_ne prop
    simp [this]
  rcases sepStep_spec h sep (rs := rs) with ⟨p, n, a, b, hjb, hja, hrs, ha, hb, ha0, he⟩ | ⟨_, he⟩
  · have hrm : RangeMatch s.input s.live rs prop p n := ⟨sep, hsep.1, hsep.2, hrs, hjb, hja⟩
    have hz := hc.seps p n hrm
    have hn : n.name = some prop := (firstOf_mem hja).2.1
    rw [he]
    simp only [Option.elim_some]
    have hfst : ∀ m ∈ [n, sep].filter (atPlace prop k), m ∈ es := by
      intro m hm
      rw [List.mem_filter] at hm
      simp only [List.mem_cons, List.not_mem_nil, or_false] at hm
      rcases hm with ⟨rfl | rfl, hm⟩
      · exact (zip_snd_mem hz).2
      · rw [hsepno] at hm; cases hm
    by_cases hk : k = n.start
    · right
      refine ⟨p, n, a, b, hz, hk, hrm, ha, hb, ?_, hfst⟩
      rw [List.filter_eq_self.2]
      · rfl
      · intro m hm
        rcases List.mem_append.1 hm with hm | hm
        · obtain ⟨j, _, rfl⟩ := List.mem_map.1 hm
          simp [atPlace, hn, hk]
        · simp only [List.mem_singleton] at hm
          subst hm; simp [atPlace, hn, hk]
    · left
      refine ⟨?_, hfst⟩
      rw [List.filter_eq_nil_iff]
      intro m hm
      rcases List.mem_append.1 hm with hm | hm
      · obtain ⟨j, _, rfl⟩ := List.mem_map.1 hm
        simp [atPlace]; intro _ h; exact hk h.symm
      · simp only [List.mem_singleton] at hm
        subst hm; simp [atPlace]; intro _ h; exact hk h.symm
  · left
    rw [he]
    refine ⟨rfl, ?_⟩
    intro m hm
    simp only [Option.elim_some, List.mem_filter, List.mem_singleton] at hm
    rw [hm.1, hsepno] at hm
    exact absurd hm.2 (by simp)

/-- The second loop restricted to one position. -/
theorem Chain.pair_at (h : RangeInput prop s) (hc : Chain rs prop canStart s e0 es) (k : Nat) {p n : Mt}
    (hz : (p, n) ∈ (e0 :: es).zip es) {a b : Int} (ha : p.value s.input = .int a) (hb : n.value s.input = .int b) :
    ((pairStep rs prop s.input p n).elim [] Prod.fst) = [n] ∧
    ((pairStep rs prop s.input p n).elim [] Prod.snd).filter (atPlace prop k) =
      if k = n.start then (if textJoins rs s.input p n then copiesOf n a b else []) ++ [n] else [] := by
  rw [pairStep_spec ha hb]
  refine ⟨rfl, ?_⟩
  have hn : n.name = some prop := (hc.mem.1 (by simp [(zip_snd_mem hz).2])).2
  simp only [Option.elim_some]
  have hat : ∀ j, atPlace prop k { n with val := j } = decide (k = n.start) := by
    intro j
    simp only [atPlace, hn]
    simp [eq_comm]
  have hatn : atPlace prop k n = decide (k = n.start) := by simp only [atPlace, hn]; simp [eq_comm]
  have hcop : (copiesOf n a b).filter (atPlace prop k) = if k = n.start then copiesOf n a b else [] := by
    split
    · rename_i hk
      rw [List.filter_eq_self]
      intro m hm
      obtain ⟨j, _, rfl⟩ := List.mem_map.1 hm
      rw [hat]; simp [hk]
    · rename_i hk
      rw [List.filter_eq_nil_iff]
      intro m hm
      obtain ⟨j, _, rfl⟩ := List.mem_map.1 hm
      rw [hat]; simp [hk]
  have hsepno : ∀ m : Mt, m.name = some (sepName prop) → atPlace prop k m = false := by
    intro m hm
    unfold atPlace
    rw [hm]
    have : ¬ sepName prop = prop := sepName_ne prop
    simp [this]
  by_cases ht : textJoins rs s.input p n = true
  · rw [if_pos ht, if_pos ht, List.filter_append]
    show (copiesOf n a b).filter (atPlace prop k) ++ _ = _
    rw [hcop, List.filter_cons_of_neg (by rw [hsepno _ rfl]; simp)]
    by_cases hk : k = n.start
    · simp [hk] at hatn; simp [hk, hatn]
    · simp [hk] at hatn; simp [hk, hatn]
  · rw [if_neg ht, if_neg ht]
    by_cases hk : k = n.start
    · simp [hk] at hatn; simp [hk, hatn]
    · simp [hk] at hatn; simp [hk, hatn]

open Classical in
/-- What stands at the position of one element of the chain after the rule. -/
theorem Chain.block (h : RangeInput prop s) (hr : separatorRange rs prop canStart s = some s')
    (hc : Chain rs prop canStart s e0 es) :
    s'.live.filter (atPlace prop e0.start) = [e0] ∧
    ∀ p n, (p, n) ∈ (e0 :: es).zip es → ∀ a b, p.value s.input = .int a → n.value s.input = .int b →
      s'.live.filter (atPlace prop n.start) = (if Joined rs prop canStart s p n then copiesOf n a b else []) ++ [n] := by
  obtain ⟨r1, a1, r2, a2, hrun⟩ := rangeRun h hr
  have hdrop := hc.dropped
  have hr2 := hrun.r2
  have ha2 := hrun.a2
  rw [hdrop] at hr2 ha2
  simp only [List.tail_cons] at hr2 ha2
  have hints : ∀ {p n}, (p, n) ∈ (e0 :: es).zip es → ∃ a b, p.value s.input = .int a ∧ n.value s.input = .int b ∧ 0 ≤ a := by
    intro p n hz
    obtain ⟨hp, hn⟩ := zip_snd_mem hz
    obtain ⟨a, ha, ha0⟩ := h.ints p (hc.mem.1 hp).1 (hc.mem.1 hp).2
    have hn' : n ∈ e0 :: es := by simp [hn]
    obtain ⟨b, hb, _⟩ := h.ints n (hc.mem.1 hn').1 (hc.mem.1 hn').2
    exact ⟨a, b, ha, hb, ha0⟩
  have hd := List.pairwise_cons.1 hc.distinct
  have hsplit : ∀ k, s'.live.filter (atPlace prop k) =
      appendAll s.input (appendAll s.input (removeAll s.input (s.live.filter (atPlace prop k)) ((r1 ++ r2).filter (atPlace prop k)))
        ((named s.live (sepName prop)).flatMap fun x => ((sepStep rs prop s x).elim [] Prod.snd).filter (atPlace prop k)))
        (((e0 :: es).zip es).flatMap fun q => ((pairStep rs prop s.input q.1 q.2).elim [] Prod.snd).filter (atPlace prop k)) := by
    intro k
    rw [hrun.result]
    show (appendAll _ _ _).filter _ = _
    rw [filter_appendAll _ _ (atPlace_key s.input prop k), filter_removeAll _ _ (atPlace_key s.input prop k),
      List.filter_append (l₁ := a1),
      appendAll_append, hrun.a1, ha2, filter_flatMap, filter_flatMap]
  have hrem : ∀ k, ∀ m ∈ (r1 ++ r2).filter (atPlace prop k), m ∈ es := by
    intro k m hm
    rw [List.mem_filter, List.mem_append] at hm
    obtain ⟨hm | hm, hp⟩ := hm
    · rw [hrun.r1, List.mem_flatMap] at hm
      obtain ⟨sep, hsep, hm⟩ := hm
      rcases hc.sep_at h k hsep with ⟨_, hh⟩ | ⟨_, _, _, _, _, _, _, _, _, _, hh⟩
      · exact hh m (List.mem_filter.2 ⟨hm, hp⟩)
      · exact hh m (List.mem_filter.2 ⟨hm, hp⟩)
    · rw [hr2, List.mem_flatMap] at hm
      obtain ⟨⟨p, n⟩, hz, hm⟩ := hm
      obtain ⟨a, b, ha, hb, _⟩ := hints hz
      rw [(hc.pair_at h k hz ha hb).1] at hm
      simp only [List.mem_singleton] at hm
      subst hm; exact (zip_snd_mem hz).2
  constructor
  · rw [hsplit, hc.live_at (by simp)]
    have e1 : (r1 ++ r2).filter (atPlace prop e0.start) = [] := by
      rw [List.eq_nil_iff_forall_not_mem]
      intro m hm
      have := hd.1 m (hrem _ m hm)
      rw [List.mem_filter] at hm
      simp only [atPlace, Bool.and_eq_true, decide_eq_true_eq] at hm
      omega
    have e2 : ((named s.live (sepName prop)).flatMap fun x =>
        ((sepStep rs prop s x).elim [] Prod.snd).filter (atPlace prop e0.start)) = [] := by
      rw [List.flatMap_eq_nil_iff]
      intro sep hsep
      rcases hc.sep_at h e0.start hsep with ⟨hh, _⟩ | ⟨p, n, _, _, hz, hk, _⟩
      · exact hh
      · have := hd.1 n (zip_snd_mem hz).2; omega
    have e3 : (((e0 :: es).zip es).flatMap fun q =>
        ((pairStep rs prop s.input q.1 q.2).elim [] Prod.snd).filter (atPlace prop e0.start)) = [] := by
      rw [List.flatMap_eq_nil_iff]
      rintro ⟨p, n⟩ hz
      obtain ⟨a, b, ha, hb, _⟩ := hints hz
      have := hd.1 n (zip_snd_mem hz).2
      rw [(hc.pair_at h e0.start hz ha hb).2, if_neg (by omega)]
    rw [e1, e2, e3]
    rfl
  · intro p n hz a b ha hb
    have hn : n ∈ e0 :: es := by simp [(zip_snd_mem hz).2]
    have ha0 : 0 ≤ a := by
      obtain ⟨_, _, h1, _, h3⟩ := hints hz
      rw [ha] at h1; cases h1; exact h3
    have hC := copies_nodup (s := s) ha0 hb
    rw [hsplit, hc.live_at hn]
    have e1 : removeAll s.input [n] ((r1 ++ r2).filter (atPlace prop n.start)) = [] := by
      apply removeAll_single
      rw [List.mem_filter, List.mem_append]
      refine ⟨Or.inr ?_, ?_⟩
      · rw [hr2, List.mem_flatMap]
        exact ⟨(p, n), hz, by rw [(hc.pair_at h n.start hz ha hb).1]; simp⟩
      · simp [atPlace, (hc.mem.1 hn).2]
    rw [e1]
    -- the element at this position has one predecessor
    have huniq : ∀ {p' n'}, (p', n') ∈ (e0 :: es).zip es → n.start = n'.start → n' = n ∧ p' = p := by
      intro p' n' hz' hk
      have hn' : n' ∈ e0 :: es := by simp [(zip_snd_mem hz').2]
      have e := start_inj hc.distinct hn hn' hk
      subst e
      exact ⟨rfl, (pred_unique hc.distinct (by simpa using hz) (by simpa using hz')).symm⟩
    have hsepc : ∀ x ∈ named s.live (sepName prop),
        ((sepStep rs prop s x).elim [] Prod.snd).filter (atPlace prop n.start) = [] ∨
        ((sepStep rs prop s x).elim [] Prod.snd).filter (atPlace prop n.start) = copiesOf n a b ++ [n] := by
      intro x hx
      rcases hc.sep_at h n.start hx with ⟨hh, _⟩ | ⟨p', n', a', b', hz', hk, _, ha', hb', hh, _⟩
      · exact Or.inl hh
      · obtain ⟨rfl, rfl⟩ := huniq hz' hk
        rw [ha] at ha'; rw [hb] at hb'
        cases ha'; cases hb'
        exact Or.inr hh
    have hpairc : ∀ q ∈ (e0 :: es).zip es,
        ((pairStep rs prop s.input q.1 q.2).elim [] Prod.snd).filter (atPlace prop n.start) = [] ∨
        ((pairStep rs prop s.input q.1 q.2).elim [] Prod.snd).filter (atPlace prop n.start) =
          (if textJoins rs s.input p n then copiesOf n a b else []) ++ [n] := by
      rintro ⟨p', n'⟩ hz'
      obtain ⟨a', b', ha', hb', _⟩ := hints hz'
      rw [(hc.pair_at h n.start hz' ha' hb').2]
      split
      · rename_i hk
        obtain ⟨rfl, rfl⟩ := huniq hz' hk
        rw [ha] at ha'; rw [hb] at hb'
        cases ha'; cases hb'
        exact Or.inr rfl
      · exact Or.inl rfl
    have hD : (((if textJoins rs s.input p n then copiesOf n a b else []) ++ [n]).map (Mt.key s.input)).Nodup := by
      split
      · exact hC
      · simp
    have hexp : ∃ q ∈ (e0 :: es).zip es,
        ((pairStep rs prop s.input q.1 q.2).elim [] Prod.snd).filter (atPlace prop n.start) =
          (if textJoins rs s.input p n then copiesOf n a b else []) ++ [n] :=
      ⟨(p, n), hz, by rw [(hc.pair_at h n.start hz ha hb).2, if_pos rfl]⟩
    obtain ⟨s1, s2, s3⟩ := appendAll_chunks s.input _ _ hC _ hsepc
    obtain ⟨t1, t2, t3⟩ := appendAll_chunks s.input _ _ hD _ hpairc
    have hrmiff : (∃ x ∈ named s.live (sepName prop),
        ((sepStep rs prop s x).elim [] Prod.snd).filter (atPlace prop n.start) = copiesOf n a b ++ [n]) ↔
        RangeMatch s.input s.live rs prop p n := by
      constructor
      · rintro ⟨x, hx, hxe⟩
        rcases hc.sep_at h n.start hx with ⟨hh, _⟩ | ⟨p', n', a', b', hz', hk, hrm, _⟩
        · rw [hh] at hxe; simp at hxe
        · obtain ⟨rfl, rfl⟩ := huniq hz' hk
          exact hrm
      · rintro ⟨sep, hsep, hname, hrs, hjb, hja⟩
        refine ⟨sep, mem_named.2 ⟨hsep, hname⟩, ?_⟩
        rcases hsepc sep (mem_named.2 ⟨hsep, hname⟩) with hh | hh
        · exfalso
          have hin : n ∈ ((sepStep rs prop s sep).elim [] Prod.snd).filter (atPlace prop n.start) := by
            rcases sepStep_spec h sep (rs := rs) with ⟨p', n', a', b', hjb', hja', _, _, _, _, he⟩ | ⟨hno, _⟩
            · have e2 : n' = n := by
                have h1 := (next_iff (input := s.input) h.nonempty prop sep n').2 hja'
                have h2 := (next_iff (input := s.input) h.nonempty prop sep n).2 hja
                rw [h1] at h2; exact Option.some.inj h2
              subst e2
              rw [he, List.mem_filter]
              exact ⟨by simp, by simp [atPlace, (hc.mem.1 hn).2]⟩
            · exact absurd ⟨p, n, hjb, hja, hrs⟩ hno
          rw [hh] at hin; simp at hin
        · exact hh
    have hsucc : Successive (byStart (named s.live prop)) canStart p n := by
      rw [successive_iff, hdrop]; simpa using hz
    by_cases hrm : RangeMatch s.input s.live rs prop p n
    · have hj : Joined rs prop canStart s p n := Or.inl hrm
      rw [s2 (hrmiff.2 hrm), if_pos hj]
      apply t1
      intro m hm
      refine ⟨m, ?_, rfl⟩
      rcases List.mem_append.1 hm with hm | hm
      · split at hm
        · simp [hm]
        · simp at hm
      · simp [List.mem_singleton.1 hm]
    · rw [s3 (fun hh => hrm (hrmiff.1 hh)), t2 hexp]
      congr 1
      by_cases ht : textJoins rs s.input p n = true
      · have hj : Joined rs prop canStart s p n := Or.inr ⟨hsucc, textJoins_iff.1 ht⟩
        rw [if_pos ht, if_pos hj]
      · have hj : ¬ Joined rs prop canStart s p n := by
          rintro (h1 | ⟨_, h2⟩)
          · exact hrm h1
          · exact ht (textJoins_iff.2 h2)
        rw [if_neg ht, if_neg hj]

open Classical in
/-- C32: in the order of their positions — the order in which they are reported — the values are those of the chain, with
all the numbers in between, in increasing order, wherever two successive ones are the ends of a range. -/
theorem C32_reported_in_order (rs : List Str) (prop : Str) (canStart : Mt → Bool) (s s' : Ms) (h : RangeInput prop s)
    (hr : separatorRange rs prop canStart s = some s') (e0 : Mt) (es : List Mt) (hc : Chain rs prop canStart s e0 es)
    (v : Mt → Int) (hv : ∀ e ∈ e0 :: es, e.value s.input = .int (v e)) :
    ((sortBy Mt.lt s'.live).filter fun m => decide (m.name = some prop)).map (Mt.value s.input) =
      (v e0 :: ((e0 :: es).zip es).flatMap fun q =>
        (if Joined rs prop canStart s q.1 q.2 then between (v q.1) (v q.2) else []) ++ [v q.2]).map MVal.int := by
  obtain ⟨hb0, hb⟩ := hc.block h hr
  rw [filter_sortBy Mt.lt_strictWeak]
  have hplace : ∀ x ∈ s'.live.filter (fun m => decide (m.name = some prop)), ∃ e ∈ e0 :: es, x.start = e.start ∧ x.stop = e.stop := by
    intro x hx
    rw [List.mem_filter] at hx
    have hname : x.name = some prop := by simpa using hx.2
    rcases C32_nothing_else rs prop canStart s s' h hr x hx.1 hname with hl | ⟨p, n, a, b, k, hj, _, _, _, _, _, he⟩
    · exact ⟨x, hc.mem.2 ⟨hl, hname⟩, rfl, rfl⟩
    · have hn : n ∈ e0 :: es := by
        rcases hj with hj | ⟨hs, _⟩
        · simp [(zip_snd_mem (hc.seps p n hj)).2]
        · rw [← hc.list]; exact (successive_mem hs).2
      exact ⟨n, hn, by rw [he], by rw [he]⟩
  rw [sortBy_blocks Mt.lt Mt.start ((e0 :: es).map Mt.start)]
  · have hblk : ∀ k, (s'.live.filter fun m => decide (m.name = some prop)).filter (fun x => decide (x.start = k)) =
        s'.live.filter (atPlace prop k) := by
      intro k
      rw [List.filter_filter]
      apply List.filter_congr
      intro m _
      unfold atPlace
      rw [Bool.and_comm]
    simp only [hblk]
    rw [List.map_cons, List.flatMap_cons, hb0, List.map_append, List.map_cons, List.map_cons, List.map_nil, hv e0 (by simp)]
    simp only [List.cons_append, List.nil_append, List.cons.injEq, true_and]
    have hes : (es.map Mt.start).flatMap (fun k => s'.live.filter (atPlace prop k)) =
        ((e0 :: es).zip es).flatMap fun q => s'.live.filter (atPlace prop q.2.start) := by
      have : es = ((e0 :: es).zip es).map Prod.snd := by
        rw [List.map_snd_zip]; simp
      conv => lhs; rw [this]
      rw [List.map_map, List.flatMap_map]
      rfl
    rw [hes, List.map_flatMap, List.map_flatMap]
    apply flatMap_congr_mem
    rintro ⟨p, n⟩ hz
    obtain ⟨hp, hn⟩ := zip_snd_mem hz
    have hvp := hv p hp
    have hvn := hv n (by simp [hn])
    have ha0 : 0 ≤ v p := by
      obtain ⟨w, hw, hw0⟩ := h.ints p (hc.mem.1 hp).1 (hc.mem.1 hp).2
      rw [hvp] at hw; cases hw; exact hw0
    dsimp only
    rw [hb p n hz (v p) (v n) hvp hvn]
    by_cases hj : Joined rs prop canStart s p n
    · rw [if_pos hj, if_pos hj]; exact copies_values ha0 hvn
    · rw [if_neg hj, if_neg hj]; simp [hvn]
  · rw [List.pairwise_map]; exact hc.distinct
  · intro x hx
    obtain ⟨e, he, h1, _⟩ := hplace x hx
    rw [List.mem_map]; exact ⟨e, he, h1.symm⟩
  · intro x hx y hy
    obtain ⟨e, he, h1, h2⟩ := hplace x hx
    obtain ⟨f, hf, h3, h4⟩ := hplace y hy
    rw [Bool.eq_iff_iff]
    simp only [Mt.lt, Bool.or_eq_true, Bool.and_eq_true, decide_eq_true_eq]
    constructor
    · rintro (h | ⟨h, h'⟩)
      · exact h
      · have : e = f := start_inj hc.distinct he hf (by omega)
        subst this; omega
    · intro h; exact Or.inl h

theorem between_append {a b c : Int} (h1 : a < b) (h2 : b < c) : between a b ++ b :: between b c = between a c := by
  unfold between
  have e : (c - (a + 1)).toNat = (b - (a + 1)).toNat + ((c - (b + 1)).toNat + 1) := by omega
  rw [e, List.range_add, List.map_append]
  congr 1
  rw [List.range_succ_eq_map, List.map_cons, List.map_cons, List.map_map, List.map_map]
  congr 1
  · simp only [Nat.add_zero]; omega
  · apply List.map_congr_left
    intro i _
    simp only [Function.comp_apply, Nat.succ_eq_add_one]
    omega

/-- C32: when every two successive numbers of the chain are the ends of a range and the numbers increase, the values
reported are all the numbers from the first to the last, each once, in increasing order — for any length of the chain. -/
theorem C32_whole_range (rs : List Str) (prop : Str) (canStart : Mt → Bool) (s s' : Ms) (h : RangeInput prop s)
    (hr : separatorRange rs prop canStart s = some s') (e0 last : Mt) (es : List Mt)
    (hc : Chain rs prop canStart s e0 (es ++ [last])) (v : Mt → Int) (hv : ∀ e ∈ e0 :: (es ++ [last]), e.value s.input = .int (v e))
    (hj : ∀ q ∈ (e0 :: (es ++ [last])).zip (es ++ [last]), Joined rs prop canStart s q.1 q.2 ∧ v q.1 < v q.2) :
    ((sortBy Mt.lt s'.live).filter fun m => decide (m.name = some prop)).map (Mt.value s.input) =
      (v e0 :: (between (v e0) (v last) ++ [v last])).map MVal.int := by
  classical
  rw [C32_reported_in_order rs prop canStart s s' h hr e0 _ hc v hv]
  have key : ∀ (es : List Mt) (e0 : Mt), (∀ q ∈ (e0 :: (es ++ [last])).zip (es ++ [last]), v q.1 < v q.2) →
      v e0 < v last ∧ ((e0 :: (es ++ [last])).zip (es ++ [last])).flatMap (fun q => between (v q.1) (v q.2) ++ [v q.2]) =
        between (v e0) (v last) ++ [v last] := by
    intro es
    induction es with
    | nil =>
      intro e0 hq
      exact ⟨hq (e0, last) (by simp), by simp⟩
    | cons e es ih =>
      intro e0 hq
      simp only [List.cons_append, List.zip_cons_cons, List.flatMap_cons] at hq ⊢
      have h1 := hq (e0, e) (by simp)
      obtain ⟨h2, h3⟩ := ih e (fun q hq' => hq q (by simp [hq']))
      simp only at h1
      refine ⟨by omega, ?_⟩
      rw [h3, ← between_append h1 h2]
      simp
  have hk := key es e0 (fun q hq => (hj q hq).2)
  rw [← hk.2]
  congr 2
  apply flatMap_congr_mem
  intro q hq
  rw [if_pos (hj q hq).1]

end

/-! ### A concrete chain: `E02-05-07`, read as three episodes and two separators -/

def exEp (a b : Nat) (v : Int) : Mt := { id := 0, start := a, stop := b, name := some c!"episode", val := some (.int v), istart := 0, istop := 9 }
def exSep (a b : Nat) : Mt := { id := 0, start := a, stop := b, name := some c!"episodeSeparator", priv := true, istart := 0, istop := 9 }
def exChain : Ms := { input := c!"E02-05-07", live := [exEp 1 3 2, exSep 3 4, exEp 4 6 5, exSep 6 7, exEp 7 9 7], markers := [] }

example : RangeInput c!"episode" exChain where
  nonempty := by decide
  ints := by
    intro m hm hn
    simp only [exChain, List.mem_cons, List.not_mem_nil, or_false] at hm
    rcases hm with rfl | rfl | rfl | rfl | rfl
    · exact ⟨2, by decide, by decide⟩
    · simp [exSep] at hn
    · exact ⟨5, by decide, by decide⟩
    · simp [exSep] at hn
    · exact ⟨7, by decide, by decide⟩

example : (episodeRange [c!"-"] exChain).map (fun s' =>
    ((sortBy Mt.lt s'.live).filter fun m => decide (m.name = some c!"episode")).map (Mt.value s'.input)) =
    some [.int 2, .int 3, .int 4, .int 5, .int 6, .int 7] := by decide +kernel

example : RangeMatch exChain.input exChain.live [c!"-"] c!"episode" (exEp 1 3 2) (exEp 4 6 5) := by
  refine ⟨exSep 3 4, by simp [exChain], by decide, ⟨c!"-", by decide, by decide⟩, ?_, ?_⟩
  · exact (previous_iff (l := exChain.live) (by decide) (fun m => decide (m.name = some c!"episode")) (· = c!"episode") (by intro m; simp) _ _).1
      rfl
  · exact (next_iff (input := exChain.input) (by decide) c!"episode" _ _).1 rfl

-- the chain of the example meets the hypotheses of the theorems on order
example : Chain [c!"-"] c!"episode" (fun m => !m.tags.contains c!"weak-episode") exChain (exEp 1 3 2) [exEp 4 6 5, exEp 7 9 7] where
  list := rfl
  distinct := by simp [exEp]
  starts := rfl
  seps := by
    rintro p n ⟨sep, hsep, hname, _, hjb, hja⟩
    have hp := (previous_iff (l := exChain.live) (by decide) (fun m => decide (m.name = some c!"episode")) (· = c!"episode")
      (by intro m; simp) sep p).2 hjb
    have hn := (next_iff (input := exChain.input) (l := exChain.live) (by decide) c!"episode" sep n).2 hja
    simp only [exChain, List.mem_cons, List.not_mem_nil, or_false] at hsep
    rcases hsep with rfl | rfl | rfl | rfl | rfl
    · simp [exEp] at hname
    · cases (show some (exEp 1 3 2) = some p from hp)
      cases (show some (exEp 4 6 5) = some n from hn)
      simp
    · simp [exEp] at hname
    · cases (show some (exEp 4 6 5) = some p from hp)
      cases (show some (exEp 7 9 7) = some n from hn)
      simp
    · simp [exEp] at hname

/-! ## C57: `Cap.102_104` -/

/-- The matches a `Cap` pattern can join: those of the given name found by such a pattern. -/
def SeeName (name : Str) (m : Mt) : Prop := m.name = some name ∧ c!"see-pattern" ∈ m.tags

/-- `sep` separates two numbers of a `Cap` pattern: `p` is the episode before it, `n` the episode after the season after
it. -/
structure SeeRange (rs : List Str) (s : Ms) (sep p season n : Mt) : Prop where
  isSep : sep ∈ s.live ∧ SeeName c!"episodeSeparator" sep
  range : ∃ r ∈ rs, sep.value s.input = .str r
  before : FirstOf s.live (fun p => SeeName c!"episode" p ∧ p.stop ≤ sep.start ∧ ∀ y ∈ s.live, y.stop ≤ sep.start → y.stop ≤ p.stop) p
  nextSeason : FirstOf s.live (fun m => SeeName c!"season" m ∧ sep.start < m.start ∧ ∀ y ∈ s.live, sep.start < y.start → m.start ≤ y.start) season
  after : FirstOf s.live (fun n => SeeName c!"episode" n ∧ season.start < n.start ∧ ∀ y ∈ s.live, season.start < y.start → n.start ≤ y.start) n

theorem previous_gen {l : List Mt} (hwf : ∀ m ∈ l, m.start < m.stop) (q : Mt → Bool) (x p : Mt) :
    firstTrue (previous l x q) = some p ↔
      FirstOf l (fun p => q p = true ∧ p.stop ≤ x.start ∧ ∀ y ∈ l, y.stop ≤ x.start → y.stop ≤ p.stop) p := by
  have hsub : ∀ m ∈ previous l x q, m.start < m.stop := by
    intro m hm
    rw [previous, previousFrom_eq] at hm
    exact hwf m (by simp at hm; exact hm.1)
  rw [firstTrue_eq hsub, previous, previousFrom_eq, List.filter_filter, head_filter_iff]
  refine firstOf_congr ?_ p
  intro y hy
  simp only [Bool.and_eq_true, decide_eq_true_eq]

theorem next_gen {input : Str} {l : List Mt} (hwf : ∀ m ∈ l, m.start < m.stop) (q : Mt → Bool) (x n : Mt) :
    firstTrue (nextOf input l x q) = some n ↔
      FirstOf l (fun n => q n = true ∧ x.start < n.start ∧ ∀ y ∈ l, x.start < y.start → n.start ≤ y.start) n := by
  have hsub : ∀ m ∈ nextOf input l x q, m.start < m.stop := by
    intro m hm
    rw [nextOf, nextFrom_eq] at hm
    exact hwf m (by simp at hm; exact hm.1)
  rw [firstTrue_eq hsub, nextOf, nextFrom_eq, List.filter_filter, head_filter_iff]
  refine firstOf_congr ?_ n
  intro y hy
  simp only [Bool.and_eq_true, decide_eq_true_eq]
  constructor
  · rintro ⟨h1, ⟨h2, _⟩, h3⟩
    exact ⟨h1, by omega, fun z hz h => h3 z hz (by omega)⟩
  · rintro ⟨h1, h2, h3⟩
    refine ⟨h1, ⟨by omega, ?_⟩, fun z hz h => h3 z hz (by omega)⟩
    have := (maxEnd_ge input l).2 y hy
    have := hwf y hy
    omega

theorem see_bool (name : Str) (m : Mt) : (decide (m.name = some name) && m.tags.contains c!"see-pattern") = true ↔ SeeName name m := by
  simp [SeeName]

/-- What one separator of a `Cap` pattern contributes. -/
theorem seeStep_spec {rs : List Str} {s : Ms} (h : RangeInput c!"episode" s) {sep : Mt}
    (hsep : sep ∈ s.live ∧ SeeName c!"episodeSeparator" sep) :
    (∃ p season n a b, SeeRange rs s sep p season n ∧ p.value s.input = .int a ∧ n.value s.input = .int b ∧ 0 ≤ a ∧
      seeStep rs s sep = some ([n, sep], copiesFor n (a + 1) (b + 1))) ∨
    ((¬ ∃ p season n, SeeRange rs s sep p season n) ∧ ∃ r, seeStep rs s sep = some (r, []) ∧ ∀ m ∈ r, m = sep) := by
  have hp := fun q x p => previous_gen h.nonempty (l := s.live) q x p
  have hn := fun q x n => next_gen (input := s.input) h.nonempty (l := s.live) q x n
  unfold seeStep
  dsimp only
  cases h1 : firstTrue (nextOf s.input s.live sep fun m => decide (m.name = some c!"season") && m.tags.contains c!"see-pattern") with
  | none =>
    right
    refine ⟨?_, [], rfl, by simp⟩
    rintro ⟨p, season, n, hs⟩
    have := (hn _ sep season).2 ((firstOf_congr (fun y _ => by rw [see_bool]) season).2 hs.nextSeason)
    rw [h1] at this; cases this
  | some season =>
    have hseason := (firstOf_congr (fun y _ => by rw [see_bool]) season).1 ((hn _ sep season).1 h1)
    dsimp only
    cases h2 : firstTrue (previous s.live sep fun m => decide (m.name = some c!"episode") && m.tags.contains c!"see-pattern") with
    | none =>
      right
      refine ⟨?_, [sep], rfl, by simp⟩
      rintro ⟨p, season', n, hs⟩
      have := (hp _ sep p).2 ((firstOf_congr (fun y _ => by rw [see_bool]) p).2 hs.before)
      rw [h2] at this; cases this
    | some p =>
      have hbefore := (firstOf_congr (fun y _ => by rw [see_bool]) p).1 ((hp _ sep p).1 h2)
      have hsame : ∀ {p' season' n'}, SeeRange rs s sep p' season' n' → season' = season := by
        intro p' season' n' hs
        have := (hn _ sep season').2 ((firstOf_congr (fun y _ => by rw [see_bool]) season').2 hs.nextSeason)
        rw [h1] at this; exact (Option.some.inj this).symm
      cases h3 : firstTrue (nextOf s.input s.live season fun m => decide (m.name = some c!"episode") && m.tags.contains c!"see-pattern") with
      | none =>
        right
        refine ⟨?_, [sep], rfl, by simp⟩
        rintro ⟨p', season', n, hs⟩
        have e := hsame hs
        subst e
        have := (hn _ season' n).2 ((firstOf_congr (fun y _ => by rw [see_bool]) n).2 hs.after)
        rw [h3] at this; cases this
      | some n =>
        have hafter := (firstOf_congr (fun y _ => by rw [see_bool]) n).1 ((hn _ season n).1 h3)
        dsimp only
        by_cases hr : isRangeSep s.input rs sep = true
        · left
          obtain ⟨hpm, hpn, _⟩ := firstOf_mem hbefore
          obtain ⟨hnm, hnn, _⟩ := firstOf_mem hafter
          obtain ⟨a, ha, ha0⟩ := h.ints p hpm hpn.1
          obtain ⟨b, hb, _⟩ := h.ints n hnm hnn.1
          refine ⟨p, season, n, a, b, ⟨hsep, isRangeSep_iff.1 hr, hbefore, hseason, hafter⟩, ha, hb, ha0, ?_⟩
          rw [if_pos hr, intValue_iff.2 ha, intValue_iff.2 hb]
        · right
          refine ⟨?_, [sep], by rw [if_neg hr], by simp⟩
          rintro ⟨p', season', n', hs⟩
          exact hr (isRangeSep_iff.2 hs.range)

theorem mem_seeSeps {s : Ms} {m : Mt} : m ∈ s.live.filter (fun m => m.tags.contains c!"see-pattern" && decide (m.name = some c!"episodeSeparator"))
    ↔ m ∈ s.live ∧ SeeName c!"episodeSeparator" m := by
  rw [List.mem_filter, Bool.and_comm, see_bool]

theorem mem_copiesFor {n m : Mt} {lo hi : Int} : m ∈ copiesFor n lo hi ↔ ∃ k, lo ≤ k ∧ k < hi ∧ m = { n with val := some (.int k) } := by
  unfold copiesFor pyRange
  simp only [List.map_map, List.mem_map, List.mem_range, Function.comp_apply]
  constructor
  · rintro ⟨i, hi, rfl⟩; exact ⟨lo + i, by omega, by omega, rfl⟩
  · rintro ⟨k, h1, h2, rfl⟩
    refine ⟨(k - lo).toNat, by omega, ?_⟩
    have : lo + ((k - lo).toNat : Int) = k := by omega
    rw [this]

/-- C57: with `Cap.102_104`, every number after the first one up to and including the second one is there, at the position
of the second one. -/
theorem C57_every_number (rs : List Str) (s s' : Ms) (h : RangeInput c!"episode" s) (hr : seePatternRange rs s = some s')
    (sep p season n : Mt) (hs : SeeRange rs s sep p season n) (a b k : Int) (ha : p.value s.input = .int a)
    (hb : n.value s.input = .int b) (h1 : a < k) (h2 : k ≤ b) :
    ∃ m ∈ s'.live, m.name = some c!"episode" ∧ m.value s.input = .int k ∧ m.start = n.start ∧ m.stop = n.stop := by
  unfold seePatternRange at hr
  split at hr
  · rename_i r hc
    obtain ⟨_, _, happ⟩ := collect_some hc
    simp only [Option.some.injEq] at hr
    subst hr
    have hmem : ({ n with val := some (.int k) } : Mt) ∈ r.2 := by
      rw [happ, List.mem_flatMap]
      refine ⟨sep, mem_seeSeps.2 hs.isSep, ?_⟩
      rcases seeStep_spec h hs.isSep (rs := rs) with ⟨p', season', n', a', b', hs', ha', hb', _, he⟩ | ⟨hno, _⟩
      · have hp := fun q x p => previous_gen h.nonempty (l := s.live) q x p
        have hn := fun q x n => next_gen (input := s.input) h.nonempty (l := s.live) q x n
        have e1 : p' = p := by
          have i1 := (hp _ sep p').2 ((firstOf_congr (fun y _ => by rw [see_bool]) p').2 hs'.before)
          have i2 := (hp _ sep p).2 ((firstOf_congr (fun y _ => by rw [see_bool]) p).2 hs.before)
          rw [i1] at i2; exact Option.some.inj i2
        have e2 : season' = season := by
          have i1 := (hn _ sep season').2 ((firstOf_congr (fun y _ => by rw [see_bool]) season').2 hs'.nextSeason)
          have i2 := (hn _ sep season).2 ((firstOf_congr (fun y _ => by rw [see_bool]) season).2 hs.nextSeason)
          rw [i1] at i2; exact Option.some.inj i2
        subst e1 e2
        have e3 : n' = n := by
          have i1 := (hn _ season' n').2 ((firstOf_congr (fun y _ => by rw [see_bool]) n').2 hs'.after)
          have i2 := (hn _ season' n).2 ((firstOf_congr (fun y _ => by rw [see_bool]) n).2 hs.after)
          rw [i1] at i2; exact Option.some.inj i2
        subst e3
        rw [ha] at ha'; rw [hb] at hb'
        cases ha'; cases hb'
        rw [he]
        simp only [Option.elim_some, mem_copiesFor]
        exact ⟨k, by omega, by omega, rfl⟩
      · exact absurd ⟨p, season, n, hs⟩ hno
    obtain ⟨x, hx, hk⟩ := appendAll_has s.input r.2 (removeAll s.input s.live r.1) _ hmem
    refine ⟨x, hx, ?_⟩
    have ha0 : 0 ≤ a := by
      obtain ⟨hpm, hpn, _⟩ := firstOf_mem hs.before
      obtain ⟨w, hw, hw0⟩ := h.ints p hpm hpn.1
      rw [ha] at hw; cases hw; exact hw0
    simp only [Mt.key, MtKey.mk.injEq] at hk
    rw [value_copy _ _ (by omega)] at hk
    obtain ⟨_, hnn, _⟩ := firstOf_mem hs.after
    exact ⟨by rw [← hk.2.2.2.1]; exact hnn.1, hk.2.2.1.symm, hk.1.symm, hk.2.1.symm⟩
  · cases hr

/-- C57: nothing is invented. -/
theorem C57_nothing_else (rs : List Str) (s s' : Ms) (h : RangeInput c!"episode" s) (hr : seePatternRange rs s = some s')
    (m : Mt) (hm : m ∈ s'.live) : m ∈ s.live ∨ ∃ sep p season n a b k, SeeRange rs s sep p season n ∧
      p.value s.input = .int a ∧ n.value s.input = .int b ∧ a < k ∧ k ≤ b ∧ m.value s.input = .int k ∧
      m = { n with val := some (.int k) } := by
  unfold seePatternRange at hr
  split at hr
  · rename_i r hc
    obtain ⟨_, _, happ⟩ := collect_some hc
    simp only [Option.some.injEq] at hr
    subst hr
    rcases mem_appendAll hm with hm | hm
    · exact Or.inl (removeAll_subset hm)
    · right
      rw [happ, List.mem_flatMap] at hm
      obtain ⟨sep, hsep, hm⟩ := hm
      rcases seeStep_spec h (mem_seeSeps.1 hsep) (rs := rs) with ⟨p, season, n, a, b, hs, ha, hb, ha0, he⟩ | ⟨_, r', he, _⟩
      · rw [he] at hm
        simp only [Option.elim_some, mem_copiesFor] at hm
        obtain ⟨k, h1, h2, rfl⟩ := hm
        exact ⟨sep, p, season, n, a, b, k, hs, ha, hb, by omega, by omega, value_copy _ _ (by omega), rfl⟩
      · rw [he] at hm; simp at hm
  · cases hr

def exCap : Ms :=
  { input := c!"Cap102_104", markers := []
    live := [{ id := 0, start := 3, stop := 4, name := some c!"season", val := some (.int 1), tags := [c!"see-pattern"] },
      { id := 0, start := 4, stop := 6, name := some c!"episode", val := some (.int 2), tags := [c!"see-pattern"] },
      { id := 0, start := 6, stop := 7, name := some c!"episodeSeparator", priv := true, tags := [c!"see-pattern"] },
      { id := 0, start := 7, stop := 8, name := some c!"season", val := some (.int 1), tags := [c!"see-pattern"] },
      { id := 0, start := 8, stop := 10, name := some c!"episode", val := some (.int 4), tags := [c!"see-pattern"] }] }

example : (seePatternRange [c!"-", c!"_"] exCap).map (fun s' => (named s'.live c!"episode").map (Mt.value s'.input)) =
    some [.int 2, .int 3, .int 4] := by decide +kernel

/-! ### The two rules of the pipeline -/

/-- What the expansion of the ranges of `prop` promises, in one statement. -/
structure Expanded (rs : List Str) (prop : Str) (canStart : Mt → Bool) (s s' : Ms) : Prop where
  every : ∀ (p n : Mt) (a b k : Int), Joined rs prop canStart s p n → p.value s.input = .int a → n.value s.input = .int b →
    a < k → k < b → ∃ m ∈ s'.live, m.name = some prop ∧ m.value s.input = .int k ∧ m.start = n.start ∧ m.stop = n.stop
  noOther : ∀ m ∈ s'.live, m.name = some prop → m ∈ s.live ∨ ∃ p n a b k, Joined rs prop canStart s p n ∧
    p.value s.input = .int a ∧ n.value s.input = .int b ∧ a < k ∧ k < b ∧ m.value s.input = .int k
  kept : ∀ m ∈ s.live, m.name = some prop → ∃ x ∈ s'.live, x.key s.input = m.key s.input

theorem expanded_of {rs : List Str} {prop : Str} {canStart : Mt → Bool} {s s' : Ms} (h : RangeInput prop s)
    (hr : separatorRange rs prop canStart s = some s') : Expanded rs prop canStart s s' where
  every := fun p n a b k hj ha hb h1 h2 => C32_every_number rs prop canStart s s' h hr p n a b k hj ha hb h1 h2
  noOther := by
    intro m hm hn
    rcases C32_nothing_else rs prop canStart s s' h hr m hm hn with h1 | ⟨p, n, a, b, k, h1, h2, h3, h4, h5, h6, _⟩
    · exact Or.inl h1
    · exact Or.inr ⟨p, n, a, b, k, h1, h2, h3, h4, h5, h6⟩
  kept := fun m hm hn => C32_ends_kept rs prop canStart s s' h hr m hm hn

/-- C32 for episodes: ranges are expanded, and a text range (without a separator match) needs an episode that is not weak
at or before its first end. -/
theorem C32_episodes (rs : List Str) (s : Ms) (h : RangeInput c!"episode" s) :
    ∃ s', episodeRange rs s = some s' ∧ Expanded rs c!"episode" (fun m => decide (c!"weak-episode" ∉ m.tags)) s s' := by
  have he : episodeRange rs s = separatorRange rs c!"episode" (fun m => decide (c!"weak-episode" ∉ m.tags)) s := by
    unfold episodeRange
    congr 1
    funext m
    simp
  obtain ⟨s', hs'⟩ := C32_never_fails rs c!"episode" (fun m => decide (c!"weak-episode" ∉ m.tags)) s h
  exact ⟨s', by rw [he, hs'], expanded_of h hs'⟩

/-- C32 for seasons. -/
theorem C32_seasons (rs : List Str) (s : Ms) (h : RangeInput c!"season" s) :
    ∃ s', seasonRange rs s = some s' ∧ Expanded rs c!"season" (fun _ => true) s s' := by
  obtain ⟨s', hs'⟩ := C32_never_fails rs c!"season" (fun _ => true) s h
  exact ⟨s', hs', expanded_of h hs'⟩

end Guessit
