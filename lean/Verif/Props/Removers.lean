import Verif.Props.Sources

/-! # C68, C69: the episodes that are dropped -/

namespace Guessit
open Spec

/-! ### C68: weak episodes -/

/-- C68 (`RemoveWeakIfSxxExx`): in a path part with a public SxxExx match, exactly the weak episodes are dropped, save those
found by the weak pattern at the very beginning of the part. -/
theorem C68_sxxexx {s : Ms} (h : Sound s) : Drops s (removeWeakIfSxxExx s) fun x =>
    c!"weak-episode" ∈ x.tags ∧ ∃ part, IsPart s part ∧ Overlaps part x ∧
      (∃ m ∈ s.live, m.priv = false ∧ c!"SxxExx" ∈ m.tags ∧ Overlaps part m) ∧
      ¬ (x.start = part.start ∧ x.iname = some c!"weak_episode") := by
  have hS : ∀ part : Mt, (rangeOf s.input s.live part.start part.stop fun m => !m.priv && m.tagged c!"SxxExx").isEmpty = true ↔
      ¬ ∃ m ∈ s.live, m.priv = false ∧ c!"SxxExx" ∈ m.tags ∧ Overlaps part m := by
    intro part
    rw [range_empty h.pos]
    simp only [Bool.and_eq_true, Bool.not_eq_true', tagged_iff]
    refine not_congr ⟨?_, ?_⟩
    · rintro ⟨m, h1, h2, h3, h4, h5⟩; exact ⟨m, h1, h4, h5, h2, h3⟩
    · rintro ⟨m, h1, h4, h5, h2, h3⟩; exact ⟨m, h1, h2, h3, h4, h5⟩
  refine drops_mem h ?_ fun x hx => ?_
  · intro m hm
    obtain ⟨part, _, hm⟩ := List.mem_flatMap.1 hm
    split at hm
    · simp at hm
    · exact ((mem_range h.pos).1 (List.mem_filter.1 hm).1).1
  · rw [List.mem_flatMap]
    constructor
    · rintro ⟨part, hp, hm⟩
      split at hm
      · simp at hm
      · rename_i he
        rw [List.mem_filter, mem_range h.pos, tagged_iff, Bool.or_eq_true, decide_eq_true_eq, decide_eq_true_eq] at hm
        obtain ⟨⟨_, h2, h3, h4⟩, h5⟩ := hm
        exact ⟨h4, part, mem_named.1 hp, ⟨h2, h3⟩, not_not.1 (fun hh => he ((hS part).2 hh)), fun hc => h5.elim (· hc.1) (· hc.2)⟩
    · rintro ⟨h4, part, hp, ⟨h2, h3⟩, h5, h6⟩
      refine ⟨part, mem_named.2 hp, ?_⟩
      rw [if_neg (fun hh => (hS part).1 hh h5), List.mem_filter, mem_range h.pos, tagged_iff, Bool.or_eq_true, decide_eq_true_eq,
        decide_eq_true_eq]
      exact ⟨⟨hx, h2, h3, h4⟩, by by_contra hc; rw [not_or, not_not, not_not] at hc; exact h6 hc⟩

theorem weakDuplicates_mem {kin : Kin} : ∀ {l : List Mt}, l.Nodup → ∀ (seen : List (Option Str × Nat)) (x : Mt),
    x ∈ weakDuplicates kin seen l ↔
      x ∈ l ∧ ((x.name, kin.pattern x) ∈ seen ∨ ∃ y, [y, x].Sublist l ∧ y.name = x.name ∧ kin.pattern y = kin.pattern x) := by
  intro l
  induction l with
  | nil => intro _ seen x; simp [weakDuplicates]
  | cons m l ih =>
    intro hn seen x
    rw [List.nodup_cons] at hn
    unfold weakDuplicates
    have hsub : ∀ y, [y, x].Sublist (m :: l) ↔ [y, x].Sublist l ∨ (y = m ∧ x ∈ l) := by
      intro y
      rw [List.cons_sublist_cons', List.singleton_sublist]
    by_cases hs : seen.contains (m.name, kin.pattern m) = true
    · rw [if_pos hs, List.mem_cons, ih hn.2, List.mem_cons]
      rw [List.contains_iff_mem] at hs
      constructor
      · rintro (h1 | ⟨h1, h2⟩)
        · subst h1; exact ⟨Or.inl rfl, Or.inl hs⟩
        · refine ⟨Or.inr h1, h2.imp id ?_⟩
          rintro ⟨y, h3, h4⟩; exact ⟨y, (hsub y).2 (Or.inl h3), h4⟩
      · rintro ⟨h1 | h1, h2⟩
        · exact Or.inl h1
        · refine Or.inr ⟨h1, ?_⟩
          rcases h2 with h2 | ⟨y, h3, h4⟩
          · exact Or.inl h2
          · rcases (hsub y).1 h3 with h5 | ⟨h5, _⟩
            · exact Or.inr ⟨y, h5, h4⟩
            · subst h5; rw [h4.1, h4.2] at hs; exact Or.inl hs
    · rw [if_neg hs, ih hn.2]
      rw [List.contains_iff_mem] at hs
      constructor
      · rintro ⟨h1, h2⟩
        refine ⟨List.mem_cons.2 (Or.inr h1), ?_⟩
        rcases h2 with h2 | ⟨y, h3, h4⟩
        · rw [List.mem_cons] at h2
          rcases h2 with h2 | h2
          · rw [Prod.mk.injEq] at h2
            exact Or.inr ⟨m, (hsub m).2 (Or.inr ⟨rfl, h1⟩), h2.1.symm, h2.2.symm⟩
          · exact Or.inl h2
        · exact Or.inr ⟨y, (hsub y).2 (Or.inl h3), h4⟩
      · rintro ⟨h1, h2⟩
        rcases List.mem_cons.1 h1 with h1 | h1
        · subst h1
          exfalso
          rcases h2 with h2 | ⟨y, h3, _⟩
          · exact hs h2
          · rcases (hsub y).1 h3 with h5 | ⟨_, h5⟩
            · exact hn.1 (pair_mem h5).2
            · exact hn.1 h5
        · refine ⟨h1, ?_⟩
          rcases h2 with h2 | ⟨y, h3, h4⟩
          · exact Or.inl (by simp [h2])
          · rcases (hsub y).1 h3 with h5 | ⟨h5, _⟩
            · exact Or.inr ⟨y, h5, h4⟩
            · subst h5; exact Or.inl (by simp [h4])

/-- C68 (`RemoveWeakDuplicate`): in a path part, of the weak duplicates of one name found by one pattern only the last is
kept. -/
theorem C68_duplicate {s : Ms} (h : Sound s) (kin : Kin) : Drops s (removeWeakDuplicate kin s) fun x =>
    c!"weak-duplicate" ∈ x.tags ∧ ∃ part, IsPart s part ∧ Overlaps part x ∧
      ∃ y ∈ s.live, c!"weak-duplicate" ∈ y.tags ∧ Overlaps part y ∧ y ≠ x ∧ Later s.live x y ∧
        y.name = x.name ∧ kin.pattern y = kin.pattern x := by
  have hn := sound_nodup h
  have hns : ∀ part : Mt, (rangeOf s.input s.live part.start part.stop fun m => m.tagged c!"weak-duplicate").reverse.Nodup := by
    intro part
    rw [List.nodup_reverse]
    exact ((sortBy_perm Mt.lt s.live).nodup_iff.2 hn).sublist List.filter_sublist
  refine drops_mem h ?_ fun x hx => ?_
  · intro m hm
    obtain ⟨part, _, hm⟩ := List.mem_flatMap.1 hm
    have := ((weakDuplicates_mem (hns part) [] m).1 hm).1
    exact ((mem_range h.pos).1 (List.mem_reverse.1 this)).1
  · rw [List.mem_flatMap]
    have key : ∀ part y : Mt, [y, x].Sublist (rangeOf s.input s.live part.start part.stop fun m => m.tagged c!"weak-duplicate").reverse ↔
        y ∈ s.live ∧ c!"weak-duplicate" ∈ y.tags ∧ Overlaps part y ∧ y ≠ x ∧ Later s.live x y ∧ c!"weak-duplicate" ∈ x.tags ∧ Overlaps part x := by
      intro part y
      have e : ([x, y] : List Mt).reverse = [y, x] := rfl
      rw [← e, List.reverse_sublist]
      constructor
      · intro hsub
        have hm := pair_mem hsub
        have h1 := (mem_range h.pos).1 hm.1
        have h2 := (mem_range h.pos).1 hm.2
        have hne : y ≠ x := by
          intro hc
          subst hc
          have := List.Sublist.nodup hsub (List.nodup_reverse.1 (hns part))
          simp at this
        have hl := (later_sorted hn hx h2.1 hne.symm).1 (hsub.trans (by unfold rangeOf; exact List.filter_sublist))
        exact ⟨h2.1, tagged_iff.1 h2.2.2.2, ⟨h2.2.1, h2.2.2.1⟩, hne, hl, tagged_iff.1 h1.2.2.2, ⟨h1.2.1, h1.2.2.1⟩⟩
      · rintro ⟨h1, h2, h3, h4, h5, h6, h7⟩
        have hl := (later_sorted hn hx h1 h4.symm).2 h5
        have := (maxEnd_ge s.input s.live).2 x hx
        have := (maxEnd_ge s.input s.live).2 y h1
        have := h.pos x hx
        have := h.pos y h1
        unfold Overlaps at h3 h7
        unfold rangeOf
        rw [pair_filter]
        refine ⟨?_, ?_, hl⟩
        · simp only [Bool.and_eq_true, decide_eq_true_eq, Nat.lt_min, tagged_iff]
          exact ⟨⟨⟨by omega, h7.1⟩, h7.2⟩, h6⟩
        · simp only [Bool.and_eq_true, decide_eq_true_eq, Nat.lt_min, tagged_iff]
          exact ⟨⟨⟨by omega, h3.1⟩, h3.2⟩, h2⟩
    constructor
    · rintro ⟨part, hp, hm⟩
      obtain ⟨_, h2⟩ := (weakDuplicates_mem (hns part) [] x).1 hm
      rcases h2 with h2 | ⟨y, h3, h4, h5⟩
      · simp at h2
      · obtain ⟨k1, k2, k3, k4, k5, k6, k7⟩ := (key part y).1 h3
        exact ⟨k6, part, mem_named.1 hp, k7, y, k1, k2, k3, k4, k5, h4, h5⟩
    · rintro ⟨k6, part, hp, k7, y, k1, k2, k3, k4, k5, h4, h5⟩
      refine ⟨part, mem_named.2 hp, ?_⟩
      have h3 := (key part y).2 ⟨k1, k2, k3, k4, k5, k6, k7⟩
      exact (weakDuplicates_mem (hns part) [] x).2 ⟨(pair_mem h3).2, Or.inr ⟨y, h3, h4, h5⟩⟩

/-! ### C69: details, versions, single digits -/

theorem surround_iff {input : Str} {a b : Nat} : sepsSurround input a b = true ↔
    (a = 0 ∨ ∃ c, input[a - 1]? = some c ∧ c ∈ seps) ∧ (input.length ≤ b ∨ ∃ c, input[b]? = some c ∧ c ∈ seps) := by
  have h1 := sepsBefore_iff (input := input) (m := { id := 0, start := a, stop := b, name := none })
  have h2 := sepsAfter_iff (input := input) (m := { id := 0, start := a, stop := b, name := none })
  unfold sepsSurround
  rw [Bool.and_eq_true]
  exact and_congr h1 h2

/-- The stretch `[a, b)` is between separators or ends of the input. -/
def Spec.Detached (input : Str) (a b : Nat) : Prop :=
  (a = 0 ∨ ∃ c, input[a - 1]? = some c ∧ c ∈ seps) ∧ (input.length ≤ b ∨ ∃ c, input[b]? = some c ∧ c ∈ seps)

/-- C69 (`EpisodeDetailValidator`): an episode detail is dropped iff it is neither detached nor next to a season or an
episode. -/
theorem C69_details {s : Ms} (h : Sound s) : Drops s (episodeDetailValidator s) fun x =>
    x.name = some c!"episode_details" ∧ ¬ Detached s.input x.start x.stop ∧
      ¬ ∃ n, NamedIn n [c!"season", c!"episode"] ∧ (ClosestBefore s.live x n ∨ ClosestAfter s.live x n) := by
  refine drops_named h _ _ fun x hx => ?_
  rw [Bool.and_eq_true, Bool.and_eq_true, Bool.not_eq_true', ← Bool.not_eq_true, surround_iff, prev_empty, next_empty h.pos, and_assoc]
  refine and_congr Iff.rfl (and_congr Iff.rfl ?_)
  simp only [isOneOf_iff]
  constructor
  · rintro ⟨h1, h2⟩ ⟨n, h3, h4 | h4⟩
    · exact h1 ⟨n, h4, h3⟩
    · exact h2 ⟨n, h4, h3⟩
  · intro hh
    exact ⟨fun ⟨n, h1, h2⟩ => hh ⟨n, h2, Or.inl h1⟩, fun ⟨n, h1, h2⟩ => hh ⟨n, h2, Or.inr h1⟩⟩

/-- C69 (`VersionValidator`): a version is dropped iff its pattern is not detached and no episode comes just before. -/
theorem C69_version {s : Ms} (h : Sound s) : Drops s (versionValidator s) fun x =>
    x.name = some c!"version" ∧ ¬ Detached s.input x.istart x.istop ∧
      ¬ ∃ p, ClosestBefore s.live x p ∧ p.name = some c!"episode" := by
  refine drops_named h _ _ fun x hx => ?_
  rw [Bool.and_eq_true, Bool.not_eq_true', ← Bool.not_eq_true, surround_iff, firstPrev_none h.pos]
  simp only [decide_eq_true_eq]
  refine and_congr Iff.rfl ?_
  rw [and_comm]; rfl

theorem foldl_head (input : Str) (q : Mt → Bool) (hq : ∀ a b : Mt, a.key input = b.key input → q a = q b) : ∀ (ms acc : List Mt),
    ((ms.foldl (fun acc m => if acc.any (Mt.eqv input m) then acc else acc ++ [m]) acc).filter q).head? =
      ((acc ++ ms).filter q).head? := by
  intro ms
  induction ms with
  | nil => intro acc; simp
  | cons m ms ih =>
    intro acc
    rw [List.foldl_cons, ih]
    split
    · rename_i hm
      obtain ⟨y, hy, hk⟩ := List.any_eq_true.1 hm
      have hk := hq m y (of_decide_eq_true hk)
      rw [List.filter_append, List.filter_append, List.head?_append, List.head?_append]
      cases hf : (acc.filter q).head? with
      | some z => simp
      | none =>
        rw [List.head?_eq_none_iff, List.filter_eq_nil_iff] at hf
        rw [List.filter_cons_of_neg (by rw [hk]; exact hf y hy)]
    · simp

theorem firstOf_append {α : Type} {l l' : List α} {q : α → Bool} {x : α} :
    ((l ++ l').filter q).head? = some x ↔ (l.filter q).head? = some x ∨ ((∀ y ∈ l, q y = false) ∧ (l'.filter q).head? = some x) := by
  rw [List.filter_append, List.head?_append]
  cases hf : (l.filter q).head? with
  | some z =>
    have hz : z ∈ l.filter q := List.mem_of_head? hf
    rw [List.mem_filter] at hz
    simp only [Option.some_or, Option.some.injEq]
    constructor
    · exact Or.inl
    · rintro (h | ⟨h, _⟩)
      · exact h
      · rw [h z hz.1] at hz; simp at hz
  | none =>
    rw [List.head?_eq_none_iff, List.filter_eq_nil_iff] at hf
    simp only [Option.none_or, reduceCtorEq, false_or]
    exact ⟨fun h => ⟨fun y hy => by simpa using hf y hy, h⟩, fun h => h.2⟩

/-- The marker `matches.markers.at_match(m, …, 0)` picks. -/
theorem atMatch_first {input : Str} {l : List Mt} {m g : Mt} {n : Str} :
    firstTrue (atMatch input l m fun g => decide (g.name = some n)) = some g ↔ EndMark l n m g := by
  rw [firstTrue_eq]
  · unfold atMatch atSpan
    dsimp only
    rw [foldl_head input _ (fun a b hk => by
      have : a.name = b.name := congrArg MtKey.name hk
      rw [this]), firstOf_append]
    unfold EndMark atIndex
    refine or_congr ?_ (and_congr ?_ ?_)
    · rw [List.filter_filter, head_filter_iff]
      refine firstOf_congr (fun y _ => ?_) g
      simp only [Bool.and_eq_true, decide_eq_true_eq]
    · simp only [List.mem_filter, Bool.and_eq_true, decide_eq_true_eq, decide_eq_false_iff_not]
      constructor
      · rintro h1 ⟨y, h2, h3, h4⟩; exact h1 y ⟨h2, h4⟩ h3
      · rintro h1 y ⟨h2, h4⟩ h3; exact h1 ⟨y, h2, h3, h4⟩
    · by_cases h0 : m.stop = 0
      · rw [if_pos h0]
        simp only [List.filter_nil, List.head?_nil, reduceCtorEq, false_iff]
        rintro ⟨_, _, _, h, _⟩
        omega
      · rw [if_neg h0, List.filter_filter, head_filter_iff]
        refine firstOf_congr (fun y _ => ?_) g
        simp only [Bool.and_eq_true, decide_eq_true_eq]
        have : 0 < m.stop := by omega
        tauto
  · intro x hx
    have := (mem_atSpan.1 (List.mem_filter.1 hx).1).2
    omega

/-- C69 (`EpisodeSingleDigitValidator`): an episode found by a pattern of one character is dropped iff it stands in a group
where there is no title. -/
theorem C69_single_digit {s : Ms} (h : Sound s) : Drops s (episodeSingleDigit s) fun x =>
    x.name = some c!"episode" ∧ x.istop - x.istart = 1 ∧
      ∃ g, EndMark s.markers c!"group" x g ∧ ¬ ∃ t ∈ s.live, t.name = some c!"title" ∧ Overlaps g t := by
  refine drops_named h _ _ fun x hx => ?_
  rw [Bool.and_eq_true, decide_eq_true_eq]
  refine and_congr Iff.rfl (and_congr Iff.rfl ?_)
  cases hg : firstTrue (atMatch s.input s.markers x fun g => decide (g.name = some c!"group")) with
  | none =>
    simp only [Bool.false_eq_true, false_iff]
    rintro ⟨g, hg', _⟩
    rw [← atMatch_first (input := s.input), hg] at hg'
    cases hg'
  | some g =>
    dsimp only
    rw [range_empty h.pos]
    have hu := atMatch_first.1 hg
    constructor
    · intro h1
      refine ⟨g, hu, ?_⟩
      rintro ⟨t, h2, h3, h4⟩
      exact h1 ⟨t, h2, h4.1, h4.2, by simp [h3]⟩
    · rintro ⟨g', hg', h1⟩ ⟨t, h2, h3, h4, h5⟩
      rw [← atMatch_first (input := s.input), hg] at hg'
      cases hg'
      exact h1 ⟨t, h2, by simpa using h5, h3, h4⟩

/-! ### C69: later seasons and episodes -/

namespace Spec

/-- The pattern that found `m` found an episode too. -/
def WithEpisode (kin : Kin) (m : Mt) : Prop := ∃ c ∈ kin.children (kin.initiator m), c.name = some c!"episode"

/-- `m` is a public `prop`. -/
def Public (prop : Str) (m : Mt) : Prop := m.name = some prop ∧ m.priv = false

/-- `m` is the first public SxxExx `prop` of the path part. -/
def Strong (s : Ms) (prop : Str) (part m : Mt) : Prop :=
  Lead s.live (fun m => Overlaps part m ∧ Public prop m ∧ c!"SxxExx" ∈ m.tags) m

/-- Patterns match something. -/
def Rooted (kin : Kin) (s : Ms) : Prop := ∀ m ∈ s.live, (kin.initiator m).start < (kin.initiator m).stop

end Spec

theorem strong_iff {s : Ms} (h : Sound s) {prop : Str} {part m : Mt} :
    firstIn s part.start part.stop (fun m => decide (m.name = some prop) && !m.priv && m.tagged c!"SxxExx") = some m ↔
      Strong s prop part m := by
  rw [firstIn_iff h]
  unfold Strong
  refine lead_congr fun x _ => ?_
  simp only [Bool.and_eq_true, decide_eq_true_eq, Bool.not_eq_true', tagged_iff]
  unfold Overlaps Public
  tauto

theorem named_ne {l : List Mt} {n : Str} : (named l n).isEmpty = false ↔ ∃ c ∈ l, c.name = some n := by
  rw [← Bool.not_eq_true, List.isEmpty_iff, List.eq_nil_iff_forall_not_mem]
  simp only [mem_named]
  constructor
  · intro hh; by_contra hc; exact hh fun a ha => hc ⟨a, ha.1, ha.2⟩
  · rintro ⟨c, h1, h2⟩ hh; exact hh c ⟨h1, h2⟩

theorem mem_uproot {kin : Kin} {m y : Mt} (hm : (kin.initiator m).start < (kin.initiator m).stop) :
    y ∈ uproot kin m ↔ y = kin.initiator m ∨ y ∈ kin.children (kin.initiator m) := by
  unfold uproot
  dsimp only
  rw [if_pos hm, List.mem_cons]

/-- C69 (`RemoveInvalidSeason`): when the first public SxxExx season of a path part came with an episode, the patterns of the
public seasons that end after it and are not SxxExx, or came without an episode, are dropped with all they found. -/
theorem C69_season {s : Ms} (h : Sound s) (kin : Kin) (hr : Rooted kin s) : Drops s (removeInvalidSeason kin s) fun x =>
    ∃ part strong m, IsPart s part ∧ Strong s c!"season" part strong ∧ WithEpisode kin strong ∧
      m ∈ s.live ∧ Public c!"season" m ∧ m.start < part.stop ∧ strong.stop < m.stop ∧
      (c!"SxxExx" ∉ m.tags ∨ ¬ WithEpisode kin m) ∧ InFamily kin s.input (kin.initiator m) x := by
  refine drops_keys' h fun x hx => ?_
  constructor
  · rintro ⟨y, hy, hk⟩
    obtain ⟨part, hp, hy⟩ := List.mem_flatMap.1 hy
    cases hs : firstIn s part.start part.stop (fun m => decide (m.name = some c!"season") && !m.priv && m.tagged c!"SxxExx") with
    | none => rw [hs] at hy; simp at hy
    | some strong =>
      rw [hs] at hy
      dsimp only at hy
      split at hy
      · simp at hy
      · rename_i he
        rw [Bool.not_not, Bool.not_eq_true, named_ne] at he
        obtain ⟨m, hm, hy⟩ := List.mem_flatMap.1 hy
        obtain ⟨h1, h2, h3, h4⟩ := (mem_range h.pos).1 hm
        simp only [Bool.and_eq_true, decide_eq_true_eq, Bool.not_eq_true'] at h4
        split at hy
        · rename_i hc
          rw [Bool.or_eq_true, Bool.not_not, Bool.not_eq_true', ← Bool.not_eq_true, tagged_iff, ← Bool.not_eq_false, named_ne] at hc
          exact ⟨part, strong, m, mem_parts.1 hp, (strong_iff h).1 hs, he, h1, h4, h2, h3, hc, y, (mem_uproot (hr m h1)).1 hy, hk⟩
        · simp at hy
  · rintro ⟨part, strong, m, hp, hs, he, h1, h4, h2, h3, hc, y, hy, hk⟩
    refine ⟨y, List.mem_flatMap.2 ⟨part, mem_parts.2 hp, ?_⟩, hk⟩
    rw [(strong_iff h).2 hs]
    dsimp only
    rw [if_neg (by rw [Bool.not_not, Bool.not_eq_true, named_ne]; exact he)]
    refine List.mem_flatMap.2 ⟨m, (mem_range h.pos).2 ⟨h1, h2, h3, by simp [h4.1, h4.2]⟩, ?_⟩
    rw [if_pos]
    · exact (mem_uproot (hr m h1)).2 hy
    · rw [Bool.or_eq_true, Bool.not_not, Bool.not_eq_true', ← Bool.not_eq_true, tagged_iff, ← Bool.not_eq_false, named_ne]
      exact hc

/-- `p` is the episode marker or separator that comes just before `m`. -/
def Spec.Prefix (s : Ms) (m p : Mt) : Prop := JustBefore s.live (· ∈ [c!"episodeMarker", c!"episodeSeparator"]) m p

theorem prefix_iff {s : Ms} (h : Sound s) {m p : Mt} : episodePrefix s m = some p ↔ Spec.Prefix s m p :=
  previous_iff h.pos _ _ (fun x => by rw [isOneOf_iff]; unfold NamedIn; constructor <;> rintro ⟨n, h1, h2⟩ <;> exact ⟨n, h2, h1⟩) m p

/-- C69 (`RemoveInvalidEpisode`): when the first public SxxExx episode of a path part follows a marker, the patterns of the
public episodes that end after it and follow another marker (up to case) are dropped with all they found. -/
theorem C69_episode {s : Ms} (h : Sound s) (kin : Kin) (lower : Str → Str) :
    Drops s (removeInvalidEpisode kin lower s) fun x =>
    ∃ part strong m p q, IsPart s part ∧ Strong s c!"episode" part strong ∧ Spec.Prefix s strong p ∧
      m ∈ s.live ∧ Public c!"episode" m ∧ m.start < part.stop ∧ strong.stop < m.stop ∧ Spec.Prefix s m q ∧
      (∃ v w, p.value s.input = .str v ∧ q.value s.input = .str w ∧ lower v ≠ lower w) ∧
      InFamily kin s.input (kin.initiator m) x := by
  have hd : ∀ p q : Mt, differ lower s.input p q = true ↔
      ∃ v w, p.value s.input = .str v ∧ q.value s.input = .str w ∧ lower v ≠ lower w := by
    intro p q
    unfold differ
    cases p.value s.input <;> cases q.value s.input <;> simp
  refine drops_keys' h fun x hx => ?_
  constructor
  · rintro ⟨y, hy, hk⟩
    obtain ⟨part, hp, hy⟩ := List.mem_flatMap.1 hy
    cases hs : firstIn s part.start part.stop (fun m => decide (m.name = some c!"episode") && !m.priv && m.tagged c!"SxxExx") with
    | none => rw [hs] at hy; simp at hy
    | some strong =>
      rw [hs] at hy
      dsimp only at hy
      obtain ⟨m, hm, hy⟩ := List.mem_flatMap.1 hy
      obtain ⟨h1, h2, h3, h4⟩ := (mem_range h.pos).1 hm
      simp only [Bool.and_eq_true, decide_eq_true_eq, Bool.not_eq_true'] at h4
      cases e1 : episodePrefix s strong with
      | none => rw [e1] at hy; simp at hy
      | some p =>
        cases e2 : episodePrefix s m with
        | none => rw [e1, e2] at hy; simp at hy
        | some q =>
          rw [e1, e2] at hy
          dsimp only at hy
          split at hy
          · rename_i hc
            exact ⟨part, strong, m, p, q, mem_parts.1 hp, (strong_iff h).1 hs, (prefix_iff h).1 e1, h1, h4, h2, h3,
              (prefix_iff h).1 e2, (hd p q).1 hc, y, List.mem_cons.1 hy, hk⟩
          · simp at hy
  · rintro ⟨part, strong, m, p, q, hp, hs, e1, h1, h4, h2, h3, e2, hc, y, hy, hk⟩
    refine ⟨y, List.mem_flatMap.2 ⟨part, mem_parts.2 hp, ?_⟩, hk⟩
    rw [(strong_iff h).2 hs]
    dsimp only
    refine List.mem_flatMap.2 ⟨m, (mem_range h.pos).2 ⟨h1, h2, h3, by simp [h4.1, h4.2]⟩, ?_⟩
    rw [(prefix_iff h).2 e1, (prefix_iff h).2 e2]
    dsimp only
    rw [if_pos ((hd p q).2 hc)]
    exact List.mem_cons.2 hy

/-! ### C68: movies -/

namespace Spec

/-- `y` is the first year of the path part. -/
def YearOf (s : Ms) (part y : Mt) : Prop := IsPart s part ∧ Lead s.live (fun m => Overlaps part m ∧ m.name = some c!"year") y

/-- The pattern `i` is kept although there is a year: it found the first private match after a year, right after it, or it
found several episodes. -/
def Spared (kin : Kin) (s : Ms) (i : Mt) : Prop := ∃ part y, YearOf s part y ∧
  ((∃ n, Lead s.live (fun m => m.start < part.stop ∧ y.stop < m.stop ∧ m.priv = true) n ∧ NoText s.input s.live y.stop n.start ∧
      (¬ ∃ m ∈ s.live, m.name = some c!"year" ∧ AtEnds n m) ∧ (kin.initiator n).key s.input = i.key s.input) ∨
    ∃ m ∈ s.live, Overlaps part m ∧ 1 < (named (kin.children m) c!"episode").length ∧ m.key s.input = i.key s.input)

end Spec

theorem yearOf_iff {s : Ms} (h : Sound s) {part y : Mt} :
    firstIn s part.start part.stop (fun m => decide (m.name = some c!"year")) = some y ↔
      Lead s.live (fun m => Overlaps part m ∧ m.name = some c!"year") y := by
  rw [firstIn_iff h]
  refine lead_congr fun x _ => ?_
  rw [decide_eq_true_eq]
  unfold Overlaps
  tauto

/-- C68 (`RemoveWeakIfMovie`): nothing is dropped when the type is episode; else, what overlaps the first year of a path part
is dropped, and if there is such a year so are all weak episodes, save the anime ones and those of a spared pattern. -/
theorem C68_movie {s : Ms} (h : Sound s) (kin : Kin) (type : Option Str) : Drops s (removeWeakIfMovie kin type s) fun x =>
    type ≠ some c!"episode" ∧
    ((∃ part y, YearOf s part y ∧ x ≠ y ∧ Overlaps y x) ∨
      ((∃ part y, YearOf s part y) ∧ c!"weak-episode" ∈ x.tags ∧ c!"anime" ∉ x.tags ∧ ¬ Spared kin s (kin.initiator x))) := by
  unfold removeWeakIfMovie
  split
  · rename_i ht
    exact ⟨rfl, rfl, List.Sublist.refl _, fun x hx => by simp [ht, hx]⟩
  · rename_i ht
    dsimp only
    generalize hy : ((pathParts s).filterMap fun part =>
      (firstIn s part.start part.stop fun m => decide (m.name = some c!"year")).map fun y => (part, y)) = years
    have hyears : ∀ part y, (part, y) ∈ years ↔ YearOf s part y := by
      intro part y
      rw [← hy, List.mem_filterMap]
      constructor
      · rintro ⟨p, hp, he⟩
        rw [Option.map_eq_some_iff] at he
        obtain ⟨z, hz, he⟩ := he
        cases he
        exact ⟨mem_parts.1 hp, (yearOf_iff h).1 hz⟩
      · rintro ⟨hp, hz⟩
        exact ⟨part, mem_parts.2 hp, by rw [(yearOf_iff h).2 hz]; rfl⟩
    have hsp : ∀ i, (years.flatMap fun p => ignoredIn kin s p.1 p.2).any (Mt.eqv s.input i) = true ↔ Spared kin s i := by
      intro i
      rw [List.any_eq_true]
      unfold ignoredIn
      constructor
      · rintro ⟨z, hz, hk⟩
        have hk : i.key s.input = z.key s.input := of_decide_eq_true hk
        obtain ⟨⟨part, y⟩, hp, hz⟩ := List.mem_flatMap.1 hz
        refine ⟨part, y, (hyears _ _).1 hp, ?_⟩
        rcases List.mem_append.1 hz with hz | hz
        · left
          dsimp only at hz
          cases hn : firstIn s y.stop part.stop (fun m => m.priv) with
          | none => rw [hn] at hz; simp at hz
          | some n =>
            rw [hn] at hz
            dsimp only at hz
            split at hz
            · rename_i hc
              rw [Bool.and_eq_true, Bool.not_eq_true', hasText_iff, atMatch_empty] at hc
              rw [List.mem_singleton] at hz
              subst hz
              exact ⟨n, (firstIn_iff h).1 hn, hc.1, hc.2, hk.symm⟩
            · simp at hz
        · right
          obtain ⟨h1, h2, h3, h4⟩ := (mem_range h.pos).1 hz
          exact ⟨z, h1, ⟨h2, h3⟩, by simpa using h4, hk.symm⟩
      · rintro ⟨part, y, hp, ⟨n, hn, h1, h2, hk⟩ | ⟨m, h1, h2, h3, hk⟩⟩
        · refine ⟨kin.initiator n, List.mem_flatMap.2 ⟨(part, y), (hyears _ _).2 hp, List.mem_append.2 (Or.inl ?_)⟩,
            decide_eq_true hk.symm⟩
          dsimp only
          rw [(firstIn_iff h).2 hn]
          dsimp only
          rw [if_pos (by rw [Bool.and_eq_true, Bool.not_eq_true', hasText_iff, atMatch_empty]; exact ⟨h1, h2⟩)]
          simp
        · refine ⟨m, List.mem_flatMap.2 ⟨(part, y), (hyears _ _).2 hp, List.mem_append.2 (Or.inr ?_)⟩, decide_eq_true hk.symm⟩
          exact (mem_range h.pos).2 ⟨h1, h2.1, h2.2, by simpa using h3⟩
    refine drops_mem h ?_ fun x hx => ?_
    · intro m hm
      rcases List.mem_append.1 hm with hm | hm
      · obtain ⟨⟨part, y⟩, hp, hm⟩ := List.mem_flatMap.1 hm
        exact ((mem_conflicting h (lead_mem ((hyears _ _).1 hp).2).1).1 hm).1
      · split at hm
        · simp at hm
        · exact (List.mem_filter.1 hm).1
    · rw [List.mem_append]
      have e1 : (x ∈ years.flatMap fun p => conflicting s.input s.live p.2) ↔ ∃ part y, YearOf s part y ∧ x ≠ y ∧ Overlaps y x := by
        rw [List.mem_flatMap]
        constructor
        · rintro ⟨⟨part, y⟩, hp, hm⟩
          have hp := (hyears _ _).1 hp
          exact ⟨part, y, hp, ((mem_conflicting h (lead_mem hp.2).1).1 hm).2⟩
        · rintro ⟨part, y, hp, hm⟩
          exact ⟨(part, y), (hyears _ _).2 hp, (mem_conflicting h (lead_mem hp.2).1).2 ⟨hx, hm⟩⟩
      have e2 : years.isEmpty = true ↔ ¬ ∃ part y, YearOf s part y := by
        rw [List.isEmpty_iff, List.eq_nil_iff_forall_not_mem]
        constructor
        · rintro hh ⟨part, y, hp⟩; exact hh _ ((hyears _ _).2 hp)
        · rintro hh ⟨part, y⟩ hp; exact hh ⟨part, y, (hyears _ _).1 hp⟩
      rw [e1]
      refine Iff.trans ?_ (Iff.symm (and_iff_right ht))
      refine or_congr Iff.rfl ?_
      by_cases he : years.isEmpty = true
      · rw [if_pos he]
        have := e2.1 he
        simp only [List.not_mem_nil, false_iff]
        exact fun hc => this hc.1
      · rw [if_neg he, List.mem_filter]
        simp only [Bool.and_eq_true, Bool.not_eq_true', ← Bool.not_eq_true (_ : Bool), tagged_iff, hsp]
        have := not_not.1 (fun hh => he (e2.2 hh))
        constructor
        · rintro ⟨_, ⟨k1, k2⟩, k3⟩; exact ⟨this, k1, k3, k2⟩
        · rintro ⟨_, k1, k3, k2⟩; exact ⟨hx, ⟨k1, k2⟩, k3⟩

/-! ### C68: detached numbers -/

theorem mem_weakEpisodes {s : Ms} {x : Mt} : x ∈ ((named s.live c!"episode").filter fun m => !m.priv && m.tagged c!"weak-episode") ↔
    x ∈ s.live ∧ WeakEpisode x := by
  rw [List.mem_filter, mem_named, Bool.and_eq_true, Bool.not_eq_true', tagged_iff]
  unfold WeakEpisode
  tauto

theorem intLt_weak {α : Type} (f : α → Int) : StrictWeak fun a b : α => decide (f a < f b) where
  asymm a b h := by simp only [decide_eq_true_eq, decide_eq_false_iff_not] at *; omega
  trans a b c h1 h2 := by simp only [decide_eq_false_iff_not] at *; omega

/-- C68 (`RemoveDetachedEpisodeNumber`): when public weak episodes have numbers, the smallest is below ten and is not followed
by its successor in the order of numbers, then the first weak episode of that number is dropped with all its parents, and
nothing else is. -/
theorem C68_detached {s : Ms} (h : Sound s) (kin : Kin)
    (numbers : ∀ m ∈ s.live, WeakEpisode m → ∃ v, m.value s.input = .int v) : ∃ s', removeDetached kin s = some s' ∧
    Drops s s' fun x => ∃ a v w, HasNumber s v ∧ HasNumber s w ∧ v < w ∧ (∀ z, HasNumber s z → z = v ∨ w ≤ z) ∧
      v < 10 ∧ w ≠ v + 1 ∧ FirstOf s.live (fun m => WeakEpisode m ∧ m.value s.input = .int v) a ∧
      ∃ y, (y = a ∨ y ∈ kin.ancestors a) ∧ y.key s.input = x.key s.input := by
  unfold removeDetached
  dsimp only
  generalize hw : ((named s.live c!"episode").filter fun m => !m.priv && m.tagged c!"weak-episode") = weak
  have hweak : ∀ x, x ∈ weak ↔ x ∈ s.live ∧ WeakEpisode x := fun x => by rw [← hw]; exact mem_weakEpisodes
  have hfw : ∀ {P : Mt → Prop} {x : Mt}, FirstOf weak P x ↔ FirstOf s.live (fun m => WeakEpisode m ∧ P m) x := by
    intro P x
    rw [← hw, firstOf_filter]
    unfold named
    rw [firstOf_filter]
    refine firstOf_congr (fun y _ => ?_) x
    simp only [Bool.and_eq_true, Bool.not_eq_true', tagged_iff, decide_eq_true_eq]
    unfold WeakEpisode
    tauto
  have hmem := fun x => fpv_mem (input := s.input) (l := weak) (seen := []) (x := x)
  have hcov := fun y => fpv_cover (input := s.input) (l := weak) (seen := []) (y := y)
  have hdis := fpv_distinct (input := s.input) (l := weak) (seen := [])
  generalize firstPerValue s.input [] weak = firsts at hmem hcov hdis
  have hin : ∀ x ∈ firsts, x ∈ weak := by
    intro x hx
    obtain ⟨pre, post, e, _⟩ := (hmem x hx).2
    rw [e]; simp
  have hint : ∀ x ∈ firsts, ∃ v, intValue s.input x = some v ∧ x.value s.input = .int v := by
    intro x hx
    have := (hweak x).1 (hin x hx)
    obtain ⟨v, hv⟩ := numbers x this.1 this.2
    exact ⟨v, intValue_iff.2 hv, hv⟩
  have hnum : ∀ z, HasNumber s z ↔ ∃ x ∈ firsts, x.value s.input = .int z := by
    intro z
    constructor
    · rintro ⟨m, h1, h2, h3⟩
      obtain ⟨x, hx, hv⟩ := hcov m ((hweak m).2 ⟨h1, h2⟩) (by simp)
      exact ⟨x, hx, hv.trans h3⟩
    · rintro ⟨x, hx, hv⟩
      have := (hweak x).1 (hin x hx)
      exact ⟨x, this.1, this.2, hv⟩
  have nothing : (¬ ∃ v w, HasNumber s v ∧ HasNumber s w ∧ v < w ∧ (∀ z, HasNumber s z → z = v ∨ w ≤ z) ∧ v < 10 ∧ w ≠ v + 1) →
      Drops s s fun x => ∃ a v w, HasNumber s v ∧ HasNumber s w ∧ v < w ∧ (∀ z, HasNumber s z → z = v ∨ w ≤ z) ∧
      v < 10 ∧ w ≠ v + 1 ∧ FirstOf s.live (fun m => WeakEpisode m ∧ m.value s.input = .int v) a ∧
      ∃ y, (y = a ∨ y ∈ kin.ancestors a) ∧ y.key s.input = x.key s.input := by
    intro hno
    refine ⟨rfl, rfl, List.Sublist.refl _, fun x hx => ?_⟩
    simp only [hx, true_iff]
    rintro ⟨a, v, w, k1, k2, k3, k4, k5, k6, _⟩
    exact hno ⟨v, w, k1, k2, k3, k4, k5, k6⟩
  by_cases hlen : firsts.length ≤ 1
  · rw [if_pos hlen]
    refine ⟨s, rfl, nothing ?_⟩
    rintro ⟨v, w, k1, k2, k3, _⟩
    obtain ⟨x, hx, hv⟩ := (hnum v).1 k1
    obtain ⟨y, hy, hw'⟩ := (hnum w).1 k2
    match firsts, hlen with
    | [], _ => simp at hx
    | [f], _ =>
      rw [List.mem_singleton] at hx hy
      subst hx; subst hy
      rw [hv] at hw'
      cases hw'
      omega
  · rw [if_neg hlen, if_neg]
    · have hp := sortBy_perm (fun a b : Mt => decide ((intValue s.input a).getD 0 < (intValue s.input b).getD 0)) firsts
      have hs := sortBy_sorted (intLt_weak fun m : Mt => (intValue s.input m).getD 0) firsts
      generalize sortBy (fun a b : Mt => decide ((intValue s.input a).getD 0 < (intValue s.input b).getD 0)) firsts = sorted at hp hs
      match sorted, hp, hs with
      | [], hp, _ => have := hp.length_eq; simp at this; omega
      | [_], hp, _ => have := hp.length_eq; simp at this; omega
      | a :: b :: rest, hp, hs =>
        dsimp only
        have ha := hp.subset (List.mem_cons_self (a := a) (l := b :: rest))
        have hb := hp.subset (List.mem_cons_of_mem a (List.mem_cons_self (a := b) (l := rest)))
        obtain ⟨v, hv1, hv⟩ := hint a ha
        obtain ⟨w, hw1, hw2⟩ := hint b hb
        rw [hv1, hw1]
        have hnd : ((a :: b :: rest).map (Mt.value s.input)).Nodup := (hp.map _).nodup_iff.2 hdis
        have hne : v ≠ w := by
          intro hc
          rw [List.map_cons, List.nodup_cons] at hnd
          exact hnd.1 (by rw [hv, hc, List.map_cons, hw2]; simp)
        rw [List.pairwise_cons, List.pairwise_cons] at hs
        have hle : v < w := by
          have := hs.1 b (by simp)
          simp only [hv1, hw1, Option.getD_some, decide_eq_false_iff_not] at this
          omega
        have hmin : ∀ z, HasNumber s z → z = v ∨ w ≤ z := by
          intro z hz
          obtain ⟨x, hx, hxz⟩ := (hnum z).1 hz
          have hx := hp.symm.subset hx
          rcases List.mem_cons.1 hx with rfl | hx
          · rw [hv] at hxz; cases hxz; exact Or.inl rfl
          · rcases List.mem_cons.1 hx with rfl | hx
            · rw [hw2] at hxz; cases hxz; exact Or.inr (Int.le_refl _)
            · have := hs.2.1 x hx
              rw [intValue_iff.2 hxz] at this
              simp only [hw1, Option.getD_some, decide_eq_false_iff_not] at this
              exact Or.inr (by omega)
        have nv : HasNumber s v := (hnum v).2 ⟨a, ha, hv⟩
        have nw : HasNumber s w := (hnum w).2 ⟨b, hb, hw2⟩
        have uniq : ∀ v' w', HasNumber s v' → HasNumber s w' → v' < w' → (∀ z, HasNumber s z → z = v' ∨ w' ≤ z) → v' = v ∧ w' = w := by
          intro v' w' k1 k2 k3 k4
          have a1 := k4 v nv
          have a2 := k4 w nw
          have a3 := hmin v' k1
          have a4 := hmin w' k2
          omega
        have hfa : FirstOf s.live (fun m => WeakEpisode m ∧ m.value s.input = .int v) a := by
          have := hfw.1 (hmem a ha).2
          rw [hv] at this
          exact this
        simp only [Option.getD_some]
        by_cases hc : v < 10 ∧ w - v ≠ 1
        · rw [if_pos hc]
          refine ⟨_, rfl, drops_keys' h fun x hx => ?_⟩
          constructor
          · rintro ⟨y, hy, hk⟩
            exact ⟨a, v, w, nv, nw, hle, hmin, hc.1, by omega, hfa, y, List.mem_cons.1 hy, hk⟩
          · rintro ⟨a', v', w', k1, k2, k3, k4, _, _, k5, y, hy, hk⟩
            obtain ⟨rfl, rfl⟩ := uniq v' w' k1 k2 k3 k4
            have haa : a' = a := by
              classical
              have e1 := (head_filter_iff (fun m => decide (WeakEpisode m ∧ m.value s.input = .int v')) s.live a').2
                ((firstOf_congr (fun y _ => by simp) a').1 k5)
              have e2 := (head_filter_iff (fun m => decide (WeakEpisode m ∧ m.value s.input = .int v')) s.live a).2
                ((firstOf_congr (fun y _ => by simp) a).1 hfa)
              rw [e1] at e2
              cases e2; rfl
            subst haa
            exact ⟨y, List.mem_cons.2 hy, hk⟩
        · rw [if_neg hc]
          refine ⟨s, rfl, nothing ?_⟩
          rintro ⟨v', w', k1, k2, k3, k4, k5, k6⟩
          obtain ⟨rfl, rfl⟩ := uniq v' w' k1 k2 k3 k4
          exact hc ⟨k5, by omega⟩
    · intro hc
      obtain ⟨x, hx, hv⟩ := List.any_eq_true.1 hc
      obtain ⟨v, hv', _⟩ := hint x hx
      rw [hv'] at hv
      simp at hv

/-- C68: the rule raises iff there are weak episodes of different values, not all numbers. -/
theorem C68_detached_error {s : Ms} (kin : Kin) : removeDetached kin s = none ↔
    (∃ m ∈ s.live, ∃ m' ∈ s.live, WeakEpisode m ∧ WeakEpisode m' ∧ m.value s.input ≠ m'.value s.input) ∧
    ∃ m ∈ s.live, WeakEpisode m ∧ ∀ v, m.value s.input ≠ .int v := by
  unfold removeDetached
  dsimp only
  generalize hw : ((named s.live c!"episode").filter fun m => !m.priv && m.tagged c!"weak-episode") = weak
  have hweak : ∀ x, x ∈ weak ↔ x ∈ s.live ∧ WeakEpisode x := fun x => by rw [← hw]; exact mem_weakEpisodes
  have hmem := fun x => fpv_mem (input := s.input) (l := weak) (seen := []) (x := x)
  have hcov := fun y => fpv_cover (input := s.input) (l := weak) (seen := []) (y := y)
  have hdis := fpv_distinct (input := s.input) (l := weak) (seen := [])
  generalize firstPerValue s.input [] weak = firsts at hmem hcov hdis
  have hin : ∀ x ∈ firsts, x ∈ weak := by
    intro x hx
    obtain ⟨pre, post, e, _⟩ := (hmem x hx).2
    rw [e]; simp
  by_cases hlen : firsts.length ≤ 1
  · rw [if_pos hlen]
    simp only [reduceCtorEq, false_iff]
    rintro ⟨⟨m, h1, m', h1', h2, h2', h3⟩, _⟩
    obtain ⟨x, hx, hv⟩ := hcov m ((hweak m).2 ⟨h1, h2⟩) (by simp)
    obtain ⟨y, hy, hv'⟩ := hcov m' ((hweak m').2 ⟨h1', h2'⟩) (by simp)
    match firsts, hlen with
    | [], _ => simp at hx
    | [f], _ =>
      rw [List.mem_singleton] at hx hy
      subst hx; subst hy
      exact h3 (hv.symm.trans hv')
  · rw [if_neg hlen]
    by_cases hc : (firsts.any fun m => (intValue s.input m).isNone) = true
    · rw [if_pos hc]
      simp only [true_iff]
      obtain ⟨x, hx, hv⟩ := List.any_eq_true.1 hc
      constructor
      · match firsts, hlen with
        | [], hlen => simp at hlen
        | [_], hlen => simp at hlen
        | a :: b :: r, _ =>
          have ha := (hweak a).1 (hin a (by simp))
          have hb := (hweak b).1 (hin b (by simp))
          refine ⟨a, ha.1, b, hb.1, ha.2, hb.2, ?_⟩
          intro he
          rw [List.map_cons, List.nodup_cons] at hdis
          exact hdis.1 (by rw [he]; simp)
      · have := (hweak x).1 (hin x hx)
        refine ⟨x, this.1, this.2, fun v hv' => ?_⟩
        rw [intValue_iff.2 hv'] at hv
        simp at hv
    · rw [if_neg hc]
      have hsome : (match sortBy (fun a b : Mt => decide ((intValue s.input a).getD 0 < (intValue s.input b).getD 0)) firsts with
        | a :: b :: _ =>
          if (intValue s.input a).getD 0 < 10 ∧ (intValue s.input b).getD 0 - (intValue s.input a).getD 0 ≠ 1 then
            some (dropping s (a :: kin.ancestors a)) else some s
        | _ => some s) ≠ none := by
        split
        · split <;> simp
        · simp
      refine ⟨fun hh => absurd hh hsome, ?_⟩
      rintro ⟨_, m, h1, h2, h3⟩
      exfalso
      apply hc
      obtain ⟨x, hx, hv⟩ := hcov m ((hweak m).2 ⟨h1, h2⟩) (by simp)
      refine List.any_eq_true.2 ⟨x, hx, ?_⟩
      cases hi : intValue s.input x with
      | none => rfl
      | some v => exact absurd (hv.symm.trans (intValue_iff.1 hi)) (h3 v)

/-! ### C68: weak episodes after technical properties -/

namespace Spec

/-- `weak` is the first weak episode of the path part, and `p`, a technical property, is just before it with no text
between them. -/
def AfterTechnical (s : Ms) (part weak p : Mt) : Prop :=
  IsPart s part ∧ Lead s.live (fun m => Overlaps part m ∧ c!"weak-episode" ∈ m.tags) weak ∧
  JustBefore s.live (· ∈ [c!"audio_codec", c!"screen_size", c!"streaming_service", c!"source", c!"video_profile",
    c!"audio_channels", c!"audio_profile"]) weak p ∧
  NoText s.input s.live p.stop weak.start

end Spec

/-- C68 (`RemoveWeak`): when a technical property is just before the first weak episode of a path part, all the weak episodes
of the part are dropped; and if that property is spelled as an episode word and the value of the weak episode is a number,
an episode is added that starts where the property starts, ends where the weak episode ends, and has that number. -/
theorem C68_remove_weak {s : Ms} (h : Sound s) (lower : Str → Str) (toInt : MVal → Option Int) (words : List Str) :
    ∃ kept, Drops s { s with live := kept } (fun x => c!"weak-episode" ∈ x.tags ∧
        ∃ part weak p, AfterTechnical s part weak p ∧ Overlaps part x) ∧
      Adds s.input kept (removeWeak lower toInt words s).live (fun c => ∃ part weak p n, AfterTechnical s part weak p ∧
        lower (p.raw s.input) ∈ words ∧ toInt (weak.value s.input) = some n ∧
        c = { weak with
          name := some c!"episode", val := some (.int n), start := p.start, priv := false, tags := [],
          istart := if weak.parent.isNone then p.start else weak.istart
          iname := if weak.parent.isNone then some c!"episode" else weak.iname }) ∧
      (removeWeak lower toInt words s).input = s.input ∧ (removeWeak lower toInt words s).markers = s.markers := by
  have hlead : ∀ part weak : Mt, (∃ rest, rangeOf s.input s.live part.start part.stop (fun m => m.tagged c!"weak-episode") = weak :: rest) ↔
      Lead s.live (fun m => Overlaps part m ∧ c!"weak-episode" ∈ m.tags) weak := by
    intro part weak
    have e : (∃ rest, rangeOf s.input s.live part.start part.stop (fun m => m.tagged c!"weak-episode") = weak :: rest) ↔
        firstIn s part.start part.stop (fun m => m.tagged c!"weak-episode") = some weak := by
      unfold firstIn
      rw [firstTrue_eq (fun m hm => h.pos m ((mem_range h.pos).1 hm).1)]
      cases rangeOf s.input s.live part.start part.stop (fun m => m.tagged c!"weak-episode") with
      | nil => simp
      | cons a l => simp
    rw [e, firstIn_iff h]
    refine lead_congr fun x _ => ?_
    rw [tagged_iff]
    unfold Overlaps
    tauto
  have hprev : ∀ weak p : Mt, firstTrue (previous s.live weak fun m => m.isOneOf technical) = some p ↔
      JustBefore s.live (· ∈ [c!"audio_codec", c!"screen_size", c!"streaming_service", c!"source", c!"video_profile",
        c!"audio_channels", c!"audio_profile"]) weak p := by
    intro weak p
    refine previous_iff h.pos _ _ (fun x => ?_) weak p
    rw [isOneOf_iff]
    unfold NamedIn technical
    constructor <;> rintro ⟨n, h1, h2⟩ <;> exact ⟨n, h2, h1⟩
  have key : ∀ part : Mt, part ∈ pathParts s →
      ((∃ weak p, AfterTechnical s part weak p ∧
        (removeWeakPart lower toInt words s part).1 = rangeOf s.input s.live part.start part.stop (fun m => m.tagged c!"weak-episode") ∧
        (removeWeakPart lower toInt words s part).2 = if words.contains (lower (p.raw s.input)) then
          ((toInt (weak.value s.input)).map (weakCopy weak p)).toList else []) ∨
      ((¬ ∃ weak p, AfterTechnical s part weak p) ∧ removeWeakPart lower toInt words s part = ([], []))) := by
    intro part hp
    unfold removeWeakPart
    dsimp only
    cases hw : rangeOf s.input s.live part.start part.stop (fun m => m.tagged c!"weak-episode") with
    | nil =>
      right
      refine ⟨?_, rfl⟩
      rintro ⟨weak, p, _, h1, _⟩
      obtain ⟨rest, h2⟩ := (hlead part weak).2 h1
      rw [hw] at h2; cases h2
    | cons weak rest =>
      dsimp only
      have hl := (hlead part weak).1 ⟨rest, hw⟩
      cases hq : firstTrue (previous s.live weak fun m => m.isOneOf technical) with
      | none =>
        right
        refine ⟨?_, rfl⟩
        rintro ⟨weak', p, _, h1, h2, _⟩
        have := lead_unique hl h1
        subst this
        rw [← hprev, hq] at h2; cases h2
      | some p =>
        dsimp only
        by_cases ht : hasText s.input s.live p.stop weak.start = true
        · right
          rw [if_pos ht]
          refine ⟨?_, rfl⟩
          rintro ⟨weak', p', _, h1, h2, h3⟩
          have := lead_unique hl h1
          subst this
          rw [← hprev, hq] at h2; cases h2
          exact (hasText_iff'.1 ht) h3
        · left
          rw [if_neg ht]
          rw [Bool.not_eq_true, hasText_iff] at ht
          exact ⟨weak, p, ⟨mem_parts.1 hp, hl, (hprev _ _).1 hq, ht⟩, rfl, rfl⟩
  have hun : ∀ {part weak p weak' p'}, AfterTechnical s part weak p → AfterTechnical s part weak' p' → weak' = weak ∧ p' = p := by
    intro part weak p weak' p' h1 h2
    have := lead_unique h2.2.1 h1.2.1
    subst this
    have e1 := (hprev _ _).2 h1.2.2.1
    have e2 := (hprev _ _).2 h2.2.2.1
    rw [e1] at e2
    cases e2
    exact ⟨rfl, rfl⟩
  refine ⟨removeAll s.input s.live (((pathParts s).map (removeWeakPart lower toInt words s)).flatMap Prod.fst), ?_, ?_, rfl, rfl⟩
  · refine drops_mem h ?_ fun x hx => ?_
    · intro m hm
      obtain ⟨r, hr, hm⟩ := List.mem_flatMap.1 hm
      obtain ⟨part, hp, rfl⟩ := List.mem_map.1 hr
      rcases key part hp with ⟨weak, p, _, h1, _⟩ | ⟨_, h1⟩
      · rw [h1] at hm
        exact ((mem_range h.pos).1 hm).1
      · rw [h1] at hm; simp at hm
    · rw [List.mem_flatMap]
      constructor
      · rintro ⟨r, hr, hm⟩
        obtain ⟨part, hp, rfl⟩ := List.mem_map.1 hr
        rcases key part hp with ⟨weak, p, ha, h1, _⟩ | ⟨_, h1⟩
        · rw [h1] at hm
          obtain ⟨_, h2, h3, h4⟩ := (mem_range h.pos).1 hm
          exact ⟨tagged_iff.1 h4, part, weak, p, ha, h2, h3⟩
        · rw [h1] at hm; simp at hm
      · rintro ⟨h4, part, weak, p, ha, h2, h3⟩
        have hp := mem_parts.2 ha.1
        refine ⟨_, List.mem_map.2 ⟨part, hp, rfl⟩, ?_⟩
        rcases key part hp with ⟨weak', p', _, h1, _⟩ | ⟨hn, _⟩
        · rw [h1]
          exact (mem_range h.pos).2 ⟨hx, h2, h3, tagged_iff.2 h4⟩
        · exact absurd ⟨weak, p, ha⟩ hn
  · refine adds_congr (fun c => ?_) (adds_all s.input _ _)
    rw [List.mem_flatMap]
    constructor
    · rintro ⟨r, hr, hm⟩
      obtain ⟨part, hp, rfl⟩ := List.mem_map.1 hr
      rcases key part hp with ⟨weak, p, ha, _, h1⟩ | ⟨_, h1⟩
      · rw [h1] at hm
        split at hm
        · rename_i hc
          rw [List.contains_iff_mem] at hc
          rw [Option.mem_toList, Option.map_eq_some_iff] at hm
          obtain ⟨n, hn, rfl⟩ := hm
          exact ⟨part, weak, p, n, ha, hc, hn, rfl⟩
        · simp at hm
      · rw [h1] at hm; simp at hm
    · rintro ⟨part, weak, p, n, ha, hc, hn, rfl⟩
      have hp := mem_parts.2 ha.1
      refine ⟨_, List.mem_map.2 ⟨part, hp, rfl⟩, ?_⟩
      rcases key part hp with ⟨weak', p', ha', _, h1⟩ | ⟨hno, _⟩
      · obtain ⟨rfl, rfl⟩ := hun ha ha'
        rw [h1, if_pos (List.contains_iff_mem.2 hc), Option.mem_toList, hn]
        rfl
      · exact absurd ⟨weak, p, ha⟩ hno

/-! ### examples -/

def weakState : Ms where
  input := c!"12 foo S01E02 03 foo 04"
  live := [wordMt 1 0 2 [c!"weak-episode"] c!"episode", wordMt 2 7 10 [c!"SxxExx"] c!"season", wordMt 3 14 16 [c!"weak-episode"] c!"episode",
    wordMt 4 21 23 [c!"weak-duplicate"] c!"episode", wordMt 5 10 13 [c!"weak-duplicate"] c!"episode"]
  markers := [wordMt 9 0 23 [] c!"path"]

example : Sound weakState ∧ (removeWeakIfSxxExx weakState).live.map Mt.id = [2, 4, 5] ∧
    (removeWeakIfSxxExx { weakState with live := weakState.live.map fun m => { m with iname := some c!"weak_episode" } }).live.map Mt.id =
      [1, 2, 4, 5] ∧
    (removeWeakDuplicate { alone with pattern := fun _ => 0 } weakState).live.map Mt.id = [1, 2, 3, 4] :=
  ⟨sound_of (by decide) (by decide), by decide +kernel, by decide +kernel, by decide +kernel⟩

/-- Numbers found by the weak patterns. -/
def numberMt (id a b : Nat) (n : Int) (tags : List Str := [c!"weak-episode"]) (name : Str := c!"episode") : Mt :=
  { wordMt id a b tags name with val := some (.int n) }

def movieState : Ms where
  input := c!"12 2008 19 AAC 20 ep 5"
  live := [numberMt 1 0 2 12, numberMt 2 3 7 2008 [] c!"year", numberMt 3 4 7 8, numberMt 4 8 10 19, wordMt 5 11 14 [] c!"audio_codec",
    numberMt 6 15 17 20 [c!"anime", c!"weak-episode"]]
  markers := [wordMt 9 0 22 [] c!"path"]

example : Sound movieState ∧ (removeWeakIfMovie alone none movieState).live.map Mt.id = [2, 5, 6] ∧
    (removeWeakIfMovie alone (some c!"episode") movieState).live.map Mt.id = [1, 2, 3, 4, 5, 6] ∧
    (removeDetached alone movieState).map (fun s => s.live.map Mt.id) = some [1, 2, 4, 5, 6] :=
  ⟨sound_of (by decide) (by decide), by decide +kernel, by decide +kernel, by decide +kernel⟩

def technicalState : Ms where
  input := c!"foo AC3 05 06"
  live := [wordMt 1 4 7 [] c!"audio_codec", numberMt 2 8 10 5, numberMt 3 11 13 6]
  markers := [wordMt 9 0 13 [] c!"path"]

example : Sound technicalState ∧
    ((removeWeak id (fun v => match v with | .int n => some n | _ => none) [c!"AC3"] technicalState).live.map fun m => (m.id, m.start, m.stop)) =
      [(1, 4, 7), (2, 4, 10)] ∧
    (removeWeak id (fun v => match v with | .int n => some n | _ => none) [] technicalState).live.map Mt.id = [1] :=
  ⟨sound_of (by decide) (by decide), by decide +kernel, by decide +kernel⟩

def detailState : Ms where
  input := c!"xSpecial Finalv2 Pilot S01 (5) E07 X08 S02"
  live := [wordMt 1 1 8 [] c!"episode_details", wordMt 2 14 16 [] c!"version", wordMt 3 17 22 [] c!"episode_details",
    wordMt 4 23 26 [c!"SxxExx"] c!"season", wordMt 5 28 29 [] c!"episode", wordMt 6 31 32 [] c!"episodeMarker",
    wordMt 7 32 34 [c!"SxxExx"] c!"episode", wordMt 8 35 36 [] c!"episodeMarker", wordMt 9 36 38 [c!"SxxExx"] c!"episode",
    wordMt 10 40 42 [] c!"season"]
  markers := [wordMt 11 0 42 [] c!"path", wordMt 12 27 30 [] c!"group"]

example : Sound detailState ∧ (episodeDetailValidator detailState).live.map Mt.id = [2, 3, 4, 5, 6, 7, 8, 9, 10] ∧
    (versionValidator detailState).live.map Mt.id = [1, 3, 4, 5, 6, 7, 8, 9, 10] ∧
    (episodeSingleDigit detailState).live.map Mt.id = [1, 2, 3, 4, 6, 7, 8, 9, 10] ∧
    (removeInvalidEpisode alone id detailState).live.map Mt.id = [1, 2, 3, 4, 5, 6, 7, 8, 10] ∧
    (removeInvalidSeason { alone with children := fun m => if m.id = 4 then [wordMt 13 0 1 [] c!"episode"] else [] } detailState).live.map Mt.id =
      [1, 2, 3, 4, 5, 6, 7, 8, 9] :=
  ⟨sound_of (by decide) (by decide), by decide +kernel, by decide +kernel, by decide +kernel, by decide +kernel, by decide +kernel⟩

end Guessit
