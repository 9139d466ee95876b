import Verif.Props.Conflicts
import Verif.Props.Counts

/-! # C91, C92: absolute numbers, discs -/

namespace Guessit
open Spec

/-! ## Renaming a list of matches -/

theorem removedBy_spec (input : Str) : ∀ (ms l : List Mt), (l.map (Mt.key input)).Nodup → (∀ m ∈ ms, ∀ x ∈ l, m.key input = x.key input → m = x) →
    (removedBy input l ms).Nodup ∧ ∀ x, x ∈ removedBy input l ms ↔ x ∈ ms ∧ x ∈ l := by
  intro ms
  induction ms with
  | nil => intro l _ _; simp [removedBy]
  | cons m ms ih =>
    intro l hn hm
    rw [removedBy]
    by_cases hh : hasMatch input l m = true
    · rw [if_pos hh]
      obtain ⟨y, hy, hk⟩ := hasMatch_iff.1 hh
      have hml : m ∈ l := by rw [hm m (by simp) y hy hk]; exact hy
      have hrem : ∀ x, x ∈ removeMatch input l m ↔ x ∈ l ∧ m.key input ≠ x.key input := by
        intro x
        have := mem_removeAll_nodup (ms := [m]) hn (x := x)
        simpa [removeAll] using this
      obtain ⟨i1, i2⟩ := ih (removeMatch input l m) (hn.sublist ((removeMatch_sublist _ _ _).map _))
        fun a ha x hx hk => hm a (List.mem_cons_of_mem _ ha) x ((hrem x).1 hx).1 hk
      constructor
      · rw [List.nodup_cons]
        refine ⟨fun hc => ?_, i1⟩
        exact ((hrem m).1 ((i2 m).1 hc).2).2 rfl
      · intro x
        rw [List.mem_cons, i2, hrem, List.mem_cons]
        constructor
        · rintro (rfl | ⟨h1, h2, _⟩)
          · exact ⟨Or.inl rfl, hml⟩
          · exact ⟨Or.inr h1, h2⟩
        · rintro ⟨h1, h2⟩
          by_cases hx : x = m
          · exact Or.inl hx
          · refine Or.inr ⟨h1.resolve_left hx, h2, fun hc => hx (hm m (by simp) x h2 hc).symm⟩
    · rw [if_neg hh]
      obtain ⟨i1, i2⟩ := ih l hn fun a ha => hm a (List.mem_cons_of_mem _ ha)
      refine ⟨i1, fun x => ?_⟩
      rw [i2, List.mem_cons]
      constructor
      · rintro ⟨h1, h2⟩; exact ⟨Or.inr h1, h2⟩
      · rintro ⟨rfl | h1, h2⟩
        · exact absurd (hasMatch_iff.2 ⟨x, h2, rfl⟩) hh
        · exact ⟨h1, h2⟩

/-- `RenameMatch` on any list of matches, some of which are in `A`, none in `B`. -/
theorem renameAll_list (input : Str) (name : Str) (sel A B : List Mt) (hA : (A.map (Mt.key input)).Nodup)
    (hsel : ∀ m ∈ sel, ∀ x ∈ A, m.key input = x.key input → m = x) (hB : ∀ m ∈ sel, ∀ b ∈ B, m.key input ≠ b.key input)
    (hname : ∀ m ∈ sel, m ∈ A → m.name ≠ some name) :
    ∃ k : List Mt, k.Nodup ∧ (∀ x, x ∈ k ↔ x ∈ sel ∧ x ∈ A) ∧
      renameAll input name (A ++ B) sel = removeAll input A sel ++ B ++ k.map (called name) := by
  obtain ⟨h1, h2⟩ := removedBy_spec input sel A hA hsel
  refine ⟨removedBy input A sel, h1, h2, ?_⟩
  unfold renameAll
  rw [removeAll_append input _ A B hB, removedBy_append input _ A B hB, appendNamed_fresh]
  · rfl
  · intro m hm x hx hk
    rcases List.mem_append.1 hx with hx | hx
    · exact (mem_removeAll_nodup hA).1 hx |>.2 m ((h2 m).1 hm).1 hk
    · exact hB m ((h2 m).1 hm).1 x hx hk
  · intro m hm; exact hname m ((h2 m).1 hm).1 ((h2 m).1 hm).2

theorem renamesAll_filter {s : Ms} (h : Sound s) (name : Str) (f : Mt → Bool) {P : Mt → Prop} (hP : ∀ x ∈ s.live, f x = true ↔ P x)
    (hname : ∀ x ∈ s.live, f x = true → x.name ≠ some name) :
    Renames s { s with live := renameAll s.input name s.live (s.live.filter f) } name P := by
  refine ⟨rfl, rfl, s.live.filter (fun m => !f m), s.live.filter f, List.filter_sublist, List.filter_sublist, ?_, ?_, ?_⟩
  · intro x hx
    rw [List.mem_filter, ← hP x hx]
    simp [hx]
  · intro x hx
    rw [List.mem_filter, ← hP x hx]
    simp [hx]
  · obtain ⟨g, hg⟩ : ∃ g : Mt → Bool, g = fun m => f m && decide (m.name ≠ some name) := ⟨_, rfl⟩
    have hfg : s.live.filter f = s.live.filter g := List.filter_congr fun x hx => by
      rw [hg]
      cases hfx : f x with
      | false => simp [hfx]
      | true => simp [hfx, hname x hx hfx]
    have hfg' : (s.live.filter fun m => !f m) = s.live.filter fun m => !g m := List.filter_congr fun x hx => by
      rw [hg]
      cases hfx : f x with
      | false => simp [hfx]
      | true => simp [hfx, hname x hx hfx]
    have := renameAll_filter s.input name g s.live [] h.distinct (fun m hm => by
      rw [hg] at hm
      simp only [Bool.and_eq_true, decide_eq_true_eq] at hm
      exact hm.2) (by simp)
    rw [List.append_nil, List.append_nil] at this
    show renameAll s.input _ s.live (s.live.filter f) = _
    rw [hfg, hfg', this]

/-! ## C91 -/

theorem two_named {l : List Mt} {n : Str} : (named l n).length > 1 ↔ ∃ a b, [a, b].Sublist l ∧ a.name = some n ∧ b.name = some n := by
  constructor
  · intro h
    match hl : named l n, h with
    | a :: b :: rest, _ =>
      have hs : [a, b].Sublist (named l n) := by rw [hl]; exact (List.Sublist.refl [a, b]).append (List.nil_sublist rest) (l₁ := [a, b]) (r₁ := [])
      obtain ⟨h1, h2, h3⟩ := pair_filter.1 hs
      exact ⟨a, b, h3, of_decide_eq_true h1, of_decide_eq_true h2⟩
  · rintro ⟨a, b, h1, h2, h3⟩
    have : [a, b].Sublist (named l n) := pair_filter.2 ⟨decide_eq_true h2, decide_eq_true h3, h1⟩
    exact this.length_le

theorem addNew_fold (input : Str) : ∀ (ms acc : List Mt), (acc.map (Mt.key input)).Nodup →
    ((ms.foldl (addNew input) acc).map (Mt.key input)).Nodup ∧ (∀ x ∈ ms.foldl (addNew input) acc, x ∈ acc ∨ x ∈ ms) ∧
    ∀ x, (x ∈ acc ∨ x ∈ ms) → ∃ y ∈ ms.foldl (addNew input) acc, y.key input = x.key input := by
  intro ms
  induction ms with
  | nil => intro acc h; exact ⟨h, fun x hx => Or.inl hx, fun x hx => ⟨x, hx.resolve_right (by simp), rfl⟩⟩
  | cons m ms ih =>
    intro acc h
    rw [List.foldl_cons]
    by_cases hh : acc.any (Mt.eqv input m) = true
    · have e : addNew input acc m = acc := by unfold addNew; rw [if_pos hh]
      rw [e]
      obtain ⟨i1, i2, i3⟩ := ih acc h
      refine ⟨i1, fun x hx => (i2 x hx).imp_right (List.mem_cons_of_mem _), fun x hx => ?_⟩
      rcases hx with hx | hx
      · exact i3 x (Or.inl hx)
      · rcases List.mem_cons.1 hx with rfl | hx
        · obtain ⟨y, hy, hk⟩ := List.any_eq_true.1 hh
          obtain ⟨z, hz, hzk⟩ := i3 y (Or.inl hy)
          exact ⟨z, hz, hzk.trans (eqv_iff.1 hk).symm⟩
        · exact i3 x (Or.inr hx)
    · have e : addNew input acc m = acc ++ [m] := by unfold addNew; rw [if_neg hh]
      rw [e]
      obtain ⟨i1, i2, i3⟩ := ih (acc ++ [m]) (by
        rw [List.map_append, List.nodup_append]
        refine ⟨h, by simp, ?_⟩
        intro a ha b hb hab
        obtain ⟨y, hy, rfl⟩ := List.mem_map.1 ha
        rw [List.map_singleton, List.mem_singleton] at hb
        exact hh (List.any_eq_true.2 ⟨y, hy, eqv_iff.2 (by rw [hab, hb])⟩))
      refine ⟨i1, fun x hx => ?_, fun x hx => i3 x ?_⟩
      · rcases i2 x hx with h1 | h1
        · rcases List.mem_append.1 h1 with h1 | h1
          · exact Or.inl h1
          · rw [List.mem_singleton] at h1; rw [h1]; exact Or.inr (by simp)
        · exact Or.inr (List.mem_cons_of_mem _ h1)
      · rcases hx with hx | hx
        · exact Or.inl (by simp [hx])
        · rcases List.mem_cons.1 hx with rfl | hx
          · exact Or.inl (by simp)
          · exact Or.inr hx

theorem initiators_spec (kin : Kin) (s : Ms) : ((rangeInitiators kin s).map (Mt.key s.input)).Nodup ∧
    (∀ i ∈ rangeInitiators kin s, EpisodeRange kin s i) ∧
    ∀ i, EpisodeRange kin s i → ∃ j ∈ rangeInitiators kin s, j.key s.input = i.key s.input := by
  unfold rangeInitiators
  generalize hms : (((named s.live c!"episode").filter fun m => decide ((named (kin.children (kin.initiator m)) c!"episode").length > 1)).map
    kin.initiator) = ms
  have hmem : ∀ i, i ∈ ms ↔ EpisodeRange kin s i := by
    intro i
    rw [← hms, List.mem_map]
    unfold EpisodeRange
    constructor
    · rintro ⟨m, hm, rfl⟩
      rw [List.mem_filter, mem_named, decide_eq_true_eq, two_named] at hm
      exact ⟨⟨m, hm.1.1, hm.1.2, rfl⟩, hm.2⟩
    · rintro ⟨⟨m, h1, h2, rfl⟩, h3⟩
      refine ⟨m, ?_, rfl⟩
      rw [List.mem_filter, mem_named, decide_eq_true_eq, two_named]
      exact ⟨⟨h1, h2⟩, h3⟩
  obtain ⟨i1, i2, i3⟩ := addNew_fold s.input ms [] (by simp)
  exact ⟨i1, fun i hi => (hmem i).1 ((i2 i hi).resolve_left (by simp)), fun i hi => i3 i (Or.inr ((hmem i).2 hi))⟩

/-- The list the rule sorts has two elements just when there are two ranges. -/
theorem twoRanges_iff (kin : Kin) (s : Ms) : (rangeInitiators kin s).length = 2 ↔ ∃ i j, TwoRanges kin s i j := by
  obtain ⟨h1, h2, h3⟩ := initiators_spec kin s
  constructor
  · intro hl
    match he : rangeInitiators kin s, hl with
    | [i, j], _ =>
      rw [he] at h1 h2 h3
      refine ⟨i, j, h2 i (by simp), h2 j (by simp), ?_, ?_⟩
      · simpa using h1
      · intro k hk
        obtain ⟨y, hy, hyk⟩ := h3 k hk
        simp only [List.mem_cons, List.not_mem_nil, or_false] at hy
        rcases hy with rfl | rfl
        · exact Or.inl hyk.symm
        · exact Or.inr hyk.symm
  · rintro ⟨i, j, t1, t2, t3, t4⟩
    obtain ⟨a, ha, hak⟩ := h3 i t1
    obtain ⟨b, hb, hbk⟩ := h3 j t2
    have hperm : ((rangeInitiators kin s).map (Mt.key s.input)).Perm [i.key s.input, j.key s.input] := by
      rw [List.perm_ext_iff_of_nodup h1 (by simpa using t3)]
      intro k
      constructor
      · intro hk
        obtain ⟨y, hy, rfl⟩ := List.mem_map.1 hk
        simpa using t4 y (h2 y hy)
      · intro hk
        simp only [List.mem_cons, List.not_mem_nil, or_false] at hk
        rcases hk with rfl | rfl
        · exact List.mem_map.2 ⟨a, ha, hak⟩
        · exact List.mem_map.2 ⟨b, hb, hbk⟩
    simpa using hperm.length_eq

theorem eqv_key {s : Ms} {a b : Mt} : Mt.eqv s.input a b = true ↔ a.key s.input = b.key s.input := eqv_iff

/-- C91, when there are not just two ranges of episodes: a weak number that starts a part, with an episode beyond its first character, is
dropped if there is an SxxExx episode there, and else becomes an absolute episode. -/
theorem C91_leading (kin : Kin) (s : Ms) (h : Laid s) (hno : ¬ Found s.live c!"absolute_episode") (h2 : ¬ ∃ i j, TwoRanges kin s i j) :
    ∃ s', renameAbsolute kin s = some s' ∧
      Reworks s s' (fun x => ∃ part, LeadingNumber s part x ∧ ∃ e, EpisodeBeyond s part e ∧ c!"SxxExx" ∈ e.tags)
        (fun x => ∃ part, LeadingNumber s part x ∧ ¬ ∃ e, EpisodeBeyond s part e ∧ c!"SxxExx" ∈ e.tags) (called c!"absolute_episode") := by
  have hlen : (sortBy (fun a b : Mt => decide (a.stop < b.stop)) (rangeInitiators kin s)).length ≠ 2 := by
    rw [(sortBy_perm _ _).length_eq, ne_eq, twoRanges_iff]
    exact h2
  have hbey : ∀ (part : Mt) (p : Mt → Bool), (laterEpisodes s part p).isEmpty = false ↔ ∃ e, EpisodeBeyond s part e ∧ p e = true := by
    intro part p
    unfold laterEpisodes EpisodeBeyond
    rw [← Bool.not_eq_true, range_empty h.sound.pos, not_not]
    simp only [Bool.and_eq_true, decide_eq_true_eq]
    constructor
    · rintro ⟨m, k1, k2, k3, k4, k5⟩; exact ⟨m, ⟨k1, k4, k2, k3⟩, k5⟩
    · rintro ⟨m, ⟨k1, k4, k2, k3⟩, k5⟩; exact ⟨m, k1, k2, k3, k4, k5⟩
  have hcand : ∀ part ∈ pathParts s, ∀ x, x ∈ absoluteCandidates s part ↔ x ∈ s.live ∧ LeadingNumber s part x := by
    intro part hp x
    unfold absoluteCandidates LeadingNumber
    have hb := hbey part fun _ => true
    split
    · rename_i he
      rw [he] at hb
      simp only [Bool.true_eq_false, false_iff, and_true] at hb
      simp only [List.not_mem_nil, false_iff]
      rintro ⟨_, _, _, _, hc⟩
      exact hb hc
    · rename_i he
      rw [Bool.not_eq_true] at he
      simp only [and_true] at hb
      simp only [starting, List.mem_filter, decide_eq_true_eq]
      constructor
      · rintro ⟨⟨k1, k2⟩, k3⟩; exact ⟨k1, mem_parts.1 hp, k2, k3, hb.1 he⟩
      · rintro ⟨k1, _, k2, k3, _⟩; exact ⟨⟨k1, k2⟩, k3⟩
  have hstrong : ∀ part : Mt, (!(laterEpisodes s part fun m => m.tagged c!"SxxExx").isEmpty) = true ↔
      ∃ e, EpisodeBeyond s part e ∧ c!"SxxExx" ∈ e.tags := by
    intro part
    rw [Bool.not_eq_true', hbey]
    simp only [tagged_iff]
  unfold renameAbsolute
  split
  · rename_i he
    rw [he] at hlen
    exact absurd rfl hlen
  · dsimp only
    generalize hr : ((pathParts s).flatMap fun part => if (!(laterEpisodes s part fun m => m.tagged c!"SxxExx").isEmpty) = true then [] else
      absoluteCandidates s part) = ren
    generalize hg : ((pathParts s).flatMap fun part => if (!(laterEpisodes s part fun m => m.tagged c!"SxxExx").isEmpty) = true then
      absoluteCandidates s part else []) = rem
    have hrm : ∀ x, x ∈ ren ↔ x ∈ s.live ∧ ∃ part, LeadingNumber s part x ∧ ¬ ∃ e, EpisodeBeyond s part e ∧ c!"SxxExx" ∈ e.tags := by
      intro x
      rw [← hr, List.mem_flatMap]
      constructor
      · rintro ⟨part, hp, hx⟩
        split at hx
        · simp at hx
        · rename_i hns
          rw [hstrong] at hns
          obtain ⟨k1, k2⟩ := (hcand part hp x).1 hx
          exact ⟨k1, part, k2, hns⟩
      · rintro ⟨k1, part, k2, k3⟩
        refine ⟨part, mem_parts.2 k2.1, ?_⟩
        rw [if_neg (fun hc => k3 ((hstrong part).1 hc))]
        exact (hcand part (mem_parts.2 k2.1) x).2 ⟨k1, k2⟩
    have hgm : ∀ x, x ∈ rem ↔ x ∈ s.live ∧ ∃ part, LeadingNumber s part x ∧ ∃ e, EpisodeBeyond s part e ∧ c!"SxxExx" ∈ e.tags := by
      intro x
      rw [← hg, List.mem_flatMap]
      constructor
      · rintro ⟨part, hp, hx⟩
        split at hx
        · rename_i hns
          rw [hstrong] at hns
          obtain ⟨k1, k2⟩ := (hcand part hp x).1 hx
          exact ⟨k1, part, k2, hns⟩
        · simp at hx
      · rintro ⟨k1, part, k2, k3⟩
        refine ⟨part, mem_parts.2 k2.1, ?_⟩
        rw [if_pos ((hstrong part).2 k3)]
        exact (hcand part (mem_parts.2 k2.1) x).2 ⟨k1, k2⟩
    have hname : ∀ x ∈ s.live, x.name ≠ some c!"absolute_episode" := fun x hx hc => hno ⟨x, hx, hc⟩
    obtain ⟨k, k1, k2, k3⟩ := renameAll_list s.input c!"absolute_episode" ren s.live [] h.sound.distinct
      (fun m hm x hx hk => key_inj h.sound hx ((hrm m).1 hm).1 hk) (by simp) (fun m _ hm => hname m hm)
    rw [List.append_nil, List.append_nil] at k3
    refine ⟨_, rfl, rfl, rfl, removeAll s.input (removeAll s.input s.live ren) rem, k, (removeAll_sublist _ _ _).trans (removeAll_sublist _ _ _), ?_,
      k1, ?_, ?_⟩
    · intro x hx
      have hn2 : ((removeAll s.input s.live ren).map (Mt.key s.input)).Nodup := h.sound.distinct.sublist ((removeAll_sublist _ _ _).map _)
      rw [mem_removeAll_nodup hn2, mem_removeAll_nodup h.sound.distinct]
      have hkeys : ∀ l : List Mt, (∀ m ∈ l, m ∈ s.live) → ((∀ m ∈ l, m.key s.input ≠ x.key s.input) ↔ x ∉ l) := by
        intro l hl
        constructor
        · intro hh hc; exact hh x hc rfl
        · intro hh m hm hk; exact hh (key_inj h.sound hx (hl m hm) hk ▸ hm)
      rw [hkeys _ (fun m hm => ((hrm m).1 hm).1), hkeys _ (fun m hm => ((hgm m).1 hm).1), hrm, hgm]
      simp only [hx, true_and]
      exact And.comm
    · intro x
      rw [k2, hrm]
      constructor
      · exact fun hh => hh.1
      · exact fun hh => ⟨hh, hh.1⟩
    · show removeAll s.input (renameAll s.input c!"absolute_episode" s.live ren) rem = _
      rw [k3, removeAll_append]
      intro m hm b hb hk
      obtain ⟨y, _, rfl⟩ := List.mem_map.1 hb
      exact hname m ((hgm m).1 hm).1 (congrArg MtKey.name hk)

theorem episodesOf_filter (kin : Kin) (s : Ms) (i : Mt) :
    ∃ q : Mt → Bool, episodesOf kin s i = s.live.filter q ∧ ∀ x, q x = true ↔ InRangeOf kin s i x := by
  refine ⟨fun x => decide (x.name = some c!"episode") && Mt.eqv s.input (kin.initiator x) i, ?_, fun x => ?_⟩
  · unfold episodesOf named
    rw [List.filter_filter]
    exact List.filter_congr fun x _ => Bool.and_comm _ _
  · rw [Bool.and_eq_true, decide_eq_true_eq, eqv_key]
    rfl

theorem two_core (kin : Kin) (s : Ms) (h : Sound s) (hno : ¬ Found s.live c!"absolute_episode") {p q ep eq : Mt} {a b : Int}
    (he : sortBy (fun a b : Mt => decide (a.stop < b.stop)) (rangeInitiators kin s) = [p, q])
    (hp : FirstOf s.live (InRangeOf kin s p) ep) (hq : FirstOf s.live (InRangeOf kin s q) eq)
    (ha : ep.value s.input = .int a) (hb : eq.value s.input = .int b) :
    ∃ s', renameAbsolute kin s = some s' ∧ Renames s s' c!"absolute_episode" fun x =>
      NoText s.input s.live p.stop q.start ∧ (∃ n, IsCard (fun x => x ∈ s.live ∧ InRangeOf kin s p x) n ∧ IsCard (fun x => x ∈ s.live ∧ InRangeOf kin s q x) n) ∧
        ((a < b ∧ InRangeOf kin s q x) ∨ (b < a ∧ InRangeOf kin s p x)) := by
  have hnd := sound_nodup h
  have hname : ∀ x ∈ s.live, x.name ≠ some c!"absolute_episode" := fun x hx hc => hno ⟨x, hx, hc⟩
  obtain ⟨fp, fp1, fp2⟩ := episodesOf_filter kin s p
  obtain ⟨fq, fq1, fq2⟩ := episodesOf_filter kin s q
  have hcp : IsCard (fun x => x ∈ s.live ∧ InRangeOf kin s p x) (s.live.filter fp).length :=
    ⟨_, hnd.sublist List.filter_sublist, fun x => by rw [List.mem_filter, fp2], rfl⟩
  have hcq : IsCard (fun x => x ∈ s.live ∧ InRangeOf kin s q x) (s.live.filter fq).length :=
    ⟨_, hnd.sublist List.filter_sublist, fun x => by rw [List.mem_filter, fq2], rfl⟩
  have hidle : ∀ P : Mt → Prop, (∀ x ∈ s.live, ¬ P x) → Renames s s c!"absolute_episode" P := fun P hP =>
    ⟨rfl, rfl, s.live, [], List.Sublist.refl _, List.nil_sublist _, fun x hx => by simp [hx, hP x hx], fun x hx => by simp [hP x hx], by simp⟩
  have hren : ∀ (f : Mt → Bool) (P : Mt → Prop), (∀ x ∈ s.live, f x = true ↔ P x) →
      Renames s { s with live := renameAll s.input c!"absolute_episode" s.live (s.live.filter f) } c!"absolute_episode" P := by
    intro f P hP
    exact renamesAll_filter h _ f hP fun x hx _ => hname x hx
  have hhp : (s.live.filter fp).head? = some ep := (head_filter_iff _ _ _).2 ((firstOf_congr (fun x _ => fp2 x) _).2 hp)
  have hhq : (s.live.filter fq).head? = some eq := (head_filter_iff _ _ _).2 ((firstOf_congr (fun x _ => fq2 x) _).2 hq)
  have hvp : (s.live.filter fp).head?.bind (intValue s.input) = some a := by rw [hhp]; simp [intValue, ha]
  have hvq : (s.live.filter fq).head?.bind (intValue s.input) = some b := by rw [hhq]; simp [intValue, hb]
  unfold renameAbsolute
  rw [he]
  dsimp only
  rw [fp1, fq1, hvp, hvq]
  dsimp only
  split
  · rename_i ht
    exact ⟨s, rfl, hidle _ fun x _ hc => hasText_iff'.1 ht hc.1⟩
  · rename_i ht
    have hnt : NoText s.input s.live p.stop q.start := hasText_iff.1 (by simpa using ht)
    split
    · rename_i hl
      refine ⟨s, rfl, hidle _ fun x _ hc => ?_⟩
      obtain ⟨n, n1, n2⟩ := hc.2.1
      exact hl ((IsCard.unique hcp n1).trans (IsCard.unique hcq n2).symm)
    · rename_i hl
      have hl' : (s.live.filter fp).length = (s.live.filter fq).length := not_not.1 hl
      have hcard : ∃ n, IsCard (fun x => x ∈ s.live ∧ InRangeOf kin s p x) n ∧ IsCard (fun x => x ∈ s.live ∧ InRangeOf kin s q x) n :=
        ⟨_, hcp, hl' ▸ hcq⟩
      split
      · rename_i hab
        refine ⟨_, rfl, hren fq _ fun x _ => ?_⟩
        rw [fq2]
        exact ⟨fun hx => ⟨hnt, hcard, Or.inl ⟨hab, hx⟩⟩, fun hx => hx.2.2.elim (·.2) fun hc => by omega⟩
      · split
        · rename_i hab
          refine ⟨_, rfl, hren fp _ fun x _ => ?_⟩
          rw [fp2]
          exact ⟨fun hx => ⟨hnt, hcard, Or.inr ⟨hab, hx⟩⟩, fun hx => hx.2.2.elim (fun hc => by omega) (·.2)⟩
        · exact ⟨s, rfl, hidle _ fun x _ hc => by rcases hc.2.2 with hc | hc <;> omega⟩

theorem renames_congr {s s' : Ms} {n : Str} {P Q : Mt → Prop} (h : ∀ x, P x ↔ Q x) (hr : Renames s s' n P) : Renames s s' n Q := by
  have : P = Q := funext fun x => propext (h x)
  rwa [← this]

/-- C91, when there are just two ranges, with no text between them and as many episodes: the one whose first number is higher becomes a
range of absolute episodes. -/
theorem C91_two (kin : Kin) (s : Ms) (h : Laid s) (hno : ¬ Found s.live c!"absolute_episode") (i j ei ej : Mt) (a b : Int)
    (ht : TwoRanges kin s i j) (hi : i.start < i.stop) (hj : j.start < j.stop) (hij : i.stop ≤ j.stop)
    (he : FirstOf s.live (InRangeOf kin s i) ei) (hf : FirstOf s.live (InRangeOf kin s j) ej)
    (ha : ei.value s.input = .int a) (hb : ej.value s.input = .int b) :
    ∃ s', renameAbsolute kin s = some s' ∧ Renames s s' c!"absolute_episode" fun x =>
      NoText s.input s.live i.stop j.start ∧ (∃ n, IsCard (fun x => x ∈ s.live ∧ InRangeOf kin s i x) n ∧ IsCard (fun x => x ∈ s.live ∧ InRangeOf kin s j x) n) ∧
        ((a < b ∧ InRangeOf kin s j x) ∨ (b < a ∧ InRangeOf kin s i x)) := by
  obtain ⟨h1, h2, h3⟩ := initiators_spec kin s
  have hlen := (twoRanges_iff kin s).2 ⟨i, j, ht⟩
  obtain ⟨t1, t2, t3, t4⟩ := ht
  obtain ⟨p, q, hs, hle, hk⟩ : ∃ p q, sortBy (fun a b : Mt => decide (a.stop < b.stop)) (rangeInitiators kin s) = [p, q] ∧ p.stop ≤ q.stop ∧
      ((p.key s.input = i.key s.input ∧ q.key s.input = j.key s.input) ∨ (p.key s.input = j.key s.input ∧ q.key s.input = i.key s.input)) := by
    match hr : rangeInitiators kin s, hlen with
    | [x, y], _ =>
      rw [hr] at h1 h2
      have hx := t4 x (h2 x (by simp))
      have hy := t4 y (h2 y (by simp))
      have hne : x.key s.input ≠ y.key s.input := by simpa using h1
      by_cases hl : y.stop < x.stop
      · refine ⟨y, x, by simp [sortBy, insertBy, hl], by omega, ?_⟩
        rcases hx with hx | hx <;> rcases hy with hy | hy
        · exact absurd (hx.trans hy.symm) hne
        · exact Or.inr ⟨hy, hx⟩
        · exact Or.inl ⟨hy, hx⟩
        · exact absurd (hx.trans hy.symm) hne
      · refine ⟨x, y, by simp [sortBy, insertBy, hl], by omega, ?_⟩
        rcases hx with hx | hx <;> rcases hy with hy | hy
        · exact absurd (hx.trans hy.symm) hne
        · exact Or.inl ⟨hx, hy⟩
        · exact Or.inr ⟨hx, hy⟩
        · exact absurd (hx.trans hy.symm) hne
  have hin : ∀ {u v : Mt}, u.key s.input = v.key s.input → ∀ x, InRangeOf kin s u x ↔ InRangeOf kin s v x := by
    intro u v huv x
    unfold InRangeOf
    rw [huv]
  rcases hk with ⟨k1, k2⟩ | ⟨k1, k2⟩
  · have e1 : p.stop = i.stop := congrArg MtKey.stop k1
    have e2 : q.start = j.start := congrArg MtKey.start k2
    obtain ⟨s', r1, r2⟩ := two_core kin s h.sound hno hs ((firstOf_congr (fun x _ => hin k1 x) _).2 he) ((firstOf_congr (fun x _ => hin k2 x) _).2 hf) ha hb
    refine ⟨s', r1, renames_congr (fun x => ?_) r2⟩
    simp only [hin k1, hin k2, e1, e2]
  · have e1 : p.stop = j.stop := congrArg MtKey.stop k1
    have e2 : q.start = i.start := congrArg MtKey.start k2
    have e3 : q.stop = i.stop := congrArg MtKey.stop k2
    obtain ⟨s', r1, r2⟩ := two_core kin s h.sound hno hs ((firstOf_congr (fun x _ => hin k1 x) _).2 hf) ((firstOf_congr (fun x _ => hin k2 x) _).2 he) hb ha
    refine ⟨s', r1, renames_congr (fun x => ?_) r2⟩
    simp only [hin k1, hin k2, e1, e2]
    have n1 : NoText s.input s.live j.stop i.start := by intro k c k1 k2; omega
    have n2 : NoText s.input s.live i.stop j.start := by intro k c k1 k2; omega
    constructor
    · rintro ⟨_, ⟨n, c1, c2⟩, c3⟩; exact ⟨n2, ⟨n, c2, c1⟩, c3.symm⟩
    · rintro ⟨_, ⟨n, c1, c2⟩, c3⟩; exact ⟨n1, ⟨n, c2, c1⟩, c3.symm⟩

/-! ## C92 -/

theorem disc_iff {lower : Str → Str} {s : Ms} {m : Mt} : m ∈ (named s.live c!"episodeMarker").filter (discMarker lower s.input) ↔ DiscMarker lower s m := by
  rw [List.mem_filter, mem_named, and_assoc]
  unfold DiscMarker discMarker
  refine and_congr_right fun _ => and_congr_right fun _ => ?_
  split
  · rename_i v hv
    rw [decide_eq_true_eq]
    constructor
    · intro h; exact ⟨v, hv, h⟩
    · rintro ⟨w, hw, h⟩
      rw [hv] at hw
      cases hw
      exact h
  · rename_i hv
    simp only [Bool.false_eq_true, false_iff]
    rintro ⟨w, hw, _⟩
    exact hv w hw

/-- C92, discs being excluded: the markers `d` and all that belongs to their matches are dropped. -/
theorem C92_disabled (kin : Kin) (lower : Str → Str) (s : Ms) (h : Sound s) (hk : KinFound kin s) :
    Drops s (renameDisc kin lower true s) fun x => DiscMarker lower s x ∨ ∃ m, DiscMarker lower s m ∧ x ∈ kin.children (kin.initiator m) := by
  unfold renameDisc
  dsimp only
  rw [if_pos rfl]
  refine drops_keys' h fun x hx => ?_
  constructor
  · rintro ⟨y, hy, hyk⟩
    obtain ⟨m, hm, hy⟩ := List.mem_flatMap.1 hy
    have hm' := disc_iff.1 hm
    rcases List.mem_cons.1 hy with rfl | hy
    · rw [← key_inj h hx hm'.1 hyk]
      exact Or.inl hm'
    · have := hk m hm'.1 y hy x hx hyk
      subst this
      exact Or.inr ⟨m, hm', hy⟩
  · rintro (hx' | ⟨m, hm, hx'⟩)
    · exact ⟨x, List.mem_flatMap.2 ⟨x, disc_iff.2 hx', by simp⟩, rfl⟩
    · exact ⟨x, List.mem_flatMap.2 ⟨m, disc_iff.2 hm, List.mem_cons_of_mem _ hx'⟩, rfl⟩

/-- C92: the episodes that follow a marker `d` become discs, then the markers become disc markers, and nothing else changes. -/
theorem C92_disc (kin : Kin) (lower : Str → Str) (s : Ms) (h : Sound s) (hk : KinFound kin s) :
    ∃ mid, Reworks s mid (fun _ => False)
        (fun x => x.name = some c!"episode" ∧ ∃ m, DiscMarker lower s m ∧ x ∈ kin.children (kin.initiator m)) (called c!"disc") ∧
      Reworks mid (renameDisc kin lower false s) (fun _ => False) (DiscMarker lower s) (called c!"discMarker") := by
  unfold renameDisc
  dsimp only
  rw [if_neg (by decide)]
  generalize hms : (named s.live c!"episodeMarker").filter (discMarker lower s.input) = ms
  have hmem : ∀ m, m ∈ ms ↔ DiscMarker lower s m := fun m => by rw [← hms]; exact disc_iff
  generalize hds : (ms.flatMap fun m => sortValues s.input (named (kin.children (kin.initiator m)) c!"episode")) = ds
  have hdm : ∀ x, x ∈ ds ↔ x.name = some c!"episode" ∧ ∃ m, DiscMarker lower s m ∧ x ∈ kin.children (kin.initiator m) := by
    intro x
    rw [← hds, List.mem_flatMap]
    unfold sortValues
    constructor
    · rintro ⟨m, hm, hx⟩
      rw [(sortBy_perm _ _).mem_iff, mem_named] at hx
      exact ⟨hx.2, m, (hmem m).1 hm, hx.1⟩
    · rintro ⟨h1, m, h2, h3⟩
      refine ⟨m, (hmem m).2 h2, ?_⟩
      rw [(sortBy_perm _ _).mem_iff, mem_named]
      exact ⟨h3, h1⟩
  have hobj : ∀ m ∈ ds, ∀ x ∈ s.live, m.key s.input = x.key s.input → m = x := by
    intro m hm x hx he
    obtain ⟨_, d, h2, h3⟩ := (hdm m).1 hm
    exact hk d h2.1 m h3 x hx he
  obtain ⟨k, k1, k2, k3⟩ := renameAll_list s.input c!"disc" ds s.live [] h.distinct hobj (by simp) (fun m hm _ => by
    rw [((hdm m).1 hm).1]; decide)
  rw [List.append_nil, List.append_nil] at k3
  have hn2 : ((removeAll s.input s.live ds).map (Mt.key s.input)).Nodup := h.distinct.sublist ((removeAll_sublist _ _ _).map _)
  have hms_in : ∀ m ∈ ms, m ∈ removeAll s.input s.live ds := by
    intro m hm
    have hm' := (hmem m).1 hm
    refine (mem_removeAll_nodup h.distinct).2 ⟨hm'.1, fun d hd hc => ?_⟩
    rw [hobj d hd m hm'.1 hc] at hd
    have := ((hdm m).1 hd).1
    rw [hm'.2.1] at this
    exact absurd this (by decide)
  have hmid : ∀ m ∈ ms, ∀ x ∈ removeAll s.input s.live ds, m.key s.input = x.key s.input → m = x := fun m hm x hx he =>
    key_inj h (removeAll_subset hx) ((hmem m).1 hm).1 he
  have hmk : ∀ m ∈ ms, ∀ b ∈ k.map (called c!"disc"), m.key s.input ≠ b.key s.input := by
    intro m hm b hb hc
    obtain ⟨y, _, rfl⟩ := List.mem_map.1 hb
    have hc' : m.name = some c!"disc" := congrArg MtKey.name hc
    rw [((hmem m).1 hm).2.1] at hc'
    exact absurd hc' (by decide)
  obtain ⟨k', j1, j2, j3⟩ := renameAll_list s.input c!"discMarker" ms (removeAll s.input s.live ds) (k.map (called c!"disc")) hn2 hmid hmk
    (fun m hm _ => by rw [((hmem m).1 hm).2.1]; decide)
  refine ⟨{ s with live := renameAll s.input c!"disc" s.live ds }, ⟨rfl, rfl, removeAll s.input s.live ds, k, removeAll_sublist _ _ _, ?_, k1, ?_, k3⟩,
    ⟨rfl, rfl, removeAll s.input (removeAll s.input s.live ds) ms ++ k.map (called c!"disc"), k', ?_, ?_, j1, ?_, ?_⟩⟩
  · intro x hx
    rw [mem_removeAll_nodup h.distinct, not_false_eq_true, true_and, ← hdm]
    constructor
    · rintro ⟨_, h2⟩ hc; exact h2 x hc rfl
    · intro hc; exact ⟨hx, fun m hm he => hc (hobj m hm x hx he ▸ hm)⟩
  · intro x
    rw [k2, hdm]
    exact And.comm
  · show List.Sublist _ (renameAll s.input c!"disc" s.live ds)
    rw [k3]
    exact (removeAll_sublist _ _ _).append (List.Sublist.refl _)
  · intro x hx
    change x ∈ renameAll s.input c!"disc" s.live ds at hx
    rw [k3, List.mem_append] at hx
    rw [List.mem_append, mem_removeAll_nodup hn2, not_false_eq_true, true_and, ← hmem]
    constructor
    · rintro (⟨_, h2⟩ | h1) hc
      · exact h2 x hc rfl
      · exact hmk x hc x h1 rfl
    · intro hc
      rcases hx with hx | hx
      · exact Or.inl ⟨hx, fun m hm he => hc (hmid m hm x hx he ▸ hm)⟩
      · exact Or.inr hx
  · intro x
    rw [j2]
    constructor
    · rintro ⟨h1, h2⟩
      refine ⟨?_, (hmem x).1 h1⟩
      show x ∈ renameAll s.input c!"disc" s.live ds
      rw [k3]
      exact List.mem_append.2 (Or.inl h2)
    · rintro ⟨_, h1⟩
      exact ⟨(hmem x).2 h1, hms_in x ((hmem x).2 h1)⟩
  · show renameAll s.input c!"discMarker" (renameAll s.input c!"disc" s.live ds) ms = _
    rw [k3, j3]

end Guessit
