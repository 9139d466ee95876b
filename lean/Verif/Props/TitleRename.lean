import Verif.Props.EpisodeTitle
import Verif.Props.Kept
import Verif.Props.Rules

/-! # C81–C83: titles that change their name, matches an episode title replaces -/

namespace Guessit
open Spec

/-! ## Renaming -/

theorem renameEach_append (input : Str) (name : Str) : ∀ (ms A B : List Mt), (∀ m ∈ ms, m.name ≠ some name) → (∀ b ∈ B, b.name = some name) →
    renameEach input name (A ++ B) ms = removeAll input A ms ++ B ++ ms.map fun m => { m with name := some name } := by
  intro ms
  induction ms with
  | nil => intro A B _ _; simp [renameEach, removeAll]
  | cons m ms ih =>
    intro A B hn hB
    have e : renameEach input name (A ++ B) (m :: ms) = renameEach input name (removeMatch input (A ++ B) m ++ [{ m with name := some name }]) ms := rfl
    rw [e, removeMatch_append input m B, List.append_assoc, ih]
    · show removeAll input (removeMatch input A m) ms ++ _ ++ _ = removeAll input (removeMatch input A m) ms ++ _ ++ _
      simp
    · exact fun x hx => hn x (List.mem_cons_of_mem _ hx)
    · intro b hb
      rcases List.mem_append.1 hb with hb | hb
      · exact hB b hb
      · rw [List.mem_singleton] at hb; rw [hb]
    · intro b hb hk
      have hk' : m.name = b.name := congrArg MtKey.name hk
      rw [hB b hb] at hk'
      exact hn m (List.mem_cons_self ..) hk'

theorem renames_filter {s : Ms} (hs : Sound s) (name : Str) (q : Mt → Bool) {Sel : Mt → Prop} (hq : ∀ x ∈ s.live, q x = true ↔ Sel x)
    (hn : ∀ x ∈ s.live, q x = true → x.name ≠ some name) :
    Renames s { s with live := renameEach s.input name s.live (s.live.filter q) } name Sel := by
  refine ⟨rfl, rfl, s.live.filter (fun m => !q m), s.live.filter q, List.filter_sublist, List.filter_sublist, ?_, ?_, ?_⟩
  · intro x hx
    rw [List.mem_filter, ← hq x hx]
    simp [hx]
  · intro x hx
    rw [List.mem_filter, ← hq x hx]
    simp [hx]
  · have := renameEach_append s.input name (s.live.filter q) s.live []
      (fun m hm => hn m (List.mem_filter.1 hm).1 (List.mem_filter.1 hm).2) (by simp)
    rw [List.append_nil] at this
    show renameEach s.input name s.live (s.live.filter q) = _
    rw [this, removeAll_filter _ _ _ hs.distinct, List.append_nil]

theorem countDistinct_lt_two {α : Type} [DecidableEq α] {l : List α} : countDistinct l < 2 ↔ ∀ x ∈ l, ∀ y ∈ l, x = y := by
  constructor
  · intro h; exact countDistinct_le_one (by omega)
  · intro h
    obtain ⟨k, h1, h2, h3⟩ := countDistinct_card l
    by_contra hcon
    match k, h1, h2, h3 with
    | [], _, _, h3 => simp at h3; omega
    | [a], _, _, h3 => simp at h3; omega
    | a :: b :: k, h1, h2, _ =>
      have hab : a ≠ b := by
        rw [List.nodup_cons] at h1
        rintro rfl
        exact h1.1 (List.mem_cons_self ..)
      exact hab (h a ((h2 a).1 (by simp)) b ((h2 b).1 (by simp)))

theorem prev_nonempty {l : List Mt} {x : Mt} {q : Mt → Bool} : (!(previous l x q).isEmpty) = true ↔ ∃ p, ClosestBefore l x p ∧ q p = true := by
  rw [Bool.not_eq_true', ← Bool.not_eq_true, prev_empty, not_not]

/-- C81: when two different titles were found, every title that follows an episode number (no match ends between the two) becomes an
episode title, and nothing else changes. -/
theorem C81_title_after_episode (s : Ms) (hs : Sound s) : Renames s (titleToEpisodeTitle s) c!"episode_title" fun x =>
    x.name = some c!"title" ∧ (∃ p, ClosestBefore s.live x p ∧ p.name = some c!"episode") ∧
      ∃ a ∈ s.live, ∃ b ∈ s.live, a.name = some c!"title" ∧ b.name = some c!"title" ∧ a.value s.input ≠ b.value s.input := by
  unfold titleToEpisodeTitle titlesAfterEpisode
  have hpair : countDistinct ((named s.live c!"title").map fun m => m.value s.input) < 2 ↔
      ¬ ∃ a ∈ s.live, ∃ b ∈ s.live, a.name = some c!"title" ∧ b.name = some c!"title" ∧ a.value s.input ≠ b.value s.input := by
    rw [countDistinct_lt_two]
    constructor
    · rintro h ⟨a, a1, b, b1, a2, b2, hne⟩
      exact hne (h _ (List.mem_map.2 ⟨a, mem_named.2 ⟨a1, a2⟩, rfl⟩) _ (List.mem_map.2 ⟨b, mem_named.2 ⟨b1, b2⟩, rfl⟩))
    · intro h x hx y hy
      obtain ⟨a, ha, rfl⟩ := List.mem_map.1 hx
      obtain ⟨b, hb, rfl⟩ := List.mem_map.1 hy
      by_contra hne
      exact h ⟨a, (mem_named.1 ha).1, b, (mem_named.1 hb).1, (mem_named.1 ha).2, (mem_named.1 hb).2, hne⟩
  split
  · rename_i hc
    have hno := hpair.1 hc
    refine ⟨rfl, rfl, s.live, [], List.Sublist.refl _, List.nil_sublist _, ?_, ?_, ?_⟩
    · intro x hx
      simp only [hx, true_iff]
      exact fun h => hno h.2.2
    · intro x _
      simp only [List.not_mem_nil, false_iff]
      exact fun h => hno h.2.2
    · simp [renameEach]
  · rename_i hc
    have hyes := not_not.1 (mt hpair.2 hc)
    unfold named
    rw [List.filter_filter]
    refine renames_filter hs _ _ ?_ ?_
    · intro x _
      rw [Bool.and_eq_true, decide_eq_true_eq, prev_nonempty]
      simp only [decide_eq_true_eq]
      constructor
      · rintro ⟨h1, h2⟩; exact ⟨h2, h1, hyes⟩
      · rintro ⟨h1, h2, _⟩; exact ⟨h2, h1⟩
    · intro x _ hx
      rw [Bool.and_eq_true, decide_eq_true_eq] at hx
      rw [hx.2]
      decide

/-! ## C82 -/

/-- C82: in a file that is not an episode, an episode title that was not an alternative title before means that all episode titles become
alternative titles; otherwise nothing changes. -/
theorem C82_movie (s : Ms) (hs : Sound s) : Renames s (renameEpisodeTitleWhenMovie s) c!"alternative_title" fun x =>
    x.name = some c!"episode_title" ∧ (∃ t ∈ s.live, t.name = some c!"episode_title" ∧ c!"alternative-replaced" ∉ t.tags) ∧
      ¬ ∃ t ∈ s.live, t.name = some c!"type" ∧ t.value s.input = .str c!"episode" := by
  unfold renameEpisodeTitleWhenMovie
  have key : (((named s.live c!"episode_title").any fun m => !m.tagged c!"alternative-replaced") &&
      !((named s.live c!"type").any fun m => decide (m.value s.input = .str c!"episode"))) = true ↔
      (∃ t ∈ s.live, t.name = some c!"episode_title" ∧ c!"alternative-replaced" ∉ t.tags) ∧
      ¬ ∃ t ∈ s.live, t.name = some c!"type" ∧ t.value s.input = .str c!"episode" := by
    rw [Bool.and_eq_true, List.any_eq_true, Bool.not_eq_true', ← Bool.not_eq_true, List.any_eq_true]
    refine and_congr ?_ (not_congr ?_)
    · constructor
      · rintro ⟨t, h1, h2⟩
        refine ⟨t, (mem_named.1 h1).1, (mem_named.1 h1).2, fun h => ?_⟩
        rw [tagged_iff.2 h] at h2; cases h2
      · rintro ⟨t, h1, h2, h3⟩
        refine ⟨t, mem_named.2 ⟨h1, h2⟩, ?_⟩
        rw [Bool.not_eq_true', ← Bool.not_eq_true, tagged_iff]; exact h3
    · constructor
      · rintro ⟨t, h1, h2⟩; exact ⟨t, (mem_named.1 h1).1, (mem_named.1 h1).2, of_decide_eq_true h2⟩
      · rintro ⟨t, h1, h2, h3⟩; exact ⟨t, mem_named.2 ⟨h1, h2⟩, decide_eq_true h3⟩
  split
  · rename_i hc
    have hyes := key.1 hc
    refine renames_filter hs _ _ ?_ ?_
    · intro x _
      rw [decide_eq_true_eq]
      exact ⟨fun h => ⟨h, hyes⟩, fun h => h.1⟩
    · intro x _ hx
      rw [of_decide_eq_true hx]
      decide
  · rename_i hc
    have hno := mt key.2 hc
    refine ⟨rfl, rfl, s.live, [], List.Sublist.refl _, List.nil_sublist _, ?_, ?_, by simp⟩
    · intro x hx
      simp only [hx, true_iff]
      exact fun h => hno h.2
    · intro x _
      simp only [List.not_mem_nil, false_iff]
      exact fun h => hno h.2

theorem chained_iff {s : Ms} {main : Mt} : ∀ a, chainBefore s.input s.live (fun m => m.tagged c!"title") a = some main ↔ Chained s a main
  | 0 => by
    unfold chainBefore Chained
    constructor
    · intro h; cases h
    · rintro ⟨i, h, _⟩; omega
  | a + 1 => by
    have hfirst : ((atIndex s.live a).filter fun m => m.tagged c!"title").head? = some main ↔
        FirstOf s.live (fun m => c!"title" ∈ m.tags ∧ Covers m a) main := by
      rw [head_filter_iff]
      unfold atIndex
      rw [firstOf_filter]
      refine firstOf_congr (fun y _ => ?_) main
      rw [tagged_iff, Bool.and_eq_true, decide_eq_true_eq, decide_eq_true_eq]
      exact and_comm
    unfold chainBefore
    cases hl : (atIndex s.live a).filter fun m => m.tagged c!"title" with
    | cons x xs =>
      rw [hl] at hfirst
      simp only
      have hx : x ∈ s.live ∧ c!"title" ∈ x.tags ∧ Covers x a := by
        have : x ∈ (atIndex s.live a).filter fun m => m.tagged c!"title" := by rw [hl]; exact List.mem_cons_self ..
        obtain ⟨h1, h2⟩ := List.mem_filter.1 this
        exact ⟨(mem_atIndex.1 h1).1, tagged_iff.1 h2, (mem_atIndex.1 h1).2⟩
      constructor
      · intro h
        exact ⟨a, by omega, hfirst.1 h, fun j h1 h2 => by omega⟩
      · rintro ⟨i, h1, h2, h3⟩
        by_cases hi : i = a
        · subst hi; exact hfirst.2 h2
        · exact absurd hx.2.2 ((h3 a (by omega) (by omega)).2 x hx.1 hx.2.1)
    | nil =>
      simp only
      have hnone : ∀ m ∈ s.live, c!"title" ∈ m.tags → ¬ Covers m a := by
        intro m h1 h2 h3
        have : m ∈ (atIndex s.live a).filter fun m => m.tagged c!"title" := List.mem_filter.2 ⟨mem_atIndex.2 ⟨h1, h3⟩, tagged_iff.2 h2⟩
        rw [hl] at this; simp at this
      split
      · rename_i hs
        rw [chained_iff a]
        constructor
        · rintro ⟨i, h1, h2, h3⟩
          refine ⟨i, by omega, h2, fun j j1 j2 => ?_⟩
          by_cases hj : j = a
          · subst hj; exact ⟨sepAt_iff.1 hs, hnone⟩
          · exact h3 j j1 (by omega)
        · rintro ⟨i, h1, h2, h3⟩
          have hi : i ≠ a := by
            rintro rfl
            obtain ⟨h4, h5, h6⟩ := firstOf_mem h2
            exact hnone _ h4 h5 h6
          exact ⟨i, by omega, h2, fun j j1 j2 => h3 j j1 (by omega)⟩
      · rename_i hs
        constructor
        · intro h; cases h
        · rintro ⟨i, h1, h2, h3⟩
          exfalso
          by_cases hi : i = a
          · subst hi
            obtain ⟨h4, h5, h6⟩ := firstOf_mem h2
            exact hnone _ h4 h5 h6
          · exact hs (sepAt_iff.2 (h3 a (by omega) (by omega)).1)

theorem removeMatch_split {input : Str} : ∀ {l : List Mt}, (l.map (Mt.key input)).Nodup → ∀ {m : Mt}, m ∈ l →
    ∃ pre post, l = pre ++ m :: post ∧ removeMatch input l m = pre ++ post
  | [], _, m, h => by simp at h
  | x :: l, hnd, m, h => by
    rw [List.map_cons, List.nodup_cons] at hnd
    unfold removeMatch
    by_cases hk : m.key input = x.key input
    · rw [if_pos (eqv_iff.2 hk)]
      rcases List.mem_cons.1 h with rfl | h
      · exact ⟨[], l, rfl, rfl⟩
      · exact absurd (List.mem_map.2 ⟨m, h, hk⟩) hnd.1
    · rw [if_neg (fun h => hk (eqv_iff.1 h))]
      rcases List.mem_cons.1 h with rfl | h
      · exact absurd rfl hk
      · obtain ⟨pre, post, h1, h2⟩ := removeMatch_split hnd.2 h
        exact ⟨x :: pre, post, by rw [h1]; rfl, by rw [h2]; rfl⟩

/-- The condition under which an alternative title becomes the episode title. -/
def Spec.ToReplace (kin : Kin) (s : Ms) (alt : Mt) : Prop :=
  ¬ Found s.live c!"episode_title" ∧ Lead s.live (fun m => m.name = some c!"alternative_title") alt ∧
    ∃ main, Chained s alt.start main ∧ ((∃ p, ClosestBefore s.live main p ∧ LeadsTitle kin p) ∨ Found s.live c!"crc32")

theorem found_iff {l : List Mt} {n : Str} : (!(named l n).isEmpty) = true ↔ Found l n := by
  rw [Bool.not_eq_true', ← Bool.not_eq_true, List.isEmpty_iff, List.eq_nil_iff_forall_not_mem]
  unfold Found
  simp only [mem_named]
  constructor
  · intro h; by_contra hc; exact h fun m hm => hc ⟨m, hm⟩
  · rintro ⟨m, hm⟩ h; exact h m hm

theorem toReplace_iff {kin : Kin} {s : Ms} (hs : Sound s) {alt : Mt} : alternativeToReplace kin s = some alt ↔ ToReplace kin s alt := by
  unfold alternativeToReplace ToReplace
  have hrange : ∀ y, firstTrue (rangeOf s.input s.live 0 (maxEnd s.input s.live) fun m => decide (m.name = some c!"alternative_title")) = some y ↔
      Lead s.live (fun m => m.name = some c!"alternative_title") y := by
    intro y
    have := firstIn_iff hs (a := 0) (b := maxEnd s.input s.live) (q := fun m => decide (m.name = some c!"alternative_title")) (y := y)
    unfold firstIn at this
    rw [this]
    refine lead_congr fun m hm => ?_
    have h1 := hs.pos m hm
    have h2 := (maxEnd_ge s.input s.live).2 m hm
    rw [decide_eq_true_eq]
    constructor
    · exact fun h => h.2.2
    · exact fun h => ⟨by omega, by omega, h⟩
  split
  · rename_i hf
    rw [found_iff] at hf
    constructor
    · intro h; cases h
    · intro h; exact absurd hf h.1
  · rename_i hf
    rw [found_iff] at hf
    cases hr : firstTrue (rangeOf s.input s.live 0 (maxEnd s.input s.live) fun m => decide (m.name = some c!"alternative_title")) with
    | none =>
      constructor
      · intro h; cases h
      · intro h
        rw [← hrange, hr] at h
        cases h.2.1
    | some a =>
      have ha := (hrange a).1 hr
      have hal := (lead_mem ha).1
      have hmin : min (maxEnd s.input s.live) a.start = a.start := by
        have h1 := hs.pos a hal
        have h2 := (maxEnd_ge s.input s.live).2 a hal
        omega
      simp only
      rw [hmin]
      have hcond : ∀ main ∈ s.live, (decide (main.start < main.stop) &&
          ((firstTrue (previous s.live main fun m => m.goesBy kin previousNames)).isSome || !(named s.live c!"crc32").isEmpty)) = true ↔
          ((∃ p, ClosestBefore s.live main p ∧ LeadsTitle kin p) ∨ Found s.live c!"crc32") := by
        intro main hm
        have h1 := hs.pos main hm
        rw [Bool.and_eq_true, Bool.or_eq_true, found_iff, decide_eq_true_eq]
        have : (firstTrue (previous s.live main fun m => m.goesBy kin previousNames)).isSome = true ↔
            ∃ p, ClosestBefore s.live main p ∧ LeadsTitle kin p := by
          rw [Option.isSome_iff_exists]
          constructor
          · rintro ⟨p, hp⟩
            have := mem_previous.1 (firstTrue_mem hp)
            exact ⟨p, this.1, goesBy_iff.1 this.2⟩
          · rintro ⟨p, hp, hn⟩
            have hmem : p ∈ previous s.live main fun m => m.goesBy kin previousNames := mem_previous.2 ⟨hp, goesBy_iff.2 hn⟩
            cases hft : firstTrue (previous s.live main fun m => m.goesBy kin previousNames) with
            | some q => exact ⟨q, rfl⟩
            | none =>
              rw [firstTrue_none (fun x hx => hs.pos x (mem_previous.1 hx).1.1)] at hft
              exact absurd hmem (hft p)
        rw [this]
        exact ⟨fun h => h.2, fun h => ⟨h1, h⟩⟩
      cases hch : chainBefore s.input s.live (fun m => m.tagged c!"title") a.start with
      | none =>
        constructor
        · intro h; cases h
        · rintro ⟨_, h2, main, h3, _⟩
          rw [lead_unique h2 ha, ← chained_iff, hch] at h3
          cases h3
      | some main =>
        have hml := (firstOf_mem ((chained_iff _).1 hch).choose_spec.2.1).1
        simp only
        split
        · rename_i hc
          constructor
          · intro h
            cases h
            exact ⟨hf, ha, main, (chained_iff _).1 hch, (hcond main hml).1 hc⟩
          · rintro ⟨_, h2, _⟩
            rw [lead_unique h2 ha]
        · rename_i hc
          constructor
          · intro h; cases h
          · rintro ⟨_, h2, main', h3, h4⟩
            rw [lead_unique h2 ha, ← chained_iff, hch] at h3
            cases h3
            exact absurd ((hcond main hml).2 h4) hc

/-- C82: without an episode title, the first alternative title becomes the episode title when the title it belongs to follows an
episode, a season, a date, … or a checksum was found; it is marked as replaced. -/
theorem C82_alternative (kin : Kin) (s : Ms) (hs : Sound s) (alt : Mt) (h : ToReplace kin s alt) :
    ∃ pre post, s.live = pre ++ alt :: post ∧ alternativeTitleReplace kin s =
      { s with live := pre ++ post ++ [{ alt with name := some c!"episode_title", tags := alt.tags ++ [c!"alternative-replaced"] }] } := by
  obtain ⟨pre, post, h1, h2⟩ := removeMatch_split hs.distinct (lead_mem h.2.1).1
  refine ⟨pre, post, h1, ?_⟩
  unfold alternativeTitleReplace
  rw [(toReplace_iff hs).2 h]
  simp only
  rw [h2]
  rfl

/-- C82: in all other cases nothing changes. -/
theorem C82_alternative_only (kin : Kin) (s : Ms) (hs : Sound s) (h : ¬ ∃ alt, ToReplace kin s alt) : alternativeTitleReplace kin s = s := by
  unfold alternativeTitleReplace
  cases ha : alternativeToReplace kin s with
  | none => rfl
  | some a => exact absurd ⟨a, (toReplace_iff hs).1 ha⟩ h

/-! ## C83 -/

theorem final_last {s : Ms} (hs : Sound s) {q : Mt → Bool} {y : Mt} :
    ((sortBy Mt.lt s.live).filter q).reverse.head? = some y ↔ Final s.live (fun m => q m = true) y := by
  have hnd : (sortBy Mt.lt s.live).Nodup := (sortBy_perm _ _).nodup_iff.2 (sound_nodup hs)
  have hmem : ∀ z, z ∈ (sortBy Mt.lt s.live).filter q ↔ z ∈ s.live ∧ q z = true := by
    intro z; rw [List.mem_filter, mem_sortBy]
  rw [List.head?_reverse]
  constructor
  · intro h
    obtain ⟨pre, hpre⟩ := List.getLast?_eq_some_iff.1 h
    have hy := (hmem y).1 (by rw [hpre]; simp)
    refine ⟨hy.1, hy.2, fun z hz hqz hne => ?_⟩
    rw [← later_sorted (sound_nodup hs) hz hy.1 hne]
    have hz' := (hmem z).2 ⟨hz, hqz⟩
    rw [hpre] at hz'
    have hzp : z ∈ pre := by
      rcases List.mem_append.1 hz' with h | h
      · exact h
      · exact absurd (List.mem_singleton.1 h) hne
    have : [z, y].Sublist (pre ++ [y]) := (List.singleton_sublist.2 hzp).append (List.Sublist.refl [y])
    rw [← hpre] at this
    exact this.trans List.filter_sublist
  · rintro ⟨hy, hqy, hlast⟩
    have hy' := (hmem y).2 ⟨hy, hqy⟩
    cases hl : ((sortBy Mt.lt s.live).filter q).getLast? with
    | none => rw [List.getLast?_eq_none_iff] at hl; rw [hl] at hy'; simp at hy'
    | some w =>
      by_cases hw : w = y
      · rw [hw]
      · exfalso
        obtain ⟨pre, hpre⟩ := List.getLast?_eq_some_iff.1 hl
        have hw' := (hmem w).1 (by rw [hpre]; simp)
        have h1 := (later_sorted (sound_nodup hs) hw'.1 hy hw).2 (hlast w hw'.1 hw'.2 hw)
        have hyp : y ∈ pre := by
          rw [hpre] at hy'
          rcases List.mem_append.1 hy' with h | h
          · exact h
          · exact absurd (List.mem_singleton.1 h).symm hw
        have h2 : [y, w].Sublist (pre ++ [w]) := (List.singleton_sublist.2 hyp).append (List.Sublist.refl [w])
        rw [← hpre] at h2
        exact pair_asymm hnd h1 (h2.trans List.filter_sublist)

theorem final_congr {l : List Mt} {P Q : Mt → Prop} (h : ∀ m ∈ l, P m ↔ Q m) {y : Mt} : Final l P y ↔ Final l Q y := by
  unfold Final
  constructor
  · rintro ⟨h1, h2, h3⟩; exact ⟨h1, (h y h1).1 h2, fun z hz hq => h3 z hz ((h z hz).2 hq)⟩
  · rintro ⟨h1, h2, h3⟩; exact ⟨h1, (h y h1).2 h2, fun z hz hq => h3 z hz ((h z hz).1 hq)⟩

theorem lastIn_iff {s : Ms} (hs : Sound s) {a b : Nat} {y : Mt} :
    lastIn s a b (fun x => !x.priv) = some y ↔ Final s.live (PublicIn a b) y := by
  unfold lastIn
  rw [firstTrue_eq (fun m hm => hs.pos m (mem_rangeOf.1 (List.mem_reverse.1 hm)).1)]
  unfold rangeOf
  rw [final_last hs]
  refine final_congr fun m hm => ?_
  have := hs.pos m hm
  have := (maxEnd_ge s.input s.live).2 m hm
  simp only [Bool.and_eq_true, decide_eq_true_eq, Nat.lt_min, Bool.not_eq_true', PublicIn]
  constructor
  · rintro ⟨⟨⟨_, h1⟩, h2⟩, h3⟩; exact ⟨h3, h1, h2⟩
  · rintro ⟨h3, h1, h2⟩; exact ⟨⟨⟨by omega, h1⟩, h2⟩, h3⟩

theorem firstPublic_iff {s : Ms} (hs : Sound s) {a b : Nat} {y : Mt} :
    firstIn s a b (fun x => !x.priv) = some y ↔ Lead s.live (PublicIn a b) y := by
  rw [firstIn_iff hs]
  refine lead_congr fun m _ => ?_
  simp only [Bool.not_eq_true', PublicIn]
  constructor
  · rintro ⟨h1, h2, h3⟩; exact ⟨h3, h1, h2⟩
  · rintro ⟨h3, h1, h2⟩; exact ⟨h1, h2, h3⟩

/-- The stretch `[x, y)`. -/
def Spec.stretch (x y : Nat) : Mt := { id := 0, start := x, stop := y, name := none }

/-- The bracketed group at the ends of `m` is the one at the ends of `[x, y)` (if any). -/
def Spec.SameGroup (s : Ms) (m : Mt) (x y : Nat) : Prop :=
  ∀ g, EndMark s.markers c!"group" m g ↔ EndMark s.markers c!"group" (stretch x y) g

/-- There is free text in `[a, b)`, in the group `m` is in. -/
def Spec.TextBetween (s : Ms) (m : Mt) (a b : Nat) : Prop :=
  ∃ x y, FreeStretch s a (min s.input.length b) x y ∧ HasWordIn s.input x y ∧ SameGroup s m x y

theorem groupAt_eq {s : Ms} (hs : Laid s) {m m' : Mt} : groupAt s m.start m.stop = groupAt s m'.start m'.stop ↔
    ∀ g, EndMark s.markers c!"group" m g ↔ EndMark s.markers c!"group" m' g := by
  have hsnd : Sound { s with live := s.markers } := ⟨hs.markers, hs.distinct⟩
  have e : ∀ m : Mt, groupAt s m.start m.stop =
      (firstTrue (atMatch s.input s.markers m fun g => decide (g.name = some c!"group"))).map (Mt.key s.input) := by
    intro m
    have hpos : ∀ x ∈ atMatch s.input s.markers m fun g => decide (g.name = some c!"group"), x.start < x.stop := by
      intro x hx
      unfold atMatch at hx
      exact (hs.markers x (mem_atSpan.1 (List.mem_filter.1 hx).1).1).1
    have : firstTrue (atMatch s.input s.markers m fun g => decide (g.name = some c!"group")) =
        (atMatch s.input s.markers m fun g => decide (g.name = some c!"group")).head? := by
      apply Option.ext
      intro a
      exact firstTrue_eq hpos
    rw [this]
    unfold groupAt atMatch
    rw [List.head?_filter]
  have hmem : ∀ (m g : Mt), firstTrue (atMatch s.input s.markers m fun g => decide (g.name = some c!"group")) = some g → g ∈ s.markers := by
    intro m g h
    have := firstTrue_mem h
    unfold atMatch at this
    exact (mem_atSpan.1 (List.mem_filter.1 this).1).1
  rw [e, e]
  simp only [← atMatch_first (input := s.input)]
  constructor
  · intro h g
    cases h1 : firstTrue (atMatch s.input s.markers m fun g => decide (g.name = some c!"group")) with
    | none =>
      rw [h1, Option.map_none] at h
      rw [Option.map_eq_none_iff.1 h.symm]
    | some a =>
      rw [h1, Option.map_some] at h
      obtain ⟨b, hb, hk⟩ := Option.map_eq_some_iff.1 h.symm
      rw [hb]
      have := key_inj hsnd (hmem m a h1) (hmem m' b hb) hk
      rw [this]
  · intro h
    have : firstTrue (atMatch s.input s.markers m fun g => decide (g.name = some c!"group")) =
        firstTrue (atMatch s.input s.markers m' fun g => decide (g.name = some c!"group")) := Option.ext h
    rw [this]

theorem blank_word {input : Str} {a b : Nat} : (!blank input a b) = true ↔ HasWordIn input a b := by
  rw [Bool.not_eq_true', ← Bool.not_eq_true, blank_iff]
  unfold OnlySeps HasWordIn WordAt
  constructor
  · intro h
    by_contra hcon
    apply h
    intro i c h1 h2 h3
    by_contra hc
    exact hcon ⟨i, h1, h2, c, h3, hc⟩
  · rintro ⟨i, h1, h2, c, h3, h4⟩ h
    exact h4 (h i c h1 h2 h3)

theorem hasHole_iff {s : Ms} (hs : Laid s) {m : Mt} {a b : Nat} :
    hasHole s (groupAt s m.start m.stop) a b = true ↔ TextBetween s m a b := by
  have hgroup : ∀ h : Nat × Nat, groupAt s m.start m.stop = groupAt s h.1 h.2 ↔ SameGroup s m h.1 h.2 :=
    fun h => groupAt_eq hs (m' := stretch h.1 h.2)
  unfold hasHole TextBetween
  rw [List.any_eq_true]
  have hfree : ∀ i, (!coveredBy s.live (fun _ => false) i) = true ↔ ∀ m ∈ s.live, ¬ Covers m i := by
    intro i
    rw [Bool.not_eq_true', ← Bool.not_eq_true, coveredBy_none]
    simp
  have hcov : ∀ i, (!coveredBy s.live (fun _ => false) i) = false ↔ ∃ m ∈ s.live, Covers m i := by
    intro i
    rw [Bool.not_eq_false', coveredBy_none]
  by_cases hab : a ≤ min s.input.length b
  · rw [holes_plain hs.sound.wf _ hab]
    have e : a + (min s.input.length b - a) = min s.input.length b := by omega
    constructor
    · rintro ⟨h, hh, hc⟩
      rw [Bool.and_eq_true, decide_eq_true_eq, blank_word, hgroup] at hc
      rcases List.mem_append.1 hh with hh | hh
      · exfalso
        split at hh
        · rw [List.mem_singleton] at hh
          subst hh
          obtain ⟨i, i1, i2, _⟩ := hc.1
          simp only at i1 i2
          omega
        · simp at hh
      · obtain ⟨h1, h2, h3, h4, h5, h6⟩ := run_mem hh
        rw [e] at h3 h6
        have hfs : FreeStretch s a (min s.input.length b) h.1 h.2 :=
          ⟨h1, h2, h3, fun i i1 i2 => (hfree i).1 (h4 i i1 i2), h5.imp id (hcov _).1, h6.imp id (hcov _).1⟩
        exact ⟨h.1, h.2, hfs, hc.1, hc.2⟩
    · rintro ⟨x, y, hf, hw, hg⟩
      have hx := hf.pos
      obtain ⟨r, hr, r1, r2⟩ := run_covers (p := fun i => !coveredBy s.live (fun _ => false) i) (f := min s.input.length b - a) (i := a) (j := x)
        hf.lower (by have := hf.upper; omega) ((hfree x).2 (hf.free x (Nat.le_refl _) hx))
      obtain ⟨h1, h2, h3, h4, h5, h6⟩ := run_mem hr
      rw [e] at h3 h6
      have hr1 : r.1 = x := by
        by_contra hne
        rcases hf.left with h | ⟨m', hm', hc⟩
        · omega
        · exact (hfree (x - 1)).1 (h4 (x - 1) (by omega) (by omega)) m' hm' hc
      have hr2 : r.2 = y := by
        rcases Nat.lt_trichotomy r.2 y with hlt | he | hlt
        · rcases h6 with h | h
          · have := hf.upper; omega
          · obtain ⟨m', hm', hc⟩ := (hcov _).1 h
            exact absurd hc (hf.free r.2 (by omega) hlt m' hm')
        · exact he
        · rcases hf.right with h | ⟨m', hm', hc⟩
          · omega
          · exact absurd hc ((hfree y).1 (h4 y (by omega) hlt) m' hm')
      refine ⟨r, List.mem_append_right _ hr, ?_⟩
      rw [Bool.and_eq_true, decide_eq_true_eq, blank_word, hgroup, hr1, hr2]
      exact ⟨hw, hg⟩
  · rw [holeSpans_all hs.sound.wf]
    constructor
    · rintro ⟨h, hh, hc⟩
      exfalso
      rw [Bool.and_eq_true, blank_word] at hc
      obtain ⟨h1, h2, _, _, h5⟩ := allHoles_mem _ _ _ _ _ none (by simp) h hh
      obtain ⟨i, i1, i2, _⟩ := hc.1
      rcases h5 with ⟨a, ha, _⟩ | h5
      · cases ha
      · have := (holeStart_spec (l := s.live) (ignore := fun _ => false) a).1
        omega
    · rintro ⟨x, y, hf, _⟩
      have := hf.lower
      have := hf.pos
      have := hf.upper
      omega

/-- The part number or year `m` is more likely to belong to an episode title: in the part, the last match before it is one an episode
title may follow, the first one after it is one that may follow an episode title, and there is free text next to it, in the same
group (after it, for a part number). -/
def Spec.InTitle (s : Ms) (part m : Mt) : Prop :=
  IsPart s part ∧ Overlaps part m ∧ ∃ before after, Final s.live (PublicIn part.start m.start) before ∧ OpensTitle before ∧
    Lead s.live (PublicIn m.stop part.stop) after ∧ ClosesTitle after ∧
    (TextBetween s m m.stop after.start ∨ (m.name = some c!"year" ∧ TextBetween s m before.stop m.start))

theorem final_unique {l : List Mt} (hl : l.Nodup) {P : Mt → Prop} {y z : Mt} (hy : Final l P y) (hz : Final l P z) : y = z := by
  by_contra hne
  have h1 := hy.2.2 z hz.1 hz.2.1 (fun h => hne h.symm)
  have h2 := hz.2.2 y hy.1 hy.2.1 hne
  unfold Later at h1 h2
  rcases h1 with h1 | h1 | ⟨h1, h1', h1''⟩ <;> rcases h2 with h2 | h2 | ⟨h2, h2', h2''⟩ <;> try omega
  exact pair_asymm hl h1'' h2''

theorem inTitle_iff {s : Ms} (hs : Laid s) {part m : Mt} (hn : NamedIn m [c!"part", c!"year"]) :
    conflictsWithTitle s part m = true ↔ ∃ before after, Final s.live (PublicIn part.start m.start) before ∧ OpensTitle before ∧
    Lead s.live (PublicIn m.stop part.stop) after ∧ ClosesTitle after ∧
    (TextBetween s m m.stop after.start ∨ (m.name = some c!"year" ∧ TextBetween s m before.stop m.start)) := by
  unfold conflictsWithTitle
  cases hb : lastIn s part.start m.start fun x => !x.priv with
  | none =>
    simp only [Bool.false_eq_true, false_iff]
    rintro ⟨b, a, h1, _⟩
    rw [(lastIn_iff hs.sound).2 h1] at hb
    cases hb
  | some b =>
    cases ha : firstIn s m.stop part.stop fun x => !x.priv with
    | none =>
      simp only [Bool.false_eq_true, false_iff]
      rintro ⟨b, a, _, _, h1, _⟩
      rw [(firstPublic_iff hs.sound).2 h1] at ha
      cases ha
    | some a =>
      have hb' := (lastIn_iff hs.sound).1 hb
      have ha' := (firstPublic_iff hs.sound).1 ha
      simp only
      rw [Bool.and_eq_true, Bool.and_eq_true, isOneOf_iff, isOneOf_iff]
      have htext : (if m.name = some c!"part" then hasHole s (groupAt s m.start m.stop) m.stop a.start
          else hasHole s (groupAt s m.start m.stop) b.stop m.start || hasHole s (groupAt s m.start m.stop) m.stop a.start) = true ↔
          (TextBetween s m m.stop a.start ∨ (m.name = some c!"year" ∧ TextBetween s m b.stop m.start)) := by
        split
        · rename_i hpart
          rw [hasHole_iff hs]
          constructor
          · exact Or.inl
          · rintro (h | ⟨h, _⟩)
            · exact h
            · rw [hpart] at h; exact absurd h (by decide)
        · rename_i hpart
          rw [Bool.or_eq_true, hasHole_iff hs, hasHole_iff hs]
          have hyear : m.name = some c!"year" := by
            obtain ⟨n, h1, h2⟩ := hn
            rcases List.mem_cons.1 h1 with rfl | h1
            · exact absurd h2 hpart
            · rw [List.mem_singleton] at h1; rw [h2, h1]
          constructor
          · rintro (h | h)
            · exact .inr ⟨hyear, h⟩
            · exact .inl h
          · rintro (h | ⟨_, h⟩)
            · exact .inr h
            · exact .inl h
      rw [htext]
      constructor
      · rintro ⟨⟨h1, h2⟩, h3⟩; exact ⟨b, a, hb', h1, ha', h2, h3⟩
      · rintro ⟨b', a', h1, h2, h3, h4, h5⟩
        rw [final_unique (sound_nodup hs.sound) h1 hb'] at h2 h5
        rw [lead_unique h3 ha'] at h4 h5
        exact ⟨⟨h2, h4⟩, h5⟩

/-- C83: part numbers and years that are more likely to belong to an episode title are dropped, with the match they are a piece of;
nothing else changes. -/
theorem C83_inside_title (kin : Kin) (s : Ms) (hs : Laid s) : Drops s (removeTitleConflicts kin s) fun x =>
    ∃ part m, m ∈ s.live ∧ NamedIn m [c!"part", c!"year"] ∧ InTitle s part m ∧
      ∃ y, (y = m ∨ (∃ rest, kin.ancestors m = y :: rest ∧ y.start < y.stop)) ∧ y.key s.input = x.key s.input := by
  unfold removeTitleConflicts
  refine drops_keys' hs.sound fun x _ => ?_
  constructor
  · rintro ⟨y, hy, hk⟩
    obtain ⟨part, hpart, hy⟩ := List.mem_flatMap.1 hy
    obtain ⟨m, hm, hy⟩ := List.mem_flatMap.1 hy
    obtain ⟨hm, hc⟩ := List.mem_filter.1 hm
    obtain ⟨h1, h2, h3, h4⟩ := (mem_rangeOf' (hs.sound.pos m (mem_rangeOf.1 hm).1)).1 hm
    have hn := isOneOf_iff.1 h4
    refine ⟨part, m, h1, hn, ⟨mem_parts.1 hpart, ⟨h2, h3⟩, (inTitle_iff hs hn).1 hc⟩, y, ?_, hk⟩
    rcases List.mem_cons.1 hy with rfl | hy
    · exact .inl rfl
    · obtain ⟨h5, h6⟩ := List.mem_filter.1 hy
      cases hl : kin.ancestors m with
      | nil => rw [hl] at h5; simp at h5
      | cons p rest =>
        rw [hl] at h5
        simp only [List.take_succ_cons, List.take_zero, List.mem_singleton] at h5
        subst h5
        exact .inr ⟨rest, rfl, of_decide_eq_true h6⟩
  · rintro ⟨part, m, h1, hn, ⟨hpart, hov, hc⟩, y, hy, hk⟩
    refine ⟨y, List.mem_flatMap.2 ⟨part, mem_parts.2 hpart, List.mem_flatMap.2 ⟨m, List.mem_filter.2 ⟨?_, (inTitle_iff hs hn).2 hc⟩, ?_⟩⟩, hk⟩
    · exact (mem_rangeOf' (hs.sound.pos m h1)).2 ⟨h1, hov.1, hov.2, isOneOf_iff.2 hn⟩
    · rcases hy with rfl | ⟨rest, h5, h6⟩
      · exact List.mem_cons_self ..
      · refine List.mem_cons_of_mem _ (List.mem_filter.2 ⟨?_, decide_eq_true h6⟩)
        rw [h5]
        simp

end Guessit
