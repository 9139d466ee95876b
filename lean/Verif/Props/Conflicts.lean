import Verif.Model.Conflicts
import Verif.Spec.Conflicts
import Verif.Props.SceneGroup
import Verif.Props.TitleRename

/-! # C90: which reading of a number is kept -/

namespace Guessit
open Spec

theorem exists_map {α β : Type} {f : α → β} {S : α → Prop} : ∀ {l : List β}, (∀ y ∈ l, ∃ x, S x ∧ y = f x) → ∃ k : List α, (∀ x ∈ k, S x) ∧ l = k.map f
  | [], _ => ⟨[], by simp, rfl⟩
  | y :: l, h => by
    obtain ⟨x, hx, he⟩ := h y (List.mem_cons_self ..)
    obtain ⟨k, hk, e⟩ := exists_map (l := l) fun z hz => h z (List.mem_cons_of_mem _ hz)
    refine ⟨x :: k, ?_, by rw [he, e]; rfl⟩
    intro z hz
    rcases List.mem_cons.1 hz with rfl | hz
    · exact hx
    · exact hk z hz

/-- Removing `ms` and appending changed copies of `sel`, when the changes do not matter for `==`. -/
theorem reworks_of {s : Ms} (h : Sound s) {ms sel : List Mt} {Bad Changed : Mt → Prop} {f : Mt → Mt} (hf : ∀ m, (f m).key s.input = m.key s.input)
    (hms : ∀ m ∈ ms, m ∈ s.live) (hsel : ∀ x, x ∈ sel ↔ x ∈ s.live ∧ Changed x) (hb : ∀ x ∈ s.live, x ∈ ms ↔ Bad x ∨ Changed x) :
    Reworks s { s with live := appendAll s.input (removeAll s.input s.live ms) (sel.map f) } Bad Changed f := by
  have hd : Drops s (dropping s ms) (fun x => x ∈ ms) := drops_mem h hms fun _ _ => Iff.rfl
  unfold dropping at hd
  obtain ⟨⟨extra, e1, e2, e3⟩, e4⟩ := adds_all s.input (sel.map f) (removeAll s.input s.live ms)
  obtain ⟨k, hk, he⟩ := exists_map (f := f) (S := (· ∈ sel)) (l := extra) fun y hy => by
    obtain ⟨x, hx, e⟩ := List.mem_map.1 (e2 y hy).1
    exact ⟨x, hx, e.symm⟩
  have hkey : (k.map (Mt.key s.input)).Nodup := by
    rw [he, List.map_map] at e3
    have : (Mt.key s.input ∘ f) = Mt.key s.input := funext fun m => hf m
    rwa [this] at e3
  refine ⟨rfl, rfl, removeAll s.input s.live ms, k, hd.order, ?_, List.Nodup.of_map _ hkey, ?_, ?_⟩
  · intro x hx
    rw [hd.bad x hx, hb x hx, not_or]
  · intro x
    constructor
    · intro hx; exact (hsel x).1 (hk x hx)
    · intro hx
      obtain ⟨y, hy, hyk⟩ := e4 (f x) (List.mem_map.2 ⟨x, (hsel x).2 hx, rfl⟩)
      rw [hf] at hyk
      rw [e1] at hy
      rcases List.mem_append.1 hy with hy | hy
      · have hyl := hd.order.subset hy
        have := key_inj h hx.1 hyl hyk
        subst this
        exact absurd ((hb y hx.1).2 (Or.inr hx.2)) ((hd.bad y hx.1).1 hy)
      · rw [he] at hy
        obtain ⟨z, hz, rfl⟩ := List.mem_map.1 hy
        rw [hf] at hyk
        have := key_inj h hx.1 ((hsel z).1 (hk z hz)).1 hyk
        subst this
        exact hz
  · show appendAll s.input (removeAll s.input s.live ms) (sel.map f) = _
    rw [e1, he]

/-! ## Anime -/

theorem slice_length {input : Str} {a b : Nat} (hb : b ≤ input.length) : ((input.take b).drop a).length = b - a := by
  simp [List.length_drop, List.length_take, Nat.min_eq_left hb]

theorem untouched_iff {s : Ms} (h : Laid s) {g : Mt} (hg : InGroups s g) (hp : g.rawStart = none ∧ g.rawStop = none) :
    untouchedAtStart s g = true ↔ (∃ part, IsPart s part ∧ part.start = g.start) ∧ ¬ ∃ m ∈ s.live, Overlaps g m := by
  have hgw := h.markers g hg.1
  unfold untouchedAtStart
  rw [Bool.and_eq_true]
  refine and_congr ?_ ?_
  · rw [List.any_eq_true]
    simp only [starting, List.mem_filter, decide_eq_true_eq]
    constructor
    · rintro ⟨m, ⟨h1, h2⟩, h3⟩; exact ⟨m, ⟨h1, h3⟩, h2⟩
    · rintro ⟨m, ⟨h1, h3⟩, h2⟩; exact ⟨m, ⟨h1, h2⟩, h3⟩
  · have hraw : g.raw s.input = (s.input.take g.stop).drop g.start := by
      unfold Mt.raw Mt.rawA Mt.rawB; rw [hp.1, hp.2]; rfl
    have hmax := (maxEnd_ge s.input s.live).1
    have hmin : min (maxEnd s.input s.live) g.stop = g.stop := Nat.min_eq_right (by omega)
    have hcov : (∀ i, g.start ≤ i → i < g.stop → (atIndex s.live i).isEmpty = true) ↔ ¬ ∃ m ∈ s.live, Overlaps g m := by
      have hat : ∀ i, (atIndex s.live i).isEmpty = true ↔ ∀ m ∈ s.live, ¬ (m.start ≤ i ∧ i < m.stop) := by
        intro i
        unfold atIndex
        rw [List.isEmpty_iff, List.filter_eq_nil_iff]
        simp
      constructor
      · rintro hc ⟨m, hm, ho⟩
        have hmw := h.sound.wf m hm
        unfold Overlaps at ho
        exact (hat (max g.start m.start)).1 (hc _ (by omega) (by omega)) m hm ⟨by omega, by omega⟩
      · intro hc i hi1 hi2
        rw [hat]
        intro m hm hi
        exact hc ⟨m, hm, by unfold Overlaps; omega⟩
    rw [← hcov]
    unfold holesOf
    rw [hmin]
    cases hr : runsFrom (fun i => (atIndex s.live i).isEmpty) (g.stop - g.start) g.start none with
    | nil =>
      simp only [List.map_nil, List.head?_nil, Bool.false_eq_true, false_iff]
      intro hc
      have : (g.start, g.stop) ∈ runsFrom (fun i => (atIndex s.live i).isEmpty) (g.stop - g.start) g.start none :=
        mem_runs.2 ⟨Nat.le_refl _, hgw.1, by omega, hc, Or.inl rfl, Or.inl (by omega)⟩
      rw [hr] at this
      simp at this
    | cons r rs =>
      obtain ⟨x, y⟩ := r
      simp only [List.map_cons, List.head?_cons, decide_eq_true_eq]
      have hm : (x, y) ∈ runsFrom (fun i => (atIndex s.live i).isEmpty) (g.stop - g.start) g.start none := by rw [hr]; simp
      obtain ⟨m1, m2, m3, m4, m5, m6⟩ := mem_runs.1 hm
      rw [hraw]
      show (s.input.take y).drop x = _ ↔ _
      constructor
      · intro he i hi1 hi2
        have := congrArg List.length he
        rw [slice_length (by omega), slice_length (by omega)] at this
        exact m4 i (by omega) (by omega)
      · intro hc
        have hx : x = g.start := by
          rcases m5 with h1 | h1
          · exact h1
          · by_contra hne
            rw [hc (x - 1) (by omega) (by omega)] at h1
            cases h1
        have hy : y = g.stop := by
          rcases m6 with h1 | h1
          · omega
          · by_contra hne
            rw [hc y (by omega) (by omega)] at h1
            cases h1
        rw [hx, hy]

theorem named_nonempty {l : List Mt} {n : Str} : (!(named l n).isEmpty) = true ↔ Found l n := by
  rw [Bool.not_eq_true', ← Bool.not_eq_true, List.isEmpty_iff, List.eq_nil_iff_forall_not_mem, not_forall]
  unfold Found
  constructor
  · rintro ⟨m, hm⟩; exact ⟨m, mem_named.1 (not_not.1 hm)⟩
  · rintro ⟨m, hm⟩; exact ⟨m, not_not.2 (mem_named.2 hm)⟩

theorem range_nonempty {s : Ms} (h : Sound s) {part : Mt} {q : Mt → Bool} :
    (rangeOf s.input s.live part.start part.stop q).isEmpty = false ↔ ∃ m ∈ s.live, q m = true ∧ Overlaps part m := by
  rw [← Bool.not_eq_true, range_empty h.pos, not_not]
  constructor
  · rintro ⟨m, h1, h2, h3, h4⟩; exact ⟨m, h1, h4, h2, h3⟩
  · rintro ⟨m, h1, h4, h2, h3⟩; exact ⟨m, h1, h2, h3, h4⟩

theorem isAnime_iff {s : Ms} (h : Laid s) (hp : PlainGroups s) : isAnime s = true ↔ LooksAnime s := by
  unfold isAnime LooksAnime
  rw [Bool.or_eq_true, Bool.or_eq_true, named_nonempty, named_nonempty, or_assoc, List.any_eq_true]
  refine or_congr Iff.rfl (or_congr Iff.rfl ?_)
  refine exists_congr fun g => ?_
  rw [mem_named]
  refine and_congr_right fun hg => ?_
  rw [Bool.or_eq_true, Bool.not_eq_true', range_nonempty h.sound, untouched_iff h hg ⟨(hp g hg).2.1, (hp g hg).2.2.1⟩]
  simp only [decide_eq_true_eq]

/-! ## The loop -/

theorem weakFold_anime (kin : Kin) (s : Ms) : ∀ (parts : List Mt) (acc : List Mt × List Mt),
    parts.foldl (weakStep kin s true) acc =
      (acc.1 ++ parts.flatMap (fun part => if (fromPattern s c!"weak_episode" part).isEmpty then [] else
          fromPattern s c!"weak_duplicate" part ++ animeEpisodes s part),
        acc.2 ++ (parts.flatMap fun part => if (fromPattern s c!"weak_episode" part).isEmpty then [] else animeEpisodes s part).map
          fun m => { m with tags := m.tags ++ [c!"anime"] }) := by
  intro parts
  induction parts with
  | nil => intro acc; simp
  | cons part parts ih =>
    intro acc
    rw [List.foldl_cons, ih, List.flatMap_cons, List.flatMap_cons]
    unfold weakStep
    by_cases hw : (fromPattern s c!"weak_episode" part).isEmpty = true
    · simp only [hw, if_true, List.nil_append]
    · simp only [hw, if_true, List.append_assoc, List.map_append, Bool.false_eq_true, if_false]

/-- C90, anime: in each part where there is a weak episode number, the readings as season and episode are dropped, and the episodes are
tagged. -/
theorem C90_anime (kin : Kin) (type : Option Str) (s : Ms) (h : Laid s) (hp : PlainGroups s) (ht : type ≠ some c!"movie") (ha : LooksAnime s) :
    Reworks s (weakConflicts kin type s)
      (fun x => x.iname = some c!"weak_duplicate" ∧ ∃ part, IsPart s part ∧ Overlaps part x ∧ HasFrom s c!"weak_episode" part)
      (fun x => x.name = some c!"episode" ∧ x.iname ≠ some c!"weak_duplicate" ∧
        ∃ part, IsPart s part ∧ Overlaps part x ∧ HasFrom s c!"weak_episode" part)
      (fun x => { x with tags := x.tags ++ [c!"anime"] }) := by
  unfold weakConflicts
  rw [if_neg ht, (isAnime_iff h hp).2 ha]
  dsimp only
  rw [weakFold_anime]
  dsimp only
  rw [List.nil_append, List.nil_append]
  have hweak : ∀ part, (fromPattern s c!"weak_episode" part).isEmpty = false ↔ HasFrom s c!"weak_episode" part := by
    intro part
    unfold fromPattern HasFrom
    rw [range_nonempty h.sound]
    simp only [decide_eq_true_eq]
  have hdup : ∀ part x, x ∈ fromPattern s c!"weak_duplicate" part ↔ x ∈ s.live ∧ x.iname = some c!"weak_duplicate" ∧ Overlaps part x := by
    intro part x
    unfold fromPattern Overlaps
    rw [mem_range h.sound.pos, decide_eq_true_eq]
    tauto
  have heps : ∀ part x, x ∈ animeEpisodes s part ↔ x ∈ s.live ∧ (x.name = some c!"episode" ∧ x.iname ≠ some c!"weak_duplicate") ∧ Overlaps part x := by
    intro part x
    unfold animeEpisodes Overlaps
    rw [mem_range h.sound.pos, Bool.and_eq_true, decide_eq_true_eq, decide_eq_true_eq]
    tauto
  have hif : ∀ (part : Mt) (l : List Mt) (x : Mt), (x ∈ if (fromPattern s c!"weak_episode" part).isEmpty = true then [] else l) ↔
      x ∈ l ∧ HasFrom s c!"weak_episode" part := by
    intro part l x
    rw [← hweak]
    split
    · rename_i hh; simp [hh]
    · rename_i hh; rw [Bool.not_eq_true] at hh; simp [hh]
  refine reworks_of h.sound (fun m => rfl) ?_ ?_ ?_
  · intro m hm
    obtain ⟨part, _, hm⟩ := List.mem_flatMap.1 hm
    rw [hif, List.mem_append, hdup, heps] at hm
    exact hm.1.elim (·.1) (·.1)
  · intro x
    rw [List.mem_flatMap]
    constructor
    · rintro ⟨part, hpt, hm⟩
      rw [hif, heps] at hm
      exact ⟨hm.1.1, hm.1.2.1.1, hm.1.2.1.2, part, mem_parts.1 hpt, hm.1.2.2, hm.2⟩
    · rintro ⟨hx, h1, h2, part, h3, h4, h5⟩
      exact ⟨part, mem_parts.2 h3, (hif _ _ _).2 ⟨(heps _ _).2 ⟨hx, ⟨h1, h2⟩, h4⟩, h5⟩⟩
  · intro x hx
    rw [List.mem_flatMap]
    constructor
    · rintro ⟨part, hpt, hm⟩
      rw [hif, List.mem_append, hdup, heps] at hm
      rcases hm with ⟨hm | hm, hw⟩
      · exact Or.inl ⟨hm.2.1, part, mem_parts.1 hpt, hm.2.2, hw⟩
      · exact Or.inr ⟨hm.2.1.1, hm.2.1.2, part, mem_parts.1 hpt, hm.2.2, hw⟩
    · rintro (⟨h1, part, h2, h3, h4⟩ | ⟨h1, h1', part, h2, h3, h4⟩)
      · exact ⟨part, mem_parts.2 h2, (hif _ _ _).2 ⟨List.mem_append.2 (Or.inl ((hdup _ _).2 ⟨hx, h1, h3⟩)), h4⟩⟩
      · exact ⟨part, mem_parts.2 h2, (hif _ _ _).2 ⟨List.mem_append.2 (Or.inr ((heps _ _).2 ⟨hx, ⟨h1, h1'⟩, h3⟩)), h4⟩⟩

/-- What a part that is not of an anime loses before its duplicates are looked at. -/
def weakGone (kin : Kin) (s : Ms) (part : Mt) : List Mt :=
  if (fromPattern s c!"weak_duplicate" part).isEmpty then [] else
  if (rangedEpisodes kin s part).isEmpty && (rangeOf s.input s.live part.start part.stop fun m => m.tagged c!"SxxExx").isEmpty then
    fromPattern s c!"weak_episode" part else rangedEpisodes kin s part

/-- The ranges of a part where readings compete. -/
def weakRanges (kin : Kin) (s : Ms) (part : Mt) : List Mt :=
  if (fromPattern s c!"weak_duplicate" part).isEmpty then [] else rangedEpisodes kin s part

theorem weakStep_plain (kin : Kin) (s : Ms) (acc : List Mt × List Mt) (part : Mt) :
    (weakStep kin s false acc part).2 = acc.2 ++ (weakRanges kin s part).map (fun m => { m with tags := [] }) ∧
    ∀ x, x ∈ (weakStep kin s false acc part).1 ↔ x ∈ acc.1 ∨ x ∈ weakGone kin s part ∨
      (x ∈ fromPattern s c!"weak_duplicate" part ∧ (acc.2 ≠ [] ∨ weakRanges kin s part ≠ [])) := by
  unfold weakStep weakGone weakRanges
  dsimp only
  rw [if_neg (by decide)]
  by_cases hd : (fromPattern s c!"weak_duplicate" part).isEmpty = true
  · rw [if_pos hd, if_pos hd, if_pos hd]
    refine ⟨by simp, fun x => ?_⟩
    rw [List.isEmpty_iff] at hd
    rw [hd]
    simp
  · rw [if_neg hd, if_neg hd, if_neg hd]
    generalize fromPattern s c!"weak_duplicate" part = dup at *
    generalize fromPattern s c!"weak_episode" part = weak at *
    generalize (rangeOf s.input s.live part.start part.stop fun m => m.tagged c!"SxxExx").isEmpty = sx at *
    generalize rangedEpisodes kin s part = ranged at *
    obtain ⟨a1, a2⟩ := acc
    by_cases hr : ranged = []
    · subst hr
      cases a2 <;> cases sx <;> simp [or_assoc]
    · have he : ranged.isEmpty = false := by rw [← Bool.not_eq_true, List.isEmpty_iff]; exact hr
      have hm : (a2 ++ ranged.map fun m : Mt => { m with tags := [] }).isEmpty = false := by
        rw [← Bool.not_eq_true, List.isEmpty_iff]
        simp [hr]
      simp only [he, Bool.false_and, Bool.false_eq_true, if_false, hm, true_and]
      intro x
      simp [hr, or_assoc]

theorem weakFold_plain (kin : Kin) (s : Ms) : ∀ (parts : List Mt) (acc : List Mt × List Mt),
    (parts.foldl (weakStep kin s false) acc).2 = acc.2 ++ (parts.flatMap (weakRanges kin s)).map (fun m => { m with tags := [] }) ∧
    ∀ x, x ∈ (parts.foldl (weakStep kin s false) acc).1 ↔ x ∈ acc.1 ∨ (∃ part ∈ parts, x ∈ weakGone kin s part) ∨
      ∃ pre part post, parts = pre ++ part :: post ∧ x ∈ fromPattern s c!"weak_duplicate" part ∧
        (acc.2 ≠ [] ∨ ∃ q ∈ pre ++ [part], weakRanges kin s q ≠ []) := by
  intro parts
  induction parts with
  | nil => intro acc; simp
  | cons part parts ih =>
    intro acc
    obtain ⟨s1, s2⟩ := weakStep_plain kin s acc part
    obtain ⟨i1, i2⟩ := ih (weakStep kin s false acc part)
    rw [List.foldl_cons]
    refine ⟨by rw [i1, s1, List.flatMap_cons, List.map_append, List.append_assoc], fun x => ?_⟩
    have hne : (weakStep kin s false acc part).2 ≠ [] ↔ acc.2 ≠ [] ∨ weakRanges kin s part ≠ [] := by
      rw [s1, ne_eq, List.append_eq_nil_iff, not_and_or, List.map_eq_nil_iff]
    rw [i2, s2, hne]
    constructor
    · rintro ((h1 | h1 | ⟨h1, h2⟩) | ⟨p, hp, h1⟩ | ⟨pre, p, post, h1, h2, h3⟩)
      · exact Or.inl h1
      · exact Or.inr (Or.inl ⟨part, by simp, h1⟩)
      · exact Or.inr (Or.inr ⟨[], part, parts, rfl, h1, h2.imp_right fun h => ⟨part, by simp, h⟩⟩)
      · exact Or.inr (Or.inl ⟨p, by simp [hp], h1⟩)
      · refine Or.inr (Or.inr ⟨part :: pre, p, post, by rw [h1]; rfl, h2, ?_⟩)
        rcases h3 with (h3 | h3) | ⟨q, hq, h3⟩
        · exact Or.inl h3
        · exact Or.inr ⟨part, by simp, h3⟩
        · exact Or.inr ⟨q, List.mem_cons_of_mem _ hq, h3⟩
    · rintro (h1 | ⟨p, hp, h1⟩ | ⟨pre, p, post, h1, h2, h3⟩)
      · exact Or.inl (Or.inl h1)
      · rcases List.mem_cons.1 hp with rfl | hp
        · exact Or.inl (Or.inr (Or.inl h1))
        · exact Or.inr (Or.inl ⟨p, hp, h1⟩)
      · cases pre with
        | nil =>
          rw [List.nil_append, List.cons.injEq] at h1
          obtain ⟨rfl, rfl⟩ := h1
          refine Or.inl (Or.inr (Or.inr ⟨h2, h3.imp_right ?_⟩))
          rintro ⟨q, hq, h4⟩
          rw [List.nil_append, List.mem_singleton] at hq
          subst hq
          exact h4
        | cons p0 pre =>
          rw [List.cons_append, List.cons.injEq] at h1
          obtain ⟨rfl, rfl⟩ := h1
          refine Or.inr (Or.inr ⟨pre, p, post, rfl, h2, ?_⟩)
          rcases h3 with h3 | ⟨q, hq, h3⟩
          · exact Or.inl (Or.inl h3)
          · rcases List.mem_cons.1 hq with rfl | hq
            · exact Or.inl (Or.inr h3)
            · exact Or.inr ⟨q, hq, h3⟩

theorem before_iff {α : Type} {l : List α} {q p : α} : (∃ pre post, l = pre ++ p :: post ∧ q ∈ pre) ↔ [q, p].Sublist l := by
  constructor
  · rintro ⟨pre, post, rfl, hq⟩
    exact List.Sublist.append (List.singleton_sublist.2 hq) (List.singleton_sublist.2 (List.mem_cons_self ..)) (l₁ := [q]) (r₁ := [p])
  · intro hs
    induction l with
    | nil => cases hs
    | cons a l ih =>
      rcases List.cons_sublist_cons'.1 hs with h1 | ⟨rfl, h1⟩
      · obtain ⟨pre, post, rfl, hq⟩ := ih h1
        exact ⟨a :: pre, post, rfl, List.mem_cons_of_mem _ hq⟩
      · obtain ⟨pre, post, rfl⟩ := List.append_of_mem (List.singleton_sublist.1 h1)
        exact ⟨q :: pre, post, rfl, List.mem_cons_self ..⟩

/-- C90, otherwise: in each part where a number may be read as season and episode, the readings as an episode number are dropped, unless
there is a range of them or an SxxExx match; a range loses its tags, and from that part on the readings as season and episode are dropped,
even in parts without a range. -/
theorem C90_not_anime (kin : Kin) (type : Option Str) (s : Ms) (h : Laid s) (hp : PlainGroups s) (ht : type ≠ some c!"movie") (ha : ¬ LooksAnime s) :
    Reworks s (weakConflicts kin type s)
      (fun x =>
        (x.iname = some c!"weak_episode" ∧ ∃ part, IsPart s part ∧ Overlaps part x ∧ HasFrom s c!"weak_duplicate" part ∧
          (¬ ∃ m ∈ s.live, Ranged kin m ∧ Overlaps part m) ∧ ¬ ∃ m ∈ s.live, c!"SxxExx" ∈ m.tags ∧ Overlaps part m) ∨
        (x.iname = some c!"weak_duplicate" ∧ ∃ part, IsPart s part ∧ Overlaps part x ∧
          ∃ q, RangePart kin s q ∧ (q = part ∨ [q, part].Sublist s.markers)))
      (fun x => Ranged kin x ∧ ∃ part, IsPart s part ∧ Overlaps part x ∧ HasFrom s c!"weak_duplicate" part)
      (fun x => { x with tags := [] }) := by
  have hf : isAnime s = false := by rw [← Bool.not_eq_true, isAnime_iff h hp]; exact ha
  unfold weakConflicts
  rw [if_neg ht, hf]
  dsimp only
  obtain ⟨f1, f2⟩ := weakFold_plain kin s (pathParts s) ([], [])
  rw [f1, List.nil_append]
  generalize ((pathParts s).foldl (weakStep kin s false) ([], [])).1 = gone at *
  have hdupe : ∀ part, (fromPattern s c!"weak_duplicate" part).isEmpty = false ↔ HasFrom s c!"weak_duplicate" part := by
    intro part
    unfold fromPattern HasFrom
    rw [range_nonempty h.sound]
    simp only [decide_eq_true_eq]
  have hfrom : ∀ n part x, x ∈ fromPattern s n part ↔ x ∈ s.live ∧ x.iname = some n ∧ Overlaps part x := by
    intro n part x
    unfold fromPattern Overlaps
    rw [mem_range h.sound.pos, decide_eq_true_eq]
    tauto
  have hq : ∀ m : Mt, (decide (m.name = some c!"episode") && decide (m.iname = some c!"weak_episode") &&
      !(named (kin.children (kin.initiator m)) c!"episodeSeparator").isEmpty) = true ↔ Ranged kin m := by
    intro m
    rw [Bool.and_eq_true, Bool.and_eq_true, decide_eq_true_eq, decide_eq_true_eq, named_nonempty, and_assoc]
    rfl
  have hrm : ∀ part x, x ∈ rangedEpisodes kin s part ↔ x ∈ s.live ∧ Ranged kin x ∧ Overlaps part x := by
    intro part x
    unfold rangedEpisodes Overlaps
    rw [mem_range h.sound.pos, hq]
    tauto
  have hre : ∀ part, (rangedEpisodes kin s part).isEmpty = true ↔ ¬ ∃ m ∈ s.live, Ranged kin m ∧ Overlaps part m := by
    intro part
    unfold rangedEpisodes
    rw [← not_iff_not, Bool.not_eq_true, range_nonempty h.sound, not_not]
    simp only [hq]
  have hsx : ∀ part : Mt, (rangeOf s.input s.live part.start part.stop fun m => m.tagged c!"SxxExx").isEmpty = true ↔
      ¬ ∃ m ∈ s.live, c!"SxxExx" ∈ m.tags ∧ Overlaps part m := by
    intro part
    rw [← not_iff_not, Bool.not_eq_true, range_nonempty h.sound, not_not]
    simp only [tagged_iff]
  have hranges : ∀ part x, x ∈ weakRanges kin s part ↔ x ∈ s.live ∧ Ranged kin x ∧ Overlaps part x ∧ HasFrom s c!"weak_duplicate" part := by
    intro part x
    unfold weakRanges
    rw [← hdupe]
    split
    · rename_i hh; simp [hh]
    · rename_i hh; rw [Bool.not_eq_true] at hh; rw [hrm]; tauto
  have hrne : ∀ part, IsPart s part → (weakRanges kin s part ≠ [] ↔ RangePart kin s part) := by
    intro part hpart
    rw [ne_eq, List.eq_nil_iff_forall_not_mem, not_forall]
    unfold RangePart
    constructor
    · rintro ⟨x, hx⟩
      rw [not_not, hranges] at hx
      exact ⟨hpart, hx.2.2.2, x, hx.1, hx.2.1, hx.2.2.1⟩
    · rintro ⟨_, h2, x, h3, h4, h5⟩
      exact ⟨x, not_not.2 ((hranges _ _).2 ⟨h3, h4, h5, h2⟩)⟩
  have hgone : ∀ part x, x ∈ weakGone kin s part ↔ x ∈ s.live ∧ Overlaps part x ∧ HasFrom s c!"weak_duplicate" part ∧
      ((x.iname = some c!"weak_episode" ∧ (¬ ∃ m ∈ s.live, Ranged kin m ∧ Overlaps part m) ∧
        ¬ ∃ m ∈ s.live, c!"SxxExx" ∈ m.tags ∧ Overlaps part m) ∨ Ranged kin x) := by
    intro part x
    unfold weakGone
    rw [← hdupe]
    split
    · rename_i hh; simp [hh]
    · rename_i hh
      rw [Bool.not_eq_true] at hh
      rw [← hre, ← hsx]
      split
      · rename_i h2
        rw [Bool.and_eq_true] at h2
        rw [hfrom]
        constructor
        · rintro ⟨k1, k2, k3⟩; exact ⟨k1, k3, hh, Or.inl ⟨k2, h2⟩⟩
        · rintro ⟨k1, k2, _, k3 | k3⟩
          · exact ⟨k1, k3.1, k2⟩
          · exact ⟨k1, k3.2.1, k2⟩
      · rename_i h2
        rw [Bool.and_eq_true] at h2
        rw [hrm]
        constructor
        · rintro ⟨k1, k2, k3⟩; exact ⟨k1, k3, hh, Or.inr k2⟩
        · rintro ⟨k1, k2, _, k3 | k3⟩
          · exact absurd k3.2 h2
          · exact ⟨k1, k3, k2⟩
  refine reworks_of h.sound (fun m => rfl) ?_ ?_ ?_
  · intro m hm
    rcases (f2 m).1 hm with hm | ⟨part, _, hm⟩ | ⟨pre, part, post, _, hm, _⟩
    · simp at hm
    · exact ((hgone _ _).1 hm).1
    · exact ((hfrom _ _ _).1 hm).1
  · intro x
    rw [List.mem_flatMap]
    constructor
    · rintro ⟨part, hpt, hm⟩
      rw [hranges] at hm
      exact ⟨hm.1, hm.2.1, part, mem_parts.1 hpt, hm.2.2⟩
    · rintro ⟨hx, h1, part, h3, h4⟩
      exact ⟨part, mem_parts.2 h3, (hranges _ _).2 ⟨hx, h1, h4⟩⟩
  · intro x hx
    rw [f2]
    constructor
    · rintro (hm | ⟨part, hpt, hm⟩ | ⟨pre, part, post, he, hm, hq⟩)
      · simp at hm
      · obtain ⟨_, k2, k3, k4 | k4⟩ := (hgone _ _).1 hm
        · exact Or.inl (Or.inl ⟨k4.1, part, mem_parts.1 hpt, k2, k3, k4.2⟩)
        · exact Or.inr ⟨k4, part, mem_parts.1 hpt, k2, k3⟩
      · have hall : ∀ q ∈ pathParts s, IsPart s q := fun q hq => mem_parts.1 hq
        obtain ⟨_, k2, k3⟩ := (hfrom _ _ _).1 hm
        refine Or.inl (Or.inr ⟨k2, part, hall _ (by rw [he]; simp), k3, ?_⟩)
        rcases hq with hq | ⟨q, hq, hne⟩
        · exact absurd rfl hq
        · have hqp : q ∈ pathParts s := by
            rw [he]
            rcases List.mem_append.1 hq with h1 | h1
            · exact List.mem_append.2 (Or.inl h1)
            · rw [List.mem_singleton] at h1; rw [h1]; simp
          refine ⟨q, (hrne q (hall q hqp)).1 hne, ?_⟩
          rcases List.mem_append.1 hq with h1 | h1
          · exact Or.inr ((before_iff.1 ⟨pre, post, he, h1⟩).trans List.filter_sublist)
          · exact Or.inl (List.mem_singleton.1 h1)
    · rintro ((⟨k1, part, k2, k3, k4, k5⟩ | ⟨k1, part, k2, k3, q, k4, k5⟩) | ⟨k1, part, k2, k3, k4⟩)
      · exact Or.inr (Or.inl ⟨part, mem_parts.2 k2, (hgone _ _).2 ⟨hx, k3, k4, Or.inl ⟨k1, k5⟩⟩⟩)
      · refine Or.inr (Or.inr ?_)
        rcases k5 with rfl | k5
        · obtain ⟨pre, post, he⟩ := List.append_of_mem (mem_parts.2 k2)
          exact ⟨pre, q, post, he, (hfrom _ _ _).2 ⟨hx, k1, k3⟩, Or.inr ⟨q, by simp, (hrne q k2).2 k4⟩⟩
        · have : [q, part].Sublist (pathParts s) := by
            unfold pathParts named
            rw [pair_filter]
            exact ⟨decide_eq_true k4.1.2, decide_eq_true k2.2, k5⟩
          obtain ⟨pre, post, he, hq⟩ := before_iff.2 this
          exact ⟨pre, part, post, he, (hfrom _ _ _).2 ⟨hx, k1, k3⟩, Or.inr ⟨q, by simp [hq], (hrne q k4.1).2 k4⟩⟩
      · exact Or.inr (Or.inl ⟨part, mem_parts.2 k2, (hgone _ _).2 ⟨hx, k3, k4, Or.inr k1⟩⟩)

/-- C90: nothing happens for a movie. -/
theorem C90_movie (kin : Kin) (s : Ms) : weakConflicts kin (some c!"movie") s = s := by
  unfold weakConflicts
  rw [if_pos rfl]

end Guessit
