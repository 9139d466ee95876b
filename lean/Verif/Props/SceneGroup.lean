import Verif.Model.SceneGroup
import Verif.Spec.SceneGroup
import Verif.Props.DashGroup

/-! # C88: scene release groups -/

namespace Guessit

open Spec

theorem nodup_live {s : Ms} (hs : Sound s) : s.live.Nodup := List.Nodup.of_map _ hs.distinct

theorem tail_mem {α : Type} {l : List α} (hl : l.Nodup) {x : α} : x ∈ l.drop 1 ↔ x ∈ l ∧ l.head? ≠ some x := by
  cases l with
  | nil => simp
  | cons y ys =>
    rw [List.nodup_cons] at hl
    simp only [List.drop_succ_cons, List.drop_zero, List.mem_cons, List.head?_cons, ne_eq, Option.some.injEq]
    constructor
    · intro h
      exact ⟨.inr h, fun e => hl.1 (e ▸ h)⟩
    · rintro ⟨h | h, h'⟩
      · exact absurd h.symm h'
      · exact h

theorem insidePart_iff {part m : Mt} : insidePart part m = true ↔ InPart part m := by simp [insidePart, InPart]

theorem extraTitle_iff {s : Ms} (hs : Sound s) {part m : Mt} (hm : m ∈ s.live) : extraTitle s part m = true ↔ ExtraTitle s part m := by
  unfold extraTitle ExtraTitle
  have he : (named s.live c!"title").filter (insidePart part) =
      s.live.filter fun x => insidePart part x && decide (x.name = some c!"title") := by
    rw [named, List.filter_filter]
  have hfo : FirstOf s.live (fun x => x.name = some c!"title" ∧ InPart part x) m ↔
      ((named s.live c!"title").filter (insidePart part)).head? = some m := by
    rw [he, head_filter_iff]
    refine firstOf_congr (fun y _ => ?_) m
    rw [Bool.and_eq_true, decide_eq_true_eq, insidePart_iff]
    exact ⟨fun h => ⟨h.2, h.1⟩, fun h => ⟨h.2, h.1⟩⟩
  have hmem : m ∈ (named s.live c!"title").filter (insidePart part) ↔ m.name = some c!"title" ∧ InPart part m := by
    rw [List.mem_filter, mem_named, insidePart_iff]
    exact ⟨fun h => ⟨h.1.2, h.2⟩, fun h => ⟨⟨hm, h.1⟩, h.2⟩⟩
  have hnd : ((named s.live c!"title").filter (insidePart part)).Nodup := ((nodup_live hs).filter _).filter _
  rw [hfo, List.any_eq_true]
  constructor
  · rintro ⟨x, hx, hk⟩
    rw [Mt.eqv, decide_eq_true_eq] at hk
    have hx' := (mem_named.1 (List.mem_filter.1 ((tail_mem hnd).1 hx).1).1).1
    have := key_inj hs hx' hm hk
    subst this
    obtain ⟨h1, h2⟩ := (tail_mem hnd).1 hx
    exact ⟨hm, (hmem.1 h1).1, (hmem.1 h1).2, h2⟩
  · rintro ⟨_, h1, h2, h3⟩
    exact ⟨m, (tail_mem hnd).2 ⟨hmem.2 ⟨h1, h2⟩, h3⟩, by simp [Mt.eqv]⟩

theorem scenePrevious_iff {m : Mt} : scenePrevious m = true ↔ MayPrecede m := by
  unfold scenePrevious MayPrecede
  have h : (scenePreviousNames.any fun n => decide (m.name = some n)) = true ↔ NamedIn m scenePreviousNames := by
    simp [NamedIn]
  change _ ↔ (NamedIn m scenePreviousNames ∧ _) ∨ (¬ NamedIn m scenePreviousNames ∧ _)
  by_cases hn : NamedIn m scenePreviousNames
  · rw [if_pos (h.2 hn)]
    simp [hn, Mt.tagged]
  · rw [if_neg (fun hc => hn (h.1 hc)), tagged_iff]
    simp [hn]

theorem freeForGroup_iff {s : Ms} (hs : Sound s) {part : Mt} {i : Nat} :
    (!coveredBy s.live (extraTitle s part) i) = true ↔ FreeForGroup s part i := by
  rw [Bool.not_eq_true', coveredBy_false]
  unfold FreeForGroup
  constructor
  · intro h m hm hc
    rw [← extraTitle_iff hs hm]
    by_contra hcon
    exact h m hm (by simpa using hcon) hc
  · intro h m hm he hc
    rw [(extraTitle_iff hs hm).2 (h m hm hc)] at he
    cases he

theorem last_sorted {l : List (Nat × Nat)} (hl : l.Pairwise fun a b => a.2 < b.1) (hp : ∀ r ∈ l, r.1 < r.2) {q : Nat × Nat → Bool}
    {r : Nat × Nat} : l.reverse.find? q = some r ↔ r ∈ l ∧ q r = true ∧ ∀ r' ∈ l, q r' = true → r'.1 ≤ r.1 := by
  induction l with
  | nil => simp
  | cons a l ih =>
    rw [List.pairwise_cons] at hl
    specialize ih hl.2 fun r hr => hp r (List.mem_cons_of_mem _ hr)
    have ha := hp a (List.mem_cons_self ..)
    rw [List.reverse_cons, List.find?_append]
    cases hf : l.reverse.find? q with
    | some r0 =>
      have h0m : r0 ∈ l := List.mem_reverse.1 (List.mem_of_find?_eq_some hf)
      have h0q := List.find?_some hf
      have hlt := hl.1 r0 h0m
      rw [Option.some_or, ← hf, ih]
      constructor
      · rintro ⟨h1, h2, h3⟩
        refine ⟨List.mem_cons_of_mem _ h1, h2, fun r' hr' hq' => ?_⟩
        rcases List.mem_cons.1 hr' with rfl | hr'
        · have := hl.1 r h1
          omega
        · exact h3 r' hr' hq'
      · rintro ⟨h1, h2, h3⟩
        have := h3 r0 (List.mem_cons_of_mem _ h0m) h0q
        rcases List.mem_cons.1 h1 with rfl | h1
        · omega
        · exact ⟨h1, h2, fun r' hr' hq' => h3 r' (List.mem_cons_of_mem _ hr') hq'⟩
    | none =>
      rw [List.find?_eq_none] at hf
      rw [Option.none_or, List.find?_cons]
      cases hq : q a with
      | true =>
        simp only [Option.some.injEq]
        constructor
        · rintro rfl
          refine ⟨List.mem_cons_self .., hq, fun r' hr' hq' => ?_⟩
          rcases List.mem_cons.1 hr' with rfl | hr'
          · exact Nat.le_refl _
          · exact absurd hq' (hf r' (List.mem_reverse.2 hr'))
        · rintro ⟨h1, h2, _⟩
          rcases List.mem_cons.1 h1 with rfl | h1
          · rfl
          · exact absurd h2 (hf r (List.mem_reverse.2 h1))
      | false =>
        simp only [List.find?_nil]
        constructor
        · intro h; cases h
        · rintro ⟨h1, h2, _⟩
          rcases List.mem_cons.1 h1 with rfl | h1
          · rw [hq] at h2; cases h2
          · exact absurd h2 (hf r (List.mem_reverse.2 h1))

/-- The runs are the longest stretches. -/
theorem mem_runs {p : Nat → Bool} {f i x y : Nat} : (x, y) ∈ runsFrom p f i none ↔
    i ≤ x ∧ x < y ∧ y ≤ i + f ∧ (∀ j, x ≤ j → j < y → p j = true) ∧ (x = i ∨ p (x - 1) = false) ∧ (y = i + f ∨ p y = false) := by
  constructor
  · exact run_mem
  · rintro ⟨h1, h2, h3, h4, h5, h6⟩
    obtain ⟨r, hr, r1, r2⟩ := run_covers (p := p) (f := f) (i := i) (j := x) h1 (by omega) (h4 x (Nat.le_refl _) h2)
    obtain ⟨q1, q2, q3, q4, q5, q6⟩ := run_mem hr
    have hx : r.1 = x := by
      rcases Nat.lt_or_eq_of_le r1 with hlt | he
      · exfalso
        rcases h5 with h5 | h5
        · omega
        · rw [q4 (x - 1) (by omega) (by omega)] at h5; cases h5
      · exact he
    have hy : r.2 = y := by
      rcases Nat.lt_trichotomy r.2 y with hlt | he | hlt
      · exfalso
        rcases q6 with q6 | q6
        · omega
        · rw [h4 r.2 (by omega) hlt] at q6; cases q6
      · exact he
      · exfalso
        rcases h6 with h6 | h6
        · omega
        · rw [q4 y (by omega) hlt] at h6; cases h6
    rw [← hx, ← hy]
    exact hr

theorem cleanGroup_nil {e : GroupEnv} : ∀ c ∈ cleanGroup e [], c ∈ seps := by
  have h := C86_nothing_invented e []
  intro c hc
  by_contra hcon
  have : c ∈ wordChars (cleanGroup e []) := by
    simp only [wordChars, List.mem_filter, decide_eq_true_eq]
    exact ⟨hc, by simpa [isSep] using hcon⟩
  have := h.subset this
  simp [wordChars] at this

theorem nameless_iff {t : Str} : (!(cleanup t).isEmpty) = true ↔ ∃ c ∈ t, c ∉ seps := by
  rw [Bool.not_eq_true', ← Bool.not_eq_true, List.isEmpty_iff, cleanup_nil]
  simp

theorem mem_stretch {e : GroupEnv} {s : Ms} (hs : Sound s) {part : Mt} (hp : part.start < part.stop) (hl : part.stop ≤ s.input.length) {x y : Nat} :
    ((x, y) ∈ runsFrom (fun i => !coveredBy s.live (extraTitle s part) i) (min s.input.length (part.stop + 1) - part.start) part.start none ∧
      (!(cleanup (cleanGroup e (sliceOf s.input (x, y)))).isEmpty) = true) ↔ GroupStretch (cleanGroup e) s part x y := by
  have e1 : part.start + (min s.input.length (part.stop + 1) - part.start) = min s.input.length (part.stop + 1) := by omega
  have hneg : ∀ i, (!coveredBy s.live (extraTitle s part) i) = false ↔ ¬ FreeForGroup s part i := by
    intro i
    rw [← freeForGroup_iff hs, Bool.not_eq_true]
  rw [mem_runs, nameless_iff, e1]
  constructor
  · rintro ⟨⟨h1, h2, h3, h4, h5, h6⟩, h7⟩
    exact ⟨h1, h2, h3, fun i i1 i2 => (freeForGroup_iff hs).1 (h4 i i1 i2), h5.imp id (hneg _).1, h6.imp id (hneg _).1, h7⟩
  · rintro ⟨h1, h2, h3, h4, h5, h6, h7⟩
    exact ⟨⟨h1, h2, h3, fun i i1 i2 => (freeForGroup_iff hs).2 (h4 i i1 i2), h5.imp id (hneg _).2, h6.imp id (hneg _).2⟩, h7⟩

theorem sceneHole_iff {e : GroupEnv} {s : Ms} (hs : Sound s) {part : Mt} (hp : part.start < part.stop) (hl : part.stop ≤ s.input.length)
    {x y : Nat} : sceneHole e s part = some (x, y) ↔
      GroupStretch (cleanGroup e) s part x y ∧ ∀ x' y', GroupStretch (cleanGroup e) s part x' y' → x' ≤ x := by
  unfold sceneHole
  rw [holes_plain hs.wf _ (by omega), List.reverse_append, List.find?_append]
  have hspur : List.find? (fun h => !(cleanup (cleanGroup e (sliceOf s.input h))).isEmpty)
      (if 0 < part.start ∧ coveredBy s.live (extraTitle s part) (part.start - 1) = false ∧
        (part.start = min s.input.length (part.stop + 1) ∨ coveredBy s.live (extraTitle s part) part.start = true)
        then [(part.start, part.start)] else []).reverse = none := by
    rw [List.find?_eq_none]
    intro h hh
    rw [List.mem_reverse] at hh
    split at hh
    · rw [List.mem_singleton] at hh
      subst hh
      have : sliceOf s.input (part.start, part.start) = [] := by simp [sliceOf]
      rw [this, Bool.not_eq_true, Bool.not_eq_false', List.isEmpty_iff, cleanup_nil]
      exact cleanGroup_nil
    · simp at hh
  rw [hspur, Option.or_none, last_sorted (runs_sorted _ _ _ none (by simp)) (fun r hr => (run_mem hr).2.1)]
  constructor
  · rintro ⟨h1, h2, h3⟩
    exact ⟨(mem_stretch hs hp hl).1 ⟨h1, h2⟩, fun x' y' h' => h3 (x', y') ((mem_stretch hs hp hl).2 h').1 ((mem_stretch hs hp hl).2 h').2⟩
  · rintro ⟨h1, h2⟩
    exact ⟨((mem_stretch hs hp hl).2 h1).1, ((mem_stretch hs hp hl).2 h1).2, fun r' h1' h2' => h2 r'.1 r'.2 ((mem_stretch hs hp hl).1 ⟨h1', h2'⟩)⟩

theorem scenePrev_iff {s : Ms} (hs : Sound s) {part : Mt} {x y : Nat} {p : Mt} : scenePrev s part (x, y) = some p ↔
    FirstOf s.live (fun p => ClosestBefore s.live { id := 0, start := x, stop := y, name := none } p ∧ part.start ≤ p.start ∧
      (p.priv = false ∨ MayPrecede p)) p := by
  unfold scenePrev
  rw [firstTrue_eq (fun m hm => hs.wf m (by rw [mem_previous] at hm; exact hm.1.1) |>.1), previous, previousFrom_eq, List.filter_filter,
    head_filter_iff]
  refine firstOf_congr (fun m hm => ?_) p
  unfold ClosestBefore
  simp only [Bool.and_eq_true, decide_eq_true_eq, Bool.or_eq_true, Bool.not_eq_true', scenePrevious_iff, spanMt]
  exact ⟨fun h => ⟨⟨hm, of_decide_eq_true h.2.1, of_decide_eq_true h.2.2⟩, h.1.1, h.1.2⟩,
    fun h => ⟨⟨h.2.1, h.2.2⟩, decide_eq_true h.1.2.1, decide_eq_true h.1.2.2⟩⟩

theorem sceneMatch_iff {e : GroupEnv} {s : Ms} (hg : PlainGroups s) {x y : Nat} {m : Mt} :
    m = sceneMatch e s (x, y) ↔ Reported (cleanGroup e) s x y m := by
  have hgr : ∀ g, groupOf s (spanMt (x, y)) = some g ↔ EndMark s.markers c!"group" { id := 0, start := x, stop := y, name := none } g :=
    fun g => atMatch_first
  have hval : ∀ g, EndMark s.markers c!"group" { id := 0, start := x, stop := y, name := none } g →
      ({ g with fmt := fun t => .str (cleanGroup e t) } : Mt).value s.input = .str (cleanGroup e (textOf s.input g.start g.stop)) := by
    intro g h
    have hin : InGroups s g := by
      rcases h with h | h
      · exact ⟨(firstOf_mem h).1, (firstOf_mem h).2.1⟩
      · exact ⟨(firstOf_mem h.2).1, (firstOf_mem h.2).2.1⟩
    obtain ⟨h1, h2, h3, _⟩ := hg g hin
    simp [Mt.value, Mt.raw, Mt.rawA, Mt.rawB, h1, h2, h3, textOf]
  unfold sceneMatch Reported
  cases hgo : groupOf s (spanMt (x, y)) with
  | none =>
    have hno : ¬ ∃ g, Bracketed (cleanGroup e) s x y g := by
      rintro ⟨g, h, _⟩
      rw [← hgr, hgo] at h
      cases h
    constructor
    · intro h
      exact .inr ⟨hno, h⟩
    · rintro (⟨g, h, _⟩ | ⟨_, h⟩)
      · exact absurd ⟨g, h⟩ hno
      · exact h
  | some g =>
    have hem := (hgr g).1 hgo
    have huniq : ∀ g', EndMark s.markers c!"group" { id := 0, start := x, stop := y, name := none } g' → g' = g := by
      intro g' h'
      rw [← hgr, hgo] at h'
      exact (Option.some.inj h').symm
    dsimp only
    rw [hval g hem]
    by_cases hc : cleanGroup e (textOf s.input g.start g.stop) = cleanGroup e (textOf s.input x y)
    · rw [if_pos (by show MVal.str _ = MVal.str _; rw [hc]; rfl)]
      constructor
      · intro h
        exact .inl ⟨g, ⟨hem, hc⟩, h⟩
      · rintro (⟨g', ⟨h', _⟩, h⟩ | ⟨h', _⟩)
        · rw [huniq g' h'] at h
          exact h
        · exact absurd ⟨g, hem, hc⟩ h'
    · rw [if_neg (by show ¬ MVal.str _ = MVal.str _; intro h; exact hc (MVal.str.inj h))]
      have hno : ¬ ∃ g, Bracketed (cleanGroup e) s x y g := by
        rintro ⟨g', h', hc'⟩
        rw [huniq g' h'] at hc'
        exact hc hc'
      constructor
      · intro h
        exact .inr ⟨hno, h⟩
      · rintro (⟨g', h', _⟩ | ⟨_, h⟩)
        · exact absurd ⟨g', h'⟩ hno
        · exact h

theorem noGroupIn_iff {s : Ms} {part : Mt} : ((named s.live c!"release_group").filter (insidePart part)).isEmpty = true ↔
    ¬ ∃ m ∈ s.live, m.name = some c!"release_group" ∧ InPart part m := by
  rw [List.isEmpty_iff, List.filter_eq_nil_iff]
  constructor
  · rintro h ⟨m, hm, hn, hp⟩
    exact h m (mem_named.2 ⟨hm, hn⟩) (insidePart_iff.2 hp)
  · intro h m hm hp
    exact h ⟨m, (mem_named.1 hm).1, (mem_named.1 hm).2, insidePart_iff.1 hp⟩

theorem sceneFound_iff {e : GroupEnv} {s : Ms} (hs : Sound s) (hg : PlainGroups s) {part : Mt} (hp : part.start < part.stop)
    (hl : part.stop ≤ s.input.length) {m : Mt} : sceneFound e s part = some m ↔
      ∃ x y, SceneGroup (cleanGroup e) e.intLike s part x y ∧ Reported (cleanGroup e) s x y m := by
  unfold sceneFound
  constructor
  · intro h
    split at h
    · rename_i h1
      split at h
      · cases h
      · rename_i r hr
        obtain ⟨x, y⟩ := r
        split at h
        · cases h
        · rename_i p hpv
          split at h
          · rename_i hc
            rw [Bool.and_eq_true, Bool.and_eq_true, scenePrevious_iff, blank_iff, Bool.not_eq_true'] at hc
            obtain ⟨hr1, hr2⟩ := (sceneHole_iff hs hp hl).1 hr
            exact ⟨x, y, ⟨noGroupIn_iff.1 h1, hr1, hr2, ⟨p, (scenePrev_iff hs).1 hpv, hc.1⟩, hc.2⟩,
              (sceneMatch_iff hg).1 (Option.some.inj h).symm⟩
          · cases h
    · cases h
  · rintro ⟨x, y, ⟨h1, h2, h3, ⟨p, h4, h5⟩, h6⟩, h7⟩
    rw [if_pos (noGroupIn_iff.2 h1), (sceneHole_iff hs hp hl).2 ⟨h2, h3⟩]
    dsimp only
    rw [(scenePrev_iff hs).2 h4]
    dsimp only
    rw [if_pos, ← (sceneMatch_iff hg).2 h7]
    rw [Bool.and_eq_true, Bool.and_eq_true, scenePrevious_iff, blank_iff, Bool.not_eq_true']
    exact ⟨h5, h6⟩

theorem sublist_filter {α : Type} {l l' : List α} (hl : l.Nodup) (h : l'.Sublist l) : ∃ q : α → Bool, (∀ x, q x = true ↔ x ∈ l') ∧ l' = l.filter q := by
  classical
  refine ⟨fun x => decide (x ∈ l'), fun x => by simp, ?_⟩
  induction h with
  | slnil => rfl
  | @cons l1 l2 a h ih =>
    rw [List.nodup_cons] at hl
    rw [List.filter_cons_of_neg, ← ih hl.2]
    simp only [decide_eq_true_eq]
    exact fun hc => hl.1 (h.subset hc)
  | @cons_cons l1 l2 a h ih =>
    rw [List.nodup_cons] at hl
    rw [List.filter_cons_of_pos (by simp)]
    congr 1
    have := ih hl.2
    rw [List.filter_congr (q := fun x => decide (x ∈ l1))]
    · exact this
    · intro x hx
      have : x ≠ a := fun e => hl.1 (e ▸ hx)
      simp [this]

theorem firstOf_drops {s t : Ms} (hs : Sound s) {Bad P : Mt → Prop} (hd : Drops s t Bad) (h : ∀ m ∈ s.live, P m → ¬ Bad m) {x : Mt} :
    FirstOf t.live P x ↔ FirstOf s.live P x := by
  obtain ⟨q, hq, he⟩ := sublist_filter (nodup_live hs) hd.order
  rw [he, firstOf_filter]
  refine firstOf_congr (fun y hy => ⟨And.right, fun hp => ⟨(hq y).2 ((hd.bad y hy).2 (h y hy hp)), hp⟩⟩) x

theorem drops_sound {s t : Ms} (hs : Sound s) {Bad : Mt → Prop} (hd : Drops s t Bad) : Sound t where
  wf := by
    intro m hm
    rw [hd.input]
    exact hs.wf m (hd.order.subset hm)
  distinct := by
    rw [hd.input]
    exact hs.distinct.sublist (hd.order.map _)

theorem drops_extra {s t : Ms} (hs : Sound s) {Bad : Mt → Prop} (hd : Drops s t Bad) {part : Mt} (h : ∀ m ∈ s.live, InPart part m → ¬ Bad m)
    {m : Mt} : ExtraTitle t part m ↔ ExtraTitle s part m := by
  unfold ExtraTitle
  rw [firstOf_drops hs hd fun m hm hp => h m hm hp.2]
  constructor
  · rintro ⟨h1, h2⟩
    exact ⟨hd.order.subset h1, h2⟩
  · rintro ⟨h1, h2, h3, h4⟩
    exact ⟨(hd.bad m h1).2 (h m h1 h3), h2, h3, h4⟩

theorem drops_free {s t : Ms} (hs : Sound s) {Bad : Mt → Prop} (hd : Drops s t Bad) {part : Mt}
    (h : ∀ m ∈ s.live, Bad m → m.stop < part.start ∨ part.stop < m.start) {i : Nat} (h1 : part.start ≤ i) (h2 : i ≤ part.stop) :
    FreeForGroup t part i ↔ FreeForGroup s part i := by
  have hin : ∀ m ∈ s.live, InPart part m → ¬ Bad m := by
    intro m hm hp hb
    have := (hs.wf m hm).1
    unfold InPart at hp
    rcases h m hm hb with h | h <;> omega
  unfold FreeForGroup
  constructor
  · intro hf m hm hc
    rw [← drops_extra hs hd hin]
    refine hf m ((hd.bad m hm).2 fun hb => ?_) hc
    unfold Covers at hc
    rcases h m hm hb with h | h <;> omega
  · intro hf m hm hc
    rw [drops_extra hs hd hin]
    exact hf m (hd.order.subset hm) hc

theorem drops_stretch {s t : Ms} (hs : Sound s) {Bad : Mt → Prop} (hd : Drops s t Bad) {part : Mt} {clean : Str → Str}
    (h : ∀ m ∈ s.live, Bad m → m.stop < part.start ∨ part.stop < m.start) {x y : Nat} :
    GroupStretch clean t part x y ↔ GroupStretch clean s part x y := by
  have hf : ∀ i, part.start ≤ i → i ≤ part.stop → (FreeForGroup t part i ↔ FreeForGroup s part i) := fun i => drops_free hs hd h
  constructor
  · rintro ⟨h1, h2, h3, h4, h5, h6, h7⟩
    rw [hd.input] at h3 h6 h7
    refine ⟨h1, h2, h3, fun i i1 i2 => (hf i (by omega) (by omega)).1 (h4 i i1 i2), ?_, ?_, h7⟩
    · rcases Nat.lt_or_eq_of_le h1 with hlt | he
      · rcases h5 with h5 | h5
        · exact .inl h5
        · exact .inr fun hc => h5 ((hf _ (by omega) (by omega)).2 hc)
      · exact .inl he.symm
    · rcases Nat.lt_or_eq_of_le h3 with hlt | he
      · rcases h6 with h6 | h6
        · exact .inl h6
        · exact .inr fun hc => h6 ((hf _ (by omega) (by omega)).2 hc)
      · exact .inl he
  · rintro ⟨h1, h2, h3, h4, h5, h6, h7⟩
    refine ⟨h1, h2, by rw [hd.input]; exact h3, fun i i1 i2 => (hf i (by omega) (by omega)).2 (h4 i i1 i2), ?_, ?_, by rw [hd.input]; exact h7⟩
    · rcases Nat.lt_or_eq_of_le h1 with hlt | he
      · rcases h5 with h5 | h5
        · exact .inl h5
        · exact .inr fun hc => h5 ((hf _ (by omega) (by omega)).1 hc)
      · exact .inl he.symm
    · rw [hd.input]
      rcases Nat.lt_or_eq_of_le h3 with hlt | he
      · rcases h6 with h6 | h6
        · exact .inl h6
        · exact .inr fun hc => h6 ((hf _ (by omega) (by omega)).1 hc)
      · exact .inl he

theorem drops_scene {s t : Ms} (hs : Sound s) {Bad : Mt → Prop} (hd : Drops s t Bad) {part : Mt} {clean : Str → Str} {intLike : Str → Bool}
    (h : ∀ m ∈ s.live, Bad m → m.name = some c!"title" ∧ (m.stop < part.start ∨ part.stop < m.start)) {x y : Nat} :
    SceneGroup clean intLike t part x y ↔ SceneGroup clean intLike s part x y := by
  have hst := fun {x y} => drops_stretch hs hd (clean := clean) (fun m hm hb => (h m hm hb).2) (x := x) (y := y)
  have hfirst : (∃ m ∈ t.live, m.name = some c!"release_group" ∧ InPart part m) ↔
      ∃ m ∈ s.live, m.name = some c!"release_group" ∧ InPart part m := by
    constructor
    · rintro ⟨m, hm, hn⟩
      exact ⟨m, hd.order.subset hm, hn⟩
    · rintro ⟨m, hm, hn, hp⟩
      refine ⟨m, (hd.bad m hm).2 fun hb => ?_, hn, hp⟩
      have := (h m hm hb).1
      rw [hn] at this
      revert this
      decide
  have hprev : GroupStretch clean s part x y → ∀ p,
      (FirstOf t.live (fun p => ClosestBefore t.live { id := 0, start := x, stop := y, name := none } p ∧ part.start ≤ p.start ∧
        (p.priv = false ∨ MayPrecede p)) p ↔
      FirstOf s.live (fun p => ClosestBefore s.live { id := 0, start := x, stop := y, name := none } p ∧ part.start ≤ p.start ∧
        (p.priv = false ∨ MayPrecede p)) p) := by
    intro hgs p
    have hx := hgs.upper
    have hx' := hgs.pos
    rw [← firstOf_drops hs hd (P := fun p => ClosestBefore s.live { id := 0, start := x, stop := y, name := none } p ∧ part.start ≤ p.start ∧
        (p.priv = false ∨ MayPrecede p))]
    · refine firstOf_congr (fun m hm => ?_) p
      have hmp := (hs.wf m (hd.order.subset hm)).1
      unfold ClosestBefore
      dsimp only
      constructor
      · rintro ⟨⟨_, h2, h3⟩, h4, h5⟩
        refine ⟨⟨hd.order.subset hm, h2, fun z hz hzx => ?_⟩, h4, h5⟩
        by_cases hb : Bad z
        · have hzp := (hs.wf z hz).1
          rcases (h z hz hb).2 with hq | hq <;> omega
        · exact h3 z ((hd.bad z hz).2 hb) hzx
      · rintro ⟨⟨_, h2, h3⟩, h4, h5⟩
        exact ⟨⟨hm, h2, fun z hz => h3 z (hd.order.subset hz)⟩, h4, h5⟩
    · rintro m hm ⟨⟨_, h2, _⟩, h4, _⟩ hb
      have hmp := (hs.wf m hm).1
      dsimp only at h2
      rcases (h m hm hb).2 with hq | hq <;> omega
  constructor
  · rintro ⟨h1, h2, h3, ⟨p, h4, h5, h6⟩, h7⟩
    rw [hd.input] at h6 h7
    exact ⟨fun hc => h1 (hfirst.2 hc), hst.1 h2, fun x' y' h' => h3 x' y' (hst.2 h'), ⟨p, (hprev (hst.1 h2) p).1 h4, h5, h6⟩, h7⟩
  · rintro ⟨h1, h2, h3, ⟨p, h4, h5, h6⟩, h7⟩
    exact ⟨fun hc => h1 (hfirst.1 hc), hst.2 h2, fun x' y' h' => h3 x' y' (hst.1 h'),
      ⟨p, (hprev h2 p).2 h4, h5, by rw [hd.input]; exact h6⟩, by rw [hd.input]; exact h7⟩

theorem drops_reported {s t : Ms} {Bad : Mt → Prop} (hd : Drops s t Bad) {clean : Str → Str} {x y : Nat} {m : Mt} :
    Reported clean t x y m ↔ Reported clean s x y m := by
  unfold Reported Bracketed
  rw [hd.input, hd.markers]

theorem drops_then {s t u : Ms} {A B : Mt → Prop} (h1 : Drops s t A) (h2 : Drops t u B) : Drops s u fun m => A m ∨ B m where
  input := by rw [h2.input, h1.input]
  markers := by rw [h2.markers, h1.markers]
  order := h2.order.trans h1.order
  bad := by
    intro x hx
    constructor
    · rintro h (ha | hb)
      · exact (h1.bad x hx).1 (h2.order.subset h) ha
      · exact (h2.bad x (h2.order.subset h)).1 h hb
    · intro h
      exact (h2.bad x ((h1.bad x hx).2 fun ha => h (.inl ha))).2 fun hb => h (.inr hb)

theorem sceneStep_drops {e : GroupEnv} {s t : Ms} (hs : Laid s) (hg : PlainGroups s) (hap : PartsApart s) {done : List Mt} {acc : List Mt}
    (hdone : ∀ p ∈ done, IsPart s p) {part : Mt} (hpart : IsPart s part) (hnew : part ∉ done)
    (hd : Drops s t fun m => ∃ p ∈ done, ∃ g, SceneOf (cleanGroup e) e.intLike s p g ∧ ExtraTitle s p m ∧ Overlaps g m)
    (hacc : ∀ g, g ∈ acc ↔ ∃ p ∈ done, SceneOf (cleanGroup e) e.intLike s p g) :
    (Drops s (sceneStep e (t, acc) part).1 fun m => ∃ p ∈ done ++ [part], ∃ g, SceneOf (cleanGroup e) e.intLike s p g ∧ ExtraTitle s p m ∧ Overlaps g m) ∧
    ∀ g, g ∈ (sceneStep e (t, acc) part).2 ↔ ∃ p ∈ done ++ [part], SceneOf (cleanGroup e) e.intLike s p g := by
  have hpp := hs.markers part hpart.1
  have haway : ∀ m ∈ s.live, (∃ p ∈ done, ∃ g, SceneOf (cleanGroup e) e.intLike s p g ∧ ExtraTitle s p m ∧ Overlaps g m) →
      m.name = some c!"title" ∧ (m.stop < part.start ∨ part.stop < m.start) := by
    rintro m hm ⟨p, hp, g, _, ⟨_, h1, h2, _⟩, _⟩
    refine ⟨h1, ?_⟩
    unfold InPart at h2
    rcases hap p part (hdone p hp) hpart (fun e => hnew (e ▸ hp)) with h | h
    · left; omega
    · right; omega
  have hst := drops_sound hs.sound hd
  have hgt : PlainGroups t := fun g hin => hg g ⟨hd.markers ▸ hin.1, hin.2⟩
  have hin : ∀ m ∈ s.live, InPart part m →
      ¬ ∃ p ∈ done, ∃ g, SceneOf (cleanGroup e) e.intLike s p g ∧ ExtraTitle s p m ∧ Overlaps g m := by
    intro m hm hp hb
    have := (hs.sound.wf m hm).1
    unfold InPart at hp
    rcases (haway m hm hb).2 with h | h <;> omega
  have hfound : ∀ g, sceneFound e t part = some g ↔ SceneOf (cleanGroup e) e.intLike s part g := by
    intro g
    rw [sceneFound_iff hst hgt hpp.1 (by rw [hd.input]; exact hpp.2)]
    unfold SceneOf
    simp only [drops_scene hs.sound hd haway, drops_reported hd]
  unfold sceneStep
  dsimp only
  cases hf : sceneFound e t part with
  | none =>
    have hno : ∀ g, ¬ SceneOf (cleanGroup e) e.intLike s part g := by
      intro g h
      rw [← hfound, hf] at h
      cases h
    dsimp only
    constructor
    · refine drops_congr (fun m hm => ?_) hd
      constructor
      · rintro ⟨p, hp, h⟩
        exact ⟨p, List.mem_append_left _ hp, h⟩
      · rintro ⟨p, hp, g, h, h'⟩
        rcases List.mem_append.1 hp with hp | hp
        · exact ⟨p, hp, g, h, h'⟩
        · rw [List.mem_singleton] at hp
          subst hp
          exact absurd h (hno g)
    · intro g
      rw [hacc]
      constructor
      · rintro ⟨p, hp, h⟩
        exact ⟨p, List.mem_append_left _ hp, h⟩
      · rintro ⟨p, hp, h⟩
        rcases List.mem_append.1 hp with hp | hp
        · exact ⟨p, hp, h⟩
        · rw [List.mem_singleton] at hp
          subst hp
          exact absurd h (hno g)
  | some g0 =>
    have h0 := (hfound g0).1 hf
    have huniq : ∀ g, SceneOf (cleanGroup e) e.intLike s part g → g = g0 := by
      intro g h
      rw [← hfound, hf] at h
      exact (Option.some.inj h).symm
    dsimp only
    constructor
    · have hd2 : Drops t (dropping t (rangeOf t.input t.live g0.start g0.stop (extraTitle t part)))
          (fun m => ExtraTitle s part m ∧ Overlaps g0 m) := by
        refine drops_mem hst (fun m hm => (mem_rangeOf.1 hm).1) fun m hm => ?_
        rw [mem_rangeOf' (hst.wf m hm).1, extraTitle_iff hst hm, drops_extra hs.sound hd hin]
        unfold Overlaps
        exact ⟨fun h => ⟨h.2.2.2, h.2.1, h.2.2.1⟩, fun h => ⟨hm, h.2.1, h.2.2, h.1⟩⟩
      refine drops_congr (fun m hm => ?_) (drops_then hd hd2)
      constructor
      · rintro (⟨p, hp, h⟩ | h)
        · exact ⟨p, List.mem_append_left _ hp, h⟩
        · exact ⟨part, by simp, g0, h0, h⟩
      · rintro ⟨p, hp, g, h, h'⟩
        rcases List.mem_append.1 hp with hp | hp
        · exact .inl ⟨p, hp, g, h, h'⟩
        · rw [List.mem_singleton] at hp
          subst hp
          rw [huniq g h] at h'
          exact .inr h'
    · intro g
      rw [List.mem_append, hacc, List.mem_singleton]
      constructor
      · rintro (⟨p, hp, h⟩ | rfl)
        · exact ⟨p, List.mem_append_left _ hp, h⟩
        · exact ⟨part, by simp, h0⟩
      · rintro ⟨p, hp, h⟩
        rcases List.mem_append.1 hp with hp | hp
        · exact .inl ⟨p, hp, h⟩
        · rw [List.mem_singleton] at hp
          subst hp
          exact .inr (huniq g h)

theorem sceneFold {e : GroupEnv} {s : Ms} (hs : Laid s) (hg : PlainGroups s) (hap : PartsApart s) : ∀ (parts done : List Mt) (t : Ms) (acc : List Mt),
    (∀ p ∈ done ++ parts, IsPart s p) → (done ++ parts).Nodup →
    (Drops s t fun m => ∃ p ∈ done, ∃ g, SceneOf (cleanGroup e) e.intLike s p g ∧ ExtraTitle s p m ∧ Overlaps g m) →
    (∀ g, g ∈ acc ↔ ∃ p ∈ done, SceneOf (cleanGroup e) e.intLike s p g) →
    (Drops s (parts.foldl (sceneStep e) (t, acc)).1 fun m => ∃ p ∈ done ++ parts, ∃ g, SceneOf (cleanGroup e) e.intLike s p g ∧ ExtraTitle s p m ∧
      Overlaps g m) ∧
    ∀ g, g ∈ (parts.foldl (sceneStep e) (t, acc)).2 ↔ ∃ p ∈ done ++ parts, SceneOf (cleanGroup e) e.intLike s p g := by
  intro parts
  induction parts with
  | nil =>
    intro done t acc _ _ hd hacc
    simp only [List.append_nil, List.foldl_nil]
    exact ⟨hd, hacc⟩
  | cons part parts ih =>
    intro done t acc hall hnd hd hacc
    have hne : part ∉ done := by
      rw [List.nodup_append] at hnd
      exact fun h => hnd.2.2 part h part (List.mem_cons_self ..) rfl
    obtain ⟨h1, h2⟩ := sceneStep_drops hs hg hap (fun p hp => hall p (List.mem_append_left _ hp)) (hall part (by simp)) hne hd hacc
    have e1 : done ++ part :: parts = (done ++ [part]) ++ parts := by simp
    rw [e1] at hall hnd ⊢
    rw [List.foldl_cons]
    exact ih (done ++ [part]) _ _ hall hnd h1 h2

/-- C88: scene release groups.  In every element of the path, the last free stretch that has a name, when it comes just after a match it
may follow and there is no release group in the element yet, becomes its release group; where it stands alone in a bracketed group, the
inside of the group does.  Titles that are not the first of their element give way to it.  Nothing else changes. -/
theorem C88_scene (e : GroupEnv) (s : Ms) (hs : Laid s) (hap : PartsApart s) (hg : PlainGroups s) : ∃ mid,
    (Drops s mid fun m => ∃ part g, IsPart s part ∧ SceneOf (cleanGroup e) e.intLike s part g ∧ ExtraTitle s part m ∧ Overlaps g m) ∧
    Adds s.input mid.live (sceneRun e s).live (fun g => ∃ part, IsPart s part ∧ SceneOf (cleanGroup e) e.intLike s part g) ∧
    (sceneRun e s).input = s.input ∧ (sceneRun e s).markers = s.markers := by
  have hmem : ∀ p, p ∈ markerSorted s.input s.live (named s.markers c!"path") (markerPredicate s.input) ↔ IsPart s p := by
    intro p
    unfold markerSorted
    rw [(sortBy_perm _ _).mem_iff, mem_named]
    rfl
  have hnd : (markerSorted s.input s.live (named s.markers c!"path") (markerPredicate s.input)).Nodup := by
    unfold markerSorted
    rw [(sortBy_perm _ _).nodup_iff]
    exact (List.Nodup.of_map _ hs.distinct).filter _
  obtain ⟨h1, h2⟩ := sceneFold (e := e) hs hg hap (markerSorted s.input s.live (named s.markers c!"path") (markerPredicate s.input)) [] s []
    (fun p hp => (hmem p).1 hp) hnd ⟨rfl, rfl, List.Sublist.refl _, fun x hx => by simp [hx]⟩ (by simp)
  refine ⟨_, drops_congr (fun m hm => ?_) h1, adds_congr (fun g => ?_) (adds_all s.input _ _), h1.input, h1.markers⟩
  · simp only [List.nil_append, hmem]
    constructor
    · rintro ⟨p, hp, g, h⟩
      exact ⟨p, g, hp, h⟩
    · rintro ⟨p, g, hp, h⟩
      exact ⟨p, hp, g, h⟩
  · rw [h2]
    simp only [List.nil_append, hmem]

/-- C88: there is at most one scene release group in an element of the path; its name has a character that is not a separator. -/
theorem C88_one_per_part (e : GroupEnv) (s : Ms) (hs : Laid s) (hg : PlainGroups s) (part : Mt) (hp : IsPart s part) (g g' : Mt)
    (h : SceneOf (cleanGroup e) e.intLike s part g) (h' : SceneOf (cleanGroup e) e.intLike s part g') : g = g' := by
  have hpp := hs.markers part hp.1
  rw [SceneOf, ← sceneFound_iff hs.sound hg hpp.1 hpp.2] at h h'
  rw [h] at h'
  exact Option.some.inj h'

/-! ## C89: anime release groups -/

theorem emptyGroup_iff {e : GroupEnv} {s : Ms} (hs : Sound s) (hpl : PlainGroups s) {g : Mt} (hg : g ∈ s.markers) : emptyGroup e s g = true ↔
    g.name = some c!"group" ∧ (∀ m ∈ s.live, Overlaps g m → c!"weak-language" ∈ m.tags) ∧
    HasWordIn s.input g.start g.stop ∧ e.intLike (stripSeps (textOf s.input g.start g.stop)) = false := by
  unfold emptyGroup
  rw [Bool.and_eq_true, Bool.and_eq_true, decide_eq_true_eq]
  have hr : (rangeOf s.input s.live g.start g.stop fun m => !m.tagged c!"weak-language").isEmpty = true ↔
      ∀ m ∈ s.live, Overlaps g m → c!"weak-language" ∈ m.tags := by
    rw [List.isEmpty_iff, List.eq_nil_iff_forall_not_mem]
    constructor
    · intro h m hm ho
      by_contra hc
      refine h m ((mem_rangeOf' (hs.wf m hm).1).2 ⟨hm, ho.1, ho.2, ?_⟩)
      rw [Bool.not_eq_true', ← Bool.not_eq_true, tagged_iff]
      exact hc
    · intro h m hm
      obtain ⟨h1, _, h2, h3, h4⟩ := mem_rangeOf.1 hm
      rw [Bool.not_eq_true', ← Bool.not_eq_true, tagged_iff] at h4
      exact h4 (h m h1 ⟨h2, h3⟩)
  rw [hr]
  constructor
  · rintro ⟨⟨h1, h2⟩, h3⟩
    obtain ⟨v1, v2, v3, v4⟩ := hpl g ⟨hg, h1⟩
    have hv : g.value s.input = .str (textOf s.input g.start g.stop) := by
      simp [Mt.value, Mt.raw, Mt.rawA, Mt.rawB, v1, v2, v3, v4, textOf]
    rw [hv] at h3
    dsimp only at h3
    rw [Bool.and_eq_true, Bool.not_eq_true' (e.intLike _)] at h3
    exact ⟨h1, h2, (wordy_iff (h := (g.start, g.stop))).1 h3.1, h3.2⟩
  · rintro ⟨h1, h2, h3, h4⟩
    obtain ⟨v1, v2, v3, v4⟩ := hpl g ⟨hg, h1⟩
    have hv : g.value s.input = .str (textOf s.input g.start g.stop) := by
      simp [Mt.value, Mt.raw, Mt.rawA, Mt.rawB, v1, v2, v3, v4, textOf]
    refine ⟨⟨h1, h2⟩, ?_⟩
    rw [hv]
    dsimp only
    rw [Bool.and_eq_true, Bool.not_eq_true' (e.intLike _)]
    exact ⟨(wordy_iff (h := (g.start, g.stop))).2 h3, h4⟩

theorem animeGroup_iff {e : GroupEnv} {s : Ms} (hs : Laid s) (hpl : PlainGroups s) {part g : Mt} :
    firstTrue (rangeOf s.input s.markers part.start part.stop (emptyGroup e s)) = some g ↔ AnimeGroup e.intLike s part g := by
  have hm : Sound { s with live := s.markers } := ⟨hs.markers, hs.distinct⟩
  have := firstIn_iff hm (a := part.start) (b := part.stop) (q := emptyGroup e s) (y := g)
  unfold firstIn at this
  dsimp only at this
  rw [this]
  unfold AnimeGroup
  refine lead_congr fun m hm' => ?_
  rw [emptyGroup_iff hs.sound hpl hm']
  unfold Overlaps
  exact ⟨fun h => ⟨h.2.2.1, ⟨h.1, h.2.1⟩, h.2.2.2⟩, fun h => ⟨h.2.1.1, h.2.1.2, h.1, h.2.2⟩⟩

theorem animeGroup_prop {intLike : Str → Bool} {s : Ms} {part g : Mt} (h : AnimeGroup intLike s part g) :
    g ∈ s.markers ∧ g.name = some c!"group" ∧ ∀ m ∈ s.live, Overlaps g m → c!"weak-language" ∈ m.tags := by
  unfold AnimeGroup at h
  obtain ⟨⟨h2, _, h3, _⟩, _, pre, post, he, _⟩ := h
  exact ⟨by rw [he]; simp, h2, h3⟩

/-- C89: nothing changes once a release group is known. -/
theorem C89_one_group (e : GroupEnv) (s : Ms) (h : ∃ m ∈ s.live, m.name = some c!"release_group") : animeRun e s = s := by
  unfold animeRun
  rw [if_pos]
  by_contra hcon
  rw [Bool.not_eq_true, noGroup_iff] at hcon
  exact hcon h

/-- C89: otherwise, in every element of the path, the first bracketed group where nothing was found (but perhaps languages in doubt)
and whose text has a word and is not a number, becomes a release group, and the languages in doubt found in it are dropped.  Nothing else
changes. -/
theorem C89_anime (e : GroupEnv) (s : Ms) (hs : Laid s) (hpl : PlainGroups s) (hno : ¬ ∃ m ∈ s.live, m.name = some c!"release_group") : ∃ mid,
    (Drops s mid fun m => ∃ part g, IsPart s part ∧ AnimeGroup e.intLike s part g ∧ Overlaps g m) ∧
    Adds s.input mid.live (animeRun e s).live (fun m => ∃ part g, IsPart s part ∧ AnimeGroup e.intLike s part g ∧ m = inside g) ∧
    (animeRun e s).input = s.input ∧ (animeRun e s).markers = s.markers := by
  have hmem : ∀ p, p ∈ markerSorted s.input s.live (named s.markers c!"path") (markerPredicate s.input) ↔ IsPart s p := by
    intro p
    unfold markerSorted
    rw [(sortBy_perm _ _).mem_iff, mem_named]
    rfl
  unfold animeRun
  rw [if_neg (by rw [noGroup_iff.2 hno]; decide)]
  dsimp only
  generalize hgr : (markerSorted s.input s.live (named s.markers c!"path") (markerPredicate s.input)).filterMap (fun part =>
      firstTrue (rangeOf s.input s.markers part.start part.stop (emptyGroup e s))) = groups
  have hgroups : ∀ g, g ∈ groups ↔ ∃ part, IsPart s part ∧ AnimeGroup e.intLike s part g := by
    intro g
    rw [← hgr, List.mem_filterMap]
    simp only [hmem, animeGroup_iff hs hpl]
  have h1 : Drops s (dropping s (groups.flatMap fun g => rangeOf s.input s.live g.start g.stop fun m => m.tagged c!"weak-language"))
      fun m => ∃ part g, IsPart s part ∧ AnimeGroup e.intLike s part g ∧ Overlaps g m := by
    refine drops_mem hs.sound (fun m hm => ?_) fun m hm => ?_
    · obtain ⟨g, _, h⟩ := List.mem_flatMap.1 hm
      exact (mem_rangeOf.1 h).1
    · rw [List.mem_flatMap]
      constructor
      · rintro ⟨g, hg, h⟩
        obtain ⟨part, hp, ha⟩ := (hgroups g).1 hg
        obtain ⟨_, _, h2, h3, _⟩ := mem_rangeOf.1 h
        exact ⟨part, g, hp, ha, h2, h3⟩
      · rintro ⟨part, g, hp, ha, ho⟩
        refine ⟨g, (hgroups g).2 ⟨part, hp, ha⟩, (mem_rangeOf' (hs.sound.wf m hm).1).2 ⟨hm, ho.1, ho.2, ?_⟩⟩
        rw [tagged_iff]
        exact (animeGroup_prop ha).2.2 m hm ho
  have h2 : ∀ m, m ∈ groups.map animeMatch ↔ ∃ part g, IsPart s part ∧ AnimeGroup e.intLike s part g ∧ m = inside g := by
    intro m
    rw [List.mem_map]
    constructor
    · rintro ⟨g, hg, rfl⟩
      obtain ⟨part, hp, ha⟩ := (hgroups g).1 hg
      refine ⟨part, g, hp, ha, ?_⟩
      obtain ⟨_, h2, h3, _⟩ := hpl g ⟨(animeGroup_prop ha).1, (animeGroup_prop ha).2.1⟩
      simp [animeMatch, inside, Mt.rawA, Mt.rawB, h2, h3]
    · rintro ⟨part, g, hp, ha, rfl⟩
      refine ⟨g, (hgroups g).2 ⟨part, hp, ha⟩, ?_⟩
      obtain ⟨_, h2, h3, _⟩ := hpl g ⟨(animeGroup_prop ha).1, (animeGroup_prop ha).2.1⟩
      simp [animeMatch, inside, Mt.rawA, Mt.rawB, h2, h3]
  unfold dropping at h1
  generalize groups.flatMap (fun g => rangeOf s.input s.live g.start g.stop fun m => m.tagged c!"weak-language") = gone at h1 ⊢
  exact ⟨_, h1, adds_congr h2 (adds_all s.input (groups.map animeMatch) (removeAll s.input s.live gone)), rfl, rfl⟩

/-- C89: the value reported is the text inside the brackets. -/
theorem C89_value (s : Ms) (hpl : PlainGroups s) (g : Mt) (hg : InGroups s g) :
    (inside g).value s.input = .str (textOf s.input (g.start + 1) (g.stop - 1)) := by
  obtain ⟨h1, _, _, h4⟩ := hpl g hg
  simp [Mt.value, Mt.raw, Mt.rawA, Mt.rawB, inside, h1, h4, textOf]

end Guessit
