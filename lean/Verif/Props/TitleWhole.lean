import Verif.Props.TitleFound
import Verif.Props.Removers
import Verif.Props.Sources

/-! # C77, C78: the title is complete, and the search never fails -/

namespace Guessit
open Spec

/-! ## C78 -/

/-- C78: a title takes the whole free stretch: a word of the same path element that is separated from a new title only by
free characters is part of a reported title too. -/
theorem C78_whole (kin : Kin) (e : TitleEnv) (he : e.lower [] = []) (type : Option Str) (s s' : Ms) (hs : Laid s)
    (h : titleRun kin (titleFromPosition e) type s = .ok s') (t : Mt) (ht : t ∈ s'.live) (hnew : t ∉ s.live) :
    ∃ part, IsPart s part ∧ part.start ≤ t.start ∧ t.stop ≤ part.stop ∧ ∀ i j, Covers t i → Covers part j → WordAt s.input j →
      (∀ k, min i j ≤ k → k ≤ max i j → k ≠ i → FreeAt s k) → j ≠ i → ∃ x ∈ s'.live, TitleName x ∧ Covers x j := by
  obtain ⟨add, rm, hw, rfl⟩ := titleRun_ok h
  obtain ⟨t0, part, extra, rm', pre, post, p, hor⟩ := titleOrigin hs hw (new_mem ht hnew)
  obtain ⟨_, m2, m3, m4, m5, _⟩ := titles_mem (alt := c!"alternative_title") he rfl rfl hor.mem
  obtain ⟨s1, s2⟩ := hor.span
  have hl := hor.shrunk.left
  have hr := hor.shrunk.right
  have hpm : p ∈ pieces (titleFromPosition e) s extra part := by rw [hor.pieces]; simp
  obtain ⟨q1, q2, q3, q4, q5⟩ := piece_mem hs hpm
  have hpart := (mem_titleParts.1 hor.search.inParts).1
  have hstop := in_part hs hpart (b := t0.stop) (by omega) (by omega) (by omega) m5
  refine ⟨part, hpart, by omega, by omega, ?_⟩
  intro i j hi hj hwj hfree hne
  have hi1 := hi.1
  have hi2 := hi.2
  have hj2 := hj.2
  have hj1 := hj.1
  have hlen := (hs.markers part hpart.1).2
  obtain ⟨a, b⟩ := piece_whole hs hpm (i := i) (j := j) ⟨by omega, by omega⟩ ⟨hj1, hj2⟩ (fun k k1 k2 k3 => ⟨hfree k k1 k2 k3, by omega⟩)
  obtain ⟨c1, c2, _⟩ := checkHole_free (type := type) (part := part) (r := titleFromPosition e) he rfl
    (by rw [maxEnd_eq hs.sound.wf]; exact q3) rfl a b hwj
    (hfree j (by omega) (by omega) hne).1
  obtain ⟨⟨x, hx, hxj⟩, _⟩ := titles_cover (alt := c!"alternative_title") he (r := titleFromPosition e) rfl rfl c1 c2 hwj
  obtain ⟨y, hy, hyn, e1, e2⟩ := search_live he hs hw hor.search hx
  exact ⟨y, hy, hyn, by have := hxj.1; omega, by have := hxj.2; omega⟩

/-- The pieces of a part come from left to right. -/
theorem pieces_sorted {r : TitleRule} {s : Ms} (hs : Laid s) (hg : GroupsInOrder s) {extra : Mt → Bool} {part : Mt} :
    (pieces r s extra part).Pairwise fun a b => a.2 ≤ b.1 := by
  have hpos : ∀ c ∈ cropGroups s, c.1 < c.2 := by
    intro c hc
    obtain ⟨g, hg, rfl⟩ := cropGroups_mem hc
    exact (hs.markers g hg.1).1
  have hsort : (cropGroups s).Pairwise fun a b => a.2 ≤ b.2 := by
    unfold cropGroups
    rw [List.pairwise_map]
    refine List.Pairwise.sublist (skim_sublist _ _) ?_
    unfold named
    rw [List.pairwise_iff_forall_sublist]
    intro a b hab
    have ha := List.mem_filter.1 (hab.subset (List.mem_cons_self ..))
    have hb := List.mem_filter.1 (hab.subset (by simp : b ∈ [a, b]))
    exact hg a b ⟨ha.1, of_decide_eq_true ha.2⟩ ⟨hb.1, of_decide_eq_true hb.2⟩ (hab.trans List.filter_sublist)
  unfold pieces holesProcess
  rw [List.pairwise_flatMap]
  have hholes : (titleHoles r s extra part).Pairwise fun a b => a.2 < b.1 := by
    unfold titleHoles
    exact List.Pairwise.sublist List.filter_sublist (runs_sorted _ _ _ _ (by simp))
  have hhpos : ∀ h ∈ titleHoles r s extra part, h.1 < h.2 := by
    intro h hh
    exact (run_mem (List.mem_filter.1 hh).1).2.1
  refine ⟨?_, ?_⟩
  · intro h hh
    obtain ⟨n, hn⟩ := cropAll_sorted hpos hsort (hhpos h hh)
    exact sortedUpTo_pairwise hn
  · refine (List.Pairwise.and_mem.1 hholes).imp ?_
    rintro a b ⟨ha, hb, hab⟩ x hx y hy
    have hxp := crop_pos (cropGroups_le hs) (hhpos a ha) hx
    have hyp := crop_pos (cropGroups_le hs) (hhpos b hb) hy
    have h1 := ((crop_mem (cropGroups s) (cropGroups_le hs) a (x.2 - 1)).1 ⟨x, hx, by omega, by omega⟩).1
    have h2 := ((crop_mem (cropGroups s) (cropGroups_le hs) b y.1).1 ⟨y, hy, by omega, by omega⟩).1
    omega

/-- C78: the title is the leftmost free stretch: no free word of its path element lies before it. -/
theorem C78_leftmost (kin : Kin) (e : TitleEnv) (he : e.lower [] = []) (type : Option Str) (s s' : Ms) (hs : Laid s) (hg : GroupsInOrder s)
    (h : titleRun kin (titleFromPosition e) type s = .ok s') (t : Mt) (ht : t ∈ s'.live) (hnew : t ∉ s.live)
    (hname : t.name = some c!"title") :
    ∃ part, IsPart s part ∧ part.start ≤ t.start ∧ t.stop ≤ part.stop ∧
      ∀ j, Covers part j → j < t.start → WordAt s.input j → ¬ FreeAt s j := by
  obtain ⟨add, rm, hw, rfl⟩ := titleRun_ok h
  obtain ⟨t0, part, extra, rm', pre, post, p, hor⟩ := titleOrigin hs hw (new_mem ht hnew)
  have htt : t = t0 := by
    rcases hor.same with h | h
    · exact h
    · exfalso
      rw [h] at hname
      have : some c!"episode_title" = some c!"title" := hname
      revert this; decide
  subst htt
  obtain ⟨_, m2, m3, m4, m5, m6, _⟩ := titles_mem (alt := c!"alternative_title") he rfl rfl hor.mem
  have hl := hor.shrunk.left
  have hr := hor.shrunk.right
  have hpm : p ∈ pieces (titleFromPosition e) s extra part := by rw [hor.pieces]; simp
  obtain ⟨q1, q2, q3, q4, q5⟩ := piece_mem hs hpm
  have hpart := (mem_titleParts.1 hor.search.inParts).1
  have hstop := in_part hs hpart (b := t.stop) (by omega) (by omega) (by omega) m5
  refine ⟨part, hpart, by omega, by omega, ?_⟩
  intro j hj hlt hwj hfree
  have hj1 := hj.1
  have hj2 := hj.2
  obtain ⟨q, hq, hq1, hq2⟩ := piece_covers (r := titleFromPosition e) he rfl hs (extra := extra) (part := part) hj1 (by omega) hwj hfree
  have hqmem := piece_mem hs hq
  obtain ⟨c1, c2, c3⟩ := checkHole_free (type := type) (part := part) (r := titleFromPosition e) he rfl
    (by rw [maxEnd_eq hs.sound.wf]; exact hqmem.2.2.1) rfl hq1 hq2 hwj hfree.1
  have hsorted := pieces_sorted (r := titleFromPosition e) hs hg (extra := extra) (part := part)
  rw [hor.pieces] at hq hsorted
  rcases List.mem_append.1 hq with hq | hq
  · rw [hor.before q hq] at c3
    cases c3
  · rcases List.mem_cons.1 hq with rfl | hq
    · obtain ⟨_, t1, ts, h1, h2, h3, h4⟩ := titles_cover (alt := c!"alternative_title") he (r := titleFromPosition e) rfl rfl c1 c2 hwj
      have hmem := hor.mem
      rw [h1] at hmem
      rcases List.mem_cons.1 hmem with rfl | hmem
      · omega
      · -- the others are alternative titles
        exfalso
        have := titles_tail (alt := c!"alternative_title") (r := titleFromPosition e) rfl h1 t hmem
        rw [hname] at this
        revert this; decide
    · have := (List.pairwise_cons.1 (List.pairwise_append.1 hsorted).2.1).1 q hq
      omega

/-! ## C77: the search does not fail -/

/-- When the ignorable matches are words that overlap nothing and do not straddle a bracket or a path separator, those found
in a piece are inside it. -/
theorem ignored_inside {e : TitleEnv} {s : Ms} (hs : Laid s) (htidy : TidyIgnorables e.upper s)
    (hgroups : ∀ m ∈ s.live, Ignorable e.upper s.input m → ∀ g, InGroups s g → InOrOut m g)
    (hparts : ∀ m ∈ s.live, Ignorable e.upper s.input m → ∀ p, IsPart s p → InOrOut m p)
    {extra : Mt → Bool} {part : Mt} (hpart : IsPart s part) {p : Nat × Nat} (hp : p ∈ pieces (titleFromPosition e) s extra part)
    {m : Mt} (hm : m ∈ ignoredInHole (titleFromPosition e) s p) : p.1 ≤ m.start ∧ m.stop ≤ p.2 := by
  obtain ⟨m1, m2, m3, m4⟩ := ignored_mem hm
  obtain ⟨q1, q2, q3, q4, q5⟩ := piece_mem hs hp
  have hwf := hs.sound.wf m m1
  have hlen := hwf.2
  -- a position in both
  obtain ⟨i, i1, i2, i3, i4⟩ : ∃ i, p.1 ≤ i ∧ i < p.2 ∧ m.start ≤ i ∧ i < m.stop := by
    have := hwf.1
    exact ⟨max p.1 m.start, by omega, by omega, by omega, by omega⟩
  -- the match is inside the part
  have hin : part.start ≤ m.start ∧ m.stop ≤ part.stop := by
    rcases hparts m m1 m2 part hpart with h | h | h
    · exact h
    · omega
    · exfalso
      have hst : m.start = part.stop := by omega
      obtain ⟨c, hc, hcs⟩ := htidy.first m m1 m2
      rcases hs.parts part hpart with h | ⟨c', hc', h⟩
      · omega
      · rw [hst, hc'] at hc
        cases hc
        apply hcs
        rcases h with rfl | rfl <;> decide
  -- no crop touches it
  have hcrop : ∀ k, m.start ≤ k → k < m.stop → ∀ c ∈ cropGroups s, ¬ (c.1 ≤ k ∧ k < c.2) := by
    intro k k1 k2 c hc hck
    have hpi : InPieces (pieces (titleFromPosition e) s extra part) i := ⟨p, hp, i1, i2⟩
    have hnoti : ¬ (c.1 ≤ i ∧ i < c.2) := by
      obtain ⟨p', hp', j1, j2⟩ := hpi
      unfold pieces holesProcess at hp'
      obtain ⟨q, hq, hp''⟩ := List.mem_flatMap.1 hp'
      exact ((crop_mem (cropGroups s) (cropGroups_le hs) q i).1 ⟨p', hp'', j1, j2⟩).2 c hc
    obtain ⟨g, hg, rfl⟩ := cropGroups_mem hc
    rcases hgroups m m1 m2 g hg with h | h | h <;> simp only at hck hnoti <;> omega
  have hall : ∀ k, m.start ≤ k → k < m.stop →
      (((atIndex s.live k).all fun x => isIgnored (titleFromPosition e).upper s.input x || extra x) = true) := by
    intro k k1 k2
    rw [List.all_eq_true]
    intro x hx
    obtain ⟨x1, x2⟩ := mem_atIndex.1 hx
    have hxm : x = m := by
      by_contra hne
      have := htidy.apart m m1 x x1 m2 hne
      have := x2.1; have := x2.2
      omega
    subst hxm
    rw [Bool.or_eq_true]
    exact .inl (isIgnored_iff.2 m2)
  have grow : ∀ j, m.start ≤ j → j < m.stop → p.1 ≤ j ∧ j < p.2 := by
    intro j j1 j2
    refine piece_grow hs hp ⟨i1, i2⟩ ⟨by omega, by omega⟩ ?_
    intro k k1 k2 _
    exact ⟨⟨hall k (by omega) (by omega), hcrop k (by omega) (by omega)⟩, by omega⟩
  have a := grow m.start (Nat.le_refl _) hwf.1
  have b := grow (m.stop - 1) (by have := hwf.1; omega) (by have := hwf.1; omega)
  omega

/-- The state of the loops: the right end is the end of the piece or the start of a match that is kept, and the hole is not
inverted. -/
structure Upright (ig : List Mt) (p : Nat × Nat) (st : HoleState) : Prop where
  le : st.hole.1 ≤ st.hole.2
  right : st.hole.2 = p.2 ∨ ∃ k ∈ st.kept, k ∈ ig ∧ st.hole.2 = k.start

theorem upright_trail {e : TitleEnv} {s : Ms} {part : Mt} {p : Nat × Nat} {ig : List Mt} (hin : ∀ m ∈ ig, p.1 ≤ m.start ∧ m.stop ≤ p.2) :
    ∀ (l : List Mt), (∀ m ∈ l, m ∈ ig) → ∀ st, st.hole.1 = p.1 → Upright ig p st →
      (l.foldl (trailStep (titleFromPosition e) s part) st).hole.1 = p.1 ∧ Upright ig p (l.foldl (trailStep (titleFromPosition e) s part) st) := by
  intro l
  induction l with
  | nil => intro _ st h1 h2; exact ⟨h1, h2⟩
  | cons m l ih =>
    intro hl st h1 h2
    rw [List.foldl_cons]
    have hm := hl m (List.mem_cons_self ..)
    refine ih (fun x hx => hl x (List.mem_cons_of_mem _ hx)) _ ?_ ?_
    · unfold trailStep; split
      · exact h1
      · exact h1
    · unfold trailStep; split
      · refine ⟨?_, .inr ⟨m, by simp, hm, rfl⟩⟩
        show st.hole.1 ≤ m.start
        rw [h1]; exact (hin m hm).1
      · exact h2

theorem upright_lead {e : TitleEnv} {s : Ms} (hs : Laid s) (htidy : TidyIgnorables e.upper s) {part : Mt} {p : Nat × Nat} {ig : List Mt}
    (hin : ∀ m ∈ ig, p.1 ≤ m.start ∧ m.stop ≤ p.2) (hig : ∀ m ∈ ig, m ∈ s.live ∧ Ignorable e.upper s.input m) :
    ∀ (l : List Mt), (∀ m ∈ l, m ∈ ig) → ∀ st, Upright ig p st →
      Upright ig p (l.foldl (leadStep (titleFromPosition e) s part) st) := by
  intro l
  induction l with
  | nil => intro _ st h2; exact h2
  | cons m l ih =>
    intro hl st h2
    rw [List.foldl_cons]
    have hm := hl m (List.mem_cons_self ..)
    refine ih (fun x hx => hl x (List.mem_cons_of_mem _ hx)) _ ?_
    unfold leadStep
    split
    · rename_i hc
      obtain ⟨hc, _⟩ := Bool.and_eq_true_iff.1 hc
      obtain ⟨hnot, hchain⟩ := Bool.and_eq_true_iff.1 hc
      have hright : st.hole.2 = p.2 ∨ ∃ k ∈ st.kept ++ [m], k ∈ ig ∧ st.hole.2 = k.start := by
        rcases h2.right with h | ⟨k, k1, k2, k3⟩
        · exact .inl h
        · exact .inr ⟨k, by simp [k1], k2, k3⟩
      refine ⟨?_, hright⟩
      show m.stop ≤ st.hole.2
      rcases h2.right with h | ⟨k, k1, k2, k3⟩
      · rw [h]; exact (hin m hm).2
      · obtain ⟨a1, a2⟩ := hig m hm
        obtain ⟨b1, b2⟩ := hig k k2
        have hne : m ≠ k := by
          rintro rfl
          rw [Bool.not_eq_true', List.any_eq_false] at hnot
          exact hnot m k1 (eqv_iff.2 rfl)
        rcases htidy.apart k b1 m a1 b2 hne with h | h
        · omega
        · exfalso
          obtain ⟨x, hx⟩ := Option.isSome_iff_exists.1 hchain
          obtain ⟨_, x2, i, i1, i2, i3, i4⟩ := chainAfter_some hx
          obtain ⟨x3, x4⟩ := eqv_span x2
          have := i3.1
          have := h2.le
          have hkw := (hs.sound.wf k b1).1
          obtain ⟨c, hc', hcs⟩ := htidy.first k b1 b2
          obtain ⟨c', hc'', hcs'⟩ := i4 k.start (by omega) (by omega)
          rw [hc'] at hc''
          cases hc''
          exact hcs hcs'
    · exact h2

/-- C77: the rule never fails when the ignorable matches are words that overlap nothing else and do not straddle a bracket or a
path separator. -/
theorem C77_total (kin : Kin) (e : TitleEnv) (type : Option Str) (s : Ms) (hs : Laid s) (htidy : TidyIgnorables e.upper s)
    (hgroups : ∀ m ∈ s.live, Ignorable e.upper s.input m → ∀ g, InGroups s g → InOrOut m g)
    (hparts : ∀ m ∈ s.live, Ignorable e.upper s.input m → ∀ p, IsPart s p → InOrOut m p) :
    ∃ s', titleRun kin (titleFromPosition e) type s = .ok s' := by
  have hcheck : ∀ extra part err, part ∈ titleParts (titleFromPosition e) s → checkPart (titleFromPosition e) type s extra part ≠ .error err := by
    intro extra part err hpart herr
    have hpart := (mem_titleParts.1 hpart).1
    obtain ⟨p, hp, hperr⟩ := firstFound_error herr
    have hin : ∀ m ∈ ignoredInHole (titleFromPosition e) s p, p.1 ≤ m.start ∧ m.stop ≤ p.2 :=
      fun m hm => ignored_inside hs htidy hgroups hparts hpart hp hm
    have hig : ∀ m ∈ ignoredInHole (titleFromPosition e) s p, m ∈ s.live ∧ Ignorable e.upper s.input m := by
      intro m hm
      obtain ⟨a, b, _⟩ := ignored_mem hm
      exact ⟨a, b⟩
    have hpos := (piece_mem hs hp).2.1
    have hup : Upright (ignoredInHole (titleFromPosition e) s p) p (shrinkHole (titleFromPosition e) s part p) := by
      unfold shrinkHole
      refine upright_lead hs htidy hin hig _ (fun m hm => hm) _ ?_
      exact (upright_trail hin _ (fun m hm => List.mem_reverse.1 hm) _ rfl ⟨Nat.le_of_lt hpos, .inl rfl⟩).2
    unfold checkHole at hperr
    split at hperr
    · cases hperr
    · simp only at hperr
      rw [if_neg (by have := hup.le; omega)] at hperr
      split at hperr <;> cases hperr
  have hfirst : ∀ l err, (∀ q ∈ l, q ∈ titleParts (titleFromPosition e) s) → firstTitled (titleFromPosition e) type s l ≠ .error err := by
    intro l err
    induction l with
    | nil => intro _ h; cases h
    | cons q qs ih =>
      intro hl h
      unfold firstTitled at h
      split at h
      · rename_i e' heq
        exact hcheck _ _ _ (hl q (List.mem_cons_self ..)) heq
      · cases h
      · exact ih (fun x hx => hl x (List.mem_cons_of_mem _ hx)) h
  have hyear : ∀ l err, (∀ q ∈ l, q ∈ titleParts (titleFromPosition e) s) → yearTitles (titleFromPosition e) type s l ≠ .error err := by
    intro l
    induction l with
    | nil => intro _ _ h; cases h
    | cons q qs ih =>
      intro err hl h
      unfold yearTitles at h
      split at h
      · rename_i e' heq
        exact hcheck _ _ _ (hl q (List.mem_cons_self ..)) heq
      · split at h
        · rename_i heq
          exact ih _ (fun x hx => hl x (List.mem_cons_of_mem _ hx)) heq
        · split at h <;> cases h
  have hserie : ∀ err, serieTitle kin (titleFromPosition e) type s (titleParts (titleFromPosition e) s) ≠ .error err := by
    intro err h
    unfold serieTitle at h
    split at h
    · cases h
    · rename_i q hq
      split at h
      · split at h
        · rename_i e' heq
          exact hcheck _ _ _ (List.mem_of_mem_tail (afterSeason_some hq).1) heq
        · cases h
        · cases h
      · cases h
  have hwhen : ∃ x, titleWhen kin (titleFromPosition e) type s = .ok x := by
    unfold titleWhen
    split
    · exact ⟨_, rfl⟩
    · cases hse : serieTitle kin (titleFromPosition e) type s (titleParts (titleFromPosition e) s) with
      | error err => exact absurd hse (hserie err)
      | ok serie =>
        simp only
        cases hft : firstTitled (titleFromPosition e) type s (titleParts (titleFromPosition e) s) with
        | error err => exact absurd hft (hfirst _ err (fun _ h => h))
        | ok o =>
          cases o with
          | none => exact ⟨_, rfl⟩
          | some y =>
            obtain ⟨⟨ts, rm1⟩, rest⟩ := y
            simp only
            obtain ⟨pre, part, h1, _⟩ := firstTitled_some hft
            cases hy : yearTitles (titleFromPosition e) type s (rest.filter (hasYear s)) with
            | error err =>
              refine absurd hy (hyear _ err ?_)
              intro q hq
              rw [h1]
              have := (List.mem_filter.1 hq).1
              simp [this]
            | ok y => exact ⟨_, rfl⟩
  obtain ⟨x, hx⟩ := hwhen
  unfold titleRun
  rw [hx]
  exact ⟨_, rfl⟩

/-! ## C79: an element of the path in brackets -/

/-- C79: when a single element of the path is in brackets as a whole, it is searched: a word in it that no match and no other
group covers gives a title. -/
theorem C79_brackets (kin : Kin) (e : TitleEnv) (he : e.lower [] = []) (type : Option Str) (s s' : Ms) (hs : Laid s)
    (happart : ∀ p q, IsPart s p → IsPart s q → p ≠ q → p.stop ≤ q.start ∨ q.stop ≤ p.start)
    (hone : ∀ g h p q, WholeElement s g p → WholeElement s h q → g = h)
    (h : titleRun kin (titleFromPosition e) type s = .ok s') (g part : Mt) (hg : WholeElement s g part)
    (i : Nat) (hi : Covers part i) (hw : WordAt s.input i) (hm : ∀ m ∈ s.live, ¬ Covers m i) (hgr : ∀ x, InGroups s x → x ≠ g → ¬ Covers x i) :
    ∃ t ∈ s'.live, t.name = some c!"title" := by
  have hspan : ∀ x, spansPart s x = true → ∀ y, spansPart s y = true → InGroups s x → InGroups s y → x = y := by
    intro x hx y hy gx gy
    obtain ⟨p, p1, p2, p3⟩ := spansPart_part hx
    obtain ⟨q, q1, q2, q3⟩ := spansPart_part hy
    exact hone x y p q ⟨gx, p1, p2.symm, p3.symm⟩ ⟨gy, q1, q2.symm, q3.symm⟩
  have hsg : spansPart s g = true := by
    obtain ⟨g1, g2, g3, g4⟩ := hg
    have hwf := hs.markers part g2.1
    unfold spansPart
    have hnone : firstTrue (atMatch s.input s.markers g fun m => m.name = some c!"path") ≠ none := by
      intro hn
      rw [firstTrue_none] at hn
      · obtain ⟨y, hy, hyk⟩ := (mem_atSpan (a := g.start) (b := g.stop)).2 g2.1 (.inl ⟨by omega, by omega⟩)
        refine hn y (List.mem_filter.2 ⟨hy, ?_⟩)
        have : y.name = part.name := congrArg MtKey.name hyk
        rw [this, g2.2]
        simp
      · intro m hm
        exact (hs.markers m (mem_atSpan.1 (List.mem_filter.1 hm).1).1).1
    split
    · rename_i p hp
      obtain ⟨hm1, hn1⟩ := List.mem_filter.1 (firstTrue_mem hp)
      have hp1 : IsPart s p := ⟨(mem_atSpan.1 hm1).1, of_decide_eq_true hn1⟩
      have : p = part := by
        by_contra hne
        obtain ⟨_, k⟩ := mem_atSpan.1 hm1
        rcases happart p part hp1 g2 hne with h | h <;> omega
      subst this
      simp [g3, g4]
    · rename_i hn
      exact absurd hn hnone
  have hcr : ∀ c ∈ cropGroups s, ¬ (c.1 ≤ i ∧ i < c.2) := by
    intro c hc
    unfold cropGroups at hc
    obtain ⟨x, hx, rfl⟩ := List.mem_map.1 hc
    have hnd : (named s.markers c!"group").Nodup := by
      unfold named
      exact List.Nodup.sublist List.filter_sublist (List.Nodup.of_map _ hs.distinct)
    have hgx : InGroups s x := mem_named.1 ((skim_sublist _ _).subset hx)
    have hxf : spansPart s x = false := skim_drops (spansPart s) _ hnd
      (fun a ha b hb h1 h2 => hspan a h1 b h2 (mem_named.1 ha) (mem_named.1 hb)) x hx
    refine hgr x hgx ?_
    rintro rfl
    rw [hsg] at hxf; cases hxf
  refine title_if_found kin he hs h (mem_titleParts.2 ⟨hg.2.1, rfl⟩) ?_
  intro hnone
  obtain ⟨p, hp, p1, p2⟩ := piece_reaches (r := titleFromPosition e) he rfl hs (extra := fun _ => false) (part := part) hi.1
    (by have := hi.2; omega) hw hm hcr
  have := firstFound_none hnone p hp
  rw [(checkHole_free (r := titleFromPosition e) he rfl (by rw [maxEnd_eq hs.sound.wf]; exact (piece_mem hs hp).2.2.1) rfl p1 p2 hw hm).2.2] at this
  cases this

/-! ### examples -/

def titleEnv : TitleEnv := ⟨id, fun _ => false, []⟩

def titleState : Ms where
  input := c!"Bar 2009/[g] The Great fr Movie - Other 2010"
  live := [wordMt 1 4 8 [] c!"year", wordMt 2 23 25 [] c!"language", wordMt 3 40 44 [] c!"year"]
  markers := [wordMt 4 0 8 [] c!"path", wordMt 5 9 44 [] c!"path", wordMt 6 9 12 [] c!"group"]

theorem titleState_laid : Laid titleState where
  sound := sound_of (by decide) (by decide)
  markers := by unfold WellFormed; decide
  distinct := by decide +kernel
  parts := by
    rintro part ⟨h1, h2⟩
    have : part = wordMt 4 0 8 [] c!"path" ∨ part = wordMt 5 9 44 [] c!"path" ∨ part = wordMt 6 9 12 [] c!"group" := by
      simpa [titleState] using h1
    rcases this with rfl | rfl | rfl
    · exact .inr ⟨'/', by decide, .inl rfl⟩
    · exact .inl rfl
    · exact absurd h2 (by decide)

theorem titleState_tidy : TidyIgnorables titleEnv.upper titleState ∧
    (∀ m ∈ titleState.live, Ignorable titleEnv.upper titleState.input m → ∀ g, InGroups titleState g → InOrOut m g) ∧
    (∀ m ∈ titleState.live, Ignorable titleEnv.upper titleState.input m → ∀ p, IsPart titleState p → InOrOut m p) := by
  have key : ∀ m ∈ titleState.live, Ignorable titleEnv.upper titleState.input m → m = wordMt 2 23 25 [] c!"language" := by
    intro m hm hi
    have : m = wordMt 1 4 8 [] c!"year" ∨ m = wordMt 2 23 25 [] c!"language" ∨ m = wordMt 3 40 44 [] c!"year" := by
      simpa [titleState] using hm
    rcases this with rfl | rfl | rfl
    · obtain ⟨⟨n, h1, h2⟩, _⟩ := hi
      cases h2; exact absurd h1 (by decide)
    · rfl
    · obtain ⟨⟨n, h1, h2⟩, _⟩ := hi
      cases h2; exact absurd h1 (by decide)
  refine ⟨⟨?_, ?_, ?_⟩, ?_, ?_⟩
  · intro m hm hi; rw [key m hm hi]; exact ⟨'f', by decide, by decide⟩
  · intro m hm hi; rw [key m hm hi]; exact ⟨'r', by decide, by decide⟩
  · intro m hm x hx hi hne
    have hm' := key m hm hi
    subst hm'
    have : x = wordMt 1 4 8 [] c!"year" ∨ x = wordMt 2 23 25 [] c!"language" ∨ x = wordMt 3 40 44 [] c!"year" := by
      simpa [titleState] using hx
    rcases this with rfl | rfl | rfl
    · exact .inl (by decide)
    · exact absurd rfl hne
    · exact .inr (by decide)
  all_goals
    rintro m hm hi g ⟨hg, hgn⟩
    rw [key m hm hi]
    have : g = wordMt 4 0 8 [] c!"path" ∨ g = wordMt 5 9 44 [] c!"path" ∨ g = wordMt 6 9 12 [] c!"group" := by
      simpa [titleState] using hg
    unfold InOrOut
    rcases this with rfl | rfl | rfl <;> decide

/-- The spans and names of the new titles in the result. -/
def outcome (r : Except PyErr Ms) : Option (List (Nat × Nat × Option Str)) := match r with
  | .ok s => some (s.live.map fun m => (m.start, m.stop, m.name))
  | .error _ => none

/-- The state of the example meets the hypotheses of C73–C78; the title is `The Great fr Movie`, the language inside it is
dropped, the other part has a year, so its title is reported too. -/
example : Laid titleState ∧ GroupsInOrder titleState ∧ HasFreeWord titleState (wordMt 5 9 44 [] c!"path") ∧
    outcome (titleRun alone (titleFromPosition titleEnv) none titleState) =
      some [(4, 8, some c!"year"), (40, 44, some c!"year"), (12, 32, some c!"title"), (33, 40, some c!"alternative_title"),
        (0, 4, some c!"title")] := by
  refine ⟨titleState_laid, ?_, ⟨13, by unfold Covers; decide, ⟨'T', by decide, by decide⟩, ?_⟩, by decide +kernel⟩
  · rintro g h ⟨hg, hgn⟩ ⟨hh, hhn⟩ _
    have key : ∀ g ∈ titleState.markers, g.name = some c!"group" → g.stop = 12 := by decide
    rw [key g hg hgn, key h hh hhn]
    exact Nat.le_refl _
  · refine ⟨by unfold Covers; decide, ?_⟩
    rintro g ⟨hg, hgn⟩
    have key : ∀ g ∈ titleState.markers, g.name = some c!"group" → g.stop = 12 := by decide
    intro hc
    have := key g hg hgn
    have := hc.2
    omega

/-- Two elements of the path in brackets. -/
def bracketState : Ms where
  input := c!"[Foo]/[Bar]"
  live := []
  markers := [wordMt 1 0 5 [] c!"path", wordMt 2 6 11 [] c!"path", wordMt 3 0 5 [] c!"group", wordMt 4 6 11 [] c!"group"]

/-- C79: with two such elements, the one that should be searched first is skipped, since the loop that looks for them removes
elements from the list it goes through: for `[Foo]/[Bar]` the title is `Foo`, while for `[Bar]`, and even for `Foo/[Bar]`, it is `Bar`. -/
theorem C79_counterexample :
    Laid bracketState ∧ WholeElement bracketState (wordMt 4 6 11 [] c!"group") (wordMt 2 6 11 [] c!"path") ∧
    outcome (titleRun alone (titleFromPosition titleEnv) none bracketState) = some [(0, 5, some c!"title")] ∧
    outcome (titleRun alone (titleFromPosition titleEnv) none { bracketState with input := c!"xFoox/[Bar]", markers := bracketState.markers.filter fun m => decide (m.id ≠ 3) }) =
      some [(6, 11, some c!"title")] := by
  refine ⟨⟨sound_of (by decide) (by decide), by unfold WellFormed; decide, by decide +kernel, ?_⟩, ?_, by decide +kernel, by decide +kernel⟩
  · rintro part ⟨h1, h2⟩
    have : part = wordMt 1 0 5 [] c!"path" ∨ part = wordMt 2 6 11 [] c!"path" ∨ part = wordMt 3 0 5 [] c!"group" ∨ part = wordMt 4 6 11 [] c!"group" := by
      simpa [bracketState] using h1
    rcases this with rfl | rfl | rfl | rfl
    · exact .inr ⟨'/', by decide, .inl rfl⟩
    · exact .inl rfl
    · exact absurd h2 (by decide)
    · exact absurd h2 (by decide)
  · exact ⟨⟨by simp [bracketState], rfl⟩, ⟨by simp [bracketState], rfl⟩, rfl, rfl⟩

end Guessit
