import Verif.Props.Title

/-! # C74–C78: which titles are found -/

namespace Guessit
open Spec

/-- The origin of a new title: the search that found it, the stretch it was made of. -/
structure TitleOrigin (kin : Kin) (e : TitleEnv) (type : Option Str) (s : Ms) (add rm : List Mt) (t t0 : Mt) (part : Mt) (extra : Mt → Bool)
    (rm' : List Mt) (pre post : List (Nat × Nat)) (p : Nat × Nat) : Prop where
  search : Search kin (titleFromPosition e) type s add rm part extra
    (titlesOf (titleFromPosition e) s.input (shrinkHole (titleFromPosition e) s part p).hole) rm'
  mem : t0 ∈ titlesOf (titleFromPosition e) s.input (shrinkHole (titleFromPosition e) s part p).hole
  same : t = t0 ∨ t = asEpisodeTitle t0
  pieces : pieces (titleFromPosition e) s extra part = pre ++ p :: post
  before : ∀ z ∈ pre, checkHole (titleFromPosition e) type s part z = .ok none
  removed : rm' = removedIn (titleFromPosition e) type s p (shrinkHole (titleFromPosition e) s part p)
  shrunk : Shrunk s (ignoredInHole (titleFromPosition e) s p) p (shrinkHole (titleFromPosition e) s part p)

theorem titleOrigin {kin : Kin} {e : TitleEnv} {type : Option Str} {s : Ms} (hs : Laid s) {add rm : List Mt}
    (hw : titleWhen kin (titleFromPosition e) type s = .ok (add, rm)) {t : Mt} (ht : t ∈ add) :
    ∃ t0 part extra rm' pre post p, TitleOrigin kin e type s add rm t t0 part extra rm' pre post p := by
  obtain ⟨part, extra, ts, rm', hsearch, t0, ht0, hname⟩ := (titleWhen_ok hs.sound hw).1 t ht
  obtain ⟨pre, p, post, hp1, hp2, hp3⟩ := checkPart_some hsearch.found
  obtain ⟨c1, _, c3, c4, rfl, c6⟩ := checkHole_some hp2
  have hpm : p ∈ pieces (titleFromPosition e) s extra part := by rw [hp1]; simp
  obtain ⟨q1, q2, q3, q4, q5⟩ := piece_mem hs hpm
  exact ⟨t0, part, extra, rm', pre, post, p, hsearch, ht0, hname, hp1, hp3, c6,
    shrunk (by rw [maxEnd_eq hs.sound.wf]; exact q3)⟩

theorem TitleOrigin.span {kin : Kin} {e : TitleEnv} {type : Option Str} {s : Ms} {add rm : List Mt} {t t0 part : Mt} {extra : Mt → Bool}
    {rm' : List Mt} {pre post : List (Nat × Nat)} {p : Nat × Nat} (h : TitleOrigin kin e type s add rm t t0 part extra rm' pre post p) :
    t.start = t0.start ∧ t.stop = t0.stop := by
  rcases h.same with rfl | rfl <;> exact ⟨rfl, rfl⟩

/-- C74: the languages and countries a title runs over are not reported on their own; nor are the episode details, unless
the file is an episode and the detail is not entirely inside the title. -/
theorem C74_inside (kin : Kin) (e : TitleEnv) (he : e.lower [] = []) (type : Option Str) (s s' : Ms) (hs : Laid s)
    (h : titleRun kin (titleFromPosition e) type s = .ok s') (t : Mt) (ht : t ∈ s'.live) (hnew : t ∉ s.live)
    (m : Mt) (hm : m ∈ s.live) (hi : Ignorable e.upper s.input m) (ho : Overlaps t m)
    (hkind : m.name ≠ some c!"episode_details" ∨ type ≠ some c!"episode" ∨ (t.start ≤ m.start ∧ m.stop ≤ t.stop)) :
    m ∉ s'.live := by
  obtain ⟨add, rm, hw, rfl⟩ := titleRun_ok h
  obtain ⟨t0, part, extra, rm', pre, post, p, hor⟩ := titleOrigin hs hw (new_mem ht hnew)
  obtain ⟨_, m2, m3, m4, _⟩ := titles_mem (alt := c!"alternative_title") he rfl rfl hor.mem
  obtain ⟨s1, s2⟩ := hor.span
  have hl := hor.shrunk.left
  have hr := hor.shrunk.right
  have ho1 := ho.1
  have ho2 := ho.2
  have hig : m ∈ ignoredInHole (titleFromPosition e) s p := mem_ignored hs.sound hm hi (by omega) (by omega)
  have hnot : ∀ k ∈ (shrinkHole (titleFromPosition e) s part p).kept, k.key s.input ≠ m.key s.input := by
    intro k hk hkey
    obtain ⟨k1, _⟩ := ignored_mem (hor.shrunk.kept k hk)
    have := key_inj hs.sound hm k1 hkey
    subst this
    rcases hor.shrunk.out k hk with h | h <;> omega
  have hmem : m ∈ rm' := by
    rw [hor.removed]
    unfold removedIn
    refine removeAll_stays ?_ hnot
    refine List.mem_filter.2 ⟨hig, ?_⟩
    show (if type = some c!"episode" ∧ m.name = some c!"episode_details" then _ else true) = true
    split
    · rename_i hc
      rcases hkind with hk | hk | hk
      · exact absurd hc.2 hk
      · exact absurd hc.1 hk
      · rw [Bool.and_eq_true, decide_eq_true_eq, decide_eq_true_eq]
        omega
    · rfl
  intro hin
  exact ((mem_removeAll_nodup (appendAll_distinct add s.live hs.sound.distinct)).1 hin).2 m (hor.search.removes m hmem) rfl

/-- C75: when an expected title was given and found, no other title is searched for: nothing changes. -/
theorem C75_expected (kin : Kin) (e : TitleEnv) (type : Option Str) (s : Ms)
    (h : ∃ m ∈ s.live, m.name = some c!"title" ∧ c!"expected" ∈ m.tags) : titleRun kin (titleFromPosition e) type s = .ok s := by
  obtain ⟨m, h1, h2, h3⟩ := h
  have : ((named s.live (titleFromPosition e).name).any fun m => m.tagged c!"expected") = true :=
    List.any_eq_true.2 ⟨m, mem_named.2 ⟨h1, h2⟩, by unfold Mt.tagged; simpa using h3⟩
  unfold titleRun titleWhen
  rw [if_pos this]
  rfl

/-! ## C76: a free word makes a title -/

theorem checkPart_free {e : TitleEnv} (he : e.lower [] = []) {type : Option Str} {s : Ms} (hs : Laid s) {extra : Mt → Bool} {part : Mt}
    (hf : HasFreeWord s part) : checkPart (titleFromPosition e) type s extra part ≠ .ok none := by
  intro hnone
  obtain ⟨i, hc, hw, hfree⟩ := hf
  obtain ⟨p, hp, p1, p2⟩ := piece_covers (r := titleFromPosition e) he rfl hs (extra := extra) (part := part) hc.1 (by have := hc.2; omega) hw hfree
  have hmem := piece_mem hs hp
  have := firstFound_none hnone p hp
  rw [(checkHole_free (r := titleFromPosition e) he rfl (by rw [maxEnd_eq hs.sound.wf]; exact hmem.2.2.1) rfl p1 p2 hw hfree.1).2.2] at this
  cases this

/-- The first title found in a part. -/
theorem checkPart_head {e : TitleEnv} (he : e.lower [] = []) {type : Option Str} {s : Ms} {extra : Mt → Bool} {part : Mt}
    {ts rm : List Mt} (h : checkPart (titleFromPosition e) type s extra part = .ok (some (ts, rm))) : ∃ t rest, ts = t :: rest ∧ t.name = some c!"title" := by
  obtain ⟨pre, p, post, hp1, hp2, _⟩ := checkPart_some h
  obtain ⟨c1, _, c3, c4, rfl, _⟩ := checkHole_some hp2
  obtain ⟨i, k1, k2, k3⟩ := (fmt_slice he).1 c4
  obtain ⟨_, t, rest, h1, h2, _⟩ := titles_cover (alt := c!"alternative_title") he (r := titleFromPosition e) rfl rfl k1 k2 k3
  exact ⟨t, rest, h1, h2⟩

theorem added_live {kin : Kin} {e : TitleEnv} {type : Option Str} {s : Ms} (hs : Laid s) {add rm : List Mt}
    (hw : titleWhen kin (titleFromPosition e) type s = .ok (add, rm)) {t : Mt} (ht : t ∈ add) (hn : TitleName t) :
    ∃ y ∈ removeAll s.input (appendAll s.input s.live add) rm, y.key s.input = t.key s.input := by
  obtain ⟨y, hy, hyk⟩ := appendAll_has s.input add s.live t ht
  have hyn : TitleName y := by
    obtain ⟨n, a, b⟩ := hn
    exact ⟨n, a, by rw [← b]; exact (congrArg MtKey.name hyk).symm⟩
  exact ⟨y, removeAll_stays hy (titles_not_removed hs hw hyn), hyk.symm⟩

/-- When the search of a part does not come back empty-handed, a title is reported. -/
theorem title_if_found (kin : Kin) {e : TitleEnv} (he : e.lower [] = []) {type : Option Str} {s s' : Ms} (hs : Laid s)
    (h : titleRun kin (titleFromPosition e) type s = .ok s') {part : Mt} (hmem : part ∈ titleParts (titleFromPosition e) s)
    (hf : checkPart (titleFromPosition e) type s (fun _ => false) part ≠ .ok none) :
    ∃ t ∈ s'.live, t.name = some c!"title" := by
  obtain ⟨add, rm, hw, rfl⟩ := titleRun_ok h
  have hw' := hw
  unfold titleWhen at hw
  split at hw
  · rename_i hexp
    obtain ⟨m, h1, h2⟩ := List.any_eq_true.1 hexp
    obtain ⟨h1, h3⟩ := mem_named.1 h1
    simp only [Except.ok.injEq, Prod.mk.injEq] at hw
    obtain ⟨rfl, rfl⟩ := hw
    exact ⟨m, h1, h3⟩
  · have hadd : ∃ t ∈ add, t.name = some c!"title" := by
      cases hse : serieTitle kin (titleFromPosition e) type s (titleParts (titleFromPosition e) s) with
      | error err => rw [hse] at hw; cases hw
      | ok serie =>
        rw [hse] at hw
        simp only at hw
        cases hft : firstTitled (titleFromPosition e) type s (titleParts (titleFromPosition e) s) with
        | error err => rw [hft] at hw; cases hw
        | ok o =>
          rw [hft] at hw
          cases o with
          | none => exact absurd (firstTitled_none hft part hmem) hf
          | some y =>
            obtain ⟨⟨ts, rm1⟩, rest⟩ := y
            simp only at hw
            split at hw
            · cases hw
            · simp only [Except.ok.injEq, Prod.mk.injEq] at hw
              obtain ⟨hadd, _⟩ := hw
              cases serie with
              | none =>
                obtain ⟨_, q, _, h2, _⟩ := firstTitled_some hft
                obtain ⟨t, rest', rfl, ht⟩ := checkPart_head he h2
                exact ⟨t, by rw [← hadd]; simp [renameUnless], ht⟩
              | some x =>
                obtain ⟨t, rm0⟩ := x
                obtain ⟨q, _, h2, _⟩ := serieTitle_some hs.sound hse
                obtain ⟨t', rest', h3, ht⟩ := checkPart_head he h2
                cases h3
                exact ⟨t, by rw [← hadd]; simp, ht⟩
    obtain ⟨t, ht, hn⟩ := hadd
    obtain ⟨y, hy, hk⟩ := added_live hs hw' ht ⟨_, by simp, hn⟩
    exact ⟨y, hy, by rw [← hn]; exact congrArg MtKey.name hk⟩

/-- C76: when some element of the path has a word that nothing covers, a title is reported. -/
theorem C76_found (kin : Kin) (e : TitleEnv) (he : e.lower [] = []) (type : Option Str) (s s' : Ms) (hs : Laid s)
    (h : titleRun kin (titleFromPosition e) type s = .ok s') (part : Mt) (hp : IsPart s part) (hf : HasFreeWord s part) :
    ∃ t ∈ s'.live, t.name = some c!"title" :=
  title_if_found kin he hs h (mem_titleParts.2 ⟨hp, rfl⟩) (checkPart_free he hs hf)

/-! ## C76: which part the title comes from -/

theorem sublist_index {l : List Mt} {a b : Mt} (h : [a, b].Sublist l) : ∃ i j : Nat, l[i]? = some a ∧ l[j]? = some b ∧ i < j := by
  induction l with
  | nil => cases h
  | cons x xs ih =>
    cases h with
    | cons _ h =>
      obtain ⟨i, j, h1, h2, h3⟩ := ih h
      exact ⟨i + 1, j + 1, by simpa using h1, by simpa using h2, by omega⟩
    | cons_cons _ h =>
      obtain ⟨j, hj⟩ := List.mem_iff_getElem?.1 (List.singleton_sublist.1 h)
      exact ⟨0, j + 1, rfl, by simpa using hj, by omega⟩

/-- The sorted list of parts has no part that outranks an earlier one. -/
theorem parts_order {e : TitleEnv} {s : Ms} (hs : Laid s) {pre rest : List Mt} {part q : Mt}
    (hl : titleParts (titleFromPosition e) s = pre ++ part :: rest) (hq : Outranks s q part) : q ∈ pre := by
  obtain ⟨hq1, hp1, a, b, ha, hb, hab⟩ := hq
  have hfull : titleParts (titleFromPosition e) s = markerSorted s.input s.live (named s.markers c!"path") (markerPredicate s.input) := by
    unfold titleParts
    rw [List.filter_eq_self]
    intro _ _; rfl
  have hqm : q ∈ titleParts (titleFromPosition e) s := mem_titleParts.2 ⟨hq1, rfl⟩
  have hwq := IsCard.unique ha (C34_weight s.input s.live hs.sound.wf.stretched q)
  have hwp := IsCard.unique hb (C34_weight s.input s.live hs.sound.wf.stretched part)
  have hnd : ((named s.markers c!"path").map (Mt.key s.input)).Nodup := by
    refine List.Nodup.sublist (List.Sublist.map _ ?_) hs.distinct
    unfold named; exact List.filter_sublist
  have hsorted := sortBy_sorted (markerLt_strictWeak s.input s.live (named s.markers c!"path") (markerPredicate s.input)) (named s.markers c!"path")
  have hlt : markerLt s.input s.live (named s.markers c!"path") (markerPredicate s.input) q part = true := by
    rw [markerLt_iff]
    rcases hab with h | ⟨h, h'⟩
    · left; omega
    · right
      refine ⟨by omega, ?_⟩
      have hsub : [part, q].Sublist (named s.markers c!"path") := by
        have := h'.filter (fun m => decide (m.name = some c!"path"))
        rw [List.filter_cons_of_pos (by simpa using hp1.2), List.filter_cons_of_pos (by simpa using hq1.2), List.filter_nil] at this
        exact this
      obtain ⟨i, j, h1, h2, h3⟩ := sublist_index hsub
      rw [markerIndex_get hnd h1, markerIndex_get hnd h2]
      exact h3
  rw [hl] at hqm
  rcases List.mem_append.1 hqm with h | h
  · exact h
  · exfalso
    rcases List.mem_cons.1 h with rfl | h
    · rw [markerLt_iff] at hlt; omega
    · have hsorted' : (titleParts (titleFromPosition e) s).Pairwise fun a b =>
          markerLt s.input s.live (named s.markers c!"path") (markerPredicate s.input) b a = false := by
        rw [hfull]; exact hsorted
      rw [hl] at hsorted'
      have := (List.pairwise_cons.1 (List.pairwise_append.1 hsorted').2.1).1 q h
      rw [hlt] at this
      cases this

/-- C76: without a season directory, a new title comes from the first element of the path (by number of properties found,
then from the right) that has a free word, or from an element with a year. -/
theorem C76_first (kin : Kin) (e : TitleEnv) (he : e.lower [] = []) (type : Option Str) (s s' : Ms) (hs : Laid s)
    (hser : ∀ p, ¬ SeasonDir kin.ancestors s p)
    (h : titleRun kin (titleFromPosition e) type s = .ok s') (t : Mt) (ht : t ∈ s'.live) (hnew : t ∉ s.live) :
    ∃ part, IsPart s part ∧ part.start ≤ t.start ∧ t.stop ≤ part.stop ∧
      ((∃ y ∈ s.live, y.name = some c!"year" ∧ Overlaps part y) ∨ ∀ q, Outranks s q part → ¬ HasFreeWord s q) := by
  obtain ⟨add, rm, hw, rfl⟩ := titleRun_ok h
  have htadd := new_mem ht hnew
  -- titles found in a part lie in it
  have inside : ∀ (part : Mt) (ts rm' : List Mt), IsPart s part → checkPart (titleFromPosition e) type s (fun _ => false) part = .ok (some (ts, rm')) →
      t ∈ ts → part.start ≤ t.start ∧ t.stop ≤ part.stop := by
    intro part ts rm' hpart hc htt
    obtain ⟨pre, p, post, hp1, hp2, hp3⟩ := checkPart_some hc
    obtain ⟨c1, _, c3, c4, rfl, c6⟩ := checkHole_some hp2
    have hpm : p ∈ pieces (titleFromPosition e) s (fun _ => false) part := by rw [hp1]; simp
    obtain ⟨q1, q2, q3, q4, q5⟩ := piece_mem hs hpm
    have hsh := shrunk (r := titleFromPosition e) (part := part) (h := p) (s := s) (by rw [maxEnd_eq hs.sound.wf]; exact q3)
    obtain ⟨_, m2, m3, m4, m5, _⟩ := titles_mem (alt := c!"alternative_title") he rfl rfl htt
    have hl := hsh.left
    have hr := hsh.right
    have := in_part hs hpart (b := t.stop) (by omega) (by omega) (by omega) m5
    omega
  unfold titleWhen at hw
  split at hw
  · simp only [Except.ok.injEq, Prod.mk.injEq] at hw
    obtain ⟨rfl, rfl⟩ := hw
    simp at htadd
  · cases hse : serieTitle kin (titleFromPosition e) type s (titleParts (titleFromPosition e) s) with
    | error err => rw [hse] at hw; cases hw
    | ok serie =>
      have hnone : serie = none := by
        cases serie with
        | none => rfl
        | some x =>
          obtain ⟨t, rm0⟩ := x
          obtain ⟨_, _, _, p, hp⟩ := serieTitle_some hs.sound hse
          exact absurd hp (hser p)
      subst hnone
      rw [hse] at hw
      simp only at hw
      cases hft : firstTitled (titleFromPosition e) type s (titleParts (titleFromPosition e) s) with
      | error err => rw [hft] at hw; cases hw
      | ok o =>
        rw [hft] at hw
        cases o with
        | none =>
          simp only [Except.ok.injEq, Prod.mk.injEq] at hw
          obtain ⟨rfl, rfl⟩ := hw
          simp at htadd
        | some y =>
          obtain ⟨⟨ts, rm1⟩, rest⟩ := y
          simp only at hw
          cases hy : yearTitles (titleFromPosition e) type s (rest.filter (hasYear s)) with
          | error err => rw [hy] at hw; cases hw
          | ok y =>
            rw [hy] at hw
            simp only [Except.ok.injEq, Prod.mk.injEq, List.nil_append] at hw
            obtain ⟨hadd, _⟩ := hw
            obtain ⟨pre, part, h1, h2, h3⟩ := firstTitled_some hft
            rw [← hadd] at htadd
            rcases List.mem_append.1 htadd with htadd | htadd
            · have hpart : IsPart s part := (mem_titleParts.1 (by rw [h1]; simp : part ∈ titleParts (titleFromPosition e) s)).1
              obtain ⟨i1, i2⟩ := inside part ts rm1 hpart h2 htadd
              refine ⟨part, hpart, i1, i2, .inr ?_⟩
              intro q hq hfree
              exact checkPart_free he hs hfree (h3 q (parts_order hs h1 hq))
            · obtain ⟨q, a1, ts', rm', a2, a3, _⟩ := (yearTitles_ok hy).1 t htadd
              obtain ⟨a4, a5⟩ := List.mem_filter.1 a1
              have hq : IsPart s q := (mem_titleParts.1 (by rw [h1]; simp [a4] : q ∈ titleParts (titleFromPosition e) s)).1
              obtain ⟨i1, i2⟩ := inside q ts' rm' hq a2 a3
              refine ⟨q, hq, i1, i2, .inl ?_⟩
              unfold hasYear firstIn at a5
              obtain ⟨y, hy⟩ := Option.isSome_iff_exists.1 a5
              have hymem := firstTrue_mem hy
              obtain ⟨b1, _, b2, b3, b4⟩ := mem_rangeOf.1 hymem
              exact ⟨y, b1, of_decide_eq_true b4, b2, b3⟩

end Guessit
