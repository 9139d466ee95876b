import Verif.Proofs.Title
import Verif.Props.Rules

/-! # C73–C78: titles found from their position -/

namespace Guessit
open Spec

/-! ## What `when` returns -/

theorem afterSeason_some {kin : Kin} {s : Ms} : ∀ {l : List Mt} {q : Mt}, afterSeason kin s l = some q → q ∈ l ∧ ∃ p ∈ l, isSeasonPart kin s p = true
  | [], q, h => by simp [afterSeason] at h
  | [p], q, h => by simp [afterSeason] at h
  | p :: x :: rest, q, h => by
    unfold afterSeason at h
    split at h
    · rename_i hp
      cases h
      exact ⟨by simp, p, by simp, hp⟩
    · obtain ⟨h1, p', h2, h3⟩ := afterSeason_some h
      exact ⟨List.mem_cons_of_mem _ h1, p', List.mem_cons_of_mem _ h2, h3⟩

theorem isSeasonPart_iff {kin : Kin} {s : Ms} (hs : Sound s) {part : Mt} (hp : IsPart s part) (h : isSeasonPart kin s part = true) :
    SeasonDir kin.ancestors s part := by
  unfold isSeasonPart at h
  split at h
  · rename_i m heq
    obtain ⟨h1, h2⟩ := Bool.and_eq_true_iff.1 h
    have hm : m ∈ rangeOf s.input s.live part.start part.stop (fun m => !m.priv) := by rw [heq]; simp
    obtain ⟨k1, k2, k3, k4, k5⟩ := mem_rangeOf.1 hm
    refine ⟨hp, m, k1, by simpa using k5, ⟨k3, k4⟩, of_decide_eq_true h1, ?_, ?_⟩
    · intro x hx hpriv ho
      have : x ∈ rangeOf s.input s.live part.start part.stop (fun m => !m.priv) :=
        (mem_rangeOf' (hs.wf x hx).1).2 ⟨hx, ho.1, ho.2, by simp [hpriv]⟩
      rw [heq, List.mem_singleton] at this
      exact this
    · rcases Bool.or_eq_true_iff.1 h2 with h2 | h2
      · obtain ⟨a, b⟩ := Bool.and_eq_true_iff.1 h2
        exact .inl ⟨of_decide_eq_true a, of_decide_eq_true b⟩
      · right
        split at h2
        · rename_i p rest hanc
          obtain ⟨a, b⟩ := Bool.and_eq_true_iff.1 h2
          obtain ⟨_, a⟩ := Bool.and_eq_true_iff.1 a
          exact ⟨p, rest, hanc, of_decide_eq_true a, of_decide_eq_true b⟩
        · cases h2
  · cases h

theorem mem_titleParts {r : TitleRule} {s : Ms} {part : Mt} : part ∈ titleParts r s ↔ IsPart s part ∧ r.partFilter s part = true := by
  unfold titleParts
  rw [List.mem_filter, (C34_permutation ..).mem_iff, mem_named]
  rfl

/-- The title under another name. -/
def asEpisodeTitle (t : Mt) : Mt := { t with name := some c!"episode_title" }

/-- One successful search that `when` used. -/
structure Search (kin : Kin) (r : TitleRule) (type : Option Str) (s : Ms) (add rm : List Mt) (part : Mt) (extra : Mt → Bool) (ts rm' : List Mt) : Prop where
  inParts : part ∈ titleParts r s
  tolerates : extra = (fun _ => false) ∨ (extra = weakTagged ∧ ∃ p, SeasonDir kin.ancestors s p)
  found : checkPart r type s extra part = .ok (some (ts, rm'))
  removes : ∀ m ∈ rm', m ∈ rm
  adds : ∀ t ∈ ts, t ∈ add ∨ asEpisodeTitle t ∈ add

theorem firstTitled_some {r : TitleRule} {type : Option Str} {s : Ms} : ∀ {l : List Mt} {x : List Mt × List Mt} {rest : List Mt},
    firstTitled r type s l = .ok (some (x, rest)) → ∃ pre part, l = pre ++ part :: rest ∧ checkPart r type s (fun _ => false) part = .ok (some x) ∧
      ∀ q ∈ pre, checkPart r type s (fun _ => false) q = .ok none
  | [], x, rest, h => by simp [firstTitled] at h
  | p :: ps, x, rest, h => by
    unfold firstTitled at h
    cases hp : checkPart r type s (fun _ => false) p with
    | error e => rw [hp] at h; cases h
    | ok o =>
      rw [hp] at h
      cases o with
      | some y =>
        simp only [Except.ok.injEq, Option.some.injEq, Prod.mk.injEq] at h
        obtain ⟨rfl, rfl⟩ := h
        exact ⟨[], p, rfl, hp, by simp⟩
      | none =>
        obtain ⟨pre, part, h1, h2, h3⟩ := firstTitled_some h
        refine ⟨p :: pre, part, by rw [h1]; rfl, h2, ?_⟩
        intro q hq
        rcases List.mem_cons.1 hq with rfl | hq
        · exact hp
        · exact h3 q hq

theorem firstTitled_none {r : TitleRule} {type : Option Str} {s : Ms} : ∀ {l : List Mt}, firstTitled r type s l = .ok none →
    ∀ q ∈ l, checkPart r type s (fun _ => false) q = .ok none
  | [], _ => by simp
  | p :: ps, h => by
    unfold firstTitled at h
    cases hp : checkPart r type s (fun _ => false) p with
    | error e => rw [hp] at h; cases h
    | ok o =>
      rw [hp] at h
      cases o with
      | some y => cases h
      | none =>
        intro q hq
        rcases List.mem_cons.1 hq with rfl | hq
        · exact hp
        · exact firstTitled_none h q hq

theorem yearTitles_ok {r : TitleRule} {type : Option Str} {s : Ms} : ∀ {l : List Mt} {y : List Mt × List Mt}, yearTitles r type s l = .ok y →
    (∀ t ∈ y.1, ∃ part ∈ l, ∃ ts rm, checkPart r type s (fun _ => false) part = .ok (some (ts, rm)) ∧ t ∈ ts ∧ (∀ x ∈ ts, x ∈ y.1) ∧ ∀ m ∈ rm, m ∈ y.2) ∧
    (∀ m ∈ y.2, ∃ part ∈ l, ∃ ts rm, checkPart r type s (fun _ => false) part = .ok (some (ts, rm)) ∧ m ∈ rm ∧ (∀ x ∈ ts, x ∈ y.1) ∧ ∀ m ∈ rm, m ∈ y.2)
  | [], y, h => by simp only [yearTitles, Except.ok.injEq] at h; subst h; simp
  | p :: ps, y, h => by
    unfold yearTitles at h
    cases hp : checkPart r type s (fun _ => false) p with
    | error e => rw [hp] at h; cases h
    | ok o =>
      rw [hp] at h
      simp only at h
      cases hy : yearTitles r type s ps with
      | error e => rw [hy] at h; cases h
      | ok acc =>
        rw [hy] at h
        obtain ⟨i1, i2⟩ := yearTitles_ok hy
        have key : ∀ (big : List Mt × List Mt), (∀ x ∈ acc.1, x ∈ big.1) → (∀ x ∈ acc.2, x ∈ big.2) →
            (∀ t ∈ acc.1, ∃ part ∈ p :: ps, ∃ ts rm, checkPart r type s (fun _ => false) part = .ok (some (ts, rm)) ∧ t ∈ ts ∧
              (∀ x ∈ ts, x ∈ big.1) ∧ ∀ m ∈ rm, m ∈ big.2) ∧
            (∀ m ∈ acc.2, ∃ part ∈ p :: ps, ∃ ts rm, checkPart r type s (fun _ => false) part = .ok (some (ts, rm)) ∧ m ∈ rm ∧
              (∀ x ∈ ts, x ∈ big.1) ∧ ∀ m ∈ rm, m ∈ big.2) := by
          intro big b1 b2
          refine ⟨fun t ht => ?_, fun m hm => ?_⟩
          · obtain ⟨part, a1, ts, rm, a2, a3, a4, a5⟩ := i1 t ht
            exact ⟨part, List.mem_cons_of_mem _ a1, ts, rm, a2, a3, fun x hx => b1 x (a4 x hx), fun x hx => b2 x (a5 x hx)⟩
          · obtain ⟨part, a1, ts, rm, a2, a3, a4, a5⟩ := i2 m hm
            exact ⟨part, List.mem_cons_of_mem _ a1, ts, rm, a2, a3, fun x hx => b1 x (a4 x hx), fun x hx => b2 x (a5 x hx)⟩
        cases o with
        | none =>
          simp only [Except.ok.injEq] at h
          subst h
          exact key acc (fun _ h => h) (fun _ h => h)
        | some x =>
          obtain ⟨ts, rm⟩ := x
          simp only [Except.ok.injEq] at h
          subst h
          obtain ⟨k1, k2⟩ := key (ts ++ acc.1, rm ++ acc.2) (fun x hx => by simp [hx]) (fun x hx => by simp [hx])
          refine ⟨fun t ht => ?_, fun m hm => ?_⟩
          · rcases List.mem_append.1 ht with ht | ht
            · exact ⟨p, by simp, ts, rm, hp, ht, fun x hx => by simp [hx], fun x hx => by simp [hx]⟩
            · exact k1 t ht
          · rcases List.mem_append.1 hm with hm | hm
            · exact ⟨p, by simp, ts, rm, hp, hm, fun x hx => by simp [hx], fun x hx => by simp [hx]⟩
            · exact k2 m hm

theorem serieTitle_some {kin : Kin} {r : TitleRule} {type : Option Str} {s : Ms} (hs : Sound s) {t : Mt} {rm : List Mt}
    (h : serieTitle kin r type s (titleParts r s) = .ok (some (t, rm))) : ∃ part, part ∈ titleParts r s ∧
      checkPart r type s weakTagged part = .ok (some ([t], rm)) ∧ ∃ p, SeasonDir kin.ancestors s p := by
  unfold serieTitle at h
  split at h
  · cases h
  · rename_i part hpart
    obtain ⟨h1, p, h2, h3⟩ := afterSeason_some hpart
    split at h
    · split at h
      · cases h
      · rename_i t' rm' heq
        cases h
        exact ⟨part, List.mem_of_mem_tail h1, heq, p,
          isSeasonPart_iff hs (mem_titleParts.1 (List.mem_of_mem_tail h2)).1 h3⟩
      · cases h
    · cases h

theorem renameUnless_mem {input : Str} {serie : Option (Mt × List Mt)} {ts : List Mt} {t : Mt} (h : t ∈ renameUnless input serie ts) :
    ∃ t0 ∈ ts, t = t0 ∨ t = asEpisodeTitle t0 := by
  unfold renameUnless at h
  split at h
  · exact ⟨t, h, .inl rfl⟩
  · obtain ⟨t0, h1, rfl⟩ := List.mem_map.1 h
    refine ⟨t0, h1, ?_⟩
    split
    · exact .inl rfl
    · exact .inr rfl

theorem renameUnless_has {input : Str} {serie : Option (Mt × List Mt)} {ts : List Mt} {t : Mt} (h : t ∈ ts) :
    t ∈ renameUnless input serie ts ∨ asEpisodeTitle t ∈ renameUnless input serie ts := by
  unfold renameUnless
  split
  · exact .inl h
  · rename_i t1 rm1
    by_cases hv : t.value input = t1.value input
    · left; exact List.mem_map.2 ⟨t, h, by rw [if_pos hv]⟩
    · right; exact List.mem_map.2 ⟨t, h, by rw [if_neg hv]; rfl⟩

/-- Everything `when` returns comes from successful searches. -/
theorem titleWhen_ok {kin : Kin} {r : TitleRule} {type : Option Str} {s : Ms} (hs : Sound s) {add rm : List Mt}
    (h : titleWhen kin r type s = .ok (add, rm)) :
    (∀ t ∈ add, ∃ part extra ts rm', Search kin r type s add rm part extra ts rm' ∧ ∃ t0 ∈ ts, t = t0 ∨ t = asEpisodeTitle t0) ∧
    (∀ m ∈ rm, ∃ part extra ts rm', Search kin r type s add rm part extra ts rm' ∧ m ∈ rm') := by
  unfold titleWhen at h
  split at h
  · simp only [Except.ok.injEq, Prod.mk.injEq] at h
    obtain ⟨rfl, rfl⟩ := h
    simp
  · cases hse : serieTitle kin r type s (titleParts r s) with
    | error e => rw [hse] at h; cases h
    | ok serie =>
      rw [hse] at h
      simp only at h
      -- the search for the name of the series
      have hserie : ∀ add rm, (∀ t rm0, serie = some (t, rm0) → t ∈ add ∧ ∀ m ∈ rm0, m ∈ rm) →
          ∀ t rm0, serie = some (t, rm0) → ∃ part, Search kin r type s add rm part weakTagged [t] rm0 := by
        intro add rm hin t rm0 he
        subst he
        obtain ⟨part, h1, h2, h3⟩ := serieTitle_some hs hse
        obtain ⟨k1, k2⟩ := hin t rm0 rfl
        exact ⟨part, h1, .inr ⟨rfl, h3⟩, h2, k2, by intro x hx; rw [List.mem_singleton] at hx; subst hx; exact .inl k1⟩
      cases hf : firstTitled r type s (titleParts r s) with
      | error e => rw [hf] at h; cases h
      | ok o =>
        rw [hf] at h
        cases o with
        | none =>
          simp only [Except.ok.injEq] at h
          cases serie with
          | none => simp only [Prod.mk.injEq] at h; obtain ⟨rfl, rfl⟩ := h; simp
          | some x =>
            obtain ⟨t, rm0⟩ := x
            simp only [Prod.mk.injEq] at h
            obtain ⟨rfl, rfl⟩ := h
            obtain ⟨part, hsearch⟩ := hserie [t] rm0 (by rintro t' rm' he; cases he; simp) t rm0 rfl
            refine ⟨?_, fun m hm => ⟨part, _, _, _, hsearch, hm⟩⟩
            intro x hx
            exact ⟨part, _, _, _, hsearch, x, hx, .inl rfl⟩
        | some y =>
          obtain ⟨⟨ts, rm1⟩, rest⟩ := y
          simp only at h
          cases hy : yearTitles r type s (rest.filter (hasYear s)) with
          | error e => rw [hy] at h; cases h
          | ok y =>
            rw [hy] at h
            simp only [Except.ok.injEq, Prod.mk.injEq] at h
            obtain ⟨hadd, hrm⟩ := h
            obtain ⟨pre, part, h1, h2, h3⟩ := firstTitled_some hf
            obtain ⟨y1, y2⟩ := yearTitles_ok hy
            have hpart : part ∈ titleParts r s := by rw [h1]; simp
            have hfirst : Search kin r type s add rm part (fun _ => false) ts rm1 := by
              refine ⟨hpart, .inl rfl, h2, ?_, ?_⟩
              · intro m hm; rw [← hrm]; simp [hm]
              · intro t ht
                rw [← hadd]
                rcases renameUnless_has (input := s.input) (serie := serie) ht with h | h
                · left; simp [h]
                · right; simp [h]
            have hyear : ∀ q ∈ rest.filter (hasYear s), q ∈ titleParts r s := by
              intro q hq; rw [h1]; have := (List.mem_filter.1 hq).1; simp [this]
            refine ⟨?_, ?_⟩
            · intro t ht
              rw [← hadd] at ht
              rcases List.mem_append.1 ht with ht | ht
              · rcases List.mem_append.1 ht with ht | ht
                · cases serie with
                  | none => simp at ht
                  | some x =>
                    obtain ⟨t', rm0⟩ := x
                    simp only [List.mem_singleton] at ht
                    subst ht
                    obtain ⟨part', hsearch⟩ := hserie add rm (by
                      rintro t' rm' he; cases he
                      refine ⟨by rw [← hadd]; simp, fun m hm => by rw [← hrm]; simp [hm]⟩) t rm0 rfl
                    exact ⟨part', _, _, _, hsearch, t, by simp, .inl rfl⟩
                · obtain ⟨t0, a1, a2⟩ := renameUnless_mem ht
                  exact ⟨part, _, _, _, hfirst, t0, a1, a2⟩
              · obtain ⟨q, a1, ts', rm', a2, a3, a4, a5⟩ := y1 t ht
                refine ⟨q, _, ts', rm', ⟨hyear q a1, .inl rfl, a2, ?_, ?_⟩, t, a3, .inl rfl⟩
                · intro m hm; rw [← hrm]; simp [a5 m hm]
                · intro x hx; left; rw [← hadd]; simp [a4 x hx]
            · intro m hm
              rw [← hrm] at hm
              rcases List.mem_append.1 hm with hm | hm
              · rcases List.mem_append.1 hm with hm | hm
                · cases serie with
                  | none => simp at hm
                  | some x =>
                    obtain ⟨t', rm0⟩ := x
                    obtain ⟨part', hsearch⟩ := hserie add rm (by
                      rintro t' rm' he; cases he
                      refine ⟨by rw [← hadd]; simp, fun m hm => by rw [← hrm]; simp [hm]⟩) t' rm0 rfl
                    exact ⟨part', _, _, _, hsearch, hm⟩
                · exact ⟨part, _, _, _, hfirst, hm⟩
              · obtain ⟨q, a1, ts', rm', a2, a3, a4, a5⟩ := y2 m hm
                refine ⟨q, _, ts', rm', ⟨hyear q a1, .inl rfl, a2, ?_, ?_⟩, a3⟩
                · intro m hm; rw [← hrm]; simp [a5 m hm]
                · intro x hx; left; rw [← hadd]; simp [a4 x hx]


/-- A successful search in a part: the stretch it stopped at. -/
theorem checkPart_some {r : TitleRule} {type : Option Str} {s : Ms} {extra : Mt → Bool} {part : Mt} {ts rm : List Mt}
    (h : checkPart r type s extra part = .ok (some (ts, rm))) : ∃ pre p post, pieces r s extra part = pre ++ p :: post ∧
      checkHole r type s part p = .ok (some (ts, rm)) ∧ ∀ z ∈ pre, checkHole r type s part z = .ok none := firstFound_some h

theorem titleRun_ok {kin : Kin} {r : TitleRule} {type : Option Str} {s s' : Ms} (h : titleRun kin r type s = .ok s') :
    ∃ add rm, titleWhen kin r type s = .ok (add, rm) ∧ s' = { s with live := removeAll s.input (appendAll s.input s.live add) rm } := by
  unfold titleRun at h
  cases hw : titleWhen kin r type s with
  | error e => rw [hw] at h; cases h
  | ok x =>
    obtain ⟨add, rm⟩ := x
    rw [hw] at h
    simp only [Except.ok.injEq] at h
    exact ⟨add, rm, rfl, h.symm⟩

theorem weakTagged_iff {m : Mt} : weakTagged m = true ↔ WeakTag m := by
  unfold weakTagged WeakTag
  rw [List.any_eq_true]
  refine exists_congr fun t => and_congr_right fun _ => ?_
  rw [Bool.or_eq_true, decide_eq_true_eq, List.isPrefixOf_iff_prefix]
  refine or_congr Iff.rfl ?_
  constructor
  · rintro ⟨x, hx⟩; exact ⟨x, hx.symm⟩
  · rintro ⟨x, hx⟩; exact ⟨x, hx.symm⟩

/-- A match that is new to the list comes from the titles to add. -/
theorem new_mem {input : Str} {live add rm : List Mt} {t : Mt} (h : t ∈ removeAll input (appendAll input live add) rm) (hn : t ∉ live) : t ∈ add :=
  (mem_appendAll (removeAll_subset h)).resolve_left hn

/-- The span of the titles found in a part lies in that part. -/
theorem in_part {s : Ms} (hs : Laid s) {part : Mt} (hp : IsPart s part) {b : Nat} (h1 : b ≤ s.input.length) (h2 : b ≤ part.stop + 1)
    (h3 : 0 < b) (h4 : notTitleSep s.input (b - 1) = true) : b ≤ part.stop := by
  by_contra hcon
  have hb : b = part.stop + 1 := by omega
  rcases hs.parts part hp with h | ⟨c, hc, hc'⟩
  · omega
  · rw [hb, Nat.add_sub_cancel] at h4
    have : notTitleSep s.input part.stop = false := notTitleSep_iff.2 ⟨c, hc, by
      rcases hc' with rfl | rfl <;> decide⟩
    rw [this] at h4
    cases h4

/-- C73: a title found from its position lies inside one element of the path, contains a word, and does not run over
anything that was recognised, other than languages, countries and episode details (and uncertain matches, when a directory
of the path is a season), nor into a bracketed group, other than one that makes up a whole path element.  The title
separators it contains are single dashes between word characters.  Its value is the cleaned text. -/
theorem C73_where (kin : Kin) (e : TitleEnv) (he : e.lower [] = []) (type : Option Str) (s s' : Ms) (hs : Laid s)
    (h : titleRun kin (titleFromPosition e) type s = .ok s') (t : Mt) (ht : t ∈ s'.live) (hnew : t ∉ s.live) :
    TitleName t ∧ t.tags = [c!"title"] ∧ t.value s.input = .str (e.fmt (textOf s.input t.start t.stop)) ∧
    ∃ part, IsPart s part ∧ part.start ≤ t.start ∧ t.start < t.stop ∧ t.stop ≤ part.stop ∧
      (∃ i, Covers t i ∧ WordAt s.input i) ∧
      (∀ i, Covers t i →
        (∀ m ∈ s.live, Covers m i → Ignorable e.upper s.input m ∨ (WeakTag m ∧ ∃ p, SeasonDir kin.ancestors s p)) ∧
        (∀ g, InGroups s g → Covers g i → ∃ p, IsPart s p ∧ p.start = g.start ∧ p.stop = g.stop) ∧
        ((∃ c, s.input[i]? = some c ∧ c ∈ titleSeps) →
          s.input[i]? = some '-' ∧ t.start < i ∧ i + 1 < t.stop ∧ WordAt s.input (i - 1) ∧ WordAt s.input (i + 1))) := by
  obtain ⟨add, rm, hw, rfl⟩ := titleRun_ok h
  obtain ⟨part, extra, ts, rm', hsearch, t0, ht0, hname⟩ := (titleWhen_ok hs.sound hw).1 t (new_mem ht hnew)
  obtain ⟨pre, p, post, hp1, hp2, _⟩ := checkPart_some hsearch.found
  obtain ⟨c1, _, c3, c4, rfl, _⟩ := checkHole_some hp2
  have hpm : p ∈ pieces (titleFromPosition e) s extra part := by rw [hp1]; simp
  obtain ⟨q1, q2, q3, q4, q5⟩ := piece_mem hs hpm
  have hsh := shrunk (r := titleFromPosition e) (part := part) (h := p) (s := s) (by rw [maxEnd_eq hs.sound.wf]; exact q3)
  obtain ⟨⟨n, hn, hmt⟩, m2, m3, m4, m5, m6, m7⟩ := titles_mem (alt := c!"alternative_title") he rfl rfl ht0
  have hl := hsh.left
  have hr := hsh.right
  have hspan : t.start = t0.start ∧ t.stop = t0.stop ∧ t.tags = t0.tags ∧ t.val = t0.val ∧ t.fmt = t0.fmt ∧ t.rawA = t0.rawA ∧ t.rawB = t0.rawB := by
    rcases hname with rfl | rfl
    · exact ⟨rfl, rfl, rfl, rfl, rfl, rfl, rfl⟩
    · exact ⟨rfl, rfl, rfl, rfl, rfl, rfl, rfl⟩
  obtain ⟨s1, s2, s3, s4, s5, s6, s7⟩ := hspan
  have hpart := (mem_titleParts.1 hsearch.inParts).1
  refine ⟨?_, ?_, ?_, part, hpart, by omega, by omega, ?_, ?_, ?_⟩
  · rcases hname with rfl | rfl
    · rw [hmt]
      rcases hn with rfl | rfl
      · exact ⟨c!"title", by simp, rfl⟩
      · exact ⟨c!"alternative_title", by simp, rfl⟩
    · exact ⟨c!"episode_title", by simp, rfl⟩
  · rw [s3, hmt]; rfl
  · have : t.value s.input = t0.value s.input := by
      unfold Mt.value Mt.raw
      rw [s4, s5, s6, s7]
    rw [this, hmt, s1, s2]
    rfl
  · have := in_part hs hpart (b := t0.stop) (by omega) (by omega) (by omega) m5
    omega
  · obtain ⟨i, hi, hwi⟩ := m6
    exact ⟨i, ⟨by have := hi.1; omega, by have := hi.2; omega⟩, hwi⟩
  · intro i hi
    have hi1 := hi.1
    have hi2 := hi.2
    obtain ⟨u1, u2⟩ := q5 i (by omega) (by omega)
    refine ⟨?_, u2, ?_⟩
    · intro m hm hc
      rcases u1 m hm hc with h | h
      · exact .inl h
      · rcases hsearch.tolerates with h' | ⟨h', h''⟩
        · rw [h'] at h; cases h
        · rw [h'] at h
          exact .inr ⟨weakTagged_iff.1 h, h''⟩
    · intro hsep
      have := m7 i ⟨by omega, by omega⟩ hsep
      rw [s1, s2]
      exact this

/-! ## C74: what a title takes over -/

theorem ignored_mem {r : TitleRule} {s : Ms} {h : Nat × Nat} {m : Mt} : m ∈ ignoredInHole r s h → m ∈ s.live ∧ Ignorable r.upper s.input m ∧
    m.start < h.2 ∧ h.1 < m.stop := by
  intro hm
  unfold ignoredInHole at hm
  obtain ⟨a, _, b, c, d⟩ := mem_rangeOf.1 hm
  exact ⟨a, isIgnored_iff.1 d, b, c⟩

theorem mem_ignored {r : TitleRule} {s : Ms} (hs : Sound s) {h : Nat × Nat} {m : Mt} (hm : m ∈ s.live) (hi : Ignorable r.upper s.input m)
    (h1 : m.start < h.2) (h2 : h.1 < m.stop) : m ∈ ignoredInHole r s h :=
  (mem_rangeOf' (hs.wf m hm).1).2 ⟨hm, h1, h2, isIgnored_iff.2 hi⟩

theorem ignorable_name {upper : Str → Bool} {input : Str} {m : Mt} (h : Ignorable upper input m) : ¬ TitleName m := by
  rintro ⟨n, hn, hm⟩
  obtain ⟨n', hn', hm'⟩ := h.1
  rw [hm] at hm'
  cases hm'
  clear hm h
  revert n
  decide

/-- What the rule removes is never a title. -/
theorem titles_not_removed {kin : Kin} {e : TitleEnv} {type : Option Str} {s : Ms} (hs : Laid s) {add rm : List Mt}
    (hw : titleWhen kin (titleFromPosition e) type s = .ok (add, rm)) {y : Mt} (hyn : TitleName y) : ∀ z ∈ rm, z.key s.input ≠ y.key s.input := by
  intro z hz hzk
  obtain ⟨_, _, _, _, hs2, hz2⟩ := (titleWhen_ok hs.sound hw).2 z hz
  obtain ⟨_, p2, _, _, hp2', _⟩ := checkPart_some hs2.found
  obtain ⟨_, _, _, _, _, hrm2⟩ := checkHole_some hp2'
  rw [hrm2] at hz2
  obtain ⟨_, hzi, _⟩ := ignored_mem (List.mem_filter.1 (removeAll_subset hz2)).1
  obtain ⟨n, a, b⟩ := hyn
  refine ignorable_name hzi ⟨n, a, ?_⟩
  rw [← b]; exact congrArg MtKey.name hzk

/-- The titles of a successful search are reported. -/
theorem search_live {kin : Kin} {e : TitleEnv} (he : e.lower [] = []) {type : Option Str} {s : Ms} (hs : Laid s) {add rm : List Mt}
    (hw : titleWhen kin (titleFromPosition e) type s = .ok (add, rm)) {part : Mt} {extra : Mt → Bool} {ts rm' : List Mt}
    (hsearch : Search kin (titleFromPosition e) type s add rm part extra ts rm') {t : Mt} (ht : t ∈ ts) :
    ∃ y ∈ removeAll s.input (appendAll s.input s.live add) rm, TitleName y ∧ y.start = t.start ∧ y.stop = t.stop := by
  obtain ⟨hadd, hrm⟩ := titleWhen_ok hs.sound hw
  have htadd : ∃ t' ∈ add, TitleName t' ∧ t'.start = t.start ∧ t'.stop = t.stop := by
    obtain ⟨_, p2, _, _, hp2', _⟩ := checkPart_some hsearch.found
    obtain ⟨_, _, _, _, hts, _⟩ := checkHole_some hp2'
    rw [hts] at ht
    obtain ⟨⟨n, hn, hmt⟩, _⟩ := titles_mem (alt := c!"alternative_title") he rfl rfl ht
    rcases hsearch.adds t (by rw [hts]; exact ht) with h | h
    · refine ⟨t, h, ?_, rfl, rfl⟩
      rw [hmt]
      rcases hn with rfl | rfl
      · exact ⟨c!"title", by simp, rfl⟩
      · exact ⟨c!"alternative_title", by simp, rfl⟩
    · exact ⟨asEpisodeTitle t, h, ⟨c!"episode_title", by simp, rfl⟩, rfl, rfl⟩
  obtain ⟨t', ht', hn', c1, c2⟩ := htadd
  obtain ⟨y, hy, hyk⟩ := appendAll_has s.input add s.live t' ht'
  have hyn : TitleName y := by
    obtain ⟨n, a, b⟩ := hn'
    exact ⟨n, a, by rw [← b]; exact (congrArg MtKey.name hyk).symm⟩
  have e1 := congrArg MtKey.start hyk
  have e2 := congrArg MtKey.stop hyk
  simp only [Mt.key] at e1 e2
  exact ⟨y, removeAll_stays hy (titles_not_removed hs hw hyn), hyn, by omega, by omega⟩

/-- C74: a match that the title rule removes is a language, a country or an episode detail, and a title reported by the rule
runs over it: when ignorable matches are words and do not overlap anything else, nothing is lost. -/
theorem C74_removed (kin : Kin) (e : TitleEnv) (he : e.lower [] = []) (type : Option Str) (s s' : Ms) (hs : Laid s)
    (htidy : TidyIgnorables e.upper s)
    (h : titleRun kin (titleFromPosition e) type s = .ok s') (m : Mt) (hm : m ∈ s.live) (hgone : m ∉ s'.live) :
    Ignorable e.upper s.input m ∧ ∃ t ∈ s'.live, TitleName t ∧ ∃ i, Covers t i ∧ Covers m i ∧ WordAt s.input i := by
  obtain ⟨add, rm, hw, rfl⟩ := titleRun_ok h
  obtain ⟨hadd, hrm⟩ := titleWhen_ok hs.sound hw
  have hrm' : ∃ x ∈ rm, x.key s.input = m.key s.input := by
    by_contra hcon
    refine hgone (removeAll_stays (appendAll_keeps hm) fun x hx hk => hcon ⟨x, hx, hk⟩)
  obtain ⟨x, hx, hk⟩ := hrm'
  obtain ⟨part, extra, ts, rm', hsearch, hxm⟩ := hrm x hx
  obtain ⟨pre, p, post, hp1, hp2, _⟩ := checkPart_some hsearch.found
  obtain ⟨c1, _, c3, c4, rfl, rfl⟩ := checkHole_some hp2
  have hpm : p ∈ pieces (titleFromPosition e) s extra part := by rw [hp1]; simp
  obtain ⟨q1, q2, q3, q4, q5⟩ := piece_mem hs hpm
  have hsh := shrunk (r := titleFromPosition e) (part := part) (h := p) (s := s) (by rw [maxEnd_eq hs.sound.wf]; exact q3)
  have hxi : x ∈ ignoredInHole (titleFromPosition e) s p := (List.mem_filter.1 (removeAll_subset hxm)).1
  obtain ⟨i1, i2, i3, i4⟩ := ignored_mem hxi
  have hxe : x = m := key_inj hs.sound hm i1 hk
  subst hxe
  refine ⟨i2, ?_⟩
  -- x is not among those kept
  have hnk : x ∉ (shrinkHole (titleFromPosition e) s part p).kept := by
    intro hkept
    unfold removedIn at hxm
    have hnd : (((ignoredInHole (titleFromPosition e) s p).filter fun m => (titleFromPosition e).shouldRemove type m
        (shrinkHole (titleFromPosition e) s part p).hole).map (Mt.key s.input)).Nodup := by
      unfold ignoredInHole rangeOf
      rw [List.filter_filter]
      refine List.Nodup.sublist ((List.filter_sublist).map _) ?_
      exact ((sortBy_perm Mt.lt s.live).map _).nodup_iff.2 hs.sound.distinct
    exact ((mem_removeAll_nodup hnd).1 hxm).2 x hkept rfl
  have hwf := (hs.sound.wf x hm).1
  -- a word position of x in the piece
  have hword : ∃ j, p.1 ≤ j ∧ j < p.2 ∧ Covers x j ∧ WordAt s.input j := by
    by_cases h1 : p.1 ≤ x.start
    · exact ⟨x.start, h1, i3, ⟨Nat.le_refl _, hwf⟩, htidy.first x hm i2⟩
    · by_cases h2 : x.stop ≤ p.2
      · exact ⟨x.stop - 1, by omega, by omega, ⟨by omega, by omega⟩, htidy.last x hm i2⟩
      · obtain ⟨i, k1, k2, k3⟩ := (fmt_slice he).1 c4
        have := hsh.left
        have := hsh.right
        exact ⟨i, by omega, by omega, ⟨by omega, by omega⟩, k3⟩
  obtain ⟨j, j1, j2, j3, j4⟩ := hword
  have hin : (shrinkHole (titleFromPosition e) s part p).hole.1 ≤ j ∧ j < (shrinkHole (titleFromPosition e) s part p).hole.2 := by
    by_contra hcon
    rcases hsh.lost j j1 j2 hcon with ⟨c, hc, hcs⟩ | ⟨k, hkk, hkc⟩
    · obtain ⟨c', hc', hcs'⟩ := j4
      rw [hc] at hc'; cases hc'
      exact hcs' hcs
    · obtain ⟨k1, k2, _⟩ := ignored_mem (hsh.kept k hkk)
      have hne : k ≠ x := by rintro rfl; exact hnk hkk
      have := htidy.apart x hm k k1 i2 hne
      have := hkc.1; have := hkc.2; have := j3.1; have := j3.2
      omega
  obtain ⟨⟨t, ht, htj⟩, _⟩ := titles_cover (alt := c!"alternative_title") he (r := titleFromPosition e) rfl rfl hin.1 hin.2 j4
  obtain ⟨y, hy, hyn, e1, e2⟩ := search_live he hs hw hsearch ht
  exact ⟨y, hy, hyn, j, ⟨by have := htj.1; omega, by have := htj.2; omega⟩, j3, j4⟩

end Guessit
