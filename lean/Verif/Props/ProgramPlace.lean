import Verif.Props.ProgramGrown
import Verif.Props.Expected
import Verif.Props.Uuid
import Verif.Props.Strings

/-! # What the declarations give: places in the name -/

namespace Guessit
open Spec Re

/-- All of a family is in the name. -/
def Family.Within (s : Str) (F : Family) : Prop := ∀ b ∈ F.root :: F.kids, b.stop ≤ s.length

/-- What is asked of what is outside: lowering a text leaves its length, and the regular expressions of the caller find things in the text. -/
structure Outside.Sized (O : Outside) : Prop where
  lower : ∀ t, (O.rx.u.lower t).length = t.length
  regex : ∀ p t x, x ∈ O.regex p t → x.2 ≤ t.length

theorem kids_within {V : Type} {P : RxPattern V} {s : Str} {h : RxHit} (hh : h ∈ P.re.hits s) : ∀ k ∈ P.kids s h, k.stop ≤ s.length := by
  intro k hk
  obtain ⟨x, hx, hl, _⟩ := mem_kids_name hk
  exact ((hits_in hh).lookup hl).2.2

theorem rx_within {V : Type} {P : RxPattern V} {give : V → MVal} {st : Style} {s : Str} : ∀ F ∈ P.families give st s, F.Within s := by
  intro F hF
  simp only [RxPattern.families, List.mem_map] at hF
  obtain ⟨⟨m, ks⟩, hx, rfl⟩ := hF
  simp only [RxPattern.foundWithin, List.mem_map, Prod.mk.injEq] at hx
  obtain ⟨h, hh, rfl, rfl⟩ := hx
  have hin := (List.mem_filter.1 hh).1
  intro b hb
  rcases List.mem_cons.1 hb with rfl | hb
  · exact (hits_in hin).stop
  · obtain ⟨k, hk, rfl⟩ := List.mem_map.1 hb
    exact kids_within hin k hk

theorem found_within {V : Type} {P : RxPattern V} {s : Str} : ∀ m ∈ P.found s, m.stop ≤ s.length := by
  intro m hm
  obtain ⟨h, hh, hm⟩ := List.mem_flatMap.1 hm
  have hin := (List.mem_filter.1 hh).1
  split at hm
  · exact kids_within hin m hm
  · rw [List.mem_singleton] at hm
    subst hm
    exact (hits_in hin).stop

theorem findAll_within {sub s : Str} {i : Nat} (h : i ∈ findAll sub s) : i + sub.length ≤ s.length := by
  obtain ⟨j, h1, h2, h3⟩ := findAllFrom_sound sub s 0 0 i h
  have := h3.length_le
  rw [List.length_drop] at this
  omega

theorem strFound_within {V : Type} {P : StrPattern V} {u : Uni} (hu : ∀ t, (u.lower t).length = t.length) {s : Str} : ∀ m ∈ P.found u s, m.stop ≤ s.length := by
  intro m hm
  obtain ⟨w, _, hm⟩ := List.mem_flatMap.1 (List.mem_filter.1 hm).1
  obtain ⟨i, hi, rfl⟩ := List.mem_map.1 hm
  have := findAll_within hi
  rwa [hu, hu] at this

theorem str_within {V : Type} {P : StrPattern V} {u : Uni} (hu : ∀ t, (u.lower t).length = t.length) {give : V → MVal} {st : Style} {s : Str} :
    ∀ F ∈ P.families u give st s, F.Within s := by
  intro F hF
  obtain ⟨m, hm, rfl⟩ := List.mem_map.1 hF
  intro b hb
  rw [List.mem_singleton] at hb
  subst hb
  exact strFound_within hu m hm

theorem plain_within {V : Type} {found : List (RxMatch V)} {give : V → MVal} {st : Style} {s : Str} (h : ∀ m ∈ found, m.stop ≤ s.length) :
    ∀ F ∈ plainFamilies give st found, F.Within s := by
  intro F hF
  obtain ⟨m, hm, rfl⟩ := List.mem_map.1 hF
  intro b hb
  rw [List.mem_singleton] at hb
  subst hb
  exact h m hm

theorem lastStop_within {s : Str} : ∀ {t : List RxHit} {i : Nat}, i ≤ s.length → (∀ h ∈ t, h.stop ≤ s.length) → lastStop i t ≤ s.length
  | [], _, hi, _ => hi
  | h :: t, _, _, ht => lastStop_within (t := t) (ht h List.mem_cons_self) fun x hx => ht x (List.mem_cons_of_mem _ hx)

theorem chain_within {kept : List (List RxHit)} {value : Str → Str → MVal} {name : Str} {tags extra : List Str} {s : Str}
    {ns : List Nat} (hk : ∀ hs ∈ kept, ∀ h ∈ hs, HitIn s ns h) : ∀ F ∈ chainFamilies kept value name tags extra, F.Within s := by
  intro F hF
  simp only [chainFamilies, List.mem_filterMap] at hF
  obtain ⟨hs, hhs, hm⟩ := hF
  split at hm
  · cases hm
  · rename_i h t
    cases hm
    intro b hb
    rcases List.mem_cons.1 hb with rfl | hb
    · exact lastStop_within (hk _ hhs h List.mem_cons_self).stop fun x hx => (hk _ hhs x (List.mem_cons_of_mem _ hx)).stop
    · obtain ⟨h', hh', hb⟩ := List.mem_flatMap.1 hb
      obtain ⟨x, hx, hl, _⟩ := mem_hitBuds hb
      exact ((hk _ hhs h' hh').lookup hl).2.2

theorem append_within {s : Str} {l r : List Family} (hl : ∀ F ∈ l, F.Within s) (hr : ∀ F ∈ r, F.Within s) : ∀ F ∈ l ++ r, F.Within s := by
  intro F hF
  rcases List.mem_append.1 hF with h | h
  · exact hl F h
  · exact hr F h

theorem flatMap_within {α : Type} {s : Str} {l : List α} {f : α → List Family} (h : ∀ a ∈ l, ∀ F ∈ f a, F.Within s) : ∀ F ∈ l.flatMap f, F.Within s := by
  intro F hF
  obtain ⟨a, ha, hF⟩ := List.mem_flatMap.1 hF
  exact h a ha F hF

theorem lone_within {s : Str} {b : Bud} {solver : Option Trade} (h : b.stop ≤ s.length) : Family.Within s { root := b, solver := solver } := by
  intro x hx
  rw [List.mem_singleton] at hx
  subst hx
  exact h

/-! ### The declarations -/

/-- What a declaration finds is in the name. -/
def Declared.Within (d : Declared) : Prop := ∀ (g : Dict) (s : Str), ∀ fs, d.found g s = .ok fs → ∀ F ∈ fs, F.Within s

theorem declared_within {needs : List (List Str)} {found : Str → List Family} {wanted : Dict → Bool} (h : ∀ s, ∀ F ∈ found s, F.Within s) :
    (declared needs found wanted).Within := by
  intro g s fs hf
  cases hf
  exact h s

theorem stripStop_le (s : Str) : ∀ j, stripStop s j ≤ j
  | 0 => Nat.le_refl _
  | j + 1 => by
    rw [stripStop]
    split
    · exact Nat.le_succ_of_le (stripStop_le s j)
    · exact Nat.le_refl _

theorem episodes_within (E : RxEnv) (hu : ∀ t, (E.u.lower t).length = t.length) : ∀ d ∈ episodesDeclared E, d.Within := by
  intro d hd
  simp only [episodesDeclared, List.mem_cons, List.not_mem_nil, or_false] at hd
  rcases hd with rfl | rfl | rfl | rfl | rfl | rfl | rfl | rfl | rfl | rfl | rfl | rfl | rfl | rfl | rfl | rfl | rfl | rfl | rfl | rfl <;>
    refine declared_within fun s => ?_
  · exact chain_within kept_in
  · exact chain_within kept_in
  · exact chain_within kept_in
  · exact chain_within kept_in
  · exact flatMap_within fun w _ => str_within hu
  · exact chain_within worded_in
  · exact rx_within
  · exact rx_within
  · exact rx_within
  · exact chain_within kept_in
  · exact chain_within loose_in
  · exact chain_within kept_in
  · exact chain_within kept_in
  · exact chain_within kept_in
  · exact chain_within loose_in
  · exact chain_within loose_in
  · exact chain_within kept_in
  · exact rx_within
  · intro F hF
    obtain ⟨F, hF', rfl⟩ := List.mem_map.1 hF
    have := rx_within F hF'
    intro b hb
    rcases List.mem_cons.1 hb with rfl | hb
    · exact Nat.le_trans (stripStop_le _ _) (this _ List.mem_cons_self)
    · exact this b (List.mem_cons_of_mem _ hb)
  · exact rx_within

theorem phrases_within {E : RxEnv} {name : Str} {e : PhraseEntry} {s : Str} : ∀ m ∈ e.phrases E name s, m.stop ≤ s.length := by
  intro m hm
  obtain ⟨t, _, hm⟩ := List.mem_flatMap.1 hm
  split at hm
  · exact found_within m hm
  · simp at hm

theorem table_within {E : RxEnv} (hu : ∀ t, (E.u.lower t).length = t.length) {name : Str} {table : List PhraseEntry} {s : Str} :
    ∀ m ∈ tableFound E name table s, m.stop ≤ s.length := by
  intro m hm
  obtain ⟨e, _, hm⟩ := List.mem_flatMap.1 hm
  rcases List.mem_append.1 hm with hm | hm
  · exact strFound_within hu m hm
  · exact phrases_within m hm

theorem styled_within {O : Outside} (hO : O.Sized) {name : Str} {table : List PhraseEntry} {styles : List Style} {s : Str} :
    ∀ F ∈ styledFamilies O name table styles s, F.Within s := by
  refine flatMap_within fun x _ => plain_within fun m hm => ?_
  rcases List.mem_append.1 hm with hm | hm
  · exact phrases_within m hm
  · exact strFound_within hO.lower m hm

theorem forms_within {E : RxEnv} {valid : Str → RxMatch Str → Bool} {st : Style} {e : FormEntry} {s : Str} : ∀ F ∈ e.families E valid st s, F.Within s := by
  intro F hF
  obtain ⟨t, _, hF⟩ := List.mem_flatMap.1 hF
  split at hF
  · exact rx_within F hF
  · simp at hF

theorem amounts_within {E : RxEnv} {cap : Str → Str} {fl : Floats} {name : Str} {cls : QClass} {unit : Re} {s : Str} :
    ∀ m ∈ amountsFound E cap fl name cls unit s, m.stop ≤ s.length := by
  intro m hm
  rcases List.mem_append.1 hm with hm | hm
  · exact found_within m hm
  · exact found_within m hm

theorem container_within {O : Outside} (hO : O.Sized) {s : Str} : ∀ F ∈ containerFamilies O s, F.Within s := by
  refine append_within (flatMap_within fun x hx => plain_within fun m hm => ?_) (flatMap_within fun x hx => plain_within fun m hm => ?_)
  · rw [List.mem_singleton] at hm
    subst hm
    simp only [extensionsFound, List.mem_append, List.mem_map] at hx
    rcases hx with (((⟨m, hm, rfl⟩ | ⟨m, hm, rfl⟩) | ⟨m, hm, rfl⟩) | ⟨m, hm, rfl⟩) | ⟨m, hm, rfl⟩ <;> exact found_within m hm
  · rw [List.mem_singleton] at hm
    subst hm
    simp only [namedFound, List.mem_append, List.mem_map] at hx
    rcases hx with ((⟨m, hm, rfl⟩ | ⟨m, hm, rfl⟩) | ⟨m, hm, rfl⟩) | ⟨m, hm, rfl⟩ <;> exact strFound_within hO.lower m hm

theorem channels_within {O : Outside} (hO : O.Sized) {s : Str} : ∀ F ∈ channelFamilies O s, F.Within s := by
  have hw : ∀ {v : Str} {ws : List Str}, ∀ F ∈ (channelWords v ws).families O.rx.u MVal.str {} s, F.Within s := str_within hO.lower
  exact append_within (append_within (append_within (append_within (append_within (append_within (append_within (append_within (append_within (append_within
    (append_within hw rx_within) hw) rx_within) rx_within) hw) rx_within) rx_within) rx_within) hw) rx_within) rx_within

theorem date_within {u : Uni} {parse : DateParser} {s : Str} {yf : Option Bool} : ∀ {rs : List (Re × Nat)} {df : Option Bool} {a b : Nat} {d : PyDate},
    searchDateLoop u parse s yf rs df = .ok (some (a, b, d)) → b ≤ s.length
  | [], _, _, _, _, h => by simp [searchDateLoop] at h
  | (re, k) :: rest, df, a, b, d, h => by
    rw [searchDateLoop] at h
    split at h
    · exact date_within h
    · rename_i i j caps hs
      obtain ⟨hm, _, hle, _⟩ := Re.searchFrom_some hs
      dsimp only at h
      split at h
      · cases h
      · split at h
        · cases h
        · split at h
          · rename_i a' b' hl
            cases h
            exact ((matchAt_in hm (by omega)).lookup hl).2.2
          · cases h
        · exact date_within h

theorem findSubs_within {u : Uni} (hu : ∀ t, (u.lower t).length = t.length) {s sub : Str} {l : List Nat} (h : findSubs u s sub = some l) :
    ∀ i ∈ l, i + sub.length ≤ s.length := by
  intro i hi
  unfold findSubs at h
  split at h
  · cases h
  · rename_i hne
    have h' := Option.some.inj h
    rw [← h'] at hi
    have h2 := prefix_len hne ((findSubsFrom_spec (s := u.lower s) hne ((u.lower s).length + 1) 0 (by omega)).1 i hi).2
    rw [hu, hu] at h2
    exact h2

theorem expectedFrom_within {u : Uni} (hu : ∀ t, (u.lower t).length = t.length) {rx : Str → Str → List (Nat × Nat)} (hr : ∀ p t x, x ∈ rx p t → x.2 ≤ t.length) :
    ∀ {l : List Str} {s : Str} {fs : List Found3}, expectedFrom u rx s l = some fs → ∀ f ∈ fs, f.stop ≤ s.length
  | [], _, _, h, f, hf => by
    rw [expectedFrom] at h
    cases h
    cases hf
  | e :: l, s, fs, h, f, hf => by
    rw [expectedFrom] at h
    split at h
    · split at h
      · cases h
      · rename_i r hr'
        cases h
        rcases List.mem_append.1 hf with hf | hf
        · obtain ⟨x, hx, rfl⟩ := List.mem_map.1 hf
          exact hr _ _ _ hx
        · exact expectedFrom_within hu hr hr' f hf
    · dsimp only at h
      split at h
      · rename_i starts r hs hr'
        cases h
        rcases List.mem_append.1 hf with hf | hf
        · obtain ⟨i, hi, rfl⟩ := List.mem_map.1 hf
          have := findSubs_within hu hs i hi
          rwa [sepsToSpaces_length s] at this
        · have := expectedFrom_within hu hr hr' f hf
          rwa [sepsToSpaces_length] at this
      · cases h

theorem expected_within {O : Outside} (hO : O.Sized) {g : Dict} {key name : Str} {fmt : Str → MVal} {tags : List Str} {s : Str} {fs : List Family}
    (h : expectedFamilies O g key name fmt tags s = .ok fs) : ∀ F ∈ fs, F.Within s := by
  unfold expectedFamilies at h
  split at h
  · cases h
  · rename_i l hl
    cases h
    intro F hF
    obtain ⟨f, hf, rfl⟩ := List.mem_map.1 hF
    exact lone_within (expectedFrom_within hO.lower hO.regex hl f (List.mem_filter.1 hf).1)

theorem strip_short (u : Uni) (s : Str) : (u.strip s).length ≤ s.length := by
  unfold Uni.strip
  rw [List.length_reverse]
  refine Nat.le_trans (List.length_dropWhile_le _ _) ?_
  rw [List.length_reverse]
  exact List.length_dropWhile_le _ _

theorem wordOrPair_le {s : Str} {a b : Nat} (h : WordOrPair s a b) : b ≤ s.length := by
  rcases h with h | ⟨_, _, _, _, h, _⟩
  · exact h.le
  · exact h.le

theorem others_within (O : Outside) (hO : O.Sized) : ∀ d ∈ othersDeclared O, d.Within := by
  intro d hd
  simp only [othersDeclared, List.mem_cons, List.not_mem_nil, or_false] at hd
  rcases hd with rfl | rfl | rfl | rfl | rfl | rfl | rfl | rfl | rfl | rfl | rfl | rfl | rfl | rfl | rfl | rfl | rfl | rfl | rfl | rfl | rfl | rfl | rfl | rfl |
    rfl | rfl | rfl | rfl | rfl | rfl | rfl | rfl
  · exact declared_within fun s => container_within hO
  · exact declared_within fun s => flatMap_within fun e _ => forms_within
  · exact declared_within fun s => append_within (plain_within (table_within hO.lower)) forms_within
  · exact declared_within fun s => styled_within hO
  · exact declared_within fun s => str_within hO.lower
  · exact declared_within fun s => plain_within (table_within hO.lower)
  · refine declared_within fun s => append_within (append_within (styled_within hO) (plain_within fun m hm => ?_)) rx_within
    unfold dtsFound at hm
    split at hm
    · exact found_within m hm
    · simp at hm
  · exact declared_within fun s => styled_within hO
  · exact declared_within fun s => channels_within hO
  · exact declared_within fun s => append_within (append_within (flatMap_within fun r _ => rx_within) (str_within hO.lower)) rx_within
  · exact declared_within fun s => rx_within
  · exact declared_within fun s => append_within (flatMap_within fun r _ => rx_within) (str_within hO.lower)
  · exact declared_within fun s => rx_within
  · exact declared_within fun s => rx_within
  · intro g s fs hf
    simp only [dateFamilies] at hf
    split at hf
    · cases hf
    · cases hf
      simp
    · rename_i a b d hd
      cases hf
      intro F hF
      split at hF
      · rw [List.mem_singleton] at hF
        subst hF
        exact lone_within (date_within hd)
      · simp at hF
  · intro g s fs hf
    exact expected_within hO hf
  · exact declared_within fun s => str_within hO.lower
  · exact declared_within fun s => str_within hO.lower
  · exact declared_within fun s => str_within hO.lower
  · intro g s fs hf
    cases hf
    intro F hF
    obtain ⟨m, hm, rfl⟩ := List.mem_map.1 hF
    exact lone_within (wordOrPair_le (C56_whole_words _ _ _ _ _ hm))
  · intro g s fs hf
    cases hf
    intro F hF
    obtain ⟨m, hm, rfl⟩ := List.mem_map.1 hF
    refine lone_within ?_
    obtain ⟨w, hw, hm⟩ := List.mem_filterMap.1 hm
    have hle := ((C22_words_are_runs _ w.1.1 w.1.2 w.2).1 hw).1.le
    rw [hO.lower] at hle
    have : m.2.1 = w.1.2 := by
      repeat' split at hm
      all_goals first | cases hm; rfl | cases hm
    show m.2.1 ≤ _
    rw [this]
    exact Nat.le_trans hle (strip_short _ _)
  · intro g s fs hf
    exact expected_within hO hf
  · refine declared_within fun s => append_within (plain_within (table_within hO.lower)) (plain_within fun m hm => ?_)
    obtain ⟨i, hi, rfl⟩ := List.mem_map.1 hm
    exact findAll_within hi
  · refine declared_within fun s => append_within (append_within (append_within (styled_within hO) (flatMap_within fun w _ => rx_within)) forms_within)
      (plain_within fun m hm => ?_)
    unfold completeFound at hm
    split at hm
    · obtain ⟨h, hh, rfl⟩ := List.mem_map.1 hm
      exact (hits_in (List.mem_filter.1 hh).1).stop
    · simp at hm
  · exact declared_within fun s => plain_within amounts_within
  · exact declared_within fun s => plain_within amounts_within
  · exact declared_within fun s => styled_within hO
  · exact declared_within fun s => append_within rx_within rx_within
  · exact declared_within fun s => rx_within
  · exact declared_within fun s => rx_within
  · exact declared_within fun s => rx_within
  · refine declared_within fun s => append_within rx_within fun F hF => ?_
    obtain ⟨x, hx, rfl⟩ := List.mem_map.1 hF
    refine lone_within ?_
    have hx := (List.mem_filter.1 (List.mem_filter.1 hx).1).1
    exact (((findIter_idnum s _ 0 (by omega) (Or.inl rfl)).1 x.1 x.2).1 hx).1.le

theorem all_within (O : Outside) (hO : O.Sized) : ∀ d ∈ allDeclared O, d.Within := by
  intro d hd
  rcases List.mem_append.1 hd with hd | hd
  · exact episodes_within O.rx hO.lower d hd
  · exact others_within O hO d hd

end Guessit
