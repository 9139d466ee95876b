import Verif.Props.ProgramValues
import Verif.Props.EngineObjects
import Verif.Props.Language
import Verif.Props.Date

/-! # Values that are objects: what the declarations give, and the program -/

namespace Guessit
open Spec Re

def Bud.Made (N : List Str) (P : Str → MVal → Prop) (b : Bud) : Prop :=
  ∀ n ∈ N, b.name = some n → ∃ c, P n c ∧ ((b.val = none ∧ ∀ t, b.fmt t = c) ∨ (b.val = some c ∧ c.truthy = true))

def Family.Made (N : List Str) (P : Str → MVal → Prop) (F : Family) : Prop := ∀ b ∈ F.root :: F.kids, b.Made N P

/-- None of the families has one of the names. -/
def Family.Avoids (F : Family) : Prop := ∀ b ∈ F.root :: F.kids, ∀ n ∈ objectNames, b.name ≠ some n

theorem Family.Avoids.made {N : List Str} {P : Str → MVal → Prop} (hN : ∀ n ∈ N, n ∈ objectNames) {F : Family} (h : F.Avoids) : F.Made N P :=
  fun b hb n hn hname => absurd hname (h b hb n (hN n hn))

/-- A name whose values guessit chooses. -/
def plainName (n : Str) : Bool := !objectNames.contains n

theorem plain_out {n : Str} (h : plainName n = true) : n ∉ objectNames := by simpa [plainName] using h

section
variable {s : Str}

theorem rx_avoids {V : Type} {P : RxPattern V} {give : V → MVal} {st : Style} (h : (P.name :: P.groups.map Prod.snd).all plainName = true) :
    ∀ F ∈ P.families give st s, F.Avoids := by
  intro F hF
  simp only [RxPattern.families, List.mem_map] at hF
  obtain ⟨⟨m, ks⟩, hx, rfl⟩ := hF
  simp only [RxPattern.foundWithin, List.mem_map, Prod.mk.injEq] at hx
  obtain ⟨hit, hh, rfl, rfl⟩ := hx
  intro b hb n hn hname
  rcases List.mem_cons.1 hb with rfl | hb
  · have := nameOf_some hname
    subst this
    exact plain_out (List.all_eq_true.1 h _ List.mem_cons_self) hn
  · obtain ⟨k, hk, rfl⟩ := List.mem_map.1 hb
    obtain ⟨x, hx, _, _, hkn, _⟩ := mem_kids_name hk
    have := nameOf_some hname
    subst this
    exact plain_out (List.all_eq_true.1 h _ (List.mem_cons_of_mem _ (hkn ▸ List.mem_map_of_mem hx))) hn

theorem str_avoids {V : Type} {P : StrPattern V} {u : Uni} {give : V → MVal} {st : Style} (h : plainName P.name = true) :
    ∀ F ∈ P.families u give st s, F.Avoids := by
  intro F hF
  obtain ⟨m, hm, rfl⟩ := List.mem_map.1 hF
  intro b hb n hn hname
  rw [List.mem_singleton] at hb
  subst hb
  have := nameOf_some hname
  subst this
  exact plain_out h hn

theorem lone_avoids {b : Bud} {solver : Option Trade} {n : Str} (hb : b.name = some n) (h : plainName n = true) :
    Family.Avoids { root := b, solver := solver } := by
  intro x hx m hm hname
  rw [List.mem_singleton] at hx
  subst hx
  rw [hb] at hname
  cases hname
  exact plain_out h hm

theorem plain_avoids {V : Type} {found : List (RxMatch V)} {give : V → MVal} {st : Style} {name : Str} (h : ∀ m ∈ found, m.name = name)
    (hq : plainName name = true) : ∀ F ∈ plainFamilies give st found, F.Avoids := by
  intro F hF
  obtain ⟨m, hm, rfl⟩ := List.mem_map.1 hF
  intro b hb n hn hname
  rw [List.mem_singleton] at hb
  subst hb
  have := nameOf_some hname
  subst this
  exact absurd hn (h m hm ▸ plain_out hq)

theorem groups_plain : ∀ g ∈ chainGroups, plainName g.2 = true := by decide +kernel

theorem chain_avoids {kept : List (List RxHit)} {value : Str → Str → MVal} {name : Str} {tags extra : List Str} (hq : plainName name = true) :
    ∀ F ∈ chainFamilies kept value name tags extra, F.Avoids := by
  intro F hF
  simp only [chainFamilies, List.mem_filterMap] at hF
  obtain ⟨hs, hhs, hm⟩ := hF
  split at hm
  · cases hm
  · cases hm
    intro b hb n hn hname
    rcases List.mem_cons.1 hb with rfl | hb
    · have := nameOf_some hname
      subst this
      exact absurd hn (plain_out hq)
    · obtain ⟨h', hh', hb⟩ := List.mem_flatMap.1 hb
      obtain ⟨x, hx, hl, _, hbn, _⟩ := mem_hitBuds hb
      rw [hbn] at hname
      cases hname
      exact absurd hn (plain_out (groups_plain x hx))

theorem append_avoids {l r : List Family} (hl : ∀ F ∈ l, F.Avoids) (hr : ∀ F ∈ r, F.Avoids) : ∀ F ∈ l ++ r, F.Avoids := by
  intro F hF
  rcases List.mem_append.1 hF with h | h
  · exact hl F h
  · exact hr F h

theorem flatMap_avoids {α : Type} {l : List α} {f : α → List Family} (h : ∀ a ∈ l, ∀ F ∈ f a, F.Avoids) : ∀ F ∈ l.flatMap f, F.Avoids := by
  intro F hF
  obtain ⟨a, ha, hF⟩ := List.mem_flatMap.1 hF
  exact h a ha F hF

theorem table_avoids {O : Outside} {name : Str} {table : List PhraseEntry} {st : Style} (h : plainName name = true) :
    ∀ F ∈ tableFamilies O name table st s, F.Avoids := plain_avoids table_name h

theorem styled_avoids {O : Outside} {name : Str} {table : List PhraseEntry} {styles : List Style} (h : plainName name = true) :
    ∀ F ∈ styledFamilies O name table styles s, F.Avoids := by
  refine flatMap_avoids fun x hx => plain_avoids (name := name) (fun m hm => ?_) h
  rcases List.mem_append.1 hm with hm | hm
  · exact phrases_name m hm
  · exact words_name m hm

theorem forms_avoids {E : RxEnv} {valid : Str → RxMatch Str → Bool} {st : Style} {e : FormEntry} (h : (e.name :: e.groups.map Prod.snd).all plainName = true) :
    ∀ F ∈ e.families E valid st s, F.Avoids := by
  intro F hF
  obtain ⟨t, ht, hF⟩ := List.mem_flatMap.1 hF
  split at hF
  · exact rx_avoids (by simpa [FormEntry.pattern] using h) F hF
  · simp at hF

end

def Declared.Avoids (d : Declared) : Prop := ∀ (g : Dict) (s : Str), ∀ fs, d.found g s = .ok fs → ∀ F ∈ fs, F.Avoids

theorem declared_avoids {needs : List (List Str)} {found : Str → List Family} {wanted : Dict → Bool}
    (h : ∀ s, ∀ F ∈ found s, F.Avoids) : (declared needs found wanted).Avoids := by
  intro g s fs hf
  cases hf
  exact h s

theorem episodes_avoid (E : RxEnv) : ∀ d ∈ episodesDeclared E, d.Avoids := by
  intro d hd
  simp only [episodesDeclared, List.mem_cons, List.not_mem_nil, or_false] at hd
  rcases hd with rfl | rfl | rfl | rfl | rfl | rfl | rfl | rfl | rfl | rfl | rfl | rfl | rfl | rfl | rfl | rfl | rfl | rfl | rfl | rfl <;>
    refine declared_avoids fun s => ?_
  · exact chain_avoids rfl
  · exact chain_avoids rfl
  · exact chain_avoids rfl
  · exact chain_avoids rfl
  · exact flatMap_avoids fun w hw => str_avoids rfl
  · exact chain_avoids rfl
  · exact rx_avoids rfl
  · exact rx_avoids rfl
  · exact rx_avoids rfl
  · exact chain_avoids rfl
  · exact chain_avoids rfl
  · exact chain_avoids rfl
  · exact chain_avoids rfl
  · exact chain_avoids rfl
  · exact chain_avoids rfl
  · exact chain_avoids rfl
  · exact chain_avoids rfl
  · exact rx_avoids rfl
  · intro F hF
    obtain ⟨F, hF', rfl⟩ := List.mem_map.1 hF
    have := rx_avoids rfl F hF'
    intro b hb
    rcases List.mem_cons.1 hb with rfl | hb
    · exact this F.root List.mem_cons_self
    · exact this b (List.mem_cons_of_mem _ hb)
  · exact rx_avoids rfl

def formPlain (e : FormEntry) : Bool := (e.name :: e.groups.map Prod.snd).all plainName
theorem sources_avoids : sourceTable.all formPlain = true := by decide +kernel
theorem hevc_avoids : formPlain hevcEntry = true := by decide +kernel
theorem hdRip_avoids : formPlain hdRipEntry = true := by decide +kernel

theorem container_avoids {O : Outside} {s : Str} : ∀ F ∈ containerFamilies O s, F.Avoids := by
  refine append_avoids (flatMap_avoids fun x hx => plain_avoids (name := c!"container") (fun m hm => ?_) rfl)
    (flatMap_avoids fun x hx => plain_avoids (name := c!"container") (fun m hm => ?_) rfl)
  · rw [List.mem_singleton] at hm
    subst hm
    simp only [extensionsFound, List.mem_append, List.mem_map] at hx
    rcases hx with (((⟨m, hm, rfl⟩ | ⟨m, hm, rfl⟩) | ⟨m, hm, rfl⟩) | ⟨m, hm, rfl⟩) | ⟨m, hm, rfl⟩ <;> exact found_name rfl m hm
  · rw [List.mem_singleton] at hm
    subst hm
    simp only [namedFound, List.mem_append, List.mem_map] at hx
    rcases hx with ((⟨m, hm, rfl⟩ | ⟨m, hm, rfl⟩) | ⟨m, hm, rfl⟩) | ⟨m, hm, rfl⟩ <;> exact strFound_name m hm

theorem channels_avoids {O : Outside} {s : Str} : ∀ F ∈ channelFamilies O s, F.Avoids := by
  refine append_avoids (append_avoids (append_avoids (append_avoids (append_avoids (append_avoids (append_avoids (append_avoids (append_avoids (append_avoids
    (append_avoids ?_ ?_) ?_) ?_) ?_) ?_) ?_) ?_) ?_) ?_) ?_) ?_
  all_goals first | exact str_avoids rfl | exact rx_avoids rfl

theorem expected_avoids {O : Outside} {g : Dict} {key name : Str} {fmt : Str → MVal} {tags : List Str} {s : Str} (hq : plainName name = true)
    {fs : List Family} (h : expectedFamilies O g key name fmt tags s = .ok fs) : ∀ F ∈ fs, F.Avoids := by
  unfold expectedFamilies at h
  split at h
  · cases h
  · cases h
    intro F hF
    obtain ⟨f, _, rfl⟩ := List.mem_map.1 hF
    exact lone_avoids rfl hq

/-- What size.py:27 and bit_rate.py:30 declare. -/
abbrev sizeFamilies (O : Outside) (s : Str) : List Family :=
  plainFamilies (fun q => .obj (O.codes.quantity q)) { tags := [c!"release-group-prefix"] } (sizesFound O.rx O.cap O.fl s)

abbrev bitFamilies (O : Outside) (s : Str) : List Family :=
  plainFamilies (fun q => .obj (O.codes.quantity q)) { tags := [c!"release-group-prefix"], solver := some .bitRate } (bitRatesFound O.rx O.cap O.fl s)

theorem others_avoid (O : Outside) : ∀ d ∈ othersDeclared O, d.Avoids ∨ d.found = dateFamilies O ∨ d.found = (fun g s => .ok (languageFamilies O g s)) ∨
    d.found = (fun g s => .ok (countryFamilies O g s)) ∨ d.found = (fun _ s => .ok (sizeFamilies O s)) ∨ d.found = (fun _ s => .ok (bitFamilies O s)) := by
  intro d hd
  simp only [othersDeclared, List.mem_cons, List.not_mem_nil, or_false] at hd
  rcases hd with rfl | rfl | rfl | rfl | rfl | rfl | rfl | rfl | rfl | rfl | rfl | rfl | rfl | rfl | rfl | rfl | rfl | rfl | rfl | rfl | rfl | rfl | rfl | rfl |
    rfl | rfl | rfl | rfl | rfl | rfl | rfl | rfl
  · refine Or.inl ?_
    exact declared_avoids fun s => container_avoids
  · refine Or.inl ?_
    exact declared_avoids fun s => flatMap_avoids fun e he => forms_avoids (List.all_eq_true.1 sources_avoids e he)
  · refine Or.inl ?_
    exact declared_avoids fun s => append_avoids (table_avoids rfl) (forms_avoids hevc_avoids)
  · refine Or.inl ?_
    exact declared_avoids fun s => styled_avoids rfl
  · refine Or.inl ?_
    exact declared_avoids fun s => str_avoids rfl
  · refine Or.inl ?_
    exact declared_avoids fun s => table_avoids rfl
  · refine Or.inl ?_
    refine declared_avoids fun s => append_avoids (append_avoids (styled_avoids rfl) (plain_avoids (name := c!"audio_codec") (fun m hm => ?_) rfl))
      (rx_avoids rfl)
    unfold dtsFound at hm
    split at hm
    · exact found_name rfl m hm
    · simp at hm
  · refine Or.inl ?_
    exact declared_avoids fun s => styled_avoids rfl
  · refine Or.inl ?_
    exact declared_avoids fun s => channels_avoids
  · refine Or.inl ?_
    exact declared_avoids fun s => append_avoids (append_avoids (flatMap_avoids fun r _ => rx_avoids rfl) (str_avoids rfl)) (rx_avoids rfl)
  · refine Or.inl ?_
    exact declared_avoids fun s => rx_avoids rfl
  · refine Or.inl (declared_avoids fun s => append_avoids (flatMap_avoids fun r _ => rx_avoids rfl) (str_avoids rfl))
  · refine Or.inl ?_
    exact declared_avoids fun s => rx_avoids rfl
  · refine Or.inl ?_
    exact declared_avoids fun s => rx_avoids rfl
  · exact Or.inr (Or.inl rfl)
  · refine Or.inl fun g s fs hf => ?_
    exact expected_avoids rfl hf
  · refine Or.inl ?_
    exact declared_avoids fun s => str_avoids rfl
  · refine Or.inl ?_
    exact declared_avoids fun s => str_avoids rfl
  · refine Or.inl ?_
    exact declared_avoids fun s => str_avoids rfl
  · exact Or.inr (Or.inr (Or.inl rfl))
  · exact Or.inr (Or.inr (Or.inr (Or.inl rfl)))
  · refine Or.inl fun g s fs hf => ?_
    exact expected_avoids rfl hf
  · refine Or.inl ?_
    refine declared_avoids fun s => append_avoids (table_avoids rfl) (plain_avoids (name := c!"streaming_service") (fun m hm => ?_) rfl)
    obtain ⟨i, _, rfl⟩ := List.mem_map.1 hm
    rfl
  · refine Or.inl ?_
    refine declared_avoids fun s => append_avoids (append_avoids (append_avoids (styled_avoids rfl) (flatMap_avoids fun w _ => rx_avoids rfl))
      (forms_avoids hdRip_avoids)) (plain_avoids (name := c!"other") (fun m hm => ?_) rfl)
    unfold completeFound at hm
    split at hm
    · obtain ⟨h, _, rfl⟩ := List.mem_map.1 hm
      rfl
    · simp at hm
  · exact Or.inr (Or.inr (Or.inr (Or.inr (Or.inl rfl))))
  · exact Or.inr (Or.inr (Or.inr (Or.inr (Or.inr rfl))))
  · refine Or.inl ?_
    exact declared_avoids fun s => styled_avoids rfl
  · refine Or.inl ?_
    exact declared_avoids fun s => append_avoids (rx_avoids rfl) (rx_avoids rfl)
  · refine Or.inl ?_
    exact declared_avoids fun s => rx_avoids rfl
  · refine Or.inl ?_
    exact declared_avoids fun s => rx_avoids rfl
  · refine Or.inl ?_
    exact declared_avoids fun s => rx_avoids rfl
  · refine Or.inl (declared_avoids fun s => append_avoids (rx_avoids rfl) fun F hF => ?_)
    obtain ⟨x, _, rfl⟩ := List.mem_map.1 hF
    exact lone_avoids rfl rfl

theorem all_avoid (O : Outside) : ∀ d ∈ allDeclared O, d.Avoids ∨ d.found = dateFamilies O ∨ d.found = (fun g s => .ok (languageFamilies O g s)) ∨
    d.found = (fun g s => .ok (countryFamilies O g s)) ∨ d.found = (fun _ s => .ok (sizeFamilies O s)) ∨ d.found = (fun _ s => .ok (bitFamilies O s)) := by
  intro d hd
  rcases List.mem_append.1 hd with hd | hd
  · exact Or.inl (episodes_avoid O.rx d hd)
  · exact others_avoid O d hd


/-! ### Dates, countries and languages -/

/-- The four of C160. -/
def readNames : List Str := [c!"date", c!"country", c!"language", c!"subtitle_language"]

theorem read_names : ∀ n ∈ readNames, n ∈ objectNames := by decide

theorem textsOption_listed {g : Dict} {key a : Str} (h : a ∈ textsOption g key) : InOption g key a := by
  unfold textsOption at h
  split at h
  · rename_i l hl
    obtain ⟨v, hv, hva⟩ := List.mem_filterMap.1 h
    split at hva
    · cases hva
      exact ⟨l, hl, hv⟩
    · cases hva
  · cases h

theorem single_made {N : List Str} {P : Str → MVal → Prop} {b : Bud} {solver : Option Trade} {n : Str} {c : MVal} (hb : b.name = some n) (hv : b.val = some c)
    (hc : c.truthy = true) (h : P n c) : Family.Made N P { root := b, solver := solver } := by
  intro x hx m hm hname
  rw [List.mem_singleton] at hx
  subst hx
  rw [hb] at hname
  cases hname
  exact ⟨c, h, Or.inr ⟨hv, hc⟩⟩

theorem dates_made {O : Outside} (hu : Sane O.rx.u) {N : List Str} {g : Dict} {s : Str} {fs : List Family} (h : dateFamilies O g s = .ok fs) :
    ∀ F ∈ fs, F.Made N (ObjectOf O g s) := by
  unfold dateFamilies at h
  split at h
  · cases h
  · cases h
    simp
  · rename_i a b D hD
    cases h
    intro F hF
    split at hF
    · rw [List.mem_singleton] at hF
      subst hF
      obtain ⟨h1, h2, h3, h4, compact, t, d, y, h5, h6, h7, h8⟩ := C28_sound _ hu _ _ _ _ _ _ _ hD
      exact single_made rfl rfl rfl (Or.inl ⟨rfl, D, ⟨h1, h2, a, b, h3, h4, compact, t, d, y, h5, h6, h7, h8⟩, rfl⟩)
    · cases hF

theorem countries_made {O : Outside} {N : List Str} {g : Dict} {s : Str} : ∀ F ∈ countryFamilies O g s, F.Made N (ObjectOf O g s) := by
  intro F hF
  obtain ⟨⟨i, j, c⟩, hm, rfl⟩ := List.mem_map.1 hF
  obtain ⟨a, ha, hl⟩ := C49_countries _ _ _ _ _ _ _ _ hm
  refine single_made rfl rfl rfl (Or.inr (Or.inl ⟨rfl, c, ⟨⟨a, textsOption_listed ha, hl⟩, ?_⟩, rfl⟩))
  obtain ⟨⟨⟨a', b'⟩, w⟩, hw, h⟩ := List.mem_filterMap.1 hm
  obtain ⟨h1, rfl⟩ := (C22_words_are_runs _ _ _ _).1 hw
  dsimp only at h
  split at h
  · cases h
  · split at h
    · cases h
    · rename_i c' hc'
      split at h
      · cases h
        exact ⟨_, _, h1, hc'⟩
      · cases h

theorem languages_made {O : Outside} (he : O.langs.fromGuessit [] = none) {N : List Str} {g : Dict} {s : Str} :
    ∀ F ∈ languageFamilies O g s, F.Made N (ObjectOf O g s) := by
  intro F hF
  obtain ⟨m, hm, rfl⟩ := List.mem_map.1 hF
  have hname : m.name = c!"language" ∨ m.name = c!"subtitle_language" := by
    rcases C56_names _ _ _ _ _ _ _ _ _ _ _ hm with hn | ⟨hn, _⟩
    · exact Or.inl hn
    · exact Or.inr hn
  obtain ⟨l, hv, a, ha, hl⟩ := C49_languages _ _ _ _ _ _ _ _ _ _ _ hm
  have hallow : LanguageAllowed O g l := ⟨a, textsOption_listed ha, hl⟩
  rcases hv with ⟨hv, hne⟩ | ⟨rfl, t, hv, ht⟩
  · refine single_made (n := m.name) (c := .obj (O.codes.language l)) rfl (by simp only [hv]) rfl (Or.inr (Or.inr ⟨hname, l, hallow, Or.inl ⟨hne, rfl⟩⟩))
  · have hne : t ≠ [] := fun hh => by rw [hh, he] at ht; cases ht
    refine single_made (n := m.name) (c := .str t) rfl (by simp only [hv]) ?_ (Or.inr (Or.inr ⟨hname, _, hallow, Or.inr ⟨rfl, t, ht, rfl⟩⟩))
    cases t with
    | nil => exact absurd rfl hne
    | cons a b => rfl

theorem read_avoids {P : Str → MVal → Prop} {fs : List Family} {n : Str} (hn : n ∉ readNames) (h : ∀ F ∈ fs, F.kids = [] ∧ F.root.name = some n) :
    ∀ F ∈ fs, F.Made readNames P := by
  intro F hF b hb m hm hname
  obtain ⟨h1, h2⟩ := h F hF
  rw [h1, List.mem_singleton] at hb
  subst hb
  rw [h2] at hname
  cases hname
  exact absurd hm hn

theorem amounts_alone {V : Type} {found : List (RxMatch V)} {give : V → MVal} {st : Style} {name : Str} (hne : name ≠ []) (h : ∀ m ∈ found, m.name = name) :
    ∀ F ∈ plainFamilies give st found, F.kids = [] ∧ F.root.name = some name := by
  intro F hF
  obtain ⟨m, hm, rfl⟩ := List.mem_map.1 hF
  refine ⟨rfl, ?_⟩
  simp only [h m hm, nameOf]
  done

theorem all_made (O : Outside) (hu : Sane O.rx.u) (he : O.langs.fromGuessit [] = none) {d : Declared} (hd : d ∈ allDeclared O) {g : Dict} {s : Str}
    {fs : List Family} (h : d.found g s = .ok fs) : ∀ F ∈ fs, F.Made readNames (ObjectOf O g s) := by
  rcases all_avoid O d hd with ha | hf | hf | hf | hf | hf
  · exact fun F hF => (ha g s fs h F hF).made read_names
  · rw [hf] at h
    exact dates_made hu h
  · rw [hf] at h
    cases h
    exact languages_made he
  · rw [hf] at h
    cases h
    exact countries_made
  · rw [hf] at h
    cases h
    exact read_avoids (n := c!"size") (by decide) (amounts_alone (by decide) amounts_name)
  · rw [hf] at h
    cases h
    exact read_avoids (n := c!"audio_bit_rate") (by decide) (amounts_alone (by decide) amounts_name)

/-! ### The program -/

theorem grown_made {O : Outside} {N : List Str} {P : Str → MVal → Prop} {g : Dict} {s : Str} {gs : List Grown}
    (hall : ∀ d ∈ allDeclared O, ∀ fs, d.found g s = .ok fs → ∀ F ∈ fs, F.Made N P) (h : grownOf O g s = .ok gs) : ∀ m ∈ reportedBy gs, Made N P m := by
  obtain ⟨fs, rfl, hfs⟩ := grownOf_spec h
  intro m hm
  obtain ⟨G, hG, hm⟩ := List.mem_flatMap.1 hm
  obtain ⟨x, hx, _, i, rfl⟩ := mem_growFrom hG
  obtain ⟨d, hd, _, _, l, hl, hF⟩ := hfs x hx
  have hw := hall d hd l hl x.2 hF
  intro n hn hname
  rcases mem_grow_live hm with ⟨rfl, _⟩ | ⟨b, hb, _, _, i, rfl⟩
  · exact hw _ List.mem_cons_self n hn hname
  · exact hw b (List.mem_cons_of_mem _ hb) n hn hname

theorem read_moves {O : Outside} {g : Dict} {s : Str} (he : O.langs.fromGuessit [] = none) : ObjectMoves readNames (ObjectOf O g s) where
  names := read_names
  subtitle := fun _ => ⟨by decide, fun c h => by
    rcases h with ⟨h, _⟩ | ⟨h, _⟩ | ⟨_, h⟩
    · exact absurd h (by decide)
    · exact absurd h (by decide)
    · exact Or.inr (Or.inr ⟨Or.inr rfl, h⟩)⟩
  rate := fun h => absurd h (by decide)
  text := fun n t h => by
    rcases h with ⟨_, D, _, h⟩ | ⟨_, c, _, h⟩ | ⟨_, l, _, ⟨_, h⟩ | ⟨_, t', h', h⟩⟩
    · cases h
    · cases h
    · cases h
    · cases h
      intro hh
      rw [hh, he] at h'
      cases h'

/-- C160 for the program. -/
theorem C160_program (O : Outside) (hu : Sane O.rx.u) (he : O.langs.fromGuessit [] = none) (base : RuleEnv) (hl : ∀ t, base.uni.lower t = [] ↔ t = [])
    (g : Dict) (s : Str) (s' : Ms) (h : program O base g s = .ok s') : AllMeant readNames (ObjectOf O g s) s base.uni.lower s'.live := by
  obtain ⟨gs, hg, h⟩ := program_starts h
  exact C160_engine _ (program_natural hl hg) (read_moves he) g (beginning g gs s) s'
    (fun p hp => ((marksOf_marked (by decide) (by decide) rfl : Marked (beginning g gs s)).wf p hp).2)
    (grown_made (fun d hd fs h => all_made O hu he hd h) hg) h

end Guessit
