import Verif.Props.ProgramObjects
import Verif.Props.EngineNumbers
import Verif.Spec.Versions

/-! # Versions and counts: the declarations that cannot give them -/

namespace Guessit
open Spec Re

/-- The names. -/
def tallyNames : List Str := [c!"version", c!"count", c!"episode_count", c!"season_count", c!"season", c!"year"]

/-- None of the families has one of the names. -/
def Family.Clear (F : Family) : Prop := ∀ b ∈ F.root :: F.kids, ∀ n ∈ tallyNames, b.name ≠ some n

/-- A name that is none of them. -/
def clearName (n : Str) : Bool := !tallyNames.contains n

theorem clear_out {n : Str} (h : clearName n = true) : n ∉ tallyNames := by simpa [clearName] using h

section
variable {s : Str}

theorem rx_cleared {V : Type} {P : RxPattern V} {give : V → MVal} {st : Style} (h : (P.name :: P.groups.map Prod.snd).all clearName = true) :
    ∀ F ∈ P.families give st s, F.Clear := by
  intro F hF
  simp only [RxPattern.families, List.mem_map] at hF
  obtain ⟨⟨m, ks⟩, hx, rfl⟩ := hF
  simp only [RxPattern.foundWithin, List.mem_map, Prod.mk.injEq] at hx
  obtain ⟨hit, hh, rfl, rfl⟩ := hx
  intro b hb n hn hname
  rcases List.mem_cons.1 hb with rfl | hb
  · have := nameOf_some hname
    subst this
    exact clear_out (List.all_eq_true.1 h _ List.mem_cons_self) hn
  · obtain ⟨k, hk, rfl⟩ := List.mem_map.1 hb
    obtain ⟨x, hx, _, _, hkn, _⟩ := mem_kids_name hk
    have := nameOf_some hname
    subst this
    exact clear_out (List.all_eq_true.1 h _ (List.mem_cons_of_mem _ (hkn ▸ List.mem_map_of_mem hx))) hn

theorem str_cleared {V : Type} {P : StrPattern V} {u : Uni} {give : V → MVal} {st : Style} (h : clearName P.name = true) :
    ∀ F ∈ P.families u give st s, F.Clear := by
  intro F hF
  obtain ⟨m, hm, rfl⟩ := List.mem_map.1 hF
  intro b hb n hn hname
  rw [List.mem_singleton] at hb
  subst hb
  have := nameOf_some hname
  subst this
  exact clear_out h hn

theorem lone_cleared {b : Bud} {solver : Option Trade} {n : Str} (hb : b.name = some n) (h : clearName n = true) :
    Family.Clear { root := b, solver := solver } := by
  intro x hx m hm hname
  rw [List.mem_singleton] at hx
  subst hx
  rw [hb] at hname
  cases hname
  exact clear_out h hm

theorem plain_cleared {V : Type} {found : List (RxMatch V)} {give : V → MVal} {st : Style} {name : Str} (h : ∀ m ∈ found, m.name = name)
    (hq : clearName name = true) : ∀ F ∈ plainFamilies give st found, F.Clear := by
  intro F hF
  obtain ⟨m, hm, rfl⟩ := List.mem_map.1 hF
  intro b hb n hn hname
  rw [List.mem_singleton] at hb
  subst hb
  have := nameOf_some hname
  subst this
  exact absurd hn (h m hm ▸ clear_out hq)

theorem append_cleared {l r : List Family} (hl : ∀ F ∈ l, F.Clear) (hr : ∀ F ∈ r, F.Clear) : ∀ F ∈ l ++ r, F.Clear := by
  intro F hF
  rcases List.mem_append.1 hF with h | h
  · exact hl F h
  · exact hr F h

theorem flatMap_cleared {α : Type} {l : List α} {f : α → List Family} (h : ∀ a ∈ l, ∀ F ∈ f a, F.Clear) : ∀ F ∈ l.flatMap f, F.Clear := by
  intro F hF
  obtain ⟨a, ha, hF⟩ := List.mem_flatMap.1 hF
  exact h a ha F hF

theorem table_cleared {O : Outside} {name : Str} {table : List PhraseEntry} {st : Style} (h : clearName name = true) :
    ∀ F ∈ tableFamilies O name table st s, F.Clear := plain_cleared table_name h

theorem styled_cleared {O : Outside} {name : Str} {table : List PhraseEntry} {styles : List Style} (h : clearName name = true) :
    ∀ F ∈ styledFamilies O name table styles s, F.Clear := by
  refine flatMap_cleared fun x hx => plain_cleared (name := name) (fun m hm => ?_) h
  rcases List.mem_append.1 hm with hm | hm
  · exact phrases_name m hm
  · exact words_name m hm

theorem forms_cleared {E : RxEnv} {valid : Str → RxMatch Str → Bool} {st : Style} {e : FormEntry} (h : (e.name :: e.groups.map Prod.snd).all clearName = true) :
    ∀ F ∈ e.families E valid st s, F.Clear := by
  intro F hF
  obtain ⟨t, ht, hF⟩ := List.mem_flatMap.1 hF
  split at hF
  · exact rx_cleared (by simpa [FormEntry.pattern] using h) F hF
  · simp at hF

end

def Declared.Clear (d : Declared) : Prop := ∀ (g : Dict) (s : Str), ∀ fs, d.found g s = .ok fs → ∀ F ∈ fs, F.Clear

theorem declared_cleared {needs : List (List Str)} {found : Str → List Family} {wanted : Dict → Bool}
    (h : ∀ s, ∀ F ∈ found s, F.Clear) : (declared needs found wanted).Clear := by
  intro g s fs hf
  cases hf
  exact h s

def formClear (e : FormEntry) : Bool := (e.name :: e.groups.map Prod.snd).all clearName
theorem sources_cleared : sourceTable.all formClear = true := by decide +kernel
theorem hevc_cleared : formClear hevcEntry = true := by decide +kernel
theorem hdRip_cleared : formClear hdRipEntry = true := by decide +kernel

theorem container_cleared {O : Outside} {s : Str} : ∀ F ∈ containerFamilies O s, F.Clear := by
  refine append_cleared (flatMap_cleared fun x hx => plain_cleared (name := c!"container") (fun m hm => ?_) rfl)
    (flatMap_cleared fun x hx => plain_cleared (name := c!"container") (fun m hm => ?_) rfl)
  · rw [List.mem_singleton] at hm
    subst hm
    simp only [extensionsFound, List.mem_append, List.mem_map] at hx
    rcases hx with (((⟨m, hm, rfl⟩ | ⟨m, hm, rfl⟩) | ⟨m, hm, rfl⟩) | ⟨m, hm, rfl⟩) | ⟨m, hm, rfl⟩ <;> exact found_name rfl m hm
  · rw [List.mem_singleton] at hm
    subst hm
    simp only [namedFound, List.mem_append, List.mem_map] at hx
    rcases hx with ((⟨m, hm, rfl⟩ | ⟨m, hm, rfl⟩) | ⟨m, hm, rfl⟩) | ⟨m, hm, rfl⟩ <;> exact strFound_name m hm

theorem channels_cleared {O : Outside} {s : Str} : ∀ F ∈ channelFamilies O s, F.Clear := by
  refine append_cleared (append_cleared (append_cleared (append_cleared (append_cleared (append_cleared (append_cleared (append_cleared (append_cleared (append_cleared
    (append_cleared ?_ ?_) ?_) ?_) ?_) ?_) ?_) ?_) ?_) ?_) ?_) ?_
  all_goals first | exact str_cleared rfl | exact rx_cleared rfl

theorem expected_cleared {O : Outside} {g : Dict} {key name : Str} {fmt : Str → MVal} {tags : List Str} {s : Str} (hq : clearName name = true)
    {fs : List Family} (h : expectedFamilies O g key name fmt tags s = .ok fs) : ∀ F ∈ fs, F.Clear := by
  unfold expectedFamilies at h
  split at h
  · cases h
  · cases h
    intro F hF
    obtain ⟨f, _, rfl⟩ := List.mem_map.1 hF
    exact lone_cleared rfl hq

theorem dates_cleared {O : Outside} {g : Dict} {s : Str} {fs : List Family} (h : dateFamilies O g s = .ok fs) : ∀ F ∈ fs, F.Clear := by
  unfold dateFamilies at h
  split at h
  · cases h
  · cases h
    simp
  · cases h
    intro F hF
    split at hF
    · rw [List.mem_singleton] at hF
      subst hF
      exact lone_cleared rfl rfl
    · cases hF

theorem countries_cleared {O : Outside} {g : Dict} {s : Str} : ∀ F ∈ countryFamilies O g s, F.Clear := by
  intro F hF
  obtain ⟨_, _, rfl⟩ := List.mem_map.1 hF
  exact lone_cleared rfl rfl

theorem languages_cleared {O : Outside} {g : Dict} {s : Str} : ∀ F ∈ languageFamilies O g s, F.Clear := by
  intro F hF
  obtain ⟨m, hm, rfl⟩ := List.mem_map.1 hF
  rcases C56_names _ _ _ _ _ _ _ _ _ _ _ hm with hn | ⟨hn, _⟩
  · exact lone_cleared (n := c!"language") (by simp only [hn]) rfl
  · exact lone_cleared (n := c!"subtitle_language") (by simp only [hn]) rfl

/-- The declaration of years. -/
def yearDeclared (O : Outside) : Declared := declared [[c!"year"]] ((yearPattern O.rx).families MVal.int { solver := some .year })

theorem others_cleared (O : Outside) : ∀ d ∈ othersDeclared O, d.Clear ∨ d = yearDeclared O := by
  intro d hd
  simp only [othersDeclared, List.mem_cons, List.not_mem_nil, or_false] at hd
  rcases hd with rfl | rfl | rfl | rfl | rfl | rfl | rfl | rfl | rfl | rfl | rfl | rfl | rfl | rfl | rfl | rfl | rfl | rfl | rfl | rfl | rfl | rfl | rfl | rfl |
    rfl | rfl | rfl | rfl | rfl | rfl | rfl | rfl
  · refine Or.inl ?_
    exact declared_cleared fun s => container_cleared
  · refine Or.inl ?_
    exact declared_cleared fun s => flatMap_cleared fun e he => forms_cleared (List.all_eq_true.1 sources_cleared e he)
  · refine Or.inl ?_
    exact declared_cleared fun s => append_cleared (table_cleared rfl) (forms_cleared hevc_cleared)
  · refine Or.inl ?_
    exact declared_cleared fun s => styled_cleared rfl
  · refine Or.inl ?_
    exact declared_cleared fun s => str_cleared rfl
  · refine Or.inl ?_
    exact declared_cleared fun s => table_cleared rfl
  · refine Or.inl ?_
    refine declared_cleared fun s => append_cleared (append_cleared (styled_cleared rfl) (plain_cleared (name := c!"audio_codec") (fun m hm => ?_) rfl))
      (rx_cleared rfl)
    unfold dtsFound at hm
    split at hm
    · exact found_name rfl m hm
    · simp at hm
  · refine Or.inl ?_
    exact declared_cleared fun s => styled_cleared rfl
  · refine Or.inl ?_
    exact declared_cleared fun s => channels_cleared
  · refine Or.inl ?_
    exact declared_cleared fun s => append_cleared (append_cleared (flatMap_cleared fun r _ => rx_cleared rfl) (str_cleared rfl)) (rx_cleared rfl)
  · refine Or.inl ?_
    exact declared_cleared fun s => rx_cleared rfl
  · refine Or.inl ?_
    refine (declared_cleared fun s => append_cleared (flatMap_cleared fun r _ => rx_cleared rfl) (str_cleared rfl))
  · exact Or.inr rfl
  · refine Or.inl ?_
    exact declared_cleared fun s => rx_cleared rfl
  · refine Or.inl ?_
    exact fun g s fs h => dates_cleared h
  · refine Or.inl ?_
    refine fun g s fs hf => ?_
    exact expected_cleared rfl hf
  · refine Or.inl ?_
    exact declared_cleared fun s => str_cleared rfl
  · refine Or.inl ?_
    exact declared_cleared fun s => str_cleared rfl
  · refine Or.inl ?_
    exact declared_cleared fun s => str_cleared rfl
  · refine Or.inl ?_
    refine fun g s fs h => ?_
    cases h
    exact languages_cleared
  · refine Or.inl ?_
    refine fun g s fs h => ?_
    cases h
    exact countries_cleared
  · refine Or.inl ?_
    refine fun g s fs hf => ?_
    exact expected_cleared rfl hf
  · refine Or.inl ?_
    refine declared_cleared fun s => append_cleared (table_cleared rfl) (plain_cleared (name := c!"streaming_service") (fun m hm => ?_) rfl)
    obtain ⟨i, _, rfl⟩ := List.mem_map.1 hm
    rfl
  · refine Or.inl ?_
    refine declared_cleared fun s => append_cleared (append_cleared (append_cleared (styled_cleared rfl) (flatMap_cleared fun w _ => rx_cleared rfl))
      (forms_cleared hdRip_cleared)) (plain_cleared (name := c!"other") (fun m hm => ?_) rfl)
    unfold completeFound at hm
    split at hm
    · obtain ⟨h, _, rfl⟩ := List.mem_map.1 hm
      rfl
    · simp at hm
  · refine Or.inl ?_
    exact (declared_cleared fun s => plain_cleared (name := c!"size") amounts_name rfl)
  · refine Or.inl ?_
    exact (declared_cleared fun s => plain_cleared (name := c!"audio_bit_rate") amounts_name rfl)
  · refine Or.inl ?_
    exact declared_cleared fun s => styled_cleared rfl
  · refine Or.inl ?_
    exact declared_cleared fun s => append_cleared (rx_cleared rfl) (rx_cleared rfl)
  · refine Or.inl ?_
    exact declared_cleared fun s => rx_cleared rfl
  · refine Or.inl ?_
    exact declared_cleared fun s => rx_cleared rfl
  · refine Or.inl ?_
    exact declared_cleared fun s => rx_cleared rfl
  · refine Or.inl ?_
    refine (declared_cleared fun s => append_cleared (rx_cleared rfl) fun F hF => ?_)
    obtain ⟨x, _, rfl⟩ := List.mem_map.1 hF
    exact lone_cleared rfl rfl

theorem all_cleared (O : Outside) : ∀ d ∈ allDeclared O, d.Clear ∨ d = yearDeclared O ∨ d ∈ episodesDeclared O.rx := by
  intro d hd
  rcases List.mem_append.1 hd with hd | hd
  · exact Or.inr (Or.inr hd)
  · exact (others_cleared O d hd).imp_right Or.inl

end Guessit
