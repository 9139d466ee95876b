import Verif.Props.ProgramObjects
import Verif.Props.EngineNumbers
import Verif.Props.Numbered
import Verif.Props.Discs
import Verif.Props.Part
import Verif.Spec.Counted

/-! # Numbers: the declarations that give them -/

namespace Guessit
open Spec Re

/-- None of the families has one of the names. -/
def Family.Free (F : Family) : Prop := ∀ b ∈ F.root :: F.kids, ∀ n ∈ countedNames, b.name ≠ some n

/-- A name that is none of them. -/
def freeName (n : Str) : Bool := !countedNames.contains n

theorem free_out {n : Str} (h : freeName n = true) : n ∉ countedNames := by simpa [freeName] using h

section
variable {s : Str}

theorem rx_free {V : Type} {P : RxPattern V} {give : V → MVal} {st : Style} (h : (P.name :: P.groups.map Prod.snd).all freeName = true) :
    ∀ F ∈ P.families give st s, F.Free := by
  intro F hF
  simp only [RxPattern.families, List.mem_map] at hF
  obtain ⟨⟨m, ks⟩, hx, rfl⟩ := hF
  simp only [RxPattern.foundWithin, List.mem_map, Prod.mk.injEq] at hx
  obtain ⟨hit, hh, rfl, rfl⟩ := hx
  intro b hb n hn hname
  rcases List.mem_cons.1 hb with rfl | hb
  · have := nameOf_some hname
    subst this
    exact free_out (List.all_eq_true.1 h _ List.mem_cons_self) hn
  · obtain ⟨k, hk, rfl⟩ := List.mem_map.1 hb
    obtain ⟨x, hx, _, _, hkn, _⟩ := mem_kids_name hk
    have := nameOf_some hname
    subst this
    exact free_out (List.all_eq_true.1 h _ (List.mem_cons_of_mem _ (hkn ▸ List.mem_map_of_mem hx))) hn

theorem str_free {V : Type} {P : StrPattern V} {u : Uni} {give : V → MVal} {st : Style} (h : freeName P.name = true) :
    ∀ F ∈ P.families u give st s, F.Free := by
  intro F hF
  obtain ⟨m, hm, rfl⟩ := List.mem_map.1 hF
  intro b hb n hn hname
  rw [List.mem_singleton] at hb
  subst hb
  have := nameOf_some hname
  subst this
  exact free_out h hn

theorem lone_free {b : Bud} {solver : Option Trade} {n : Str} (hb : b.name = some n) (h : freeName n = true) :
    Family.Free { root := b, solver := solver } := by
  intro x hx m hm hname
  rw [List.mem_singleton] at hx
  subst hx
  rw [hb] at hname
  cases hname
  exact free_out h hm

theorem plain_free {V : Type} {found : List (RxMatch V)} {give : V → MVal} {st : Style} {name : Str} (h : ∀ m ∈ found, m.name = name)
    (hq : freeName name = true) : ∀ F ∈ plainFamilies give st found, F.Free := by
  intro F hF
  obtain ⟨m, hm, rfl⟩ := List.mem_map.1 hF
  intro b hb n hn hname
  rw [List.mem_singleton] at hb
  subst hb
  have := nameOf_some hname
  subst this
  exact absurd hn (h m hm ▸ free_out hq)

theorem groups_freed : ∀ g ∈ chainGroups, freeName g.2 = true := by decide +kernel

theorem chain_free {kept : List (List RxHit)} {value : Str → Str → MVal} {name : Str} {tags extra : List Str} (hq : freeName name = true) :
    ∀ F ∈ chainFamilies kept value name tags extra, F.Free := by
  intro F hF
  simp only [chainFamilies, List.mem_filterMap] at hF
  obtain ⟨hs, hhs, hm⟩ := hF
  split at hm
  · cases hm
  · cases hm
    intro b hb n hn hname
    rcases List.mem_cons.1 hb with rfl | hb
    · have := nameOf_some hname
      subst this
      exact absurd hn (free_out hq)
    · obtain ⟨h', hh', hb⟩ := List.mem_flatMap.1 hb
      obtain ⟨x, hx, hl, _, hbn, _⟩ := mem_hitBuds hb
      rw [hbn] at hname
      cases hname
      exact absurd hn (free_out (groups_freed x hx))

theorem append_free {l r : List Family} (hl : ∀ F ∈ l, F.Free) (hr : ∀ F ∈ r, F.Free) : ∀ F ∈ l ++ r, F.Free := by
  intro F hF
  rcases List.mem_append.1 hF with h | h
  · exact hl F h
  · exact hr F h

theorem flatMap_free {α : Type} {l : List α} {f : α → List Family} (h : ∀ a ∈ l, ∀ F ∈ f a, F.Free) : ∀ F ∈ l.flatMap f, F.Free := by
  intro F hF
  obtain ⟨a, ha, hF⟩ := List.mem_flatMap.1 hF
  exact h a ha F hF

theorem table_free {O : Outside} {name : Str} {table : List PhraseEntry} {st : Style} (h : freeName name = true) :
    ∀ F ∈ tableFamilies O name table st s, F.Free := plain_free table_name h

theorem styled_free {O : Outside} {name : Str} {table : List PhraseEntry} {styles : List Style} (h : freeName name = true) :
    ∀ F ∈ styledFamilies O name table styles s, F.Free := by
  refine flatMap_free fun x hx => plain_free (name := name) (fun m hm => ?_) h
  rcases List.mem_append.1 hm with hm | hm
  · exact phrases_name m hm
  · exact words_name m hm

theorem forms_free {E : RxEnv} {valid : Str → RxMatch Str → Bool} {st : Style} {e : FormEntry} (h : (e.name :: e.groups.map Prod.snd).all freeName = true) :
    ∀ F ∈ e.families E valid st s, F.Free := by
  intro F hF
  obtain ⟨t, ht, hF⟩ := List.mem_flatMap.1 hF
  split at hF
  · exact rx_free (by simpa [FormEntry.pattern] using h) F hF
  · simp at hF

end

def Declared.Free (d : Declared) : Prop := ∀ (g : Dict) (s : Str), ∀ fs, d.found g s = .ok fs → ∀ F ∈ fs, F.Free

theorem declared_free {needs : List (List Str)} {found : Str → List Family} {wanted : Dict → Bool}
    (h : ∀ s, ∀ F ∈ found s, F.Free) : (declared needs found wanted).Free := by
  intro g s fs hf
  cases hf
  exact h s

theorem episodes_free (E : RxEnv) : ∀ d ∈ episodesDeclared E, d.Free := by
  intro d hd
  simp only [episodesDeclared, List.mem_cons, List.not_mem_nil, or_false] at hd
  rcases hd with rfl | rfl | rfl | rfl | rfl | rfl | rfl | rfl | rfl | rfl | rfl | rfl | rfl | rfl | rfl | rfl | rfl | rfl | rfl | rfl <;>
    refine declared_free fun s => ?_
  · exact chain_free rfl
  · exact chain_free rfl
  · exact chain_free rfl
  · exact chain_free rfl
  · exact flatMap_free fun w hw => str_free rfl
  · exact chain_free rfl
  · exact rx_free rfl
  · exact rx_free rfl
  · exact rx_free rfl
  · exact chain_free rfl
  · exact chain_free rfl
  · exact chain_free rfl
  · exact chain_free rfl
  · exact chain_free rfl
  · exact chain_free rfl
  · exact chain_free rfl
  · exact chain_free rfl
  · exact rx_free rfl
  · intro F hF
    obtain ⟨F, hF', rfl⟩ := List.mem_map.1 hF
    have := rx_free rfl F hF'
    intro b hb
    rcases List.mem_cons.1 hb with rfl | hb
    · exact this F.root List.mem_cons_self
    · exact this b (List.mem_cons_of_mem _ hb)
  · exact rx_free rfl

def formFree (e : FormEntry) : Bool := (e.name :: e.groups.map Prod.snd).all freeName
theorem sources_free : sourceTable.all formFree = true := by decide +kernel
theorem hevc_free : formFree hevcEntry = true := by decide +kernel
theorem hdRip_free : formFree hdRipEntry = true := by decide +kernel

theorem container_free {O : Outside} {s : Str} : ∀ F ∈ containerFamilies O s, F.Free := by
  refine append_free (flatMap_free fun x hx => plain_free (name := c!"container") (fun m hm => ?_) rfl)
    (flatMap_free fun x hx => plain_free (name := c!"container") (fun m hm => ?_) rfl)
  · rw [List.mem_singleton] at hm
    subst hm
    simp only [extensionsFound, List.mem_append, List.mem_map] at hx
    rcases hx with (((⟨m, hm, rfl⟩ | ⟨m, hm, rfl⟩) | ⟨m, hm, rfl⟩) | ⟨m, hm, rfl⟩) | ⟨m, hm, rfl⟩ <;> exact found_name rfl m hm
  · rw [List.mem_singleton] at hm
    subst hm
    simp only [namedFound, List.mem_append, List.mem_map] at hx
    rcases hx with ((⟨m, hm, rfl⟩ | ⟨m, hm, rfl⟩) | ⟨m, hm, rfl⟩) | ⟨m, hm, rfl⟩ <;> exact strFound_name m hm

theorem channels_free {O : Outside} {s : Str} : ∀ F ∈ channelFamilies O s, F.Free := by
  refine append_free (append_free (append_free (append_free (append_free (append_free (append_free (append_free (append_free (append_free
    (append_free ?_ ?_) ?_) ?_) ?_) ?_) ?_) ?_) ?_) ?_) ?_) ?_
  all_goals first | exact str_free rfl | exact rx_free rfl

theorem expected_free {O : Outside} {g : Dict} {key name : Str} {fmt : Str → MVal} {tags : List Str} {s : Str} (hq : freeName name = true)
    {fs : List Family} (h : expectedFamilies O g key name fmt tags s = .ok fs) : ∀ F ∈ fs, F.Free := by
  unfold expectedFamilies at h
  split at h
  · cases h
  · cases h
    intro F hF
    obtain ⟨f, _, rfl⟩ := List.mem_map.1 hF
    exact lone_free rfl hq

theorem dates_free {O : Outside} {g : Dict} {s : Str} {fs : List Family} (h : dateFamilies O g s = .ok fs) : ∀ F ∈ fs, F.Free := by
  unfold dateFamilies at h
  split at h
  · cases h
  · cases h
    simp
  · cases h
    intro F hF
    split at hF
    · rw [List.mem_singleton] at hF
      subst hF
      exact lone_free rfl rfl
    · cases hF

theorem countries_free {O : Outside} {g : Dict} {s : Str} : ∀ F ∈ countryFamilies O g s, F.Free := by
  intro F hF
  obtain ⟨_, _, rfl⟩ := List.mem_map.1 hF
  exact lone_free rfl rfl

theorem languages_free {O : Outside} {g : Dict} {s : Str} : ∀ F ∈ languageFamilies O g s, F.Free := by
  intro F hF
  obtain ⟨m, hm, rfl⟩ := List.mem_map.1 hF
  rcases C56_names _ _ _ _ _ _ _ _ _ _ _ hm with hn | ⟨hn, _⟩
  · exact lone_free (n := c!"language") (by simp only [hn]) rfl
  · exact lone_free (n := c!"subtitle_language") (by simp only [hn]) rfl

/-- The declarations of the numbers. -/
def Declared.Numbers (O : Outside) (d : Declared) : Prop :=
  d.found = (fun _ s => .ok ((weekPattern O.rx [c!"week"]).families MVal.int { solver := some .year } s)) ∨
  d.found = (fun _ s => .ok ((cdPattern O.rx).families MVal.int (parentStyle none) s ++ (cdCountPattern O.rx).families MVal.int (parentStyle none) s)) ∨
  d.found = (fun _ s => .ok ((bonusPattern O.rx).families MVal.int (parentStyle (some .bonus)) s)) ∨
  d.found = (fun _ s => .ok ((filmPattern O.rx).families MVal.int (parentStyle none) s)) ∨
  d.found = (fun _ s => .ok ((partPattern O.rx partPrefixes).families MVal.int (parentStyle none) s))

theorem others_free (O : Outside) : ∀ d ∈ othersDeclared O, d.Free ∨ d.Numbers O := by
  intro d hd
  simp only [othersDeclared, List.mem_cons, List.not_mem_nil, or_false] at hd
  rcases hd with rfl | rfl | rfl | rfl | rfl | rfl | rfl | rfl | rfl | rfl | rfl | rfl | rfl | rfl | rfl | rfl | rfl | rfl | rfl | rfl | rfl | rfl | rfl | rfl |
    rfl | rfl | rfl | rfl | rfl | rfl | rfl | rfl
  · refine Or.inl ?_
    exact declared_free fun s => container_free
  · refine Or.inl ?_
    exact declared_free fun s => flatMap_free fun e he => forms_free (List.all_eq_true.1 sources_free e he)
  · refine Or.inl ?_
    exact declared_free fun s => append_free (table_free rfl) (forms_free hevc_free)
  · refine Or.inl ?_
    exact declared_free fun s => styled_free rfl
  · refine Or.inl ?_
    exact declared_free fun s => str_free rfl
  · refine Or.inl ?_
    exact declared_free fun s => table_free rfl
  · refine Or.inl ?_
    refine declared_free fun s => append_free (append_free (styled_free rfl) (plain_free (name := c!"audio_codec") (fun m hm => ?_) rfl))
      (rx_free rfl)
    unfold dtsFound at hm
    split at hm
    · exact found_name rfl m hm
    · simp at hm
  · refine Or.inl ?_
    exact declared_free fun s => styled_free rfl
  · refine Or.inl ?_
    exact declared_free fun s => channels_free
  · refine Or.inl ?_
    exact declared_free fun s => append_free (append_free (flatMap_free fun r _ => rx_free rfl) (str_free rfl)) (rx_free rfl)
  · refine Or.inl ?_
    exact declared_free fun s => rx_free rfl
  · refine Or.inl (declared_free fun s => append_free (flatMap_free fun r _ => rx_free rfl) (str_free rfl))
  · refine Or.inl ?_
    exact declared_free fun s => rx_free rfl
  · exact Or.inr (Or.inl rfl)
  · exact Or.inl fun g s fs h => dates_free h
  · refine Or.inl fun g s fs hf => ?_
    exact expected_free rfl hf
  · refine Or.inl ?_
    exact declared_free fun s => str_free rfl
  · refine Or.inl ?_
    exact declared_free fun s => str_free rfl
  · refine Or.inl ?_
    exact declared_free fun s => str_free rfl
  · refine Or.inl fun g s fs h => ?_
    cases h
    exact languages_free
  · refine Or.inl fun g s fs h => ?_
    cases h
    exact countries_free
  · refine Or.inl fun g s fs hf => ?_
    exact expected_free rfl hf
  · refine Or.inl ?_
    refine declared_free fun s => append_free (table_free rfl) (plain_free (name := c!"streaming_service") (fun m hm => ?_) rfl)
    obtain ⟨i, _, rfl⟩ := List.mem_map.1 hm
    rfl
  · refine Or.inl ?_
    refine declared_free fun s => append_free (append_free (append_free (styled_free rfl) (flatMap_free fun w _ => rx_free rfl))
      (forms_free hdRip_free)) (plain_free (name := c!"other") (fun m hm => ?_) rfl)
    unfold completeFound at hm
    split at hm
    · obtain ⟨h, _, rfl⟩ := List.mem_map.1 hm
      rfl
    · simp at hm
  · exact Or.inl (declared_free fun s => plain_free (name := c!"size") amounts_name rfl)
  · exact Or.inl (declared_free fun s => plain_free (name := c!"audio_bit_rate") amounts_name rfl)
  · refine Or.inl ?_
    exact declared_free fun s => styled_free rfl
  · exact Or.inr (Or.inr (Or.inl rfl))
  · exact Or.inr (Or.inr (Or.inr (Or.inl rfl)))
  · exact Or.inr (Or.inr (Or.inr (Or.inr (Or.inl rfl))))
  · exact Or.inr (Or.inr (Or.inr (Or.inr (Or.inr (rfl)))))
  · refine Or.inl (declared_free fun s => append_free (rx_free rfl) fun F hF => ?_)
    obtain ⟨x, _, rfl⟩ := List.mem_map.1 hF
    exact lone_free rfl rfl

theorem all_free (O : Outside) : ∀ d ∈ allDeclared O, d.Free ∨ d.Numbers O := by
  intro d hd
  rcases List.mem_append.1 hd with hd | hd
  · exact Or.inl (episodes_free O.rx d hd)
  · exact others_free O d hd

end Guessit
