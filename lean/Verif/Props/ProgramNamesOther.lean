import Verif.Props.ProgramNames

/-! # What the declarations give: names, privacy, tags, values (the other files) -/

namespace Guessit
open Spec Re

theorem found_name {V : Type} {P : RxPattern V} {s : Str} (hc : P.children = false) : ∀ m ∈ P.found s, m.name = P.name := by
  intro m hm
  obtain ⟨h, _, hm⟩ := List.mem_flatMap.1 hm
  rw [hc] at hm
  simp only [Bool.false_eq_true, if_false, List.mem_singleton] at hm
  subst hm
  rfl

theorem strFound_name {V : Type} {P : StrPattern V} {u : Uni} {s : Str} : ∀ m ∈ P.found u s, m.name = P.name := by
  intro m hm
  obtain ⟨w, _, hm⟩ := List.mem_flatMap.1 (List.mem_filter.1 hm).1
  obtain ⟨i, _, rfl⟩ := List.mem_map.1 hm
  rfl

theorem phrases_name {E : RxEnv} {name : Str} {e : PhraseEntry} {s : Str} : ∀ m ∈ e.phrases E name s, m.name = name := by
  intro m hm
  obtain ⟨t, _, hm⟩ := List.mem_flatMap.1 hm
  split at hm
  · exact found_name rfl m hm
  · simp at hm

theorem words_name {u : Uni} {name : Str} {e : PhraseEntry} {s : Str} : ∀ m ∈ e.words u name s, m.name = name := fun m hm => strFound_name m hm

theorem table_name {E : RxEnv} {name : Str} {table : List PhraseEntry} {s : Str} : ∀ m ∈ tableFound E name table s, m.name = name := by
  intro m hm
  obtain ⟨e, _, hm⟩ := List.mem_flatMap.1 hm
  rcases List.mem_append.1 hm with hm | hm
  · exact words_name m hm
  · exact phrases_name m hm

theorem styled_lawful {O : Outside} {name : Str} {table : List PhraseEntry} {styles : List Style} {g : Dict} {s : Str} {p : Source} (hp : p ∈ sources)
    (hg : passes g p.needs = true) (hok : (styles.all fun st => rxOk p name [] false st && !st.privateParent) = true)
    (hv : ∀ v, p.valid v = true) : ∀ F ∈ styledFamilies O name table styles s, Lawful g s F := by
  intro F hF
  obtain ⟨x, hx, hF⟩ := List.mem_flatMap.1 hF
  have := List.all_eq_true.1 hok x.2 (List.of_mem_zip (a := x.1) (b := x.2) hx).2
  rw [Bool.and_eq_true] at this
  refine plain_lawful hp hg (name := name) (fun m hm => ?_) this.1 (by simpa using this.2) hv F hF
  rcases List.mem_append.1 hm with hm | hm
  · exact phrases_name m hm
  · exact words_name m hm

theorem forms_lawful {E : RxEnv} {valid : Str → RxMatch Str → Bool} {st : Style} {e : FormEntry} {g : Dict} {s : Str} {p : Source} (hp : p ∈ sources)
    (hg : passes g p.needs = true) (hok : rxOk p e.name e.groups true st = true) (hv : ∀ v, p.valid v = true) :
    ∀ F ∈ e.families E valid st s, Lawful g s F := by
  intro F hF
  obtain ⟨t, _, hF⟩ := List.mem_flatMap.1 hF
  split at hF
  · exact rx_lawful hp hg hok hv F hF
  · simp at hF

theorem append_lawful {g : Dict} {s : Str} {l r : List Family} (hl : ∀ F ∈ l, Lawful g s F) (hr : ∀ F ∈ r, Lawful g s F) : ∀ F ∈ l ++ r, Lawful g s F := by
  intro F hF
  rcases List.mem_append.1 hF with h | h
  · exact hl F h
  · exact hr F h

theorem flatMap_lawful {α : Type} {g : Dict} {s : Str} {l : List α} {f : α → List Family} (h : ∀ a ∈ l, ∀ F ∈ f a, Lawful g s F) :
    ∀ F ∈ l.flatMap f, Lawful g s F := by
  intro F hF
  obtain ⟨a, ha, hF⟩ := List.mem_flatMap.1 hF
  exact h a ha F hF

/-- A single match. -/
theorem lone_lawful {g : Dict} {s : Str} {b : Bud} {solver : Option Trade} {p : Source} (hp : p ∈ sources) (hg : passes g p.needs = true)
    (ht : c!"weak-episode" ∉ b.tags) (hn : p.names b.name b.priv = true) (hv : ∀ v, p.valid v = true) : Lawful g s { root := b, solver := solver } := by
  refine ⟨fun x hx _ => ⟨p, hp, hg, Source.gives_of ?_ ?_ (hv _)⟩, fun _ x hx => ?_⟩ <;> simp only [List.mem_singleton] at hx <;> subst hx
  · simp [Bud.alone, Source.tagged, ht]
  · exact hn
  · exact ht

/-- The name of what an extension pattern or a text of container.py finds. -/
theorem container_lawful {O : Outside} {g : Dict} {s : Str} (hg : passes g [[c!"container"]] = true) : ∀ F ∈ containerFamilies O s, Lawful g s F := by
  refine append_lawful (flatMap_lawful fun x hx => ?_) (flatMap_lawful fun x hx => ?_)
  · have hx' : x.2.name = c!"container" ∧ x.1 ∈ [c!"subtitle", c!"info", c!"video", c!"torrent", c!"nzb"] := by
      simp only [extensionsFound, List.mem_append, List.mem_map] at hx
      rcases hx with (((⟨m, hm, rfl⟩ | ⟨m, hm, rfl⟩) | ⟨m, hm, rfl⟩) | ⟨m, hm, rfl⟩) | ⟨m, hm, rfl⟩ <;> exact ⟨found_name rfl m hm, by simp⟩
    refine plain_lawful (source_mem 14) hg (name := c!"container") (by simpa using hx'.1) ?_ rfl fun _ => rfl
    obtain ⟨_, hx⟩ := hx'
    simp only [List.mem_cons, List.not_mem_nil, or_false] at hx
    rcases hx with h | h | h | h | h <;> rw [h] <;> rfl
  · have hx' : x.2.name = c!"container" ∧ x.1 ∈ [c!"subtitle", c!"video", c!"torrent", c!"nzb"] := by
      simp only [namedFound, List.mem_append, List.mem_map] at hx
      rcases hx with ((⟨m, hm, rfl⟩ | ⟨m, hm, rfl⟩) | ⟨m, hm, rfl⟩) | ⟨m, hm, rfl⟩ <;> exact ⟨strFound_name m hm, by simp⟩
    refine plain_lawful (source_mem 14) hg (name := c!"container") (by simpa using hx'.1) ?_ rfl fun _ => rfl
    obtain ⟨_, hx⟩ := hx'
    simp only [List.mem_cons, List.not_mem_nil, or_false] at hx
    rcases hx with h | h | h | h <;> rw [h] <;> rfl

theorem sources_checked : (sourceTable.all fun e => rxOk sources[15] e.name e.groups true
    { tags := sourceTags e, privateParent := true, solver := if e.television then some .tv else none }) = true := by decide +kernel


theorem amounts_name {E : RxEnv} {cap : Str → Str} {fl : Floats} {name : Str} {cls : QClass} {unit : Re} {s : Str} :
    ∀ m ∈ amountsFound E cap fl name cls unit s, m.name = name := by
  intro m hm
  rcases List.mem_append.1 hm with hm | hm
  · exact found_name rfl m hm
  · exact found_name rfl m hm

theorem year_lawful {E : RxEnv} {g : Dict} {s : Str} (hg : passes g [[c!"year"]] = true) :
    ∀ F ∈ (yearPattern E).families MVal.int { solver := some .year } s, Lawful g s F := by
  intro F hF
  simp only [RxPattern.families, RxPattern.foundWithin, List.map_map, List.mem_map, Function.comp] at hF
  obtain ⟨h, hh, rfl⟩ := hF
  have hv := (List.mem_filter.1 hh).2
  refine ⟨fun b hb hl => ⟨sources[26], source_mem 26, hg, ?_⟩, fun _ b hb => ?_⟩ <;>
    simp only [RxPattern.kids, yearPattern, List.filterMap_nil, List.map_nil, List.mem_singleton] at hb <;> subst hb
  · refine Source.gives_of rfl rfl ?_
    simp only [RxPattern.accepts, Bool.and_eq_true] at hv
    have hp : (surrounded s ((yearPattern E).parent s h) && valueIs validYear ((yearPattern E).parent s h)) = true := hv.1
    rw [Bool.and_eq_true] at hp
    show isValidYear (formatted MVal.int (fun _ => pyInt E.u) c!"year" ((s.take h.stop).drop h.start)) = true
    have h2 := hp.2
    unfold valueIs RxPattern.parent yearPattern at h2
    simp only at h2
    unfold formatted
    cases hi : pyInt E.u ((s.take h.stop).drop h.start) with
    | ok v => rw [hi] at h2; simp only [hi]; exact h2
    | error e => rw [hi] at h2; cases h2
  · exact List.not_mem_nil

theorem week_lawful {E : RxEnv} {ws : List Str} {g : Dict} {s : Str} :
    ∀ F ∈ (weekPattern E ws).families MVal.int { solver := some .year } s, Lawful g s F := by
  intro F hF
  have htag := families_tags hF
  simp only [RxPattern.families, RxPattern.foundWithin, List.map_map, List.mem_map, Function.comp] at hF
  obtain ⟨h, hh, rfl⟩ := hF
  have hv := (List.mem_filter.1 hh).2
  refine ⟨fun b hb hl => ⟨sources[27], source_mem 27, rfl, ?_⟩, fun _ b hb => ?_⟩
  · rcases List.mem_cons.1 hb with rfl | hb
    · cases hl
    · obtain ⟨k, hk, rfl⟩ := List.mem_map.1 hb
      have hc : ((weekPattern E ws).kids s h).all ((weekPattern E ws).childValid s) = true := by
        simp only [RxPattern.accepts, Bool.and_eq_true] at hv
        exact hv.2
      have hck : (surrounded s k && valueIs validWeek k) = true := List.all_eq_true.1 hc k hk
      rw [Bool.and_eq_true] at hck
      obtain ⟨x, hx, _, _, hn, hval⟩ := mem_kids_name hk
      have hx' : x = (1, c!"week") := List.mem_singleton.1 hx
      subst hx'
      refine Source.gives_of rfl ?_ ?_
      · show (sources[27]).names (nameOf k.name) _ = true
        rw [hn]
        rfl
      · show isValidWeek (formatted MVal.int (fun _ => pyInt E.u) k.name ((s.take k.stop).drop k.start)) = true
        have h2 := hck.2
        unfold valueIs at h2
        have hval' : k.value = pyInt E.u ((s.take k.stop).drop k.start) := hval
        rw [hval'] at h2
        unfold formatted
        cases hi : pyInt E.u ((s.take k.stop).drop k.start) with
        | ok v => rw [hi] at h2; simp only [hi]; exact h2
        | error e => rw [hi] at h2; cases h2
  · rw [htag b hb]
    exact List.not_mem_nil

theorem channels_lawful {O : Outside} {g : Dict} {s : Str} (hg : passes g [[c!"audio_channels"]] = true) : ∀ F ∈ channelFamilies O s, Lawful g s F := by
  have hw : ∀ {v : Str} {ws : List Str}, ∀ F ∈ (channelWords v ws).families O.rx.u MVal.str {} s, Lawful g s F :=
    str_lawful (source_mem 22) hg rfl rfl fun _ => rfl
  have hp : ∀ {a : Char} {b : List Char} {v : Str} {c : Bool}, ∀ F ∈ (channelPattern O a b v c).families MVal.str {} s, Lawful g s F := by
    intro a b v c
    cases c <;> exact rx_lawful (source_mem 22) hg rfl fun _ => rfl
  have hk : ∀ {a : Char} {b : List Char} {v : Str}, ∀ F ∈ (weakChannel a b v).families MVal.str { tags := [c!"weak-audio_channels"] } s, Lawful g s F :=
    rx_lawful (source_mem 22) hg rfl fun _ => rfl
  exact append_lawful (append_lawful (append_lawful (append_lawful (append_lawful (append_lawful (append_lawful (append_lawful (append_lawful (append_lawful
    (append_lawful hw hp) hw) hp) hk) hw) hp) hp) hk) hw) hp) hk

theorem expected_lawful {O : Outside} {g : Dict} {key name : Str} {fmt : Str → MVal} {tags : List Str} {s : Str} {p : Source} (hp : p ∈ sources)
    (hg : passes g p.needs = true) (ht : c!"weak-episode" ∉ tags) (hn : p.names (some name) false = true) (hv : ∀ v, p.valid v = true) {fs : List Family}
    (h : expectedFamilies O g key name fmt tags s = .ok fs) : ∀ F ∈ fs, Lawful g s F := by
  unfold expectedFamilies at h
  split at h
  · cases h
  · cases h
    intro F hF
    obtain ⟨f, _, rfl⟩ := List.mem_map.1 hF
    exact lone_lawful hp hg ht hn hv

theorem others_lawful (O : Outside) : ∀ d ∈ othersDeclared O, d.Lawful := by
  intro d hd
  simp only [othersDeclared, List.mem_cons, List.not_mem_nil, or_false] at hd
  rcases hd with rfl | rfl | rfl | rfl | rfl | rfl | rfl | rfl | rfl | rfl | rfl | rfl | rfl | rfl | rfl | rfl | rfl | rfl | rfl | rfl | rfl | rfl | rfl | rfl |
    rfl | rfl | rfl | rfl | rfl | rfl | rfl | rfl
  · exact declared_lawful fun g s hg => container_lawful hg
  · exact declared_lawful fun g s hg => flatMap_lawful fun e he => forms_lawful (source_mem 15) hg (List.all_eq_true.1 sources_checked e he) fun _ => rfl
  · exact declared_lawful fun g s hg => append_lawful (plain_lawful (source_mem 16) hg table_name rfl rfl fun _ => rfl) (forms_lawful (source_mem 16) hg rfl fun _ => rfl)
  · exact declared_lawful fun g s hg => styled_lawful (source_mem 17) hg rfl fun _ => rfl
  · exact declared_lawful fun g s hg => str_lawful (source_mem 18) hg rfl rfl fun _ => rfl
  · exact declared_lawful fun g s hg => plain_lawful (source_mem 19) hg table_name rfl rfl fun _ => rfl
  · refine declared_lawful fun g s hg => append_lawful (append_lawful (styled_lawful (source_mem 20) hg rfl fun _ => rfl)
      (plain_lawful (source_mem 20) hg (name := c!"audio_codec") (fun m hm => ?_) rfl rfl fun _ => rfl)) (rx_lawful (source_mem 20) hg rfl fun _ => rfl)
    unfold dtsFound at hm
    split at hm
    · exact found_name rfl m hm
    · simp at hm
  · exact declared_lawful fun g s hg => styled_lawful (source_mem 21) hg rfl fun _ => rfl
  · exact declared_lawful fun g s hg => channels_lawful hg
  · exact declared_lawful fun g s hg => append_lawful (append_lawful (flatMap_lawful fun r _ => rx_lawful (source_mem 23) hg rfl fun _ => rfl)
      (str_lawful (source_mem 23) hg rfl rfl fun _ => rfl)) (rx_lawful (source_mem 23) hg rfl fun _ => rfl)
  · exact declared_lawful fun g s hg => rx_lawful (source_mem 24) hg rfl fun _ => rfl
  · exact declared_lawful fun g s hg => append_lawful (flatMap_lawful fun r _ => rx_lawful (source_mem 25) hg rfl fun _ => rfl)
      (str_lawful (source_mem 25) hg rfl rfl fun _ => rfl)
  · exact declared_lawful fun g s hg => year_lawful hg
  · exact declared_lawful fun g s hg => week_lawful
  · intro g s hg _ fs hf
    simp only [dateFamilies] at hf
    split at hf
    · cases hf
    · cases hf
      simp
    · cases hf
      intro F hF
      split at hF
      · rw [List.mem_singleton] at hF
        subst hF
        exact lone_lawful (source_mem 28) hg List.not_mem_nil rfl fun _ => rfl
      · simp at hF
  · intro g s hg _ fs hf
    exact expected_lawful (source_mem 29) hg (by decide) rfl (fun _ => rfl) hf
  · exact declared_lawful fun g s hg => str_lawful (source_mem 30) hg rfl rfl fun _ => rfl
  · exact declared_lawful fun g s hg => str_lawful (source_mem 30) hg rfl rfl fun _ => rfl
  · exact declared_lawful fun g s hg => str_lawful (source_mem 31) hg rfl rfl fun _ => rfl
  · intro g s hg _ fs hf
    cases hf
    intro F hF
    obtain ⟨m, hm, rfl⟩ := List.mem_map.1 hF
    have ht : c!"weak-episode" ∉ m.tags := by
      obtain ⟨l, _, rfl⟩ := out_good (names := fun _ => True) (fun _ _ => trivial) (fun _ _ => trivial) trivial hm
      unfold toOut
      split
      · show c!"weak-episode" ∉ [c!"weak-language"]; decide
      · exact List.not_mem_nil
    rcases C56_names _ _ _ _ _ _ _ _ _ _ _ hm with hn | ⟨hn, hd⟩
    · refine lone_lawful (source_mem 32) hg ht ?_ fun _ => rfl
      simp only
      rw [hn]
      rfl
    · refine lone_lawful (source_mem 30) ?_ ht ?_ fun _ => rfl
      · show passes g [[c!"subtitle_language"]] = true
        simp [passes, hd]
      · simp only
        rw [hn]
        rfl
  · intro g s hg _ fs hf
    cases hf
    intro F hF
    obtain ⟨m, hm, rfl⟩ := List.mem_map.1 hF
    exact lone_lawful (source_mem 33) hg List.not_mem_nil rfl fun _ => rfl
  · intro g s hg _ fs hf
    exact expected_lawful (source_mem 34) hg (by decide) rfl (fun _ => rfl) hf
  · refine declared_lawful fun g s hg => append_lawful (plain_lawful (source_mem 35) hg table_name rfl rfl fun _ => rfl)
      (plain_lawful (source_mem 35) hg (name := c!"streaming_service") (fun m hm => ?_) rfl rfl fun _ => rfl)
    obtain ⟨i, _, rfl⟩ := List.mem_map.1 hm
    rfl
  · refine declared_lawful fun g s hg => append_lawful (append_lawful (append_lawful (styled_lawful (source_mem 36) hg rfl fun _ => rfl)
      (flatMap_lawful fun w _ => rx_lawful (source_mem 36) hg rfl fun _ => rfl)) (forms_lawful (source_mem 36) hg rfl fun _ => rfl))
      (plain_lawful (source_mem 36) hg (name := c!"other") (fun m hm => ?_) rfl rfl fun _ => rfl)
    unfold completeFound at hm
    split at hm
    · obtain ⟨h, _, rfl⟩ := List.mem_map.1 hm
      rfl
    · simp at hm
  · exact declared_lawful fun g s hg => plain_lawful (source_mem 37) hg amounts_name rfl rfl fun _ => rfl
  · exact declared_lawful fun g s hg => plain_lawful (source_mem 38) hg amounts_name rfl rfl fun _ => rfl
  · exact declared_lawful fun g s hg => styled_lawful (source_mem 39) hg rfl fun _ => rfl
  · exact declared_lawful fun g s hg => append_lawful (rx_lawful (source_mem 40) hg rfl fun _ => rfl) (rx_lawful (source_mem 40) hg rfl fun _ => rfl)
  · exact declared_lawful fun g s hg => rx_lawful (source_mem 41) hg rfl fun _ => rfl
  · exact declared_lawful fun g s hg => rx_lawful (source_mem 42) hg rfl fun _ => rfl
  · exact declared_lawful fun g s hg => rx_lawful (source_mem 43) hg rfl fun _ => rfl
  · refine declared_lawful fun g s hg => append_lawful (rx_lawful (source_mem 44) hg rfl fun _ => rfl) fun F hF => ?_
    obtain ⟨x, _, rfl⟩ := List.mem_map.1 hF
    exact lone_lawful (source_mem 44) hg List.not_mem_nil rfl fun _ => rfl

theorem all_lawful (O : Outside) : ∀ d ∈ allDeclared O, d.Lawful := by
  intro d hd
  rcases List.mem_append.1 hd with hd | hd
  · exact episodes_lawful O.rx d hd
  · exact others_lawful O d hd

end Guessit
