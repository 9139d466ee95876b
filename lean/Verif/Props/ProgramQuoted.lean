import Verif.Props.ProgramValues
import Verif.Props.EngineQuoted
import Verif.Props.Expected

/-! # Texts taken from the name: what the declarations give, and the program -/

namespace Guessit
open Spec Re

/-- Under a free name, the value is a text taken from the name. -/
def Family.Honest (input : Str) (lower : Str → Str) (F : Family) : Prop := ∀ b ∈ F.root :: F.kids, ∀ n ∈ freeNames, b.name = some n →
  Quotes b.fmt ∧ ∀ v, b.val = some v → v.truthy = true → ∃ w, v = .str w ∧ TakenFrom input lower w

/-- A name whose values guessit chooses. -/
def chosen (n : Str) : Bool := !freeNames.contains n

theorem chosen_out {n : Str} (h : chosen n = true) : n ∉ freeNames := by simpa [chosen] using h

section
variable {lower : Str → Str} {s : Str}

theorem rx_honest {V : Type} {P : RxPattern V} {give : V → MVal} {st : Style}
    (h : ∀ n ∈ P.name :: P.groups.map Prod.snd, n ∈ freeNames → Quotes (formatted give P.format n)) : ∀ F ∈ P.families give st s, F.Honest s lower := by
  intro F hF
  simp only [RxPattern.families, List.mem_map] at hF
  obtain ⟨⟨m, ks⟩, hx, rfl⟩ := hF
  simp only [RxPattern.foundWithin, List.mem_map, Prod.mk.injEq] at hx
  obtain ⟨hit, hh, rfl, rfl⟩ := hx
  intro b hb n hn hname
  rcases List.mem_cons.1 hb with rfl | hb
  · have := nameOf_some hname
    subst this
    exact ⟨h _ List.mem_cons_self hn, fun v hv => by cases hv⟩
  · obtain ⟨k, hk, rfl⟩ := List.mem_map.1 hb
    obtain ⟨x, hx, _, _, hkn, _⟩ := mem_kids_name hk
    have := nameOf_some hname
    subst this
    exact ⟨h _ (List.mem_cons_of_mem _ (hkn ▸ List.mem_map_of_mem hx)) hn, fun v hv => by cases hv⟩

theorem rx_chosen {V : Type} {P : RxPattern V} {give : V → MVal} {st : Style} (h : (P.name :: P.groups.map Prod.snd).all chosen = true) :
    ∀ F ∈ P.families give st s, F.Honest s lower :=
  rx_honest fun n hn hv => absurd hv (chosen_out (List.all_eq_true.1 h n hn))

theorem str_honest {V : Type} {P : StrPattern V} {u : Uni} {give : V → MVal} {st : Style} (h : P.name ∈ freeNames → Quotes (formatted give P.format P.name)) :
    ∀ F ∈ P.families u give st s, F.Honest s lower := by
  intro F hF
  obtain ⟨m, hm, rfl⟩ := List.mem_map.1 hF
  intro b hb n hn hname
  rw [List.mem_singleton] at hb
  subst hb
  have := nameOf_some hname
  subst this
  exact ⟨h hn, fun v hv => by cases hv⟩

theorem str_chosen {V : Type} {P : StrPattern V} {u : Uni} {give : V → MVal} {st : Style} (h : chosen P.name = true) :
    ∀ F ∈ P.families u give st s, F.Honest s lower := str_honest fun hv => absurd hv (chosen_out h)

theorem lone_chosen {b : Bud} {solver : Option Trade} {n : Str} (hb : b.name = some n) (h : chosen n = true) :
    Family.Honest s lower { root := b, solver := solver } := by
  intro x hx m hm hname
  rw [List.mem_singleton] at hx
  subst hx
  rw [hb] at hname
  cases hname
  exact absurd hm (chosen_out h)

theorem plain_chosen {V : Type} {found : List (RxMatch V)} {give : V → MVal} {st : Style} {name : Str} (h : ∀ m ∈ found, m.name = name)
    (hq : chosen name = true) : ∀ F ∈ plainFamilies give st found, F.Honest s lower := by
  intro F hF
  obtain ⟨m, hm, rfl⟩ := List.mem_map.1 hF
  intro b hb n hn hname
  rw [List.mem_singleton] at hb
  subst hb
  have := nameOf_some hname
  subst this
  exact absurd hn (h m hm ▸ chosen_out hq)

theorem groups_chosen : ∀ g ∈ chainGroups, chosen g.2 = true := by decide +kernel

theorem chain_chosen {kept : List (List RxHit)} {value : Str → Str → MVal} {name : Str} {tags extra : List Str} (hq : chosen name = true) :
    ∀ F ∈ chainFamilies kept value name tags extra, F.Honest s lower := by
  intro F hF
  simp only [chainFamilies, List.mem_filterMap] at hF
  obtain ⟨hs, hhs, hm⟩ := hF
  split at hm
  · cases hm
  · cases hm
    intro b hb n hn hname
    rcases List.mem_cons.1 hb with rfl | hb
    · have := nameOf_some hname
      subst this
      exact absurd hn (chosen_out hq)
    · obtain ⟨h', hh', hb⟩ := List.mem_flatMap.1 hb
      obtain ⟨x, hx, hl, _, hbn, _⟩ := mem_hitBuds hb
      rw [hbn] at hname
      cases hname
      exact absurd hn (chosen_out (groups_chosen x hx))

theorem append_honest {l r : List Family} (hl : ∀ F ∈ l, F.Honest s lower) (hr : ∀ F ∈ r, F.Honest s lower) : ∀ F ∈ l ++ r, F.Honest s lower := by
  intro F hF
  rcases List.mem_append.1 hF with h | h
  · exact hl F h
  · exact hr F h

theorem flatMap_honest {α : Type} {l : List α} {f : α → List Family} (h : ∀ a ∈ l, ∀ F ∈ f a, F.Honest s lower) : ∀ F ∈ l.flatMap f, F.Honest s lower := by
  intro F hF
  obtain ⟨a, ha, hF⟩ := List.mem_flatMap.1 hF
  exact h a ha F hF

theorem table_chosen {O : Outside} {name : Str} {table : List PhraseEntry} {st : Style} (h : chosen name = true) :
    ∀ F ∈ tableFamilies O name table st s, F.Honest s lower := plain_chosen table_name h

theorem styled_chosen {O : Outside} {name : Str} {table : List PhraseEntry} {styles : List Style} (h : chosen name = true) :
    ∀ F ∈ styledFamilies O name table styles s, F.Honest s lower := by
  refine flatMap_honest fun x hx => plain_chosen (name := name) (fun m hm => ?_) h
  rcases List.mem_append.1 hm with hm | hm
  · exact phrases_name m hm
  · exact words_name m hm

theorem forms_chosen {E : RxEnv} {valid : Str → RxMatch Str → Bool} {st : Style} {e : FormEntry} (h : (e.name :: e.groups.map Prod.snd).all chosen = true) :
    ∀ F ∈ e.families E valid st s, F.Honest s lower := by
  intro F hF
  obtain ⟨t, ht, hF⟩ := List.mem_flatMap.1 hF
  split at hF
  · exact rx_chosen (by simpa [FormEntry.pattern] using h) F hF
  · simp at hF

end

/-! ### Expected titles and groups -/

theorem wordChars_spaces (t : Str) : wordChars (sepsToSpaces t) = wordChars t := by
  rw [sepsToSpaces_eq]
  induction t with
  | nil => rfl
  | cons c t ih =>
    rw [List.map_cons, show wordChars (c :: t) = wordChars [c] ++ wordChars t from wordChars_append [c] t,
      show ∀ x (l : Str), wordChars (x :: l) = wordChars [x] ++ wordChars l from fun x l => wordChars_append [x] l, ih]
    congr 1
    by_cases h : c ∈ seps
    · have hs : ' ' ∈ seps := by decide
      simp [wordChars, h, hs]
    · simp [wordChars, h]

theorem spaces_slice (t : Str) (a b : Nat) : ((sepsToSpaces t).take b).drop a = sepsToSpaces ((t.take b).drop a) := by
  simp only [sepsToSpaces_eq, List.map_drop, List.map_take]

/-- Whatever an expected text finds is, up to separators, a stretch of the name. -/
theorem expectedFrom_slice {u : Uni} {rx : Str → Str → List (Nat × Nat)} : ∀ {l : List Str} {s : Str} {fs : List Found3}, expectedFrom u rx s l = some fs →
    ∀ f ∈ fs, ∀ v, f.value = some v → ∃ a b, wordChars v = wordChars ((s.take b).drop a)
  | [], _, _, h, f, hf => by
    rw [expectedFrom] at h
    cases h
    cases hf
  | e :: l, s, fs, h, f, hf => by
    rw [expectedFrom] at h
    split at h
    · split at h
      · cases h
      · rename_i r hr'
        cases h
        rcases List.mem_append.1 hf with hf | hf
        · obtain ⟨x, hx, rfl⟩ := List.mem_map.1 hf
          exact fun v hv => by cases hv
        · exact expectedFrom_slice hr' f hf
    · dsimp only at h
      split at h
      · rename_i starts r hs hr'
        cases h
        rcases List.mem_append.1 hf with hf | hf
        · obtain ⟨i, hi, rfl⟩ := List.mem_map.1 hf
          intro v hv
          cases hv
          exact ⟨_, _, by rw [spaces_slice, wordChars_spaces]⟩
        · intro v hv
          obtain ⟨a, b, h'⟩ := expectedFrom_slice hr' f hf v hv
          exact ⟨a, b, by rw [h', spaces_slice, wordChars_spaces]⟩
      · cases h

theorem expected_honest {O : Outside} {lower : Str → Str} {g : Dict} {key name : Str} {fmt : Str → MVal} {tags : List Str} {s : Str} (hq : Quotes fmt)
    {fs : List Family} (h : expectedFamilies O g key name fmt tags s = .ok fs) : ∀ F ∈ fs, F.Honest s lower := by
  unfold expectedFamilies at h
  split at h
  · cases h
  · rename_i l hl
    cases h
    intro F hF
    obtain ⟨f, hf, rfl⟩ := List.mem_map.1 hF
    intro b hb n hn hname
    rw [List.mem_singleton] at hb
    subst hb
    refine ⟨hq, fun v hv _ => ?_⟩
    cases hfv : f.value with
    | none => rw [hfv] at hv; cases hv
    | some w =>
      rw [hfv] at hv
      cases hv
      obtain ⟨a, b, hw⟩ := expectedFrom_slice hl f (List.mem_filter.1 hf).1 w hfv
      exact ⟨w, rfl, .slice a b ((WrittenWith.refl w).congr hw)⟩

/-! ### The declarations -/

def Declared.Honest (lower : Str → Str) (d : Declared) : Prop := ∀ (g : Dict) (s : Str), ∀ fs, d.found g s = .ok fs → ∀ F ∈ fs, F.Honest s lower

theorem declared_honest {lower : Str → Str} {needs : List (List Str)} {found : Str → List Family} {wanted : Dict → Bool}
    (h : ∀ s, ∀ F ∈ found s, F.Honest s lower) : (declared needs found wanted).Honest lower := by
  intro g s fs hf
  cases hf
  exact h s

theorem episodes_honest {lower : Str → Str} (E : RxEnv) : ∀ d ∈ episodesDeclared E, d.Honest lower := by
  intro d hd
  simp only [episodesDeclared, List.mem_cons, List.not_mem_nil, or_false] at hd
  rcases hd with rfl | rfl | rfl | rfl | rfl | rfl | rfl | rfl | rfl | rfl | rfl | rfl | rfl | rfl | rfl | rfl | rfl | rfl | rfl | rfl <;>
    refine declared_honest fun s => ?_
  · exact chain_chosen rfl
  · exact chain_chosen rfl
  · exact chain_chosen rfl
  · exact chain_chosen rfl
  · exact flatMap_honest fun w hw => str_chosen rfl
  · exact chain_chosen rfl
  · exact rx_chosen rfl
  · exact rx_chosen rfl
  · exact rx_chosen rfl
  · exact chain_chosen rfl
  · exact chain_chosen rfl
  · exact chain_chosen rfl
  · exact chain_chosen rfl
  · exact chain_chosen rfl
  · exact chain_chosen rfl
  · exact chain_chosen rfl
  · exact chain_chosen rfl
  · exact rx_chosen rfl
  · intro F hF
    obtain ⟨F, hF', rfl⟩ := List.mem_map.1 hF
    have := rx_chosen (lower := lower) rfl F hF'
    intro b hb
    rcases List.mem_cons.1 hb with rfl | hb
    · exact this F.root List.mem_cons_self
    · exact this b (List.mem_cons_of_mem _ hb)
  · exact rx_chosen rfl

def formChosen (e : FormEntry) : Bool := (e.name :: e.groups.map Prod.snd).all chosen
theorem sources_chosen : sourceTable.all formChosen = true := by decide +kernel
theorem hevc_chosen : formChosen hevcEntry = true := by decide +kernel
theorem hdRip_chosen : formChosen hdRipEntry = true := by decide +kernel

theorem container_chosen {O : Outside} {lower : Str → Str} {s : Str} : ∀ F ∈ containerFamilies O s, F.Honest s lower := by
  refine append_honest (flatMap_honest fun x hx => plain_chosen (name := c!"container") (fun m hm => ?_) rfl)
    (flatMap_honest fun x hx => plain_chosen (name := c!"container") (fun m hm => ?_) rfl)
  · rw [List.mem_singleton] at hm
    subst hm
    simp only [extensionsFound, List.mem_append, List.mem_map] at hx
    rcases hx with (((⟨m, hm, rfl⟩ | ⟨m, hm, rfl⟩) | ⟨m, hm, rfl⟩) | ⟨m, hm, rfl⟩) | ⟨m, hm, rfl⟩ <;> exact found_name rfl m hm
  · rw [List.mem_singleton] at hm
    subst hm
    simp only [namedFound, List.mem_append, List.mem_map] at hx
    rcases hx with ((⟨m, hm, rfl⟩ | ⟨m, hm, rfl⟩) | ⟨m, hm, rfl⟩) | ⟨m, hm, rfl⟩ <;> exact strFound_name m hm

theorem channels_chosen {O : Outside} {lower : Str → Str} {s : Str} : ∀ F ∈ channelFamilies O s, F.Honest s lower := by
  refine append_honest (append_honest (append_honest (append_honest (append_honest (append_honest (append_honest (append_honest (append_honest (append_honest
    (append_honest ?_ ?_) ?_) ?_) ?_) ?_) ?_) ?_) ?_) ?_) ?_) ?_
  all_goals first | exact str_chosen rfl | exact rx_chosen rfl

theorem others_honest {lower : Str → Str} (O : Outside) : ∀ d ∈ othersDeclared O, d.Honest lower := by
  intro d hd
  simp only [othersDeclared, List.mem_cons, List.not_mem_nil, or_false] at hd
  rcases hd with rfl | rfl | rfl | rfl | rfl | rfl | rfl | rfl | rfl | rfl | rfl | rfl | rfl | rfl | rfl | rfl | rfl | rfl | rfl | rfl | rfl | rfl | rfl | rfl |
    rfl | rfl | rfl | rfl | rfl | rfl | rfl | rfl
  · exact declared_honest fun s => container_chosen
  · exact declared_honest fun s => flatMap_honest fun e he => forms_chosen (List.all_eq_true.1 sources_chosen e he)
  · exact declared_honest fun s => append_honest (table_chosen rfl) (forms_chosen hevc_chosen)
  · exact declared_honest fun s => styled_chosen rfl
  · exact declared_honest fun s => str_chosen rfl
  · exact declared_honest fun s => table_chosen rfl
  · refine declared_honest fun s => append_honest (append_honest (styled_chosen rfl) (plain_chosen (name := c!"audio_codec") (fun m hm => ?_) rfl))
      (rx_chosen rfl)
    unfold dtsFound at hm
    split at hm
    · exact found_name rfl m hm
    · simp at hm
  · exact declared_honest fun s => styled_chosen rfl
  · exact declared_honest fun s => channels_chosen
  · exact declared_honest fun s => append_honest (append_honest (flatMap_honest fun r _ => rx_chosen rfl) (str_chosen rfl)) (rx_chosen rfl)
  · exact declared_honest fun s => rx_chosen rfl
  · refine declared_honest fun s => append_honest (flatMap_honest fun r _ => rx_honest fun n hn hf => ?_) (str_honest fun _ => ?_)
    · exact fun t => ⟨t, rfl, .refl t⟩
    · exact fun t => ⟨t, rfl, .refl t⟩
  · exact declared_honest fun s => rx_chosen rfl
  · exact declared_honest fun s => rx_chosen rfl
  · intro g s fs hf
    simp only [dateFamilies] at hf
    split at hf
    · cases hf
    · cases hf
      simp
    · cases hf
      intro F hF
      split at hF
      · rw [List.mem_singleton] at hF
        subst hF
        exact lone_chosen rfl rfl
      · simp at hF
  · intro g s fs hf
    exact expected_honest (quotes_title _) hf
  · exact declared_honest fun s => str_chosen rfl
  · exact declared_honest fun s => str_chosen rfl
  · exact declared_honest fun s => str_chosen rfl
  · intro g s fs hf
    cases hf
    intro F hF
    obtain ⟨m, hm, rfl⟩ := List.mem_map.1 hF
    rcases C56_names _ _ _ _ _ _ _ _ _ _ _ hm with hn | ⟨hn, hd⟩
    · exact lone_chosen (congrArg some hn) rfl
    · exact lone_chosen (congrArg some hn) rfl
  · intro g s fs hf
    cases hf
    intro F hF
    obtain ⟨m, hm, rfl⟩ := List.mem_map.1 hF
    exact lone_chosen rfl rfl
  · intro g s fs hf
    exact expected_honest quotes_id hf
  · refine declared_honest fun s => append_honest (table_chosen rfl) (plain_chosen (name := c!"streaming_service") (fun m hm => ?_) rfl)
    obtain ⟨i, _, rfl⟩ := List.mem_map.1 hm
    rfl
  · refine declared_honest fun s => append_honest (append_honest (append_honest (styled_chosen rfl) (flatMap_honest fun w _ => rx_chosen rfl))
      (forms_chosen hdRip_chosen)) (plain_chosen (name := c!"other") (fun m hm => ?_) rfl)
    unfold completeFound at hm
    split at hm
    · obtain ⟨h, _, rfl⟩ := List.mem_map.1 hm
      rfl
    · simp at hm
  · exact declared_honest fun s => plain_chosen amounts_name rfl
  · exact declared_honest fun s => plain_chosen amounts_name rfl
  · exact declared_honest fun s => styled_chosen rfl
  · exact declared_honest fun s => append_honest (rx_chosen rfl) (rx_chosen rfl)
  · exact declared_honest fun s => rx_chosen rfl
  · exact declared_honest fun s => rx_chosen rfl
  · exact declared_honest fun s => rx_chosen rfl
  · refine declared_honest fun s => append_honest (rx_honest fun n hn hf => ?_) fun F hF => ?_
    · exact fun t => ⟨t, rfl, .refl t⟩
    · obtain ⟨x, _, rfl⟩ := List.mem_map.1 hF
      intro b hb n hn hname
      rw [List.mem_singleton] at hb
      subst hb
      exact ⟨quotes_id, fun v hv => by cases hv⟩

theorem all_honest {lower : Str → Str} (O : Outside) : ∀ d ∈ allDeclared O, d.Honest lower := by
  intro d hd
  rcases List.mem_append.1 hd with hd | hd
  · exact episodes_honest O.rx d hd
  · exact others_honest O d hd

/-! ### The program -/

theorem grown_free {O : Outside} {lower : Str → Str} {g : Dict} {s : Str} {gs : List Grown} (h : grownOf O g s = .ok gs) : ∀ m ∈ reportedBy gs, Free s lower m := by
  obtain ⟨fs, rfl, hfs⟩ := grownOf_spec h
  intro m hm
  obtain ⟨G, hG, hm⟩ := List.mem_flatMap.1 hm
  obtain ⟨x, hx, _, i, rfl⟩ := mem_growFrom hG
  obtain ⟨d, hd, _, _, l, hl, hF⟩ := hfs x hx
  have hw := all_honest (lower := lower) O d hd g s l hl x.2 hF
  intro n hn hname
  rcases mem_grow_live hm with ⟨rfl, _⟩ | ⟨b, hb, _, _, i, rfl⟩
  · exact hw _ List.mem_cons_self n hn hname
  · exact hw b (List.mem_cons_of_mem _ hb) n hn hname

theorem begins_plain (g : Dict) (gs : List Grown) (s : Str) : MarksQuote (beginning g gs s) := by
  intro k hk
  rcases List.mem_append.1 hk with hk | hk <;> obtain ⟨p, _, rfl⟩ := List.mem_map.1 hk <;> exact ⟨quotes_id, rfl⟩

/-- C159 for the program: the titles, the release group, the website, the checksum and the identifier are texts taken from the name. -/
theorem C159_program (O : Outside) (base : RuleEnv) (hl : ∀ t, base.uni.lower t = [] ↔ t = []) (g : Dict) (s : Str) (s' : Ms)
    (h : program O base g s = .ok s') : ∀ m ∈ s'.live, ∀ n ∈ freeNames, m.name = some n → ∃ w, m.value s = .str w ∧ TakenFrom s base.uni.lower w := by
  obtain ⟨gs, hg, h⟩ := program_starts h
  exact C159_engine _ (program_natural hl hg) g (beginning g gs s) s' (begins_plain g gs s) (grown_free hg) h

end Guessit
