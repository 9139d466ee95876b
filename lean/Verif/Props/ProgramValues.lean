import Verif.Props.ProgramInside
import Verif.Props.EngineValues

/-! # What the declarations give: the words of a property -/

namespace Guessit
open Spec Re

/-- Under a name with words, the value is made of them. -/
def Bud.Worded (codes : List Str → Nat) (b : Bud) : Prop :=
  ∀ n ∈ vocabNames, b.name = some n → b.val = none ∧ ∃ c, ValueIn codes (vocab n) c ∧ ∀ t, b.fmt t = c

def Family.Worded (codes : List Str → Nat) (F : Family) : Prop := ∀ b ∈ F.root :: F.kids, b.Worded codes

/-- A text that is a word of the name, unless the name has none. -/
def wordOk (n w : Str) : Bool := !vocabNames.contains n || (vocab n).contains w

/-- A name without words. -/
def quiet (n : Str) : Bool := !vocabNames.contains n

theorem nameOf_some {n m : Str} (h : nameOf n = some m) : m = n := by
  cases n with
  | nil => cases h
  | cons a b => cases h; rfl

theorem word_in {codes : List Str → Nat} {n w : Str} (hn : n ∈ vocabNames) (h : wordOk n w = true) : ValueIn codes (vocab n) (.str w) := by
  simp only [wordOk, Bool.or_eq_true, Bool.not_eq_true', List.contains_eq_mem, decide_eq_true_eq, decide_eq_false_iff_not] at h
  exact Or.inl ⟨w, h.resolve_left fun hh => hh hn, rfl⟩

theorem quiet_out {n : Str} (h : quiet n = true) : n ∉ vocabNames := by
  simpa [quiet] using h

/-- A pattern: for each of its names a word, whatever the text. -/
theorem rx_worded {codes : List Str → Nat} {V : Type} {P : RxPattern V} {give : V → MVal} {st : Style} {s : Str}
    (h0 : P.name ∈ vocabNames → ∃ w, wordOk P.name w = true ∧ ∀ t, formatted give P.format P.name t = .str w)
    (h : ∀ g ∈ P.groups, g.1 ∈ P.re.groupNos → g.2 ∈ vocabNames → ∃ w, wordOk g.2 w = true ∧ ∀ t, formatted give P.format g.2 t = .str w) :
    ∀ F ∈ P.families give st s, F.Worded codes := by
  intro F hF
  simp only [RxPattern.families, List.mem_map] at hF
  obtain ⟨⟨m, ks⟩, hx, rfl⟩ := hF
  simp only [RxPattern.foundWithin, List.mem_map, Prod.mk.injEq] at hx
  obtain ⟨hit, hh, rfl, rfl⟩ := hx
  intro b hb n hn hname
  rcases List.mem_cons.1 hb with rfl | hb
  · have := nameOf_some hname
    subst this
    obtain ⟨w, hw, hf⟩ := h0 hn
    exact ⟨rfl, _, word_in hn hw, hf⟩
  · obtain ⟨k, hk, rfl⟩ := List.mem_map.1 hb
    obtain ⟨x, hx, hl, _, hkn, _⟩ := mem_kids_name hk
    have := nameOf_some hname
    subst this
    have hn' : k.name ∈ vocabNames := hn
    rw [hkn] at hn'
    obtain ⟨w, hw, hf⟩ := h x hx ((hits_in (List.mem_filter.1 hh).1).lookup hl).1 hn'
    rw [← hkn] at hw hf
    exact ⟨rfl, _, word_in hn hw, hf⟩

/-- A pattern none of whose names has words. -/
theorem rx_quiet {codes : List Str → Nat} {V : Type} {P : RxPattern V} {give : V → MVal} {st : Style} {s : Str}
    (h : (P.name :: P.groups.map Prod.snd).all quiet = true) : ∀ F ∈ P.families give st s, F.Worded codes :=
  rx_worded (fun hv => absurd hv (quiet_out (List.all_eq_true.1 h _ List.mem_cons_self)))
    fun x hx _ hv => absurd hv (quiet_out (List.all_eq_true.1 h _ (List.mem_cons_of_mem _ (List.mem_map_of_mem hx))))

/-- A pattern with one word. -/
theorem rx_word {codes : List Str → Nat} {P : RxPattern Str} {st : Style} {s : Str} (w : Str)
    (h : (P.name :: P.groups.map Prod.snd).all (wordOk · w) = true) (hf : ∀ n t, P.format n t = .ok w) : ∀ F ∈ P.families MVal.str st s, F.Worded codes :=
  rx_worded (fun _ => ⟨w, List.all_eq_true.1 h _ List.mem_cons_self, fun t => by rw [formatted, hf]⟩)
    fun _ hx _ _ => ⟨w, List.all_eq_true.1 h _ (List.mem_cons_of_mem _ (List.mem_map_of_mem hx)), fun t => by rw [formatted, hf]⟩

theorem str_worded {codes : List Str → Nat} {V : Type} {P : StrPattern V} {u : Uni} {give : V → MVal} {st : Style} {s : Str}
    (h : P.name ∈ vocabNames → ∃ w, wordOk P.name w = true ∧ ∀ t, formatted give P.format P.name t = .str w) :
    ∀ F ∈ P.families u give st s, F.Worded codes := by
  intro F hF
  obtain ⟨m, hm, rfl⟩ := List.mem_map.1 hF
  intro b hb n hn hname
  rw [List.mem_singleton] at hb
  subst hb
  have := nameOf_some hname
  subst this
  obtain ⟨w, hw, hf⟩ := h hn
  exact ⟨rfl, _, word_in hn hw, hf⟩

theorem str_quiet {codes : List Str → Nat} {V : Type} {P : StrPattern V} {u : Uni} {give : V → MVal} {st : Style} {s : Str} (h : quiet P.name = true) :
    ∀ F ∈ P.families u give st s, F.Worded codes := str_worded fun hv => absurd hv (quiet_out h)

theorem str_word {codes : List Str → Nat} {P : StrPattern Str} {u : Uni} {st : Style} {s : Str} (w : Str) (h : wordOk P.name w = true)
    (hf : ∀ n t, P.format n t = .ok w) : ∀ F ∈ P.families u MVal.str st s, F.Worded codes :=
  str_worded fun _ => ⟨w, h, fun t => by rw [formatted, hf]⟩

theorem plain_worded {codes : List Str → Nat} {V : Type} {found : List (RxMatch V)} {give : V → MVal} {st : Style}
    (h : ∀ m ∈ found, m.name ∈ vocabNames → ∃ v, m.value = .ok v ∧ ValueIn codes (vocab m.name) (give v)) :
    ∀ F ∈ plainFamilies give st found, F.Worded codes := by
  intro F hF
  obtain ⟨m, hm, rfl⟩ := List.mem_map.1 hF
  intro b hb n hn hname
  rw [List.mem_singleton] at hb
  subst hb
  have := nameOf_some hname
  subst this
  obtain ⟨v, hv, hc⟩ := h m hm hn
  exact ⟨rfl, _, hc, fun t => by simp only [hv]⟩

theorem plain_quiet {codes : List Str → Nat} {V : Type} {found : List (RxMatch V)} {give : V → MVal} {st : Style} {name : Str}
    (h : ∀ m ∈ found, m.name = name) (hq : quiet name = true) : ∀ F ∈ plainFamilies give st found, F.Worded codes :=
  plain_worded fun m hm hv => absurd hv (h m hm ▸ quiet_out hq)

/-- A chain: of its groups only `other` has words, and it is `Extras`. -/
theorem groups_quiet : ∀ g ∈ chainGroups, g.2 ∈ vocabNames → g.1 = 7 := by decide +kernel

theorem chain_worded {codes : List Str → Nat} {kept : List (List RxHit)} {value : Str → Str → MVal} {name : Str} {tags extra : List Str} (hq : quiet name = true)
    (hk : (∀ t, value c!"other" t = .str c!"Extras") ∨ ∃ s ns, (∀ hs ∈ kept, ∀ h ∈ hs, HitIn s ns h) ∧ 7 ∉ ns) :
    ∀ F ∈ chainFamilies kept value name tags extra, F.Worded codes := by
  intro F hF
  simp only [chainFamilies, List.mem_filterMap] at hF
  obtain ⟨hs, hhs, hm⟩ := hF
  split at hm
  · cases hm
  · rename_i h t
    cases hm
    intro b hb n hn hname
    rcases List.mem_cons.1 hb with rfl | hb
    · have := nameOf_some hname
      subst this
      exact absurd hn (quiet_out hq)
    · obtain ⟨h', hh', hb⟩ := List.mem_flatMap.1 hb
      obtain ⟨x, hx, hl, _, hbn, _, _, hv, hf⟩ := mem_hitBuds hb
      rw [hbn] at hname
      cases hname
      have h7 := groups_quiet x hx hn
      rcases hk with hk | ⟨s, ns, hk, hno⟩
      · have hx2 : x.2 = c!"other" := by
          have : ∀ g ∈ chainGroups, g.1 = 7 → g.2 = c!"other" := by decide
          exact this x hx h7
        refine ⟨hv, .str c!"Extras", ?_, fun t => ?_⟩
        · rw [hx2]
          exact Or.inl ⟨c!"Extras", by decide +kernel, rfl⟩
        · rw [hf, hx2, hk]
      · exact absurd ((hk _ hhs h' hh').lookup hl).1 (by rw [h7]; exact hno)

theorem append_worded {codes : List Str → Nat} {l r : List Family} (hl : ∀ F ∈ l, F.Worded codes) (hr : ∀ F ∈ r, F.Worded codes) :
    ∀ F ∈ l ++ r, F.Worded codes := by
  intro F hF
  rcases List.mem_append.1 hF with h | h
  · exact hl F h
  · exact hr F h

theorem flatMap_worded {codes : List Str → Nat} {α : Type} {l : List α} {f : α → List Family} (h : ∀ a ∈ l, ∀ F ∈ f a, F.Worded codes) :
    ∀ F ∈ l.flatMap f, F.Worded codes := by
  intro F hF
  obtain ⟨a, ha, hF⟩ := List.mem_flatMap.1 hF
  exact h a ha F hF

theorem lone_quiet {codes : List Str → Nat} {b : Bud} {solver : Option Trade} {n : Str} (hb : b.name = some n) (h : quiet n = true) :
    Family.Worded codes { root := b, solver := solver } := by
  intro x hx m hm hname
  rw [List.mem_singleton] at hx
  subst hx
  rw [hb] at hname
  cases hname
  exact absurd hm (quiet_out h)

/-! ### Tables -/

/-- The values of a table are words of the name. -/
def tableOk (name : Str) (table : List PhraseEntry) : Bool := table.all fun e => e.values.all (wordOk name)

theorem listed_in {O : Outside} {n : Str} (hn : n ∈ vocabNames) {vs : List Str} (h : vs.all (wordOk n) = true) : ValueIn O.codes.list (vocab n) (listed O vs) := by
  have hall : ∀ w ∈ vs, w ∈ vocab n := by
    intro w hw
    have := List.all_eq_true.1 h w hw
    simp only [wordOk, Bool.or_eq_true, Bool.not_eq_true', List.contains_eq_mem, decide_eq_true_eq, decide_eq_false_iff_not] at this
    exact this.resolve_left fun hh => hh hn
  unfold listed
  split
  · rename_i v
    exact Or.inl ⟨v, hall v (by simp), rfl⟩
  · exact Or.inr ⟨_, hall, rfl⟩

theorem found_value {V : Type} {P : RxPattern V} {s : Str} {v : V} (hc : P.children = false) (hf : ∀ n t, P.format n t = .ok v) :
    ∀ m ∈ P.found s, m.value = .ok v := by
  intro m hm
  obtain ⟨h, _, hm⟩ := List.mem_flatMap.1 hm
  rw [hc] at hm
  simp only [Bool.false_eq_true, if_false, List.mem_singleton] at hm
  subst hm
  exact hf _ _

theorem strFound_value {V : Type} {P : StrPattern V} {u : Uni} {s : Str} {v : V} (hf : ∀ n t, P.format n t = .ok v) : ∀ m ∈ P.found u s, m.value = .ok v := by
  intro m hm
  obtain ⟨w, _, hm⟩ := List.mem_flatMap.1 (List.mem_filter.1 hm).1
  obtain ⟨i, _, rfl⟩ := List.mem_map.1 hm
  exact hf _ _

theorem phrases_value {E : RxEnv} {name : Str} {e : PhraseEntry} {s : Str} : ∀ m ∈ e.phrases E name s, m.value = .ok e.values := by
  intro m hm
  obtain ⟨t, _, hm⟩ := List.mem_flatMap.1 hm
  split at hm
  · exact found_value rfl (fun _ _ => rfl) m hm
  · simp at hm

theorem words_value {u : Uni} {name : Str} {e : PhraseEntry} {s : Str} : ∀ m ∈ e.words u name s, m.value = .ok e.values :=
  fun m hm => strFound_value (fun _ _ => rfl) m hm

theorem table_worded {O : Outside} {name : Str} {table : List PhraseEntry} {st : Style} {s : Str} (h : tableOk name table = true) :
    ∀ F ∈ tableFamilies O name table st s, F.Worded O.codes.list := by
  refine plain_worded fun m hm hn => ?_
  have hname := table_name m hm
  obtain ⟨e, he, hm⟩ := List.mem_flatMap.1 hm
  refine ⟨e.values, ?_, listed_in hn (hname ▸ List.all_eq_true.1 h e he)⟩
  rcases List.mem_append.1 hm with hm | hm
  · exact words_value m hm
  · exact phrases_value m hm

theorem styled_worded {O : Outside} {name : Str} {table : List PhraseEntry} {styles : List Style} {s : Str} (h : tableOk name table = true) :
    ∀ F ∈ styledFamilies O name table styles s, F.Worded O.codes.list := by
  refine flatMap_worded fun x hx => plain_worded fun m hm hn => ?_
  have he := (List.of_mem_zip (a := x.1) (b := x.2) hx).1
  rcases List.mem_append.1 hm with hm | hm
  · exact ⟨_, phrases_value m hm, listed_in hn (phrases_name m hm ▸ List.all_eq_true.1 h _ he)⟩
  · exact ⟨_, words_value m hm, listed_in hn (words_name m hm ▸ List.all_eq_true.1 h _ he)⟩

/-- The groups of a form. -/
def Form.nos : Form → List Nat
  | .seq a b => a.nos ++ b.nos
  | .alt a b => a.nos ++ b.nos
  | .opt a => a.nos
  | .grp n a => n :: a.nos
  | _ => []

theorem phrase_nos {E : RxEnv} : ∀ p : Phrase, (p.re E).groupNos = []
  | .nil => rfl
  | .sym _ => rfl
  | .seq a b => by simp [Phrase.re, Re.groupNos, phrase_nos a, phrase_nos b]
  | .alt a b => by simp [Phrase.re, Re.groupNos, phrase_nos a, phrase_nos b]
  | .opt a => by simp [Phrase.re, Re.opt, Re.groupNos, phrase_nos a]

theorem form_nos {E : RxEnv} : ∀ p : Form, (p.re E).groupNos = p.nos
  | .nil => rfl
  | .sym _ => rfl
  | .seq a b => by simp [Form.re, Form.nos, Re.groupNos, form_nos a, form_nos b]
  | .alt a b => by simp [Form.re, Form.nos, Re.groupNos, form_nos a, form_nos b]
  | .opt a => by simp [Form.re, Form.nos, Re.opt, Re.groupNos, form_nos a]
  | .grp n a => by simp [Form.re, Form.nos, Re.groupNos, form_nos a]
  | .ahead p => by simp [Form.re, Form.nos, Re.groupNos, phrase_nos p]
  | .unless _ => rfl

/-- The values of a declaration with groups are words of the names of the groups that its expressions have. -/
def formOk (e : FormEntry) : Bool := wordOk e.name ((e.values.lookup e.name).getD []) && e.regexes.all fun t => match parseForm e.names t with
  | some p => e.groups.all fun g => !p.nos.contains g.1 || wordOk g.2 ((e.values.lookup g.2).getD [])
  | none => true

theorem forms_worded {codes : List Str → Nat} {E : RxEnv} {valid : Str → RxMatch Str → Bool} {st : Style} {e : FormEntry} {s : Str} (h : formOk e = true) :
    ∀ F ∈ e.families E valid st s, F.Worded codes := by
  intro F hF
  rw [formOk, Bool.and_eq_true] at h
  obtain ⟨t, ht, hF⟩ := List.mem_flatMap.1 hF
  have ht' := List.all_eq_true.1 h.2 t ht
  split at hF
  · rename_i p hp
    rw [hp] at ht'
    refine rx_worded (fun _ => ⟨_, h.1, fun _ => rfl⟩) (fun x hx hno _ => ⟨(e.values.lookup x.2).getD [], ?_, fun _ => rfl⟩) F hF
    have := List.all_eq_true.1 ht' x hx
    rw [show (e.pattern E valid p).re.groupNos = p.nos from form_nos p] at hno
    simpa [hno] using this
  · simp at hF

/-! ### The declarations -/

def Declared.Worded (codes : List Str → Nat) (d : Declared) : Prop := ∀ (g : Dict) (s : Str), ∀ fs, d.found g s = .ok fs → ∀ F ∈ fs, F.Worded codes

theorem declared_worded {codes : List Str → Nat} {needs : List (List Str)} {found : Str → List Family} {wanted : Dict → Bool}
    (h : ∀ s, ∀ F ∈ found s, F.Worded codes) : (declared needs found wanted).Worded codes := by
  intro g s fs hf
  cases hf
  exact h s

theorem plainNumber_extras {E : RxEnv} (t : Str) : plainNumber E c!"other" t = .str c!"Extras" := rfl

theorem episodes_worded {codes : List Str → Nat} (E : RxEnv) : ∀ d ∈ episodesDeclared E, d.Worded codes := by
  intro d hd
  simp only [episodesDeclared, List.mem_cons, List.not_mem_nil, or_false] at hd
  have he : ∀ t, plainNumber E c!"other" t = .str c!"Extras" := plainNumber_extras
  rcases hd with rfl | rfl | rfl | rfl | rfl | rfl | rfl | rfl | rfl | rfl | rfl | rfl | rfl | rfl | rfl | rfl | rfl | rfl | rfl | rfl <;>
    refine declared_worded fun s => ?_
  · exact chain_worded rfl (Or.inl he)
  · exact chain_worded rfl (Or.inl he)
  · exact chain_worded rfl (Or.inl he)
  · exact chain_worded rfl (Or.inl he)
  · refine flatMap_worded fun w hw => str_word w ?_ fun _ _ => rfl
    have : ∀ w ∈ detailWords, wordOk c!"episode_details" w = true := by decide +kernel
    exact this w hw
  · exact chain_worded rfl (Or.inr ⟨s, _, worded_nos ▸ worded_in, by decide⟩)
  · exact rx_quiet rfl
  · exact rx_quiet rfl
  · refine rx_worded (fun hv => absurd hv (quiet_out rfl)) fun x hx _ hv => ?_
    have hx' : x = (1, c!"season") ∨ x = (7, c!"other") := by simpa [allPattern] using hx
    rcases hx' with rfl | rfl
    · exact absurd hv (by decide +kernel)
    · exact ⟨c!"Complete", by decide +kernel, fun _ => rfl⟩
  · exact chain_worded rfl (Or.inl he)
  · exact chain_worded rfl (Or.inl he)
  · exact chain_worded rfl (Or.inl he)
  · exact chain_worded rfl (Or.inl he)
  · exact chain_worded rfl (Or.inl he)
  · exact chain_worded rfl (Or.inl he)
  · exact chain_worded rfl (Or.inl he)
  · exact chain_worded rfl (Or.inl he)
  · exact rx_quiet rfl
  · intro F hF
    obtain ⟨F, hF', rfl⟩ := List.mem_map.1 hF
    have := rx_quiet (codes := codes) rfl F hF'
    intro b hb
    rcases List.mem_cons.1 hb with rfl | hb
    · exact this F.root List.mem_cons_self
    · exact this b (List.mem_cons_of_mem _ hb)
  · exact rx_word c!"Minisode" rfl fun _ _ => rfl

theorem sources_worded : sourceTable.all formOk = true := by decide +kernel
theorem hevc_worded : formOk hevcEntry = true := by decide +kernel
theorem hdRip_worded : formOk hdRipEntry = true := by decide +kernel
theorem codecs_worded : tableOk c!"video_codec" videoCodecTable = true := by decide +kernel
theorem profiles_worded : tableOk c!"video_profile" videoProfileTable = true := by decide +kernel
theorem depths_worded : tableOk c!"color_depth" colorDepthTable = true := by decide +kernel
theorem audio_worded : tableOk c!"audio_codec" audioCodecTable = true := by decide +kernel
theorem audioProfiles_worded : tableOk c!"audio_profile" audioProfileTable = true := by decide +kernel
theorem services_worded : tableOk c!"streaming_service" serviceTable = true := by decide +kernel
theorem other_worded : tableOk c!"other" otherTable = true := by decide +kernel
theorem editions_worded : tableOk c!"edition" editionTable = true := by decide +kernel

theorem channels_worded {O : Outside} {s : Str} : ∀ F ∈ channelFamilies O s, F.Worded O.codes.list := by
  have hw : ∀ {v : Str} {ws : List Str}, wordOk c!"audio_channels" v = true → ∀ F ∈ (channelWords v ws).families O.rx.u MVal.str {} s, F.Worded O.codes.list :=
    fun {v _} h => str_word v h fun _ _ => rfl
  have hp : ∀ {a : Char} {b : List Char} {v : Str} {c : Bool}, wordOk c!"audio_channels" v = true →
      ∀ F ∈ (channelPattern O a b v c).families MVal.str {} s, F.Worded O.codes.list :=
    fun {_ _ v _} h => rx_word v (by simp [channelPattern, h]) fun _ _ => rfl
  have hk : ∀ {a : Char} {b : List Char} {v : Str}, wordOk c!"audio_channels" v = true →
      ∀ F ∈ (weakChannel a b v).families MVal.str { tags := [c!"weak-audio_channels"] } s, F.Worded O.codes.list :=
    fun {_ _ v} h => rx_word v (by simp [weakChannel, h]) fun _ _ => rfl
  have h1 : wordOk c!"audio_channels" c!"1.0" = true := by decide +kernel
  have h2 : wordOk c!"audio_channels" c!"2.0" = true := by decide +kernel
  have h5 : wordOk c!"audio_channels" c!"5.1" = true := by decide +kernel
  have h7 : wordOk c!"audio_channels" c!"7.1" = true := by decide +kernel
  exact append_worded (append_worded (append_worded (append_worded (append_worded (append_worded (append_worded (append_worded (append_worded (append_worded
    (append_worded (hw h1) (hp h1)) (hw h2)) (hp h2)) (hk h2)) (hw h5)) (hp h5)) (hp h5)) (hk h5)) (hw h7)) (hp h7)) (hk h7)

theorem container_worded {O : Outside} {s : Str} : ∀ F ∈ containerFamilies O s, F.Worded O.codes.list := by
  refine append_worded (flatMap_worded fun x hx => plain_quiet (name := c!"container") (fun m hm => ?_) rfl)
    (flatMap_worded fun x hx => plain_quiet (name := c!"container") (fun m hm => ?_) rfl)
  · rw [List.mem_singleton] at hm
    subst hm
    simp only [extensionsFound, List.mem_append, List.mem_map] at hx
    rcases hx with (((⟨m, hm, rfl⟩ | ⟨m, hm, rfl⟩) | ⟨m, hm, rfl⟩) | ⟨m, hm, rfl⟩) | ⟨m, hm, rfl⟩ <;> exact found_name rfl m hm
  · rw [List.mem_singleton] at hm
    subst hm
    simp only [namedFound, List.mem_append, List.mem_map] at hx
    rcases hx with ((⟨m, hm, rfl⟩ | ⟨m, hm, rfl⟩) | ⟨m, hm, rfl⟩) | ⟨m, hm, rfl⟩ <;> exact strFound_name m hm

theorem expected_worded {O : Outside} {codes : List Str → Nat} {g : Dict} {key name : Str} {fmt : Str → MVal} {tags : List Str} {s : Str} (hq : quiet name = true)
    {fs : List Family} (h : expectedFamilies O g key name fmt tags s = .ok fs) : ∀ F ∈ fs, F.Worded codes := by
  unfold expectedFamilies at h
  split at h
  · cases h
  · cases h
    intro F hF
    obtain ⟨f, _, rfl⟩ := List.mem_map.1 hF
    exact lone_quiet rfl hq

theorem others_worded (O : Outside) : ∀ d ∈ othersDeclared O, d.Worded O.codes.list := by
  intro d hd
  simp only [othersDeclared, List.mem_cons, List.not_mem_nil, or_false] at hd
  rcases hd with rfl | rfl | rfl | rfl | rfl | rfl | rfl | rfl | rfl | rfl | rfl | rfl | rfl | rfl | rfl | rfl | rfl | rfl | rfl | rfl | rfl | rfl | rfl | rfl |
    rfl | rfl | rfl | rfl | rfl | rfl | rfl | rfl
  · exact declared_worded fun s => container_worded
  · exact declared_worded fun s => flatMap_worded fun e he => forms_worded (List.all_eq_true.1 sources_worded e he)
  · exact declared_worded fun s => append_worded (table_worded codecs_worded) (forms_worded hevc_worded)
  · exact declared_worded fun s => styled_worded profiles_worded
  · exact declared_worded fun s => str_word c!"DXVA" (by decide +kernel) fun _ _ => rfl
  · exact declared_worded fun s => table_worded depths_worded
  · refine declared_worded fun s => append_worded (append_worded (styled_worded audio_worded) (plain_worded fun m hm hn => ?_))
      (rx_word c!"MP3" rfl fun _ _ => rfl)
    unfold dtsFound at hm
    split at hm
    · refine ⟨c!"DTS-HD", found_value rfl (fun _ _ => rfl) m hm, ?_⟩
      rw [found_name rfl m hm]
      exact word_in (n := c!"audio_codec") (by decide +kernel) (by decide +kernel : wordOk c!"audio_codec" c!"DTS-HD" = true)
    · simp at hm
  · exact declared_worded fun s => styled_worded audioProfiles_worded
  · exact declared_worded fun s => channels_worded
  · exact declared_worded fun s => append_worded (append_worded (flatMap_worded fun r _ => rx_quiet rfl) (str_quiet rfl)) (rx_quiet rfl)
  · exact declared_worded fun s => rx_quiet rfl
  · exact declared_worded fun s => append_worded (flatMap_worded fun r _ => rx_quiet rfl) (str_quiet rfl)
  · exact declared_worded fun s => rx_quiet rfl
  · exact declared_worded fun s => rx_quiet rfl
  · intro g s fs hf
    simp only [dateFamilies] at hf
    split at hf
    · cases hf
    · cases hf
      simp
    · cases hf
      intro F hF
      split at hF
      · rw [List.mem_singleton] at hF
        subst hF
        exact lone_quiet rfl rfl
      · simp at hF
  · intro g s fs hf
    exact expected_worded rfl hf
  · exact declared_worded fun s => str_quiet rfl
  · exact declared_worded fun s => str_quiet rfl
  · exact declared_worded fun s => str_quiet rfl
  · intro g s fs hf
    cases hf
    intro F hF
    obtain ⟨m, hm, rfl⟩ := List.mem_map.1 hF
    rcases C56_names _ _ _ _ _ _ _ _ _ _ _ hm with hn | ⟨hn, hd⟩
    · exact lone_quiet (congrArg some hn) rfl
    · exact lone_quiet (congrArg some hn) rfl
  · intro g s fs hf
    cases hf
    intro F hF
    obtain ⟨m, hm, rfl⟩ := List.mem_map.1 hF
    exact lone_quiet rfl rfl
  · intro g s fs hf
    exact expected_worded rfl hf
  · refine declared_worded fun s => append_worded (table_worded services_worded) (plain_worded fun m hm hn => ?_)
    obtain ⟨i, _, rfl⟩ := List.mem_map.1 hm
    exact ⟨_, rfl, word_in hn (by decide +kernel : wordOk c!"streaming_service" c!"iTunes" = true)⟩
  · refine declared_worded fun s => append_worded (append_worded (append_worded (styled_worded other_worded) (flatMap_worded fun w _ => rx_worded ?_ ?_))
      (forms_worded hdRip_worded)) (plain_worded fun m hm hn => ?_)
    · exact fun _ => ⟨c!"Proper", (by decide +kernel : wordOk c!"other" c!"Proper" = true), fun _ => rfl⟩
    · intro x hx _ hv
      have hx' : x = (1, c!"proper_count") := List.mem_singleton.1 hx
      subst hx'
      exact absurd hv (by decide +kernel)
    · unfold completeFound at hm
      split at hm
      · obtain ⟨h, _, rfl⟩ := List.mem_map.1 hm
        exact ⟨_, rfl, word_in hn (by decide +kernel : wordOk c!"other" c!"Complete" = true)⟩
      · simp at hm
  · exact declared_worded fun s => plain_quiet amounts_name rfl
  · exact declared_worded fun s => plain_quiet amounts_name rfl
  · exact declared_worded fun s => styled_worded editions_worded
  · exact declared_worded fun s => append_worded (rx_quiet rfl) (rx_quiet rfl)
  · exact declared_worded fun s => rx_quiet rfl
  · exact declared_worded fun s => rx_quiet rfl
  · exact declared_worded fun s => rx_quiet rfl
  · refine declared_worded fun s => append_worded (rx_quiet rfl) fun F hF => ?_
    obtain ⟨x, _, rfl⟩ := List.mem_map.1 hF
    exact lone_quiet rfl rfl

theorem all_worded (O : Outside) : ∀ d ∈ allDeclared O, d.Worded O.codes.list := by
  intro d hd
  rcases List.mem_append.1 hd with hd | hd
  · exact episodes_worded O.rx d hd
  · exact others_worded O d hd

/-! ### The program -/

theorem grown_drawn {O : Outside} {g : Dict} {s : Str} {gs : List Grown} (h : grownOf O g s = .ok gs) : ∀ m ∈ reportedBy gs, Drawn O.codes.list m := by
  obtain ⟨fs, rfl, hfs⟩ := grownOf_spec h
  intro m hm
  obtain ⟨G, hG, hm⟩ := List.mem_flatMap.1 hm
  obtain ⟨x, hx, _, i, rfl⟩ := mem_growFrom hG
  obtain ⟨d, hd, _, _, l, hl, hF⟩ := hfs x hx
  have hw := all_worded O d hd g s l hl x.2 hF
  intro n hn hname
  rcases mem_grow_live hm with ⟨rfl, _⟩ | ⟨b, hb, _, _, i, rfl⟩
  · obtain ⟨hv, c, hc, hf⟩ := hw _ List.mem_cons_self n hn hname
    exact ⟨c, hc, Or.inl ⟨hv, hf⟩⟩
  · obtain ⟨hv, c, hc, hf⟩ := hw b (List.mem_cons_of_mem _ hb) n hn hname
    exact ⟨c, hc, Or.inl ⟨hv, hf⟩⟩

/-- C158 for the program: the value of every match with a name that has words is one of them, up to case, or a list of them. -/
theorem C158_program (O : Outside) (base : RuleEnv) (hl : ∀ t, base.uni.lower t = [] ↔ t = []) (g : Dict) (s : Str) (s' : Ms)
    (h : program O base g s = .ok s') : AllTold O.codes.list s base.uni.lower s'.live := by
  obtain ⟨gs, hg, h⟩ := program_starts h
  exact C158_engine _ (program_natural hl hg) O.codes.list g (beginning g gs s) s'
    (fun p hp => ((marksOf_marked (by decide) (by decide) rfl : Marked (beginning g gs s)).wf p hp).2) (grown_drawn hg) h

end Guessit
