import Verif.Model.Program
import Verif.Proofs.Captures
import Verif.Props.Language
import Verif.Props.EngineTrace

/-! # What the declarations give: names, privacy, tags, values -/

namespace Guessit
open Spec Re

/-- A name that the declaration `p` may give; a match without name is private. -/
def Source.names (p : Source) (n : Option Str) (priv : Bool) : Bool := match n with
  | none => priv
  | some n => p.gives.contains n && (!privateNames.contains n || priv)

/-- Tags that a declaration may give. -/
def Source.tagged (p : Source) (tags : List Str) : Bool := !tags.contains c!"weak-episode" || p.weak

theorem Source.gives_of {p : Source} {s : Str} {m : Mt} (ht : p.tagged m.tags = true) (hn : p.names m.name m.priv = true)
    (hv : p.valid (m.value s) = true) : p.Gives s m := by
  refine ⟨fun hw => ?_, ?_⟩
  · rw [Source.tagged, Bool.or_eq_true] at ht
    rcases ht with h | h
    · simp [hw] at h
    · exact h
  · cases hm : m.name with
    | none =>
      rw [hm] at hn
      exact Or.inl ⟨rfl, hn⟩
    | some n =>
      rw [hm, Source.names, Bool.and_eq_true, Bool.or_eq_true] at hn
      refine Or.inr ⟨⟨n, by simpa using hn.1, rfl, fun hp => ?_⟩, hv⟩
      rcases hn.2 with h | h
      · simp [hp] at h
      · exact h

/-- A family as an enabled declaration makes it: what is reported comes from a source, and nothing in the family of a screen size or of a marked
episode is a weak episode. -/
structure Lawful (g : Dict) (s : Str) (F : Family) : Prop where
  gives : ∀ b ∈ F.root :: F.kids, b.live = true → ∃ p ∈ sources, passes g p.needs = true ∧ p.Gives s (b.alone 0)
  strong : (∃ b ∈ F.root :: F.kids, ∃ n ∈ rigidNames, b.name = some n) → ∀ b ∈ F.root :: F.kids, c!"weak-episode" ∉ b.tags

/-- A style under which the matches of a pattern with these names come from `p`. -/
def rxOk (p : Source) (name : Str) (groups : List (Nat × Str)) (children : Bool) (st : Style) : Bool :=
  !st.tags.contains c!"weak-episode" && (!(!children || st.privateParent) || p.names (nameOf name) (st.privateParent || st.priv)) &&
  (!children || groups.all fun g => p.names (nameOf g.2) (st.hidden.contains g.2 || st.priv))

theorem mem_kids_name {V : Type} {P : RxPattern V} {s : Str} {h : RxHit} {k : RxMatch V} (hk : k ∈ P.kids s h) :
    ∃ g ∈ P.groups, h.caps.lookup g.1 = some (k.start, k.stop) ∧ k.start < k.stop ∧ k.name = g.2 ∧ k.value = P.format g.2 ((s.take k.stop).drop k.start) := by
  simp only [RxPattern.kids, List.mem_filterMap] at hk
  obtain ⟨g, hg, hm⟩ := hk
  split at hm
  · rename_i a b hl
    split at hm
    · rename_i hab
      cases hm
      exact ⟨g, hg, hl, hab, rfl, rfl⟩
    · cases hm
  · cases hm

theorem families_tags {V : Type} {P : RxPattern V} {give : V → MVal} {st : Style} {s : Str} {F : Family} (hF : F ∈ P.families give st s) :
    ∀ b ∈ F.root :: F.kids, b.tags = st.tags := by
  simp only [RxPattern.families, List.mem_map] at hF
  obtain ⟨x, _, rfl⟩ := hF
  intro b hb
  rcases List.mem_cons.1 hb with rfl | hb
  · rfl
  · obtain ⟨k, _, rfl⟩ := List.mem_map.1 hb
    rfl

theorem rx_lawful {V : Type} {P : RxPattern V} {give : V → MVal} {st : Style} {g : Dict} {s : Str} {p : Source} (hp : p ∈ sources)
    (hg : passes g p.needs = true) (hok : rxOk p P.name P.groups P.children st = true)
    (hv : ∀ v, p.valid v = true) : ∀ F ∈ P.families give st s, Lawful g s F := by
  simp only [rxOk, Bool.and_eq_true] at hok
  obtain ⟨⟨h1, h2⟩, h3⟩ := hok
  have h1' : st.tags.contains c!"weak-episode" = false := by simpa using h1
  intro F hF
  have htag := families_tags hF
  simp only [RxPattern.families, List.mem_map] at hF
  obtain ⟨⟨m, ks⟩, hx, rfl⟩ := hF
  simp only [RxPattern.foundWithin, List.mem_map, Prod.mk.injEq] at hx
  obtain ⟨h, _, rfl, rfl⟩ := hx
  refine ⟨fun b hb hl => ⟨p, hp, hg, Source.gives_of ?_ ?_ (hv _)⟩, fun _ b hb => ?_⟩
  · show p.tagged b.tags = true
    rw [htag b hb, Source.tagged, h1']
    rfl
  · show p.names b.name b.priv = true
    rcases List.mem_cons.1 hb with rfl | hb
    · simp only at hl ⊢
      rw [hl] at h2
      simpa using h2
    · obtain ⟨k, hk, rfl⟩ := List.mem_map.1 hb
      obtain ⟨x, hx, _, _, hn, _⟩ := mem_kids_name hk
      simp only at hl ⊢
      rw [hl] at h3
      simp only [Bool.not_true, Bool.false_or, List.all_eq_true] at h3
      rw [hn]
      exact h3 x hx
  · rw [htag b hb]
    simpa using h1'

theorem str_lawful {V : Type} {P : StrPattern V} {u : Uni} {give : V → MVal} {st : Style} {g : Dict} {s : Str} {p : Source} (hp : p ∈ sources)
    (hg : passes g p.needs = true) (hok : rxOk p P.name [] false st = true) (hpar : st.privateParent = false)
    (hv : ∀ v, p.valid v = true) : ∀ F ∈ P.families u give st s, Lawful g s F := by
  simp only [rxOk, Bool.and_eq_true] at hok
  obtain ⟨⟨h1, h2⟩, _⟩ := hok
  have h1' : st.tags.contains c!"weak-episode" = false := by simpa using h1
  intro F hF
  simp only [StrPattern.families, List.mem_map] at hF
  obtain ⟨m, _, rfl⟩ := hF
  refine ⟨fun b hb hl => ⟨p, hp, hg, Source.gives_of ?_ ?_ (hv _)⟩, fun _ b hb => ?_⟩ <;> simp only [List.mem_singleton] at hb <;> subst hb
  · show p.tagged st.tags = true
    rw [Source.tagged, h1']
    rfl
  · show p.names (nameOf P.name) st.priv = true
    simpa [hpar] using h2
  · simpa using h1'

theorem plain_lawful {V : Type} {found : List (RxMatch V)} {give : V → MVal} {st : Style} {g : Dict} {s : Str} {p : Source} (hp : p ∈ sources)
    (hg : passes g p.needs = true) {name : Str} (hn : ∀ m ∈ found, m.name = name) (hok : rxOk p name [] false st = true) (hpar : st.privateParent = false)
    (hv : ∀ v, p.valid v = true) : ∀ F ∈ plainFamilies give st found, Lawful g s F := by
  simp only [rxOk, Bool.and_eq_true] at hok
  obtain ⟨⟨h1, h2⟩, _⟩ := hok
  have h1' : st.tags.contains c!"weak-episode" = false := by simpa using h1
  intro F hF
  simp only [plainFamilies, List.mem_map] at hF
  obtain ⟨m, hm, rfl⟩ := hF
  refine ⟨fun b hb hl => ⟨p, hp, hg, Source.gives_of ?_ ?_ (hv _)⟩, fun _ b hb => ?_⟩ <;> simp only [List.mem_singleton] at hb <;> subst hb
  · show p.tagged st.tags = true
    rw [Source.tagged, h1']
    rfl
  · show p.names (nameOf m.name) st.priv = true
    rw [hn m hm]
    simpa [hpar] using h2
  · simpa using h1'

/-- Tags and groups under which a chain comes from `p`. -/
def chainOk (p : Source) (ns : List Nat) (name : Str) (tags extra : List Str) : Bool :=
  p.tagged tags && !extra.contains c!"weak-episode" && p.names (nameOf name) true &&
  (chainGroups.all fun g => !ns.contains g.1 || p.names (some g.2) (chainHidden.contains g.2)) &&
  (!tags.contains c!"weak-episode" || (!ns.contains 4 && !rigidNames.any fun n => nameOf name == some n))

theorem mem_hitBuds {value : Str → Str → MVal} {tags extra : List Str} {h : RxHit} {b : Bud} (hb : b ∈ hitBuds value tags extra h) :
    ∃ g ∈ chainGroups, h.caps.lookup g.1 = some (b.start, b.stop) ∧ b.start < b.stop ∧ b.name = some g.2 ∧ b.priv = chainHidden.contains g.2 ∧
      (b.tags = tags ∨ b.tags = tags ++ extra) ∧ b.val = none ∧ b.fmt = value g.2 := by
  simp only [hitBuds, List.mem_filterMap] at hb
  obtain ⟨g, hg, hm⟩ := hb
  split at hm
  · rename_i a c hl
    split at hm
    · rename_i hab
      cases hm
      refine ⟨g, hg, hl, hab, rfl, rfl, ?_, rfl, rfl⟩
      simp only
      split
      · exact Or.inr rfl
      · exact Or.inl rfl
    · cases hm
  · cases hm

theorem chain_lawful {kept : List (List RxHit)} {value : Str → Str → MVal} {name : Str} {tags extra : List Str} {g : Dict} {s : Str} {p : Source}
    (hp : p ∈ sources) (hg : passes g p.needs = true) {ns : List Nat} (hk : ∀ hs ∈ kept, ∀ h ∈ hs, HitIn s ns h)
    (hok : chainOk p ns name tags extra = true) (hv : ∀ v, p.valid v = true) : ∀ F ∈ chainFamilies kept value name tags extra, Lawful g s F := by
  simp only [chainOk, Bool.and_eq_true] at hok
  obtain ⟨⟨⟨⟨h1, h2⟩, h3⟩, h4⟩, h5⟩ := hok
  intro F hF
  simp only [chainFamilies, List.mem_filterMap] at hF
  obtain ⟨hs, hhs, hm⟩ := hF
  split at hm
  · cases hm
  · rename_i h t
    cases hm
    have hkid : ∀ b ∈ (h :: t).flatMap (hitBuds value tags extra), ∃ x ∈ chainGroups, x.1 ∈ ns ∧ b.name = some x.2 ∧ b.priv = chainHidden.contains x.2 ∧
        (b.tags = tags ∨ b.tags = tags ++ extra) := by
      intro b hb
      obtain ⟨h', hh', hb⟩ := List.mem_flatMap.1 hb
      obtain ⟨x, hx, hl, _, a1, a2, a3, _⟩ := mem_hitBuds hb
      exact ⟨x, hx, ((hk _ hhs h' hh').lookup hl).1, a1, a2, a3⟩
    have hweak : c!"weak-episode" ∉ extra := by simpa using h2
    have htag : ∀ l, l = tags ∨ l = tags ++ extra → (c!"weak-episode" ∈ l → c!"weak-episode" ∈ tags) := by
      rintro l (rfl | rfl) hl
      · exact hl
      · exact (List.mem_append.1 hl).resolve_right hweak
    refine ⟨fun b hb hl => ⟨p, hp, hg, Source.gives_of ?_ ?_ (hv _)⟩, ?_⟩
    · show p.tagged b.tags = true
      have hb' : b.tags = tags ∨ b.tags = tags ++ extra := by
        rcases List.mem_cons.1 hb with rfl | hb
        · exact Or.inl rfl
        · obtain ⟨_, _, _, _, _, h⟩ := hkid b hb
          exact h
      by_cases hw : c!"weak-episode" ∈ tags
      · rw [Source.tagged] at h1 ⊢
        have : p.weak = true := by simpa [hw] using h1
        simp [this]
      · have : c!"weak-episode" ∉ b.tags := fun h => hw (htag _ hb' h)
        simp [Source.tagged, this]
    · show p.names b.name b.priv = true
      rcases List.mem_cons.1 hb with rfl | hb
      · exact h3
      · obtain ⟨x, hx, hn, a1, a2, _⟩ := hkid b hb
        rw [a1, a2]
        have := List.all_eq_true.1 h4 x hx
        simpa [hn] using this
    · rintro ⟨b, hb, n, hn, hbn⟩ b' hb' hw
      have hb'' : b'.tags = tags ∨ b'.tags = tags ++ extra := by
        rcases List.mem_cons.1 hb' with rfl | hb'
        · exact Or.inl rfl
        · obtain ⟨_, _, _, _, _, h⟩ := hkid b' hb'
          exact h
      have ht := htag _ hb'' hw
      simp only [List.contains_iff_mem.2 ht, Bool.not_true, Bool.false_or, Bool.and_eq_true] at h5
      rcases List.mem_cons.1 hb with rfl | hb
      · have := h5.2
        simp only [Bool.not_eq_true', List.any_eq_false] at this
        exact this n hn (by simp only at hbn; rw [hbn]; simp)
      · obtain ⟨x, hx, hxn, a1, _⟩ := hkid b hb
        rw [a1] at hbn
        cases hbn
        have h4' : (4 : Nat) ∉ ns := by simpa using h5.1
        have : ∀ x ∈ chainGroups, x.2 ∈ rigidNames → x.1 = 4 := by decide
        exact h4' (this x hx hn ▸ hxn)


/-! ### The declarations -/

/-- What a declaration finds is lawful. -/
def Declared.Lawful (d : Declared) : Prop := ∀ (g : Dict) (s : Str), passes g d.needs = true → d.wanted g = true →
  ∀ fs, d.found g s = .ok fs → ∀ F ∈ fs, Guessit.Lawful g s F

theorem declared_lawful {needs : List (List Str)} {found : Str → List Family} {wanted : Dict → Bool}
    (h : ∀ (g : Dict) (s : Str), passes g needs = true → ∀ F ∈ found s, Guessit.Lawful g s F) : (declared needs found wanted).Lawful := by
  intro g s hp _ fs hf
  cases hf
  exact h g s hp

/-- The source number `k`. -/
theorem source_mem (k : Nat) (hk : k < sources.length := by decide) : sources[k] ∈ sources := List.getElem_mem hk

theorem kept_in {E : RxEnv} {C : EpisodeConfig} {k : EpisodeChain} {s : Str} :
    ∀ hs ∈ k.kept E C s, ∀ h ∈ hs, HitIn s (partNos (k.first E C :: k.rest E C)) h := by
  intro hs hhs h hh
  obtain ⟨l, hl, rfl⟩ := List.mem_map.1 hhs
  exact chains_in l hl h (mem_trimmed hh)

theorem loose_in {E : RxEnv} {C : EpisodeConfig} {k : LooseChain} {s : Str} :
    ∀ hs ∈ k.kept E C s, ∀ h ∈ hs, HitIn s (partNos (⟨k.firstRe E, some 1⟩ :: k.rest E)) h := by
  intro hs hhs h hh
  obtain ⟨l, hl, rfl⟩ := List.mem_map.1 hhs
  exact chains_in l hl h (mem_trimmed hh)

theorem worded_in {E : RxEnv} {C : EpisodeConfig} {ws ofs : List Str} {s : Str} :
    ∀ hs ∈ wordedKept E C ws ofs s, ∀ h ∈ hs, HitIn s (partNos [⟨E.seasonWord ws, some 1⟩, ⟨E.ofCount ofs, some 1⟩, ⟨E.nextSeason C, none⟩]) h := by
  intro hs hhs h hh
  obtain ⟨l, hl, rfl⟩ := List.mem_map.1 hhs
  exact chains_in l hl h (List.mem_filter.1 (mem_trimmed hh)).1

theorem plainNumeral_nos {E : RxEnv} : E.plainNumeral.groupNos = [] := by
  refine alts_nos _ fun r hr => ?_
  simp only [List.mem_cons, List.not_mem_nil, or_false] at hr
  rcases hr with rfl | rfl | rfl
  · rfl
  · rfl
  · exact words_nos _

theorem worded_nos {E : RxEnv} {C : EpisodeConfig} {ws ofs : List Str} :
    partNos [⟨E.seasonWord ws, some 1⟩, ⟨E.ofCount ofs, some 1⟩, ⟨E.nextSeason C, none⟩] = [3, 1, 9, 6, 1] := by
  simp [partNos, RxEnv.seasonWord, RxEnv.ofCount, RxEnv.nextSeason, Re.cat, Re.groupNos, words_nos, plainNumeral_nos, RxEnv.digits, RxEnv.digit, dashRe, Re.opt]

theorem episodes_lawful (E : RxEnv) : ∀ d ∈ episodesDeclared E, d.Lawful := by
  intro d hd
  simp only [episodesDeclared, List.mem_cons, List.not_mem_nil, or_false] at hd
  rcases hd with rfl | rfl | rfl | rfl | rfl | rfl | rfl | rfl | rfl | rfl | rfl | rfl | rfl | rfl | rfl | rfl | rfl | rfl | rfl | rfl <;>
    refine declared_lawful fun g s hg => ?_
  · exact chain_lawful (source_mem 0) hg kept_in rfl fun _ => rfl
  · exact chain_lawful (source_mem 0) hg kept_in rfl fun _ => rfl
  · exact chain_lawful (source_mem 0) hg kept_in rfl fun _ => rfl
  · exact chain_lawful (source_mem 1) hg kept_in rfl fun _ => rfl
  · intro F hF
    obtain ⟨w, _, hF⟩ := List.mem_flatMap.1 hF
    exact str_lawful (source_mem 2) hg rfl rfl (fun _ => rfl) F hF
  · exact chain_lawful (source_mem 3) hg (worded_nos ▸ worded_in) rfl fun _ => rfl
  · exact rx_lawful (source_mem 4) hg rfl fun _ => rfl
  · exact rx_lawful (source_mem 4) hg rfl fun _ => rfl
  · exact rx_lawful (source_mem 5) hg rfl fun _ => rfl
  · exact chain_lawful (source_mem 6) hg kept_in rfl fun _ => rfl
  · exact chain_lawful (source_mem 6) hg loose_in rfl fun _ => rfl
  · exact chain_lawful (source_mem 6) hg kept_in rfl fun _ => rfl
  · exact chain_lawful (source_mem 6) hg kept_in rfl fun _ => rfl
  · exact chain_lawful (source_mem 7) hg kept_in rfl fun _ => rfl
  · exact chain_lawful (source_mem 8) hg loose_in rfl fun _ => rfl
  · exact chain_lawful (source_mem 9) hg loose_in rfl fun _ => rfl
  · exact chain_lawful (source_mem 10) hg kept_in rfl fun _ => rfl
  · exact rx_lawful (source_mem 11) hg rfl fun _ => rfl
  · intro F hF
    obtain ⟨F, hF', rfl⟩ := List.mem_map.1 hF
    clear hF
    have hF := hF'
    clear hF'
    have := rx_lawful (P := detachedPattern E defaultEpisodeWords) (give := MVal.int) (st := episodeStyle []) (s := s) (source_mem 12) hg rfl (fun _ => rfl) F hF
    refine ⟨fun b hb hl => ?_, fun _ b hb => ?_⟩
    · rcases List.mem_cons.1 hb with rfl | hb
      · refine ⟨sources[12], source_mem 12, hg, Source.gives_of ?_ ?_ rfl⟩ <;>
        · simp only [RxPattern.families, List.mem_map] at hF
          obtain ⟨x, _, rfl⟩ := hF
          rfl
      · exact this.gives b (List.mem_cons_of_mem _ hb) hl
    · have ht := families_tags hF
      rcases List.mem_cons.1 hb with rfl | hb
      · show _ ∉ F.root.tags
        rw [ht _ List.mem_cons_self]
        exact List.not_mem_nil
      · rw [ht b (List.mem_cons_of_mem _ hb)]
        exact List.not_mem_nil
  · exact rx_lawful (source_mem 13) hg rfl fun _ => rfl

end Guessit
