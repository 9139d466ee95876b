import Verif.Model.Renamers
import Verif.Props.Absolute

/-! # C93, C95, C97: screen sizes, bit rates, renamed properties -/

namespace Guessit
open Spec

theorem childText_iff {kin : Kin} {input : Str} {m : Mt} {n v : Str} : childText kin input m n = some v ↔ ChildText kin input m n v := by
  unfold childText ChildText
  have hh := fun c => head_filter_iff (fun x : Mt => decide (x.name = some n)) (kin.children m) c
  simp only [decide_eq_true_eq] at hh
  unfold named
  constructor
  · intro h
    split at h
    · rename_i c hc
      split at h
      · rename_i w hw
        cases h
        exact ⟨c, (hh c).1 hc, hw⟩
      · cases h
    · cases h
  · rintro ⟨c, hc, hv⟩
    rw [(hh c).2 hc]
    dsimp only
    rw [hv]

theorem childText_none {kin : Kin} {input : Str} {m : Mt} {n : Str} : childText kin input m n = none ↔ ¬ ∃ v, ChildText kin input m n v := by
  constructor
  · rintro h ⟨v, hv⟩
    rw [childText_iff.2 hv] at h
    cases h
  · intro h
    cases hc : childText kin input m n with
    | none => rfl
    | some v => exact absurd ⟨v, childText_iff.1 hc⟩ h

theorem childText_unique {kin : Kin} {input : Str} {m : Mt} {n v w : Str} (h1 : ChildText kin input m n v) (h2 : ChildText kin input m n w) : v = w :=
  Option.some.inj ((childText_iff.2 h1).symm.trans (childText_iff.2 h2))

theorem scanType_iff {e : SizeEnv} {kin : Kin} {input : Str} {m : Mt} {t : Str} : scanType e kin input m = t ↔ ScanType e.lower kin input m t := by
  unfold scanType ScanType
  split
  · rename_i v hv
    rw [childText_iff] at hv
    by_cases he : v = []
    · subst he
      rw [if_pos (by rfl)]
      constructor
      · intro h
        refine Or.inr ⟨?_, h.symm⟩
        rintro ⟨w, hw, hne⟩
        exact hne (childText_unique hw hv)
      · rintro (⟨w, hw, hne, _⟩ | ⟨_, h⟩)
        · exact absurd (childText_unique hw hv) hne
        · exact h.symm
    · rw [if_neg (by simpa using he)]
      constructor
      · intro h; exact Or.inl ⟨v, hv, he, h.symm⟩
      · rintro (⟨w, hw, _, h⟩ | ⟨h, _⟩)
        · rw [h, childText_unique hw hv]
        · exact absurd ⟨v, hv, he⟩ h
  · rename_i hn
    rw [childText_none] at hn
    constructor
    · intro h
      refine Or.inr ⟨?_, h.symm⟩
      rintro ⟨w, hw, _⟩
      exact hn ⟨w, hw⟩
    · rintro (⟨w, hw, _⟩ | ⟨_, h⟩)
      · exact absurd ⟨w, hw⟩ hn
      · exact h.symm

theorem sizeValue_iff {e : SizeEnv} {kin : Kin} {input : Str} {m : Mt} {v : Str} : sizeValue e kin input m = some v ↔
    ∃ h, ChildText kin input m c!"height" h ∧ SizeName e.lower e.standard e.within kin input m h v := by
  unfold sizeValue
  split
  · rename_i hn
    rw [childText_none] at hn
    constructor
    · intro h; cases h
    · rintro ⟨h, hh, _⟩; exact absurd ⟨h, hh⟩ hn
  · rename_i h hh
    rw [childText_iff] at hh
    unfold SizeName
    split
    · rename_i hw
      rw [childText_none] at hw
      rw [Option.some.injEq]
      constructor
      · intro he
        exact ⟨h, hh, Or.inl ⟨_, scanType_iff.1 rfl, he.symm, fun w hc => absurd ⟨w, hc⟩ hw⟩⟩
      · rintro ⟨h', hh', ⟨t, ht, he, _⟩ | ⟨w, hc, _⟩⟩
        · rw [he, ← scanType_iff.2 ht, childText_unique hh' hh]
        · exact absurd ⟨w, hc⟩ hw
    · rename_i w hw
      rw [childText_iff] at hw
      by_cases hc : h ∈ e.standard ∧ e.within w h = true
      · rw [if_pos (by simpa using hc), Option.some.injEq]
        constructor
        · intro he
          exact ⟨h, hh, Or.inl ⟨_, scanType_iff.1 rfl, he.symm, fun w' hc' => by rw [childText_unique hc' hw]; exact hc⟩⟩
        · rintro ⟨h', hh', ⟨t, ht, he, _⟩ | ⟨w', hc', hn, _⟩⟩
          · rw [he, ← scanType_iff.2 ht, childText_unique hh' hh]
          · rw [childText_unique hc' hw, childText_unique hh' hh] at hn
            exact absurd hc hn
      · rw [if_neg (by simpa using hc), Option.some.injEq]
        constructor
        · intro he; exact ⟨h, hh, Or.inr ⟨w, hw, hc, he.symm⟩⟩
        · rintro ⟨h', hh', ⟨t, _, _, hall⟩ | ⟨w', hc', _, he⟩⟩
          · have := hall w hw
            rw [childText_unique hh' hh] at this
            exact absurd this hc
          · rw [he, childText_unique hc' hw, childText_unique hh' hh]

/-- C93: the rule raises `ZeroDivisionError` just when some screen size has a width, and a height that is zero. -/
theorem C93_raises (e : SizeEnv) (kin : Kin) (noFrames noRatio : Bool) (s : Ms) : postProcessSize e kin noFrames noRatio s = none ↔
    ∃ m ∈ s.live, m.name = some c!"screen_size" ∧ ∃ h w, ChildText kin s.input m c!"height" h ∧ ChildText kin s.input m c!"width" w ∧
      ∀ c ∈ h, c = '0' := by
  unfold postProcessSize
  dsimp only
  have hd : ∀ m, divides kin s.input m = false ↔ ∃ h w, ChildText kin s.input m c!"height" h ∧ ChildText kin s.input m c!"width" w ∧ ∀ c ∈ h, c = '0' := by
    intro m
    unfold divides
    split
    · rename_i h w hh hw
      rw [childText_iff] at hh hw
      rw [Bool.not_eq_false', isZero, List.all_eq_true]
      simp only [decide_eq_true_eq]
      constructor
      · intro ha; exact ⟨h, w, hh, hw, ha⟩
      · rintro ⟨h', w', hh', hw', ha⟩
        rwa [childText_unique hh' hh] at ha
    · rename_i hn
      simp only [Bool.true_eq_false, false_iff]
      rintro ⟨h, w, hh, hw, _⟩
      exact hn h w (childText_iff.2 hh) (childText_iff.2 hw)
  split
  · rename_i ha
    rw [List.all_eq_true] at ha
    simp only [reduceCtorEq, false_iff]
    rintro ⟨m, hm, hn, hz⟩
    have := ha m (mem_named.2 ⟨hm, hn⟩)
    rw [(hd m).2 hz] at this
    cases this
  · rename_i ha
    simp only [true_iff]
    rw [List.all_eq_true, not_forall] at ha
    obtain ⟨m, ha⟩ := ha
    rw [Classical.not_imp, Bool.not_eq_true, hd] at ha
    exact ⟨m, (mem_named.1 ha.1).1, (mem_named.1 ha.1).2, ha.2⟩

/-- C93: every screen size whose height is known is written in the standard notation; then the frame rates that go with the sizes and
their aspect ratios are added, unless these properties are excluded.  Nothing else changes. -/
theorem C93_sizes (e : SizeEnv) (kin : Kin) (noFrames noRatio : Bool) (s s' : Ms) (h : postProcessSize e kin noFrames noRatio s = some s') :
    s'.input = s.input ∧ s'.markers = s.markers ∧
    ∃ l : List Mt,
      List.Forall₂ (fun m m' =>
        (m.name = some c!"screen_size" ∧ ∃ h v, ChildText kin s.input m c!"height" h ∧ SizeName e.lower e.standard e.within kin s.input m h v ∧
          m' = { m with val := some (.str v) }) ∨
        (¬ (m.name = some c!"screen_size" ∧ ∃ h, ChildText kin s.input m c!"height" h) ∧ m' = m)) s.live l ∧
      Adds s.input l s'.live fun x => ∃ m ∈ s.live, m.name = some c!"screen_size" ∧
        ((noFrames = false ∧ ∃ c ∈ kin.children m, c.name = some c!"frame_rate" ∧ x = { c with fmt := e.frames }) ∨
        (noRatio = false ∧ ∃ h w, ChildText kin s.input m c!"height" h ∧ ChildText kin s.input m c!"width" w ∧
          x = { id := 0, start := m.start, stop := m.stop, name := some c!"aspect_ratio", val := some (e.ratio w h) })) := by
  unfold postProcessSize at h
  dsimp only at h
  split at h
  · cases h
    refine ⟨rfl, rfl, s.live.map (resize e kin s.input), ?_, adds_congr (fun x => ?_) (adds_all s.input _ _)⟩
    · rw [List.forall₂_map_right_iff, List.forall₂_same]
      intro m _
      unfold resize
      by_cases hn : m.name = some c!"screen_size"
      · rw [if_pos hn]
        cases hv : sizeValue e kin s.input m with
        | some v =>
          obtain ⟨h, h1, h2⟩ := sizeValue_iff.1 hv
          exact Or.inl ⟨hn, h, v, h1, h2, rfl⟩
        | none =>
          refine Or.inr ⟨?_, rfl⟩
          rintro ⟨_, h, hh⟩
          unfold sizeValue at hv
          rw [childText_iff.2 hh] at hv
          dsimp only at hv
          split at hv
          · cases hv
          · split at hv <;> cases hv
      · rw [if_neg hn]
        exact Or.inr ⟨fun hc => hn hc.1, rfl⟩
    · rw [List.mem_flatMap]
      have hx : ∀ m, x ∈ sizeExtras e kin noFrames noRatio s.input m ↔
          (noFrames = false ∧ ∃ c ∈ kin.children m, c.name = some c!"frame_rate" ∧ x = { c with fmt := e.frames }) ∨
          (noRatio = false ∧ ∃ h w, ChildText kin s.input m c!"height" h ∧ ChildText kin s.input m c!"width" w ∧
            x = { id := 0, start := m.start, stop := m.stop, name := some c!"aspect_ratio", val := some (e.ratio w h) }) := by
        intro m
        unfold sizeExtras
        rw [List.mem_append]
        refine or_congr ?_ ?_
        · cases noFrames with
          | true => simp
          | false =>
            rw [if_neg (by decide), List.mem_map]
            constructor
            · rintro ⟨c, hc, rfl⟩
              exact ⟨rfl, c, (mem_named.1 hc).1, (mem_named.1 hc).2, rfl⟩
            · rintro ⟨_, c, h1, h2, rfl⟩
              exact ⟨c, mem_named.2 ⟨h1, h2⟩, rfl⟩
        · split
          · rename_i h w hh hw
            rw [childText_iff] at hh hw
            cases noRatio with
            | true => simp
            | false =>
              rw [if_neg (by decide), List.mem_singleton]
              constructor
              · intro hx; exact ⟨rfl, h, w, hh, hw, hx⟩
              · rintro ⟨_, h', w', hh', hw', hx⟩
                rw [hx, childText_unique hh' hh, childText_unique hw' hw]
          · rename_i hn
            simp only [List.not_mem_nil, false_iff]
            rintro ⟨_, h, w, hh, hw, _⟩
            exact hn h w (childText_iff.2 hh) (childText_iff.2 hw)
      constructor
      · rintro ⟨m, hm, hxm⟩
        exact ⟨m, (mem_named.1 hm).1, (mem_named.1 hm).2, (hx m).1 hxm⟩
      · rintro ⟨m, h1, h2, h3⟩
        exact ⟨m, mem_named.2 ⟨h1, h2⟩, (hx m).2 h3⟩
  · cases h

/-! ## C95 -/

/-- An audio bit rate that belongs to the video: it follows a source, a screen size or a video codec, with no text between, unless it is
slow and followed by an audio codec, with no text between. -/
def VideoRate (slow : MVal → Bool) (s : Ms) (x : Mt) : Prop :=
  x.name = some c!"audio_bit_rate" ∧
  (∃ p, ClosestBefore s.live x p ∧ NamedIn p [c!"source", c!"screen_size", c!"video_codec"] ∧ NoText s.input s.live p.stop x.start) ∧
  ¬ (slow (x.value s.input) = true ∧ ∃ n, ClosestAfter s.live x n ∧ n.name = some c!"audio_codec" ∧ NoText s.input s.live x.stop n.start)

theorem videoRate_iff {slow : MVal → Bool} {s : Ms} (h : Sound s) {x : Mt} :
    (x.name = some c!"audio_bit_rate" ∧ videoRate slow s x = true) ↔ VideoRate slow s x := by
  unfold videoRate VideoRate
  rw [Bool.and_eq_true, linkedBefore_iff h, Bool.not_eq_true', ← Bool.not_eq_true, Bool.and_eq_true, linkedAfter_iff h]
  simp only [isOneOf_iff, decide_eq_true_eq]
  refine and_congr_right fun _ => and_congr_right fun _ => not_congr And.comm

/-- C95, no bit rate being excluded: the audio bit rates that belong to the video are renamed, and nothing else changes. -/
theorem C95_renamed (slow : MVal → Bool) (s : Ms) (h : Sound s) : Renames s (bitRateType slow false false s) c!"video_bit_rate" (VideoRate slow s) := by
  unfold bitRateType
  dsimp only
  rw [if_neg (by decide), if_neg (by decide)]
  have hf : (named s.live c!"audio_bit_rate").filter (videoRate slow s) =
      s.live.filter fun x => decide (x.name = some c!"audio_bit_rate") && videoRate slow s x := by
    unfold named
    rw [List.filter_filter]
    exact List.filter_congr fun x _ => Bool.and_comm _ _
  have hq : ∀ x : Mt, (decide (x.name = some c!"audio_bit_rate") && videoRate slow s x) = true ↔ VideoRate slow s x := fun x => by
    rw [Bool.and_eq_true, decide_eq_true_eq, videoRate_iff h]
  rw [hf]
  exact renamesAll_filter h _ _ (fun x _ => hq x) fun x _ hx => by rw [((hq x).1 hx).1]; decide

/-- C95, video bit rates being excluded: the audio bit rates that belong to the video are dropped. -/
theorem C95_video_excluded (slow : MVal → Bool) (s : Ms) (h : Sound s) : Drops s (bitRateType slow false true s) (VideoRate slow s) := by
  unfold bitRateType
  dsimp only
  rw [if_neg (by decide), if_pos rfl]
  exact drops_named h _ _ fun x _ => videoRate_iff h

/-- C95, audio bit rates being excluded: all of them are dropped, even those that belong to the video. -/
theorem C95_audio_excluded (slow : MVal → Bool) (noVideo : Bool) (s : Ms) (h : Sound s) :
    Drops s (bitRateType slow true noVideo s) fun x => x.name = some c!"audio_bit_rate" := by
  unfold bitRateType
  dsimp only
  rw [if_pos rfl]
  exact drops_mem h (fun m hm => (mem_named.1 hm).1) fun x hx => by rw [mem_named]; simp [hx]

/-! ## C97 -/

/-- C97: every `another` becomes an `other`. -/
theorem C97_another (s : Ms) (h : Sound s) : Renames s (anotherToOther s) c!"other" fun x => x.name = some c!"another" := by
  unfold anotherToOther named
  exact renamesAll_filter h _ _ (fun x _ => by rw [decide_eq_true_eq]) fun x _ hx => by rw [of_decide_eq_true hx]; decide

/-- C97: languages are dropped when they are excluded. -/
theorem C97_language (disabled : Bool) (s : Ms) (h : Sound s) :
    Drops s (removeLanguage disabled s) fun x => disabled = true ∧ x.name = some c!"language" := by
  unfold removeLanguage
  cases disabled with
  | true =>
    rw [if_pos rfl]
    exact drops_mem h (fun m hm => (mem_named.1 hm).1) fun x hx => by rw [mem_named]; simp [hx]
  | false =>
    rw [if_neg (by decide)]
    exact ⟨rfl, rfl, List.Sublist.refl _, fun x hx => by simp [hx]⟩

end Guessit
