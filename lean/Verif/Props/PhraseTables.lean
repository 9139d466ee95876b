import Verif.Props.PhraseFound
import Verif.Props.StringsExamples
import Verif.Props.PartExamples
import Verif.Model.PhraseTables
import Verif.Spec.PhraseTables

/-! # The default vocabulary: editions, other, audio codecs, streaming services, video codecs, profiles and depths -/

namespace Guessit
open Spec Re

/-- Nothing is in the way, but for the values of `exc`. -/
def clearAll (exc : List (List Str)) (es : List PhraseEntry) (vs : List Listed) : Bool :=
  vs.all fun v => exc.contains v.values || es.any fun e => agrees e v && clearEntry e v

section
variable {E : RxEnv} {s : Str} {low : Char → Char}

theorem table_found (hE : Usual E) (hT : Themselves E) (hl : Lowers E.u low s) {name : Str} {es : List PhraseEntry} {vs : List Listed} (ha : agreeAll es vs = true)
    {v : Listed} (hv : v ∈ vs) {i j : Nat} (h1 : v.FreeAt E low s i j) (h2 : v.place.Holds s i j) : (⟨name, i, j, .ok v.values⟩ : RxMatch (List Str)) ∈ tableFound E name es s := by
  rcases h1 with ⟨w, hw, h1, rfl, h3⟩ | ⟨ps, hps, w, hw, h1, rfl, h3, h4⟩
  · exact table_word hl ha hv hw h1 h2 h3
  · exact table_phrase hE hT ha hv hps hw h1 h2 h3 h4

theorem table_exact (hE : Usual E) (hT : Themselves E) (hl : Lowers E.u low s) {name : Str} {es : List PhraseEntry} {vs : List Listed} (ha : agreeAll es vs = true)
    {exc : List (List Str)} (hx : clearAll exc es vs = true) {vals : List Str} (hn : vals ∉ exc) {i j : Nat} :
    (⟨name, i, j, .ok vals⟩ : RxMatch (List Str)) ∈ tableFound E name es s ↔ ∃ v ∈ vs, v.values = vals ∧ v.place.Holds s i j ∧ v.At E low s i j := by
  constructor
  · intro hm
    obtain ⟨_, v, h1, h2, h3, h4⟩ := table_sound hE hl ha hm
    exact ⟨v, h1, (Except.ok.inj h2).symm, h3, h4⟩
  · rintro ⟨v, hv, rfl, h2, h1⟩
    have := List.all_eq_true.1 hx v hv
    rcases Bool.or_eq_true .. ▸ this with h | h
    · exact absurd (List.contains_iff_mem.1 h) hn
    · obtain ⟨e, he, h⟩ := List.any_eq_true.1 h
      rw [Bool.and_eq_true] at h
      exact table_clear hE hT hl ha he hv h.1 h.2 h1 h2

/-! ## `edition` -/

theorem editions_agree : agreeAll editionTable editions = true := by decide +kernel
theorem editions_clear : clearAll [[c!"Alternative Cut"], [c!"Remastered"], [c!"Restored"]] editionTable editions = true := by decide +kernel

/-- What is found is listed, is written there, and stands where it may. -/
theorem C135_sound (hE : Usual E) (hl : Lowers E.u low s) {m : RxMatch (List Str)} (hm : m ∈ tableFound E c!"edition" editionTable s) :
    m.name = c!"edition" ∧ ∃ v ∈ editions, m.value = .ok v.values ∧ v.place.Holds s m.start m.stop ∧ v.At E low s m.start m.stop :=
  table_sound hE hl editions_agree hm

/-- What is listed and written is found, unless the same begins before and reaches past its start, or is longer. -/
theorem C135_found (hE : Usual E) (hT : Themselves E) (hl : Lowers E.u low s) {v : Listed} (hv : v ∈ editions) {i j : Nat}
    (h1 : v.FreeAt E low s i j) (h2 : v.place.Holds s i j) : (⟨c!"edition", i, j, .ok v.values⟩ : RxMatch (List Str)) ∈ tableFound E c!"edition" editionTable s :=
  table_found hE hT hl editions_agree hv h1 h2

/-- But for a few values, exactly what is listed and written is found. -/
theorem C135_exact (hE : Usual E) (hT : Themselves E) (hl : Lowers E.u low s) {vals : List Str} (hv : vals ∉ ([[c!"Alternative Cut"], [c!"Remastered"], [c!"Restored"]] : List (List Str))) {i j : Nat} :
    (⟨c!"edition", i, j, .ok vals⟩ : RxMatch (List Str)) ∈ tableFound E c!"edition" editionTable s ↔ ∃ v ∈ editions, v.values = vals ∧ v.place.Holds s i j ∧ v.At E low s i j :=
  table_exact hE hT hl editions_agree editions_clear hv

/-! ## `other` -/

theorem others_agree : agreeAll otherTable others = true := by decide +kernel
theorem others_clear : clearAll [[c!"Fix"], [c!"Screener"], [c!"Ultra HD"], [c!"East Coast Feed"], [c!"West Coast Feed"]] otherTable others = true := by decide +kernel

/-- What is found is listed, is written there, and stands where it may. -/
theorem C136_sound (hE : Usual E) (hl : Lowers E.u low s) {m : RxMatch (List Str)} (hm : m ∈ tableFound E c!"other" otherTable s) :
    m.name = c!"other" ∧ ∃ v ∈ others, m.value = .ok v.values ∧ v.place.Holds s m.start m.stop ∧ v.At E low s m.start m.stop :=
  table_sound hE hl others_agree hm

/-- What is listed and written is found, unless the same begins before and reaches past its start, or is longer. -/
theorem C136_found (hE : Usual E) (hT : Themselves E) (hl : Lowers E.u low s) {v : Listed} (hv : v ∈ others) {i j : Nat}
    (h1 : v.FreeAt E low s i j) (h2 : v.place.Holds s i j) : (⟨c!"other", i, j, .ok v.values⟩ : RxMatch (List Str)) ∈ tableFound E c!"other" otherTable s :=
  table_found hE hT hl others_agree hv h1 h2

/-- But for a few values, exactly what is listed and written is found. -/
theorem C136_exact (hE : Usual E) (hT : Themselves E) (hl : Lowers E.u low s) {vals : List Str} (hv : vals ∉ ([[c!"Fix"], [c!"Screener"], [c!"Ultra HD"], [c!"East Coast Feed"], [c!"West Coast Feed"]] : List (List Str))) {i j : Nat} :
    (⟨c!"other", i, j, .ok vals⟩ : RxMatch (List Str)) ∈ tableFound E c!"other" otherTable s ↔ ∃ v ∈ others, v.values = vals ∧ v.place.Holds s i j ∧ v.At E low s i j :=
  table_exact hE hT hl others_agree others_clear hv

/-! ## `audio_codec` -/

theorem audioCodecs_agree : agreeAll audioCodecTable audioCodecs = true := by decide +kernel
theorem audioCodecs_clear : clearAll [[c!"Dolby Digital"], [c!"DTS-HD"]] audioCodecTable audioCodecs = true := by decide +kernel

/-- What is found is listed, is written there, and stands where it may. -/
theorem C137_sound (hE : Usual E) (hl : Lowers E.u low s) {m : RxMatch (List Str)} (hm : m ∈ tableFound E c!"audio_codec" audioCodecTable s) :
    m.name = c!"audio_codec" ∧ ∃ v ∈ audioCodecs, m.value = .ok v.values ∧ v.place.Holds s m.start m.stop ∧ v.At E low s m.start m.stop :=
  table_sound hE hl audioCodecs_agree hm

/-- What is listed and written is found, unless the same begins before and reaches past its start, or is longer. -/
theorem C137_found (hE : Usual E) (hT : Themselves E) (hl : Lowers E.u low s) {v : Listed} (hv : v ∈ audioCodecs) {i j : Nat}
    (h1 : v.FreeAt E low s i j) (h2 : v.place.Holds s i j) : (⟨c!"audio_codec", i, j, .ok v.values⟩ : RxMatch (List Str)) ∈ tableFound E c!"audio_codec" audioCodecTable s :=
  table_found hE hT hl audioCodecs_agree hv h1 h2

/-- But for a few values, exactly what is listed and written is found. -/
theorem C137_exact (hE : Usual E) (hT : Themselves E) (hl : Lowers E.u low s) {vals : List Str} (hv : vals ∉ ([[c!"Dolby Digital"], [c!"DTS-HD"]] : List (List Str))) {i j : Nat} :
    (⟨c!"audio_codec", i, j, .ok vals⟩ : RxMatch (List Str)) ∈ tableFound E c!"audio_codec" audioCodecTable s ↔ ∃ v ∈ audioCodecs, v.values = vals ∧ v.place.Holds s i j ∧ v.At E low s i j :=
  table_exact hE hT hl audioCodecs_agree audioCodecs_clear hv

/-! ## `streaming_service` -/

theorem services_agree : agreeAll serviceTable services = true := by decide +kernel
theorem services_clear : clearAll [[c!"CBC"], [c!"CNBC"], [c!"Comedy Central"], [c!"Comedians in Cars Getting Coffee"], [c!"GagaOOLala"], [c!"hoichoi"], [c!"iQIYI"], [c!"NFL Now"], [c!"Nickelodeon"], [c!"Opto"], [c!"Paramount+"], [c!"SBS"], [c!"VRV"], [c!"Xbox Video"]] serviceTable services = true := by decide +kernel

/-- What is found is listed, is written there, and stands where it may. -/
theorem C138_sound (hE : Usual E) (hl : Lowers E.u low s) {m : RxMatch (List Str)} (hm : m ∈ tableFound E c!"streaming_service" serviceTable s) :
    m.name = c!"streaming_service" ∧ ∃ v ∈ services, m.value = .ok v.values ∧ v.place.Holds s m.start m.stop ∧ v.At E low s m.start m.stop :=
  table_sound hE hl services_agree hm

/-- What is listed and written is found, unless the same begins before and reaches past its start, or is longer. -/
theorem C138_found (hE : Usual E) (hT : Themselves E) (hl : Lowers E.u low s) {v : Listed} (hv : v ∈ services) {i j : Nat}
    (h1 : v.FreeAt E low s i j) (h2 : v.place.Holds s i j) : (⟨c!"streaming_service", i, j, .ok v.values⟩ : RxMatch (List Str)) ∈ tableFound E c!"streaming_service" serviceTable s :=
  table_found hE hT hl services_agree hv h1 h2

/-- But for a few values, exactly what is listed and written is found. -/
theorem C138_exact (hE : Usual E) (hT : Themselves E) (hl : Lowers E.u low s) {vals : List Str} (hv : vals ∉ ([[c!"CBC"], [c!"CNBC"], [c!"Comedy Central"], [c!"Comedians in Cars Getting Coffee"], [c!"GagaOOLala"], [c!"hoichoi"], [c!"iQIYI"], [c!"NFL Now"], [c!"Nickelodeon"], [c!"Opto"], [c!"Paramount+"], [c!"SBS"], [c!"VRV"], [c!"Xbox Video"]] : List (List Str))) {i j : Nat} :
    (⟨c!"streaming_service", i, j, .ok vals⟩ : RxMatch (List Str)) ∈ tableFound E c!"streaming_service" serviceTable s ↔ ∃ v ∈ services, v.values = vals ∧ v.place.Holds s i j ∧ v.At E low s i j :=
  table_exact hE hT hl services_agree services_clear hv

/-! ## `video_codec` -/

theorem videoCodecs_agree : agreeAll videoCodecTable videoCodecs = true := by decide +kernel
theorem videoCodecs_clear : clearAll [[c!"H.264"]] videoCodecTable videoCodecs = true := by decide +kernel

/-- What is found is listed, is written there, and stands where it may. -/
theorem C139_codec_sound (hE : Usual E) (hl : Lowers E.u low s) {m : RxMatch (List Str)} (hm : m ∈ tableFound E c!"video_codec" videoCodecTable s) :
    m.name = c!"video_codec" ∧ ∃ v ∈ videoCodecs, m.value = .ok v.values ∧ v.place.Holds s m.start m.stop ∧ v.At E low s m.start m.stop :=
  table_sound hE hl videoCodecs_agree hm

/-- What is listed and written is found, unless the same begins before and reaches past its start, or is longer. -/
theorem C139_codec_found (hE : Usual E) (hT : Themselves E) (hl : Lowers E.u low s) {v : Listed} (hv : v ∈ videoCodecs) {i j : Nat}
    (h1 : v.FreeAt E low s i j) (h2 : v.place.Holds s i j) : (⟨c!"video_codec", i, j, .ok v.values⟩ : RxMatch (List Str)) ∈ tableFound E c!"video_codec" videoCodecTable s :=
  table_found hE hT hl videoCodecs_agree hv h1 h2

/-- But for a few values, exactly what is listed and written is found. -/
theorem C139_codec_exact (hE : Usual E) (hT : Themselves E) (hl : Lowers E.u low s) {vals : List Str} (hv : vals ∉ ([[c!"H.264"]] : List (List Str))) {i j : Nat} :
    (⟨c!"video_codec", i, j, .ok vals⟩ : RxMatch (List Str)) ∈ tableFound E c!"video_codec" videoCodecTable s ↔ ∃ v ∈ videoCodecs, v.values = vals ∧ v.place.Holds s i j ∧ v.At E low s i j :=
  table_exact hE hT hl videoCodecs_agree videoCodecs_clear hv

/-! ## `video_profile` -/

theorem videoProfiles_agree : agreeAll videoProfileTable videoProfiles = true := by decide +kernel
theorem videoProfiles_clear : clearAll [] videoProfileTable videoProfiles = true := by decide +kernel

/-- What is found is listed, is written there, and stands where it may. -/
theorem C139_profile_sound (hE : Usual E) (hl : Lowers E.u low s) {m : RxMatch (List Str)} (hm : m ∈ tableFound E c!"video_profile" videoProfileTable s) :
    m.name = c!"video_profile" ∧ ∃ v ∈ videoProfiles, m.value = .ok v.values ∧ v.place.Holds s m.start m.stop ∧ v.At E low s m.start m.stop :=
  table_sound hE hl videoProfiles_agree hm

/-- What is listed and written is found, unless the same begins before and reaches past its start, or is longer. -/
theorem C139_profile_found (hE : Usual E) (hT : Themselves E) (hl : Lowers E.u low s) {v : Listed} (hv : v ∈ videoProfiles) {i j : Nat}
    (h1 : v.FreeAt E low s i j) (h2 : v.place.Holds s i j) : (⟨c!"video_profile", i, j, .ok v.values⟩ : RxMatch (List Str)) ∈ tableFound E c!"video_profile" videoProfileTable s :=
  table_found hE hT hl videoProfiles_agree hv h1 h2

/-- Exactly what is listed and written is found. -/
theorem C139_profile_exact (hE : Usual E) (hT : Themselves E) (hl : Lowers E.u low s) {vals : List Str} {i j : Nat} :
    (⟨c!"video_profile", i, j, .ok vals⟩ : RxMatch (List Str)) ∈ tableFound E c!"video_profile" videoProfileTable s ↔ ∃ v ∈ videoProfiles, v.values = vals ∧ v.place.Holds s i j ∧ v.At E low s i j :=
  table_exact hE hT hl videoProfiles_agree videoProfiles_clear (List.not_mem_nil)

/-! ## `color_depth` -/

theorem colorDepths_agree : agreeAll colorDepthTable colorDepths = true := by decide +kernel
theorem colorDepths_clear : clearAll [] colorDepthTable colorDepths = true := by decide +kernel

/-- What is found is listed, is written there, and stands where it may. -/
theorem C139_depth_sound (hE : Usual E) (hl : Lowers E.u low s) {m : RxMatch (List Str)} (hm : m ∈ tableFound E c!"color_depth" colorDepthTable s) :
    m.name = c!"color_depth" ∧ ∃ v ∈ colorDepths, m.value = .ok v.values ∧ v.place.Holds s m.start m.stop ∧ v.At E low s m.start m.stop :=
  table_sound hE hl colorDepths_agree hm

/-- What is listed and written is found, unless the same begins before and reaches past its start, or is longer. -/
theorem C139_depth_found (hE : Usual E) (hT : Themselves E) (hl : Lowers E.u low s) {v : Listed} (hv : v ∈ colorDepths) {i j : Nat}
    (h1 : v.FreeAt E low s i j) (h2 : v.place.Holds s i j) : (⟨c!"color_depth", i, j, .ok v.values⟩ : RxMatch (List Str)) ∈ tableFound E c!"color_depth" colorDepthTable s :=
  table_found hE hT hl colorDepths_agree hv h1 h2

/-- Exactly what is listed and written is found. -/
theorem C139_depth_exact (hE : Usual E) (hT : Themselves E) (hl : Lowers E.u low s) {vals : List Str} {i j : Nat} :
    (⟨c!"color_depth", i, j, .ok vals⟩ : RxMatch (List Str)) ∈ tableFound E c!"color_depth" colorDepthTable s ↔ ∃ v ∈ colorDepths, v.values = vals ∧ v.place.Holds s i j ∧ v.At E low s i j :=
  table_exact hE hT hl colorDepths_agree colorDepths_clear (List.not_mem_nil)

end
end Guessit
