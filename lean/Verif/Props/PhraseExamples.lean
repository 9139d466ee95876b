import Verif.Props.PhraseTables

/-! # C135 to C139: instances and exceptions -/

namespace Guessit
open Spec Re

theorem asciiRx_themselves : Themselves asciiRx := by
  intro l hl c
  have hall : ∀ d ∈ c!"0123456789'&", d.toUpper = d := by decide
  simp [asciiRx, hall l hl]

theorem asciiUni_lowers (s : Str) : Lowers asciiUni Char.toLower s where
  ascii := fun _ _ => rfl
  text := by
    intro t _
    show t.map _ = t.map _
    refine List.map_congr_left fun c _ => ?_
    by_cases h : 'A' ≤ c ∧ c ≤ 'Z'
    · rw [if_pos h]
      have h1 : 65 ≤ c.toNat := h.1
      have h2 : c.toNat ≤ 90 := h.2
      have hall : ∀ n < 91, 65 ≤ n → Char.ofNat (n + 32) = (Char.ofNat n).toLower := by decide
      have := hall c.toNat (by omega) h1
      rwa [Char.ofNat_toNat] at this
    · rw [if_neg h, Char.toLower]
      split
      · rename_i g
        exact absurd ⟨g.1, g.2⟩ h
      · rfl

/-- What is shown of a find. -/
def shownListed (m : RxMatch (List Str)) : Nat × Nat × Option (List Str) := (m.start, m.stop, m.value.toOption)

example : (tableFound asciiRx c!"edition" editionTable c!"Movie.Ultimate_Collectors Edition.DC.4K.Remastered.mkv").map shownListed =
    [(15, 33, some [c!"Collector"]), (34, 36, some [c!"Director's Cut"]), (37, 50, some [c!"Remastered"]), (6, 33, some [c!"Ultimate", c!"Collector"])] := by decide +kernel
example : (tableFound asciiRx c!"other" otherTable c!"Movie.3D.Proper.Read-NFO.mkv").map shownListed =
    [(9, 15, some [c!"Proper"]), (6, 8, some [c!"3D"]), (16, 24, some [c!"Read NFO"])] := by decide +kernel
example : (tableFound asciiRx c!"audio_codec" audioCodecTable c!"Movie.TrueHD.AAC.AC3D.mkv").map shownListed =
    [(17, 21, some [c!"Dolby Digital"]), (13, 16, some [c!"AAC"]), (6, 12, some [c!"Dolby TrueHD"])] := by decide +kernel
example : (tableFound asciiRx c!"streaming_service" serviceTable c!"Show.S01.AMZN.WEB-DL").map shownListed =
    [(9, 13, some [c!"Amazon Prime"]), (0, 3, some [c!"Showtime"])] := by decide +kernel
example : (tableFound asciiRx c!"video_codec" videoCodecTable c!"Movie.x264.HEVC.h-265.MPEG4AVC").map shownListed =
    [(6, 10, some [c!"H.264"]), (22, 30, some [c!"H.264"]), (16, 21, some [c!"H.265"]), (11, 15, some [c!"H.265"])] := by decide +kernel
example : (tableFound asciiRx c!"color_depth" colorDepthTable c!"Movie.10bit.12-bits.YUV420P10").map shownListed =
    [(12, 19, some [c!"12-bit"]), (6, 11, some [c!"10-bit"]), (20, 29, some [c!"10-bit"])] := by decide +kernel
example : (tableFound asciiRx c!"video_profile" videoProfileTable c!"Movie.HP.AVCHD.Hi10.Hi422P").map shownListed =
    [(6, 8, some [c!"High"]), (9, 14, some [c!"Advanced Video Codec High Definition"]), (20, 26, some [c!"High 4:2:2"]), (15, 19, some [c!"High 10"])] := by decide +kernel

/-- `4k.remaster` is found first, and does not stand alone: the word `remaster` behind it is lost. -/
theorem C135_exception : ∃ s, ∃ v ∈ editions, ∃ i j, v.place.Holds s i j ∧ v.At asciiRx Char.toLower s i j ∧
    (⟨c!"edition", i, j, .ok v.values⟩ : RxMatch (List Str)) ∉ tableFound asciiRx c!"edition" editionTable s := by
  refine ⟨c!"x4k.remaster", ⟨[c!"Remastered"], [], [[c!"4k*remastered", c!"4k*remaster", c!"remastered", c!"remaster"]], .apart⟩, by decide +kernel, 4, 12, standing_iff.1 (by decide),
    .inr ⟨[c!"4k*remastered", c!"4k*remaster", c!"remastered", c!"remaster"], by decide, c!"remaster", by decide, (phrase_at asciiRx_usual (w := [.lit 'r', .lit 'e', .lit 'm', .lit 'a', .lit 's', .lit 't', .lit 'e', .lit 'r']) (by decide)).2 (by decide), rfl⟩, fun h => ?_⟩
  have := List.mem_map_of_mem (f := shownListed) h
  revert this
  decide +kernel

/-- `proof.sample.fix` is found first, and does not stand alone. -/
theorem C136_exception : ∃ s, ∃ v ∈ others, ∃ i j, v.place.Holds s i j ∧ v.At asciiRx Char.toLower s i j ∧
    (⟨c!"other", i, j, .ok v.values⟩ : RxMatch (List Str)) ∉ tableFound asciiRx c!"other" otherTable s := by
  refine ⟨c!"xproof.sample.fix", ⟨[c!"Fix"], [], [[c!"proof sample fix", c!"proof samplefix", c!"proofsample fix", c!"proofsamplefix", c!"sample fix", c!"samplefix"]], .apart⟩, by decide +kernel, 7, 17, standing_iff.1 (by decide),
    .inr ⟨[c!"proof sample fix", c!"proof samplefix", c!"proofsample fix", c!"proofsamplefix", c!"sample fix", c!"samplefix"], by decide, c!"sample fix", by decide, (phrase_at asciiRx_usual (w := [.lit 's', .lit 'a', .lit 'm', .lit 'p', .lit 'l', .lit 'e', .dash, .lit 'f', .lit 'i', .lit 'x']) (by decide)).2 (by decide), rfl⟩, fun h => ?_⟩
  have := List.mem_map_of_mem (f := shownListed) h
  revert this
  decide +kernel

/-- The second `DD` of `DDD` is not found. -/
theorem C137_exception : ∃ s, ∃ v ∈ audioCodecs, ∃ i j, v.place.Holds s i j ∧ v.At asciiRx Char.toLower s i j ∧
    (⟨c!"audio_codec", i, j, .ok v.values⟩ : RxMatch (List Str)) ∉ tableFound asciiRx c!"audio_codec" audioCodecTable s := by
  refine ⟨c!"DDD", ⟨[c!"Dolby Digital"], [c!"dolby", c!"dolbydigital"], [[c!"dolby digital"], [c!"dd"], [c!"ac 3d", c!"ac 3", c!"ac3d", c!"ac3"]], .anywhere⟩, by decide +kernel, 1, 3, trivial,
    .inr ⟨[c!"dd"], by decide, c!"dd", by decide, (phrase_at asciiRx_usual (w := [.lit 'd', .lit 'd']) (by decide)).2 (by decide), rfl⟩, fun h => ?_⟩
  have := List.mem_map_of_mem (f := shownListed) h
  revert this
  decide +kernel

/-- The second `cc` of `ccc` is not found. -/
theorem C138_exception : ∃ s, ∃ v ∈ services, ∃ i j, v.place.Holds s i j ∧ v.At asciiRx Char.toLower s i j ∧
    (⟨c!"streaming_service", i, j, .ok v.values⟩ : RxMatch (List Str)) ∉ tableFound asciiRx c!"streaming_service" serviceTable s := by
  refine ⟨c!"ccc", ⟨[c!"Comedy Central"], [c!"cc"], [], .anywhere⟩, by decide +kernel, 1, 3, trivial,
    .inl ⟨c!"cc", by decide, written_iff.1 (by decide), rfl⟩, fun h => ?_⟩
  have := List.mem_map_of_mem (f := shownListed) h
  revert this
  decide +kernel

/-- What is longer is found. -/
theorem C139_codec_exception : ∃ s, ∃ v ∈ videoCodecs, ∃ i j, v.place.Holds s i j ∧ v.At asciiRx Char.toLower s i j ∧
    (⟨c!"video_codec", i, j, .ok v.values⟩ : RxMatch (List Str)) ∉ tableFound asciiRx c!"video_codec" videoCodecTable s := by
  refine ⟨c!"MPEG4AVCHD", ⟨[c!"H.264"], [], [[c!"h 264", c!"h264", c!"x 264", c!"x264"], [c!"mpeg 4avchd", c!"mpeg 4avc", c!"mpeg4avchd", c!"mpeg4avc", c!"avchd", c!"avc"]], .anywhere⟩, by decide +kernel, 5, 8, trivial,
    .inr ⟨[c!"mpeg 4avchd", c!"mpeg 4avc", c!"mpeg4avchd", c!"mpeg4avc", c!"avchd", c!"avc"], by decide, c!"avc", by decide, (phrase_at asciiRx_usual (w := [.lit 'a', .lit 'v', .lit 'c']) (by decide)).2 (by decide), rfl⟩, fun h => ?_⟩
  have := List.mem_map_of_mem (f := shownListed) h
  revert this
  decide +kernel

/-- The hypotheses are met. -/
example : (⟨c!"edition", 6, 8, .ok [c!"Director's Cut"]⟩ : RxMatch (List Str)) ∈ tableFound asciiRx c!"edition" editionTable c!"Movie.dC.mkv" :=
  (C135_exact asciiRx_usual asciiRx_themselves (asciiUni_lowers _) (by decide)).2 ⟨editions[8], by decide +kernel, by decide +kernel, standing_iff.1 (by decide),
    .inl ⟨c!"dc", by decide +kernel, written_iff.1 (by decide), rfl⟩⟩

end Guessit
