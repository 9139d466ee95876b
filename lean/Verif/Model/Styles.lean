import Verif.Model.Families
import Verif.Model.PhraseTables

/-! # Tags and conflict solvers of the entries of config/options.json (written by tools/mkstyles.py), in the order of Model/PhraseTables -/

namespace Guessit

/-- `edition` (options.json; edition.py:26-28). -/
def editionStyles : List Style := [
  {},
  { solver := some .specialEdition },
  { tags := [c!"has-neighbor"] },
  {},
  {},
  {},
  { tags := [c!"has-neighbor", c!"release-group-prefix"] },
  {},
  {},
  { tags := [c!"has-neighbor", c!"release-group-prefix"] },
  { tags := [c!"has-neighbor", c!"release-group-prefix"] },
  { tags := [c!"release-group-prefix"] },
  { tags := [c!"release-group-prefix"] },
  { tags := [c!"has-neighbor", c!"release-group-prefix"] },
  { tags := [c!"has-neighbor", c!"release-group-prefix"] },
  { tags := [c!"has-neighbor", c!"release-group-prefix"] },
  { tags := [c!"has-neighbor-before", c!"has-neighbor-after"] },
  {},
  {},
  {},
  {},
  {}]

/-- `other` (options.json; other.py:31-33). -/
def otherStyles : List Style := [
  {},
  {},
  {},
  {},
  {},
  { tags := [c!"has-neighbor", c!"streaming_service.prefix", c!"streaming_service.suffix"] },
  { tags := [c!"streaming_service.prefix", c!"streaming_service.suffix", c!"real"] },
  { tags := [c!"has-neighbor", c!"streaming_service.prefix", c!"streaming_service.suffix", c!"real"] },
  { tags := [c!"has-neighbor-before", c!"has-neighbor-after", c!"streaming_service.prefix", c!"streaming_service.suffix"] },
  { tags := [c!"streaming_service.prefix", c!"streaming_service.suffix"] },
  { tags := [c!"streaming_service.prefix", c!"streaming_service.suffix"] },
  { tags := [c!"has-neighbor"] },
  { tags := [c!"has-neighbor"] },
  {},
  {},
  {},
  {},
  { tags := [c!"has-neighbor"] },
  {},
  { tags := [c!"other.validate.screener", c!"source-prefix", c!"source-suffix"] },
  {},
  {},
  {},
  {},
  {},
  {},
  {},
  { tags := [c!"has-neighbor"] },
  { tags := [c!"uhdbluray-neighbor"] },
  {},
  {},
  {},
  {},
  {},
  {},
  {},
  {},
  { tags := [c!"streaming_service.prefix", c!"streaming_service.suffix"] },
  { tags := [c!"streaming_service.prefix", c!"streaming_service.suffix"] },
  { tags := [c!"streaming_service.prefix", c!"streaming_service.suffix"] },
  {},
  { tags := [c!"has-neighbor", c!"release-group-prefix"] },
  { tags := [c!"has-neighbor", c!"release-group-prefix"] },
  { tags := [c!"has-neighbor", c!"release-group-prefix"] },
  { tags := [c!"has-neighbor", c!"release-group-prefix"] },
  { tags := [c!"has-neighbor", c!"release-group-prefix"] },
  { tags := [c!"has-neighbor", c!"release-group-prefix"] },
  { tags := [c!"has-neighbor", c!"release-group-prefix"] },
  { tags := [c!"has-neighbor-before", c!"has-neighbor-after", c!"release-group-prefix"] },
  {},
  { tags := [c!"has-neighbor"] },
  { tags := [c!"has-neighbor"] },
  { tags := [c!"has-neighbor"] },
  { tags := [c!"has-neighbor"] },
  { tags := [c!"has-neighbor"] },
  {},
  {},
  { tags := [c!"has-neighbor"] },
  {},
  {},
  {},
  { tags := [c!"other.validate.mux", c!"video-codec-prefix", c!"source-suffix"] },
  {},
  {},
  { tags := [c!"uhdbluray-neighbor"] },
  { tags := [c!"uhdbluray-neighbor"] },
  { tags := [c!"uhdbluray-neighbor"] },
  { tags := [c!"uhdbluray-neighbor"] },
  { tags := [c!"at-end", c!"not-a-release-group"] },
  { tags := [c!"has-neighbor"] },
  {},
  { tags := [c!"at-end", c!"not-a-release-group"] },
  { tags := [c!"at-end", c!"not-a-release-group"] },
  { tags := [c!"not-a-release-group"] }]

/-- `audio_codec` (options.json; audio_codec.py:46-50). -/
def audioCodecStyles : List Style := [
  { solver := some .audioCodec },
  { solver := some .audioCodec },
  { solver := some .audioCodec },
  { solver := some .audioCodec },
  { solver := some .audioCodec },
  { solver := some .audioCodec },
  { solver := some .audioCodec },
  { solver := some .audioCodec },
  { solver := some .dtsHd },
  { solver := some .audioCodec },
  { solver := some .audioCodec },
  { solver := some .audioCodec },
  { solver := some .audioCodec },
  { solver := some .audioCodec },
  { solver := some .audioCodec }]

/-- `audio_profile` (options.json; audio_codec.py:52-56). -/
def audioProfileTable : List PhraseEntry := [
  ⟨[c!"Master Audio"], [c!"ma"], [], .none⟩,
  ⟨[c!"High Resolution Audio"], [c!"hr", c!"hra"], [], .none⟩,
  ⟨[c!"Extended Surround"], [c!"es"], [], .none⟩,
  ⟨[c!"High Efficiency"], [c!"he"], [], .none⟩,
  ⟨[c!"Low Complexity"], [c!"lc"], [], .none⟩,
  ⟨[c!"High Quality"], [c!"hq"], [], .none⟩,
  ⟨[c!"EX"], [c!"ex"], [], .none⟩]
def audioProfileStyles : List Style := [
  { tags := [c!"audio_profile.rule", c!"DTS-HD"] },
  { tags := [c!"audio_profile.rule", c!"DTS-HD"] },
  { tags := [c!"audio_profile.rule", c!"DTS"] },
  { tags := [c!"audio_profile.rule", c!"AAC"] },
  { tags := [c!"audio_profile.rule", c!"AAC"] },
  { tags := [c!"audio_profile.rule", c!"Dolby Digital"] },
  { tags := [c!"audio_profile.rule", c!"Dolby Digital"] }]

end Guessit
