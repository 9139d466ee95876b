import Verif.Model.Matches

/-! # Specification vocabulary for the whole engine (C146 and later) -/

namespace Guessit.Spec

/-- The properties documented in docs/properties.md:15-246. -/
def documented : List Str := [c!"type", c!"title", c!"alternative_title", c!"container", c!"mimetype", c!"date", c!"year", c!"week",
  c!"release_group", c!"website", c!"streaming_service", c!"season", c!"episode", c!"disc", c!"episode_count", c!"season_count",
  c!"episode_details", c!"episode_format", c!"part", c!"version", c!"source", c!"screen_size", c!"aspect_ratio", c!"video_codec",
  c!"video_profile", c!"color_depth", c!"video_api", c!"video_bit_rate", c!"frame_rate", c!"audio_channels", c!"audio_codec",
  c!"audio_profile", c!"audio_bit_rate", c!"country", c!"language", c!"subtitle_language", c!"bonus", c!"bonus_title", c!"cd",
  c!"cd_count", c!"crc32", c!"uuid", c!"size", c!"edition", c!"film", c!"film_title", c!"film_series", c!"other"]

/-- The properties reported without being documented there. -/
def undocumented : List Str := [c!"absolute_episode", c!"episode_title", c!"proper_count"]

end Guessit.Spec
