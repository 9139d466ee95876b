import Verif.Spec.Solver

/-!
# Who gives way to whom in guessit
-/

namespace Guessit.Spec

/-- The match is called one of these. -/
def Called (m : Mt) (names : List Str) : Prop := ∃ n ∈ names, m.name = some n

/-- The raw text of the match, without surrounding white space, is a number (`int` accepts it). -/
def Numerical (B : Bench) (m : Mt) : Prop := ∃ n, pyInt B.uni (m.raw B.input) = .ok n

/-- A season or episode found by a loose pattern, or in a text with an `x`. -/
def Loose (B : Bench) (m : Mt) : Prop :=
  c!"weak-episode" ∈ m.tags ∨ 'x' ∈ B.uni.lower ((B.kin.initiator m).raw B.input)

/-- A match made by a pattern of `t`, the first, ousts the second. -/
inductive Ousts (B : Bench) : Trade → Mt → Mt → Prop
  /-- audio codec over audio profile and audio channels -/
  | audioCodec {x y} : Called x [c!"audio_codec"] → Called y [c!"audio_profile", c!"audio_channels"] → Ousts B .audioCodec x y
  /-- season over episode (or the converse) found elsewhere, when that one is loose and the first is not -/
  | episode {x y} : Called x [c!"season", c!"episode"] → Called y [c!"season", c!"episode"] → x.name ≠ y.name →
      (B.kin.initiator x).key B.input ≠ (B.kin.initiator y).key B.input →
      ¬ (Called (B.kin.initiator x) [c!"weak_episode", c!"weak_duplicate"] ∧
        Called (B.kin.initiator y) [c!"weak_episode", c!"weak_duplicate"]) →
      ¬ Loose B x → Loose B y → Ousts B .seasonEpisode x y
  /-- file extension over source, video codec, container elsewhere -/
  | extension {x y} : Called y [c!"source", c!"video_codec"] → Ousts B .extension x y
  | extensionContainer {x y} : Called y [c!"container"] → c!"extension" ∉ y.tags → Ousts B .extension x y
  | crc32 {x y} : Called y [c!"season", c!"episode"] → Ousts B .crc32 x y
  /-- expected titles and groups over anything -/
  | expected {x y} : Ousts B .expected x y
  | tv {x y} : Called y [c!"other", c!"release_group"] → Ousts B .tv x y
  /-- year and week over a season or episode with less text -/
  | year {x y} : Called y [c!"season", c!"episode"] → (y.raw B.input).length < (x.raw B.input).length → Ousts B .year x y
  | date {x y} : Called y [c!"season", c!"episode", c!"crc32"] → Ousts B .date x y
  /-- 1920x1080 over anything but a screen size -/
  | size {x y} : ¬ Called y [c!"screen_size"] → Ousts B .size x y
  /-- US and GB over a language -/
  | country {x y} : Called y [c!"language"] → B.usGb (x.value B.input) = true → Ousts B .country x y
  | dtsHd {x y} : Called y [c!"audio_codec"] → Ousts B .dtsHd x y
  /-- bit rate over anything but sure audio channels -/
  | bitRate {x y} : ¬ Called y [c!"audio_channels"] → Ousts B .bitRate x y
  | bitRateWeak {x y} : c!"weak-audio_channels" ∈ y.tags → Ousts B .bitRate x y
  | specialEdition {x y} : Called y [c!"episode_details"] → y.value B.input = .str c!"Special" → Ousts B .specialEdition x y

/-- A match made by a pattern of `t`, the first, gives way to the second. -/
inductive GivesWay (B : Bench) : Trade → Mt → Mt → Prop
  | audioCodec {x y} : Called x [c!"audio_profile", c!"audio_channels"] → Called y [c!"audio_codec"] → GivesWay B .audioCodec x y
  | episodeYear {x y} : Called x [c!"episode"] → Called y [c!"year"] → GivesWay B .seasonEpisode x y
  | episodeCodec {x y} : Called x [c!"season", c!"episode"] →
      Called y [c!"video_codec", c!"audio_codec", c!"container", c!"date"] → GivesWay B .seasonEpisode x y
  /-- to audio channels that are not weak, unless it comes with its marker (`S`, `E`...) -/
  | episodeChannels {x y n} : x.name = some n → n = c!"season" ∨ n = c!"episode" → Called y [c!"audio_channels"] →
      c!"weak-audio_channels" ∉ y.tags →
      (∀ c ∈ B.kin.children (B.kin.initiator x), c.name ≠ some (n ++ c!"Marker")) → GivesWay B .seasonEpisode x y
  | episodeSize {x y} : Called x [c!"season", c!"episode"] → Called y [c!"screen_size"] → ¬ Numerical B y → GivesWay B .seasonEpisode x y
  | episode {x y} : Called x [c!"season", c!"episode"] → Called y [c!"season", c!"episode"] → x.name ≠ y.name →
      (B.kin.initiator x).key B.input ≠ (B.kin.initiator y).key B.input →
      ¬ (Called (B.kin.initiator x) [c!"weak_episode", c!"weak_duplicate"] ∧
        Called (B.kin.initiator y) [c!"weak_episode", c!"weak_duplicate"]) →
      Loose B x → GivesWay B .seasonEpisode x y
  | container {x y} : Called y [c!"source", c!"video_codec"] → GivesWay B .container x y
  | containerExtension {x y} : Called y [c!"container"] → c!"extension" ∈ y.tags → GivesWay B .container x y
  | uuid {x y} : Called y [c!"season", c!"episode"] → GivesWay B .uuid x y
  | fourK {x y} : ¬ Called y [c!"screen_size"] → GivesWay B .fourK x y
  | country {x y} : ¬ Called y [c!"language"] → GivesWay B .country x y
  | countryOther {x y} : B.usGb (x.value B.input) = false → GivesWay B .country x y
  | bitRate {x y} : Called y [c!"audio_channels"] → c!"weak-audio_channels" ∉ y.tags → GivesWay B .bitRate x y
  | bonus {x y} : Called y [c!"video_codec", c!"episode"] → c!"weak-episode" ∉ y.tags → GivesWay B .bonus x y

/-- What the matches made by the patterns are called. -/
def Fits (t : Trade) (m : Mt) : Prop := match t with
  | .audioCodec | .dtsHd => Called m [c!"audio_codec"]
  | .seasonEpisode => Called m [c!"season", c!"episode", c!"other", c!"count", c!"version", c!"episode_details", c!"episode_format",
      c!"episodeMarker", c!"seasonMarker"]
  | .extension => Called m [c!"container"] ∧ c!"extension" ∈ m.tags
  | .container => Called m [c!"container"] ∧ c!"extension" ∉ m.tags
  | .crc32 => Called m [c!"crc32"]
  | .uuid => Called m [c!"uuid"]
  | .expected => Called m [c!"title", c!"release_group"]
  | .tv => Called m [c!"source", c!"other"]
  | .year => Called m [c!"year", c!"week"]
  | .date => Called m [c!"date"]
  | .fourK | .size => Called m [c!"screen_size"]
  | .country => Called m [c!"country"]
  | .bitRate => Called m [c!"audio_bit_rate"]
  | .bonus => Called m [c!"bonus"]
  | .specialEdition => Called m [c!"edition"]

/-- The trades of which both may claim the place, so that it matters who is asked first. -/
inductive Quarrel : Trade → Trade → Prop
  | episodes : Quarrel .seasonEpisode .seasonEpisode
  | fourKEpisode : Quarrel .fourK .seasonEpisode
  | fourKCountry : Quarrel .fourK .country
  | countries : Quarrel .country .country
  | sizeExpected : Quarrel .size .expected
  | sizeBitRate : Quarrel .size .bitRate
  | bitRates : Quarrel .bitRate .bitRate
  | expected : Quarrel .expected .expected
  | expectedBitRate : Quarrel .expected .bitRate
  | tvExpected : Quarrel .tv .expected
  | tvs : Quarrel .tv .tv
  | dtsHds : Quarrel .dtsHd .dtsHd

end Guessit.Spec
