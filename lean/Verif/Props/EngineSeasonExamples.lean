import Verif.Props.EngineSeason
import Verif.Props.EngineExamples

/-! # Runs that meet the hypotheses of C149–C151 -/

namespace Guessit
open Spec

/-- What the patterns find in `Show.2010.E03.mkv`: a year, an episode and its marker, no season. -/
def yearly : Ms where
  input := c!"Show.2010.E03.mkv"
  markers := [{ id := 100, start := 0, stop := 17, name := some c!"path" }]
  live := [{ id := 1, start := 5, stop := 9, name := some c!"year", val := some (.int 2010) },
    { id := 2, start := 10, stop := 11, name := some c!"episodeMarker", priv := true },
    { id := 3, start := 11, stop := 13, name := some c!"episode", val := some (.int 3) },
    { id := 4, start := 13, stop := 17, name := some c!"container", tags := [c!"extension"] }]

/-- C149: the season is reported; C150: so is the mimetype; C151: the marker is not. -/
theorem yearly_reported : reported (engine asciiEnv [] yearly) = some [
    (some c!"year", 5, 9, .int 2010), (some c!"episode", 11, 13, .int 3), (some c!"container", 13, 17, .str c!"mkv"),
    (some c!"title", 0, 5, .str c!"Show"), (some c!"season", 5, 9, .int 2010), (some c!"mimetype", 17, 17, .str c!"video/x-matroska"),
    (some c!"type", 17, 17, .str c!"episode")] := by decide +kernel

/-- What the patterns find in `Show.S2010E03.mkv`: a season that is a year. -/
def seasonal : Ms where
  input := c!"Show.S2010E03.mkv"
  markers := [{ id := 100, start := 0, stop := 17, name := some c!"path" }]
  live := [{ id := 1, start := 6, stop := 10, name := some c!"season", val := some (.int 2010), tags := [c!"SxxExx"] },
    { id := 2, start := 10, stop := 11, name := some c!"episodeMarker", priv := true },
    { id := 3, start := 11, stop := 13, name := some c!"episode", val := some (.int 3), tags := [c!"SxxExx"] },
    { id := 4, start := 13, stop := 17, name := some c!"container", tags := [c!"extension"] }]

/-- C149: the season is reported as a year too. -/
theorem seasonal_reported : (reported (engine asciiEnv [] seasonal)).any (fun l => l.any fun x => decide (x = (some c!"year", 6, 10, .int 2010))) = true := by
  decide +kernel

end Guessit
