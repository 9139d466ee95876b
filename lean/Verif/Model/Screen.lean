import Verif.Model.Amounts

/-! # guessit/rules/properties/screen_size.py: its patterns -/

namespace Guessit

/-- An entry of `frame_rates` in options.json: `23\.976` or `24(?:\.0{1,3})?`. -/
inductive RateEntry where
  | exact (whole part : Str)
  | round (whole : Str)
  deriving DecidableEq, Repr

/-- The regular expression of an entry. -/
def RateEntry.re (E : RxEnv) : RateEntry → Re
  | .exact n f => .cat [E.word n, .lit '.', E.word f]
  | .round n => .cat [E.word n, .opt (.cat [.lit '.', .rep (.lit '0') 1 (some 3)])]

/-- `interlaced`, `progressive` and `frame_rates` (screen_size.py:27-29).  They are sets: the order in which Python lists them, and so the
order of the alternatives, changes from one run to the next. -/
structure ScreenConfig where
  interlaced : List Str
  progressive : List Str
  rates : List RateEntry

/-- The default configuration (config/options.json, screen_size). -/
def defaultScreen : ScreenConfig where
  interlaced := [c!"360", c!"480", c!"540", c!"576", c!"900", c!"1080"]
  progressive := [c!"360", c!"480", c!"540", c!"576", c!"900", c!"1080", c!"368", c!"720", c!"1440", c!"2160", c!"4320"]
  rates := [.exact c!"23" c!"976", .round c!"24", .round c!"25", .exact c!"29" c!"970", .round c!"30", .round c!"48", .round c!"50", .round c!"60",
    .round c!"120"]

/-- `x|\*` -/
def RxEnv.times (E : RxEnv) : Re := .alt (E.letter 'x') (.lit '*')
/-- `res_pattern` (screen_size.py:41); group 1 is `width`. -/
def RxEnv.resolution (E : RxEnv) : Re := .opt (.cat [.grp 1 (.rep E.digit 3 (some 4)), E.times])
/-- `frame_rate_pattern` (screen_size.py:37) as group 4. -/
def RxEnv.rates (E : RxEnv) (C : ScreenConfig) : Re := .grp 4 (.alts (C.rates.map (RateEntry.re E)))

/-- screen_size.py:42; groups 2 and 3 are `height` and `scan_type`. -/
def RxEnv.interlacedRe (E : RxEnv) (C : ScreenConfig) : Re :=
  .cat [E.resolution, .grp 2 (E.words C.interlaced), .grp 3 (E.letter 'i'), .opt (E.rates C)]
/-- screen_size.py:43 -/
def RxEnv.progressiveRe (E : RxEnv) (C : ScreenConfig) : Re :=
  .cat [E.resolution, .grp 2 (E.words C.progressive), .grp 3 (E.letter 'p'), .opt (E.rates C)]
/-- screen_size.py:44 -/
def RxEnv.hdRe (E : RxEnv) (C : ScreenConfig) : Re :=
  .cat [E.resolution, .grp 2 (E.words C.progressive), .opt (.grp 3 (E.letter 'p')), E.word c!"hd"]
/-- screen_size.py:45 -/
def RxEnv.looseRe (E : RxEnv) (C : ScreenConfig) : Re :=
  .cat [E.resolution, .grp 2 (E.words C.progressive), .opt (.grp 3 (E.letter 'p')), .opt (E.letter 'x')]
/-- screen_size.py:48 -/
def RxEnv.pixelsRe (E : RxEnv) : Re :=
  .cat [.grp 1 (.rep E.digit 3 (some 4)), dashRe, E.times, dashRe, .grp 2 (.rep E.digit 3 (some 4))]

/-- A `rebulk.regex(...)` call with the defaults of screen_size.py:34-35. -/
def screenPattern (re : Re) : RxPattern Str :=
  { re := re, name := c!"screen_size", groups := [(1, c!"width"), (2, c!"height"), (3, c!"scan_type"), (4, c!"frame_rate")], children := false,
    validateAll := false, format := rawText, parentValid := surrounded, childValid := surrounded }

/-- The matches of a pattern, each with its children (`match.children`, that `PostProcessScreenSize` reads). -/
def RxPattern.foundWithin {V : Type} (P : RxPattern V) (s : Str) : List (RxMatch V × List (RxMatch V)) :=
  ((P.re.hits s).filter (P.accepts s)).map fun h => (P.parent s h, P.kids s h)

/-- The five regular expressions for screen sizes (screen_size.py:42-50), pattern after pattern. -/
def screenRes (E : RxEnv) (C : ScreenConfig) : List Re := [E.interlacedRe C, E.progressiveRe C, E.hdRe C, E.looseRe C, E.pixelsRe]
def screensFound (E : RxEnv) (C : ScreenConfig) (s : Str) : List (RxMatch Str × List (RxMatch Str)) :=
  (screenRes E C).flatMap fun r => (screenPattern r).foundWithin s

/-- `rebulk.regex(frame_rate_pattern + '-?(?:p|fps)', name='frame_rate', formatter=FrameRate.fromstring, ...)` (screen_size.py:53-54). -/
def ratePattern (E : RxEnv) (cap : Str → Str) (fl : Floats) (C : ScreenConfig) : RxPattern (Quantity fl) :=
  { re := .cat [E.rates C, dashRe, .alt (E.letter 'p') (E.word c!"fps")], name := c!"frame_rate", groups := [(4, c!"frame_rate")], children := false,
    validateAll := false, format := fun _ t => fromString (qenv E cap fl) .frameRate t, parentValid := surrounded, childValid := surrounded }

end Guessit
