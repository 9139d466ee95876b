import Verif.Model.Recognise
import Verif.Model.Markers

/-! # `rebulk.string`, and guessit/rules/properties/container.py -/

namespace Guessit

/-- The keywords of a `rebulk.string(...)` call under `string_defaults(ignore_case=True)`. -/
structure StrPattern (V : Type) where
  words : List Str
  name : Str
  format : Str → Str → Except PyErr V
  valid : Str → RxMatch V → Bool

/-- rebulk `StringPattern._match` for one word: `find_all` looks for the lower-case form of the word in the lower-case form of the
text; the span is counted in the text itself. -/
def StrPattern.at {V : Type} (P : StrPattern V) (u : Uni) (s w : Str) : List (RxMatch V) :=
  (findAll (u.lower w) (u.lower s)).map fun i =>
    { name := P.name, start := i, stop := i + w.length, value := P.format P.name ((s.take (i + w.length)).drop i) }

/-- `Pattern.matches` for a string pattern: word after word, those that pass the validator. -/
def StrPattern.found {V : Type} (P : StrPattern V) (u : Uni) (s : Str) : List (RxMatch V) :=
  (P.words.flatMap (P.at u s)).filter (P.valid s)

/-- The lists of extensions of the `container` entry of options.json. -/
structure Containers where
  subtitles : List Str
  info : List Str
  videos : List Str
  torrent : List Str
  nzb : List Str

/-- The default configuration (config/options.json, container). -/
def defaultContainers : Containers where
  subtitles := [c!"srt", c!"idx", c!"sub", c!"ssa", c!"ass"]
  info := [c!"nfo"]
  videos := [c!"3g2", c!"3gp", c!"3gp2", c!"asf", c!"avi", c!"divx", c!"flv", c!"iso", c!"m4v", c!"mk2", c!"mk3d", c!"mka", c!"mkv", c!"mov",
    c!"mp4", c!"mp4a", c!"mpeg", c!"mpg", c!"ogg", c!"ogm", c!"ogv", c!"qt", c!"ra", c!"ram", c!"rm", c!"ts", c!"m2ts", c!"vob", c!"wav",
    c!"webm", c!"wma", c!"wmv"]
  torrent := [c!"torrent"]
  nzb := [c!"nzb"]

/-- `rebulk.regex(r'\.' + build_or_pattern(exts) + '$', ...)` (container.py:40-44), with the formatter of container.py:28; there is
no validator. -/
def extensionPattern (E : RxEnv) (exts : List Str) : RxPattern Str :=
  { re := .cat [.lit '.', E.words exts, .eol], name := c!"container", groups := [], children := false, validateAll := false,
    format := fun _ t => .ok (stripChars seps t), parentValid := fun _ _ => true, childValid := fun _ _ => true }

/-- container.py:40-44, with the tag that tells the lists apart. -/
def extensionsFound (E : RxEnv) (C : Containers) (s : Str) : List (Str × RxMatch Str) :=
  ((extensionPattern E C.subtitles).found s).map (fun m => (c!"subtitle", m)) ++ ((extensionPattern E C.info).found s).map (fun m => (c!"info", m)) ++
  ((extensionPattern E C.videos).found s).map (fun m => (c!"video", m)) ++ ((extensionPattern E C.torrent).found s).map (fun m => (c!"torrent", m)) ++
  ((extensionPattern E C.nzb).found s).map (fun m => (c!"nzb", m))

/-- `rebulk.string(*words, ...)` with the defaults of container.py:46-53. -/
def namedPattern (u : Uni) (words : List Str) : StrPattern Str :=
  { words := words, name := c!"container", format := fun _ t => .ok (u.lower t), valid := surrounded }

/-- container.py:55-58, with the tag that tells the lists apart. -/
def namedFound (u : Uni) (C : Containers) (s : Str) : List (Str × RxMatch Str) :=
  ((namedPattern u (C.subtitles.filter fun w => !(w == c!"sub" || w == c!"ass"))).found u s).map (fun m => (c!"subtitle", m)) ++
  ((namedPattern u C.videos).found u s).map (fun m => (c!"video", m)) ++ ((namedPattern u C.torrent).found u s).map (fun m => (c!"torrent", m)) ++
  ((namedPattern u C.nzb).found u s).map (fun m => (c!"nzb", m))

end Guessit
