import Verif.Model.Conflicts
import Verif.Model.ReleaseGroup

/-!
# guessit/rules/properties/language.py: subtitle languages
-/

namespace Guessit

/-- `match.name == 'subtitle_language.prefix'`. -/
def isSubPrefix (m : Mt) : Bool := decide (m.name = some c!"subtitle_language.prefix")

/-- `match.name == 'subtitle_language.suffix'`. -/
def isSubSuffix (m : Mt) : Bool := decide (m.name = some c!"subtitle_language.suffix")

/-- The prefix of a language (language.py:379-390). -/
def subtitlePrefix (s : Ms) (lang : Mt) : Option Mt := match firstTrue (previous s.live lang isSubPrefix) with
  | some p => some p
  | none => match groupOf s lang with
    | none => none
    | some g => match firstTrue (previous s.live g isSubPrefix) with
      | some p => some p
      | none => firstIn s g.start lang.start isSubPrefix

/-- `to_rename` (language.py:376-392). -/
def prefixPairs (s : Ms) : List (Mt × Mt) :=
  (named s.live c!"language").filterMap fun lang => (subtitlePrefix s lang).map fun p => (p, lang)

/-- `to_remove` (language.py:377, 393-395). -/
def prefixRemoved (s : Ms) : List Mt :=
  (prefixPairs s).foldl (fun acc q => removeMatch s.input (acc ++ conflicting s.input s.live q.2) q.1)
    (named s.live c!"subtitle_language.prefix")

/-- A turn of the loop of `then` (language.py:403-411); `none`: `matches.remove` raises `ValueError`. -/
def prefixStep (input : Str) (acc : Option (List Mt)) (q : Mt × Mt) : Option (List Mt) := match acc with
  | none => none
  | some l =>
    let l' := removeMatch input l { q.1 with name := some c!"subtitle_language.suffix" }
    if hasMatch input l' q.2 then some (removeMatch input l' q.2 ++ [{ q.2 with name := some c!"subtitle_language" }]) else none

/-- `SubtitlePrefixLanguageRule` (language.py:363-411). -/
def subtitlePrefixRule (s : Ms) : Option Ms :=
  ((prefixPairs s).foldl (prefixStep s.input) (some (removeAll s.input s.live (prefixRemoved s)))).map fun l => { s with live := l }

/-- The suffix of a language (language.py:430). -/
def subtitleSuffix (s : Ms) (lang : Mt) : Option Mt := firstTrue (nextOf s.input s.live lang isSubSuffix)

/-- `to_append` with the suffixes (language.py:429-432). -/
def suffixPairs (s : Ms) : List (Mt × Mt) :=
  (named s.live c!"language").filterMap fun lang => (subtitleSuffix s lang).map fun p => (p, lang)

/-- A turn of the loop of `then` (language.py:442-445). -/
def suffixStep (input : Str) (acc : Option (List Mt)) (lang : Mt) : Option (List Mt) := match acc with
  | none => none
  | some l => if hasMatch input l lang then some (removeMatch input l lang ++ [{ lang with name := some c!"subtitle_language" }]) else none

/-- `SubtitleSuffixLanguageRule` (language.py:414-445); `none`: `matches.remove` raises `ValueError`. -/
def subtitleSuffixRule (s : Ms) : Option Ms :=
  let unused := removeAll s.input (named s.live c!"subtitle_language.suffix") ((suffixPairs s).map Prod.fst)
  (((suffixPairs s).map Prod.snd).foldl (suffixStep s.input) (some (removeAll s.input s.live unused))).map fun l => { s with live := l }

/-- `weak.private = True` (language.py:472-473). -/
def hideWeak (m : Mt) : Mt :=
  if m.name = some c!"subtitle_language" ∧ c!"weak-language" ∈ m.tags then { m with priv := true } else m

/-- `SubtitleExtensionRule` (language.py:448-475), with `consequence = [RemoveMatch, RenameMatch('subtitle_language')]`. -/
def subtitleExtension (s : Ms) : Ms :=
  match firstTrue ((named s.live c!"container").filter fun m => m.tags.contains c!"extension" && m.tags.contains c!"subtitle") with
  | none => s
  | some ext => match firstTrue (previous s.live ext fun m => decide (m.name = some c!"language")) with
    | none => s
    | some lang =>
      let l := s.live.map hideWeak
      let sources := (conflicting s.input s.live lang).filter fun m => decide (m.name = some c!"source")
      { s with live := renameAll s.input c!"subtitle_language" (removeAll s.input l sources) [lang] }

end Guessit
