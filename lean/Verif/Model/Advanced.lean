import Verif.Model.Api

/-!
# The `advanced` option

With `advanced` (`-a`), `guessit` reports for each match a dictionary instead of the value (guessit/monkeypatch.py).
-/

namespace Guessit

/-- A match as the output code sees it, with `match.raw`: the text of the match after `StripSeparators`. -/
structure Detailed where
  start : Nat
  stop : Nat
  name : Str
  value : PyVal
  raw : Str

/-- The match without its raw text. -/
def Detailed.plain (d : Detailed) : OutMatch := { start := d.start, stop := d.stop, name := d.name, value := d.value }

/-- `match_advanced` (monkeypatch.py:16-29). -/
def Detailed.advanced (d : Detailed) : PyVal :=
  .dict ((.str c!"value", d.value) :: ((if d.raw.isEmpty then [] else [(.str c!"raw", .str d.raw)]) ++
    [(.str c!"start", .int d.start), (.str c!"end", .int d.stop)]))

/-- `value = match.advanced if details else match.value` in rebulk's `Matches.to_dict`. -/
def Detailed.out (details : Bool) (d : Detailed) : OutMatch :=
  if details then { d.plain with value := d.advanced } else d.plain

/-- `matches.to_dict(details, first_value, enforce_list)`. -/
def toDictFull (details first enforce : Bool) (ms : List Detailed) : Dict := toDict first enforce (ms.map (Detailed.out details))

/-- api.py:214-217: only the value of a match is encoded, its raw text is a part of the input string. -/
def encodeDetailed : List Detailed → Except PyErr (List Detailed)
  | [] => .ok []
  | m :: ms =>
    let v := match m.value with
      | .str s => (asciiEncode s).map PyVal.bytes
      | v => .ok v
    match v with
    | .error e => .error e
    | .ok v => match encodeDetailed ms with
      | .error e => .error e
      | .ok ms' => .ok ({ m with value := v } :: ms')

/-- The body of `guessit` after configuration (api.py:201-223), `advanced` included; `find` is `self.rebulk.matches`. -/
def guessDetailed (find : Str → Dict → Except PyErr (List Detailed)) (config options : Dict) (name : NameArg) : Except PyErr Dict :=
  match mergeOptions [.dict config, .dict options] with
  | .error e => .error e
  | .ok opts =>
    match name.text with
    | .error e => .error e
    | .ok text =>
      match find text opts with
      | .error e => .error e
      | .ok ms =>
        match (if name.isBytes then encodeDetailed ms else .ok ms) with
        | .error e => .error e
        | .ok ms =>
          .ok (withInput text opts (toDictFull (truthy (opts.getD (.str c!"advanced")))
            (truthy (opts.getD (.str c!"single_value"))) (truthy (opts.getD (.str c!"enforce_list"))) ms))

end Guessit
