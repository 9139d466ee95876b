import Verif.Model.Options

/-!
# guessit/api.py — the API object as a state machine

Everything outside `api.py`/`options.py` enters through `Sys`: the argument parser, the rules builder and the matcher.
-/

namespace Guessit

/-- `bytes.decode('ascii')`. -/
def asciiDecode (b : List UInt8) : Except PyErr Str :=
  if b.all (fun x => x.toNat < 128) then .ok (b.map fun x => Char.ofNat x.toNat) else .error .unicodeError

/-- `str.encode('ascii')`. -/
def asciiEncode (s : Str) : Except PyErr (List UInt8) :=
  if s.all (fun c => c.toNat < 128) then .ok (s.map fun c => UInt8.ofNat c.toNat) else .error .unicodeError

/-- `_fix_encoding` on a key (api.py:123-127). -/
def fixKey : Key → Except PyErr Key
  | .str s => .ok (.str s)
  | .bytes b => match asciiDecode b with
    | .error e => .error e
    | .ok s => .ok (.str s)

mutual
/-- `GuessItApi._fix_encoding` (api.py:120-127): rebuilds every list and dictionary, decoding bytes. -/
def fixEncoding : PyVal → Except PyErr PyVal
  | .list xs => match fixList xs with
    | .error e => .error e
    | .ok ys => .ok (.list ys)
  | .dict d => match fixDict [] d with
    | .error e => .error e
    | .ok e => .ok (.dict e)
  | .bytes b => match asciiDecode b with
    | .error e => .error e
    | .ok s => .ok (.str s)
  | v => .ok v
termination_by structural v => v
/-- `[cls._fix_encoding(item) for item in value]` (api.py:122). -/
def fixList : List PyVal → Except PyErr (List PyVal)
  | [] => .ok []
  | x :: xs => match fixEncoding x with
    | .error e => .error e
    | .ok y => match fixList xs with
      | .error e => .error e
      | .ok ys => .ok (y :: ys)
termination_by structural l => l
/-- `{cls._fix_encoding(k): cls._fix_encoding(v) for k, v in value.items()}` (api.py:124): later duplicates overwrite. -/
def fixDict (acc : Dict) : List (Key × PyVal) → Except PyErr Dict
  | [] => .ok acc
  | e :: rest => match fixPair e with
    | .error e => .error e
    | .ok (k, v) => fixDict (acc.set k v) rest
termination_by structural l => l
/-- One entry of the comprehension. -/
def fixPair : Key × PyVal → Except PyErr (Key × PyVal)
  | (k, v) => match fixKey k with
    | .error e => .error e
    | .ok k' => match fixEncoding v with
      | .error e => .error e
      | .ok v' => .ok (k', v')
termination_by structural e => e
end

/-- `dict.get(value)` compared with `!=` for the three configuration keys (api.py:130-134, 161). -/
def sameLoadOptions (a b : Dict) : Bool :=
  [kConfig, kNoUser, kNoDefault].all fun k => pyEq (a.getD k) (b.getD k)

/-- What a caller may pass as `options`: nothing, a dictionary, an option string, or a list of arguments. -/
inductive OptArg where
  | none
  | dict (d : Dict)
  | str (s : Str)
  | argv (args : List Str)

/-- What a caller may pass as the name to guess (api.py:190-195 turns a `Path` into text). -/
inductive NameArg where
  | str (s : Str)
  | bytes (b : List UInt8)
  | path (s : Str)
  deriving DecidableEq

/-- A match as the output code sees it: span, property name and value. -/
structure OutMatch where
  start : Nat
  stop : Nat
  name : Str
  value : PyVal

/-- Everything the API uses that is not in api.py or options.py.  `R` is the type of built rules objects. -/
structure Sys (R : Type) where
  /-- `shlex.split` (options.py:127) -/
  shlexSplit : Str → Except PyErr (List Str)
  /-- `vars(argument_parser.parse_args(args))` (options.py:128, 135); `SystemExit` on a usage error or `--help` -/
  parseArgs : List Str → Except PyErr Dict
  /-- `rebulk_builder` (rules/__init__.py:40-99) -/
  build : Dict → Except PyErr R
  /-- `rebulk.matches(string, options)` -/
  rules : R → Str → Dict → Except PyErr (List OutMatch)
  /-- the part of `properties()` after configuration: `introspect`, ordering, `customize_properties` (api.py:239-245) -/
  introspect : R → Dict → Except PyErr PyVal

/-- `parse_options(options, True)` (options.py:115-136). -/
def parseOptions {R} (S : Sys R) : OptArg → Except PyErr Dict
  | .none => .ok []
  | .dict d => .ok d
  | .str s => match S.shlexSplit s with
    | .error e => .error e
    | .ok args => S.parseArgs args
  | .argv args => S.parseArgs args

/-- `options = parse_options(options, True); options = self._fix_encoding(options)` (api.py:155-156, 198-199). -/
def sanitize {R} (S : Sys R) (o : OptArg) : Except PyErr Dict :=
  match parseOptions S o with
  | .error e => .error e
  | .ok d => fixDict [] d

/-- The attributes of a `GuessItApi` object (api.py:106-111). -/
structure Api (R : Type) where
  rebulk : Option R
  config : Option Dict
  loadOpts : Option Dict
  adv : Option Dict

/-- `__init__` (api.py:106-111). -/
def Api.init {R : Type} : Api R := ⟨none, none, none, none⟩

/-- Where `configure` failed. -/
inductive ConfErr where
  | load (e : PyErr)     -- in `load_config` or the decoding of its result
  | merge (e : PyErr)    -- in merging the advanced configuration
  | build (e : PyErr)    -- in the rules builder
  deriving DecidableEq

def ConfErr.err : ConfErr → PyErr
  | .load e => e
  | .merge e => e
  | .build e => e

/-- Lines 158-166: reuse the configuration, or load it again and remember the options it was loaded for. -/
def chooseConfig {R} (env : Env) (st : Api R) (options : Dict) (force : Bool) : Except PyErr (Api R × Dict) :=
  let reload :=
    match loadConfig env options with
    | .error e => .error e
    | .ok c => match fixDict [] c with
      | .error e => .error e
      | .ok c' => .ok ({ st with loadOpts := some options }, c')
  match st.config, st.loadOpts with
  | some c, some lo => if force || !sameLoadOptions lo options then reload else .ok (st, c)
  | _, _ => reload

/-- `not self.advanced_config or self.advanced_config != advanced_config` (api.py:170-171). -/
def advChanged (old : Option Dict) (new : Dict) : Bool :=
  match old with
  | none => true
  | some a => a.isEmpty || !pyEq (.dict a) (.dict new)

/-- `GuessItApi.configure` on sanitized options (api.py:151-152, 158-178).  The state is returned also on failure,
because attributes are assigned before the failing statement.  `deepcopy` is the identity on values. -/
def Api.configure {R} (S : Sys R) (env : Env) (st : Api R) (options : Dict)
    (builder : Option (Dict → Except PyErr R)) (force : Bool) : Api R × Except ConfErr Dict :=
  match chooseConfig env st options force with
  | .error e => (st, .error (.load e))
  | .ok (st1, config) =>
    match mergeOptions [config.getD kAdvanced, options.getD kAdvanced] with
    | .error e => (st1, .error (.merge e))
    | .ok adv =>
      if force || st1.rebulk.isNone || advChanged st1.adv adv then
        let st2 := { st1 with adv := some adv }
        match (builder.getD S.build) adv with
        | .error e => (st2, .error (.build e))
        | .ok r => ({ st2 with rebulk := some r, config := some config }, .ok config)
      else ({ st1 with config := some config }, .ok config)

/-- Insertion of a match in a list sorted by span, after its equals: `sorted` is stable and `Match.__lt__` compares
spans (rebulk match.py). -/
def insertBySpan (m : OutMatch) : List OutMatch → List OutMatch
  | [] => [m]
  | x :: xs =>
    if m.start < x.start ∨ (m.start = x.start ∧ m.stop < x.stop) then m :: x :: xs else x :: insertBySpan m xs

/-- `sorted(matches)`. -/
def sortBySpan (ms : List OutMatch) : List OutMatch := ms.foldl (fun acc m => insertBySpan m acc) []

/-- One iteration of rebulk's `Matches.to_dict` loop (details=False). -/
def addValue (first enforce : Bool) (d : Dict) (m : OutMatch) : Dict :=
  let k := Key.str m.name
  match d.get? k with
  | some old =>
    if first then d else
    match old with
    | .list l => if pyIn m.value l then d else d.set k (.list (l ++ [m.value]))
    | v => if pyEq v m.value then d else d.set k (.list [v, m.value])
  | none =>
    match enforce, m.value with
    | true, .list l => d.set k (.list l)
    | true, v => d.set k (.list [v])
    | false, v => d.set k v

/-- `matches.to_dict(False, first_value, enforce_list)` of rebulk. -/
def toDict (first enforce : Bool) (ms : List OutMatch) : Dict := (sortBySpan ms).foldl (addValue first enforce) []

/-- `for match in matches: if isinstance(match.value, str): match.value = match.value.encode("ascii")` (api.py:214-217). -/
def encodeMatches : List OutMatch → Except PyErr (List OutMatch)
  | [] => .ok []
  | m :: ms =>
    let v := match m.value with
      | .str s => (asciiEncode s).map PyVal.bytes
      | v => .ok v
    match v with
    | .error e => .error e
    | .ok v => match encodeMatches ms with
      | .error e => .error e
      | .ok ms' => .ok ({ m with value := v } :: ms')

/-- The textual name (api.py:190-195, 205-207). -/
def NameArg.text : NameArg → Except PyErr Str
  | .str s => .ok s
  | .path s => .ok s
  | .bytes b => asciiDecode b

/-- `result_encode` (api.py:203-207). -/
def NameArg.isBytes : NameArg → Bool
  | .bytes _ => true
  | _ => false

/-- `matches_dict['input_string'] = matches.input_string` when asked (api.py:220-222). -/
def withInput (text : Str) (options d : Dict) : Dict :=
  if truthy (options.getD (.str c!"output_input_string")) then d.set (.str c!"input_string") (.str text) else d

/-- The body of the `try` of `guessit` after configuration (api.py:201-223).  Simplification: the `advanced` option,
which returns match objects instead of values, is not modelled (`details = False`). -/
def guessWith {R} (S : Sys R) (r : R) (config options : Dict) (name : NameArg) : Except PyErr Dict :=
  match mergeOptions [.dict config, .dict options] with
  | .error e => .error e
  | .ok opts =>
    match name.text with
    | .error e => .error e
    | .ok text =>
      match S.rules r text opts with
      | .error e => .error e
      | .ok ms =>
        match (if name.isBytes then encodeMatches ms else .ok ms) with
        | .error e => .error e
        | .ok ms =>
          .ok (withInput text opts (toDict (truthy (opts.getD (.str c!"single_value")))
            (truthy (opts.getD (.str c!"enforce_list"))) ms))

/-- What the caller of a public function sees. -/
inductive Outcome where
  | value (v : PyVal)                    -- a returned value (`None` for `configure`/`reset`)
  | guessitException (name : NameArg)    -- raised from `except Exception` (api.py:224-225)
  | raised (e : PyErr)                   -- any other exception reaching the caller

/-- `except Exception as err: raise GuessitException(string, options) from err` (api.py:224-225): `SystemExit` is not an
`Exception`. -/
def wrap (name : NameArg) : PyErr → Outcome
  | .systemExit => .raised .systemExit
  | _ => .guessitException name

/-- `GuessItApi.guessit` (api.py:180-225). -/
def Api.guessit {R} (S : Sys R) (env : Env) (st : Api R) (name : NameArg) (o : OptArg) : Api R × Outcome :=
  match sanitize S o with
  | .error e => (st, wrap name e)
  | .ok options =>
    match st.configure S env options none false with
    | (st', .error e) => (st', wrap name e.err)
    | (st', .ok config) =>
      match st'.rebulk with
      | none => (st', wrap name .attributeError)     -- `None.matches`: unreachable after a successful configure
      | some r =>
        match guessWith S r config options name with
        | .error e => (st', wrap name e)
        | .ok d => (st', .value (.dict d))

/-- `GuessItApi.properties` (api.py:227-245). -/
def Api.properties {R} (S : Sys R) (env : Env) (st : Api R) (o : OptArg) : Api R × Outcome :=
  match sanitize S o with
  | .error e => (st, .raised e)
  | .ok options =>
    match st.configure S env options none false with
    | (st', .error e) => (st', .raised e.err)
    | (st', .ok config) =>
      match mergeOptions [.dict config, .dict options] with
      | .error e => (st', .raised e)
      | .ok opts =>
        match st'.rebulk with
        | none => (st', .raised .attributeError)
        | some r =>
          match S.introspect r opts with
          | .error e => (st', .raised e)
          | .ok v => (st', .value v)

/-- Public `configure(options, rules_builder, force)` (api.py:42-54, 136-178). -/
def Api.configurePublic {R} (S : Sys R) (env : Env) (st : Api R) (o : OptArg)
    (builder : Option (Dict → Except PyErr R)) (force : Bool) : Api R × Outcome :=
  match sanitize S o with
  | .error e => (st, .raised e)
  | .ok options =>
    match st.configure S env options builder force with
    | (st', .error e) => (st', .raised e.err)
    | (st', .ok _) => (st', .value .none)

/-- One public call. -/
inductive Call (R : Type) where
  | configure (o : OptArg) (builder : Option (Dict → Except PyErr R)) (force : Bool)
  | guessit (name : NameArg) (o : OptArg)
  | properties (o : OptArg)
  | reset

/-- Executing one public call (api.py:113-117, 136-245). -/
def Api.step {R} (S : Sys R) (env : Env) (st : Api R) : Call R → Api R × Outcome
  | .configure o b f => st.configurePublic S env o b f
  | .guessit n o => st.guessit S env n o
  | .properties o => st.properties S env o
  | .reset => (Api.init, .value .none)

/-- A history of calls, each made in the environment of its moment. -/
def Api.run {R} (S : Sys R) (st : Api R) : List (Env × Call R) → Api R × List Outcome
  | [] => (st, [])
  | (env, c) :: rest =>
    let r := st.step S env c
    let r' := Api.run S r.1 rest
    (r'.1, r.2 :: r'.2)

/-- `len(guess) != 2 or 'title' not in guess` (api.py:260). -/
def notBareTitle (d : Dict) : Bool := d.length != 2 || (d.get? (.str c!"title")).isNone

/-- `suggested_expected` (api.py:247-263): the titles whose guess is not a bare title; a failing guess propagates. -/
def Api.suggestedExpected {R} (S : Sys R) (env : Env) (st : Api R) (o : OptArg) :
    List NameArg → Api R × Except Outcome (List NameArg)
  | [] => (st, .ok [])
  | t :: ts =>
    match st.guessit S env t o with
    | (st', .value (.dict d)) =>
      match Api.suggestedExpected S env st' o ts with
      | (st'', .error e) => (st'', .error e)
      | (st'', .ok l) => (st'', .ok (if notBareTitle d then t :: l else l))
    | (st', out) => (st', .error out)

end Guessit
