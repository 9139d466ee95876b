import Verif.Model.Finders
import Verif.Model.Api

/-!
# guessit's babelfish converters (country.py:48-87, language.py:78-127) and where they are registered
-/

namespace Guessit

/-- A language code as the converters return it. -/
structure LangCode where
  alpha3 : Str
  country : Option Str
  script : Option Str
  deriving DecidableEq, Repr

/-- What the converters ask of babelfish.  `none`: the documented exception (`ValueError`, `CountryReverseError`,
`LanguageReverseError`) is raised. -/
structure Babel where
  /-- `Country(code).alpha2` -/
  country : Str → Option Str
  /-- `str(Country(alpha2))` -/
  countryText : Str → Option Str
  /-- `Country.fromname(name).alpha2` -/
  countryName : Str → Option Str
  /-- the readers `Language`, `fromalpha3b`, `fromalpha2`, `fromname`, `fromopensubtitles`, `fromietf` in this order -/
  languages : List (Str → Option LangCode)

/-- A dictionary filled by assignments, newest first: `d[k] = v` is `(k, v) :: d` and reading takes the newest. -/
abbrev Assigned (α : Type) := List (Str × α)

/-- `for syn in synlist: self.guessit_exceptions[syn.lower()] = value` (country.py:53-54, language.py:92-93). -/
def assignAll {α : Type} (u : Uni) (d : Assigned α) (v : α) : List Str → Assigned α
  | [] => d
  | s :: ss => assignAll u ((u.lower s, v) :: d) v ss

/-- `GuessitCountryConverter.__init__` (country.py:49-54). -/
def countryExceptions (u : Uni) (synonyms : List (Str × List Str)) : Assigned Str :=
  synonyms.foldl (fun d e => assignAll u d e.1 e.2) []

/-- `GuessitCountryConverter.reverse(name)` (country.py:68-87); `none`: `CountryReverseError`. -/
def reverseCountry (u : Uni) (b : Babel) (synonyms : List (Str × List Str)) (name : Str) : Option Str :=
  match List.lookup (u.lower name) (countryExceptions u synonyms) with
  | some a => some a
  | none => match b.country (u.upper name) with
    | some a => some a
    | none => b.countryName name

/-- `GuessitCountryConverter.convert(alpha2)` (country.py:63-66); `none`: `ValueError`. -/
def convertCountry (b : Babel) (alpha2 : Str) : Option Str :=
  if alpha2 = c!"GB" then some c!"UK" else b.countryText alpha2

/-- The synonyms among `GuessitCountryConverter.codes` (country.py:58-61) and `GuessitConverter.codes`
(language.py:95-101); the rest of `codes` comes from babelfish. -/
def synonymCodes {α : Type} (d : Assigned α) : List Str := d.map Prod.fst

/-- `(alpha3, country) = code.split('_') if '_' in code else (code, None)` (language.py:88-91): the parts before and after the
first underscore when there is no second one; `none`: too many values to unpack, `ValueError`. -/
def splitCode (code : Str) : Option LangCode :=
  match code.dropWhile (· ≠ '_') with
  | [] => some ⟨code, none, none⟩
  | _ :: rest => if '_' ∈ rest then none else some ⟨code.takeWhile (· ≠ '_'), some rest, none⟩

/-- `GuessitConverter.__init__` (language.py:85-93); `none`: `ValueError`. -/
def languageExceptions (u : Uni) (d : Assigned LangCode) : List (Str × List Str) → Option (Assigned LangCode)
  | [] => some d
  | e :: rest => match splitCode e.1 with
    | none => none
    | some c => languageExceptions u (assignAll u d c e.2) rest

/-- `for conv in [...]: try: ... except ...: pass` (language.py:116-126). -/
def firstReader (n : Str) : List (Str → Option LangCode) → Option LangCode
  | [] => none
  | r :: rs => match r n with
    | some c => some c
    | none => firstReader n rs

/-- `GuessitConverter.reverse(name)` on the table built by the constructor (language.py:106-127); `none`:
`LanguageReverseError`. -/
def reverseLanguage (u : Uni) (b : Babel) (exceptions : Assigned LangCode) (name : Str) : Option LangCode :=
  match List.lookup (u.lower name) exceptions with
  | some c => some c
  | none => firstReader (u.lower name) b.languages

/-! ## The registry

`babelfish.country_converters['guessit'] = …` and `babelfish.language_converters['guessit'] = …` (country.py:43,
language.py:73) are attributes of the babelfish module: every API object of the process shares them. -/

/-- The rules as they run: they consult the registry, which holds the converters of some advanced configuration. -/
structure SharedSys (R : Type) where
  base : Sys R
  /-- `rebulk.matches(string, options)` when the registry holds the converters of this configuration -/
  rulesWith : Option Dict → R → Str → Dict → Except PyErr (List OutMatch)
  /-- what the registry holds after a builder that failed on this configuration: it may have registered converters before -/
  afterFailure : Option Dict → Dict → Option Dict

/-- The system seen while the registry holds `reg`. -/
def SharedSys.sys {R : Type} (S : SharedSys R) (reg : Option Dict) : Sys R := { S.base with rules := S.rulesWith reg }

/-- The configuration given to the rules builder by `configure`, if it gets that far (api.py:158-174). -/
def buildsFrom {R : Type} (env : Env) (st : Api R) (options : Dict) (force : Bool) : Option Dict :=
  match chooseConfig env st options force with
  | .error _ => none
  | .ok (st1, config) =>
    match mergeOptions [config.getD kAdvanced, options.getD kAdvanced] with
    | .error _ => none
    | .ok adv => if force || st1.rebulk.isNone || advChanged st1.adv adv then some adv else none

/-- The same for a public call with the default builder. -/
def callBuilds {R : Type} (S : Sys R) (env : Env) (st : Api R) : Call R → Option Dict
  | .reset => none
  | .configure o _ f => match sanitize S o with
    | .error _ => none
    | .ok d => buildsFrom env st d f
  | .guessit _ o => match sanitize S o with
    | .error _ => none
    | .ok d => buildsFrom env st d false
  | .properties o => match sanitize S o with
    | .error _ => none
    | .ok d => buildsFrom env st d false

/-- A process: its API objects, and what the registry holds. -/
structure Process (R : Type) where
  apis : Nat → Api R
  registry : Option Dict

/-- A call on object `i`.  The rules builder registers its converters before the guess runs (api.py:174, country.py:43,
language.py:73). -/
def Process.step {R : Type} (S : SharedSys R) (env : Env) (p : Process R) (i : Nat) (c : Call R) : Process R × Outcome :=
  let reg := match callBuilds S.base env (p.apis i) c with
    | none => p.registry
    | some adv => match S.base.build adv with
      | .ok _ => some adv
      | .error _ => S.afterFailure p.registry adv
  let r := (p.apis i).step (S.sys reg) env c
  (⟨fun j => if j = i then r.1 else p.apis j, reg⟩, r.2)

/-- A history of calls on the objects of a process. -/
def Process.run {R : Type} (S : SharedSys R) (p : Process R) : List (Env × Nat × Call R) → Process R
  | [] => p
  | (env, i, c) :: rest => Process.run S (p.step S env i c).1 rest

/-- The outcomes of a history, each with the object that was called. -/
def Process.outcomes {R : Type} (S : SharedSys R) (p : Process R) : List (Env × Nat × Call R) → List (Nat × Outcome)
  | [] => []
  | (env, i, c) :: rest => (i, (p.step S env i c).2) :: Process.outcomes S (p.step S env i c).1 rest

/-- A process in which nothing has been called. -/
def Process.init {R : Type} : Process R := ⟨fun _ => Api.init, none⟩

end Guessit
