import Verif.Model.Converters
import Verif.Spec.Api

/-!
# Synonyms of languages and countries
-/

namespace Guessit.Spec

open Guessit

/-- The synonyms in the order written, each with its code. -/
def synonymPairs (synonyms : List (Str × List Str)) : List (Str × Str) := synonyms.flatMap fun e => e.2.map fun s => (s, e.1)

/-- The last synonym written that is `name` up to case belongs to `code`. -/
def SynonymFor (u : Uni) (synonyms : List (Str × List Str)) (name code : Str) : Prop :=
  ∃ (before : List (Str × Str)) (text : Str) (after : List (Str × Str)), synonymPairs synonyms = before ++ (text, code) :: after ∧
    u.lower text = u.lower name ∧ ∀ p ∈ after, u.lower p.1 ≠ u.lower name

/-- The name is a synonym. -/
def IsSynonym (u : Uni) (synonyms : List (Str × List Str)) (name : Str) : Prop :=
  ∃ p ∈ synonymPairs synonyms, u.lower p.1 = u.lower name

/-- The country a name denotes: that of a synonym, else the country with this code, else the country with this name. -/
def CountryIs (u : Uni) (b : Babel) (synonyms : List (Str × List Str)) (name code : Str) : Prop :=
  SynonymFor u synonyms name code ∨
  (¬ IsSynonym u synonyms name ∧
    (b.country (u.upper name) = some code ∨ (b.country (u.upper name) = none ∧ b.countryName name = some code)))

/-- A language code `xxx` or `xxx_CC`. -/
def CodeReads (code : Str) (c : LangCode) : Prop :=
  c.script = none ∧ ((c.country = none ∧ code = c.alpha3 ∧ '_' ∉ code) ∨
    ∃ cc, c.country = some cc ∧ code = c.alpha3 ++ '_' :: cc ∧ '_' ∉ c.alpha3 ∧ '_' ∉ cc)

/-- The language a name denotes: that of a synonym, else what the first reader that accepts the name in lower case reads. -/
def LanguageIs (u : Uni) (b : Babel) (synonyms : List (Str × List Str)) (name : Str) (c : LangCode) : Prop :=
  (∃ code, SynonymFor u synonyms name code ∧ CodeReads code c) ∨
  (¬ IsSynonym u synonyms name ∧ ∃ before reader after, b.languages = before ++ reader :: after ∧
    reader (u.lower name) = some c ∧ ∀ r ∈ before, r (u.lower name) = none)

/-- The calls of one object in a history of a process. -/
def callsOn {R : Type} (i : Nat) (h : List (Env × Nat × Call R)) : List (Env × Call R) :=
  h.filterMap fun e => if e.2.1 = i then some (e.1, e.2.2) else none

/-- Every configuration given to the rules builder along a history satisfies `P`. -/
def BuildsOnly {R : Type} (S : SharedSys R) (P : Dict → Prop) : Process R → List (Env × Nat × Call R) → Prop
  | _, [] => True
  | p, (env, i, c) :: rest => (∀ adv, callBuilds S.base env (p.apis i) c = some adv → P adv) ∧
      BuildsOnly S P (p.step S env i c).1 rest

end Guessit.Spec
