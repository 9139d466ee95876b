import Verif.Model.Declared
import Verif.Spec.Values
import Verif.Spec.Finders
import Verif.Spec.Date
import Verif.Spec.Amounts

/-!
# Specification: values that are objects (C160, C161)

Uses from the model only the tables of what is outside guessit (`Outside`), the type of dictionaries and `fromString` (C29, C30).
-/

namespace Guessit.Spec

/-- The properties whose values are dates, countries, languages and quantities. -/
def objectNames : List Str := [c!"date", c!"country", c!"language", c!"subtitle_language", c!"size", c!"audio_bit_rate", c!"video_bit_rate"]

/-- The option `key` is a list, and `a` is in it. -/
def InOption (g : Dict) (key a : Str) : Prop := ∃ l, g.getD (.str key) = .list l ∧ PyVal.str a ∈ l

/-- The name or a code of the language is in `allowed_languages`, up to case. -/
def LanguageAllowed (O : Outside) (g : Dict) (l : Nat) : Prop := ∃ a, InOption g c!"allowed_languages" a ∧
  ((∃ n, O.langs.name l = some n ∧ O.rx.u.lower n = O.rx.u.lower a) ∨ (∃ n, O.langs.alpha2 l = some n ∧ O.rx.u.lower n = O.rx.u.lower a) ∨
    O.rx.u.lower (O.langs.alpha3 l) = O.rx.u.lower a)

/-- The name or the code of the country is in `allowed_countries`, up to case. -/
def CountryAllowed (O : Outside) (g : Dict) (c : Nat) : Prop := ∃ a, InOption g c!"allowed_countries" a ∧
  (O.rx.u.lower (O.countries.name c) = O.rx.u.lower a ∨ O.rx.u.lower (O.countries.alpha2 c) = O.rx.u.lower a)

/-- The date is plausible, and is the reading, by the parser and with flags that the options allow, of a date written in the name. -/
def DateOf (O : Outside) (g : Dict) (s : Str) (D : PyDate) : Prop := 1920 ≤ D.year ∧ D.year ≤ 2029 ∧ ∃ a b, a < b ∧ b ≤ s.length ∧
  ∃ compact t d y, DateText O.rx.u compact (textOf s a b) t ∧ Surrounded O.rx.u compact s a b ∧ O.parse t d y = .ok D ∧
    FlagsAllowed (boolOption g c!"date_year_first") (boolOption g c!"date_day_first") d y

/-- The country is allowed and named by a word of the name, in lower case and without the spaces around the name. -/
def CountryOf (O : Outside) (g : Dict) (s : Str) (c : Nat) : Prop := CountryAllowed O g c ∧
  ∃ a b, IsWholeWord (O.rx.u.lower (O.rx.u.strip s)) a b ∧ O.countries.fromGuessit (textOf (O.rx.u.lower (O.rx.u.strip s)) a b) = some c

/-- What may be found under such a name. -/
def ObjectOf (O : Outside) (g : Dict) (s : Str) (n : Str) (v : MVal) : Prop :=
  (n = c!"date" ∧ ∃ D, DateOf O g s D ∧ v = .obj (O.codes.date D)) ∨
  (n = c!"country" ∧ ∃ c, CountryOf O g s c ∧ v = .obj (O.codes.country c)) ∨
  ((n = c!"language" ∨ n = c!"subtitle_language") ∧ ∃ l, LanguageAllowed O g l ∧
    ((l ≠ O.langs.und ∧ v = .obj (O.codes.language l)) ∨ (l = O.langs.und ∧ ∃ t, O.langs.fromGuessit t = some l ∧ v = .str t)))

/-- The quantity is written in the name, between separators: a number, whole or decimal, at most one separator and a unit. -/
def WrittenAs (O : Outside) (units : List (Str × Str)) (cls : QClass) (s : Str) (q : Quantity O.fl) : Prop :=
  ∃ a b v u, Standing s a b ∧ Measured O.rx O.fl units s a b v u ∧ q = ⟨cls, v, u⟩

/-- What may be found under the name of a quantity. -/
def AmountOf (O : Outside) (s : Str) (n : Str) (v : MVal) : Prop :=
  (n = c!"size" ∧ ∃ q, WrittenAs O sizeUnits .size s q ∧ v = .obj (O.codes.quantity q)) ∨
  ((n = c!"audio_bit_rate" ∨ n = c!"video_bit_rate") ∧ ∃ q, WrittenAs O rateUnits .bitRate s q ∧ v = .obj (O.codes.quantity q))

end Guessit.Spec
