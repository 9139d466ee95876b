import Verif.Model.Recognise
import Verif.Model.Quantity

/-! # guessit/rules/properties/size.py and bit_rate.py: their patterns -/

namespace Guessit

/-- `\d+` -/
def RxEnv.whole (E : RxEnv) : Re := .cat [E.digits]
/-- `\d+\.\d+` -/
def RxEnv.decimal (E : RxEnv) : Re := .cat [E.digits, .lit '.', E.digits]
/-- A class of letters under `re.IGNORECASE`. -/
def RxEnv.oneOf (E : RxEnv) (ls : Str) : Re := .chr fun c => ls.any fun l => E.same l c

/-- `[mgt]b` (size.py:27) -/
def RxEnv.sizeUnit (E : RxEnv) : Re := .seq (E.oneOf c!"mgt") (E.letter 'b')
/-- `[kmg]b(ps|its?)` (options.json, bit_rate) -/
def RxEnv.rateUnit (E : RxEnv) : Re :=
  .seq (E.oneOf c!"kmg") (.seq (E.letter 'b') (.grp 1 (.alt (E.word c!"ps") (.seq (E.word c!"it") (.opt (E.letter 's'))))))

/-- What `fromstring` needs of Python besides the tables of `E`. -/
def qenv (E : RxEnv) (cap : Str → Str) (fl : Floats) : QEnv := { u := E.u, cap := cap, fl := fl }

/-- A pattern for a magnitude, `-?` and a unit, with the defaults of size.py:25-27 and bit_rate.py:27-28. -/
def amountPattern (E : RxEnv) (cap : Str → Str) (fl : Floats) (name : Str) (cls : QClass) (mag unit : Re) : RxPattern (Quantity fl) :=
  { re := .cat [mag, dashRe, unit], name := name, groups := [], children := false, validateAll := false,
    format := fun _ t => fromString (qenv E cap fl) cls t, parentValid := surrounded, childValid := surrounded }

/-- The two patterns of one call of `rebulk.regex`: the matches of the first, then those of the second. -/
def amountsFound (E : RxEnv) (cap : Str → Str) (fl : Floats) (name : Str) (cls : QClass) (unit : Re) (s : Str) : List (RxMatch (Quantity fl)) :=
  (amountPattern E cap fl name cls E.whole unit).found s ++ (amountPattern E cap fl name cls E.decimal unit).found s

/-- size.py:27 -/
def sizesFound (E : RxEnv) (cap : Str → Str) (fl : Floats) (s : Str) : List (RxMatch (Quantity fl)) :=
  amountsFound E cap fl c!"size" .size E.sizeUnit s

/-- The `bit_rate` entry of options.json, loaded by bit_rate.py:30; its name is a default (bit_rate.py:28).  The group of the pattern is a
child that is not reported. -/
def bitRatesFound (E : RxEnv) (cap : Str → Str) (fl : Floats) (s : Str) : List (RxMatch (Quantity fl)) :=
  amountsFound E cap fl c!"audio_bit_rate" .bitRate E.rateUnit s

end Guessit
