import Verif.Model.Recognise
import Verif.Model.Finders

/-! # guessit/rules/properties/website.py: its patterns -/

namespace Guessit

/-- `text.split('\n')` -/
def splitLines : Str → List Str
  | [] => [[]]
  | c :: s => if c = '\n' then [] :: splitLines s else match splitLines s with
    | [] => [[c]]
    | w :: ws => (c :: w) :: ws

/-- `'--' in line` -/
def hasDashes : Str → Bool
  | '-' :: '-' :: _ => true
  | _ :: s => hasDashes s
  | [] => false

/-- `[tld.strip() for tld in tld_file.split('\n') if '--' not in tld][1:]` (website.py:35-39). -/
def readTlds (u : Uni) (text : Str) : List Str := (((splitLines text).filter fun l => !hasDashes l).map u.strip).drop 1

/-- What website.py:34-43 reads; the words are literal texts (options.json has only letters, and so has the file). -/
structure SiteConfig where
  tlds : List Str
  safeTlds : List Str
  subdomains : List Str
  prefixes : List Str

/-- `a` to `z` and `0` to `9`. -/
def siteAlnum : Str := c!"abcdefghijklmnopqrstuvwxyz0123456789"

/-- `[^a-z0-9]` under `re.IGNORECASE` -/
def RxEnv.notAlnum (E : RxEnv) : Re := .chr fun c => !siteAlnum.any fun l => E.same l c
/-- `[a-z0-9-]+\.` -/
def RxEnv.labelDot (E : RxEnv) : Re := .seq (.rep (.chr fun c => (siteAlnum ++ c!"-").any fun l => E.same l c) 1 none) (.lit '.')
/-- `(?:...)\.` with one of some words. -/
def RxEnv.wordDot (E : RxEnv) (ws : List Str) : Re := .seq (E.words ws) (.lit '.')
/-- `(?:[^a-z0-9]|^)(...)(?:[^a-z0-9]|$)` -/
def RxEnv.siteAround (E : RxEnv) (body : Re) : Re := .cat [.alt E.notAlnum .bol, .grp 1 body, .alt E.notAlnum .eol]

/-- website.py:45-48: known subdomains, labels and a registered extension. -/
def RxEnv.knownSite (E : RxEnv) (C : SiteConfig) : Re := .cat [.rep (E.wordDot C.subdomains) 1 none, .rep E.labelDot 1 none, E.words C.tlds]
/-- website.py:49-52: a label and a safe extension. -/
def RxEnv.safeSite (E : RxEnv) (C : SiteConfig) : Re := .cat [.rep (E.wordDot C.subdomains) 0 none, E.labelDot, E.words C.safeTlds]
/-- website.py:53-57: a label, safe prefixes and a registered extension. -/
def RxEnv.prefixedSite (E : RxEnv) (C : SiteConfig) : Re :=
  .cat [.rep (E.wordDot C.subdomains) 0 none, E.labelDot, .rep (E.wordDot C.prefixes) 1 none, E.words C.tlds]

/-- A `rebulk.regex(...)` call with the defaults of website.py:31-32: no validator, no formatter. -/
def sitePattern (re : Re) : RxPattern Str :=
  { re := re, name := c!"website", groups := [(1, c!"website")], children := true, validateAll := false, format := rawText,
    parentValid := fun _ _ => true, childValid := fun _ _ => true }

/-- The websites of the three patterns (website.py:45-57). -/
def sitesFound (E : RxEnv) (C : SiteConfig) (s : Str) : List (RxMatch Str) :=
  [E.knownSite C, E.safeSite C, E.prefixedSite C].flatMap fun r => (sitePattern (E.siteAround r)).found s

/-- The extensions read from data/tlds-alpha-by-domain.txt (300 of them; the last is empty). -/
def defaultTlds : List Str := [
  c!"AC", c!"AD", c!"AE", c!"AERO", c!"AF", c!"AG", c!"AI", c!"AL", c!"AM", c!"AN", c!"AO", c!"AQ", c!"AR", c!"ARPA", c!"AS", c!"ASIA", c!"AT", c!"AU",
  c!"AW", c!"AX", c!"AZ", c!"BA", c!"BB", c!"BD", c!"BE", c!"BF", c!"BG", c!"BH", c!"BI", c!"BIKE", c!"BIZ", c!"BJ", c!"BM", c!"BN", c!"BO", c!"BR",
  c!"BS", c!"BT", c!"BV", c!"BW", c!"BY", c!"BZ", c!"CA", c!"CAMERA", c!"CAT", c!"CC", c!"CD", c!"CF", c!"CG", c!"CH", c!"CI", c!"CK", c!"CL",
  c!"CLOTHING", c!"CM", c!"CN", c!"CO", c!"COM", c!"CONSTRUCTION", c!"CONTRACTORS", c!"COOP", c!"CR", c!"CU", c!"CV", c!"CW", c!"CX", c!"CY", c!"CZ",
  c!"DE", c!"DIAMONDS", c!"DIRECTORY", c!"DJ", c!"DK", c!"DM", c!"DO", c!"DZ", c!"EC", c!"EDU", c!"EE", c!"EG", c!"ENTERPRISES", c!"EQUIPMENT", c!"ER",
  c!"ES", c!"ESTATE", c!"ET", c!"EU", c!"FI", c!"FJ", c!"FK", c!"FM", c!"FO", c!"FR", c!"GA", c!"GALLERY", c!"GB", c!"GD", c!"GE", c!"GF", c!"GG",
  c!"GH", c!"GI", c!"GL", c!"GM", c!"GN", c!"GOV", c!"GP", c!"GQ", c!"GR", c!"GRAPHICS", c!"GS", c!"GT", c!"GU", c!"GURU", c!"GW", c!"GY", c!"HK",
  c!"HM", c!"HN", c!"HOLDINGS", c!"HR", c!"HT", c!"HU", c!"ID", c!"IE", c!"IL", c!"IM", c!"IN", c!"INFO", c!"INT", c!"IO", c!"IQ", c!"IR", c!"IS",
  c!"IT", c!"JE", c!"JM", c!"JO", c!"JOBS", c!"JP", c!"KE", c!"KG", c!"KH", c!"KI", c!"KITCHEN", c!"KM", c!"KN", c!"KP", c!"KR", c!"KW", c!"KY", c!"KZ",
  c!"LA", c!"LAND", c!"LB", c!"LC", c!"LI", c!"LIGHTING", c!"LK", c!"LR", c!"LS", c!"LT", c!"LU", c!"LV", c!"LY", c!"MA", c!"MC", c!"MD", c!"ME", c!"MG",
  c!"MH", c!"MIL", c!"MK", c!"ML", c!"MM", c!"MN", c!"MO", c!"MOBI", c!"MP", c!"MQ", c!"MR", c!"MS", c!"MT", c!"MU", c!"MUSEUM", c!"MV", c!"MW", c!"MX",
  c!"MY", c!"MZ", c!"NA", c!"NAME", c!"NC", c!"NE", c!"NET", c!"NF", c!"NG", c!"NI", c!"NL", c!"NO", c!"NP", c!"NR", c!"NU", c!"NZ", c!"OM", c!"ORG",
  c!"PA", c!"PE", c!"PF", c!"PG", c!"PH", c!"PHOTOGRAPHY", c!"PK", c!"PL", c!"PLUMBING", c!"PM", c!"PN", c!"POST", c!"PR", c!"PRO", c!"PS", c!"PT",
  c!"PW", c!"PY", c!"QA", c!"RE", c!"RO", c!"RS", c!"RU", c!"RW", c!"SA", c!"SB", c!"SC", c!"SD", c!"SE", c!"SEXY", c!"SG", c!"SH", c!"SI", c!"SINGLES",
  c!"SJ", c!"SK", c!"SL", c!"SM", c!"SN", c!"SO", c!"SR", c!"ST", c!"SU", c!"SV", c!"SX", c!"SY", c!"SZ", c!"TATTOO", c!"TC", c!"TD", c!"TECHNOLOGY",
  c!"TEL", c!"TF", c!"TG", c!"TH", c!"TIPS", c!"TJ", c!"TK", c!"TL", c!"TM", c!"TN", c!"TO", c!"TODAY", c!"TP", c!"TR", c!"TRAVEL", c!"TT", c!"TV",
  c!"TW", c!"TZ", c!"UA", c!"UG", c!"UK", c!"US", c!"UY", c!"UZ", c!"VA", c!"VC", c!"VE", c!"VENTURES", c!"VG", c!"VI", c!"VN", c!"VOYAGE", c!"VU",
  c!"WF", c!"WS", c!"XXX", c!"YE", c!"YT", c!"ZA", c!"ZM", c!"ZW", c!""]

/-- config/options.json, website. -/
def defaultSites : SiteConfig where
  tlds := defaultTlds
  safeTlds := [c!"com", c!"net", c!"org"]
  subdomains := [c!"www"]
  prefixes := [c!"co", c!"com", c!"net", c!"org"]

end Guessit
