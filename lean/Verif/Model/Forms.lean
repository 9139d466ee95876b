import Verif.Model.Phrases

/-!
# Expressions with groups: sources and a few more

`source.py` and some entries of options.json are regular expressions without repetition, as in Model/Phrases, but with named
groups and with conditions on what follows.
-/

namespace Guessit

/-- A regular expression without repetition, with groups. -/
inductive Form where
  | nil
  | sym (x : Sym)
  | seq (a b : Form)
  | alt (a b : Form)
  | opt (a : Form)
  /-- a group and its number -/
  | grp (n : Nat) (a : Form)
  /-- `(?=...)` -/
  | ahead (p : Phrase)
  /-- `(?:$|(?!x))` -/
  | unless (x : Sym)
  deriving DecidableEq, Repr

/-- The same, without groups. -/
def Phrase.form : Phrase → Form
  | .nil => .nil
  | .sym x => .sym x
  | .seq a b => .seq a.form b.form
  | .alt a b => .alt a.form b.form
  | .opt a => .opt a.form

/-- The expression.  `(?!x)` holds at the end, where `$` does too, and elsewhere asks for a character that is not `x`; both take nothing. -/
def Form.re (E : RxEnv) : Form → Re
  | .nil => .eps
  | .sym x => .chr (x.is E)
  | .seq a b => .seq (a.re E) (b.re E)
  | .alt a b => .alt (a.re E) (b.re E)
  | .opt a => .opt (a.re E)
  | .grp n a => .grp n (a.re E)
  | .ahead p => .look (p.re E)
  | .unless x => .look (.alt .eol (.chr fun c => !x.is E c))

/-- The name of a group, up to `>`. -/
def untilAngle : Str → Str × Str
  | [] => ([], [])
  | '>' :: r => ([], r)
  | c :: r => (c :: (untilAngle r).1, (untilAngle r).2)

mutual
/-- Alternatives, as `parseAlts`.  The group without a name is number 0, and the others have the place of their name in `names`, from 1. -/
def formAlts (names : List Str) : Nat → Str → Option (Form × Str)
  | 0, _ => none
  | f + 1, s => match formSeq names f s with
    | some (p, '|' :: r) => (formAlts names f r).map fun x => (.alt p x.1, x.2)
    | x => x
/-- A sequence. -/
def formSeq (names : List Str) : Nat → Str → Option (Form × Str)
  | 0, _ => none
  | _ + 1, [] => some (.nil, [])
  | f + 1, c :: s => if c = '|' ∨ c = ')' then some (.nil, c :: s) else match formItem names f (c :: s) with
    | some (p, r) => (formSeq names f r).map fun x => (.seq p x.1, x.2)
    | none => none
/-- One thing, perhaps with `?`. -/
def formItem (names : List Str) : Nat → Str → Option (Form × Str)
  | 0, _ => none
  | f + 1, s => match formAtom names f s with
    | some (p, '?' :: r) => some (.opt p, r)
    | x => x
/-- One thing. -/
def formAtom (names : List Str) : Nat → Str → Option (Form × Str)
  | 0, _ => none
  | f + 1, s => match s with
    | '(' :: '?' :: ':' :: '$' :: '|' :: '(' :: '?' :: '!' :: c :: ')' :: ')' :: r => some (.unless (.lit c.toLower), r)
    | '(' :: '?' :: ':' :: r => match formAlts names f r with
      | some (p, ')' :: r') => some (p, r')
      | _ => none
    | '(' :: '?' :: '=' :: r => match parseAlts f r with
      | some (p, ')' :: r') => some (.ahead p, r')
      | _ => none
    | '(' :: '?' :: 'P' :: '<' :: r => match formAlts names f (untilAngle r).2 with
      | some (p, ')' :: r') => some (.grp (names.idxOf (untilAngle r).1 + 1) p, r')
      | _ => none
    | '(' :: '?' :: _ => none
    | '(' :: r => match formAlts names f r with
      | some (p, ')' :: r') => some (.grp 0 p, r')
      | _ => none
    | '[' :: r => (parseClass r).map fun x => (x.1.form, x.2)
    | '\\' :: 'd' :: r => some (.sym .digit, r)
    | '-' :: r => some (.sym .dash, r)
    | '.' :: r => some (.sym .any, r)
    | c :: r => if c ∈ c!"\\{}+*?^$|)]" then none else some (.sym (.lit c.toLower), r)
    | [] => none
end

/-- A whole expression. -/
def parseForm (names : List Str) (s : Str) : Option Form := match formAlts names (4 * s.length + 4) s with
  | some (p, []) => some p
  | _ => none

/-- `optional` (rules/common/__init__.py:18-22) -/
def optionalText (pattern : Str) : Str := c!"(?:" ++ pattern ++ c!")?"

/-- A declaration of some expressions with groups: the name of the pattern, the names of its groups, and a value for each name. -/
structure FormEntry where
  name : Str
  names : List Str
  values : List (Str × Str)
  regexes : List Str
  deriving Repr

/-- The groups and their names. -/
def FormEntry.groups (e : FormEntry) : List (Nat × Str) := (0, e.name) :: (List.range e.names.length).map fun n => (n + 1, e.names[n]?.getD [])

/-- `rebulk.regex(text, children=True, private_parent=True, validate_all=True, validator={'__parent__': valid}, value=values)`. -/
def FormEntry.pattern (E : RxEnv) (valid : Str → RxMatch Str → Bool) (e : FormEntry) (p : Form) : RxPattern Str :=
  { re := p.re E, name := e.name, groups := e.groups, children := true, validateAll := true, format := fun name _ => .ok ((e.values.lookup name).getD []),
    parentValid := valid, childValid := fun _ _ => true }

/-- What a list of declarations finds. -/
def formsFound (E : RxEnv) (valid : Str → RxMatch Str → Bool) (es : List FormEntry) (s : Str) : List (RxMatch Str) :=
  es.flatMap fun e => e.regexes.flatMap fun t => match parseForm e.names t with
    | some p => (e.pattern E valid p).found s
    | none => []

/-- `or_(seps_before, seps_after)` (source.py:31) -/
def eitherSide {V : Type} (s : Str) (m : RxMatch V) : Bool := charsBefore seps s m.start || charsAfter seps s m.stop

/-- `build_source_pattern` (source.py:36-38) -/
def sourceText (pre suf : Str) (pattern : Str) : Str := pre ++ c!"(" ++ pattern ++ c!")" ++ suf

/-- `rip_prefix` and `rip_suffix` (options.json) -/
def ripPrefix : Str := c!"(?P<other>Rip)-?"
def ripSuffix : Str := c!"-?(?P<other>Rip)"

/-- A call of `rebulk.regex(*build_source_pattern(...), value=...)`.  A value that is not a dictionary is that of every group; there is then only the group of the source. -/
def sourceEntry (source : Str) (others : List (Str × Str)) (texts : List Str) : FormEntry :=
  { name := c!"source", names := [c!"other", c!"another"], values := (c!"source", source) :: others, regexes := texts }

/-- source.py:44-118 -/
def sourceTable : List FormEntry :=
  let rip := (c!"other", c!"Rip")
  let may := (sourceText [] (optionalText ripSuffix))
  let must := sourceText [] ripSuffix
  let after := sourceText ripPrefix []
  let bare := sourceText [] []
  [sourceEntry c!"VHS" [rip] ([c!"VHS"].map may),
   sourceEntry c!"Camera" [rip] ([c!"CAM"].map may),
   sourceEntry c!"HD Camera" [rip] ([c!"HD-?CAM"].map may),
   sourceEntry c!"Telesync" [rip] ([c!"TELESYNC", c!"TS"].map may),
   sourceEntry c!"HD Telesync" [rip] ([c!"HD-?TELESYNC", c!"HD-?TS"].map may),
   sourceEntry c!"Workprint" [] ([c!"WORKPRINT", c!"WP"].map bare),
   sourceEntry c!"Telecine" [rip] ([c!"TELECINE", c!"TC"].map may),
   sourceEntry c!"HD Telecine" [rip] ([c!"HD-?TELECINE", c!"HD-?TC"].map may),
   sourceEntry c!"Pay-per-view" [rip] ([c!"PPV"].map may),
   sourceEntry c!"TV" [rip] ([c!"SD-?TV"].map may),
   sourceEntry c!"TV" [rip] ([c!"TV"].map must),
   sourceEntry c!"TV" [rip] ([c!"TV", c!"SD-?TV"].map after),
   sourceEntry c!"TV" [] ([c!"TV-?(?=Dub)"].map bare),
   sourceEntry c!"Digital TV" [rip] ([c!"DVB", c!"PD-?TV"].map may),
   sourceEntry c!"DVD" [rip] ([c!"DVD"].map may),
   sourceEntry c!"Digital Master" [rip] ([c!"DM"].map may),
   sourceEntry c!"DVD" [] ([c!"VIDEO-?TS", c!"DVD-?R(?:$|(?!E))", c!"DVD-?9", c!"DVD-?5"].map bare),
   sourceEntry c!"HDTV" [rip] ([c!"HD-?TV"].map may),
   sourceEntry c!"HDTV" [rip] ([c!"TV-?HD"].map must),
   sourceEntry c!"HDTV" [rip] ([c!"TV"].map (sourceText [] c!"-?(?P<other>Rip-?HD)")),
   sourceEntry c!"Video on Demand" [rip] ([c!"VOD"].map may),
   sourceEntry c!"Web" [rip] ([c!"WEB", c!"WEB-?DL"].map must),
   sourceEntry c!"Web" [rip, (c!"another", c!"Rip")] ([c!"WEB-?(?P<another>Cap)"].map may),
   sourceEntry c!"Web" [] ([c!"WEB-?DL", c!"WEB-?U?HD", c!"DL-?WEB", c!"DL(?=-?Mux)"].map bare),
   sourceEntry c!"Web" [] [c!"(WEB)"],
   sourceEntry c!"HD-DVD" [rip] ([c!"HD-?DVD"].map may),
   sourceEntry c!"Blu-ray" [rip] ([c!"Blu-?ray", c!"BD", c!"BD[59]", c!"BD25", c!"BD50"].map may),
   sourceEntry c!"Blu-ray" [(c!"another", c!"Reencoded")] ([c!"(?P<another>BR)-?(?=Scr(?:eener)?)", c!"(?P<another>BR)-?(?=Mux)"].map bare),
   sourceEntry c!"Blu-ray" [rip, (c!"another", c!"Reencoded")] ([c!"(?P<another>BR)"].map must),
   sourceEntry c!"Ultra HD Blu-ray" [] ([c!"Ultra-?Blu-?ray", c!"Blu-?ray-?Ultra"].map bare),
   sourceEntry c!"Analog HDTV" [] ([c!"AHDTV"].map bare),
   sourceEntry c!"Ultra HDTV" [rip] ([c!"UHD-?TV"].map may),
   sourceEntry c!"Ultra HDTV" [rip] ([c!"UHD"].map must),
   sourceEntry c!"Satellite" [rip] ([c!"DSR", c!"DTH"].map may),
   sourceEntry c!"Satellite" [rip] ([c!"DSR?", c!"SAT"].map must)]

/-- What source.py finds, before its rules. -/
def sourceFound (E : RxEnv) (s : Str) : List (RxMatch Str) := formsFound E eitherSide sourceTable s

/-- `_HdRip` of the entry `other` (options.json; other.py:33). -/
def hdRipEntry : FormEntry := { name := c!"other", names := [c!"another"], values := [(c!"other", c!"HD"), (c!"another", c!"Rip")], regexes := [c!"(HD)(?P<another>Rip)"] }

/-- Its matches; the parent is validated, `seps_surround`. -/
def hdRipFound (E : RxEnv) (s : Str) : List (RxMatch Str) := formsFound E surrounded [hdRipEntry] s

/-- The pattern with two names (video_codec.py:40-41); nothing is validated. -/
def hevcEntry : FormEntry := { name := c!"video_codec", names := [c!"video_codec", c!"color_depth"], values := [(c!"video_codec", c!"H.265"), (c!"color_depth", c!"10-bit")], regexes := [c!"(?P<video_codec>hevc)(?P<color_depth>10)"] }

/-- Its matches. -/
def hevcFound (E : RxEnv) (s : Str) : List (RxMatch Str) := formsFound E (fun _ _ => true) [hevcEntry] s

end Guessit
