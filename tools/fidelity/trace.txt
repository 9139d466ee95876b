import Verif.Model.Program
import Verif.Model.SceneGroup
open Guessit
def lowC (c : Char) : Char := if ('A' ≤ c ∧ c ≤ 'Z') || (0xC0 ≤ c.toNat && c.toNat ≤ 0xDE && c.toNat != 0xD7) then Char.ofNat (c.toNat + 32) else c
def upC (c : Char) : Char := if ('a' ≤ c ∧ c ≤ 'z') || (0xE0 ≤ c.toNat && c.toNat ≤ 0xFE && c.toNat != 0xF7) then Char.ofNat (c.toNat - 32) else c
def isLow (c : Char) : Bool := upC c != c
def isUp (c : Char) : Bool := lowC c != c
def uni : Uni where
  digit := fun c => if '0' ≤ c ∧ c ≤ '9' then some (c.toNat - 48) else none
  space := fun c => c = ' ' ∨ c = '\n' ∨ c = '\t' ∨ c = '\r' 
  lower := List.map lowC
  upper := List.map upC
def rx : RxEnv where
  u := uni
  same := fun l c => lowC l = lowC c
def enc (s : Str) : Nat := s.foldl (fun n c => n * 0x110000 + c.toNat) 1
partial def decAux (n : Nat) (acc : List Char) : List Char := if n ≤ 1 then acc else decAux (n / 0x110000) (Char.ofNat (n % 0x110000) :: acc)
def dec (n : Nat) : String := String.ofList (decAux n [])
def fl : Floats where
  F := Str
  ofText := id
  toText := id
  eq := fun a b => a == b
  eqInt := fun _ _ => false
def dig2 (n : Nat) : Str := if n < 10 then '0' :: (toString n).toList else (toString n).toList
def codes : Codes fl where
  list := fun l => enc (c!"[" ++ List.intercalate c!", " l ++ c!"]")
  quantity := fun q => enc ((match q.magnitude with | .int n => (toString n).toList | .float x => x) ++ q.units)
  date := fun d => enc ((toString d.year).toList ++ c!"-" ++ dig2 d.month ++ c!"-" ++ dig2 d.day)
  language := fun n => enc (c!"L" ++ (toString n).toList)
  country := fun n => enc (c!"C" ++ (toString n).toList)
-- languages: index into table (alpha3, alpha2, name, synonyms)
def ltab : List (String × String × String × List String) := [
 ("und","","Undetermined",[]),("mul","","Multiple languages",["multi","multiple","dl"]),
 ("eng","en","English",[]),("fra","fr","French",["français","vf","vff","vfi","vfq","fre"]),("spa","es","Spanish",["esp","español","espanol"]),
 ("deu","de","German",["ger"]),("ita","it","Italian",[]),("por","pt","Portuguese",[]),("rus","ru","Russian",[]),("jpn","ja","Japanese",["jp"]),
 ("kor","ko","Korean",[]),("nld","nl","Dutch",["dut"]),("nor","no","Norwegian",[]),("pol","pl","Polish",[]),("ron","ro","Romanian",["rum"]),
 ("swe","sv","Swedish",["se"]),("tel","te","Telugu",[]),("ukr","uk","Ukrainian",["ua"]),("hin","hi","Hindi",[]),("hun","hu","Hungarian",[]),
 ("heb","he","Hebrew",[]),("cat","ca","Catalan",["català","castellano","espanol castellano","español castellano"]),("ces","cs","Czech",["cz","cze"]),
 ("por","pt","Portuguese",["po","pb","pob","ptbr","br","brazilian"]), ("nld","nl","Dutch",["flemish"])]
def lang (w : Str) : Option Nat := 
  let s := String.ofList (w.map lowC)
  match ltab.zipIdx.find? (fun x => s == x.1.1 || (s != "" && s == x.1.2.1) || s == String.ofList (x.1.2.2.1.toList.map lowC) || x.1.2.2.2.contains s) with
  | some x => some x.2
  | none => none
def langs : Languages where
  fromGuessit := lang
  name := fun n => ltab[n]?.map fun x => x.2.2.1.toList
  alpha2 := fun n => (ltab[n]?.map fun x => x.2.1.toList).filter fun t => !t.isEmpty
  alpha3 := fun n => (ltab[n]?.map fun x => x.1.toList).getD []
  und := 0
  mul := 1
def ctab : List (String × String × List String) := [("us","united states",["usa"]),("gb","united kingdom",["uk","gbr"]),("au","australia",["aus"]),("fr","france",["fra"]),("ca","canada",["qc"])]
def countries : Countries where
  fromGuessit := fun w => let s := String.ofList (w.map lowC); (ctab.zipIdx.find? fun x => s == x.1.1 || s == x.1.2.1 || x.1.2.2.contains s).map Prod.snd
  name := fun n => ((ctab[n]?).map fun x => x.2.1.toList).getD []
  alpha2 := fun n => ((ctab[n]?).map fun x => x.1.toList).getD []
def splitDash : Str → List Str := fun s => ((String.ofList (s.map fun c => if c.isAlphanum then c else '-')).splitOn "-") |>.map String.toList
def num (s : Str) : Option Nat := (String.ofList s).toNat?
def months : List String := ["jan","feb","mar","apr","may","jun","jul","aug","sep","oct","nov","dec"]
def year4 (s : Str) (n : Nat) : Nat := if s.length ≤ 2 then (if n < 74 then 2000 + n else 1900 + n) else n
def mkDate (y m d : Nat) : Except PyErr PyDate := if 1 ≤ m && m ≤ 12 && 1 ≤ d && d ≤ 31 && 1 ≤ y then .ok ⟨y, m, d⟩ else .error .valueError
def parse : DateParser := fun t df yf => match splitDash t with
  | [a] => match num a with
     | none => .error .valueError
     | some _ => if a.length = 8 then mkDate ((num (a.take 4)).getD 0) ((num ((a.drop 4).take 2)).getD 0) ((num (a.drop 6)).getD 0)
        else if a.length = 6 then 
          let p := (num (a.take 2)).getD 0; let q := (num ((a.drop 2).take 2)).getD 0; let r := (num (a.drop 4)).getD 0
          if yf then mkDate (year4 (a.take 2) p) q r else if p > 31 then mkDate (year4 (a.take 2) p) q r else mkDate (year4 (a.drop 4) r) p q
        else .error .valueError
  | [a, b, c] => 
     match num a, num b, num c with
     | some x, some y, some z =>
        if a.length > 2 || x > 31 then (if y > 12 || (df && z ≤ 12) then mkDate (year4 a x) z y else mkDate (year4 a x) y z)
        else if c.length > 2 || z > 31 then (if x > 12 || (df && y ≤ 12) then mkDate (year4 c z) y x else mkDate (year4 c z) x y)
        else if yf then (if y > 12 || (df && z ≤ 12) then mkDate (year4 a x) z y else mkDate (year4 a x) y z)
        else if x > 12 || (df && y ≤ 12) then mkDate (year4 c z) y x else mkDate (year4 c z) x y
     | some x, none, some z => 
        let mon := months.findIdx? (· == String.ofList ((b.map lowC).take 3))
        match mon with
        | some m => if c.length > 2 || z > 31 then mkDate (year4 c z) (m+1) x else mkDate (year4 a x) (m+1) z
        | none => .error .valueError
     | _, _, _ => .error .valueError
  | _ => .error .valueError
def O : Outside where
  rx := rx
  wordChar := fun c => c.isAlphanum || c = '_' || 0xC0 ≤ c.toNat
  cap := fun s => match s with | [] => [] | c :: t => upC c :: t.map lowC
  fl := fl
  langs := langs
  countries := countries
  parse := parse
  regex := fun _ _ => []
  codes := codes
  usGb := fun v => v == .obj (codes.country 0) || v == .obj (codes.country 1)
def upper (s : Str) : Bool := s.any isUp && !s.any isLow
def titleAux : Bool → Str → Bool → Bool
  | _, [], cased => cased
  | prev, c :: t, cased => if isUp c then (if prev then false else titleAux true t true) else if isLow c then (if prev then titleAux true t true else false) else titleAux false t cased
def fmtRatio (w h : Str) : Str :=
  let a := (num w).getD 0; let b := (num h).getD 1
  let r := (2000 * a + b) / (2 * b)
  let i := r / 1000; let f := r % 1000
  let fs := (toString (1000 + f)).toList.drop 1
  let fs := (fs.reverse.dropWhile (· = '0')).reverse
  (toString i).toList ++ c!"." ++ (if fs.isEmpty then c!"0" else fs)
def base : RuleEnv where
  kin := fun _ => ⟨id, fun _ => [], fun _ => 0, fun _ => []⟩
  solverOf := fun _ _ => none
  uni := uni
  cases := ⟨fun s => titleAux false s false, upper⟩
  title := ⟨uni.lower, upper, [.obj (codes.language 0), .obj (codes.language 1)]⟩
  group := ⟨uni, [c!"bonus", c!"by", c!"for", c!"par", c!"pour", c!"rip"], c!"[]{}()", fun t => !t.isEmpty && t.all Char.isDigit⟩
  size := ⟨[c!"360", c!"480", c!"540", c!"576", c!"900", c!"1080", c!"368", c!"720", c!"1440", c!"2160", c!"4320"],
     fun w h => decide (1333 * (num h).getD 0 < 1000 * (num w).getD 0) && decide (1000 * (num w).getD 0 < 1898 * (num h).getD 0),
     fun w h => .str (fmtRatio w h), fun t => match fromString (qenv rx O.cap fl) .frameRate t with | .ok q => .obj (codes.quantity q) | .error _ => .str t, uni.lower⟩
  ranges := [c!"-", c!"~", c!"to", c!"a"]
  toInt := fun v => match v with | .int n => some n | .str t => (num t).map Int.ofNat | _ => none
  slow := fun v => match v with | .obj n => let t := dec n; t.endsWith "Kbps" || (t.endsWith "Mbps" && ((((t.splitOn "Mbps").headD "").splitOn ".").headD "").length == 1) | _ => false
  number := fun _ => none
  words := defaultEpisodeWords.episodeWords
  safe := [c!"www", c!"co", c!"com", c!"net", c!"org"]
  common := commonWords
  und := .obj (codes.language 0)
  mime := fun _ => none
def strs (l : List String) : PyVal := .list (l.map fun s => .str s.toList)
def defOpts : List (String × PyVal) := [("expected_title", strs ["OSS 117", "This is Us"]), ("allowed_countries", strs ["au","gb","us"]),
  ("allowed_languages", strs ["ca","cs","de","en","es","fr","he","hi","hu","it","ja","ko","mul","nl","no","pl","pt","ro","ru","sv","te","uk","und"])]
def showV : MVal → String
  | .str s => String.ofList s
  | .int n => toString n
  | .obj n => dec n
def pOpt (kv : String) : Option (String × PyVal) := match kv.splitOn "=" with
  | [k, v] => some (k, if k == "excludes" || k == "includes" || k.startsWith "expected" || k.startsWith "allowed" then strs (v.splitOn "|") else if v == "True" then .bool true else if v == "False" then .bool false else .str v.toList)
  | _ => none
def main0 : IO Unit := do
  let inp ← IO.getStdin
  let out ← IO.getStdout
  repeat
    let line ← inp.getLine
    if line.isEmpty then break
    let line := (line.dropEndWhile (· == '\n')).toString
    match line.splitOn "\t" with
    | name :: opts =>
      let o := opts.filterMap pOpt
      let d := (defOpts.filter fun x => !o.any fun y => y.1 == x.1) ++ o
      let g : Dict := d.map fun x => (Key.str x.1.toList, x.2)
      match program O base g name.toList with
      | .error _ => out.putStrLn (name ++ "\tERROR")
      | .ok s => out.putStrLn (name ++ "\t" ++ "\t".intercalate ((sortBy Mt.lt s.live).filterMap fun m => match m.name with
          | some n => some (String.ofList n ++ "=" ++ showV (m.value s.input))
          | none => none))
      out.flush
    | [] => pure ()
deriving instance Repr for Guessit.Cls
def trRules (e : RuleEnv) (g : Dict) (out : IO.FS.Stream) : List (Decl Cls) → Ms → IO Unit
  | [], _ => pure ()
  | r :: rs, s => do
    match runRules e g [r] s with
    | .error _ => out.putStrLn s!"ERROR in {repr r.cls}"
    | .ok s' =>
      let sh (l : List Mt) := (sortBy Mt.lt l).map fun m => s!"{m.id}:{match m.name with | some n => String.ofList n | none => "-"}[{m.start},{m.stop}]={showV (m.value s.input)}{if m.priv then "(p)" else ""}{m.tags.map String.ofList}"
      let a := sh s.live; let b := sh s'.live
      if a != b then do
        out.putStrLn s!"{repr r.cls}"
        for x in a.filter (!b.contains ·) do out.putStrLn s!"   - {x}"
        for x in b.filter (!a.contains ·) do out.putStrLn s!"   + {x}"
      trRules e g out rs s'
def main : IO Unit := do
  let inp ← IO.getStdin
  let out ← IO.getStdout
  let line ← inp.getLine
  let line := (line.dropEndWhile (· == '\n')).toString
  match line.splitOn "\t" with
  | name :: opts =>
      let o := opts.filterMap pOpt
      let d := (defOpts.filter fun x => !o.any fun y => y.1 == x.1) ++ o
      let g : Dict := d.map fun x => (Key.str x.1.toList, x.2)
      match grownOf O g name.toList with
      | .error _ => out.putStrLn (name ++ "\tERROR")
      | .ok gs =>
        let s := beginning g gs name.toList
        for m in s.live do out.putStrLn s!"{m.id}:{match m.name with | some n => String.ofList n | none => "-"}[{m.start},{m.stop}]={showV (m.value s.input)}{if m.priv then "(p)" else ""}{m.tags.map String.ofList} par={m.parent}"
        for m in s.markers do out.putStrLn s!"mark {m.name.map String.ofList} {m.start} {m.stop}"
        trRules (ruleEnvOf O base gs name.toList) g out (rulesRun id g) s
  | [] => pure ()
