import Verif.Model.Api

/-!
# The same code on a heap of shared objects

The other models treat option dictionaries as values.  Here the lists and dictionaries are objects with an identity, several
references may point to the same object, objects may contain themselves, and the code writes to them in place.  Every
operation returns the heap it leaves behind, also when it raises.

Simplifications: `==` between values is a parameter (it only reads); recursion deeper than `fuel` raises `RecursionError`;
`copy.deepcopy` enters an object in its memo after its components instead of before, so copying an object that contains itself
raises `RecursionError` instead of building a cyclic copy.
-/

namespace Guessit

/-- A Python value held in a variable or a container: an immutable object, or a reference to a list or a dictionary. -/
inductive HVal where
  | atom (v : PyVal)
  | ref (a : Nat)

/-- A mutable object. -/
inductive HObj where
  | list (vs : List HVal)
  | dict (kvs : List (Key × HVal))

/-- The objects, by address. -/
abbrev Heap := List HObj

/-- A computation on the heap that may raise. -/
abbrev HM (α : Type) := Heap → Heap × Except PyErr α

def HM.pure {α : Type} (x : α) : HM α := fun h => (h, .ok x)
def HM.raise {α : Type} (e : PyErr) : HM α := fun h => (h, .error e)
def HM.bind {α β : Type} (x : HM α) (f : α → HM β) : HM β := fun h => match x h with
  | (h', .ok v) => f v h'
  | (h', .error e) => (h', .error e)

/-- `RecursionError`. -/
def recursionError : PyErr := .other 0

/-- A new object. -/
def HM.alloc (o : HObj) : HM HVal := fun h => (h ++ [o], .ok (.ref h.length))

/-- In-place modification of an object. -/
def HM.write (a : Nat) (o : HObj) : HM Unit := fun h => (h.set a o, .ok ())

/-- The object at an address. -/
def HM.load (a : Nat) : HM (Option HObj) := fun h => (h, .ok h[a]?)

/-- The items of the dictionary at an address (the code only does this to dictionaries). -/
def HM.items (a : Nat) : HM (List (Key × HVal)) := fun h => match h[a]? with
  | some (.dict kvs) => (h, .ok kvs)
  | _ => (h, .error .typeError)

/-- `for x in xs: ys.append(f(x))`. -/
def HM.mapM {α β : Type} (f : α → HM β) : List α → HM (List β)
  | [] => HM.pure []
  | x :: xs => HM.bind (f x) fun y => HM.bind (HM.mapM f xs) fun ys => HM.pure (y :: ys)

/-- `for x in xs: f(x)`. -/
def HM.forM {α : Type} (f : α → HM Unit) : List α → HM Unit
  | [] => HM.pure ()
  | x :: xs => HM.bind (f x) fun _ => HM.forM f xs

/-- `d[k] = v` on the items of a dictionary. -/
def hset : List (Key × HVal) → Key → HVal → List (Key × HVal)
  | [], k, v => [(k, v)]
  | (k', v') :: rest, k, v => if k' = k then (k, v) :: rest else (k', v') :: hset rest k v

/-- Truthiness. -/
def truthyH (h : Heap) : HVal → Bool
  | .atom v => truthy v
  | .ref a => match h[a]? with
    | some (.list vs) => !vs.isEmpty
    | some (.dict kvs) => !kvs.isEmpty
    | none => false

/-- `for val in value`. -/
def iterH (h : Heap) : HVal → Except PyErr (List HVal)
  | .atom v => match pyIter v with
    | .error e => .error e
    | .ok vs => .ok (vs.map .atom)
  | .ref a => match h[a]? with
    | some (.list vs) => .ok vs
    | some (.dict kvs) => .ok (kvs.map fun e => .atom e.1.toVal)
    | none => .error .typeError

/-! ## api.py: `_fix_encoding` -/

/-- `GuessItApi._fix_encoding` (api.py:119-127). -/
def fixH : Nat → HVal → HM HVal
  | 0, _ => HM.raise recursionError
  | f + 1, v => match v with
    | .atom (.bytes b) => match asciiDecode b with
      | .error e => HM.raise e
      | .ok s => HM.pure (.atom (.str s))
    | .atom p => HM.pure (.atom p)
    | .ref a => HM.bind (HM.load a) fun o => match o with
      | some (.list vs) => HM.bind (HM.mapM (fixH f) vs) fun ys => HM.alloc (.list ys)
      | some (.dict kvs) =>
        HM.bind (HM.mapM (fun (e : Key × HVal) => match fixKey e.1 with
          | .error err => HM.raise err
          | .ok k => HM.bind (fixH f e.2) fun w => HM.pure (k, w)) kvs) fun ys =>
        HM.alloc (.dict (ys.foldl (fun d e => hset d e.1 e.2) []))
      | none => HM.raise .typeError

/-! ## `copy.deepcopy` -/

/-- Copies made so far, by the address of the original. -/
abbrev Memo := List (Nat × Nat)

/-- A computation with a memo. -/
def deepcopyList (f : Memo → HVal → HM (Memo × HVal)) : Memo → List HVal → HM (Memo × List HVal)
  | memo, [] => HM.pure (memo, [])
  | memo, v :: vs => HM.bind (f memo v) fun r => HM.bind (deepcopyList f r.1 vs) fun rs => HM.pure (rs.1, r.2 :: rs.2)

/-- `copy.deepcopy` on lists, dictionaries and immutable values: an object reached twice is copied once. -/
def deepcopyH : Nat → Memo → HVal → HM (Memo × HVal)
  | 0, _, _ => HM.raise recursionError
  | f + 1, memo, v => match v with
    | .atom p => HM.pure (memo, .atom p)
    | .ref a => match List.lookup a memo with
      | some b => HM.pure (memo, .ref b)
      | none => HM.bind (HM.load a) fun o => match o with
        | some (.list vs) => HM.bind (deepcopyList (deepcopyH f) memo vs) fun r =>
          HM.bind (HM.alloc (.list r.2)) fun c => match c with
            | .ref b => HM.pure ((a, b) :: r.1, .ref b)
            | .atom _ => HM.raise .typeError
        | some (.dict kvs) => HM.bind (deepcopyList (deepcopyH f) memo (kvs.map Prod.snd)) fun r =>
          HM.bind (HM.alloc (.dict ((kvs.map Prod.fst).zip r.2))) fun c => match c with
            | .ref b => HM.pure ((a, b) :: r.1, .ref b)
            | .atom _ => HM.raise .typeError
        | none => HM.raise .typeError

/-! ## options.py: `merge_options` -/

/-- `for to_reset in pristine: if to_reset in merged: del merged[to_reset]` (options.py:222-224). -/
def resetKeysH (m : Nat) (v : HVal) : HM Unit := fun h => match v with
  | .ref _ => (h, .error .typeError)
  | .atom p => match pristineKey p with
    | .error e => (h, .error e)
    | .ok (some k) => HM.bind (HM.items m) (fun kvs => HM.write m (.dict (kvs.filter fun e => decide (e.1 ≠ k)))) h
    | .ok none => (h, .ok ())

/-- `if val not in merged[option] and val is not None: merged[option].append(val)` (options.py:243-244); `l` is the list
object. -/
def appendNewH (eq : Heap → HVal → HVal → Except PyErr Bool) (l : Nat) (val : HVal) : HM Unit := fun h =>
  match h[l]? with
  | some (.list vs) =>
    match vs.foldl (fun acc x => match acc with
        | .ok false => eq h val x
        | r => r) (Except.ok false) with
    | .error e => (h, .error e)
    | .ok true => (h, .ok ())
    | .ok false => match val with
      | .atom .none => (h, .ok ())
      | _ => HM.write l (.list (vs ++ [val])) h
  | _ => (h, .error .typeError)

/-- `merged[option] = value` (options.py:248, 250). -/
def setKeyH (m : Nat) (k : Key) (v : HVal) : HM Unit :=
  HM.bind (HM.items m) fun kvs => HM.write m (.dict (hset kvs k v))

/-- `elif isinstance(value, list): merged[option] = list(value) else: merged[option] = value` (options.py:247-250). -/
def plainH (m : Nat) (k : Key) (v : HVal) : HM Unit := fun h => match v with
  | .ref b => match h[b]? with
    | some (.list vs) => HM.bind (HM.alloc (.list vs)) (setKeyH m k) h
    | _ => setKeyH m k (.ref b) h
  | .atom p => setKeyH m k (.atom p) h

/-- The three branches for an option that is merged (options.py:241-250). -/
def mergeSomeH (eq : Heap → HVal → HVal → Except PyErr Bool) (merge : List HVal → HM HVal) (m : Nat) (k : Key) (v : HVal) : HM Unit :=
  HM.bind (HM.items m) fun kvs => match List.lookup k kvs with
    | some (.ref a) => fun h => match h[a]? with
      | some (.list _) => match iterH h v with
        | .error err => (h, .error err)
        | .ok vals => HM.forM (appendNewH eq a) vals h
      | some (.dict _) => HM.bind (merge [.ref a, v]) (setKeyH m k) h
      | none => plainH m k v h
    | _ => plainH m k v

/-- `merge_option_value(option, value, merged)` (options.py:232-250); `m` is the object `merged`, `merge` is
`merge_options`. -/
def mergeValueH (eq : Heap → HVal → HVal → Except PyErr Bool) (merge : List HVal → HM HVal) (m : Nat) (e : Key × HVal) : HM Unit :=
  match e.2 with
  | .atom .none => HM.pure ()
  | v => if e.1 = kPristine then HM.pure () else mergeSomeH eq merge m e.1 v

/-- `if pristine is True: merged = {} elif pristine: for to_reset in pristine: …` (options.py:217-224). -/
def startH (m : Nat) (pristine : HVal) : HM Nat := match pristine with
  | .atom (.bool true) => HM.bind (HM.alloc (.dict [])) fun c => match c with
    | .ref b => HM.pure b
    | .atom _ => HM.raise .typeError
  | p => fun h => if truthyH h p then match iterH h p with
      | .error e => (h, .error e)
      | .ok ks => HM.bind (HM.forM (resetKeysH m) ks) (fun _ => HM.pure m) h
    else (h, .ok m)

/-- One turn of the loop of `merge_options` (options.py:215-227); the result is the object `merged` now denotes. -/
def mergeIntoH (eq : Heap → HVal → HVal → Except PyErr Bool) (merge : List HVal → HM HVal) (m : Nat) (v : HVal) : HM Nat := fun h =>
  if truthyH h v then match v with
    | .ref a => match h[a]? with
      | some (.dict kvs) =>
        HM.bind (startH m ((List.lookup kPristine kvs).getD (.atom .none))) (fun m' => HM.bind (HM.forM (mergeValueH eq merge m') kvs) fun _ => HM.pure m') h
      | _ => (h, .error .attributeError)
    | .atom _ => (h, .error .attributeError)
  else (h, .ok m)

/-- The loop over the remaining arguments (options.py:215-227). -/
def mergeRestH (eq : Heap → HVal → HVal → Except PyErr Bool) (merge : List HVal → HM HVal) : Nat → List HVal → HM HVal
  | m, [] => HM.pure (.ref m)
  | m, o :: os => HM.bind (mergeIntoH eq merge m o) fun m' => mergeRestH eq merge m' os

/-- `merge_options(*options)` (options.py:201-229). -/
def mergeOptionsH (eq : Heap → HVal → HVal → Except PyErr Bool) : Nat → List HVal → HM HVal
  | 0, _ => HM.raise recursionError
  | _ + 1, [] => HM.alloc (.dict [])
  | f + 1, o :: os => fun h =>
    let first : HM (List (Key × HVal)) := if truthyH h o then
        HM.bind (deepcopyH (f + 1) [] o) fun r => match r.2 with
          | .ref a => HM.items a
          | .atom _ => HM.raise .typeError
      else HM.pure []
    HM.bind first (fun kvs => HM.bind (HM.alloc (.dict kvs)) fun c => match c with
      | .ref m => mergeRestH eq (mergeOptionsH eq f) m os
      | .atom _ => HM.raise .typeError) h

/-! ## api.py: `configure`, `guessit`, `properties` -/

/-- The attributes of a `GuessItApi` object that are objects of the heap (api.py:106-111), and the rules; `built` is
the dictionary the rules were built from (the rules are functions that may refer to it). -/
structure ApiH (R : Type) where
  rebulk : Option R
  config : Option HVal
  loadOpts : Option HVal
  adv : Option HVal
  built : Option HVal

/-- What the API calls on the outside: `==`, reading the configuration files selected by the options (options.py:159-186),
parsing the shipped configuration (options.py:194-195), the rules builder, the engine (with `to_dict`), `introspect`.  The
builder and the engine may modify objects. -/
structure SysH (R : Type) where
  eq : Heap → HVal → HVal → Except PyErr Bool
  fuel : Nat
  read : HVal → HM (List HVal)
  defaults : HM HVal
  build : HVal → HM R
  rules : R → Str → HVal → HM HVal
  introspect : R → HVal → HM HVal

/-- `d.get(k)` on the object of a variable. -/
def getH (v : HVal) (k : Key) : HM HVal := fun h => match v with
  | .ref a => match h[a]? with
    | some (.dict kvs) => (h, .ok ((List.lookup k kvs).getD (.atom .none)))
    | _ => (h, .error .attributeError)
  | .atom _ => (h, .error .attributeError)

/-- `load_config(options)` (options.py:149-198). -/
def loadConfigH {R : Type} (S : SysH R) (options : HVal) : HM HVal :=
  HM.bind (S.read options) fun configurations => HM.bind (mergeOptionsH S.eq S.fuel configurations) fun c => match c with
    | .atom _ => HM.raise .typeError
    | .ref m => HM.bind (HM.items m) fun kvs => match List.lookup kAdvanced kvs with
      | some _ => HM.pure (.ref m)
      | none => HM.bind S.defaults fun d => HM.bind (getH d kAdvanced) fun adv =>
        HM.bind (HM.items m) fun kvs => HM.bind (HM.write m (.dict (hset kvs kAdvanced adv))) fun _ => HM.pure (.ref m)

/-- `_has_same_properties` (api.py:129-134) on the three options of api.py:162. -/
def sameLoadH {R : Type} (S : SysH R) (a b : HVal) : HM Bool :=
  let one := fun (k : Key) => HM.bind (getH a k) fun x => HM.bind (getH b k) fun y => fun h => match S.eq h x y with
    | .error e => (h, .error e)
    | .ok r => (h, .ok r)
  HM.bind (one kConfig) fun r1 => if r1 then HM.bind (one kNoUser) fun r2 => if r2 then one kNoDefault else HM.pure false
    else HM.pure false

/-- A computation that also updates the attributes, which stay updated when it raises. -/
abbrev AM (R α : Type) := ApiH R → Heap → ApiH R × Heap × Except PyErr α

/-- The options the caller passes: nothing, one of its dictionaries, or a text, with the parser's run on it. -/
inductive OptH where
  | none
  | obj (v : HVal)
  | text (parse : HM HVal)

/-- `parse_options(options, True)` (options.py:115-136). -/
def parseH : OptH → HM HVal
  | .none => HM.alloc (.dict [])
  | .obj v => HM.pure v
  | .text parse => parse

/-- `config = load_config(options); config = self._fix_encoding(config); self.load_config_options = options`
(api.py:163-165). -/
def reloadH {R : Type} (S : SysH R) (options : HVal) : AM R HVal := fun st h =>
  match HM.bind (loadConfigH S options) (fixH S.fuel) h with
  | (h1, .error e) => (st, h1, .error e)
  | (h1, .ok c) => ({ st with loadOpts := some options }, h1, .ok c)

/-- The configuration: loaded, or the cached one (api.py:159-167). -/
def chooseH {R : Type} (S : SysH R) (options : HVal) (force : Bool) : AM R HVal := fun st h =>
  match st.config, st.loadOpts with
  | some c, some lo => if force then reloadH S options st h else match sameLoadH S lo options h with
    | (h1, .error e) => (st, h1, .error e)
    | (h1, .ok true) => (st, h1, .ok c)
    | (h1, .ok false) => reloadH S options st h1
  | _, _ => reloadH S options st h

/-- `force or not self.rebulk or not self.advanced_config or self.advanced_config != advanced_config` (api.py:171-172). -/
def mustBuildH {R : Type} (S : SysH R) (force : Bool) (st : ApiH R) (h : Heap) (adv : HVal) : Except PyErr Bool :=
  if force then .ok true else match st.rebulk, st.adv with
    | some _, some old => if truthyH h old then match S.eq h old adv with
        | .ok b => .ok !b
        | .error e => .error e
      else .ok true
    | _, _ => .ok true

/-- The advanced configuration and the rules (api.py:169-178); the result is the object returned. -/
def rebuildH {R : Type} (S : SysH R) (options : HVal) (force : Bool) (config : HVal) : AM R HVal := fun st h =>
  match HM.bind (getH config kAdvanced) (fun x => HM.bind (getH options kAdvanced) fun y => mergeOptionsH S.eq S.fuel [x, y]) h with
  | (h2, .error e) => (st, h2, .error e)
  | (h2, .ok adv) => match mustBuildH S force st h2 adv with
    | .error e => (st, h2, .error e)
    | .ok false => ({ st with config := some config }, h2, .ok config)
    | .ok true => match deepcopyH S.fuel [] adv h2 with
      | (h3, .error e) => (st, h3, .error e)
      | (h3, .ok copy) => match S.build adv h3 with
        | (h4, .error e) => ({ st with adv := some copy.2 }, h4, .error e)
        | (h4, .ok r) => ({ st with adv := some copy.2, rebulk := some r, built := some adv, config := some config }, h4, .ok config)

/-- `GuessItApi.configure` with `sanitize_options=False` (api.py:151-178); the result is the object returned. -/
def configureH {R : Type} (S : SysH R) (options : HVal) (force : Bool) : AM R HVal := fun st h =>
  match chooseH S options force st h with
  | (st1, h1, .error e) => (st1, h1, .error e)
  | (st1, h1, .ok config) => rebuildH S options force config st1 h1

/-- `GuessItApi.configure` as called by a user (api.py:136-178). -/
def configurePublicH {R : Type} (S : SysH R) (o : OptH) (force : Bool) : AM R HVal := fun st h =>
  match HM.bind (parseH o) (fixH S.fuel) h with
  | (h1, .error e) => (st, h1, .error e)
  | (h1, .ok options) => configureH S options force st h1

/-- The common part of `guessit` and `properties` (api.py:198-201, 233-236): options sanitized, configuration, merge, use. -/
def useH {R : Type} (S : SysH R) (use : R → HVal → HM HVal) (o : OptH) : AM R HVal := fun st h =>
  match HM.bind (parseH o) (fixH S.fuel) h with
  | (h1, .error e) => (st, h1, .error e)
  | (h1, .ok options) => match configureH S options false st h1 with
    | (st2, h2, .error e) => (st2, h2, .error e)
    | (st2, h2, .ok config) => match mergeOptionsH S.eq S.fuel [config, options] h2 with
      | (h3, .error e) => (st2, h3, .error e)
      | (h3, .ok merged) => match st2.rebulk with
        | none => (st2, h3, .error .attributeError)
        | some r => match use r merged h3 with
          | (h4, res) => (st2, h4, res)

/-- `GuessItApi.guessit` (api.py:180-226), the name being a text. -/
def guessitH {R : Type} (S : SysH R) (name : Str) (o : OptH) : AM R HVal := useH S (fun r c => S.rules r name c) o

/-- `GuessItApi.properties` (api.py:228-247). -/
def propertiesH {R : Type} (S : SysH R) (o : OptH) : AM R HVal := useH S S.introspect o

end Guessit
