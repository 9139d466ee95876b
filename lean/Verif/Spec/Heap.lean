import Verif.Model.Heap

/-!
# Specification: objects the caller holds and objects the API holds

Nothing here depends on how the API works: what an object refers to, what can be reached from a value, and the histories in
which a caller uses the API and edits its own objects.
-/

namespace Guessit

/-- The values an object directly contains. -/
def HObj.vals : HObj → List HVal
  | .list vs => vs
  | .dict kvs => kvs.map Prod.snd

/-- The values cached in the attributes of the API object (and the configuration its rules were built from, which they may refer to). -/
def ApiH.roots {R : Type} (st : ApiH R) : List HVal := [st.config, st.loadOpts, st.adv, st.built].filterMap id

/-- The API object just created (or after `reset()`, api.py:106-117). -/
def ApiH.init {R : Type} : ApiH R := ⟨none, none, none, none, none⟩

namespace Spec

/-- The object at `a` can be reached from the value by following references. -/
inductive Reach (h : Heap) : HVal → Nat → Prop
  | here (a : Nat) : Reach h (.ref a) a
  | step {a b : Nat} {o : HObj} {v : HVal} : h[a]? = some o → v ∈ o.vals → Reach h v b → Reach h (.ref a) b

/-- The value does not refer outside the heap. -/
def Known (h : Heap) (v : HVal) : Prop := ∀ a, v = .ref a → a < h.length

/-- No object refers outside the heap. -/
def Closed (h : Heap) : Prop := ∀ (a : Nat) (o : HObj), h[a]? = some o → ∀ v ∈ o.vals, Known h v

/-- The computation modifies no existing object, and what it creates refers only to what it creates. -/
def Builds {α : Type} (x : HM α) (out : α → List HVal) : Prop := ∀ h, Closed h →
  ∃ new, (x h).1 = h ++ new ∧
    (∀ o ∈ new, ∀ b, HVal.ref b ∈ o.vals → h.length ≤ b ∧ b < (x h).1.length) ∧
    (∀ r, (x h).2 = .ok r → ∀ b, HVal.ref b ∈ out r → h.length ≤ b ∧ b < (x h).1.length)

/-- The computation modifies only objects that can be reached from its argument, and makes them (and the objects it creates)
refer only to such objects and to new ones. -/
def Touches {α : Type} (arg : HVal) (x : HM α) : Prop := ∀ h, Closed h → Known h arg →
  h.length ≤ (x h).1.length ∧
  (∀ a : Nat, a < h.length → ¬ Reach h arg a → (x h).1[a]? = h[a]?) ∧
  (∀ (a : Nat) (o : HObj), (x h).1[a]? = some o → (h.length ≤ a ∨ Reach h arg a) → ∀ b, HVal.ref b ∈ o.vals →
    Reach h arg b ∨ (h.length ≤ b ∧ b < (x h).1.length))

/-- What is assumed of the code outside the model: reading configuration files, the engine and `introspect` build their
results out of new objects; the rules builder may modify the configuration it is given (it does: `entry.pop("callable")`,
config/__init__.py), and nothing else. -/
structure Outside {R : Type} (S : SysH R) : Prop where
  read : ∀ v, Builds (S.read v) id
  defaults : Builds S.defaults fun v => [v]
  build : ∀ v, Touches v (S.build v)
  rules : ∀ r s v, Builds (S.rules r s v) fun v => [v]
  introspect : ∀ r v, Builds (S.introspect r v) fun v => [v]

/-- A point of a history: the API object, the heap, and the values the caller holds. -/
structure World (R : Type) where
  st : ApiH R
  heap : Heap
  held : List HVal

/-- The caller can get at the value: it is immutable, or a reference to an object reachable from what it holds. -/
def World.has {R : Type} (w : World R) (v : HVal) : Prop := ∀ a, v = .ref a → ∃ u ∈ w.held, Reach w.heap u a

/-- The options argument is something the caller has; the parser builds a new dictionary from a text. -/
def World.hasOpt {R : Type} (w : World R) : OptH → Prop
  | .none => True
  | .obj v => w.has v
  | .text parse => Builds parse fun v => [v]

/-- What the caller holds after a call. -/
def received (held : List HVal) : Except PyErr HVal → List HVal
  | .ok v => v :: held
  | .error _ => held

/-- One step of a history: the caller creates an object, edits in place an object it can reach, calls `guessit` or
`properties` and keeps the result, calls `configure` or `reset`. -/
inductive Step {R : Type} (S : SysH R) : World R → World R → Prop
  | create (w : World R) (o : HObj) : (∀ v ∈ o.vals, w.has v) →
      Step S w { w with heap := w.heap ++ [o], held := .ref w.heap.length :: w.held }
  | edit (w : World R) (a : Nat) (o : HObj) : w.has (.ref a) → (∀ v ∈ o.vals, w.has v) →
      Step S w { w with heap := w.heap.set a o }
  | guessit (w : World R) (name : Str) (o : OptH) : w.hasOpt o →
      Step S w ⟨(guessitH S name o w.st w.heap).1, (guessitH S name o w.st w.heap).2.1,
        received w.held (guessitH S name o w.st w.heap).2.2⟩
  | properties (w : World R) (o : OptH) : w.hasOpt o →
      Step S w ⟨(propertiesH S o w.st w.heap).1, (propertiesH S o w.st w.heap).2.1,
        received w.held (propertiesH S o w.st w.heap).2.2⟩
  | configure (w : World R) (o : OptH) (force : Bool) : w.hasOpt o →
      Step S w ⟨(configurePublicH S o force w.st w.heap).1, (configurePublicH S o force w.st w.heap).2.1, w.held⟩
  | reset (w : World R) : Step S w { w with st := ApiH.init }

/-- Any number of steps. -/
inductive Steps {R : Type} (S : SysH R) : World R → World R → Prop
  | nil (w : World R) : Steps S w w
  | cons {u v w : World R} : Step S u v → Steps S v w → Steps S u w

end Spec

end Guessit
