import Verif.Proofs.NoExit

/-!
# Properties C08–C12, C16: the API object

`runAll S env Api.init history` executes a list of public calls on a fresh `GuessItApi` whose configuration files do not
change; `S` holds the default rules builder and the matcher, both arbitrary.
-/

namespace Guessit
open Spec

/-! ## C08 -/

/-- C08: after any history of calls with the default builder none of which failed while merging or building (they may
have failed otherwise), a call that configures successfully returns exactly the configuration its own options define, and
the rules in place were built from an advanced configuration equal (`==`) to the one its own options define. -/
theorem C08_rules_match_own_configuration {R : Type} (S : Sys R) (env : Env) (history : List (Call R))
    (hd : ∀ c ∈ history, DefaultBuilder c) (hb : NeverBreaks S env Api.init history)
    (options config : Dict) (st' : Api R)
    (h : (runAll S env Api.init history).1.configure S env options none false = (st', .ok config)) :
    ownConfig env options = .ok config ∧
    ∃ adv built r, ownAdvanced env options = .ok adv ∧ S.build built = .ok r ∧ st'.rebulk = some r ∧
      (built = adv ∨ pyEq (.dict built) (.dict adv) = true) := by
  obtain ⟨_, _, _, h4⟩ := configure_spec (S := S) (env := env) (o := options) (f := false)
    (inv_run history (Api.inv_init S env) hd hb)
  obtain ⟨_, hown, adv, a, r, e1, e2, _, e4, e5⟩ := h4 _ _ h
  exact ⟨hown, adv, a, r, e1, e4, e2, e5⟩

/-- C08 for histories in which every call returned normally. -/
theorem C08_after_successful_calls {R : Type} (S : Sys R) (env : Env) (history : List (Call R))
    (hd : ∀ c ∈ history, DefaultBuilder c) (hok : ∀ out ∈ (runAll S env Api.init history).2, Outcome.Success out)
    (options config : Dict) (st' : Api R)
    (h : (runAll S env Api.init history).1.configure S env options none false = (st', .ok config)) :
    ownConfig env options = .ok config ∧
    ∃ adv built r, ownAdvanced env options = .ok adv ∧ S.build built = .ok r ∧ st'.rebulk = some r ∧
      (built = adv ∨ pyEq (.dict built) (.dict adv) = true) :=
  C08_rules_match_own_configuration S env history hd (success_neverBreaks history hd hok) options config st' h

/-! ### A small concrete system, used to show that hypotheses are satisfiable and for the counterexamples -/

/-- Rules objects are the advanced configuration they were built from; the builder rejects a non-integer `x`. -/
def toySys : Sys Dict where
  shlexSplit := fun s => .ok [s]
  parseArgs := fun args => if args = [c!"--bad"] then .error .systemExit else .ok []
  build := fun adv => match adv.getD (.str c!"x") with
    | .int _ => .ok adv
    | _ => .error .typeError
  rules := fun r _ _ => .ok [{ start := 0, stop := 1, name := c!"x", value := r.getD (.str c!"x") }]
  introspect := fun _ _ => .ok .none

/-- Only a packaged default, `{"advanced_config": {"x": 1}}`. -/
def toyEnv : Env where
  defaults := .dict [(.str c!"advanced_config", .dict [(.str c!"x", .int 1)])]
  home := c!"/h"
  cwd := c!"/w"
  yaml := false
  pathExists := fun _ => false
  readFile := fun _ => .error .osError
  jsonLoads := fun _ => none

/-- `guessit('a', {'advanced_config': {'x': v}})` -/
def toyCall (v : PyVal) : Call Dict :=
  .guessit (.str c!"a") (.dict [(.str c!"advanced_config", .dict [(.str c!"x", v)])])

-- a non-trivial history meeting the hypotheses of C08: configurations change back and forth
example : (runAll toySys toyEnv Api.init [toyCall (.int 2), .guessit (.str c!"a") .none, toyCall (.int 3)]).2 =
    [.value (.dict [(.str c!"x", .int 2)]), .value (.dict [(.str c!"x", .int 1)]), .value (.dict [(.str c!"x", .int 3)])] := rfl

/-! ## C09 -/

/-- C09, for builders that cannot tell `==` configurations apart: after any history of calls (with the default builder,
none failing while merging or building) a guess has the outcome it has on a fresh object, exceptions included.
What is missing from the full property: configurations that are `==` but differ in key order or in `1`/`True` are treated
as the same by the cache, so with an order-sensitive builder the claim fails (`C09_order_counterexample`). -/
theorem C09_history_independent_partial {R : Type} (S : Sys R) (env : Env) (history : List (Call R))
    (hd : ∀ c ∈ history, DefaultBuilder c) (hb : NeverBreaks S env Api.init history)
    (hext : ∀ a b r, pyEq (.dict a) (.dict b) = true → S.build a = .ok r → ∃ r', S.build b = .ok r' ∧
      ∀ s opts, S.rules r s opts = S.rules r' s opts)
    (name : NameArg) (o : OptArg) :
    ((runAll S env Api.init history).1.guessit S env name o).2 = ((Api.init : Api R).guessit S env name o).2 :=
  guessit_inv (inv_run history (Api.inv_init S env) hd hb) name o hext

/-- A builder whose rules depend on the order of the configuration entries (like `rebulk_builder`, which registers
patterns in iteration order). -/
def orderSys : Sys Dict where
  shlexSplit := fun s => .ok [s]
  parseArgs := fun _ => .ok []
  build := fun adv => .ok adv
  rules := fun r _ _ => .ok [{ start := 0, stop := 1, name := c!"first", value := match r with | [] => .none | e :: _ => e.1.toVal }]
  introspect := fun _ _ => .ok .none

/-- No configuration entry at all, so that the options decide the order. -/
def orderEnv : Env := { toyEnv with defaults := .dict [(.str c!"advanced_config", .dict [])] }

def orderOpts (ks : List Str) : OptArg := .dict [(.str c!"advanced_config", .dict (ks.map fun k => (.str k, .int 1)))]

/-- C09 in full is false of the code: two advanced configurations that differ only in the order of their entries share
the cached rules, so a previous successful call changes the answer. -/
theorem C09_order_counterexample : ∃ history name o,
    (∀ out ∈ (runAll orderSys orderEnv Api.init history).2, Outcome.Success out) ∧
    ((runAll orderSys orderEnv Api.init history).1.guessit orderSys orderEnv name o).2 ≠
      ((Api.init : Api Dict).guessit orderSys orderEnv name o).2 := by
  refine ⟨[.guessit (.str c!"a") (orderOpts [c!"p", c!"q"])], .str c!"a", orderOpts [c!"q", c!"p"], ?_, ?_⟩
  · intro out h
    have : out ∈ [Outcome.value (.dict [(.str c!"first", .str c!"p")])] := h
    simp only [List.mem_singleton] at this; subst this; trivial
  · intro h
    have h' : (Outcome.value (.dict [(.str c!"first", .str c!"p")])) = Outcome.value (.dict [(.str c!"first", .str c!"q")]) := h
    simp at h'

/-! ## C10 -/

/-- C10 is false of the code: a first call works, a second one fails because its rules cannot be built, and repeating
that same failing call silently answers with the first call's rules. -/
theorem C10_poisoned_counterexample : ∃ good bad : Call Dict,
    (runAll toySys toyEnv Api.init [good, bad, bad]).2 =
      [.value (.dict [(.str c!"x", .int 2)]), .guessitException (.str c!"a"), .value (.dict [(.str c!"x", .int 2)])] :=
  ⟨toyCall (.int 2), toyCall (.str c!"oops"), rfl⟩

/-- C10, the part that holds: when nothing was ever configured successfully on the object, or when the call forces
reloading (`configure(..., force=True)`), a call that failed while building fails again in the same way when repeated, any
number of times.  Missing: the case of `C10_poisoned_counterexample`, where it is false. -/
theorem C10_failure_repeats_partial {R : Type} (S : Sys R) (env : Env) (options : Dict)
    (builder : Option (Dict → Except PyErr R)) (force : Bool) (e : PyErr)
    (st st' : Api R) (hcase : force = true ∨ (st.rebulk = none ∧ st.config = none))
    (h : st.configure S env options builder force = (st', .error (.build e))) :
    (∃ st'', st'.configure S env options builder force = (st'', .error (.build e))) ∧
      (force = true ∨ (st'.rebulk = none ∧ st'.config = none)) := by
  have key : ∀ st : Api R, (force = true ∨ (st.rebulk = none ∧ st.config = none)) →
      st.configure S env options builder force =
        (match ownConfig env options with
        | .error e => (st, .error (.load e))
        | .ok c =>
          match mergeOptions [c.getD kAdvanced, options.getD kAdvanced] with
          | .error e => ({ st with loadOpts := some options }, .error (.merge e))
          | .ok adv =>
            match (builder.getD S.build) adv with
            | .error e => ({ st with loadOpts := some options, adv := some adv }, .error (.build e))
            | .ok r => (⟨some r, some c, some options, some adv⟩, .ok c)) := by
    intro st hc
    have hch : chooseConfig env st options force = (match ownConfig env options with
        | .error e => .error e
        | .ok c => .ok ({ st with loadOpts := some options }, c)) := by
      unfold chooseConfig ownConfig
      simp only
      split
      · rcases hc with rfl | hc
        · simp only [Bool.true_or, if_true]
          cases loadConfig env options with
          | error e => rfl
          | ok c => simp only; cases fixDict [] c <;> rfl
        · simp_all
      · cases loadConfig env options with
        | error e => rfl
        | ok c => simp only; cases fixDict [] c <;> rfl
    unfold Api.configure
    rw [hch]
    cases ownConfig env options with
    | error e => rfl
    | ok c =>
      simp only
      cases mergeOptions [c.getD kAdvanced, options.getD kAdvanced] with
      | error e => rfl
      | ok adv =>
        simp only
        rw [if_pos (by rcases hc with rfl | hc <;> simp_all)]
        cases (builder.getD S.build) adv <;> rfl
  rw [key st hcase] at h
  cases hown : ownConfig env options with
  | error e' => rw [hown] at h; simp at h
  | ok c =>
    rw [hown] at h; simp only at h
    cases hm : mergeOptions [c.getD kAdvanced, options.getD kAdvanced] with
    | error e' => rw [hm] at h; simp at h
    | ok adv =>
      rw [hm] at h; simp only at h
      cases hb : (builder.getD S.build) adv with
      | ok r => rw [hb] at h; simp at h
      | error e' =>
        rw [hb] at h
        simp only [Prod.mk.injEq, Except.error.injEq, ConfErr.build.injEq] at h
        obtain ⟨rfl, rfl⟩ := h
        have hcase' : force = true ∨ (st.rebulk = none ∧ st.config = none) := hcase
        refine ⟨?_, hcase'⟩
        refine ⟨⟨st.rebulk, st.config, some options, some adv⟩,
          (key ⟨st.rebulk, st.config, some options, some adv⟩ hcase').trans ?_⟩
        rw [hown]; simp only [hm, hb]

/-- C10: a configuration that cannot be loaded leaves the object exactly as it was. -/
theorem C10_load_failure_changes_nothing {R : Type} (S : Sys R) (env : Env) (st st' : Api R) (options : Dict)
    (builder : Option (Dict → Except PyErr R)) (force : Bool) (e : PyErr)
    (h : st.configure S env options builder force = (st', .error (.load e))) : st' = st := by
  unfold Api.configure at h
  repeat' split at h
  all_goals simp only [Prod.mk.injEq, Except.error.injEq, reduceCtorEq, and_false] at h
  exact h.1.symm

-- the premises of the partial theorem are met by a fresh object and a configuration that cannot be built
example : ∃ st', (Api.init : Api Dict).configure toySys toyEnv
    [(.str c!"advanced_config", .dict [(.str c!"x", .str c!"oops")])] none false = (st', .error (.build .typeError)) :=
  ⟨_, rfl⟩

/-! ## C11 -/

/-- C11: after `reset()`, whatever happened before (failures, custom builders, changing files), every later sequence of
calls has exactly the outcomes it has on a newly constructed object. -/
theorem C11_reset_is_fresh {R : Type} (S : Sys R) (before after : List (Env × Call R)) (env : Env) :
    (Api.run S Api.init (before ++ (env, .reset) :: after)).2 =
      (Api.run S Api.init before).2 ++ .value .none :: (Api.run S Api.init after).2 := by
  have gen : ∀ (before : List (Env × Call R)) (st : Api R),
      (Api.run S st (before ++ (env, .reset) :: after)).2 =
        (Api.run S st before).2 ++ .value .none :: (Api.run S Api.init after).2 := by
    intro before
    induction before with
    | nil => intro st; rfl
    | cons c cs ih =>
      intro st
      obtain ⟨e, c⟩ := c
      simp only [List.cons_append, Api.run, ih]
  exact gen before _

example : (Api.run toySys Api.init [(toyEnv, toyCall (.int 2)), (toyEnv, toyCall (.str c!"oops")), (toyEnv, .reset),
    (toyEnv, toyCall (.str c!"oops"))]).2 =
    [.value (.dict [(.str c!"x", .int 2)]), .guessitException (.str c!"a"), .value .none, .guessitException (.str c!"a")] := rfl

/-! ## C12 -/

/-- C12 for options given as a dictionary (or not given): `guessit` returns a dictionary or raises `GuessitException`
for that name, provided no component raises `SystemExit`, which is not an `Exception`.  Missing: option strings, for which
`argparse` does raise it (`C12_option_string_counterexample`). -/
theorem C12_only_guessit_exception_partial {R : Type} (S : Sys R) (env : Env) (st : Api R) (name : NameArg) (o : OptArg)
    (hparse : ∀ s, o ≠ .str s) (hargv : ∀ a, o ≠ .argv a)
    (hread : ∀ p, env.readFile p ≠ .error .systemExit) (hbuild : ∀ a, S.build a ≠ .error .systemExit)
    (hrules : ∀ r s d, S.rules r s d ≠ .error .systemExit) :
    (∃ d, (st.guessit S env name o).2 = .value (.dict d)) ∨ (st.guessit S env name o).2 = .guessitException name := by
  have hw : ∀ e, e ≠ PyErr.systemExit → wrap name e = .guessitException name := by
    intro e he; cases e <;> first | rfl | exact absurd rfl he
  unfold Api.guessit
  cases hs : sanitize S o with
  | error e =>
    right
    refine hw e ?_
    rintro rfl
    unfold sanitize at hs
    cases o with
    | none => simp [parseOptions, fixDict] at hs
    | dict d => exact fixDict_noExit d hs
    | str s => exact hparse s rfl
    | argv a => exact hargv a rfl
  | ok options =>
    simp only
    cases hc : st.configure S env options none false with
    | mk st' res =>
      cases res with
      | error e => right; exact hw _ (configure_noExit S env st st' options false e hread hbuild hc)
      | ok config =>
        simp only
        split
        · right; exact hw .attributeError (by simp)
        · split
          · rename_i e he
            right
            exact hw _ (by rintro rfl; exact guessWith_noExit S _ _ _ _ hrules he)
          · exact .inl ⟨_, rfl⟩

/-- C12: nothing but a dictionary, a `GuessitException` for that name, or `SystemExit` ever reaches the caller, for every
kind of options and whatever the components do. -/
theorem C12_no_other_exception {R : Type} (S : Sys R) (env : Env) (st : Api R) (name : NameArg) (o : OptArg) :
    (∃ d, (st.guessit S env name o).2 = .value (.dict d)) ∨ (st.guessit S env name o).2 = .guessitException name ∨
      (st.guessit S env name o).2 = .raised .systemExit := by
  have hw : ∀ e, wrap name e = .guessitException name ∨ wrap name e = .raised .systemExit := by
    intro e; cases e <;> simp [wrap]
  unfold Api.guessit
  repeat' split
  all_goals first | exact .inl ⟨_, rfl⟩ | exact .inr (hw .attributeError) | exact .inr (hw _)

/-- C12 is false of the code for option strings: `guessit('a', '--bad')` terminates the interpreter. -/
theorem C12_option_string_counterexample :
    ((Api.init : Api Dict).guessit toySys toyEnv (.str c!"a") (.str c!"--bad")).2 = .raised .systemExit := rfl

-- a failing step of each kind surfaces as GuessitException
example : ((Api.init : Api Dict).guessit toySys toyEnv (.str c!"a") (.dict [(.str c!"config", .list [.str c!"x.json"])])).2 =
    .guessitException (.str c!"a") := rfl
example : ((Api.init : Api Dict).guessit toySys toyEnv (.bytes [200]) .none).2 = .guessitException (.bytes [200]) := rfl

/-! ## C16 -/

/-- The outcomes of guessing the titles one after the other on the same object. -/
def guessAll {R : Type} (S : Sys R) (env : Env) (st : Api R) (o : OptArg) : List NameArg → List Outcome
  | [] => []
  | t :: ts => (st.guessit S env t o).2 :: guessAll S env (st.guessit S env t o).1 o ts

/-- A guess that consists of exactly two properties, one of them the title. -/
def IsBareTitle (out : Outcome) : Prop :=
  ∃ d v, out = .value (.dict d) ∧ d.length = 2 ∧ Dict.get? d (.str c!"title") = some v

open Classical in
/-- C16: when every guess succeeds, `suggested_expected` returns exactly the titles, in order, whose guess is not a bare
title. -/
theorem C16_exactly_the_non_bare_titles {R : Type} (S : Sys R) (env : Env) (o : OptArg) (titles : List NameArg) :
    ∀ (st : Api R), (∀ out ∈ guessAll S env st o titles, ∃ d, out = .value (.dict d)) →
    (st.suggestedExpected S env o titles).2 =
      .ok (((titles.zip (guessAll S env st o titles)).filter (fun p => ¬ IsBareTitle p.2)).map Prod.fst) := by
  induction titles with
  | nil => intro st _; rfl
  | cons t ts ih =>
    intro st h
    simp only [guessAll, List.mem_cons, forall_eq_or_imp] at h
    obtain ⟨⟨d, hd⟩, h2⟩ := h
    simp only [Api.suggestedExpected, guessAll, List.zip_cons_cons]
    cases hg : st.guessit S env t o with
    | mk st' out =>
      rw [hg] at hd h2
      simp only at hd h2
      subst hd
      have := ih st' h2
      simp only
      cases hs : Api.suggestedExpected S env st' o ts with
      | mk st'' res =>
        rw [hs] at this
        simp only at this
        subst this
        simp only
        have hb : notBareTitle d = true ↔ ¬ IsBareTitle (.value (.dict d)) := by
          unfold notBareTitle IsBareTitle
          constructor
          · rintro h1 ⟨d', v, e1, e2, e3⟩
            cases e1
            simp [e2, e3] at h1
          · intro h1
            simp only [Bool.or_eq_true, bne_iff_ne, ne_eq]
            by_cases hl : d.length = 2
            · right
              cases ht : Dict.get? d (.str c!"title") with
              | none => rfl
              | some v => exact absurd ⟨d, v, rfl, hl, ht⟩ h1
            · exact .inl hl
        by_cases hbt : IsBareTitle (.value (.dict d))
        · have : notBareTitle d = false := by
            cases hx : notBareTitle d
            · rfl
            · exact absurd hbt (hb.1 hx)
          simp [this, hbt]
        · simp [hb.2 hbt, hbt]

/-- C16: a failing guess is not swallowed. -/
theorem C16_failure_propagates {R : Type} (S : Sys R) (env : Env) (o : OptArg) (titles : List NameArg) :
    ∀ (st : Api R) (l : List NameArg), (st.suggestedExpected S env o titles).2 = .ok l →
      ∀ out ∈ guessAll S env st o titles, ∃ d, out = .value (.dict d) := by
  induction titles with
  | nil => intro st l _ out h; simp [guessAll] at h
  | cons t ts ih =>
    intro st l h
    simp only [Api.suggestedExpected] at h
    split at h
    · rename_i st' d hg
      simp only [guessAll, List.mem_cons, forall_eq_or_imp, hg]
      refine ⟨⟨d, rfl⟩, ?_⟩
      split at h
      · simp at h
      · rename_i st'' l' hs
        exact ih st' l' (by rw [hs])
    · simp at h

/-- A matcher that finds a title and a type in names starting with `a`, a title, a type and a year in others. -/
def titleSys : Sys Dict := { toySys with
  rules := fun _ s _ => .ok (
    [{ start := 0, stop := 1, name := c!"title", value := .str s }, { start := 1, stop := 1, name := c!"type", value := .str c!"movie" }] ++
    (if s.head? = some 'a' then [] else [{ start := 2, stop := 3, name := c!"year", value := .int 2000 }])) }

example : ((Api.init : Api Dict).suggestedExpected titleSys toyEnv .none [.str c!"ab", .str c!"zb", .str c!"a"]).2 =
    .ok [.str c!"zb"] := rfl

end Guessit
