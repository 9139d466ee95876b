import Verif.Props.Converters
import Verif.Props.Api

/-!
# C102: converters are shared by the API objects of a process
-/

namespace Guessit

open Spec

/-! ## The rules do not influence the state of an API object -/

theorem sanitize_sys {R : Type} (S : SharedSys R) (reg : Option Dict) (o : OptArg) : sanitize (S.sys reg) o = sanitize S.base o := by
  unfold sanitize
  have : parseOptions (S.sys reg) o = parseOptions S.base o := by cases o <;> rfl
  rw [this]

theorem configure_sys {R : Type} (S : SharedSys R) (reg : Option Dict) (env : Env) (st : Api R) (o : Dict)
    (bd : Option (Dict → Except PyErr R)) (f : Bool) :
    st.configure (S.sys reg) env o bd f = st.configure S.base env o bd f := rfl

theorem step_sys_state {R : Type} (S : SharedSys R) (reg reg' : Option Dict) (env : Env) (st : Api R) (c : Call R) :
    (st.step (S.sys reg) env c).1 = (st.step (S.sys reg') env c).1 := by
  cases c with
  | reset => rfl
  | configure o bd f =>
    simp only [Api.step, Api.configurePublic, sanitize_sys, configure_sys]
  | properties o =>
    simp only [Api.step, Api.properties, sanitize_sys, configure_sys]
    rfl
  | guessit n o =>
    simp only [Api.step, Api.guessit, sanitize_sys, configure_sys]
    cases sanitize S.base o with
    | error e => rfl
    | ok options =>
      simp only
      rcases st.configure S.base env options none false with ⟨st', r⟩
      cases r with
      | error e => rfl
      | ok config =>
        simp only
        cases st'.rebulk with
        | none => rfl
        | some r =>
          simp only
          cases guessWith (S.sys reg) r config options n <;> cases guessWith (S.sys reg') r config options n <;> rfl

theorem step_sys_outcome {R : Type} (S : SharedSys R) (reg reg' : Option Dict) (env : Env) (st : Api R) (c : Call R)
    (h : ∀ r, (st.step S.base env c).1.rebulk = some r → S.rulesWith reg r = S.rulesWith reg' r) :
    (st.step (S.sys reg) env c).2 = (st.step (S.sys reg') env c).2 := by
  cases c with
  | reset => rfl
  | configure o bd f =>
    simp only [Api.step, Api.configurePublic, sanitize_sys, configure_sys]
  | properties o =>
    simp only [Api.step, Api.properties, sanitize_sys, configure_sys]
    rfl
  | guessit n o =>
    simp only [Api.step, Api.guessit, sanitize_sys, configure_sys] at h ⊢
    cases hs : sanitize S.base o with
    | error e => rfl
    | ok options =>
      rw [hs] at h
      simp only at h ⊢
      rcases hc : st.configure S.base env options none false with ⟨st', r⟩
      rw [hc] at h
      cases r with
      | error e => rfl
      | ok config =>
        simp only at h ⊢
        cases hr : st'.rebulk with
        | none => rfl
        | some r =>
          simp only
          have hk : S.rulesWith reg r = S.rulesWith reg' r := by
            apply h
            rw [hr]
            simp only
            cases guessWith S.base r config options n <;> exact hr
          have hg : guessWith (S.sys reg) r config options n = guessWith (S.sys reg') r config options n := by
            unfold guessWith
            simp only [SharedSys.sys, hk]
          rw [hg]

/-! ## Builds -/

/-- After a call the rules of the object are those it had, or those built from the configuration the call gave to the builder. -/
theorem configure_rebulk {R : Type} (S : Sys R) (env : Env) (st : Api R) (o : Dict) (f : Bool) :
    (st.configure S env o none f).1.rebulk = match buildsFrom env st o f with
      | none => st.rebulk
      | some adv => match S.build adv with
        | .ok r => some r
        | .error _ => st.rebulk := by
  have hst : ∀ st1 config, chooseConfig env st o f = .ok (st1, config) → st1.rebulk = st.rebulk := by
    intro st1 config h
    unfold chooseConfig at h
    dsimp only at h
    repeat' (split at h)
    all_goals first
      | (cases h; rfl)
      | cases h
  unfold Api.configure buildsFrom
  cases hc : chooseConfig env st o f with
  | error e => rfl
  | ok p =>
    obtain ⟨st1, config⟩ := p
    have h1 := hst st1 config hc
    simp only
    cases mergeOptions [config.getD kAdvanced, o.getD kAdvanced] with
    | error e => exact h1
    | ok adv =>
      simp only
      by_cases hcond : (f || st1.rebulk.isNone || advChanged st1.adv adv) = true
      · simp only [hcond, if_true, Option.getD_none]
        cases S.build adv with
        | error e => exact h1
        | ok r => rfl
      · simp only [hcond]
        exact h1

theorem step_rebulk {R : Type} (S : Sys R) (env : Env) (st : Api R) (c : Call R) (hd : DefaultBuilder c) :
    (st.step S env c).1.rebulk = match callBuilds S env st c with
      | none => (match c with | .reset => none | _ => st.rebulk)
      | some adv => match S.build adv with
        | .ok r => some r
        | .error _ => st.rebulk := by
  cases c with
  | reset => rfl
  | configure o bd f =>
    cases bd with
    | some b => exact hd.elim
    | none =>
      simp only [Api.step, Api.configurePublic, callBuilds]
      cases sanitize S o with
      | error e => rfl
      | ok options =>
        simp only
        rw [← configure_rebulk S env st options f]
        rcases st.configure S env options none f with ⟨st', r⟩
        cases r <;> rfl
  | properties o =>
    simp only [Api.step, Api.properties, callBuilds]
    cases sanitize S o with
    | error e => rfl
    | ok options =>
      simp only
      rw [← configure_rebulk S env st options false]
      rcases st.configure S env options none false with ⟨st', r⟩
      cases r with
      | error e => rfl
      | ok config =>
        simp only
        cases mergeOptions [.dict config, .dict options] with
        | error e => rfl
        | ok opts =>
          simp only
          cases hr : st'.rebulk with
          | none => exact hr
          | some r =>
            simp only
            cases S.introspect r opts <;> exact hr
  | guessit n o =>
    simp only [Api.step, Api.guessit, callBuilds]
    cases sanitize S o with
    | error e => rfl
    | ok options =>
      simp only
      rw [← configure_rebulk S env st options false]
      rcases st.configure S env options none false with ⟨st', r⟩
      cases r with
      | error e => rfl
      | ok config =>
        simp only
        cases hr : st'.rebulk with
        | none => exact hr
        | some r =>
          simp only
          cases guessWith S r config options n <;> exact hr

theorem step_rebulk_sys {R : Type} (S : SharedSys R) (reg : Option Dict) (env : Env) (st : Api R) (c : Call R) :
    (st.step (S.sys reg) env c).1 = (st.step S.base env c).1 := step_sys_state S reg none env st c |>.trans (by
  cases c with
  | reset => rfl
  | configure o bd f => simp only [Api.step, Api.configurePublic, sanitize_sys, configure_sys]
  | properties o =>
    simp only [Api.step, Api.properties, sanitize_sys, configure_sys]
    rfl
  | guessit n o =>
    simp only [Api.step, Api.guessit, sanitize_sys, configure_sys]
    cases sanitize S.base o with
    | error e => rfl
    | ok options =>
      simp only
      rcases st.configure S.base env options none false with ⟨st', r⟩
      cases r with
      | error e => rfl
      | ok config =>
        simp only
        cases st'.rebulk with
        | none => rfl
        | some r =>
          simp only
          cases guessWith (S.sys none) r config options n <;> cases guessWith S.base r config options n <;> rfl)

/-- What the registry holds after a call. -/
theorem process_registry {R : Type} (S : SharedSys R) (env : Env) (p : Process R) (i : Nat) (c : Call R) :
    (p.step S env i c).1.registry = match callBuilds S.base env (p.apis i) c with
      | none => p.registry
      | some adv => match S.base.build adv with
        | .ok _ => some adv
        | .error _ => S.afterFailure p.registry adv := rfl

theorem process_api {R : Type} (S : SharedSys R) (env : Env) (p : Process R) (i j : Nat) (c : Call R) :
    (p.step S env i c).1.apis j = if j = i then ((p.apis i).step S.base env c).1 else p.apis j := by
  show (if j = i then ((p.apis i).step (S.sys _) env c).1 else p.apis j) = _
  rw [step_rebulk_sys]

/-! ## C102 -/

theorem single_step {R : Type} (S : SharedSys R) (env : Env) (p : Process R) (i : Nat) (c : Call R) (hd : DefaultBuilder c)
    (hb : ∀ adv, callBuilds S.base env (p.apis i) c = some adv → ∃ r, S.base.build adv = .ok r)
    (hp : ∀ r, (p.apis i).rebulk = some r → ∃ a, p.registry = some a ∧ S.base.build a = .ok r) (r : R)
    (h : ((p.step S env i c).1.apis i).rebulk = some r) :
    ∃ a, (p.step S env i c).1.registry = some a ∧ S.base.build a = .ok r := by
  rw [process_api, if_pos rfl, step_rebulk _ _ _ _ hd] at h
  rw [process_registry]
  cases hc : callBuilds S.base env (p.apis i) c with
  | none =>
    rw [hc] at h
    cases c with
    | reset => simp at h
    | configure o bd f => exact hp r h
    | guessit n o => exact hp r h
    | properties o => exact hp r h
  | some adv =>
    rw [hc] at h
    obtain ⟨r', hr⟩ := hb adv hc
    simp only [hr] at h ⊢
    cases h
    exact ⟨adv, rfl, hr⟩

/-- C102: as long as a process uses a single API object (with the default builder) and no build fails, the converters in use are
those of the configuration the rules of the object were built from, whatever the history. -/
theorem C102_single {R : Type} (S : SharedSys R) (i : Nat) (h : List (Env × Nat × Call R)) (honly : ∀ e ∈ h, e.2.1 = i)
    (hd : ∀ e ∈ h, DefaultBuilder e.2.2) (hb : BuildsOnly S (fun adv => ∃ r, S.base.build adv = .ok r) Process.init h) (r : R)
    (hr : ((Process.init.run S h).apis i).rebulk = some r) :
    ∃ a, (Process.init.run S h).registry = some a ∧ S.base.build a = .ok r := by
  have key : ∀ (h : List (Env × Nat × Call R)) (p : Process R), (∀ e ∈ h, e.2.1 = i) → (∀ e ∈ h, DefaultBuilder e.2.2) →
      BuildsOnly S (fun adv => ∃ r, S.base.build adv = .ok r) p h →
      (∀ r, (p.apis i).rebulk = some r → ∃ a, p.registry = some a ∧ S.base.build a = .ok r) →
      ∀ r, ((p.run S h).apis i).rebulk = some r → ∃ a, (p.run S h).registry = some a ∧ S.base.build a = .ok r := by
    intro h
    induction h with
    | nil => intro p _ _ _ hp; exact hp
    | cons e rest ih =>
      obtain ⟨env, j, c⟩ := e
      intro p ho hd hb hp
      have hj : j = i := ho _ List.mem_cons_self
      subst hj
      exact ih _ (fun e he => ho e (List.mem_cons_of_mem _ he)) (fun e he => hd e (List.mem_cons_of_mem _ he)) hb.2
        (fun r hr => single_step S env p j c (hd _ List.mem_cons_self) hb.1 hp r hr)
  exact key h _ honly hd hb (fun r hr => by cases hr) r hr

/-- The registry holds nothing only while no object has rules, and otherwise a configuration in `P`. -/
def SharedInv {R : Type} (P : Dict → Prop) (p : Process R) : Prop :=
  (p.registry = none → ∀ j, (p.apis j).rebulk = none) ∧ ∀ a, p.registry = some a → P a

theorem sharedInv_step {R : Type} (S : SharedSys R) (P : Dict → Prop) (env : Env) (p : Process R) (i : Nat) (c : Call R)
    (hd : DefaultBuilder c) (hf : ∀ reg adv, S.afterFailure reg adv = reg ∨ S.afterFailure reg adv = some adv)
    (hb : ∀ adv, callBuilds S.base env (p.apis i) c = some adv → P adv) (hp : SharedInv P p) :
    SharedInv P (p.step S env i c).1 := by
  obtain ⟨h1, h2⟩ := hp
  constructor
  · intro hn j
    rw [process_registry] at hn
    rw [process_api]
    by_cases hj : j = i
    · subst hj
      rw [if_pos rfl, step_rebulk _ _ _ _ hd]
      cases hc : callBuilds S.base env (p.apis j) c with
      | none =>
        rw [hc] at hn
        have := h1 hn j
        cases c <;> simp [this]
      | some adv =>
        rw [hc] at hn
        cases hB : S.base.build adv with
        | ok r => simp [hB] at hn
        | error e =>
          simp only [hB] at hn ⊢
          rcases hf p.registry adv with h | h
          · rw [h] at hn
            exact h1 hn j
          · rw [h] at hn; cases hn
    · rw [if_neg hj]
      apply h1
      cases hc : callBuilds S.base env (p.apis i) c with
      | none => rw [hc] at hn; exact hn
      | some adv =>
        rw [hc] at hn
        cases hB : S.base.build adv with
        | ok r => simp [hB] at hn
        | error e =>
          simp only [hB] at hn
          rcases hf p.registry adv with h | h
          · rw [h] at hn
            exact hn
          · rw [h] at hn; cases hn
  · intro a ha
    rw [process_registry] at ha
    cases hc : callBuilds S.base env (p.apis i) c with
    | none => rw [hc] at ha; exact h2 a ha
    | some adv =>
      rw [hc] at ha
      cases hB : S.base.build adv with
      | ok r =>
        simp only [hB] at ha
        cases ha
        exact hb _ hc
      | error e =>
        simp only [hB] at ha
        rcases hf p.registry adv with h | h
        · rw [h] at ha
          exact h2 a ha
        · rw [h] at ha
          cases ha
          exact hb _ hc

/-- C102: when all configurations built in the process give the same converters, the API objects do not influence each other:
each has the outcomes its own calls have on their own. -/
theorem C102_same_synonyms {R : Type} (S : SharedSys R) (P : Dict → Prop) (a₀ : Dict) (h : List (Env × Nat × Call R))
    (hd : ∀ e ∈ h, DefaultBuilder e.2.2) (hf : ∀ reg adv, S.afterFailure reg adv = reg ∨ S.afterFailure reg adv = some adv)
    (hb : BuildsOnly S P Process.init h) (hsame : ∀ a, P a → S.rulesWith (some a) = S.rulesWith (some a₀)) (i : Nat) :
    ((Process.init.outcomes S h).filter fun o => o.1 = i).map Prod.snd =
      (Api.run (S.sys (some a₀)) Api.init (callsOn i h)).2 := by
  have key : ∀ (h : List (Env × Nat × Call R)) (p : Process R), (∀ e ∈ h, DefaultBuilder e.2.2) → BuildsOnly S P p h →
      SharedInv P p → ((p.outcomes S h).filter fun o => o.1 = i).map Prod.snd =
        (Api.run (S.sys (some a₀)) (p.apis i) (callsOn i h)).2 := by
    intro h
    induction h with
    | nil => intros; rfl
    | cons e rest ih =>
      obtain ⟨env, j, c⟩ := e
      intro p hd hb hp
      have hdc : DefaultBuilder c := hd _ List.mem_cons_self
      have hp' := sharedInv_step S P env p j c hdc hf hb.1 hp
      have ih' := ih _ (fun e he => hd e (List.mem_cons_of_mem _ he)) hb.2 hp'
      rw [process_api] at ih'
      simp only [Process.outcomes, callsOn, List.filter_cons, List.filterMap_cons]
      by_cases hj : j = i
      · subst hj
        simp only [decide_true, if_true, List.map_cons, Api.run]
        have h1 : (p.step S env j c).2 = ((p.apis j).step (S.sys (some a₀)) env c).2 := by
          show ((p.apis j).step (S.sys (p.step S env j c).1.registry) env c).2 = _
          apply step_sys_outcome
          intro r hr
          cases hreg : (p.step S env j c).1.registry with
          | none =>
            have h0 := hp'.1 hreg j
            rw [process_api, if_pos rfl, hr] at h0
            cases h0
          | some a => rw [hsame a (hp'.2 a hreg)]
        have h2 : ((p.apis j).step (S.sys (some a₀)) env c).1 = ((p.apis j).step S.base env c).1 := step_rebulk_sys _ _ _ _ _
        simp only [if_true] at ih'
        rw [h1, h2, ih']
        rfl
      · simp only [hj, decide_false, if_false, Bool.false_eq_true]
        rw [if_neg (fun h => hj h.symm)] at ih'
        rw [ih']
        rfl
  exact key h _ hd hb ⟨fun _ _ => rfl, fun a ha => by cases ha⟩

/-- Rules whose answer shows the converters in use: `x` is that of the configuration the registry holds. -/
def sharedToy : SharedSys Dict where
  base := toySys
  rulesWith := fun reg _ _ _ => .ok [{ start := 0, stop := 1, name := c!"x", value := (reg.getD []).getD (.str c!"x") }]
  afterFailure := fun reg _ => reg

/-- C102 in full is false of the code: with two API objects, a guess on the first after a guess on the second with other
synonyms has another outcome than the same guess before, and than the same calls without the second object. -/
theorem C102_counterexample : ∃ history : List (Env × Nat × Call Dict),
    ((Process.init.outcomes sharedToy history).filter fun o => o.1 = 0).map Prod.snd ≠
      ((Process.init.outcomes sharedToy (history.filter fun e => e.2.1 = 0)).filter fun o => o.1 = 0).map Prod.snd ∧
    (Process.init.outcomes sharedToy history) =
      [(0, .value (.dict [(.str c!"x", .int 2)])), (1, .value (.dict [(.str c!"x", .int 3)])), (0, .value (.dict [(.str c!"x", .int 3)]))] := by
  refine ⟨[(toyEnv, 0, toyCall (.int 2)), (toyEnv, 1, toyCall (.int 3)), (toyEnv, 0, toyCall (.int 2))], ?_, rfl⟩
  intro h
  have h' : [Outcome.value (.dict [(.str c!"x", .int 2)]), .value (.dict [(.str c!"x", .int 3)])] =
    [Outcome.value (.dict [(.str c!"x", .int 2)]), .value (.dict [(.str c!"x", .int 2)])] := h
  simp at h'

/-- A single object whose configuration changes: the converters follow. -/
example : (Process.init.outcomes sharedToy [(toyEnv, 0, toyCall (.int 2)), (toyEnv, 0, toyCall (.int 3)), (toyEnv, 0, toyCall (.int 2))]) =
    [(0, .value (.dict [(.str c!"x", .int 2)])), (0, .value (.dict [(.str c!"x", .int 3)])), (0, .value (.dict [(.str c!"x", .int 2)]))] := rfl

/-- The hypotheses of `C102_single` hold of it. -/
example : BuildsOnly sharedToy (fun adv => ∃ r, toySys.build adv = .ok r) Process.init
    [(toyEnv, 0, toyCall (.int 2)), (toyEnv, 0, toyCall (.int 3))] := by
  refine ⟨?_, ?_, trivial⟩
  · intro adv h
    have h' : some [(Key.str c!"x", PyVal.int 2)] = some adv := h
    cases h'
    exact ⟨_, rfl⟩
  · intro adv h
    have h' : some [(Key.str c!"x", PyVal.int 3)] = some adv := h
    cases h'
    exact ⟨_, rfl⟩

end Guessit
