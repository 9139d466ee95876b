import Verif.Spec.Api
import Verif.Proofs.PyEq
import Verif.Proofs.Merge

namespace Guessit
open Spec

/-- The cached state is consistent with the fixed environment and the default builder. -/
structure Api.Inv {R} (S : Sys R) (env : Env) (st : Api R) : Prop where
  rules : ∀ r, st.rebulk = some r → ∃ a, st.adv = some a ∧ S.build a = .ok r
  config : ∀ c, st.config = some c → ∃ lo, st.loadOpts = some lo ∧ ownConfig env lo = .ok c

theorem Api.inv_init {R} (S : Sys R) (env : Env) : Api.Inv S env (Api.init : Api R) :=
  ⟨by simp [Api.init], by simp [Api.init]⟩

theorem pyEq_scalar_eq {a b : PyVal} (h : pyEq a b = true) :
    truthy a = truthy b := by
  cases a <;> cases b <;> simp only [pyEq, PyVal.num?, Bool.false_eq_true, decide_eq_true_eq] at h <;> try rfl
  · rename_i x y; cases x <;> cases y <;> simp_all [truthy]
  · rename_i x y; cases x <;> simp_all [truthy] <;> simp [← h]
  · rename_i x y; cases y <;> simp_all [truthy]
  · subst h; rfl
  · subst h; rfl
  · subst h; rfl
  · rename_i xs ys
    have := pyEqList_length h
    cases xs <;> cases ys <;> simp_all [truthy]
  · rename_i xs ys
    cases xs <;> cases ys <;> simp_all [truthy]

theorem loadConfigFile_pyEq (env : Env) {a b : PyVal} (h : pyEq a b = true) :
    loadConfigFile env a = loadConfigFile env b := by
  cases a <;> cases b <;> simp_all [pyEq, PyVal.num?, loadConfigFile]

theorem loadFiles_pyEq (env : Env) : ∀ {xs ys : List PyVal}, pyEqList xs ys = true →
    loadFiles env xs = loadFiles env ys
  | [], [], _ => rfl
  | [], _ :: _, h => by simp [pyEqList] at h
  | _ :: _, [], h => by simp [pyEqList] at h
  | x :: xs, y :: ys, h => by
    simp only [pyEqList, Bool.and_eq_true] at h
    simp only [loadFiles, loadConfigFile_pyEq env h.1, loadFiles_pyEq env h.2]

theorem loadFiles_append_pyEq (env : Env) (u : List PyVal) {xs ys : List PyVal} (h : pyEqList xs ys = true) :
    loadFiles env (u ++ xs) = loadFiles env (u ++ ys) := by
  induction u with
  | nil => exact loadFiles_pyEq env h
  | cons x u ih => simp only [List.cons_append, loadFiles, ih]

/-- Loading depends on the three configuration keys only up to `==`. -/
theorem loadConfig_pyEq (env : Env) {a b : Dict} (h : sameLoadOptions a b = true) :
    loadConfig env a = loadConfig env b := by
  simp only [sameLoadOptions, List.all_cons, List.all_nil, Bool.and_true, Bool.and_eq_true] at h
  obtain ⟨h1, h2, h3⟩ := h
  have t2 := pyEq_scalar_eq h2
  have t3 := pyEq_scalar_eq h3
  have t1 := pyEq_scalar_eq h1
  have hf : (∃ e, allFiles env a = .error e ∧ allFiles env b = .error e) ∨
      (∃ fa fb, allFiles env a = .ok fa ∧ allFiles env b = .ok fb ∧ loadFiles env fa = loadFiles env fb) := by
    unfold allFiles
    simp only [t1, t2]
    cases ht : truthy (b.getD kConfig)
    · right; exact ⟨_, _, rfl, rfl, rfl⟩
    · simp only [if_true]
      cases ha : a.getD kConfig <;> cases hb : b.getD kConfig <;> rw [ha, hb] at h1 <;>
        simp only [pyEq, PyVal.num?, Bool.false_eq_true] at h1 <;> first
        | (left; exact ⟨_, rfl, rfl⟩)
        | (right; exact ⟨_, _, rfl, rfl, loadFiles_append_pyEq env _ h1⟩)
  unfold loadConfig
  rcases hf with ⟨e, ea, eb⟩ | ⟨fa, fb, ea, eb, el⟩
  · rw [ea, eb]
  · rw [ea, eb]; simp only [el, t3]

theorem ownConfig_pyEq (env : Env) {a b : Dict} (h : sameLoadOptions a b = true) :
    ownConfig env a = ownConfig env b := by
  unfold ownConfig; rw [loadConfig_pyEq env h]

theorem chooseConfig_ok {R} {S : Sys R} {env : Env} {st st1 : Api R} {o c : Dict} {f : Bool} (hinv : st.Inv S env)
    (h : chooseConfig env st o f = .ok (st1, c)) :
    ownConfig env o = .ok c ∧ st1.rebulk = st.rebulk ∧ st1.adv = st.adv ∧ st1.config = st.config ∧
      ((st1 = st ∧ st.config = some c) ∨ st1.loadOpts = some o) := by
  have hreload : (match loadConfig env o with
      | .error e => .error e
      | .ok c => match fixDict [] c with
        | .error e => .error e
        | .ok c' => .ok ({ st with loadOpts := some o }, c')) = (Except.ok (st1, c) : Except PyErr _) →
      ownConfig env o = .ok c ∧ st1.rebulk = st.rebulk ∧ st1.adv = st.adv ∧ st1.config = st.config ∧
      ((st1 = st ∧ st.config = some c) ∨ st1.loadOpts = some o) := by
    intro h
    split at h
    · cases h
    · rename_i c0 hc0
      split at h
      · cases h
      · rename_i c1 hc1
        injection h with h
        injection h with h1 h2
        subst h1 h2
        exact ⟨by unfold ownConfig; rw [hc0]; exact hc1, rfl, rfl, rfl, .inr rfl⟩
  unfold chooseConfig at h
  simp only at h
  split at h
  · rename_i c0 lo hc hlo
    split at h
    · exact hreload h
    · rename_i hcond
      injection h with h
      injection h with h1 h2
      subst h1 h2
      obtain ⟨lo', hlo', hown⟩ := hinv.config _ hc
      rw [hlo] at hlo'; cases hlo'
      simp only [Bool.or_eq_true, not_or, Bool.not_eq_true, Bool.not_eq_false'] at hcond
      refine ⟨?_, rfl, rfl, rfl, .inl ⟨rfl, hc⟩⟩
      rw [← ownConfig_pyEq env hcond.2]; exact hown
  · exact hreload h

theorem chooseConfig_err {R} {S : Sys R} {env : Env} {st : Api R} {o : Dict} {f : Bool} {e : PyErr}
    (h : chooseConfig env st o f = .error e) : ownConfig env o = .error e := by
  have hreload : (match loadConfig env o with
      | .error e => .error e
      | .ok c => match fixDict [] c with
        | .error e => .error e
        | .ok c' => .ok ({ st with loadOpts := some o }, c')) = (Except.error e : Except PyErr (Api R × Dict)) →
      ownConfig env o = .error e := by
    intro h
    split at h
    · rename_i hl; injection h with h; subst h; unfold ownConfig; rw [hl]
    · rename_i hl
      split at h
      · injection h with h; subst h; unfold ownConfig; rw [hl]; assumption
      · cases h
  unfold chooseConfig at h
  simp only at h
  split at h
  · split at h
    · exact hreload h
    · cases h
  · exact hreload h

/-- What `configure` with the default builder does from a consistent state. -/
theorem configure_spec {R} {S : Sys R} {env : Env} {st : Api R} {o : Dict} {f : Bool} (hinv : st.Inv S env) :
    (∀ st' e, st.configure S env o none f = (st', .error (.load e)) → st' = st ∧ ownConfig env o = .error e) ∧
    (∀ st' e, st.configure S env o none f = (st', .error (.merge e)) → ownAdvanced env o = .error e) ∧
    (∀ st' e, st.configure S env o none f = (st', .error (.build e)) → ∃ adv, ownAdvanced env o = .ok adv ∧
        S.build adv = .error e) ∧
    (∀ st' c, st.configure S env o none f = (st', .ok c) → st'.Inv S env ∧ ownConfig env o = .ok c ∧
      ∃ adv a r, ownAdvanced env o = .ok adv ∧ st'.rebulk = some r ∧ st'.adv = some a ∧ S.build a = .ok r ∧
        (a = adv ∨ pyEq (.dict a) (.dict adv) = true)) := by
  unfold Api.configure
  cases hc : chooseConfig env st o f with
  | error e =>
    refine ⟨?_, ?_, ?_, ?_⟩
    · intro st' e' h; simp at h
      obtain ⟨h1, h2⟩ := h
      subst h1 h2; exact ⟨rfl, chooseConfig_err (S := S) hc⟩
    all_goals (intro st' e' h; simp at h)
  | ok p =>
    obtain ⟨st1, c⟩ := p
    obtain ⟨hown, hr, ha, hcf, hlo⟩ := chooseConfig_ok (S := S) hinv hc
    simp only
    have hadv : ownAdvanced env o = mergeOptions [c.getD kAdvanced, o.getD kAdvanced] := by
      unfold ownAdvanced; rw [hown]; rfl
    cases hm : mergeOptions [c.getD kAdvanced, o.getD kAdvanced] with
    | error e =>
      rw [hm] at hadv
      refine ⟨?_, ?_, ?_, ?_⟩
      · intro st' e' h; simp at h
      · intro st' e' h; injection h with h1 h2; injection h2 with h2; injection h2 with h2; subst h2; exact hadv
      · intro st' e' h; simp at h
      · intro st' e' h; simp at h
    | ok adv =>
      rw [hm] at hadv
      simp only [Option.getD_none]
      have hconfig : ∀ st' : Api R, st'.config = some c → st'.loadOpts = st1.loadOpts →
          ∀ c', st'.config = some c' → ∃ lo, st'.loadOpts = some lo ∧ ownConfig env lo = .ok c' := by
        intro st' h1 h2 c' hc'
        rw [h1] at hc'; cases hc'
        rcases hlo with ⟨e1, e2⟩ | e1
        · obtain ⟨lo, l1, l2⟩ := hinv.config _ e2
          exact ⟨lo, by rw [h2, e1, l1], l2⟩
        · exact ⟨o, by rw [h2, e1], hown⟩
      split
      · -- build
        cases hb : S.build adv with
        | error e =>
          refine ⟨?_, ?_, ?_, ?_⟩
          · intro st' e' h; simp at h
          · intro st' e' h; simp at h
          · intro st' e' h; injection h with h1 h2; injection h2 with h2; injection h2 with h2; subst h2
            exact ⟨adv, hadv, hb⟩
          · intro st' e' h; simp at h
        | ok r =>
          refine ⟨?_, ?_, ?_, ?_⟩
          · intro st' e' h; simp at h
          · intro st' e' h; simp at h
          · intro st' e' h; simp at h
          · intro st' c' h; injection h with h1 h2; injection h2 with h2; subst h1 h2
            refine ⟨⟨?_, ?_⟩, hown, adv, adv, r, hadv, rfl, rfl, hb, .inl rfl⟩
            · intro r' hr'; simp only [Option.some.injEq] at hr'; subst hr'; exact ⟨adv, rfl, hb⟩
            · exact hconfig _ rfl rfl
      · rename_i hcond
        simp only [Bool.or_eq_true, not_or, Bool.not_eq_true, Option.isNone_eq_false_iff] at hcond
        obtain ⟨⟨_, hreb⟩, hch⟩ := hcond
        refine ⟨?_, ?_, ?_, ?_⟩
        · intro st' e' h; simp at h
        · intro st' e' h; simp at h
        · intro st' e' h; simp at h
        · intro st' c' h; injection h with h1 h2; injection h2 with h2; subst h1 h2
          obtain ⟨r, hr1⟩ := Option.isSome_iff_exists.1 hreb
          obtain ⟨a, ha1, hba⟩ := hinv.rules r (by rw [← hr]; exact hr1)
          have hadv1 : st1.adv = some a := by rw [ha]; exact ha1
          refine ⟨⟨?_, ?_⟩, hown, adv, a, r, hadv, hr1, hadv1, hba, .inr ?_⟩
          · intro r' hr'
            have : r' = r := by rw [hr1] at hr'; exact (Option.some.inj hr').symm
            subst this; exact ⟨a, hadv1, hba⟩
          · exact hconfig _ rfl rfl
          · rw [hadv1] at hch
            simp only [advChanged, Bool.or_eq_false_iff, Bool.not_eq_false'] at hch
            exact hch.2

theorem inv_configure {R} {S : Sys R} {env : Env} {st : Api R} {o : Dict} {f : Bool} (hinv : st.Inv S env)
    (hb : ∀ e, (st.configure S env o none f).2 ≠ .error (.merge e) ∧ (st.configure S env o none f).2 ≠ .error (.build e)) :
    (st.configure S env o none f).1.Inv S env := by
  obtain ⟨h1, h2, h3, h4⟩ := configure_spec (S := S) (env := env) (o := o) (f := f) hinv
  cases hc : st.configure S env o none f with
  | mk st' res =>
    cases res with
    | ok c => exact (h4 _ _ hc).1
    | error e =>
      cases e with
      | load e => rw [(h1 _ _ hc).1]; exact hinv
      | merge e => rw [hc] at hb; exact absurd rfl (hb e).1
      | build e => rw [hc] at hb; exact absurd rfl (hb e).2

theorem inv_step {R} {S : Sys R} {env : Env} {st : Api R} {c : Call R} (hinv : st.Inv S env)
    (hd : DefaultBuilder c) (hb : ¬ BreaksConfig S env st c) : (st.step S env c).1.Inv S env := by
  cases c with
  | reset => exact Api.inv_init S env
  | configure o b f =>
    cases b with
    | some b => exact absurd hd (by simp [DefaultBuilder])
    | none =>
      simp only [Api.step, Api.configurePublic]
      cases hs : sanitize S o with
      | error e => exact hinv
      | ok options =>
        have := inv_configure (S := S) (env := env) (o := options) (f := f) hinv (by
          intro e
          constructor <;> intro h
          · exact hb ⟨o, options, e, rfl, hs, .inl h⟩
          · exact hb ⟨o, options, e, rfl, hs, .inr h⟩)
        simp only
        cases hc : st.configure S env options none f with
        | mk st' res => rw [hc] at this; cases res <;> exact this
  | guessit n o =>
    simp only [Api.step, Api.guessit]
    cases hs : sanitize S o with
    | error e => exact hinv
    | ok options =>
      have := inv_configure (S := S) (env := env) (o := options) (f := false) hinv (by
        intro e
        constructor <;> intro h
        · exact hb ⟨o, options, e, rfl, hs, .inl h⟩
        · exact hb ⟨o, options, e, rfl, hs, .inr h⟩)
      simp only
      cases hc : st.configure S env options none false with
      | mk st' res =>
        rw [hc] at this
        cases res with
        | error e => exact this
        | ok config =>
          simp only
          split
          · exact this
          · split <;> exact this
  | properties o =>
    simp only [Api.step, Api.properties]
    cases hs : sanitize S o with
    | error e => exact hinv
    | ok options =>
      have := inv_configure (S := S) (env := env) (o := options) (f := false) hinv (by
        intro e
        constructor <;> intro h
        · exact hb ⟨o, options, e, rfl, hs, .inl h⟩
        · exact hb ⟨o, options, e, rfl, hs, .inr h⟩)
      simp only
      cases hc : st.configure S env options none false with
      | mk st' res =>
        rw [hc] at this
        cases res with
        | error e => exact this
        | ok config =>
          simp only
          split
          · exact this
          · split
            · exact this
            · split <;> exact this

theorem inv_run {R} {S : Sys R} {env : Env} (cs : List (Call R)) : ∀ {st : Api R}, st.Inv S env →
    (∀ c ∈ cs, DefaultBuilder c) → NeverBreaks S env st cs → (runAll S env st cs).1.Inv S env := by
  induction cs with
  | nil => intro st h _ _; exact h
  | cons c cs ih =>
    intro st h hd hb
    simp only [NeverBreaks] at hb
    exact ih (inv_step h (hd c (by simp)) hb.1) (fun c hc => hd c (by simp [hc])) hb.2

/-- A call that returned normally did not break the configuration. -/
theorem success_not_breaks {R} {S : Sys R} {env : Env} {st : Api R} {c : Call R} (hd : DefaultBuilder c)
    (h : Outcome.Success (st.step S env c).2) : ¬ BreaksConfig S env st c := by
  rintro ⟨o, options, e, ho, hs, he⟩
  have he : ∃ e, (st.configure S env options none (Call.force c)).2 = .error e := by
    rcases he with he | he <;> exact ⟨_, he⟩
  obtain ⟨e, he⟩ := he
  cases c with
  | reset => simp [Call.opts?] at ho
  | configure o' b f =>
    simp only [Call.opts?, Option.some.injEq] at ho; subst ho
    cases b with
    | some b => exact absurd hd (by simp [DefaultBuilder])
    | none =>
      simp only [Api.step, Api.configurePublic, hs] at h
      simp only [Call.force] at he
      cases hc : st.configure S env options none f with
      | mk st' res => rw [hc] at he h; simp only at he; subst he; simp [Outcome.Success] at h
  | guessit n o' =>
    simp only [Call.opts?, Option.some.injEq] at ho; subst ho
    simp only [Api.step, Api.guessit, hs] at h
    simp only [Call.force] at he
    cases hc : st.configure S env options none false with
    | mk st' res =>
      rw [hc] at he h; simp only at he; subst he
      simp only [wrap] at h
      split at h <;> simp [Outcome.Success] at h
  | properties o' =>
    simp only [Call.opts?, Option.some.injEq] at ho; subst ho
    simp only [Api.step, Api.properties, hs] at h
    simp only [Call.force] at he
    cases hc : st.configure S env options none false with
    | mk st' res => rw [hc] at he h; simp only at he; subst he; simp [Outcome.Success] at h

theorem success_neverBreaks {R} {S : Sys R} {env : Env} (cs : List (Call R)) : ∀ {st : Api R},
    (∀ c ∈ cs, DefaultBuilder c) → (∀ out ∈ (runAll S env st cs).2, Outcome.Success out) →
    NeverBreaks S env st cs := by
  induction cs with
  | nil => intros; trivial
  | cons c cs ih =>
    intro st hd h
    simp only [runAll, List.map_cons, Api.run, List.mem_cons, forall_eq_or_imp] at h
    exact ⟨success_not_breaks (hd c (by simp)) h.1, ih (fun c hc => hd c (by simp [hc])) h.2⟩

/-- With a builder that respects `==`, the outcome of a guess does not depend on the (consistent) cached state. -/
theorem guessit_inv {R} {S : Sys R} {env : Env} {st : Api R} (hinv : st.Inv S env) (n : NameArg) (o : OptArg)
    (hext : ∀ a b r, pyEq (.dict a) (.dict b) = true → S.build a = .ok r → ∃ r', S.build b = .ok r' ∧
      ∀ s opts, S.rules r s opts = S.rules r' s opts) :
    (st.guessit S env n o).2 = ((Api.init : Api R).guessit S env n o).2 := by
  unfold Api.guessit
  cases hs : sanitize S o with
  | error e => rfl
  | ok options =>
    simp only
    obtain ⟨h1, h2, h3, h4⟩ := configure_spec (S := S) (env := env) (o := options) (f := false) hinv
    obtain ⟨g1, g2, g3, g4⟩ := configure_spec (S := S) (env := env) (o := options) (f := false)
      (Api.inv_init S env : Api.Inv S env (Api.init : Api R))
    have hinit : ∀ adv, ownAdvanced env options = .ok adv →
        ((Api.init : Api R).configure S env options none false).2 =
          (match S.build adv with | .error e => .error (.build e) | .ok _ => (match ownConfig env options with | .ok c => .ok c | .error e => .error (.load e))) := by
      intro adv hadv
      unfold ownAdvanced at hadv
      unfold Api.configure
      simp only [chooseConfig, Api.init]
      unfold ownConfig at hadv ⊢
      cases hl : loadConfig env options with
      | error e => rw [hl] at hadv; cases hadv
      | ok c =>
        rw [hl] at hadv
        simp only at hadv ⊢
        cases hf : fixDict [] c with
        | error e => rw [hf] at hadv; cases hadv
        | ok c' =>
          rw [hf] at hadv
          simp only at hadv ⊢
          have hadv' : mergeOptions [c'.getD kAdvanced, options.getD kAdvanced] = .ok adv := hadv
          simp only [hadv', Option.isNone_none, Bool.or_true, Bool.true_or, Bool.false_or, if_true, Option.getD_none]
          cases S.build adv <;> rfl
    cases hc : st.configure S env options none false with
    | mk st' res =>
      cases hi : (Api.init : Api R).configure S env options none false with
      | mk st0 res0 =>
        cases res with
        | error e =>
          cases e with
          | load e =>
            have := (h1 _ _ hc).2
            cases res0 with
            | ok c => have := (g4 _ _ hi).2.1; simp_all
            | error e0 =>
              cases e0 with
              | load e0 => have := (g1 _ _ hi).2; simp_all
              | merge e0 => have := (g2 _ _ hi); simp_all [ownAdvanced, ConfErr.err]
              | build e0 => obtain ⟨_, h, _⟩ := (g3 _ _ hi); simp_all [ownAdvanced]
          | merge e =>
            have hm := h2 _ _ hc
            cases res0 with
            | ok c => obtain ⟨adv, _, _, h, _⟩ := (g4 _ _ hi).2.2; simp_all
            | error e0 =>
              cases e0 with
              | load e0 => have := (g1 _ _ hi).2; simp_all [ownAdvanced, ConfErr.err]
              | merge e0 => have := (g2 _ _ hi); simp_all [ConfErr.err]
              | build e0 => obtain ⟨_, h, _⟩ := (g3 _ _ hi); simp_all
          | build e =>
            obtain ⟨adv, hadv, hb⟩ := h3 _ _ hc
            have := hinit adv hadv
            rw [hi, hb] at this
            simp only at this
            subst this
            rfl
        | ok c =>
          obtain ⟨hinv', hown, adv, a, r, hadv, hr, _, hba, hcase⟩ := h4 _ _ hc
          have hbuild : ∃ r', S.build adv = .ok r' ∧ ∀ s opts, S.rules r s opts = S.rules r' s opts := by
            rcases hcase with rfl | hcase
            · exact ⟨r, hba, fun _ _ => rfl⟩
            · exact hext _ _ _ hcase hba
          obtain ⟨r', hr', hsame⟩ := hbuild
          have h0 := hinit adv hadv
          rw [hi, hr', hown] at h0
          simp only at h0
          subst h0
          obtain ⟨_, _, adv0, a0, r0, hadv0, hr0, _, hba0, hcase0⟩ := g4 _ _ hi
          rw [hadv] at hadv0; cases hadv0
          have hsame0 : ∀ s opts, S.rules r0 s opts = S.rules r' s opts := by
            rcases hcase0 with rfl | hcase0
            · rw [hba0] at hr'; cases hr'; exact fun _ _ => rfl
            · obtain ⟨r'', h1'', h2''⟩ := hext _ _ _ hcase0 hba0
              rw [hr'] at h1''; cases h1''; exact h2''
          simp only [hr, hr0]
          have hg : guessWith S r c options n = guessWith S r0 c options n := by
            unfold guessWith; simp only [hsame, hsame0]
          rw [hg]
          cases guessWith S r0 c options n <;> rfl

end Guessit
