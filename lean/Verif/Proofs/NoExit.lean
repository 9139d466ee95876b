import Verif.Proofs.Api

/-! None of the modelled functions raises `SystemExit` by itself. -/

namespace Guessit

theorem pyIter_noExit (v : PyVal) : pyIter v ≠ .error .systemExit := by cases v <;> simp [pyIter]

theorem resetKeys_noExit (ps : List PyVal) : ∀ m, resetKeys m ps ≠ .error .systemExit := by
  induction ps with
  | nil => intro m; simp [resetKeys]
  | cons p ps ih =>
    intro m
    cases p <;> simp [resetKeys, pristineKey, ih]

theorem applyPristine_noExit (m : Dict) (p : PyVal) : applyPristine m p ≠ .error .systemExit := by
  unfold applyPristine
  split
  · simp
  · split
    · split
      · rename_i e he; intro h; injection h with h; subst h; exact pyIter_noExit _ he
      · exact resetKeys_noExit _ _
    · simp

theorem mergeInto_noExit : ∀ (v : PyVal) (m : Dict), mergeInto m v ≠ .error .systemExit := by
  have base : ∀ v, (∀ d, v ≠ .dict d) → ∀ m, mergeInto m v ≠ .error .systemExit := by
    intro v hv m
    unfold mergeInto
    split
    · exact absurd rfl (hv _)
    · split <;> simp
  apply PyVal.ind
  · intro v hs; apply base; rintro d rfl; simp [Spec.Scalar] at hs
  · intro xs _; apply base; simp
  · intro d ih m
    simp only [mergeInto]
    split
    · rename_i e he; intro h; injection h with h; subst h; exact applyPristine_noExit _ _ he
    · rename_i base hbase
      clear hbase
      induction d generalizing base with
      | nil => simp [mergeItems]
      | cons e d ihd =>
        simp only [mergeItems]
        split
        · rename_i err herr
          intro h; injection h with h; subst h
          obtain ⟨k, v⟩ := e
          have hv := ih _ List.mem_cons_self
          simp only at hv
          cases v with
          | none => simp [mergeValue] at herr
          | _ =>
            all_goals
              simp only [mergeValue] at herr
              split at herr
              · simp at herr
              · split at herr
                · split at herr
                  · rename_i e he; injection herr with herr; subst herr; exact pyIter_noExit _ he
                  · simp at herr
                · split at herr
                  · rename_i e he; injection herr with herr; subst herr; exact hv _ he
                  · simp at herr
                · simp at herr
        · exact ihd (fun e he => ih e (List.mem_cons_of_mem _ he)) _

theorem mergeOptions_noExit (os : List PyVal) : mergeOptions os ≠ .error .systemExit := by
  cases os with
  | nil => simp [mergeOptions]
  | cons o os =>
    simp only [mergeOptions]
    split
    · rename_i e he
      intro h; injection h with h; subst h
      unfold mergeFirst at he
      split at he
      · simp at he
      · split at he <;> simp at he
    · rename_i m _
      clear * -
      induction os generalizing m with
      | nil => simp [mergeRest]
      | cons o os ih =>
        simp only [mergeRest]
        split
        · rename_i e he; intro h; injection h with h; subst h; exact mergeInto_noExit _ _ he
        · exact ih _

theorem asciiDecode_noExit (b : List UInt8) : asciiDecode b ≠ .error .systemExit := by
  unfold asciiDecode; split <;> simp

theorem fixEncoding_noExit : ∀ v, fixEncoding v ≠ .error .systemExit := by
  apply PyVal.ind
  · intro v hs
    cases v <;> simp only [fixEncoding] <;> (try simp) <;> simp only [Spec.Scalar] at hs
    split
    · rename_i e he; intro h; injection h with h; subst h; exact asciiDecode_noExit _ he
    · simp
  · intro xs ih
    simp only [fixEncoding]
    have : fixList xs ≠ .error .systemExit := by
      induction xs with
      | nil => simp [fixList]
      | cons x xs ihx =>
        simp only [fixList]
        split
        · rename_i e he; intro h; injection h with h; subst h; exact ih x (by simp) he
        · split
          · rename_i e he; intro h; injection h with h; subst h; exact ihx (fun y hy => ih y (by simp [hy])) he
          · simp
    split
    · rename_i e he; intro h; injection h with h; subst h; exact this he
    · simp
  · intro d ih
    simp only [fixEncoding]
    have : ∀ acc, fixDict acc d ≠ .error .systemExit := by
      induction d with
      | nil => intro acc; simp [fixDict]
      | cons e d ihd =>
        intro acc
        simp only [fixDict]
        split
        · rename_i err he
          intro h; injection h with h; subst h
          obtain ⟨k, v⟩ := e
          simp only [fixPair] at he
          split at he
          · rename_i e' he'
            injection he with he; subst he
            cases k with
            | str s => simp [fixKey] at he'
            | bytes b =>
              simp only [fixKey] at he'
              split at he'
              · rename_i h2; injection he' with he'; subst he'; exact asciiDecode_noExit _ h2
              · simp at he'
          · split at he
            · rename_i h2; injection he with he; subst he; exact ih _ List.mem_cons_self h2
            · simp at he
        · exact ihd (fun e he => ih e (List.mem_cons_of_mem _ he)) _
    split
    · rename_i e he; intro h; injection h with h; subst h; exact this _ he
    · simp

theorem fixDict_noExit (d : Dict) : fixDict [] d ≠ .error .systemExit := by
  intro h
  have := fixEncoding_noExit (.dict d)
  simp only [fixEncoding, h] at this
  exact this rfl

theorem loadConfig_noExit (env : Env) (hread : ∀ p, env.readFile p ≠ .error .systemExit) (o : Dict) :
    loadConfig env o ≠ .error .systemExit := by
  have hfile : ∀ f, loadConfigFile env f ≠ .error .systemExit := by
    intro f
    cases f <;> simp only [loadConfigFile] <;> (try simp)
    repeat' split
    all_goals first | exact hread _ | simp
  have hfiles : ∀ fs, loadFiles env fs ≠ .error .systemExit := by
    intro fs
    induction fs with
    | nil => simp [loadFiles]
    | cons f fs ih =>
      simp only [loadFiles]
      split
      · rename_i e he; intro h; injection h with h; subst h; exact hfile _ he
      · split
        · rename_i e he; intro h; injection h with h; subst h; exact ih he
        · simp
  unfold loadConfig
  split
  · rename_i e he
    intro h; injection h with h; subst h
    unfold allFiles at he
    simp only at he
    repeat' split at he
    all_goals simp at he
  · split
    · rename_i e he; intro h; injection h with h; subst h; exact hfiles _ he
    · simp only
      split
      · rename_i e he; intro h; injection h with h; subst h; exact mergeOptions_noExit _ he
      · split
        · simp
        · split
          · rename_i e he
            intro h; injection h with h; subst h
            unfold defaultAdvanced at he
            repeat' split at he
            all_goals simp at he
          · simp

theorem encodeMatches_noExit (ms : List OutMatch) : encodeMatches ms ≠ .error .systemExit := by
  induction ms with
  | nil => simp [encodeMatches]
  | cons m ms ih =>
    simp only [encodeMatches]
    split
    · rename_i e he
      intro h; injection h with h; subst h
      split at he
      · unfold asciiEncode at he
        split at he <;> simp [Except.map] at he
      · simp at he
    · split
      · rename_i e he; intro h; injection h with h; subst h; exact ih he
      · simp

theorem configure_noExit {R} (S : Sys R) (env : Env) (st st' : Api R) (o : Dict) (f : Bool) (e : ConfErr)
    (hread : ∀ p, env.readFile p ≠ .error .systemExit) (hbuild : ∀ a, S.build a ≠ .error .systemExit)
    (h : st.configure S env o none f = (st', .error e)) : e.err ≠ .systemExit := by
  have hc : ∀ e, chooseConfig env st o f = .error e → e ≠ .systemExit := by
    intro e he
    have hreload : (match loadConfig env o with
      | .error e => .error e
      | .ok c => match fixDict [] c with
        | .error e => .error e
        | .ok c' => .ok ({ st with loadOpts := some o }, c')) = (Except.error e : Except PyErr (Api R × Dict)) →
        e ≠ .systemExit := by
      intro h
      split at h
      · rename_i h1; injection h with h; subst h; rintro rfl; exact loadConfig_noExit env hread _ h1
      · split at h
        · rename_i h1; injection h with h; subst h; rintro rfl; exact fixDict_noExit _ h1
        · simp at h
    unfold chooseConfig at he
    simp only at he
    split at he
    · split at he
      · exact hreload he
      · simp at he
    · exact hreload he
  unfold Api.configure at h
  split at h
  · rename_i e' he'
    simp only [Prod.mk.injEq, Except.error.injEq] at h
    obtain ⟨_, rfl⟩ := h
    exact hc _ he'
  · split at h
    · rename_i he'
      simp only [Prod.mk.injEq, Except.error.injEq] at h
      obtain ⟨_, rfl⟩ := h
      intro hx; simp only [ConfErr.err] at hx; subst hx; exact mergeOptions_noExit _ he'
    · split at h
      · simp only at h
        split at h
        · rename_i he'
          simp only [Prod.mk.injEq, Except.error.injEq] at h
          obtain ⟨_, rfl⟩ := h
          intro hx; simp only [ConfErr.err] at hx; subst hx; exact hbuild _ he'
        · simp at h
      · simp at h

theorem guessWith_noExit {R} (S : Sys R) (r : R) (c o : Dict) (n : NameArg)
    (hrules : ∀ r s d, S.rules r s d ≠ .error .systemExit) : guessWith S r c o n ≠ .error .systemExit := by
  unfold guessWith
  split
  · rename_i he; intro h; injection h with h; subst h; exact mergeOptions_noExit _ he
  · split
    · rename_i he
      intro h; injection h with h; subst h
      cases n <;> simp only [NameArg.text] at he <;> first | exact asciiDecode_noExit _ he | simp at he
    · split
      · rename_i he; intro h; injection h with h; subst h; exact hrules _ _ _ he
      · split
        · rename_i he
          intro h; injection h with h; subst h
          split at he
          · exact encodeMatches_noExit _ he
          · simp at he
        · simp

end Guessit
