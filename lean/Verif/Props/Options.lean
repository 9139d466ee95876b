import Verif.Proofs.MergeIdem

/-!
# Properties C01–C07: option merging and configuration loading

`mergeOptions` is `guessit.options.merge_options`; `.dict a` is a Python dictionary, `Dict.get? a k` its entry for `k`.
`Dict.WF` says that a dictionary has distinct keys, which holds of every Python dictionary.
-/

namespace Guessit
open Spec

private theorem merge2 {a b m : Dict} (h : mergeOptions [.dict a, .dict b] = .ok m) : mergeInto a (.dict b) = .ok m := by
  simp only [mergeOptions, mergeFirst, mergeRest] at h
  split at h
  · cases h
  · rename_i h'; cases h; exact h'

private theorem merge2' {a b m : Dict} (h : mergeInto a (.dict b) = .ok m) : mergeOptions [.dict a, .dict b] = .ok m := by
  simp only [mergeOptions, mergeFirst, mergeRest, h]

/-! ## C01 -/

/-- C01: over any number of sources, if an option is a scalar wherever it is given and no later source resets it, the
merged value is the one of the last source that gives a non-null value. -/
theorem C01_last_non_null_wins (srcs : List Dict) (k : Key) (m : Dict) (hk : k ≠ .str c!"pristine")
    (hwf : ∀ d ∈ srcs, d.WF) (hs : ∀ d ∈ srcs, ∀ v, d.get? k = some v → Scalar v)
    (hp : ∀ d ∈ srcs.tail, ¬ Resets (d.getD (.str c!"pristine")) k)
    (h : mergeOptions (srcs.map .dict) = .ok m) :
    m.get? k = lastDefined (srcs.map (fun d => Dict.get? d k)) := by
  cases srcs with
  | nil => simp only [List.map_nil, mergeOptions] at h; cases h; rfl
  | cons a rest =>
    simp only [List.map_cons, mergeOptions, mergeFirst] at h
    simp only [List.map_cons, lastDefined, List.tail_cons] at hp ⊢
    have ha : ∀ v, a.get? k = some v → Scalar v := hs a (by simp)
    have hs' : ∀ d ∈ rest, ∀ v, d.get? k = some v → Scalar v := fun d hd => hs d (by simp [hd])
    have hwf' : ∀ d ∈ rest, d.WF := fun d hd => hwf d (by simp [hd])
    clear hs hwf
    induction rest generalizing a with
    | nil => simp only [List.map_nil, mergeRest] at h; cases h; rfl
    | cons b rest ih =>
      simp only [List.map_cons, mergeRest] at h
      split at h
      · cases h
      · rename_i m₁ h₁
        have hb := ((mergeInto_get h₁ (hwf' b (by simp))).2.2 k hk).2 (hp b (by simp))
        have hval : m₁.get? k = override (a.get? k) (b.get? k) := by
          cases hbk : b.get? k with
          | none => rw [hbk] at hb; injection hb with hb; exact hb.symm
          | some v =>
            rw [hbk] at hb
            by_cases hv : v = .none
            · subst hv; injection hb with hb; exact hb.symm
            · have : m₁.get? k = some v := by
                cases hak : a.get? k with
                | none => rw [hak, keyMerge_none hv] at hb; injection hb with hb; exact hb.symm
                | some w => rw [hak, keyMerge_scalar (ha w hak) hv] at hb; injection hb with hb; exact hb.symm
              rw [this]; cases v <;> first | exact absurd rfl hv | rfl
        have := ih m₁ (fun d hd => hp d (by simp [hd])) h
          (by
            intro v hv
            rw [hval] at hv
            have hsb := hs' b (by simp)
            cases hbk : b.get? k with
            | none => rw [hbk] at hv; exact ha v hv
            | some w =>
              rw [hbk] at hv
              have := hsb w hbk
              cases w <;> simp_all [override])
          (fun d hd => hs' d (by simp [hd])) (fun d hd => hwf' d (by simp [hd]))
        rw [this, List.map_cons, List.foldl_cons, hval]

/-- C01, one step, whatever the shape of the later value: a non-null value replaces an earlier scalar (or absent) one. -/
theorem C01_scalar_is_replaced (a b m : Dict) (k : Key) (v : PyVal) (hk : k ≠ .str c!"pristine") (hb : b.WF)
    (ha : ∀ w, a.get? k = some w → Scalar w) (hv : b.get? k = some v) (hn : v ≠ .none)
    (h : mergeOptions [.dict a, .dict b] = .ok m) : m.get? k = some v := by
  have hg := (mergeInto_get (merge2 h) hb).2.2 k hk
  by_cases hr : Resets (b.getD kPristine) k
  · have := hg.1 hr; rw [hv, keyMerge_none hn] at this; injection this with this; exact this.symm
  · have := hg.2 hr
    rw [hv] at this
    cases hak : a.get? k with
    | none => rw [hak, keyMerge_none hn] at this; injection this with this; exact this.symm
    | some w => rw [hak, keyMerge_scalar (ha w hak) hn] at this; injection this with this; exact this.symm

/-- C01: a null (or missing) later value neither erases nor overrides an earlier value of any shape. -/
theorem C01_null_never_overrides (a b m : Dict) (k : Key) (hk : k ≠ .str c!"pristine") (hb : b.WF)
    (hs : Silent (b.get? k)) (hp : ¬ Resets (b.getD (.str c!"pristine")) k)
    (h : mergeOptions [.dict a, .dict b] = .ok m) : m.get? k = a.get? k := by
  have := ((mergeInto_get (merge2 h) hb).2.2 k hk).2 hp
  rw [keyMerge_silent hs] at this
  injection this with this; exact this.symm

-- premises are satisfiable: three sources, the last one null
example : mergeOptions [.dict [(.str c!"type", .str c!"movie"), (.str c!"n", .int 1)],
      .dict [(.str c!"type", .str c!"episode")], .dict [(.str c!"type", .none), (.str c!"n", .none)]]
    = .ok [(.str c!"type", .str c!"episode"), (.str c!"n", .int 1)] := rfl
example : ¬ Resets (Dict.getD [(.str c!"type", .none)] (.str c!"pristine")) (.str c!"type") := by
  rw [show Dict.getD [(.str c!"type", .none)] (.str c!"pristine") = .none from rfl]; simp [Resets]
example : lastDefined [some (.str c!"movie"), some (.str c!"episode"), some .none] = some (.str c!"episode") := rfl

/-! ## C02 -/

/-- C02: a list option accumulates: earlier elements stay in place, new non-null ones are appended once. -/
theorem C02_lists_accumulate (a b m : Dict) (k : Key) (l vals : List PyVal) (hk : k ≠ .str c!"pristine") (hb : b.WF)
    (hl : a.get? k = some (.list l)) (hv : b.get? k = some (.list vals))
    (hp : ¬ Resets (b.getD (.str c!"pristine")) k)
    (h : mergeOptions [.dict a, .dict b] = .ok m) :
    ∃ out, m.get? k = some (.list out) ∧ Accumulates l vals out := by
  have := ((mergeInto_get (merge2 h) hb).2.2 k hk).2 hp
  rw [hl, hv, keyMerge_list (by simp)] at this
  simp only [pyIter] at this
  injection this with this
  exact ⟨_, this.symm, appendNew_accumulates vals l⟩

/-- C02, over any number of later sources: nothing already in a list option is ever lost, moved or duplicated. -/
theorem C02_lists_never_shrink (a : Dict) (rest : List Dict) (m : Dict) (k : Key) (l : List PyVal)
    (hk : k ≠ .str c!"pristine") (hwf : ∀ d ∈ rest, d.WF) (hl : a.get? k = some (.list l))
    (hp : ∀ d ∈ rest, ¬ Resets (d.getD (.str c!"pristine")) k)
    (h : mergeOptions (.dict a :: rest.map .dict) = .ok m) :
    ∃ added, m.get? k = some (.list (l ++ added)) ∧ (.none ∉ added) ∧
      ∀ p x s, added = p ++ x :: s → ∀ y ∈ l ++ p, pyEq x y = false := by
  simp only [mergeOptions, mergeFirst] at h
  induction rest generalizing a l with
  | nil => simp only [List.map_nil, mergeRest] at h; cases h; exact ⟨[], by simp [hl], by simp, by simp⟩
  | cons b rest ih =>
    simp only [List.map_cons, mergeRest] at h
    split at h
    · cases h
    · rename_i m₁ h₁
      have hb := ((mergeInto_get h₁ (hwf b (by simp))).2.2 k hk).2 (hp b (by simp))
      have hstep : ∃ add₁, m₁.get? k = some (.list (l ++ add₁)) ∧ (.none ∉ add₁) ∧
          ∀ p x s, add₁ = p ++ x :: s → ∀ y ∈ l ++ p, pyEq x y = false := by
        rw [hl] at hb
        cases hbk : b.get? k with
        | none => rw [hbk] at hb; injection hb with hb; exact ⟨[], by simp [← hb], by simp, by simp⟩
        | some v =>
          rw [hbk] at hb
          by_cases hv : v = .none
          · subst hv; injection hb with hb; exact ⟨[], by simp [← hb], by simp, by simp⟩
          · rw [keyMerge_list hv] at hb
            split at hb
            · cases hb
            · rename_i vals _
              injection hb with hb
              obtain ⟨⟨added, e1, _, e3, e4⟩, _⟩ := appendNew_accumulates vals l
              exact ⟨added, by rw [← hb, e1], e3, e4⟩
      obtain ⟨add₁, e1, e2, e3⟩ := hstep
      obtain ⟨add₂, f1, f2, f3⟩ := ih m₁ (l ++ add₁) (fun d hd => hwf d (by simp [hd])) e1
        (fun d hd => hp d (by simp [hd])) h
      refine ⟨add₁ ++ add₂, by rw [f1, List.append_assoc], by simp [e2, f2], ?_⟩
      intro p x s hpx y hy
      rcases List.append_eq_append_iff.1 hpx with ⟨q, hq1, hq2⟩ | ⟨q, hq1, hq2⟩
      · apply f3 q x s hq2; rw [hq1] at hy; simpa using hy
      · cases q with
        | nil =>
          simp only [List.append_nil] at hq1
          simp only [List.nil_append] at hq2
          subst hq1
          exact f3 [] x s hq2.symm y (by simpa using hy)
        | cons q0 q =>
          simp only [List.cons_append, List.cons.injEq] at hq2
          obtain ⟨rfl, hq2⟩ := hq2
          exact e3 p x q hq1 y hy

example : mergeOptions [.dict [(.str c!"expected_title", .list [.str c!"a", .str c!"b"])],
      .dict [(.str c!"expected_title", .list [.str c!"b", .none, .str c!"c", .str c!"c"])]]
    = .ok [(.str c!"expected_title", .list [.str c!"a", .str c!"b", .str c!"c"])] := rfl

/-! ## C03 -/

/-- C03: the merged value of an option depends only on what the two dictionaries say about that option, and on whether
the later one resets it.  Two merges that agree on these agree on the result, whatever else the dictionaries contain. -/
theorem C03_key_local (a a' b b' m m' : Dict) (k : Key) (hk : k ≠ .str c!"pristine") (hb : b.WF) (hb' : b'.WF)
    (ha : a.get? k = a'.get? k) (hbb : b.get? k = b'.get? k)
    (hp : Resets (b.getD (.str c!"pristine")) k ↔ Resets (b'.getD (.str c!"pristine")) k)
    (h : mergeOptions [.dict a, .dict b] = .ok m) (h' : mergeOptions [.dict a', .dict b'] = .ok m') :
    m.get? k = m'.get? k := by
  have g := (mergeInto_get (merge2 h) hb).2.2 k hk
  have g' := (mergeInto_get (merge2 h') hb').2.2 k hk
  by_cases hr : Resets (b.getD kPristine) k
  · have e := g.1 hr; have e' := g'.1 (hp.1 hr)
    rw [hbb] at e; rw [e] at e'; injection e'
  · have e := g.2 hr; have e' := g'.2 (fun x => hr (hp.2 x))
    rw [hbb, ha] at e; rw [e] at e'; injection e'

/-- C03: an option is present in the result iff the later source gives it a non-null value, or an earlier source has it
and the later one does not reset it: no key appears from nowhere and none is lost. -/
theorem C03_keys (a b m : Dict) (k : Key) (hk : k ≠ .str c!"pristine") (hb : b.WF)
    (h : mergeOptions [.dict a, .dict b] = .ok m) :
    (∃ v, m.get? k = some v) ↔
      (∃ v, b.get? k = some v ∧ v ≠ .none) ∨ ((∃ v, a.get? k = some v) ∧ ¬ Resets (b.getD (.str c!"pristine")) k) := by
  have g := (mergeInto_get (merge2 h) hb).2.2 k hk
  have some_of : ∀ old u r, u ≠ PyVal.none → keyMerge old (some u) = .ok r → ∃ v, r = some v := by
    intro old u r hu hr
    cases old with
    | none => rw [keyMerge_none hu] at hr; injection hr with hr; exact ⟨_, hr.symm⟩
    | some o =>
      cases o with
      | list l =>
        rw [keyMerge_list hu] at hr
        split at hr
        · cases hr
        · injection hr with hr; exact ⟨_, hr.symm⟩
      | dict d =>
        rw [keyMerge_dict hu] at hr
        split at hr
        · cases hr
        · injection hr with hr; exact ⟨_, hr.symm⟩
      | _ =>
        rw [keyMerge_scalar (by trivial) hu] at hr; injection hr with hr; exact ⟨_, hr.symm⟩
  by_cases hs : Silent (b.get? k)
  · have hno : ¬ ∃ v, b.get? k = some v ∧ v ≠ .none := by
      rintro ⟨v, h1, h2⟩
      rcases hs with hs | hs <;> rw [hs] at h1 <;> simp at h1
      exact h2 h1.symm
    by_cases hr : Resets (b.getD kPristine) k
    · have e := g.1 hr
      rw [keyMerge_silent hs] at e
      injection e with e
      rw [← e]
      simp only [reduceCtorEq, exists_false, false_iff, not_or, not_and, not_not]
      exact ⟨hno, fun _ => hr⟩
    · have e := g.2 hr
      rw [keyMerge_silent hs] at e
      injection e with e
      rw [← e]
      constructor
      · intro hx; exact .inr ⟨hx, hr⟩
      · rintro (hx | hx)
        · exact absurd hx hno
        · exact hx.1
  · have hv : ∃ v, b.get? k = some v ∧ v ≠ .none := by
      cases hbk : b.get? k with
      | none => exact absurd (.inl hbk) hs
      | some v => exact ⟨v, rfl, fun hv => hs (.inr (by rw [hbk, hv]))⟩
    refine ⟨fun _ => .inl hv, fun _ => ?_⟩
    obtain ⟨v, h1, h2⟩ := hv
    by_cases hr : Resets (b.getD kPristine) k
    · have e := g.1 hr; rw [h1] at e; exact some_of _ _ _ h2 e
    · have e := g.2 hr; rw [h1] at e; exact some_of _ _ _ h2 e

example : ∃ m, mergeOptions [.dict [(.str c!"a", .int 1), (.str c!"b", .int 2)],
    .dict [(.str c!"pristine", .list [.str c!"a"]), (.str c!"c", .int 3)]] = .ok m ∧
    m = [(.str c!"b", .int 2), (.str c!"c", .int 3)] := ⟨_, rfl, rfl⟩

/-! ## C04 -/

/-- C04: `pristine: true` discards everything merged before, whatever and how many sources that was. -/
theorem C04_pristine_true (before : List PyVal) (b m : Dict) (hne : before ≠ [])
    (hp : b.get? (.str c!"pristine") = some (.bool true))
    (h : mergeOptions (before ++ [.dict b]) = .ok m) : mergeOptions [.dict [], .dict b] = .ok m := by
  cases before with
  | nil => exact absurd rfl hne
  | cons o os =>
    simp only [List.cons_append, mergeOptions] at h
    split at h
    · cases h
    · rw [mergeRest_append] at h
      split at h
      · cases h
      · have hgd : Dict.getD b kPristine = .bool true := by unfold Dict.getD; rw [show b.get? kPristine = _ from hp]; rfl
        simp only [mergeRest, mergeInto, hgd, applyPristine] at h
        apply merge2'
        simp only [mergeInto, hgd, applyPristine]
        split at h
        · cases h
        · rename_i h'; cases h; exact h'

/-- C04: a named option is reset: its merged value is what the later source alone gives. -/
theorem C04_named_reset (a b m : Dict) (k : Key) (hk : k ≠ .str c!"pristine") (hb : b.WF)
    (hr : Resets (b.getD (.str c!"pristine")) k) (h : mergeOptions [.dict a, .dict b] = .ok m) :
    (Silent (b.get? k) → m.get? k = none) ∧ (¬ Silent (b.get? k) → m.get? k = b.get? k) := by
  have e := ((mergeInto_get (merge2 h) hb).2.2 k hk).1 hr
  refine ⟨fun hs => ?_, fun hs => ?_⟩
  · rw [keyMerge_silent hs] at e; injection e with e; exact e.symm
  · cases hbk : b.get? k with
    | none => exact absurd (.inl hbk) hs
    | some v =>
      have hv : v ≠ .none := fun hv => hs (.inr (by rw [hbk, hv]))
      rw [hbk, keyMerge_none hv] at e; injection e with e; exact e.symm

/-- C04: an option that is not named is merged exactly as if there were no `pristine` entry. -/
theorem C04_others_untouched (a b m m' : Dict) (k : Key) (hk : k ≠ .str c!"pristine") (hb : b.WF)
    (hr : ¬ Resets (b.getD (.str c!"pristine")) k) (h : mergeOptions [.dict a, .dict b] = .ok m)
    (h' : mergeOptions [.dict a, .dict (b.del (.str c!"pristine"))] = .ok m') : m.get? k = m'.get? k := by
  have hget : b.get? k = (b.del (.str c!"pristine")).get? k := by simp [hk]
  have hnone : (b.del (.str c!"pristine")).getD (.str c!"pristine") = .none := by simp [Dict.getD]
  refine C03_key_local a a b _ m m' k hk hb (Dict.del_wf hb _) rfl hget ?_ h h'
  rw [hnone]
  exact ⟨fun x => absurd x hr, fun x => by simp [Resets] at x⟩

/-- C04: the `pristine` entry of a later source is never copied into the result. -/
theorem C04_pristine_not_merged (a b m : Dict) (hb : b.WF) (h : mergeOptions [.dict a, .dict b] = .ok m)
    (ha : a.get? (.str c!"pristine") = none) : m.get? (.str c!"pristine") = none := by
  have g := mergeInto_get (merge2 h) hb
  by_cases hr : Resets (b.getD kPristine) kPristine
  · exact g.1 hr
  · rw [show m.get? (.str c!"pristine") = _ from g.2.1 hr]; exact ha

example : ∃ m, mergeOptions [.dict [(.str c!"a", .list [.int 1]), (.str c!"b", .int 2)],
    .dict [(.str c!"pristine", .bool true), (.str c!"a", .list [.int 3])]] = .ok m ∧
    m = [(.str c!"a", .list [.int 3])] := ⟨_, rfl, rfl⟩

/-! ## C05 -/

/-- The dictionary found by following a path of keys. -/
def dictAt : Dict → List Key → Option Dict
  | d, [] => some d
  | d, k :: p => match Dict.get? d k with
    | some (.dict e) => dictAt e p
    | _ => none

/-- No `pristine` entry on the way resets the next key of the path. -/
def pathKept : Dict → List Key → Prop
  | _, [] => True
  | d, k :: p => k ≠ .str c!"pristine" ∧ ¬ Resets (d.getD (.str c!"pristine")) k ∧
    match Dict.get? d k with
    | some (.dict e) => pathKept e p
    | _ => False

/-- C05 helper: a dictionary reached inside a value with distinct keys has distinct keys. -/
theorem wf_of_real {d e : Dict} {k : Key} (h : Real (.dict d)) (he : d.get? k = some (.dict e)) : Real (.dict e) := by
  simp only [Real, realDict_iff] at h
  exact h.2 _ (Dict.mem_of_get? he)

/-- C05: at any nesting depth, the merged dictionary is the merge of the nested dictionaries. -/
theorem C05_nested_merge (path : List Key) : ∀ (a b m d e : Dict), Real (.dict b) →
    mergeOptions [.dict a, .dict b] = .ok m → pathKept b path → dictAt a path = some d → dictAt b path = some e →
    ∃ r, dictAt m path = some r ∧ mergeOptions [.dict d, .dict e] = .ok r := by
  induction path with
  | nil =>
    intro a b m d e _ h _ hd he
    simp only [dictAt] at hd he; cases hd; cases he
    exact ⟨m, rfl, h⟩
  | cons k p ih =>
    intro a b m d e hb h hk hd he
    simp only [pathKept] at hk
    obtain ⟨hk1, hk2, hk3⟩ := hk
    simp only [dictAt] at hd he ⊢
    cases hbk : b.get? k with
    | none => rw [hbk] at he; cases he
    | some v =>
      cases v with
      | dict b₁ =>
        rw [hbk] at he hk3
        cases hak : a.get? k with
        | none => rw [hak] at hd; cases hd
        | some w =>
          cases w with
          | dict a₁ =>
            rw [hak] at hd
            have hb' : b.WF := by simp only [Real] at hb; exact hb.1
            have g := ((mergeInto_get (merge2 h) hb').2.2 k hk1).2 hk2
            rw [hak, hbk, keyMerge_dict (by simp)] at g
            split at g
            · cases g
            · rename_i m₁ hm₁
              injection g with g
              rw [← g]
              exact ih a₁ b₁ m₁ d e (wf_of_real hb hbk) (merge2' hm₁) hk3 hd he
          | _ => rw [hak] at hd; cases hd
      | _ => rw [hbk] at he; cases he

example : ∃ a b m r, mergeOptions [.dict a, .dict b] = .ok m ∧
    dictAt a [.str c!"advanced_config", .str c!"year"] = some [(.str c!"x", .int 1)] ∧
    dictAt b [.str c!"advanced_config", .str c!"year"] = some [(.str c!"y", .int 2)] ∧
    dictAt m [.str c!"advanced_config", .str c!"year"] = some r ∧ r = [(.str c!"x", .int 1), (.str c!"y", .int 2)] :=
  ⟨[(.str c!"advanced_config", .dict [(.str c!"year", .dict [(.str c!"x", .int 1)])])],
   [(.str c!"advanced_config", .dict [(.str c!"year", .dict [(.str c!"y", .int 2)])])], _, _, rfl, rfl, rfl, rfl, rfl⟩

/-! ## C06 -/

/-- C06: merging already merged options over the same configuration again gives exactly the same dictionary, entry
order included, when no `pristine` entry is involved. -/
theorem C06_merge_twice_partial (config options m : Dict) (hc : Real (.dict config)) (ho : Real (.dict options))
    (hpc : NoPristine (.dict config)) (hpo : NoPristine (.dict options))
    (h : mergeOptions [.dict config, .dict options] = .ok m) :
    mergeOptions [.dict config, .dict m] = .ok m :=
  merge2' (mergeInto_idem hc hpc ho hpo (merge2 h))

/-- C06 does not hold with `pristine`: options that reset a configured value get it back at the second merge. -/
theorem C06_pristine_counterexample : ∃ config options m m' : Dict,
    mergeOptions [.dict config, .dict options] = .ok m ∧ mergeOptions [.dict config, .dict m] = .ok m' ∧
    m.get? (.str c!"a") = none ∧ m'.get? (.str c!"a") = some (.int 1) :=
  ⟨[(.str c!"a", .int 1)], [(.str c!"pristine", .list [.str c!"a"]), (.str c!"b", .int 2)], _, _, rfl, rfl, rfl, rfl⟩

example : Real (.dict [(.str c!"l", .list [.int 1]), (.str c!"d", .dict [(.str c!"x", .int 1)])]) ∧
    NoPristine (.dict [(.str c!"l", .list [.int 1]), (.str c!"d", .dict [(.str c!"x", .int 1)])]) ∧
    mergeOptions [.dict [(.str c!"l", .list [.int 1]), (.str c!"d", .dict [(.str c!"x", .int 1)])],
      .dict [(.str c!"l", .list [.int 1, .int 2]), (.str c!"d", .dict [(.str c!"y", .int 1)])]] =
      .ok [(.str c!"l", .list [.int 1, .int 2]), (.str c!"d", .dict [(.str c!"x", .int 1), (.str c!"y", .int 1)])] :=
  ⟨by simp [Real, RealList, RealDict, RealPair], by simp [NoPristine, NoPristineDict, NoPristinePair], rfl⟩

/-! ## C07 -/

/-- C07: the configuration is the merge, in this order, of the packaged default (unless `no_default_config`), the
existing user files in location order (unless `no_user_config`) and the `config` entries in the given order; files whose
content is empty or null are skipped; when no source provides `advanced_config` the packaged one is added. -/
theorem C07_sources_in_order (env : Env) (options cfg : Dict) (h : loadConfig env options = .ok cfg) :
    ∃ custom contents m,
      (truthy (options.getD (.str c!"config")) = true → options.getD (.str c!"config") = .list custom) ∧
      (truthy (options.getD (.str c!"config")) = false → custom = []) ∧
      List.Forall₂ (fun f c => loadConfigFile env f = .ok c)
        ((if truthy (options.getD (.str c!"no_user_config")) then []
          else ((optionsFileLocations env.home env.cwd env.yaml).filter env.pathExists).map PyVal.str) ++ custom) contents ∧
      mergeOptions ((if truthy (options.getD (.str c!"no_default_config")) then [] else [env.defaults]) ++
        contents.filter truthy) = .ok m ∧
      ((m.get? (.str c!"advanced_config")).isSome → cfg = m) ∧
      (m.get? (.str c!"advanced_config") = none → ∃ dflt adv, env.defaults = .dict dflt ∧
        Dict.get? dflt (.str c!"advanced_config") = some adv ∧ cfg = m.set (.str c!"advanced_config") adv) := by
  have hfiles : ∀ files contents', loadFiles env files = .ok contents' → ∃ contents,
      List.Forall₂ (fun f c => loadConfigFile env f = .ok c) files contents ∧ contents' = contents.filter truthy := by
    intro files
    induction files with
    | nil => intro c' h; simp only [loadFiles] at h; cases h; exact ⟨[], .nil, rfl⟩
    | cons f fs ih =>
      intro c' h
      simp only [loadFiles] at h
      split at h
      · cases h
      · rename_i v hv
        split at h
        · cases h
        · rename_i vs hvs
          obtain ⟨cs, h1, h2⟩ := ih _ hvs
          injection h with h
          refine ⟨v :: cs, .cons hv h1, ?_⟩
          rw [← h, h2, List.filter_cons]
  unfold loadConfig at h
  split at h
  · cases h
  · rename_i files hf
    split at h
    · cases h
    · rename_i loaded hl
      obtain ⟨contents, h1, h2⟩ := hfiles _ _ hl
      simp only at h
      split at h
      · cases h
      · rename_i m hm
        have hcustom : ∃ custom, (truthy (options.getD kConfig) = true → options.getD kConfig = .list custom) ∧
            (truthy (options.getD kConfig) = false → custom = []) ∧
            files = (if truthy (options.getD kNoUser) then [] else userFiles env) ++ custom := by
          unfold allFiles at hf
          simp only at hf
          split at hf
          · rename_i ht
            split at hf
            · rename_i fs hfs
              injection hf with hf
              refine ⟨fs, fun _ => hfs, fun hx => ?_, hf.symm⟩
              rw [hx] at ht; cases ht
            · cases hf
          · rename_i ht
            injection hf with hf
            exact ⟨[], fun hx => absurd hx ht, fun _ => rfl, by rw [← hf, List.append_nil]⟩
        obtain ⟨custom, c1, c2, c3⟩ := hcustom
        subst h2
        refine ⟨custom, contents, m, c1, c2, ?_, hm, ?_, ?_⟩
        · rw [c3] at h1; exact h1
        · intro hs
          rw [if_pos (show (m.get? kAdvanced).isSome = true from hs)] at h
          injection h with h; exact h.symm
        · intro hs
          rw [if_neg (by rw [show m.get? kAdvanced = none from hs]; simp)] at h
          split at h
          · cases h
          · rename_i adv hadv
            injection h with h
            unfold defaultAdvanced at hadv
            split at hadv
            · rename_i dflt hd
              split at hadv
              · rename_i v hv
                injection hadv with hadv
                subst hadv
                exact ⟨dflt, v, hd, hv, h.symm⟩
              · cases hadv
            · cases hadv

/-- C07: `advanced_config` is always present in a loaded configuration. -/
theorem C07_advanced_config_present (env : Env) (options cfg : Dict) (h : loadConfig env options = .ok cfg) :
    ∃ v, cfg.get? (.str c!"advanced_config") = some v := by
  obtain ⟨_, _, m, _, _, _, _, h1, h2⟩ := C07_sources_in_order env options cfg h
  cases hm : m.get? (.str c!"advanced_config") with
  | some v => rw [h1 (by rw [hm]; rfl)]; exact ⟨v, hm⟩
  | none => obtain ⟨_, adv, _, _, h3⟩ := h2 hm; rw [h3]; exact ⟨adv, by simp⟩

/-- C07: the user file locations, in order: `~/.guessit`, `~/.config/guessit`, the current directory; for each, `json`
then (with PyYAML) `yaml` and `yml`. -/
theorem C07_location_order (home cwd : Str) (hh : home ≠ []) (hc : cwd ≠ []) (hh' : ¬ ['/'] <:+ home)
    (hc' : ¬ ['/'] <:+ cwd) :
    optionsFileLocations home cwd true =
      [home ++ c!"/.guessit/options.json", home ++ c!"/.guessit/options.yaml", home ++ c!"/.guessit/options.yml",
       home ++ c!"/.config/guessit/options.json", home ++ c!"/.config/guessit/options.yaml",
       home ++ c!"/.config/guessit/options.yml",
       cwd ++ c!"/guessit.options.json", cwd ++ c!"/guessit.options.yaml", cwd ++ c!"/guessit.options.yml"] ∧
    optionsFileLocations home cwd false =
      [home ++ c!"/.guessit/options.json", home ++ c!"/.config/guessit/options.json",
       cwd ++ c!"/guessit.options.json"] := by
  have join : ∀ a b : Str, a ≠ [] → ¬ ['/'] <:+ a → b.head? ≠ some '/' → pathJoin a b = a ++ c!"/" ++ b := by
    intro a b h1 h2 h3
    unfold pathJoin endsWith
    split
    · simp at h3
    · have e1 : a.isEmpty = false := by cases a <;> simp_all
      have e2 : (c!"/").isSuffixOf a = false := by
        cases h : (c!"/").isSuffixOf a
        · rfl
        · exact absurd (List.isSuffixOf_iff_suffix.1 h) h2
      simp [e1, e2]
  have nosl : ∀ (a : Str) (x : Char) (xs : Str), (x :: xs).getLast? ≠ some '/' →
      ¬ ['/'] <:+ a ++ x :: xs := by
    rintro a x xs h ⟨t, ht⟩
    have := congrArg List.getLast? ht
    rw [List.getLast?_append, List.getLast?_append] at this
    simp only [List.getLast?_singleton, Option.some_or] at this
    cases hl : (x :: xs).getLast? with
    | none => simp at hl
    | some c => rw [hl] at this h; simp at this; subst this; exact h rfl
  have j1 := join home c!".guessit" hh hh' (by decide)
  have j2 := join home c!".config" hh hh' (by decide)
  have j3 := join (home ++ c!"/.config") c!"guessit" (by simp) (nosl _ _ _ (by decide)) (by decide)
  have e : ∀ (a : Str) (ext : Str), pathJoin (pathJoin home c!".guessit") (c!"options" ++ c!"." ++ ext) =
      home ++ c!"/.guessit/options." ++ ext := by
    intro a ext
    rw [j1, join _ _ (by simp) (by simpa using nosl home '/' c!".guessit" (by decide)) (by simp)]; simp
  have e2 : ∀ (ext : Str), pathJoin (pathJoin (pathJoin home c!".config") c!"guessit") (c!"options" ++ c!"." ++ ext) =
      home ++ c!"/.config/guessit/options." ++ ext := by
    intro ext
    rw [j2, show home ++ c!"/" ++ c!".config" = home ++ c!"/.config" by simp, j3,
      join _ _ (by simp) (by simpa using nosl home '/' c!".config/guessit" (by decide)) (by simp)]; simp
  have e3 : ∀ (ext : Str), pathJoin cwd (c!"guessit.options" ++ c!"." ++ ext) = cwd ++ c!"/guessit.options." ++ ext := by
    intro ext
    rw [join _ _ hc hc' (by simp)]; simp
  have e1 := e []
  simp only [List.append_assoc, List.cons_append, List.nil_append] at e1 e2 e3
  constructor
  · simp only [optionsFileLocations, if_true, List.flatMap_cons, List.flatMap_nil, List.map_cons, List.map_nil,
      List.append_assoc, e1, e2, e3, List.cons_append, List.nil_append, List.append_nil]
  · simp only [optionsFileLocations, Bool.false_eq_true, if_false, List.flatMap_cons, List.flatMap_nil, List.map_cons, List.map_nil,
      List.append_assoc, e1, e2, e3, List.cons_append, List.nil_append, List.append_nil]

/-- A small environment: default configuration, one user file, one `--config` text. -/
def demoEnv : Env where
  defaults := .dict [(.str c!"advanced_config", .dict [(.str c!"x", .int 1)]), (.str c!"type", .str c!"movie")]
  home := c!"/h"
  cwd := c!"/w"
  yaml := false
  pathExists := fun p => decide (p = c!"/h/.guessit/options.json")
  readFile := fun p => if p = c!"/h/.guessit/options.json" then .ok (.dict [(.str c!"type", .str c!"episode")]) else .error .osError
  jsonLoads := fun t => if t = c!"{}" then some (.dict []) else none

example : loadConfig demoEnv [(.str c!"config", .list [.str c!"{}"])] =
    .ok [(.str c!"advanced_config", .dict [(.str c!"x", .int 1)]), (.str c!"type", .str c!"episode")] := rfl
example : loadConfig demoEnv [(.str c!"no_default_config", .bool true)] =
    .ok [(.str c!"type", .str c!"episode"), (.str c!"advanced_config", .dict [(.str c!"x", .int 1)])] := rfl

end Guessit
