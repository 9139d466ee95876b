import Verif.Props.ProgramValues
import Verif.Props.Whole

/-! # The values of the dictionary (C158) -/

namespace Guessit
open Spec

theorem leaf_list {x : PyVal} {l : List PyVal} : Leaf x (.list l) ↔ ∃ v ∈ l, Leaf x v := by
  constructor
  · intro h
    cases h with
    | here h => exact absurd rfl (h l)
    | inside h hx => exact ⟨_, h, hx⟩
  · rintro ⟨v, hv, hx⟩
    exact .inside hv hx

theorem leaf_flat {x v : PyVal} (hv : ∀ l, v ≠ .list l) (h : Leaf x v) : x = v := by
  cases h with
  | here => rfl
  | inside => exact absurd rfl (hv _)

/-- What an entry holds comes from the matches of its name. -/
theorem fold_leaf {first enforce : Bool} {k : Key} {x : PyVal} : ∀ {ms : List OutMatch} {d : Dict} {v : PyVal},
    (ms.foldl (addValue first enforce) d).get? k = some v → Leaf x v → (∃ m ∈ ms, k = .str m.name ∧ Leaf x m.value) ∨ ∃ w, d.get? k = some w ∧ Leaf x w
  | [], d, v, h, hx => Or.inr ⟨v, h, hx⟩
  | m :: ms, d, v, h, hx => by
    rcases fold_leaf (ms := ms) h hx with ⟨m', hm', h1⟩ | ⟨w, hw, hxw⟩
    · exact Or.inl ⟨m', List.mem_cons_of_mem _ hm', h1⟩
    · by_cases hk : k = .str m.name
      · subst hk
        unfold addValue at hw
        simp only at hw
        have hset : ∀ {a : PyVal}, (d.set (.str m.name) a).get? (.str m.name) = some w → a = w := by
          intro a ha
          rw [Dict.get?_set, if_pos rfl] at ha
          exact Option.some.inj ha
        cases hd : d.get? (.str m.name) with
        | some old =>
          rw [hd] at hw
          simp only at hw
          have hold : d.get? (.str m.name) = some w → (∃ m' ∈ m :: ms, Key.str m.name = .str m'.name ∧ Leaf x m'.value) ∨ ∃ w, some old = some w ∧ Leaf x w :=
            fun h => Or.inr ⟨w, hd ▸ h, hxw⟩
          split at hw
          · exact hold hw
          · split at hw
            · rename_i l
              split at hw
              · exact hold hw
              · have := hset hw
                subst this
                obtain ⟨y, hy, hxy⟩ := leaf_list.1 hxw
                rcases List.mem_append.1 hy with hy | hy
                · exact Or.inr ⟨_, rfl, .inside hy hxy⟩
                · rw [List.mem_singleton] at hy
                  subst hy
                  exact Or.inl ⟨m, by simp, rfl, hxy⟩
            · split at hw
              · exact hold hw
              · have := hset hw
                subst this
                obtain ⟨y, hy, hxy⟩ := leaf_list.1 hxw
                simp only [List.mem_cons, List.not_mem_nil, or_false] at hy
                rcases hy with rfl | rfl
                · exact Or.inr ⟨_, rfl, hxy⟩
                · exact Or.inl ⟨m, by simp, rfl, hxy⟩
        | none =>
          rw [hd] at hw
          simp only at hw
          refine Or.inl ⟨m, by simp, rfl, ?_⟩
          split at hw
          · rename_i l hl
            rw [hl, hset hw]
            exact hxw
          · have := hset hw
            subst this
            obtain ⟨y, hy, hxy⟩ := leaf_list.1 hxw
            rw [List.mem_singleton] at hy
            subst hy
            exact hxy
          · rw [hset hw]
            exact hxw
      · right
        refine ⟨w, ?_, hxw⟩
        have hne : ∀ a : PyVal, (d.set (.str m.name) a).get? k = d.get? k := by
          intro a
          rw [Dict.get?_set, if_neg]
          intro hh
          exact hk (by first | exact hh | exact hh.symm)
        unfold addValue at hw
        simp only at hw
        repeat' split at hw
        all_goals first | exact hw | (rw [hne] at hw; exact hw)

theorem toDict_leaf {first enforce : Bool} {ms : List OutMatch} {k : Key} {v x : PyVal} (h : (toDict first enforce ms).get? k = some v) (hx : Leaf x v) :
    ∃ m ∈ ms, k = .str m.name ∧ Leaf x m.value := by
  rcases fold_leaf h hx with ⟨m, hm, hk⟩ | ⟨w, hw, _⟩
  · exact ⟨m, (sortBySpan_stable ms).perm.mem_iff.1 hm, hk⟩
  · simp at hw

/-- What an entry of the dictionary holds is what a match of its name has (when the name given is a text). -/
theorem guess_values {O : Outside} {base : RuleEnv} {obj : Nat → PyVal} {sh : Str → Except PyErr (List Str)} {pa : List Str → Except PyErr Dict}
    {int : Dict → Except PyErr PyVal} {env : Env} {st : Api Unit} {name : NameArg} {o : OptArg} {d opts : Dict} (hb : name.isBytes = false)
    (ho : optionsInForce (guessitSys O base obj sh pa int) env st o = .ok opts)
    (h : (st.guessit (guessitSys O base obj sh pa int) env name o).2 = .value (.dict d)) : ∃ text s, name.text = .ok text ∧ program O base opts text = .ok s ∧
      ∀ p v x, p ≠ c!"input_string" → d.get? (.str p) = some v → Leaf x v → ∃ m ∈ s.live, m.name = some p ∧ Leaf x (pyOf obj (m.value s.input)) := by
  obtain ⟨r, opts', text, ms, ms', h1, h2, h3, h4, h5⟩ := guess_runs h
  rw [ho] at h1
  cases h1
  simp only [guessitSys] at h3
  split at h3
  · cases h3
  rename_i s hs
  cases h3
  rw [hb] at h4
  cases h4
  refine ⟨text, s, h2, hs, fun p v x hp hk hx => ?_⟩
  rw [h5] at hk
  have hk' : (toDict (truthy (opts.getD (.str c!"single_value"))) (truthy (opts.getD (.str c!"enforce_list"))) (outMatches obj s)).get? (.str p) = some v := by
    unfold withInput at hk
    split at hk
    · rwa [Dict.get?_set, if_neg (fun hh => hp (by injection hh))] at hk
    · exact hk
  obtain ⟨om, hom, hkn, hxm⟩ := toDict_leaf hk' hx
  obtain ⟨m, hm, hmo⟩ := List.mem_filterMap.1 hom
  cases hn : m.name with
  | none => rw [hn] at hmo; cases hmo
  | some n =>
    rw [hn] at hmo
    cases hmo
    injection hkn with hpn
    subst hpn
    exact ⟨m, hm, rfl.trans hn, hxm⟩

/-- C158: what a property with a list of words holds, alone or in a list, is one of its words, up to case. -/
theorem C158_values (O : Outside) (base : RuleEnv) (hl : ∀ t, base.uni.lower t = [] ↔ t = []) (obj : Nat → PyVal)
    (hobj : ∀ vs, obj (O.codes.list vs) = .list (vs.map PyVal.str)) (sh : Str → Except PyErr (List Str)) (pa : List Str → Except PyErr Dict)
    (int : Dict → Except PyErr PyVal) (env : Env) (st : Api Unit) (text : Str) (o : OptArg) (d opts : Dict)
    (ho : optionsInForce (guessitSys O base obj sh pa int) env st o = .ok opts)
    (h : (st.guessit (guessitSys O base obj sh pa int) env (.str text) o).2 = .value (.dict d)) :
    ∀ n ∈ listedNames, ∀ v, d.get? (.str n) = some v → ∀ x, Leaf x v → ∃ w, x = .str w ∧ MeantAs text base.uni.lower cleanup (lexicon n) w := by
  intro n hn v hv x hx
  obtain ⟨text', s, ht, hs, hall⟩ := guess_values rfl ho h
  cases ht
  have hin : n ≠ c!"input_string" := by
    have : ∀ n ∈ listedNames, n ≠ c!"input_string" := by decide +kernel
    exact this n hn
  obtain ⟨m, hm, hmn, hxm⟩ := hall n v x hin hv hx
  have htold := C158_program O base hl opts text s hs m hm n hn hmn
  have hsi : s.input = text := by
    obtain ⟨gs, hg, h⟩ := program_starts hs
    exact (run_input (program_natural hl hg) h).1
  rw [hsi] at hxm
  rcases htold with ⟨w, hw, hmean⟩ | ⟨vs, hvs, hc⟩
  · rw [hw] at hxm
    exact ⟨w, leaf_flat (fun _ hh => by cases hh) hxm, hmean⟩
  · rw [hc, pyOf, hobj] at hxm
    obtain ⟨y, hy, hxy⟩ := leaf_list.1 hxm
    obtain ⟨w, hw, rfl⟩ := List.mem_map.1 hy
    exact ⟨w, leaf_flat (fun _ hh => by cases hh) hxy, w, hvs w hw, Or.inl rfl⟩

end Guessit
