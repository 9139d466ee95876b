import Verif.Model.Whole
import Verif.Spec.Whole
import Verif.Props.ProgramGrown
import Verif.Props.EngineStrip
import Verif.Props.EngineExamples
import Verif.Props.Output

/-! # C153 and after: calls of `guessit`

The theorems about the rules, for what the patterns find, and for the dictionary that is returned. -/

namespace Guessit
open Spec

/-! ## The dictionary -/

theorem addValue_unlike {first enforce : Bool} {d : Dict} {m : OutMatch} {p : Str} (h : m.name ≠ p) :
    (addValue first enforce d m).get? (.str p) = d.get? (.str p) := by
  have hk : ¬ (Key.str m.name = Key.str p) := fun hh => h (by cases hh; rfl)
  have hset : ∀ v, (d.set (Key.str m.name) v).get? (.str p) = d.get? (.str p) := by
    intro v
    rw [Dict.get?_set]
    exact if_neg (fun hh => hk hh.symm)
  unfold addValue
  dsimp only
  repeat' split
  all_goals first | rfl | exact hset _

theorem addValue_key {first enforce : Bool} {d : Dict} {m : OutMatch} {k : Key} {v : PyVal}
    (h : (addValue first enforce d m).get? k = some v) : k = .str m.name ∨ ∃ w, d.get? k = some w := by
  by_cases hk : k = .str m.name
  · exact Or.inl hk
  · right
    have hset : ∀ v, (d.set (Key.str m.name) v).get? k = d.get? k := by
      intro v
      rw [Dict.get?_set]
      exact if_neg (fun hh => hk (by first | exact hh | exact hh.symm))
    unfold addValue at h
    dsimp only at h
    repeat' split at h
    all_goals first | exact ⟨v, h⟩ | (rw [hset] at h; exact ⟨v, h⟩)

theorem fold_key {first enforce : Bool} : ∀ {ms : List OutMatch} {d : Dict} {k : Key} {v : PyVal},
    (ms.foldl (addValue first enforce) d).get? k = some v → (∃ m ∈ ms, k = .str m.name) ∨ ∃ w, d.get? k = some w
  | [], d, k, v, h => Or.inr ⟨v, h⟩
  | m :: ms, d, k, v, h => by
    rcases fold_key (ms := ms) h with ⟨x, hx, hk⟩ | ⟨w, hw⟩
    · exact Or.inl ⟨x, List.mem_cons_of_mem _ hx, hk⟩
    · rcases addValue_key hw with hk | hd
      · exact Or.inl ⟨m, List.mem_cons_self, hk⟩
      · exact Or.inr hd

theorem addValue_has {first enforce : Bool} {d : Dict} {m : OutMatch} {p : Str} (h : m.name = p ∨ Has d p) :
    Has (addValue first enforce d m) p := by
  by_cases hp : m.name = p
  · subst hp
    unfold addValue Has
    dsimp only
    cases hd : d.get? (Key.str m.name) with
    | none =>
      dsimp only
      repeat' split
      all_goals exact ⟨_, by rw [Dict.get?_set, if_pos rfl]⟩
    | some old =>
      dsimp only
      repeat' split
      all_goals first | exact ⟨_, hd⟩ | exact ⟨_, by rw [Dict.get?_set, if_pos rfl]⟩
  · rcases h with h | ⟨v, hv⟩
    · exact absurd h hp
    · exact ⟨v, by rw [addValue_unlike hp]; exact hv⟩

theorem fold_has {first enforce : Bool} {p : Str} : ∀ {ms : List OutMatch} {d : Dict}, (∃ m ∈ ms, m.name = p) ∨ Has d p →
    Has (ms.foldl (addValue first enforce) d) p
  | [], d, h => by
    rcases h with ⟨m, hm, _⟩ | h
    · cases hm
    · exact h
  | m :: ms, d, h => by
    refine fold_has (ms := ms) ?_
    rcases h with ⟨x, hx, hp⟩ | h
    · rcases List.mem_cons.1 hx with rfl | hx
      · exact Or.inr (addValue_has (Or.inl hp))
      · exact Or.inl ⟨x, hx, hp⟩
    · exact Or.inr (addValue_has (Or.inr h))

/-- The keys of the dictionary are the names of the matches. -/
theorem toDict_has (first enforce : Bool) (ms : List OutMatch) (p : Str) : Has (toDict first enforce ms) p ↔ ∃ m ∈ ms, m.name = p := by
  have hperm := (sortBySpan_stable ms).perm
  constructor
  · rintro ⟨v, hv⟩
    rcases fold_key hv with ⟨m, hm, hk⟩ | ⟨w, hw⟩
    · cases hk
      exact ⟨m, hperm.mem_iff.1 hm, rfl⟩
    · simp at hw
  · rintro ⟨m, hm, hp⟩
    exact fold_has (Or.inl ⟨m, hperm.mem_iff.2 hm, hp⟩)

theorem toDict_key {first enforce : Bool} {ms : List OutMatch} {k : Key} {v : PyVal} (h : (toDict first enforce ms).get? k = some v) :
    ∃ m ∈ ms, k = .str m.name := by
  rcases fold_key h with ⟨m, hm, hk⟩ | ⟨w, hw⟩
  · exact ⟨m, (sortBySpan_stable ms).perm.mem_iff.1 hm, hk⟩
  · simp at hw

theorem fold_filter {first enforce : Bool} {p : Str} : ∀ {ms : List OutMatch} {d e : Dict}, d.get? (.str p) = e.get? (.str p) →
    (ms.foldl (addValue first enforce) d).get? (.str p) = ((ms.filter fun m => decide (m.name = p)).foldl (addValue first enforce) e).get? (.str p)
  | [], _, _, h => h
  | m :: ms, d, e, h => by
    by_cases hp : m.name = p
    · rw [List.filter_cons_of_pos (by simpa using hp), List.foldl_cons, List.foldl_cons]
      refine fold_filter (ms := ms) ?_
      subst hp
      unfold addValue
      dsimp only
      rw [← h]
      cases hd : d.get? (Key.str m.name) with
      | none =>
        dsimp only
        repeat' split
        all_goals rw [Dict.get?_set, Dict.get?_set, if_pos rfl, if_pos rfl]
      | some old =>
        have he := h.symm.trans hd
        dsimp only
        repeat' split
        all_goals first | (rw [hd, he]) | (rw [Dict.get?_set, Dict.get?_set, if_pos rfl, if_pos rfl])
    · rw [List.filter_cons_of_neg (by simpa using hp), List.foldl_cons]
      exact fold_filter (ms := ms) ((addValue_unlike hp).trans h)

/-- A property of one match, whose value is not a list, has its value. -/
theorem toDict_one {first enforce : Bool} {ms : List OutMatch} {p : Str} {m : OutMatch} (h : (ms.filter fun x => decide (x.name = p)) = [m])
    (hv : ∀ l, m.value ≠ .list l) : (toDict first enforce ms).get? (.str p) = some (if enforce then .list [m.value] else m.value) := by
  have hperm := ((sortBySpan_stable ms).perm.filter fun x => decide (x.name = p))
  rw [h, List.perm_singleton] at hperm
  have hp : m.name = p := by
    have : m ∈ [m] := List.mem_singleton.2 rfl
    rw [← h] at this
    simpa using (List.mem_filter.1 this).2
  unfold toDict
  rw [fold_filter (e := []) rfl, hperm]
  subst hp
  simp only [List.foldl_cons, List.foldl_nil, addValue, Dict.get?_nil]
  cases enforce with
  | false => simp
  | true =>
    cases hm : m.value with
    | list l => exact absurd hm (hv l)
    | _ => simp

/-! ## A call -/

theorem encodeMatches_named : ∀ {ms ms' : List OutMatch}, encodeMatches ms = .ok ms' → ms'.map OutMatch.name = ms.map OutMatch.name
  | [], _, h => by cases h; rfl
  | m :: ms, ms', h => by
    rw [encodeMatches] at h
    split at h
    · cases h
    · split at h
      · cases h
      · rename_i t ht
        cases h
        rw [List.map_cons, List.map_cons, encodeMatches_named ht]

/-- What happens in a call that answers: the options in force, the text, the rules, and the dictionary of the matches. -/
theorem guess_runs {R : Type} {S : Sys R} {env : Env} {st : Api R} {name : NameArg} {o : OptArg} {d : Dict} (h : (st.guessit S env name o).2 = .value (.dict d)) :
    ∃ r opts text ms ms', optionsInForce S env st o = .ok opts ∧ name.text = .ok text ∧ S.rules r text opts = .ok ms ∧
      (if name.isBytes then encodeMatches ms else .ok ms) = .ok ms' ∧
      d = withInput text opts (toDict (truthy (opts.getD (.str c!"single_value"))) (truthy (opts.getD (.str c!"enforce_list"))) ms') := by
  unfold Api.guessit at h
  unfold optionsInForce
  split at h
  · unfold wrap at h; split at h <;> simp at h
  rename_i options hs
  rw [hs]
  dsimp only
  split at h
  · unfold wrap at h; dsimp only at h; split at h <;> simp at h
  rename_i st' config hc
  rw [hc]
  dsimp only
  split at h
  · unfold wrap at h; simp at h
  rename_i r hr
  split at h
  · unfold wrap at h; dsimp only at h; split at h <;> simp at h
  rename_i d' hg
  simp only [Outcome.value.injEq, PyVal.dict.injEq] at h
  subst h
  unfold guessWith at hg
  split at hg
  · cases hg
  rename_i opts ho
  split at hg
  · cases hg
  rename_i text ht
  split at hg
  · cases hg
  rename_i ms hms
  split at hg
  · cases hg
  rename_i ms' hms'
  cases hg
  exact ⟨r, opts, text, ms, ms', ho, ht, hms, hms', rfl⟩

theorem named_of_map {ms ms' : List OutMatch} (h : ms'.map OutMatch.name = ms.map OutMatch.name) (p : Str) :
    (∃ m ∈ ms', m.name = p) ↔ ∃ m ∈ ms, m.name = p := by
  have h1 : ∀ l : List OutMatch, (∃ m ∈ l, m.name = p) ↔ p ∈ l.map OutMatch.name := fun l => by simp
  rw [h1, h1, h]

theorem out_named {obj : Nat → PyVal} {s : Ms} {p : Str} : (∃ m ∈ outMatches obj s, m.name = p) ↔ Spec.Found s.live p := by
  unfold outMatches Spec.Found
  constructor
  · rintro ⟨x, hx, hp⟩
    obtain ⟨m, hm, hx⟩ := List.mem_filterMap.1 hx
    cases hn : m.name with
    | none => rw [hn] at hx; cases hx
    | some n =>
      rw [hn] at hx
      cases hx
      exact ⟨m, hm, by rw [hn]; exact congrArg some hp⟩
  · rintro ⟨m, hm, hn⟩
    exact ⟨_, List.mem_filterMap.2 ⟨m, hm, by rw [hn]; rfl⟩, rfl⟩

/-- guessit answers: the options in force are `opts`, the text is `text`, and the matches left are those of `s`. -/
structure Answers (O : Outside) (base : RuleEnv) (obj : Nat → PyVal) (name : NameArg) (opts : Dict) (d : Dict) (gs : List Grown) (text : Str) (s : Ms) : Prop where
  named : name.text = .ok text
  grown : grownOf O opts text = .ok gs
  run : engine (ruleEnvOf O base gs text) opts (beginning opts gs text) = .ok s
  keys : ∀ k v, d.get? k = some v → (∃ n, k = .str n ∧ Spec.Found s.live n) ∨ k = .str c!"input_string"
  has : ∀ p, p ≠ c!"input_string" → (Has d p ↔ Spec.Found s.live p)
  one : name.isBytes = false → ∀ p m, p ≠ c!"input_string" → (s.live.filter fun x => decide (x.name = some p)) = [m] →
    (∀ l, pyOf obj (m.value s.input) ≠ .list l) → d.get? (.str p) = some (oneValue opts (pyOf obj (m.value s.input)))

theorem filter_out {obj : Nat → PyVal} {p : Str} {input : Str} : ∀ {l : List Mt} {m : Mt}, (l.filter fun x => decide (x.name = some p)) = [m] →
    (l.filterMap fun m => m.name.map fun n => ({ start := m.start, stop := m.stop, name := n, value := pyOf obj (m.value input) } : OutMatch)).filter
      (fun x => decide (x.name = p)) = [{ start := m.start, stop := m.stop, name := p, value := pyOf obj (m.value input) }] := by
  intro l m h
  have hgen : ∀ l : List Mt, (l.filterMap fun m => m.name.map fun n => ({ start := m.start, stop := m.stop, name := n, value := pyOf obj (m.value input) } : OutMatch)).filter
      (fun x => decide (x.name = p)) = (l.filter fun x => decide (x.name = some p)).map
        fun m => ({ start := m.start, stop := m.stop, name := p, value := pyOf obj (m.value input) } : OutMatch) := by
    intro l
    induction l with
    | nil => rfl
    | cons x l ih =>
      cases hn : x.name with
      | none =>
        rw [List.filterMap_cons_none (by rw [hn]; rfl), List.filter_cons_of_neg (by rw [hn]; simp)]
        exact ih
      | some n =>
        rw [List.filterMap_cons_some (by rw [hn]; rfl)]
        by_cases hp : n = p
        · subst hp
          rw [List.filter_cons_of_pos (by simp), List.filter_cons_of_pos (by rw [hn]; simp), List.map_cons, ih]
        · rw [List.filter_cons_of_neg (by simpa using hp), List.filter_cons_of_neg (by rw [hn]; simpa using hp), ih]
  rw [hgen, h]
  rfl

theorem guess_answers {O : Outside} {base : RuleEnv} {obj : Nat → PyVal} {sh : Str → Except PyErr (List Str)} {pa : List Str → Except PyErr Dict}
    {int : Dict → Except PyErr PyVal} {env : Env} {st : Api Unit} {name : NameArg} {o : OptArg} {d opts : Dict}
    (ho : optionsInForce (guessitSys O base obj sh pa int) env st o = .ok opts)
    (h : (st.guessit (guessitSys O base obj sh pa int) env name o).2 = .value (.dict d)) : ∃ gs text s, Answers O base obj name opts d gs text s := by
  obtain ⟨r, opts', text, ms, ms', h1, h2, h3, h4, h5⟩ := guess_runs h
  rw [ho] at h1
  cases h1
  simp only [guessitSys] at h3
  split at h3
  · cases h3
  rename_i s hs
  cases h3
  unfold program at hs
  split at hs
  · cases hs
  rename_i gs hg
  have hnames : ms'.map OutMatch.name = (outMatches obj s).map OutMatch.name := by
    split at h4
    · exact encodeMatches_named h4
    · cases h4; rfl
  refine ⟨gs, text, s, h2, hg, hs, fun k v hk => ?_, fun p hp => ?_, fun hb p m hp hm hl => ?_⟩
  · by_cases hi : k = .str c!"input_string"
    · exact Or.inr hi
    · left
      rw [h5] at hk
      have hk' : (toDict (truthy (opts.getD (.str c!"single_value"))) (truthy (opts.getD (.str c!"enforce_list"))) ms').get? k = some v := by
        unfold withInput at hk
        split at hk
        · rwa [Dict.get?_set, if_neg (fun hh => hi (by first | exact hh | exact hh.symm))] at hk
        · exact hk
      obtain ⟨m, hm, hk2⟩ := toDict_key hk'
      exact ⟨m.name, hk2, out_named.1 ((named_of_map hnames m.name).1 ⟨m, hm, rfl⟩)⟩
  · rw [← out_named (obj := obj), ← named_of_map hnames, ← toDict_has (truthy (opts.getD (.str c!"single_value"))) (truthy (opts.getD (.str c!"enforce_list"))), h5]
    unfold withInput Has
    split
    · rw [Dict.get?_set, if_neg]
      intro hh
      cases hh
      exact hp rfl
    · rfl
  · rw [hb] at h4
    cases h4
    have h6 := toDict_one (first := truthy (opts.getD (.str c!"single_value"))) (enforce := truthy (opts.getD (.str c!"enforce_list")))
      (filter_out (obj := obj) (input := s.input) hm) hl
    rw [h5]
    unfold withInput oneValue
    split
    · rw [Dict.get?_set, if_neg]
      · exact h6
      · intro hh
        cases hh
        exact hp rfl
    · exact h6

end Guessit
