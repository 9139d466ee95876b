import Verif.Proofs.Output

/-!
# Properties C14, C15: the dictionary returned by `guessit`
-/

namespace Guessit
open Spec

/-- The values of property `p`, in order of position, of a list of matches already in that order. -/
def valuesOf (p : Str) (sorted : List OutMatch) : List PyVal :=
  (sorted.filter (fun m => decide (m.name = p))).map OutMatch.value

/-! ## C15 -/

/-- C15: for any matches with single values, every property of the output has the documented shape, computed from its
values in order of position. -/
theorem C15_output_shape (single enforce : Bool) (ms : List OutMatch) (h : ∀ m ∈ ms, Plain m.value) :
    ∃ sorted, StableSorted ms sorted ∧
      ∀ p, (toDict single enforce ms).get? (.str p) = shape single enforce (valuesOf p sorted) := by
  refine ⟨sortBySpan ms, sortBySpan_stable ms, fun p => ?_⟩
  unfold toDict valuesOf
  rw [shape_eq]
  have := foldl_addValue single enforce (sortBySpan ms)
    (fun m hm => h m ((sortBySpan_stable ms).perm.mem_iff.1 hm)) p [] [] (by simp) rfl
  simpa using this

/-- C15: the properties of the output are exactly the names of the matches. -/
theorem C15_keys (single enforce : Bool) (ms : List OutMatch) (h : ∀ m ∈ ms, Plain m.value) (p : Str) :
    ((toDict single enforce ms).get? (.str p)).isSome ↔ ∃ m ∈ ms, m.name = p := by
  obtain ⟨sorted, hs, hp⟩ := C15_output_shape single enforce ms h
  rw [hp]
  have hv : (valuesOf p sorted) = [] ↔ ¬ ∃ m ∈ ms, m.name = p := by
    unfold valuesOf
    simp only [List.map_eq_nil_iff, List.filter_eq_nil_iff, decide_eq_true_eq, not_exists, not_and]
    constructor
    · intro h m hm; exact h m (hs.perm.mem_iff.2 hm)
    · intro h m hm; exact h m (hs.perm.mem_iff.1 hm)
  unfold shape
  cases hvs : valuesOf p sorted with
  | nil => simp [distinct]; simpa using hv.1 hvs
  | cons v vs =>
    have : ∃ m ∈ ms, m.name = p := by
      by_contra hc; rw [hv.2 hc] at hvs; cases hvs
    simp only [distinct, this, iff_true]
    cases single <;> cases enforce <;> simp only [Option.isSome_some]
    split <;> rfl

theorem distinct_pairwise (vs : List PyVal) : (distinct vs).Pairwise (fun a b => pyEq a b = false) := by
  induction vs with
  | nil => simp [distinct]
  | cons v vs ih =>
    simp only [distinct]
    refine List.pairwise_cons.2 ⟨?_, ih.filter _⟩
    intro w hw
    have := (List.mem_filter.1 hw).2
    simpa using this

theorem distinct_complete (vs : List PyVal) (v : PyVal) (hv : v ∈ vs) :
    ∃ w ∈ distinct vs, w = v ∨ pyEq w v = true := by
  induction vs with
  | nil => cases hv
  | cons a vs ih =>
    simp only [distinct]
    rcases List.mem_cons.1 hv with rfl | hv
    · exact ⟨v, by simp, Or.inl rfl⟩
    · obtain ⟨w, hw, hwv⟩ := ih hv
      cases ha : pyEq a w
      · exact ⟨w, by simp [hw, ha], hwv⟩
      · refine ⟨a, by simp, Or.inr ?_⟩
        rcases hwv with rfl | hwv
        · exact ha
        · exact pyEq_trans _ _ _ ha hwv

theorem distinct_sublist (vs : List PyVal) : (distinct vs).Sublist vs := by
  induction vs with
  | nil => simp [distinct]
  | cons v vs ih => exact ((List.filter_sublist).trans ih).cons_cons v

/-- C15, `enforce_list`: every property found is a list, whose elements are the values found, in order of position,
without duplicates, and (unless `single_value`) complete. -/
theorem C15_enforce_list (single : Bool) (ms : List OutMatch) (h : ∀ m ∈ ms, Plain m.value) :
    ∃ sorted, StableSorted ms sorted ∧ ∀ p v, (toDict single true ms).get? (.str p) = some v →
      ∃ l, v = .list l ∧ l ≠ [] ∧ l.Sublist (valuesOf p sorted) ∧ l.Pairwise (fun a b => pyEq a b = false) ∧
        (single = true → l = (valuesOf p sorted).take 1) ∧
        (single = false → ∀ x ∈ valuesOf p sorted, ∃ y ∈ l, y = x ∨ pyEq y x = true) := by
  obtain ⟨sorted, hs, hp⟩ := C15_output_shape single true ms h
  refine ⟨sorted, hs, fun p v hv => ?_⟩
  rw [hp] at hv
  have h1 := distinct_pairwise (valuesOf p sorted)
  have h2 := distinct_complete (valuesOf p sorted)
  have h3 := distinct_sublist (valuesOf p sorted)
  unfold shape at hv
  cases hvs : valuesOf p sorted with
  | nil => rw [hvs] at hv; simp [distinct] at hv
  | cons a vs =>
    rw [hvs] at hv h1 h2 h3
    simp only [distinct] at hv h1 h2 h3
    cases single with
    | true =>
      simp only [Option.some.injEq] at hv
      exact ⟨[a], hv.symm, by simp, by simp, by simp, by simp, by simp⟩
    | false =>
      simp only [Option.some.injEq] at hv
      exact ⟨_, hv.symm, by simp, h3, h1, by simp, fun _ => h2⟩

/-- C15, `single_value`: every property found has its first value in order of position. -/
theorem C15_single_value (ms : List OutMatch) (h : ∀ m ∈ ms, Plain m.value) :
    ∃ sorted, StableSorted ms sorted ∧ ∀ p, (toDict true false ms).get? (.str p) = (valuesOf p sorted).head? := by
  obtain ⟨sorted, hs, hp⟩ := C15_output_shape true false ms h
  refine ⟨sorted, hs, fun p => ?_⟩
  rw [hp]
  unfold shape
  cases valuesOf p sorted <;> simp [distinct]

/-- C15, default options: a property all of whose values are equal maps to the first of them; otherwise to the list of
the distinct values, in order of position. -/
theorem C15_default (ms : List OutMatch) (h : ∀ m ∈ ms, Plain m.value) :
    ∃ sorted, StableSorted ms sorted ∧ ∀ p v rest, valuesOf p sorted = v :: rest →
      ((∀ w ∈ rest, pyEq v w = true) → (toDict false false ms).get? (.str p) = some v) ∧
      ((∃ w ∈ rest, pyEq v w = false) → ∃ l, (toDict false false ms).get? (.str p) = some (.list (v :: l)) ∧ l ≠ [] ∧
        (v :: l).Sublist (v :: rest) ∧ (v :: l).Pairwise (fun a b => pyEq a b = false) ∧
        ∀ x ∈ v :: rest, ∃ y ∈ v :: l, y = x ∨ pyEq y x = true) := by
  obtain ⟨sorted, hs, hp⟩ := C15_output_shape false false ms h
  refine ⟨sorted, hs, fun p v rest hv => ?_⟩
  rw [hp, hv]
  have h1 := distinct_pairwise (v :: rest)
  have h2 := distinct_complete (v :: rest)
  have h3 := distinct_sublist (v :: rest)
  unfold shape
  simp only [distinct] at h1 h2 h3 ⊢
  constructor
  · intro hall
    have : (distinct rest).filter (fun w => !pyEq v w) = [] := by
      rw [List.filter_eq_nil_iff]
      intro w hw; simp [hall w (distinct_sub w hw)]
    simp [this]
  · rintro ⟨w, hw, hvw⟩
    have hne : (distinct rest).filter (fun w => !pyEq v w) ≠ [] := by
      obtain ⟨y, hy, hyw⟩ := distinct_complete rest w hw
      apply List.ne_nil_of_mem (a := y)
      rw [List.mem_filter]
      refine ⟨hy, ?_⟩
      cases hvy : pyEq v y
      · rfl
      · rcases hyw with rfl | hyw
        · rw [hvw] at hvy; cases hvy
        · rw [pyEq_trans _ _ _ hvy hyw] at hvw; cases hvw
    refine ⟨_, ?_, hne, h3, h1, h2⟩
    rw [if_neg]; simpa using hne

/-- C15 at the level of the API: what `guessit` returns on text is the shaped dictionary of the matches found, for the
options in force. -/
theorem C15_guessit {R : Type} (S : Sys R) (env : Env) (st st' : Api R) (text : Str) (o : OptArg) (d : Dict)
    (h : st.guessit S env (.str text) o = (st', .value (.dict d))) :
    ∃ r opts ms, st'.rebulk = some r ∧ S.rules r text opts = .ok ms ∧
      ((∀ m ∈ ms, Plain m.value) → ∃ sorted, StableSorted ms sorted ∧
        ∀ p, p ≠ c!"input_string" → d.get? (.str p) =
          shape (truthy (opts.getD (.str c!"single_value"))) (truthy (opts.getD (.str c!"enforce_list"))) (valuesOf p sorted)) := by
  unfold Api.guessit at h
  split at h
  · simp only [Prod.mk.injEq] at h; unfold wrap at h; split at h <;> simp at h
  split at h
  · simp only [Prod.mk.injEq] at h; unfold wrap at h; split at h <;> simp at h
  split at h
  · simp only [Prod.mk.injEq] at h; unfold wrap at h; split at h <;> simp at h
  split at h
  · simp only [Prod.mk.injEq] at h; unfold wrap at h; split at h <;> simp at h
  rename_i r hr _ d' hg
  simp only [Prod.mk.injEq, Outcome.value.injEq, PyVal.dict.injEq] at h
  obtain ⟨rfl, rfl⟩ := h
  unfold guessWith at hg
  split at hg
  · cases hg
  rename_i opts _
  simp only [NameArg.text, NameArg.isBytes] at hg
  split at hg
  · cases hg
  rename_i ms hms
  simp only [Bool.false_eq_true, if_false, Except.ok.injEq] at hg
  refine ⟨r, opts, ms, hr, hms, fun hpl => ?_⟩
  obtain ⟨sorted, hs, hp⟩ := C15_output_shape (truthy (opts.getD (.str c!"single_value")))
    (truthy (opts.getD (.str c!"enforce_list"))) ms hpl
  refine ⟨sorted, hs, fun p hne => ?_⟩
  rw [← hp, ← hg]
  unfold withInput
  split
  · rw [Dict.get?_set, if_neg]; simpa using hne
  · rfl

/-- Two languages and one repeated year: the hypotheses hold and the three shapes differ. -/
example :
    let ms : List OutMatch := [⟨8, 12, c!"year", .int 2001⟩, ⟨5, 7, c!"language", .str c!"fr"⟩,
      ⟨0, 2, c!"language", .str c!"en"⟩, ⟨20, 24, c!"year", .int 2001⟩]
    (∀ m ∈ ms, Plain m.value) ∧
    (toDict false false ms).get? (.str c!"language") = some (.list [.str c!"en", .str c!"fr"]) ∧
    (toDict false false ms).get? (.str c!"year") = some (.int 2001) ∧
    (toDict true false ms).get? (.str c!"language") = some (.str c!"en") ∧
    (toDict false true ms).get? (.str c!"year") = some (.list [.int 2001]) := by
  refine ⟨?_, by rfl, by rfl, by rfl, by rfl⟩
  intro m hm
  simp only [List.mem_cons, List.not_mem_nil, or_false] at hm
  rcases hm with rfl | rfl | rfl | rfl <;> exact ⟨by trivial, by simp⟩

/-! ## C14 -/

/-- A value found by the rules: neither a list nor bytes (text, numbers, dates, languages, quantities). -/
def Found (v : PyVal) : Prop :=
  match v with
  | .bytes _ => False
  | .list _ => False
  | .dict _ => False
  | _ => True

theorem encodeMatches_ok {ms ms' : List OutMatch} (h : encodeMatches ms = .ok ms') (hf : ∀ m ∈ ms, Found m.value) :
    (∀ m ∈ ms, AsciiPlain m.value) ∧ ms' = ms.map (fun m => { m with value := encoded m.value }) := by
  induction ms generalizing ms' with
  | nil => simp only [encodeMatches, Except.ok.injEq] at h; subst h; simp
  | cons m ms ih =>
    simp only [encodeMatches] at h
    split at h
    · cases h
    rename_i v hv
    split at h
    · cases h
    rename_i ms'' hms
    simp only [Except.ok.injEq] at h
    subst h
    obtain ⟨h1, h2⟩ := ih hms (fun m hm => hf m (by simp [hm]))
    have hm := hf m (by simp)
    have : AsciiPlain m.value ∧ v = encoded m.value := by
      cases hmv : m.value <;> rw [hmv] at hv hm <;> simp only [Found] at hm <;>
        simp only [Except.ok.injEq] at hv <;> try (subst hv; exact ⟨by trivial, rfl⟩)
      rename_i s
      unfold asciiEncode at hv
      split at hv
      · rename_i hs
        simp only [Except.map, Except.ok.injEq] at hv
        subst hv
        exact ⟨hs, rfl⟩
      · simp [Except.map] at hv
    refine ⟨?_, ?_⟩
    · intro x hx
      rcases List.mem_cons.1 hx with rfl | hx
      · exact this.1
      · exact h1 x hx
    · rw [h2, this.2]; rfl

theorem insertBySpan_map (f : OutMatch → OutMatch) (hf : ∀ m, (f m).start = m.start ∧ (f m).stop = m.stop)
    (m : OutMatch) (xs : List OutMatch) : insertBySpan (f m) (xs.map f) = (insertBySpan m xs).map f := by
  induction xs with
  | nil => rfl
  | cons x xs ih =>
    simp only [List.map_cons, insertBySpan, (hf m).1, (hf m).2, (hf x).1, (hf x).2]
    split
    · rfl
    · simp [ih]

theorem sortBySpan_map (f : OutMatch → OutMatch) (hf : ∀ m, (f m).start = m.start ∧ (f m).stop = m.stop)
    (ms : List OutMatch) : sortBySpan (ms.map f) = (sortBySpan ms).map f := by
  unfold sortBySpan
  have gen : ∀ (ms acc : List OutMatch), (ms.map f).foldl (fun acc m => insertBySpan m acc) (acc.map f) =
      (ms.foldl (fun acc m => insertBySpan m acc) acc).map f := by
    intro ms
    induction ms with
    | nil => intro acc; rfl
    | cons m ms ih => intro acc; simp only [List.map_cons, List.foldl_cons, insertBySpan_map f hf, ih]
  exact gen ms []

theorem AsciiPlain.plain {v : PyVal} (h : AsciiPlain v) (hf : Found v) : Plain v := by
  cases v <;> simp only [Found] at hf <;> exact ⟨by trivial, by simp⟩

theorem plain_encoded {v : PyVal} (hf : Found v) : Plain (encoded v) := by
  cases v <;> simp only [Found] at hf <;> exact ⟨by trivial, by simp [encoded]⟩

theorem distinct_encoded (vs : List PyVal) (h : ∀ v ∈ vs, AsciiPlain v) :
    distinct (vs.map encoded) = (distinct vs).map encoded := by
  induction vs with
  | nil => rfl
  | cons v vs ih =>
    simp only [List.map_cons, distinct, ih (fun v hv => h v (by simp [hv])), List.filter_map]
    congr 2
    apply List.filter_congr
    intro w hw
    simp only [Function.comp]
    rw [pyEq_encoded (h v (by simp)) (h w (by simp [distinct_sub w hw]))]

theorem encoded_list {l : List PyVal} (h : ∀ v ∈ l, Found v) : encoded (.list l) = .list (l.map encoded) := by
  simp only [encoded, PyVal.list.injEq]
  apply List.map_congr_left
  intro v hv
  have := h v hv
  cases v <;> first | rfl | exact absurd this (by simp [Found])

theorem shape_encoded (single enforce : Bool) (vs : List PyVal) (h : ∀ v ∈ vs, AsciiPlain v) (hf : ∀ v ∈ vs, Found v) :
    shape single enforce (vs.map encoded) = (shape single enforce vs).map encoded := by
  unfold shape
  rw [distinct_encoded vs h]
  have hd : ∀ v ∈ distinct vs, Found v := fun v hv => hf v (distinct_sub v hv)
  cases hdv : distinct vs with
  | nil => rfl
  | cons v rest =>
    rw [hdv] at hd
    have e1 := encoded_list hd
    have e2 := encoded_list (l := [v]) (fun x hx => by simp at hx; subst hx; exact hd _ (by simp))
    cases single <;> cases enforce <;> simp only [List.map_cons, List.isEmpty_map, Option.map_some, e1, e2, List.map_nil]
    split <;> simp [e1]

/-- Bytes, or a value that is not textual, or a list of such. -/
def NoText : PyVal → Prop
  | .str _ => False
  | .list xs => ∀ s, .str s ∉ xs
  | _ => True

/-- C14, full statement: a name given as bytes yields no textual value at all. -/
def BytesInBytesOut : Prop :=
  ∀ (R : Type) (S : Sys R) (r : R) (config options : Dict) (b : List UInt8) (d : Dict),
    guessWith S r config options (.bytes b) = .ok d → ∀ k v, d.get? k = some v → NoText v

/-- C14 as proved: when the guess of a bytes name succeeds, so does the guess of the decoded name, and every property
other than `input_string` has the ASCII-encoded value(s) the text guess has.  Missing from the full statement:
`input_string`, which stays text (see `C14_counterexample_input_string`). -/
theorem C14_bytes_result_partial {R : Type} (S : Sys R) (r : R) (config options : Dict) (b : List UInt8) (d : Dict)
    (hfound : ∀ text opts ms, S.rules r text opts = .ok ms → ∀ m ∈ ms, Found m.value)
    (h : guessWith S r config options (.bytes b) = .ok d) :
    ∃ text d', asciiDecode b = .ok text ∧ guessWith S r config options (.str text) = .ok d' ∧
      ∀ p, p ≠ c!"input_string" → d.get? (.str p) = (d'.get? (.str p)).map encoded := by
  unfold guessWith at h
  split at h
  · cases h
  rename_i opts hopts
  split at h
  · cases h
  rename_i text ht
  split at h
  · cases h
  rename_i ms hms
  simp only [NameArg.isBytes, if_true] at h
  split at h
  · cases h
  rename_i ms' henc
  simp only [Except.ok.injEq] at h
  have hf := hfound _ _ _ hms
  obtain ⟨hasc, hms'⟩ := encodeMatches_ok henc hf
  have hstr : guessWith S r config options (.str text) = .ok (withInput text opts
      (toDict (truthy (opts.getD (.str c!"single_value"))) (truthy (opts.getD (.str c!"enforce_list"))) ms)) := by
    unfold guessWith
    simp only [hopts, NameArg.text, hms, NameArg.isBytes, Bool.false_eq_true, if_false]
  refine ⟨text, _, ht, hstr, ?_⟩
  intro p hp
  rw [← h]
  have strip : ∀ dd : Dict, (withInput text opts dd).get? (.str p) = dd.get? (.str p) := by
    intro dd
    unfold withInput
    split
    · rw [Dict.get?_set, if_neg]; simpa using hp
    · rfl
  rw [strip, strip]
  subst hms'
  unfold toDict
  have hsort := sortBySpan_map (fun m => { m with value := encoded m.value }) (fun m => ⟨rfl, rfl⟩) ms
  rw [hsort]
  have hmem : ∀ m ∈ sortBySpan ms, m ∈ ms := fun m hm => (sortBySpan_stable ms).perm.mem_iff.1 hm
  have e1 := fun a b => foldl_addValue a b ((sortBySpan ms).map (fun m => { m with value := encoded m.value }))
    (by
      intro m hm
      obtain ⟨m0, hm0, rfl⟩ := List.mem_map.1 hm
      exact plain_encoded (hf m0 (hmem m0 hm0))) p [] [] (by simp) rfl
  have e2 := fun a b => foldl_addValue a b (sortBySpan ms)
    (fun m hm => (hasc m (hmem m hm)).plain (hf m (hmem m hm))) p [] [] (by simp) rfl
  rw [e1, e2]
  simp only [List.nil_append, ← shape_eq]
  rw [← shape_encoded]
  · congr 1
    rw [List.filter_map, List.map_map, List.map_map]
    rfl
  · intro v hv
    obtain ⟨m, hm, rfl⟩ := List.mem_map.1 hv
    exact hasc m (hmem m (List.mem_of_mem_filter hm))
  · intro v hv
    obtain ⟨m, hm, rfl⟩ := List.mem_map.1 hv
    exact hf m (hmem m (List.mem_of_mem_filter hm))

/-- C14: with a text name, every value of the result is a value found by the rules (or a list of such), unchanged, so no
value has been turned into bytes. -/
theorem C14_text_unchanged {R : Type} (S : Sys R) (r : R) (config options : Dict) (text : Str) (d : Dict)
    (hfound : ∀ text opts ms, S.rules r text opts = .ok ms → ∀ m ∈ ms, Found m.value)
    (h : guessWith S r config options (.str text) = .ok d) (p : Str) (v : PyVal) (hv : d.get? (.str p) = some v) :
    (p = c!"input_string" ∧ v = .str text) ∨ ∃ opts ms, S.rules r text opts = .ok ms ∧
      ((∃ m ∈ ms, m.name = p ∧ v = m.value) ∨ ∃ l, v = .list l ∧ ∀ x ∈ l, ∃ m ∈ ms, m.name = p ∧ x = m.value) := by
  unfold guessWith at h
  split at h
  · cases h
  rename_i opts hopts
  simp only [NameArg.text, NameArg.isBytes] at h
  split at h
  · cases h
  rename_i ms hms
  simp only [Bool.false_eq_true, if_false, Except.ok.injEq] at h
  have hpl : ∀ m ∈ ms, Plain m.value := by
    intro m hm
    have := hfound _ _ _ hms m hm
    cases hv : m.value <;> rw [hv] at this <;> simp only [Found] at this <;> exact ⟨by trivial, by simp⟩
  by_cases hin : p = c!"input_string" ∧ v = .str text
  · exact Or.inl hin
  refine Or.inr ⟨opts, ms, hms, ?_⟩
  obtain ⟨sorted, hs, hp⟩ := C15_output_shape (truthy (opts.getD (.str c!"single_value")))
    (truthy (opts.getD (.str c!"enforce_list"))) ms hpl
  have hv' : (toDict (truthy (opts.getD (.str c!"single_value"))) (truthy (opts.getD (.str c!"enforce_list"))) ms).get?
      (.str p) = some v := by
    rw [← h] at hv
    unfold withInput at hv
    split at hv
    · rw [Dict.get?_set] at hv
      split at hv
      · rename_i he; simp only [Key.str.injEq] at he; simp only [Option.some.injEq] at hv; exact absurd ⟨he, hv.symm⟩ hin
      · exact hv
    · exact hv
  rw [hp] at hv'
  have hmem : ∀ x ∈ distinct (valuesOf p sorted), ∃ m ∈ ms, m.name = p ∧ x = m.value := by
    intro x hx
    obtain ⟨m, hm, rfl⟩ := List.mem_map.1 (distinct_sub x hx)
    rw [List.mem_filter] at hm
    exact ⟨m, hs.perm.mem_iff.1 hm.1, by simpa using hm.2, rfl⟩
  unfold shape at hv'
  split at hv'
  · cases hv'
  rename_i x rest hd
  rw [hd] at hmem
  split at hv' <;> (try split at hv') <;> simp only [Option.some.injEq] at hv' <;> subst hv'
  · exact Or.inl (hmem x (by simp))
  · exact Or.inr ⟨_, rfl, fun y hy => hmem y (by simp at hy; simp [hy])⟩
  · exact Or.inr ⟨_, rfl, hmem⟩
  · exact Or.inl (hmem x (by simp))
  · exact Or.inr ⟨_, rfl, hmem⟩

/-- A matcher that finds one title. -/
def oneTitle : Sys Unit where
  shlexSplit := fun s => .ok [s]
  parseArgs := fun _ => .ok []
  build := fun _ => .ok ()
  rules := fun _ t _ => .ok [{ start := 0, stop := t.length, name := c!"title", value := .str t }]
  introspect := fun _ _ => .ok .none

/-- The full claim C14 is false: with `output_input_string`, the `input_string` of a bytes guess is text. -/
theorem C14_counterexample_input_string : ¬ BytesInBytesOut := by
  intro h
  have := h Unit oneTitle () [] [(.str c!"output_input_string", .bool true)] [65, 66] _ rfl
    (.str c!"input_string") (.str c!"AB") rfl
  exact this

/-- Witness: a bytes name guessed by `oneTitle`, whose values satisfy the hypothesis. -/
example : (∀ text opts ms, oneTitle.rules () text opts = .ok ms → ∀ m ∈ ms, Found m.value) ∧
    ∃ d, guessWith oneTitle () [] [] (.bytes [65, 66]) = .ok d ∧
      d.get? (.str c!"title") = some (.bytes [65, 66]) := by
  refine ⟨?_, _, rfl, rfl⟩
  intro text opts ms h m hm
  simp only [oneTitle, Except.ok.injEq] at h
  subst h
  simp at hm
  subst hm
  trivial

end Guessit
