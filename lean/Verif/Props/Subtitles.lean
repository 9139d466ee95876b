import Verif.Model.Subtitles
import Verif.Props.Absolute

/-! # C96: languages of subtitles -/

namespace Guessit
open Spec

/-! ## Queries -/

theorem prevNamed_iff {s : Ms} (h : Sound s) {q : Mt → Bool} {Q : Mt → Prop} (hq : ∀ m, q m = true ↔ Q m) {x p : Mt} :
    firstTrue (previous s.live x q) = some p ↔ FirstOf s.live (fun p => Q p ∧ ClosestBefore s.live x p) p := by
  rw [firstTrue_eq (fun m hm => h.pos m (by rw [mem_previous] at hm; exact hm.1.1)), previous, previousFrom_eq, List.filter_filter,
    head_filter_iff]
  refine firstOf_congr (fun y hy => ?_) p
  unfold ClosestBefore
  simp only [Bool.and_eq_true, decide_eq_true_eq, hq]
  exact ⟨fun hh => ⟨hh.1, hy, hh.2⟩, fun hh => ⟨hh.1, hh.2.2⟩⟩

theorem nextNamed_iff {s : Ms} (h : Sound s) {q : Mt → Bool} {Q : Mt → Prop} (hq : ∀ m, q m = true ↔ Q m) {x n : Mt} :
    firstTrue (nextOf s.input s.live x q) = some n ↔ FirstOf s.live (fun n => Q n ∧ ClosestAfter s.live x n) n := by
  rw [firstTrue_eq (fun m hm => by
    rw [nextOf, nextFrom_eq] at hm
    exact h.pos m (by simp at hm; exact hm.1)), nextOf, nextFrom_eq, List.filter_filter, head_filter_iff]
  refine firstOf_congr (fun y hy => ?_) n
  unfold ClosestAfter
  simp only [Bool.and_eq_true, decide_eq_true_eq, hq]
  have := (maxEnd_ge s.input s.live).2 y hy
  have := h.pos y hy
  constructor
  · rintro ⟨h1, ⟨h2, _⟩, h3⟩
    exact ⟨h1, hy, by omega, fun z hz hh => h3 z hz (by omega)⟩
  · rintro ⟨h0, h1, h2, h3⟩
    exact ⟨h0, ⟨by omega, by omega⟩, fun z hz hh => h3 z hz (by omega)⟩

theorem isSubPrefix_iff (m : Mt) : isSubPrefix m = true ↔ IsPrefix m := by unfold isSubPrefix IsPrefix; rw [decide_eq_true_eq]
theorem isSubSuffix_iff (m : Mt) : isSubSuffix m = true ↔ IsSuffix m := by unfold isSubSuffix IsSuffix; rw [decide_eq_true_eq]

theorem none_of_some_iff {α : Type} {o : Option α} {P : α → Prop} (h : ∀ a, o = some a ↔ P a) : o = none ↔ ¬ ∃ a, P a := by
  cases o with
  | none => simp only [true_iff]; rintro ⟨a, ha⟩; exact absurd ((h a).2 ha) (by simp)
  | some b => simp only [reduceCtorEq, false_iff, not_not]; exact ⟨b, (h b).1 rfl⟩

theorem subtitlePrefix_iff {s : Ms} (h : Sound s) {x p : Mt} : subtitlePrefix s x = some p ↔ Announces s x p := by
  have hb : ∀ x p, firstTrue (previous s.live x isSubPrefix) = some p ↔ PrefixBefore s x p := fun x p => prevNamed_iff h isSubPrefix_iff
  have hg : ∀ g, groupOf s x = some g ↔ EndMark s.markers c!"group" x g := fun g => by unfold groupOf; exact atMatch_first
  unfold subtitlePrefix Announces
  cases h1 : firstTrue (previous s.live x isSubPrefix) with
  | some q =>
    rw [hb] at h1
    dsimp only
    constructor
    · intro e; cases e; exact Or.inl h1
    · rintro (h2 | ⟨h2, _⟩)
      · rw [← hb] at h1 h2; rw [← h1, ← h2]
      · exact absurd ⟨q, h1⟩ h2
  | none =>
    rw [none_of_some_iff (hb x)] at h1
    dsimp only
    have e1 : ∀ (R : Prop), (PrefixBefore s x p ∨ (¬ ∃ p, PrefixBefore s x p) ∧ R) ↔ R := fun R =>
      ⟨fun hh => hh.elim (fun hc => absurd ⟨p, hc⟩ h1) (·.2), fun hh => Or.inr ⟨h1, hh⟩⟩
    rw [e1]
    cases h2 : groupOf s x with
    | none =>
      rw [none_of_some_iff hg] at h2
      dsimp only
      constructor
      · intro e; cases e
      · rintro ⟨g, hc, _⟩; exact absurd ⟨g, hc⟩ h2
    | some g =>
      have h2' := (hg g).1 h2
      dsimp only
      have e2 : ∀ (R : Mt → Prop), (∃ g, EndMark s.markers c!"group" x g ∧ R g) ↔ R g := fun R => by
        constructor
        · rintro ⟨g', hg', hr⟩
          rw [← hg, h2] at hg'
          cases hg'
          exact hr
        · intro hr; exact ⟨g, h2', hr⟩
      rw [e2]
      cases h3 : firstTrue (previous s.live g isSubPrefix) with
      | some q =>
        rw [hb] at h3
        dsimp only
        constructor
        · intro e; cases e; exact Or.inl h3
        · rintro (h4 | ⟨h4, _⟩)
          · rw [← hb] at h3 h4; rw [← h3, ← h4]
          · exact absurd ⟨q, h3⟩ h4
      | none =>
        rw [none_of_some_iff (hb g)] at h3
        dsimp only
        rw [firstIn_iff h]
        have e3 : ∀ (R : Prop), (PrefixBefore s g p ∨ (¬ ∃ p, PrefixBefore s g p) ∧ R) ↔ R := fun R =>
          ⟨fun hh => hh.elim (fun hc => absurd ⟨p, hc⟩ h3) (·.2), fun hh => Or.inr ⟨h3, hh⟩⟩
        rw [e3]
        refine lead_congr fun m _ => ?_
        rw [isSubPrefix_iff]
        constructor
        · rintro ⟨a, b, c⟩; exact ⟨c, a, b⟩
        · rintro ⟨c, a, b⟩; exact ⟨a, b, c⟩

theorem announces_prefix {s : Ms} {x p : Mt} (h : Announces s x p) : p ∈ s.live ∧ IsPrefix p := by
  have hf : ∀ y, PrefixBefore s y p → p ∈ s.live ∧ IsPrefix p := by
    rintro y ⟨pre, post, e, hp, _⟩
    exact ⟨by rw [e]; simp, hp.1⟩
  rcases h with h | ⟨_, g, _, h | ⟨_, h⟩⟩
  · exact hf _ h
  · exact hf _ h
  · obtain ⟨h1, _, pre, post, e, _⟩ := h
    exact ⟨by rw [e]; simp, h1.1⟩

/-! ## Loops -/

theorem hasMatch_removeMatch {input : Str} {m x : Mt} (hne : m.key input ≠ x.key input) : ∀ l, hasMatch input (removeMatch input l m) x = hasMatch input l x := by
  intro l
  induction l with
  | nil => rfl
  | cons y l ih =>
    unfold removeMatch
    split
    · rename_i he
      rw [eqv_iff] at he
      unfold hasMatch
      rw [List.any_cons]
      have : Mt.eqv input x y = false := by
        rw [← Bool.not_eq_true, eqv_iff, ← he]
        exact fun e => hne e.symm
      rw [this, Bool.false_or]
    · unfold hasMatch at ih ⊢
      rw [List.any_cons, List.any_cons, ih]

theorem hasMatch_removeAll {input : Str} {x : Mt} : ∀ (ms l : List Mt), (∀ m ∈ ms, m.key input ≠ x.key input) →
    hasMatch input (removeAll input l ms) x = hasMatch input l x := by
  intro ms
  induction ms with
  | nil => intro l _; rfl
  | cons m ms ih =>
    intro l h
    show hasMatch input (removeAll input (removeMatch input l m) ms) x = _
    rw [ih _ fun m' hm' => h m' (by simp [hm']), hasMatch_removeMatch (h m (by simp))]

/-- Both loops: some matches `pre` go, the language is removed and comes back as `subtitle_language`. -/
def moveStep {α : Type} (pre : α → List Mt) (lang : α → Mt) (input : Str) (acc : Option (List Mt)) (q : α) : Option (List Mt) := match acc with
  | none => none
  | some l => if hasMatch input (removeAll input l (pre q)) (lang q) then
      some (removeMatch input (removeAll input l (pre q)) (lang q) ++ [called c!"subtitle_language" (lang q)]) else none

theorem moveStep_none {α : Type} (pre : α → List Mt) (lang : α → Mt) (input : Str) : ∀ qs : List α, qs.foldl (moveStep pre lang input) none = none := by
  intro qs; induction qs with
  | nil => rfl
  | cons q qs ih => exact ih

theorem moveFold {α : Type} (pre : α → List Mt) (lang : α → Mt) (input : Str) (hpre : ∀ q, ∀ m ∈ pre q, m.name = some c!"subtitle_language.suffix") :
    ∀ (qs : List α) (A B : List Mt), (∀ q ∈ qs, (lang q).name = some c!"language") →
    (qs.map fun q => (lang q).key input).Nodup → (∀ b ∈ B, b.name = some c!"subtitle_language") →
    qs.foldl (moveStep pre lang input) (some (A ++ B)) = if qs.all fun q => hasMatch input A (lang q) then
      some (removeAll input A (qs.flatMap fun q => pre q ++ [lang q]) ++ (B ++ qs.map fun q => called c!"subtitle_language" (lang q))) else none := by
  intro qs
  induction qs with
  | nil => intro A B _ _ _; simp [removeAll]
  | cons q qs ih =>
    intro A B hl hn hB
    have hq := hl q (by simp)
    have kpre : ∀ q', ∀ n, n ≠ c!"subtitle_language.suffix" → ∀ x : Mt, x.name = some n → ∀ m ∈ pre q', m.key input ≠ x.key input := by
      intro q' n hn x hx m hm e
      have := congrArg MtKey.name e
      rw [show (m.key input).name = m.name from rfl, show (x.key input).name = x.name from rfl, hpre q' m hm, hx] at this
      exact hn (Option.some.inj this).symm
    have kB : ∀ b ∈ B, (lang q).key input ≠ b.key input := fun b hb e => by
      have := congrArg MtKey.name e
      simp [Mt.key, hq, hB b hb] at this
    have hstep : moveStep pre lang input (some (A ++ B)) q = if hasMatch input A (lang q) then
        some (removeMatch input (removeAll input A (pre q)) (lang q) ++ (B ++ [called c!"subtitle_language" (lang q)])) else none := by
      show (if hasMatch input (removeAll input (A ++ B) (pre q)) (lang q) then
        some (removeMatch input (removeAll input (A ++ B) (pre q)) (lang q) ++ [called c!"subtitle_language" (lang q)]) else none) = _
      rw [hasMatch_removeAll _ _ (kpre q _ (by decide) _ hq),
        removeAll_append input _ A B (fun m hm b hb => kpre q _ (by decide) b (hB b hb) m hm), removeMatch_append input _ B kB,
        List.append_assoc]
      have : hasMatch input (A ++ B) (lang q) = hasMatch input A (lang q) := by
        unfold hasMatch
        rw [List.any_append]
        have : B.any (Mt.eqv input (lang q)) = false := by
          rw [List.any_eq_false]
          intro b hb
          rw [eqv_iff]
          exact kB b hb
        rw [this, Bool.or_false]
      rw [this]
    rw [List.foldl_cons, hstep]
    rw [List.map_cons, List.nodup_cons] at hn
    by_cases ha : hasMatch input A (lang q) = true
    · rw [if_pos ha, ih _ _ (fun q' hq' => hl q' (by simp [hq'])) hn.2]
      · have hall : (qs.all fun q' => hasMatch input (removeMatch input (removeAll input A (pre q)) (lang q)) (lang q')) =
            qs.all fun q' => hasMatch input A (lang q') := by
          rw [Bool.eq_iff_iff, List.all_eq_true, List.all_eq_true]
          refine forall_congr' fun q' => forall_congr' fun hq' => ?_
          have e2 : (lang q).key input ≠ (lang q').key input := fun e => hn.1 (List.mem_map.2 ⟨q', hq', e.symm⟩)
          rw [hasMatch_removeMatch e2, hasMatch_removeAll _ _ (kpre q _ (by decide) _ (hl q' (by simp [hq'])))]
        rw [hall, List.all_cons, ha, Bool.true_and]
        refine ite_congr rfl (fun _ => ?_) fun _ => rfl
        rw [List.flatMap_cons, List.map_cons]
        simp only [removeAll, List.foldl_append, List.foldl_cons, List.foldl_nil, List.append_assoc, List.cons_append, List.nil_append]
      · intro b hb
        rcases List.mem_append.1 hb with hb | hb
        · exact hB b hb
        · rw [List.mem_singleton.1 hb]; rfl
    · rw [if_neg ha, moveStep_none, List.all_cons]
      rw [Bool.not_eq_true] at ha
      rw [ha, Bool.false_and, if_neg (by decide)]

/-- The word under the name of a suffix. -/
def twin (p : Mt) : Mt := { p with name := some c!"subtitle_language.suffix" }

/-- What both rules come to, once it is known what they remove. -/
theorem moved_of {α : Type} {s : Ms} (h : Sound s) (pre : α → List Mt) (lang : α → Mt) (hpre : ∀ q, ∀ m ∈ pre q, m.name = some c!"subtitle_language.suffix")
    (qs : List α) (hq : (qs.map lang).Sublist (named s.live c!"language")) (gone : List Mt) :
    (qs.foldl (moveStep pre lang s.input) (some (removeAll s.input s.live gone)) = none ↔ ∃ q ∈ qs, ∃ m ∈ gone, m.key s.input = (lang q).key s.input) ∧
    ∀ l, qs.foldl (moveStep pre lang s.input) (some (removeAll s.input s.live gone)) = some l →
      Reworks s { s with live := l } (fun x => (∃ m ∈ gone, m.key s.input = x.key s.input) ∨ ∃ q ∈ qs, ∃ m ∈ pre q, m.key s.input = x.key s.input)
        (fun x => ∃ q ∈ qs, x = lang q) (called c!"subtitle_language") := by
  have hlang : ∀ q ∈ qs, lang q ∈ s.live ∧ (lang q).name = some c!"language" := fun q hq' =>
    mem_named.1 (hq.subset (List.mem_map.2 ⟨q, hq', rfl⟩))
  have hsub : (qs.map lang).Sublist s.live := hq.trans List.filter_sublist
  have hkn : (qs.map fun q => (lang q).key s.input).Nodup := by
    have := (hsub.map (Mt.key s.input)).nodup h.distinct
    rwa [List.map_map] at this
  have hf := moveFold pre lang s.input hpre qs (removeAll s.input s.live gone) [] (fun q hq' => (hlang q hq').2) hkn (fun b hb => absurd hb (by simp))
  rw [List.append_nil, List.nil_append] at hf
  have hall : (qs.all fun q => hasMatch s.input (removeAll s.input s.live gone) (lang q)) = true ↔
      ¬ ∃ q ∈ qs, ∃ m ∈ gone, m.key s.input = (lang q).key s.input := by
    rw [List.all_eq_true]
    constructor
    · rintro ha ⟨q, hq', m, hm, hk⟩
      obtain ⟨x, hx, hxk⟩ := hasMatch_iff.1 (ha q hq')
      rw [mem_removeAll_nodup h.distinct] at hx
      exact hx.2 m hm (hk.trans hxk)
    · intro hn q hq'
      refine hasMatch_iff.2 ⟨lang q, (mem_removeAll_nodup h.distinct).2 ⟨(hlang q hq').1, fun m hm hk => hn ⟨q, hq', m, hm, hk⟩⟩, rfl⟩
  rw [hf]
  constructor
  · by_cases hc : (qs.all fun q => hasMatch s.input (removeAll s.input s.live gone) (lang q)) = true
    · rw [if_pos hc]
      exact ⟨fun e => (by cases e), fun e => absurd e (hall.1 hc)⟩
    · rw [if_neg hc]
      rw [hall, not_not] at hc
      exact ⟨fun _ => hc, fun _ => rfl⟩
  · intro l hl
    split at hl
    · rename_i hc
      cases hl
      have e : removeAll s.input (removeAll s.input s.live gone) (qs.flatMap fun q => pre q ++ [lang q]) =
          removeAll s.input s.live (gone ++ qs.flatMap fun q => pre q ++ [lang q]) := by
        unfold removeAll; rw [List.foldl_append]
      refine ⟨rfl, rfl, removeAll s.input s.live (gone ++ qs.flatMap fun q => pre q ++ [lang q]), qs.map lang, removeAll_sublist _ _ _, ?_, ?_, ?_, ?_⟩
      rotate_right
      · show _ = _
        rw [e, List.map_map]
        rfl
      · intro x hx
        rw [mem_removeAll_nodup h.distinct]
        constructor
        · rintro ⟨_, ha⟩
          refine ⟨?_, ?_⟩
          · rintro (⟨m, hm, hk⟩ | ⟨q, hq', m, hm, hk⟩)
            · exact ha m (by simp [hm]) hk
            · exact ha m (List.mem_append_right _ (List.mem_flatMap.2 ⟨q, hq', by simp [hm]⟩)) hk
          · rintro ⟨q, hq', rfl⟩
            exact ha (lang q) (List.mem_append_right _ (List.mem_flatMap.2 ⟨q, hq', by simp⟩)) rfl
        · rintro ⟨h1, h2⟩
          refine ⟨hx, fun m hm hk => ?_⟩
          rcases List.mem_append.1 hm with hm | hm
          · exact h1 (Or.inl ⟨m, hm, hk⟩)
          · obtain ⟨q, hq', hm⟩ := List.mem_flatMap.1 hm
            rcases List.mem_append.1 hm with hm | hm
            · exact h1 (Or.inr ⟨q, hq', m, hm, hk⟩)
            · rw [List.mem_singleton] at hm
              subst hm
              exact h2 ⟨q, hq', key_inj h (hlang q hq').1 hx hk.symm⟩
      · have := (hsub.map (Mt.key s.input)).nodup h.distinct
        exact List.Nodup.of_map _ this
      · intro x
        rw [List.mem_map]
        constructor
        · rintro ⟨q, hq', rfl⟩; exact ⟨(hlang q hq').1, q, hq', rfl⟩
        · rintro ⟨_, q, hq', rfl⟩; exact ⟨q, hq', rfl⟩
    · cases hl

theorem mem_pairs {s : Ms} (f : Mt → Option Mt) {q : Mt × Mt} :
    q ∈ ((named s.live c!"language").filterMap fun lang => (f lang).map fun p => (p, lang)) ↔
      q.2 ∈ s.live ∧ q.2.name = some c!"language" ∧ f q.2 = some q.1 := by
  rw [List.mem_filterMap]
  constructor
  · rintro ⟨x, hx, he⟩
    rw [Option.map_eq_some_iff] at he
    obtain ⟨p, hp, rfl⟩ := he
    exact ⟨(mem_named.1 hx).1, (mem_named.1 hx).2, hp⟩
  · rintro ⟨h1, h2, h3⟩
    exact ⟨q.2, mem_named.2 ⟨h1, h2⟩, by rw [h3]; rfl⟩

theorem pairs_sublist (f : Mt → Option Mt) : ∀ l : List Mt, ((l.filterMap fun lang => (f lang).map fun p => (p, lang)).map Prod.snd).Sublist l := by
  intro l
  induction l with
  | nil => simp
  | cons x l ih =>
    rw [List.filterMap_cons]
    cases f x with
    | none => exact ih.cons x
    | some p => exact ih.cons₂ x

theorem reworks_congr {s s' : Ms} {Bad Bad' Changed Changed' : Mt → Prop} {f : Mt → Mt} (hb : ∀ x ∈ s.live, Bad x ↔ Bad' x)
    (hc : ∀ x ∈ s.live, Changed x ↔ Changed' x) (h : Reworks s s' Bad Changed f) : Reworks s s' Bad' Changed' f := by
  obtain ⟨h1, h2, kept, changed, h3, h4, h5, h6, h7⟩ := h
  refine ⟨h1, h2, kept, changed, h3, fun x hx => ?_, h5, fun x => ?_, h7⟩
  · rw [h4 x hx, hb x hx, hc x hx]
  · rw [h6]
    exact and_congr_right fun hx => hc x hx

/-! ## Prefixes -/

theorem isSubPrefix_key {input : Str} {a b : Mt} (h : a.key input = b.key input) : isSubPrefix a = isSubPrefix b := by
  have : a.name = b.name := congrArg MtKey.name h
  unfold isSubPrefix; rw [this]

theorem goneFold_other (input : Str) (C : Mt × Mt → List Mt) : ∀ (qs : List (Mt × Mt)) (acc : List Mt), (∀ q ∈ qs, isSubPrefix q.1 = true) →
    (qs.foldl (fun acc q => removeMatch input (acc ++ C q) q.1) acc).filter (fun m => !isSubPrefix m) =
      acc.filter (fun m => !isSubPrefix m) ++ (qs.flatMap C).filter fun m => !isSubPrefix m := by
  intro qs
  induction qs with
  | nil => intro acc _; simp
  | cons q qs ih =>
    intro acc h
    rw [List.foldl_cons, ih _ fun q' hq' => h q' (by simp [hq']),
      filter_removeMatch input _ (fun a b hab => by rw [isSubPrefix_key hab]), if_neg (by rw [h q (by simp)]; decide), List.filter_append,
      List.flatMap_cons, List.filter_append, List.append_assoc]

theorem goneFold_prefix (input : Str) (C : Mt × Mt → List Mt) : ∀ (qs : List (Mt × Mt)) (acc : List Mt), (∀ q ∈ qs, isSubPrefix q.1 = true) →
    (∀ q ∈ qs, ∀ m ∈ C q, isSubPrefix m = false) →
    (qs.foldl (fun acc q => removeMatch input (acc ++ C q) q.1) acc).filter isSubPrefix =
      removeAll input (acc.filter isSubPrefix) (qs.map Prod.fst) := by
  intro qs
  induction qs with
  | nil => intro acc _ _; rfl
  | cons q qs ih =>
    intro acc h hC
    have : (C q).filter isSubPrefix = [] := by
      rw [List.filter_eq_nil_iff]
      intro m hm
      rw [hC q (by simp) m hm]; decide
    rw [List.foldl_cons, ih _ (fun q' hq' => h q' (by simp [hq'])) (fun q' hq' => hC q' (by simp [hq'])),
      filter_removeMatch input _ (fun a b hab => isSubPrefix_key hab), if_pos (h q (by simp)), List.filter_append, this, List.append_nil]
    rfl

theorem mem_prefixPairs {s : Ms} (h : Sound s) {q : Mt × Mt} : q ∈ prefixPairs s ↔ q.2 ∈ s.live ∧ Announced s q.2 q.1 := by
  unfold prefixPairs Announced
  rw [mem_pairs, subtitlePrefix_iff h]

/-- What is removed, apart from prefixes. -/
theorem gone_other {s : Ms} (h : Sound s) {x : Mt} (hx : x ∈ s.live) (hn : ¬ IsPrefix x) :
    (∃ m ∈ prefixRemoved s, m.key s.input = x.key s.input) ↔ ∃ y ∈ s.live, (∃ p, Announced s y p) ∧ x ≠ y ∧ Overlaps y x := by
  have hp : ∀ q ∈ prefixPairs s, isSubPrefix q.1 = true := fun q hq =>
    (isSubPrefix_iff _).2 (announces_prefix ((mem_prefixPairs h).1 hq).2.2).2
  have hf := goneFold_other s.input (fun q => conflicting s.input s.live q.2) (prefixPairs s) (named s.live c!"subtitle_language.prefix") hp
  have h0 : (named s.live c!"subtitle_language.prefix").filter (fun m => !isSubPrefix m) = [] := by
    rw [List.filter_eq_nil_iff]
    intro m hm
    rw [(isSubPrefix_iff m).2 (mem_named.1 hm).2]; decide
  rw [h0, List.nil_append] at hf
  have hnx : isSubPrefix x = false := by rw [← Bool.not_eq_true, isSubPrefix_iff]; exact hn
  have hmem : ∀ m, m.key s.input = x.key s.input → (m ∈ prefixRemoved s ↔ ∃ q ∈ prefixPairs s, m ∈ conflicting s.input s.live q.2) := by
    intro m hk
    have hnm : (!isSubPrefix m) = true := by rw [isSubPrefix_key hk, hnx]; rfl
    have := congrArg (fun l => m ∈ l) hf
    rw [eq_iff_iff, List.mem_filter, List.mem_filter, List.mem_flatMap] at this
    unfold prefixRemoved
    constructor
    · intro hm; exact (this.1 ⟨hm, hnm⟩).1
    · intro hm; exact (this.2 ⟨hm, hnm⟩).1
  constructor
  · rintro ⟨m, hm, hk⟩
    obtain ⟨q, hq, hm⟩ := (hmem m hk).1 hm
    have hq' := (mem_prefixPairs h).1 hq
    rw [mem_conflicting h hq'.1] at hm
    have : m = x := key_inj h hx hm.1 hk
    subst this
    exact ⟨q.2, hq'.1, ⟨q.1, hq'.2⟩, hm.2⟩
  · rintro ⟨y, hy, ⟨p, hp'⟩, hne, ho⟩
    exact ⟨x, (hmem x rfl).2 ⟨(p, y), (mem_prefixPairs h).2 ⟨hy, hp'⟩, (mem_conflicting h hy).2 ⟨hx, hne, ho⟩⟩, rfl⟩

/-- Which prefixes are removed, when none overlaps a language it announces. -/
theorem gone_prefix {s : Ms} (h : Sound s) (ha : ∀ y ∈ s.live, (∃ p, Announced s y p) → ∀ x ∈ s.live, IsPrefix x → ¬ Overlaps y x)
    {x : Mt} (hx : x ∈ s.live) (hn : IsPrefix x) :
    (∃ m ∈ prefixRemoved s, m.key s.input = x.key s.input) ↔ ¬ ∃ y ∈ s.live, Announced s y x := by
  have hp : ∀ q ∈ prefixPairs s, isSubPrefix q.1 = true := fun q hq =>
    (isSubPrefix_iff _).2 (announces_prefix ((mem_prefixPairs h).1 hq).2.2).2
  have hC : ∀ q ∈ prefixPairs s, ∀ m ∈ conflicting s.input s.live q.2, isSubPrefix m = false := by
    intro q hq m hm
    have hq' := (mem_prefixPairs h).1 hq
    rw [mem_conflicting h hq'.1] at hm
    rw [← Bool.not_eq_true, isSubPrefix_iff]
    exact fun hc => ha q.2 hq'.1 ⟨q.1, hq'.2⟩ m hm.1 hc hm.2.2
  have hf := goneFold_prefix s.input (fun q => conflicting s.input s.live q.2) (prefixPairs s) (named s.live c!"subtitle_language.prefix") hp hC
  have h0 : (named s.live c!"subtitle_language.prefix").filter isSubPrefix = named s.live c!"subtitle_language.prefix" := by
    rw [List.filter_eq_self]
    intro m hm
    exact (isSubPrefix_iff m).2 (mem_named.1 hm).2
  rw [h0] at hf
  have hnd : ((named s.live c!"subtitle_language.prefix").map (Mt.key s.input)).Nodup := (List.filter_sublist.map _).nodup h.distinct
  have hmem : ∀ m, m.key s.input = x.key s.input → (m ∈ prefixRemoved s ↔
      m ∈ removeAll s.input (named s.live c!"subtitle_language.prefix") ((prefixPairs s).map Prod.fst)) := by
    intro m hk
    have hnm : isSubPrefix m = true := by rw [isSubPrefix_key hk, isSubPrefix_iff]; exact hn
    rw [← hf, List.mem_filter]
    exact ⟨fun hm => ⟨hm, hnm⟩, fun hm => hm.1⟩
  constructor
  · rintro ⟨m, hm, hk⟩ ⟨y, hy, hc⟩
    have := (hmem m hk).1 hm
    rw [mem_removeAll_nodup hnd] at this
    exact this.2 x (List.mem_map.2 ⟨(x, y), (mem_prefixPairs h).2 ⟨hy, hc⟩, rfl⟩) hk.symm
  · intro hc
    refine ⟨x, (hmem x rfl).2 ?_, rfl⟩
    rw [mem_removeAll_nodup hnd]
    refine ⟨mem_named.2 ⟨hx, hn⟩, fun m hm hk => ?_⟩
    obtain ⟨q, hq, rfl⟩ := List.mem_map.1 hm
    have hq' := (mem_prefixPairs h).1 hq
    have := key_inj h hx (announces_prefix hq'.2.2).1 hk
    exact hc ⟨q.2, hq'.1, this ▸ hq'.2⟩

theorem prefixRule_fold (s : Ms) : subtitlePrefixRule s =
    ((prefixPairs s).foldl (moveStep (fun q => [twin q.1]) Prod.snd s.input) (some (removeAll s.input s.live (prefixRemoved s)))).map
      fun l => { s with live := l } := by
  have : prefixStep s.input = moveStep (fun q => [twin q.1]) Prod.snd s.input := by
    funext acc q
    cases acc with
    | none => rfl
    | some l => rfl
  unfold subtitlePrefixRule
  rw [this]

theorem announced_not_prefix {s : Ms} {x p : Mt} (h : Announced s x p) : ¬ IsPrefix x := by
  unfold IsPrefix
  rw [h.1]; decide

/-- C96: the rule on prefixes raises just when two languages of subtitles overlap. -/
theorem C96_prefix_raises (s : Ms) (h : Sound s) : subtitlePrefixRule s = none ↔
    ∃ x ∈ s.live, ∃ y ∈ s.live, (∃ p, Announced s x p) ∧ (∃ p, Announced s y p) ∧ x ≠ y ∧ Overlaps y x := by
  rw [prefixRule_fold, Option.map_eq_none_iff, (moved_of h (fun q => [twin q.1]) Prod.snd (fun q m hm => by
    rw [List.mem_singleton.1 hm]; rfl) (prefixPairs s) (pairs_sublist _ _) (prefixRemoved s)).1]
  constructor
  · rintro ⟨q, hq, hm⟩
    have hq' := (mem_prefixPairs h).1 hq
    rw [gone_other h hq'.1 (announced_not_prefix hq'.2)] at hm
    obtain ⟨y, hy, h1, h2⟩ := hm
    exact ⟨q.2, hq'.1, y, hy, ⟨q.1, hq'.2⟩, h1, h2⟩
  · rintro ⟨x, hx, y, hy, ⟨p, hp⟩, h1, h2⟩
    exact ⟨(p, x), (mem_prefixPairs h).2 ⟨hx, hp⟩, (gone_other h hx (announced_not_prefix hp)).2 ⟨y, hy, h1, h2⟩⟩

/-- C96: the languages announced by a prefix become languages of subtitles; dropped are the prefixes that announce nothing, what overlaps a
language of subtitles, and the twins of prefixes in use that were also taken for suffixes. -/
theorem C96_prefix (s s' : Ms) (h : Sound s) (ha : ∀ y ∈ s.live, (∃ p, Announced s y p) → ∀ x ∈ s.live, IsPrefix x → ¬ Overlaps y x)
    (hs : subtitlePrefixRule s = some s') :
    Reworks s s' (fun x => (IsPrefix x ∧ ¬ ∃ y ∈ s.live, Announced s y x) ∨
        (∃ y ∈ s.live, (∃ p, Announced s y p) ∧ x ≠ y ∧ Overlaps y x) ∨
        (IsSuffix x ∧ ∃ y ∈ s.live, ∃ p, Announced s y p ∧ Twin s.input x p))
      (fun x => ∃ p, Announced s x p) (called c!"subtitle_language") := by
  rw [prefixRule_fold, Option.map_eq_some_iff] at hs
  obtain ⟨l, hl, rfl⟩ := hs
  have hm := (moved_of h (fun q => [twin q.1]) Prod.snd (fun q m hm => by
    rw [List.mem_singleton.1 hm]; rfl) (prefixPairs s) (pairs_sublist _ _) (prefixRemoved s)).2 l hl
  refine reworks_congr (fun x hx => ?_) (fun x hx => ?_) hm
  · rw [← or_assoc]
    refine or_congr ?_ ?_
    · by_cases hp : IsPrefix x
      · rw [gone_prefix h ha hx hp]
        constructor
        · intro hc; exact Or.inl ⟨hp, hc⟩
        · rintro (hc | ⟨y, hy, hy', _, ho⟩)
          · exact hc.2
          · exact absurd ho (ha y hy hy' x hx hp)
      · rw [gone_other h hx hp]
        exact ⟨Or.inr, fun hh => hh.elim (fun hc => absurd hc.1 hp) id⟩
    · have ht : ∀ p : Mt, (twin p).key s.input = x.key s.input ↔ IsSuffix x ∧ Twin s.input x p := by
        intro p
        have hv : (twin p).value s.input = p.value s.input := rfl
        unfold Mt.key IsSuffix Twin
        rw [hv, MtKey.mk.injEq]
        simp only [twin]
        constructor
        · rintro ⟨a, b, c, d, e⟩; exact ⟨d.symm, a.symm, b.symm, c.symm, e.symm⟩
        · rintro ⟨d, a, b, c, e⟩; exact ⟨a.symm, b.symm, c.symm, d.symm, e.symm⟩
      constructor
      · rintro ⟨q, hq, m, hm, hk⟩
        rw [List.mem_singleton.1 hm, ht] at hk
        have hq' := (mem_prefixPairs h).1 hq
        exact ⟨hk.1, q.2, hq'.1, q.1, hq'.2, hk.2⟩
      · rintro ⟨h1, y, hy, p, hp, h2⟩
        exact ⟨(p, y), (mem_prefixPairs h).2 ⟨hy, hp⟩, twin p, List.mem_singleton.2 rfl, (ht p).2 ⟨h1, h2⟩⟩
  · constructor
    · rintro ⟨q, hq, rfl⟩
      exact ⟨q.1, ((mem_prefixPairs h).1 hq).2⟩
    · rintro ⟨p, hp⟩
      exact ⟨(p, x), (mem_prefixPairs h).2 ⟨hx, hp⟩, rfl⟩

/-! ## Suffixes -/

theorem mem_suffixPairs {s : Ms} (h : Sound s) {q : Mt × Mt} : q ∈ suffixPairs s ↔ q.2 ∈ s.live ∧ SuffixAfter s q.2 q.1 := by
  unfold suffixPairs SuffixAfter
  rw [mem_pairs, subtitleSuffix, nextNamed_iff h isSubSuffix_iff]

theorem suffixRule_fold (s : Ms) : subtitleSuffixRule s =
    ((suffixPairs s).foldl (moveStep (fun _ => []) Prod.snd s.input) (some (removeAll s.input s.live
      (removeAll s.input (named s.live c!"subtitle_language.suffix") ((suffixPairs s).map Prod.fst))))).map fun l => { s with live := l } := by
  have : (fun acc q => suffixStep s.input acc (Prod.snd q)) = moveStep (fun _ : Mt × Mt => []) Prod.snd s.input := by
    funext acc q
    cases acc with
    | none => rfl
    | some l => rfl
  unfold subtitleSuffixRule
  dsimp only
  rw [List.foldl_map, this]

/-- C96: the languages followed by a suffix become languages of subtitles, the suffixes that follow nothing are dropped; nothing is raised. -/
theorem C96_suffix (s : Ms) (h : Sound s) : ∃ s', subtitleSuffixRule s = some s' ∧
    Reworks s s' (fun x => IsSuffix x ∧ ¬ ∃ y ∈ s.live, SuffixAfter s y x) (fun x => ∃ n, SuffixAfter s x n) (called c!"subtitle_language") := by
  have hnd : ((named s.live c!"subtitle_language.suffix").map (Mt.key s.input)).Nodup := (List.filter_sublist.map _).nodup h.distinct
  have hgone : ∀ x ∈ s.live, (∃ m ∈ removeAll s.input (named s.live c!"subtitle_language.suffix") ((suffixPairs s).map Prod.fst),
      m.key s.input = x.key s.input) ↔ IsSuffix x ∧ ¬ ∃ y ∈ s.live, SuffixAfter s y x := by
    intro x hx
    constructor
    · rintro ⟨m, hm, hk⟩
      rw [mem_removeAll_nodup hnd] at hm
      have : m = x := key_inj h hx (mem_named.1 hm.1).1 hk
      subst this
      refine ⟨(mem_named.1 hm.1).2, ?_⟩
      rintro ⟨y, hy, hc⟩
      exact hm.2 m (List.mem_map.2 ⟨(m, y), (mem_suffixPairs h).2 ⟨hy, hc⟩, rfl⟩) rfl
    · rintro ⟨h1, h2⟩
      refine ⟨x, (mem_removeAll_nodup hnd).2 ⟨mem_named.2 ⟨hx, h1⟩, fun m hm hk => ?_⟩, rfl⟩
      obtain ⟨q, hq, rfl⟩ := List.mem_map.1 hm
      have hq' := (mem_suffixPairs h).1 hq
      obtain ⟨pre, post, e, hs, _⟩ := hq'.2.2
      have := key_inj h hx (show q.1 ∈ s.live by rw [e]; simp) hk
      exact h2 ⟨q.2, hq'.1, this ▸ hq'.2⟩
  have hm := moved_of h (fun _ => []) Prod.snd (fun q m hm => absurd hm (by simp)) (suffixPairs s) (pairs_sublist _ _)
    (removeAll s.input (named s.live c!"subtitle_language.suffix") ((suffixPairs s).map Prod.fst))
  rw [suffixRule_fold]
  cases hl : (suffixPairs s).foldl (moveStep (fun _ => []) Prod.snd s.input) (some (removeAll s.input s.live
      (removeAll s.input (named s.live c!"subtitle_language.suffix") ((suffixPairs s).map Prod.fst)))) with
  | none =>
    obtain ⟨q, hq, hc⟩ := hm.1.1 hl
    have hq' := (mem_suffixPairs h).1 hq
    rw [hgone q.2 hq'.1] at hc
    have := hc.1
    unfold IsSuffix at this
    rw [hq'.2.1] at this
    exact absurd this (by decide)
  | some l =>
    refine ⟨_, rfl, reworks_congr (fun x hx => ?_) (fun x hx => ?_) (hm.2 l hl)⟩
    · rw [hgone x hx]
      exact ⟨fun hh => hh.elim id fun ⟨q, _, m, hm, _⟩ => absurd hm (by simp), Or.inl⟩
    · constructor
      · rintro ⟨q, hq, rfl⟩
        exact ⟨q.1, ((mem_suffixPairs h).1 hq).2⟩
      · rintro ⟨p, hp⟩
        exact ⟨(p, x), (mem_suffixPairs h).2 ⟨hx, hp⟩, rfl⟩

/-! ## Extensions -/

theorem hideWeak_iff {x y : Mt} : hideWeak x = y ↔ Hides x y := by
  unfold hideWeak Hides
  split
  · rename_i hc
    exact ⟨fun e => Or.inl ⟨hc.1, hc.2, e.symm⟩, fun hh => hh.elim (fun a => a.2.2.symm) fun a => absurd hc a.1⟩
  · rename_i hc
    exact ⟨fun e => Or.inr ⟨hc, e.symm⟩, fun hh => hh.elim (fun a => absurd ⟨a.1, a.2.1⟩ hc) fun a => a.2.symm⟩

theorem hideWeak_key (input : Str) (m : Mt) : (hideWeak m).key input = m.key input := by
  unfold hideWeak; split <;> rfl

theorem removeMatch_map {input : Str} {f : Mt → Mt} (hf : ∀ m, (f m).key input = m.key input) (m : Mt) : ∀ l,
    removeMatch input (l.map f) m = (removeMatch input l m).map f := by
  intro l
  induction l with
  | nil => rfl
  | cons x l ih =>
    rw [List.map_cons]
    unfold removeMatch
    have : Mt.eqv input m (f x) = Mt.eqv input m x := by unfold Mt.eqv; rw [hf]
    rw [this]
    split
    · rfl
    · rw [List.map_cons, ih]

theorem removeAll_map {input : Str} {f : Mt → Mt} (hf : ∀ m, (f m).key input = m.key input) : ∀ (ms l : List Mt),
    removeAll input (l.map f) ms = (removeAll input l ms).map f := by
  intro ms
  induction ms with
  | nil => intro l; rfl
  | cons m ms ih =>
    intro l
    show removeAll input (removeMatch input (l.map f) m) ms = (removeAll input (removeMatch input l m) ms).map f
    rw [removeMatch_map hf, ih]

/-- The language that is renamed. -/
def extensionLanguage (s : Ms) : Option Mt :=
  match firstTrue ((named s.live c!"container").filter fun m => m.tags.contains c!"extension" && m.tags.contains c!"subtitle") with
  | none => none
  | some ext => firstTrue (previous s.live ext fun m => decide (m.name = some c!"language"))

theorem extensionLanguage_iff {s : Ms} (h : Sound s) {x : Mt} : extensionLanguage s = some x ↔ ExtensionLanguage s x := by
  have h1 : ∀ e, firstTrue ((named s.live c!"container").filter fun m => m.tags.contains c!"extension" && m.tags.contains c!"subtitle") = some e ↔
      FirstOf s.live (fun m => m.name = some c!"container" ∧ c!"extension" ∈ m.tags ∧ c!"subtitle" ∈ m.tags) e := by
    intro e
    rw [firstTrue_eq (fun m hm => h.pos m (mem_named.1 (List.mem_filter.1 hm).1).1), named, List.filter_filter, head_filter_iff]
    refine firstOf_congr (fun y _ => ?_) e
    simp only [Bool.and_eq_true, List.contains_iff_mem, decide_eq_true_eq]
    exact And.comm
  have h2 : ∀ e, firstTrue (previous s.live e fun m => decide (m.name = some c!"language")) = some x ↔
      FirstOf s.live (fun m => m.name = some c!"language" ∧ ClosestBefore s.live e m) x := fun e =>
    prevNamed_iff h (fun m => decide_eq_true_iff)
  unfold extensionLanguage ExtensionLanguage
  cases he : firstTrue ((named s.live c!"container").filter fun m => m.tags.contains c!"extension" && m.tags.contains c!"subtitle") with
  | none =>
    rw [none_of_some_iff h1] at he
    exact ⟨fun e => (by cases e), fun ⟨e, hc, _⟩ => absurd ⟨e, hc⟩ he⟩
  | some e =>
    have he' := (h1 e).1 he
    dsimp only
    rw [h2]
    constructor
    · intro hx; exact ⟨e, he', hx⟩
    · rintro ⟨e', hc, hx⟩
      rw [← h1, he] at hc
      cases hc
      exact hx

theorem extension_eq (s : Ms) : subtitleExtension s = match extensionLanguage s with
    | none => s
    | some lang => { s with live := renameAll s.input c!"subtitle_language" (removeAll s.input (s.live.map hideWeak)
        ((conflicting s.input s.live lang).filter fun m => decide (m.name = some c!"source"))) [lang] } := by
  unfold subtitleExtension extensionLanguage
  generalize firstTrue ((named s.live c!"container").filter _) = o
  cases o with
  | none => rfl
  | some ext =>
    dsimp only
    generalize firstTrue (previous s.live ext _) = o
    cases o <;> rfl

/-- C96: without a language just before the extension of a file of subtitles, nothing changes. -/
theorem C96_no_extension (s : Ms) (h : Sound s) (hn : ¬ ∃ x, ExtensionLanguage s x) : subtitleExtension s = s := by
  rw [extension_eq, (none_of_some_iff fun a => extensionLanguage_iff h).2 hn]

/-- C96: the language just before the extension of a file of subtitles becomes its language; sources that overlap it are dropped, the
languages of subtitles that were only supposed are hidden, and nothing else changes. -/
theorem C96_extension (s : Ms) (h : Sound s) (lang : Mt) (hl : ExtensionLanguage s lang) :
    (subtitleExtension s).input = s.input ∧ (subtitleExtension s).markers = s.markers ∧
    ∃ kept hidden : List Mt, kept.Sublist s.live ∧
      (∀ x ∈ s.live, x ∈ kept ↔ x ≠ lang ∧ ¬ (x.name = some c!"source" ∧ Overlaps lang x)) ∧
      List.Forall₂ Hides kept hidden ∧ (subtitleExtension s).live = hidden ++ [called c!"subtitle_language" lang] := by
  have hlang : lang ∈ s.live ∧ lang.name = some c!"language" := by
    obtain ⟨e, _, pre, post, he, hp, _⟩ := hl
    exact ⟨by rw [he]; simp, hp.1⟩
  rw [extension_eq, (extensionLanguage_iff h).2 hl]
  refine ⟨rfl, rfl, ?_⟩
  dsimp only
  rw [removeAll_map (hideWeak_key s.input)]
  generalize hsrc : ((conflicting s.input s.live lang).filter fun m => decide (m.name = some c!"source")) = src
  have hmem : ∀ x, x ∈ src ↔ x ∈ s.live ∧ x ≠ lang ∧ Overlaps lang x ∧ x.name = some c!"source" := by
    intro x
    rw [← hsrc, List.mem_filter, mem_conflicting h hlang.1, decide_eq_true_eq]
    constructor
    · rintro ⟨⟨a, b, c⟩, d⟩; exact ⟨a, b, c, d⟩
    · rintro ⟨a, b, c, d⟩; exact ⟨⟨a, b, c⟩, d⟩
  have hin : lang ∈ removeAll s.input s.live src := by
    rw [mem_removeAll_nodup h.distinct]
    refine ⟨hlang.1, fun m hm hk => ?_⟩
    have := (hmem m).1 hm
    exact this.2.1 (key_inj h hlang.1 this.1 hk)
  have hhas : hasMatch s.input ((removeAll s.input s.live src).map hideWeak) lang = true :=
    hasMatch_iff.2 ⟨hideWeak lang, List.mem_map.2 ⟨lang, hin, rfl⟩, (hideWeak_key _ _).symm⟩
  refine ⟨removeAll s.input s.live (src ++ [lang]), (removeAll s.input s.live (src ++ [lang])).map hideWeak, removeAll_sublist _ _ _, ?_, ?_, ?_⟩
  · intro x hx
    rw [mem_removeAll_nodup h.distinct]
    constructor
    · rintro ⟨_, hh⟩
      refine ⟨fun e => hh lang (by simp) (by rw [e]), fun hc => ?_⟩
      exact hh x (by
        rw [List.mem_append]
        refine Or.inl ((hmem x).2 ⟨hx, fun e => hh lang (by simp) (by rw [e]), hc.2, hc.1⟩)) rfl
    · rintro ⟨h1, h2⟩
      refine ⟨hx, fun m hm hk => ?_⟩
      rcases List.mem_append.1 hm with hm | hm
      · have hm := (hmem m).1 hm
        have : m = x := key_inj h hx hm.1 hk
        subst this
        exact h2 ⟨hm.2.2.2, hm.2.2.1⟩
      · rw [List.mem_singleton] at hm
        subst hm
        exact h1 (key_inj h hlang.1 hx hk.symm)
  · rw [List.forall₂_map_right_iff, List.forall₂_same]
    intro m _
    exact hideWeak_iff.1 rfl
  · have e : removeMatch s.input ((removeAll s.input s.live src).map hideWeak) lang = (removeAll s.input s.live (src ++ [lang])).map hideWeak := by
      rw [removeMatch_map (hideWeak_key s.input)]
      congr 1
      unfold removeAll
      rw [List.foldl_append]
      rfl
    unfold renameAll
    have er : removedBy s.input ((removeAll s.input s.live src).map hideWeak) [lang] = [lang] := by
      unfold removedBy
      rw [if_pos hhas]
      rfl
    rw [er]
    show appendNamed s.input c!"subtitle_language" (removeMatch s.input ((removeAll s.input s.live src).map hideWeak) lang) [lang] = _
    rw [e]
    have hno : hasMatch s.input ((removeAll s.input s.live (src ++ [lang])).map hideWeak) lang = false := by
      rw [← Bool.not_eq_true, hasMatch_iff]
      rintro ⟨y, hy, hk⟩
      obtain ⟨z, hz, rfl⟩ := List.mem_map.1 hy
      rw [mem_removeAll_nodup h.distinct] at hz
      rw [hideWeak_key] at hk
      exact hz.2 lang (by simp) hk
    simp only [appendNamed, List.foldl_cons, List.foldl_nil, hno]
    rfl

end Guessit
