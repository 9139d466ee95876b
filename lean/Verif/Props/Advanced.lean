import Verif.Spec.Advanced
import Verif.Props.Output

/-! # C112: the `advanced` option -/

namespace Guessit
open Spec

/-- The two layouts of a description. -/
theorem advanced_eq (d : Detailed) : d.advanced = .dict (if d.raw = [] then
      [(.str c!"value", d.value), (.str c!"start", .int d.start), (.str c!"end", .int d.stop)]
    else [(.str c!"value", d.value), (.str c!"raw", .str d.raw), (.str c!"start", .int d.start), (.str c!"end", .int d.stop)]) := by
  unfold Detailed.advanced
  cases d.raw <;> rfl

theorem keys3 (v s e : PyVal) : (List.map Prod.fst [(Key.str c!"value", v), (.str c!"start", s), (.str c!"end", e)]).Nodup :=
  (by decide : [Key.str c!"value", .str c!"start", .str c!"end"].Nodup)

theorem keys4 (v r s e : PyVal) :
    (List.map Prod.fst [(Key.str c!"value", v), (.str c!"raw", r), (.str c!"start", s), (.str c!"end", e)]).Nodup :=
  (by decide : [Key.str c!"value", .str c!"raw", .str c!"start", .str c!"end"].Nodup)

/-- C112: what is reported for a match describes it. -/
theorem C112_describes (d : Detailed) : Describes d.advanced d := by
  rw [advanced_eq]
  split
  · rename_i hr
    refine ⟨_, rfl, keys3 _ _ _, rfl, rfl, rfl, ?_, ?_⟩
    · rw [if_pos hr]; rfl
    · simp
  · rename_i hr
    refine ⟨_, rfl, keys4 _ _ _ _, rfl, rfl, rfl, ?_, ?_⟩
    · rw [if_neg hr]; rfl
    · simp

theorem plain_advanced {d : Detailed} (h : Real d.value) : Plain d.advanced := by
  rw [advanced_eq]
  refine ⟨?_, nofun⟩
  split
  · exact ⟨keys3 _ _ _, h, trivial, trivial, trivial⟩
  · exact ⟨keys4 _ _ _ _, h, trivial, trivial, trivial, trivial⟩

theorem pyEq_nat {a b : Nat} : pyEq (.int a) (.int b) = true ↔ a = b := by
  simp [pyEq, PyVal.num?]
  omega

theorem pyEq_text {a b : Str} : pyEq (.str a) (.str b) = true ↔ a = b := by simp [pyEq]

/-- C112: two descriptions are equal exactly when nothing tells the matches apart. -/
theorem C112_equal (a b : Detailed) : pyEq a.advanced b.advanced = true ↔ Alike a b := by
  rw [advanced_eq, advanced_eq, pyEq_dict]
  unfold Alike
  by_cases ha : a.raw = [] <;> by_cases hb : b.raw = []
  · rw [if_pos ha, if_pos hb]
    constructor
    · rintro ⟨_, h⟩
      obtain ⟨w1, e1, h1⟩ := h (.str c!"value", a.value) (by simp)
      obtain ⟨w2, e2, h2⟩ := h (.str c!"start", .int a.start) (by simp)
      obtain ⟨w3, e3, h3⟩ := h (.str c!"end", .int a.stop) (by simp)
      cases e1; cases e2; cases e3
      exact ⟨pyEq_nat.1 h2, pyEq_nat.1 h3, by rw [ha, hb], h1⟩
    · rintro ⟨h1, h2, h3, h4⟩
      refine ⟨rfl, ?_⟩
      intro e he
      simp only [List.mem_cons, List.not_mem_nil, or_false] at he
      rcases he with rfl | rfl | rfl
      · exact ⟨_, rfl, h4⟩
      · exact ⟨_, rfl, pyEq_nat.2 h1⟩
      · exact ⟨_, rfl, pyEq_nat.2 h2⟩
  · rw [if_pos ha, if_neg hb]
    exact ⟨fun h => absurd h.1 (by simp), fun h => absurd (h.2.2.1.symm.trans ha) hb⟩
  · rw [if_neg ha, if_pos hb]
    exact ⟨fun h => absurd h.1 (by simp), fun h => absurd (h.2.2.1.trans hb) ha⟩
  · rw [if_neg ha, if_neg hb]
    constructor
    · rintro ⟨_, h⟩
      obtain ⟨w1, e1, h1⟩ := h (.str c!"value", a.value) (by simp)
      obtain ⟨w2, e2, h2⟩ := h (.str c!"start", .int a.start) (by simp)
      obtain ⟨w3, e3, h3⟩ := h (.str c!"end", .int a.stop) (by simp)
      obtain ⟨w4, e4, h4⟩ := h (.str c!"raw", .str a.raw) (by simp)
      cases e1; cases e2; cases e3; cases e4
      exact ⟨pyEq_nat.1 h2, pyEq_nat.1 h3, pyEq_text.1 h4, h1⟩
    · rintro ⟨h1, h2, h3, h4⟩
      refine ⟨rfl, ?_⟩
      intro e he
      simp only [List.mem_cons, List.not_mem_nil, or_false] at he
      rcases he with rfl | rfl | rfl | rfl
      · exact ⟨_, rfl, h4⟩
      · exact ⟨_, rfl, pyEq_text.2 h3⟩
      · exact ⟨_, rfl, pyEq_nat.2 h1⟩
      · exact ⟨_, rfl, pyEq_nat.2 h2⟩

/-! ### Sorting the detailed matches -/

/-- Insertion by position. -/
def insertDetailed (m : Detailed) : List Detailed → List Detailed
  | [] => [m]
  | x :: xs => if m.start < x.start ∨ (m.start = x.start ∧ m.stop < x.stop) then m :: x :: xs else x :: insertDetailed m xs

/-- The matches in order of position. -/
def sortDetailed (ms : List Detailed) : List Detailed := ms.foldl (fun acc m => insertDetailed m acc) []

theorem insertDetailed_map {f : Detailed → OutMatch} (hf : ∀ m, (f m).start = m.start ∧ (f m).stop = m.stop) (m : Detailed) :
    ∀ l, (insertDetailed m l).map f = insertBySpan (f m) (l.map f)
  | [] => rfl
  | x :: xs => by
    simp only [insertDetailed, insertBySpan, List.map_cons, (hf m).1, (hf m).2, (hf x).1, (hf x).2]
    split
    · rfl
    · rw [List.map_cons, insertDetailed_map hf m xs]

theorem sortDetailed_map {f : Detailed → OutMatch} (hf : ∀ m, (f m).start = m.start ∧ (f m).stop = m.stop) (ms : List Detailed) :
    sortBySpan (ms.map f) = (sortDetailed ms).map f := by
  unfold sortBySpan sortDetailed
  have gen : ∀ acc : List Detailed, (ms.map f).foldl (fun acc m => insertBySpan m acc) (acc.map f) =
      (ms.foldl (fun acc m => insertDetailed m acc) acc).map f := by
    induction ms with
    | nil => intro acc; rfl
    | cons m ms ih =>
      intro acc
      rw [List.map_cons, List.foldl_cons, List.foldl_cons, ← insertDetailed_map hf, ih]
  exact gen []

theorem plain_span (m : Detailed) : m.plain.start = m.start ∧ m.plain.stop = m.stop := ⟨rfl, rfl⟩

theorem out_span (details : Bool) (m : Detailed) : (m.out details).start = m.start ∧ (m.out details).stop = m.stop := by
  cases details <;> exact ⟨rfl, rfl⟩

theorem insertDetailed_perm (m : Detailed) : ∀ l, (insertDetailed m l).Perm (m :: l)
  | [] => .refl _
  | x :: xs => by
    unfold insertDetailed
    split
    · exact .refl _
    · exact ((insertDetailed_perm m xs).cons x).trans (.swap m x xs)

theorem sortDetailed_perm (ms : List Detailed) : (sortDetailed ms).Perm ms := by
  unfold sortDetailed
  have gen : ∀ acc : List Detailed, (ms.foldl (fun acc m => insertDetailed m acc) acc).Perm (acc ++ ms) := by
    induction ms with
    | nil => intro acc; simp
    | cons m ms ih =>
      intro acc
      rw [List.foldl_cons]
      refine (ih _).trans ?_
      refine ((insertDetailed_perm m acc).append_right ms).trans ?_
      simp only [List.cons_append]
      exact List.perm_middle.symm
  exact gen []

theorem sortDetailed_inOrder (ms : List Detailed) : InOrder ms (sortDetailed ms) := by
  refine ⟨sortDetailed_perm ms, ?_⟩
  have h := (sortBySpan_stable (ms.map Detailed.plain)).ordered
  rw [sortDetailed_map plain_span, List.pairwise_map] at h
  exact h

theorem valuesOf_out (details : Bool) (p : Str) (sorted : List Detailed) : valuesOf p (sorted.map (Detailed.out details)) =
    (Spec.of p sorted).map fun d => if details then d.advanced else d.value := by
  unfold valuesOf Spec.of
  rw [List.filter_map, List.map_map]
  have e : ((fun m : OutMatch => decide (m.name = p)) ∘ Detailed.out details) = fun d => decide (d.name = p) := by
    funext d; cases details <;> rfl
  rw [e]
  apply List.map_congr_left
  intro d _
  cases details <;> rfl

theorem toDictFull_shape (details single enforce : Bool) (ms : List Detailed) (h : ∀ m ∈ ms, Plain m.value) (p : Str) :
    (toDictFull details single enforce ms).get? (.str p) =
      shape single enforce ((Spec.of p (sortDetailed ms)).map fun d => if details then d.advanced else d.value) := by
  have hpl : ∀ m ∈ ms.map (Detailed.out details), Plain m.value := by
    intro m hm
    obtain ⟨d, hd, rfl⟩ := List.mem_map.1 hm
    cases details
    · exact h d hd
    · exact plain_advanced (h d hd).1
  unfold toDictFull toDict
  have := foldl_addValue single enforce (sortBySpan (ms.map (Detailed.out details)))
    (fun m hm => hpl m ((sortBySpan_stable _).perm.mem_iff.1 hm)) p [] [] (by simp) rfl
  rw [this, List.nil_append, ← valuesOf_out, ← sortDetailed_map (out_span details), shape_eq]
  rfl

/-- C112 (shape): with `advanced`, each property has the documented shape, of the descriptions of its matches in order of
position. -/
theorem C112_shape (single enforce : Bool) (ms : List Detailed) (h : ∀ m ∈ ms, Plain m.value) :
    ∃ sorted, InOrder ms sorted ∧
      ∀ p, (toDictFull true single enforce ms).get? (.str p) = shape single enforce ((Spec.of p sorted).map Detailed.advanced) :=
  ⟨sortDetailed ms, sortDetailed_inOrder ms, fun p => by rw [toDictFull_shape true single enforce ms h p]; rfl⟩

theorem distinct_all {vs : List PyVal} (h : vs.Pairwise fun a b => pyEq a b = false) : distinct vs = vs := by
  induction vs with
  | nil => rfl
  | cons v vs ih =>
    rw [List.pairwise_cons] at h
    rw [distinct, ih h.2, List.filter_eq_self.2]
    intro w hw
    rw [h.1 w hw]; rfl

/-- C112 (everything is reported): with `advanced` and lists enforced, every match of a property is described, in order of
position, even if its value was found elsewhere too, unless two matches cannot be told apart at all. -/
theorem C112_all (ms : List Detailed) (h : ∀ m ∈ ms, Plain m.value) (hd : ms.Pairwise fun a b => ¬ Alike a b ∧ ¬ Alike b a) :
    ∃ sorted, InOrder ms sorted ∧ ∀ p, Spec.of p sorted ≠ [] →
      (toDictFull true false true ms).get? (.str p) = some (.list ((Spec.of p sorted).map Detailed.advanced)) := by
  refine ⟨sortDetailed ms, sortDetailed_inOrder ms, fun p hp => ?_⟩
  rw [toDictFull_shape true false true ms h p]
  have hpw : (sortDetailed ms).Pairwise fun a b => ¬ Alike a b ∧ ¬ Alike b a :=
    (sortDetailed_perm ms).symm.pairwise hd (fun ⟨h1, h2⟩ => ⟨h2, h1⟩)
  have hdist : distinct ((Spec.of p (sortDetailed ms)).map Detailed.advanced) = (Spec.of p (sortDetailed ms)).map Detailed.advanced := by
    apply distinct_all
    rw [List.pairwise_map]
    refine (hpw.filter _).imp ?_
    intro a b hab
    rw [Bool.eq_false_iff]
    exact fun hc => hab.1 ((C112_equal a b).1 hc)
  simp only [if_true]
  unfold shape
  rw [show (fun d : Detailed => d.advanced) = Detailed.advanced from rfl, hdist]
  cases hs : Spec.of p (sortDetailed ms) with
  | nil => exact absurd hs hp
  | cons d ds => rfl

/-- Dropping repeated descriptions first does not change the distinct values. -/
theorem distinct_values : ∀ (ds : List Detailed), (∀ d ∈ ds, Real d.value) →
    ∃ ks : List Detailed, ks.Sublist ds ∧ distinct (ds.map Detailed.advanced) = ks.map Detailed.advanced ∧
      distinct (ks.map Detailed.value) = distinct (ds.map Detailed.value)
  | [], _ => ⟨[], List.Sublist.refl _, rfl, rfl⟩
  | d :: ds, h => by
    obtain ⟨ks, k1, k2, k3⟩ := distinct_values ds fun x hx => h x (List.mem_cons_of_mem _ hx)
    refine ⟨d :: ks.filter (fun x => !pyEq d.advanced x.advanced), (List.filter_sublist.trans k1).cons_cons d, ?_, ?_⟩
    · rw [List.map_cons, distinct, k2, List.filter_map, List.map_cons]; rfl
    · rw [List.map_cons, List.map_cons, distinct, distinct, ← k3]
      congr 1
      -- what the filter drops has a value equal to that of `d`
      have hreal : ∀ x ∈ ks, Real x.value := fun x hx => h x (List.mem_cons_of_mem _ (k1.subset hx))
      have hd := h d (by simp)
      clear k1 k2 k3
      induction ks with
      | nil => rfl
      | cons k ks ih =>
        have ih := ih fun x hx => hreal x (List.mem_cons_of_mem _ hx)
        have hk := hreal k (by simp)
        cases hp : pyEq d.advanced k.advanced with
        | true =>
          have hv : pyEq d.value k.value = true := ((C112_equal d k).1 hp).2.2.2
          rw [List.filter_cons_of_neg (by simp [hp]), ih, List.map_cons, distinct, List.filter_cons_of_neg (by simp [hv]), List.filter_filter]
          apply List.filter_congr
          intro w hw
          cases hdw : pyEq d.value w with
          | true => rfl
          | false =>
            cases hkw : pyEq k.value w with
            | false => rfl
            | true => rw [pyEq_trans _ _ _ hv hkw] at hdw; cases hdw
        | false =>
          rw [List.filter_cons_of_pos (by simp [hp]), List.map_cons, List.map_cons, distinct, distinct]
          cases hv : pyEq d.value k.value with
          | true =>
            rw [List.filter_cons_of_neg (by simp [hv]), List.filter_cons_of_neg (by simp [hv]), List.filter_filter, List.filter_filter]
            have key : ∀ l : List PyVal, l.filter (fun w => !pyEq d.value w && !pyEq k.value w) = l.filter fun w => !pyEq d.value w := by
              intro l
              apply List.filter_congr
              intro w _
              cases hdw : pyEq d.value w with
              | true => rfl
              | false =>
                cases hkw : pyEq k.value w with
                | false => rfl
                | true => rw [pyEq_trans _ _ _ hv hkw] at hdw; cases hdw
            rw [key, key, ih]
          | false =>
            rw [List.filter_cons_of_pos (by simp [hv]), List.filter_cons_of_pos (by simp [hv]), List.filter_filter, List.filter_filter]
            congr 1
            have key : ∀ l : List PyVal, l.filter (fun w => !pyEq d.value w && !pyEq k.value w) =
                (l.filter fun w => !pyEq d.value w).filter fun w => !pyEq k.value w := by
              intro l
              rw [List.filter_filter]
              apply List.filter_congr
              intro w _
              exact Bool.and_comm _ _
            rw [key, key, ih]

/-- C112 (no information is lost): the plain output can be computed from the advanced one: each property has the shape of the
values of the descriptions in the advanced output (here with lists enforced). -/
theorem C112_plain_from_advanced (single enforce : Bool) (ms : List Detailed) (h : ∀ m ∈ ms, Plain m.value) (p : Str) :
    ((toDictFull false single enforce ms).get? (.str p) = none ∧ (toDictFull true false true ms).get? (.str p) = none) ∨
    ∃ ds : List Detailed, (∀ d ∈ ds, d ∈ ms ∧ d.name = p) ∧
      (toDictFull true false true ms).get? (.str p) = some (.list (ds.map Detailed.advanced)) ∧
      (toDictFull false single enforce ms).get? (.str p) = shape single enforce (ds.map Detailed.value) := by
  rw [toDictFull_shape true false true ms h p, toDictFull_shape false single enforce ms h p]
  simp only [if_true, Bool.false_eq_true, if_false]
  have hmem : ∀ d ∈ Spec.of p (sortDetailed ms), d ∈ ms ∧ d.name = p := by
    intro d hd
    unfold Spec.of at hd
    rw [List.mem_filter] at hd
    exact ⟨(sortDetailed_perm ms).mem_iff.1 hd.1, by simpa using hd.2⟩
  obtain ⟨ks, k1, k2, k3⟩ := distinct_values (Spec.of p (sortDetailed ms)) fun d hd => (h d (hmem d hd).1).1
  cases hs : Spec.of p (sortDetailed ms) with
  | nil => left; exact ⟨rfl, rfl⟩
  | cons d0 ds0 =>
    right
    refine ⟨ks, fun d hd => hmem d (k1.subset hd), ?_, ?_⟩
    · unfold shape
      rw [← hs, show (fun d : Detailed => d.advanced) = Detailed.advanced from rfl, k2]
      cases hk : ks with
      | nil =>
        rw [hs, hk] at k2
        simp [distinct] at k2
      | cons k ks => rfl
    · rw [shape_eq, shape_eq, ← hs, show (fun d : Detailed => d.value) = Detailed.value from rfl, k3]

/-! ### At the level of the call -/

theorem encodeDetailed_plain : ∀ ms : List Detailed,
    (encodeDetailed ms).map (List.map Detailed.plain) = encodeMatches (ms.map Detailed.plain)
  | [] => rfl
  | ⟨st, sp, n, v, r⟩ :: ms => by
    unfold encodeDetailed
    rw [List.map_cons, encodeMatches, ← encodeDetailed_plain ms]
    cases v with
    | str t => simp only [Detailed.plain]; cases asciiEncode t <;> cases encodeDetailed ms <;> rfl
    | _ => cases encodeDetailed ms <;> rfl

/-- C112 (off): without `advanced` the call is the one of C14 and C15. -/
theorem C112_off {R : Type} (S : Sys R) (r : R) (find : Str → Dict → Except PyErr (List Detailed))
    (hS : ∀ t o, S.rules r t o = (find t o).map (List.map Detailed.plain)) (config options : Dict) (name : NameArg)
    (hadv : ∀ opts, mergeOptions [.dict config, .dict options] = .ok opts → truthy (opts.getD (.str c!"advanced")) = false) :
    guessDetailed find config options name = guessWith S r config options name := by
  unfold guessDetailed guessWith
  cases hm : mergeOptions [.dict config, .dict options] with
  | error e => rfl
  | ok opts =>
    simp only
    cases name.text with
    | error e => rfl
    | ok text =>
      simp only
      rw [hS, hadv opts hm]
      cases find text opts with
      | error e => rfl
      | ok ms =>
        simp only [Except.map]
        cases hb : name.isBytes with
        | false => rfl
        | true =>
          simp only [if_true]
          rw [← encodeDetailed_plain]
          cases encodeDetailed ms <;> rfl

/-- A matcher that finds the same title twice and a year, separators stripped from the second title. -/
def titledTwice (_ : Str) (_ : Dict) : Except PyErr (List Detailed) := .ok [
  { start := 0, stop := 3, name := c!"title", value := .str c!"Foo", raw := c!"Foo" },
  { start := 4, stop := 8, name := c!"year", value := .int 1999, raw := c!"1999" },
  { start := 8, stop := 12, name := c!"title", value := .str c!"Foo", raw := c!"Foo" }]

/-- A bytes name guessed with `advanced`: the values are bytes, the raw texts are not. -/
theorem C14_counterexample_advanced : ∃ d e, guessDetailed titledTwice [] [(.str c!"advanced", .bool true)] (.bytes [70, 111, 111]) = .ok d ∧
    d.get? (.str c!"year") = some (.dict e) ∧ Dict.get? e (.str c!"raw") = some (.str c!"1999") ∧
    ∃ t u, d.get? (.str c!"title") = some (.list [.dict t, .dict u]) ∧ Dict.get? t (.str c!"value") = some (.bytes [70, 111, 111]) ∧
      Dict.get? t (.str c!"raw") = some (.str c!"Foo") :=
  ⟨_, _, rfl, rfl, rfl, _, _, rfl, rfl, rfl⟩

/-- Without `advanced` the title is reported once, with it twice. -/
example : ∃ d, guessDetailed titledTwice [] [] (.str c!"Foo-1999 Foo") = .ok d ∧ d.get? (.str c!"title") = some (.str c!"Foo") := ⟨_, rfl, rfl⟩

example : ∃ ms, titledTwice [] [] = .ok ms ∧ (∀ m ∈ ms, Plain m.value) ∧ ms.Pairwise fun a b => ¬ Alike a b ∧ ¬ Alike b a := by
  refine ⟨_, rfl, ?_, ?_⟩
  · intro m hm
    simp only [List.mem_cons, List.not_mem_nil, or_false] at hm
    rcases hm with rfl | rfl | rfl <;> exact ⟨trivial, nofun⟩
  · unfold Alike; simp

end Guessit
