import Verif.Model.Finders
import Verif.Spec.Finders
import Verif.Proofs.Text

/-! # C42, C55: expected titles and groups -/

namespace Guessit
open Spec

theorem sepsToSpaces_eq (s : Str) : sepsToSpaces s = s.map (fun c => if c ∈ seps then ' ' else c) := by
  unfold sepsToSpaces
  have gen : ∀ (cs : Str) (f : Char → Char), cs.foldl (fun acc c => replaceChar c ' ' acc) (s.map f) =
      s.map (fun x => if f x ∈ cs then ' ' else f x) := by
    intro cs
    induction cs with
    | nil => intro f; simp
    | cons c cs ih =>
      intro f
      rw [List.foldl_cons, replaceChar, List.map_map, ih]
      apply List.map_congr_left
      intro x _
      simp only [Function.comp, List.mem_cons]
      by_cases h : f x = c
      · simp [h]
      · simp [h]
  simpa using gen seps id

theorem sepsToSpaces_length (s : Str) : (sepsToSpaces s).length = s.length := by rw [sepsToSpaces_eq]; simp

theorem sepsToSpaces_idem (s : Str) : sepsToSpaces (sepsToSpaces s) = sepsToSpaces s := by
  simp only [sepsToSpaces_eq, List.map_map]
  apply List.map_congr_left
  intro c _
  simp only [Function.comp]
  by_cases h : c ∈ seps <;> simp [h]

theorem findSubFrom_some {s sub : Str} : ∀ {f i j}, findSubFrom s sub f i = some j →
    i ≤ j ∧ sub.isPrefixOf (s.drop j) = true ∧ ∀ k, i ≤ k → k < j → sub.isPrefixOf (s.drop k) = false := by
  intro f
  induction f with
  | zero => intro i j h; simp [findSubFrom] at h
  | succ f ih =>
    intro i j h
    simp only [findSubFrom] at h
    by_cases hp : sub.isPrefixOf (s.drop i) = true
    · rw [if_pos hp] at h; cases h
      exact ⟨Nat.le_refl _, hp, fun k h1 h2 => absurd h1 (by omega)⟩
    · rw [if_neg hp] at h
      obtain ⟨h1, h2, h3⟩ := ih h
      refine ⟨by omega, h2, ?_⟩
      intro k h4 h5
      by_cases hk : k = i
      · subst hk; exact Bool.eq_false_iff.2 hp
      · exact h3 k (by omega) h5

theorem findSubFrom_none {s sub : Str} : ∀ {f i}, findSubFrom s sub f i = none →
    ∀ k, i ≤ k → k < i + f → sub.isPrefixOf (s.drop k) = false := by
  intro f
  induction f with
  | zero => intro i _ k h1 h2; omega
  | succ f ih =>
    intro i h k h1 h2
    simp only [findSubFrom] at h
    by_cases hp : sub.isPrefixOf (s.drop i) = true
    · rw [if_pos hp] at h; cases h
    · rw [if_neg hp] at h
      by_cases hk : k = i
      · subst hk; exact Bool.eq_false_iff.2 hp
      · exact ih h k (by omega) (by omega)

theorem prefix_len {s sub : Str} {k : Nat} (hne : sub ≠ []) (h : sub.isPrefixOf (s.drop k) = true) : k + sub.length ≤ s.length := by
  have := (List.isPrefixOf_iff_prefix.1 h).length_le
  have hpos : 0 < sub.length := List.length_pos_iff.2 hne
  rw [List.length_drop] at this; omega

theorem findSubsFrom_spec {s sub : Str} (hne : sub ≠ []) : ∀ f i, s.length + 1 ≤ i + f →
    (∀ j ∈ findSubsFrom s sub f i, i ≤ j ∧ sub.isPrefixOf (s.drop j) = true) ∧
    (∀ k, i ≤ k → sub.isPrefixOf (s.drop k) = true → ∃ j ∈ findSubsFrom s sub f i, j ≤ k ∧ k < j + sub.length) ∧
    (findSubsFrom s sub f i).Pairwise (fun x y => x + sub.length ≤ y) := by
  have hpos : 0 < sub.length := List.length_pos_iff.2 hne
  intro f
  induction f with
  | zero =>
    intro i hf
    refine ⟨by simp [findSubsFrom], ?_, by simp [findSubsFrom]⟩
    intro k h1 h2
    have := prefix_len hne h2; omega
  | succ f ih =>
    intro i hf
    simp only [findSubsFrom]
    cases hfind : findSubFrom s sub (s.length + 1 - i) i with
    | none =>
      refine ⟨by simp, ?_, by simp⟩
      intro k h1 h2
      have := prefix_len hne h2
      rw [findSubFrom_none hfind k h1 (by omega)] at h2; cases h2
    | some j =>
      obtain ⟨h1, h2, h3⟩ := findSubFrom_some hfind
      obtain ⟨i1, i2, i3⟩ := ih (j + sub.length) (by omega)
      dsimp only
      refine ⟨?_, ?_, ?_⟩
      · intro x hx
        rcases List.mem_cons.1 hx with rfl | hx
        · exact ⟨h1, h2⟩
        · obtain ⟨g1, g2⟩ := i1 x hx; exact ⟨by omega, g2⟩
      · intro k hk1 hk2
        by_cases hlt : k < j
        · rw [h3 k hk1 hlt] at hk2; cases hk2
        · by_cases hin : k < j + sub.length
          · exact ⟨j, by simp, by omega, hin⟩
          · obtain ⟨x, hx, g⟩ := i2 k (by omega) hk2
            exact ⟨x, by simp [hx], g⟩
      · exact List.pairwise_cons.2 ⟨fun x hx => (i1 x hx).1, i3⟩

/-- `lower` works character by character, and leaves the space alone. -/
structure Charwise (u : Uni) (lc : Char → Char) : Prop where
  lower : ∀ s, u.lower s = s.map lc
  space : lc ' ' = ' '

theorem lower_spaces {u : Uni} {lc : Char → Char} (h : Charwise u lc) (s : Str) :
    u.lower (sepsToSpaces s) = s.map (foldChar lc) := by
  rw [h.lower, sepsToSpaces_eq, List.map_map]
  apply List.map_congr_left
  intro c _
  simp only [Function.comp, foldChar]
  by_cases hc : c ∈ seps <;> simp [hc, h.space]

theorem occurs_iff {lc : Char → Char} {input search : Str} (hne : search ≠ []) {i : Nat} :
    (search.map (foldChar lc)).isPrefixOf ((input.map (foldChar lc)).drop i) = true ↔ OccursAt lc input search i := by
  rw [List.isPrefixOf_iff_prefix]
  unfold OccursAt SameText textOf
  have hpos : 0 < search.length := List.length_pos_iff.2 hne
  have e : ((input.take (i + search.length)).drop i).map (foldChar lc) = ((input.map (foldChar lc)).drop i).take search.length := by
    rw [List.drop_take, List.map_take, List.map_drop, show i + search.length - i = search.length by omega]
  rw [e, List.prefix_iff_eq_take]
  simp only [List.length_map]
  constructor
  · intro h
    refine ⟨?_, h.symm⟩
    have := congrArg List.length h
    simp only [List.length_map, List.length_take, List.length_drop] at this
    omega
  · rintro ⟨_, h⟩; exact h.symm

/-- The result for a single plain entry. -/
theorem expected_one {u : Uni} {rx} {input search : Str} (hp : Plain search) :
    expectedFrom u rx input [search] = (findSubs u (sepsToSpaces input) (sepsToSpaces search)).map fun starts =>
      starts.map fun i => ⟨i, i + search.length, some (((sepsToSpaces input).take (i + search.length)).drop i)⟩ := by
  have hp' : c!"re:".isPrefixOf search = false := by
    rw [Bool.eq_false_iff]; intro h; exact hp (List.isPrefixOf_iff_prefix.1 h)
  simp only [expectedFrom, hp', Bool.false_eq_true, if_false, sepsToSpaces_length]
  cases findSubs u (sepsToSpaces input) (sepsToSpaces search) <;> simp

theorem findSubs_eq {u : Uni} {lc : Char → Char} (h : Charwise u lc) {input search : Str} (hne : search ≠ []) :
    findSubs u (sepsToSpaces input) (sepsToSpaces search) =
      some (findSubsFrom (input.map (foldChar lc)) (search.map (foldChar lc)) (input.length + 1) 0) := by
  rw [findSubs, lower_spaces h, lower_spaces h, if_neg (by simpa using hne)]
  simp

/-- C42: for a plain non-empty expected text the search ends; every reported span has the length of the text, lies in the
input, and holds that text up to case and separators; the value reported is the text of the input with its separators
turned into spaces; every occurrence is reported or overlaps one that starts at or before it; the spans are disjoint and
in order. -/
theorem C42_plain (u : Uni) (lc : Char → Char) (hu : Charwise u lc) (rx) (input search : Str) (hp : Plain search)
    (hne : search ≠ []) :
    ∃ found, expectedFrom u rx input [search] = some found ∧
      (∀ x ∈ found, OccursAt lc input search x.start ∧ x.stop = x.start + search.length ∧
        x.value = some ((textOf input x.start x.stop).map fun c => if c ∈ seps then ' ' else c)) ∧
      (∀ i, OccursAt lc input search i → ∃ x ∈ found, x.start ≤ i ∧ i < x.stop) ∧
      found.Pairwise (fun x y => x.stop ≤ y.start) := by
  have hne' : search.map (foldChar lc) ≠ [] := by simpa using hne
  obtain ⟨h1, h2, h3⟩ := findSubsFrom_spec (s := input.map (foldChar lc)) hne' (input.length + 1) 0 (by simp)
  refine ⟨_, by rw [expected_one hp, findSubs_eq hu hne, Option.map_some], ?_, ?_, ?_⟩
  · intro x hx
    obtain ⟨i, hi, rfl⟩ := List.mem_map.1 hx
    refine ⟨(occurs_iff hne).1 (h1 i hi).2, rfl, ?_⟩
    simp only [textOf, sepsToSpaces_eq, List.map_drop, List.map_take]
  · intro i hi
    obtain ⟨j, hj, g⟩ := h2 i (Nat.zero_le _) ((occurs_iff hne).2 hi)
    exact ⟨_, List.mem_map_of_mem hj, g.1, by simpa using g.2⟩
  · rw [List.pairwise_map]
    refine h3.imp ?_
    intro a b hab
    simpa using hab

/-- C42 (the limit): an empty expected text makes the search never end, whatever the input and the other entries. -/
theorem C42_counterexample_empty (u : Uni) (h : u.lower [] = []) (rx) (input : Str) (rest : List Str) :
    expectedFrom u rx input ([] :: rest) = none := by
  have : sepsToSpaces [] = [] := by decide
  simp [expectedFrom, findSubs, this, h]

/-- C42 (the limit): with a `lower` that lengthens a character (as Python's does for `İ`), the span is shifted. -/
theorem C42_counterexample_length_changing_lower :
    ∃ (u : Uni), ∀ rx, expectedFrom u rx c!"İ.ab" [c!"ab"] = some [⟨3, 5, some c!"b"⟩] := by
  refine ⟨⟨fun _ => none, fun _ => false, fun s => s.flatMap fun c => if c = 'İ' then ['i', Char.ofNat 0x307] else [c], id⟩, ?_⟩
  intro rx
  rw [expected_one (by unfold Plain; decide)]
  decide +kernel

/-- C55: plain entries do not influence each other: the result is the concatenation of what each entry gives on the
original input, in the order of the list. -/
theorem C55_plain_entries_independent (u : Uni) (lc : Char → Char) (hu : Charwise u lc) (rx) (input : Str) (searches : List Str)
    (hp : ∀ s ∈ searches, Plain s ∧ s ≠ []) :
    ∃ each : Str → List Found3, (∀ s ∈ searches, expectedFrom u rx input [s] = some (each s)) ∧
      expectedFrom u rx input searches = some (searches.flatMap each) := by
  have hone : ∀ s, Plain s → s ≠ [] → expectedFrom u rx input [s] = some
      ((findSubsFrom (input.map (foldChar lc)) (s.map (foldChar lc)) (input.length + 1) 0).map fun i =>
        ⟨i, i + s.length, some (((sepsToSpaces input).take (i + s.length)).drop i)⟩) := by
    intro s h1 h2
    rw [expected_one h1, findSubs_eq hu h2]; rfl
  refine ⟨fun s => (findSubsFrom (input.map (foldChar lc)) (s.map (foldChar lc)) (input.length + 1) 0).map fun i =>
        ⟨i, i + s.length, some (((sepsToSpaces input).take (i + s.length)).drop i)⟩,
    fun s hs => hone s (hp s hs).1 (hp s hs).2, ?_⟩
  generalize hg : (fun s : Str => (findSubsFrom (input.map (foldChar lc)) (s.map (foldChar lc)) (input.length + 1) 0).map
    fun i => (⟨i, i + s.length, some (((sepsToSpaces input).take (i + s.length)).drop i)⟩ : Found3)) = g
  have gen : ∀ (l : List Str) (inp : Str), sepsToSpaces inp = sepsToSpaces input → (∀ s ∈ l, Plain s ∧ s ≠ []) →
      expectedFrom u rx inp l = some (l.flatMap g) := by
    intro l
    induction l with
    | nil => intro inp _ _; rfl
    | cons s l ih =>
      intro inp hinp hl
      obtain ⟨h1, h2⟩ := hl s (by simp)
      have hp' : c!"re:".isPrefixOf s = false := by
        rw [Bool.eq_false_iff]; intro h; exact h1 (List.isPrefixOf_iff_prefix.1 h)
      have hrest := ih (sepsToSpaces inp) (by rw [sepsToSpaces_idem, hinp]) (fun x hx => hl x (by simp [hx]))
      rw [List.flatMap_cons]
      simp only [expectedFrom, hp', Bool.false_eq_true, if_false]
      rw [hrest, hinp]
      simp only [findSubs_eq hu h2, sepsToSpaces_length]
      rw [← hg]
  exact gen searches input rfl hp

/-- C55: an entry `re:...` alone gives the spans of that regular expression, written without the prefix and with dashes for
spaces, in the input itself, and no value of its own. -/
theorem C55_regex_entry (u : Uni) (rx : Str → Str → List (Nat × Nat)) (input pattern : Str) :
    expectedFrom u rx input [c!"re:" ++ pattern] =
      some ((rx (pattern.map fun c => if c = ' ' then '-' else c) input).map fun r => ⟨r.1, r.2, none⟩) := by
  have h : c!"re:".isPrefixOf (c!"re:" ++ pattern) = true := List.isPrefixOf_iff_prefix.2 (List.prefix_append _ _)
  simp only [expectedFrom]
  rw [if_pos h, List.append_nil]
  rfl

example : expectedFrom ⟨fun _ => none, fun _ => false, id, id⟩ (fun p _ => if p = c!"a-b" then [(0, 3)] else []) c!"axb"
    [c!"re:a b"] = some [⟨0, 3, none⟩] := by rw [show c!"re:a b" = c!"re:" ++ c!"a b" from rfl, C55_regex_entry]; rfl

/-- C55 (the limit): a regular-expression entry is not searched in the input but in what the preceding plain entries made
of it, so its result depends on its position in the list. -/
theorem C55_counterexample_regex_after_plain :
    ∃ (u : Uni) (lc : Char → Char) (rx : Str → Str → List (Nat × Nat)), Charwise u lc ∧
      expectedFrom u rx c!"a.b" [c!"re:x", c!"zz"] ≠ expectedFrom u rx c!"a.b" [c!"zz", c!"re:x"] := by
  refine ⟨⟨fun _ => none, fun _ => false, id, id⟩, id, fun _ t => if t.contains '.' then [(0, 1)] else [], ⟨by simp, rfl⟩, ?_⟩
  simp only [expectedFrom]
  decide +kernel

example : expectedFrom ⟨fun _ => none, fun _ => false, id, id⟩ (fun _ _ => []) c!"x.the_big.bang" [c!"the big"] =
    some [⟨2, 9, some c!"the big"⟩] := by simp only [expectedFrom]; decide +kernel

end Guessit
