import Verif.Model.Matches

/-! # Lemmas about the matches container -/

namespace Guessit

/-! ### sorting -/

theorem insertBy_perm {α : Type} (lt : α → α → Bool) (x : α) (l : List α) : (insertBy lt x l).Perm (x :: l) := by
  induction l with
  | nil => exact .refl _
  | cons y l ih =>
    simp only [insertBy]
    split
    · exact .refl _
    · exact (List.Perm.cons y ih).trans (.swap x y l)

theorem sortBy_perm {α : Type} (lt : α → α → Bool) (l : List α) : (sortBy lt l).Perm l := by
  unfold sortBy
  have gen : ∀ acc : List α, (l.foldl (fun acc x => insertBy lt x acc) acc).Perm (acc ++ l) := by
    induction l with
    | nil => intro acc; simp
    | cons x l ih =>
      intro acc
      simp only [List.foldl_cons]
      refine (ih _).trans ?_
      refine (List.Perm.append_right l (insertBy_perm lt x acc)).trans ?_
      simpa using (List.perm_middle (a := x) (l₁ := acc) (l₂ := l)).symm
  simpa using gen []

@[simp] theorem mem_sortBy {α : Type} {lt : α → α → Bool} {l : List α} {x : α} : x ∈ sortBy lt l ↔ x ∈ l :=
  (sortBy_perm lt l).mem_iff

/-- A strict weak order. -/
structure StrictWeak {α : Type} (lt : α → α → Bool) : Prop where
  asymm : ∀ a b, lt a b = true → lt b a = false
  trans : ∀ a b c, lt b a = false → lt c b = false → lt c a = false

theorem insertBy_sorted {α : Type} {lt : α → α → Bool} (h : StrictWeak lt) (x : α) {l : List α}
    (hl : l.Pairwise fun a b => lt b a = false) : (insertBy lt x l).Pairwise fun a b => lt b a = false := by
  induction l with
  | nil => simp [insertBy]
  | cons y l ih =>
    simp only [insertBy]
    rw [List.pairwise_cons] at hl
    split
    · rename_i hxy
      refine List.Pairwise.cons ?_ (List.Pairwise.cons hl.1 hl.2)
      intro z hz
      rcases List.mem_cons.1 hz with rfl | hz
      · exact h.asymm _ _ hxy
      · exact h.trans _ _ _ (h.asymm _ _ hxy) (hl.1 z hz)
    · rename_i hxy
      refine List.Pairwise.cons ?_ (ih hl.2)
      intro z hz
      rcases List.mem_cons.1 ((insertBy_perm lt x l).mem_iff.1 hz) with rfl | hz
      · simpa using hxy
      · exact hl.1 z hz

theorem sortBy_sorted {α : Type} {lt : α → α → Bool} (h : StrictWeak lt) (l : List α) :
    (sortBy lt l).Pairwise fun a b => lt b a = false := by
  unfold sortBy
  have gen : ∀ acc : List α, acc.Pairwise (fun a b => lt b a = false) →
      (l.foldl (fun acc x => insertBy lt x acc) acc).Pairwise fun a b => lt b a = false := by
    induction l with
    | nil => intro acc h; exact h
    | cons x l ih => intro acc ha; exact ih _ (insertBy_sorted h x ha)
  exact gen [] .nil

theorem Mt.lt_strictWeak : StrictWeak Mt.lt where
  asymm := by
    intro a b h
    simp only [Mt.lt, Bool.or_eq_true, Bool.and_eq_true, decide_eq_true_eq, Bool.or_eq_false_iff, Bool.and_eq_false_iff,
      decide_eq_false_iff_not] at *
    omega
  trans := by
    intro a b c h1 h2
    simp only [Mt.lt, Bool.or_eq_false_iff, Bool.and_eq_false_iff, decide_eq_false_iff_not] at *
    omega

/-! ### queries -/

theorem mem_named {l : List Mt} {n : Str} {m : Mt} : m ∈ named l n ↔ m ∈ l ∧ m.name = some n := by simp [named]

theorem maxEnd_ge (input : Str) (l : List Mt) : input.length ≤ maxEnd input l ∧ ∀ m ∈ l, m.stop ≤ maxEnd input l := by
  unfold maxEnd
  generalize input.length = n
  induction l generalizing n with
  | nil => simp
  | cons x l ih =>
    simp only [List.foldl_cons]
    obtain ⟨h1, h2⟩ := ih (max n x.stop)
    refine ⟨by omega, ?_⟩
    intro m hm
    rcases List.mem_cons.1 hm with rfl | hm
    · omega
    · exact h2 m hm

theorem mem_rangeOf {input : Str} {l : List Mt} {a b : Nat} {p : Mt → Bool} {m : Mt} :
    m ∈ rangeOf input l a b p ↔ m ∈ l ∧ m.start < maxEnd input l ∧ m.start < b ∧ a < m.stop ∧ p m = true := by
  unfold rangeOf
  simp only [List.mem_filter, mem_sortBy, Bool.and_eq_true, decide_eq_true_eq, Nat.lt_min]
  constructor
  · rintro ⟨h1, ⟨⟨h2, h3⟩, h4⟩, h5⟩; exact ⟨h1, h2, h3, h4, h5⟩
  · rintro ⟨h1, h2, h3, h4, h5⟩; exact ⟨h1, ⟨⟨h2, h3⟩, h4⟩, h5⟩

/-- For a non-empty match, `range` is overlap. -/
theorem mem_rangeOf' {input : Str} {l : List Mt} {a b : Nat} {p : Mt → Bool} {m : Mt} (hm : m.start < m.stop) :
    m ∈ rangeOf input l a b p ↔ m ∈ l ∧ m.start < b ∧ a < m.stop ∧ p m = true := by
  rw [mem_rangeOf]
  constructor
  · rintro ⟨h1, _, h3⟩; exact ⟨h1, h3⟩
  · rintro ⟨h1, h3⟩; exact ⟨h1, by have := (maxEnd_ge input l).2 m h1; omega, h3⟩

/-! ### equality of matches -/

theorem eqv_iff {input : Str} {a b : Mt} : Mt.eqv input a b = true ↔ a.key input = b.key input := by simp [Mt.eqv]

/-! ### removal -/

theorem removeMatch_sublist (input : Str) (l : List Mt) (m : Mt) : (removeMatch input l m).Sublist l := by
  induction l with
  | nil => exact .slnil
  | cons x l ih =>
    simp only [removeMatch]
    split
    · exact List.sublist_cons_self x l
    · exact ih.cons₂ x

theorem removeAll_sublist (input : Str) (ms : List Mt) : ∀ l, (removeAll input l ms).Sublist l := by
  induction ms with
  | nil => intro l; exact List.Sublist.refl l
  | cons m ms ih => intro l; exact (ih _).trans (removeMatch_sublist input l m)

theorem removeAll_subset {input : Str} {ms l : List Mt} {x : Mt} (h : x ∈ removeAll input l ms) : x ∈ l :=
  (removeAll_sublist input ms l).subset h

/-- The number of matches of `l` equal to a given one. -/
def countKey (input : Str) (k : MtKey) (l : List Mt) : Nat := l.countP fun m => decide (m.key input = k)

theorem countKey_cons (input : Str) (k : MtKey) (x : Mt) (l : List Mt) :
    countKey input k (x :: l) = countKey input k l + if x.key input = k then 1 else 0 := by
  simp [countKey, List.countP_cons]

theorem countKey_removeMatch (input : Str) (k : MtKey) (l : List Mt) (m : Mt) :
    countKey input k (removeMatch input l m) = countKey input k l - if m.key input = k then 1 else 0 := by
  induction l with
  | nil => simp [removeMatch, countKey]
  | cons x l ih =>
    simp only [removeMatch]
    by_cases hmx : m.key input = x.key input
    · rw [if_pos (eqv_iff.2 hmx), countKey_cons, hmx]; omega
    · rw [if_neg (fun h => hmx (eqv_iff.1 h)), countKey_cons, countKey_cons, ih]
      by_cases hm : m.key input = k
      · have hx : x.key input ≠ k := fun h => hmx (hm.trans h.symm)
        simp [hm, hx]
      · simp [hm]

theorem countKey_removeAll (input : Str) (k : MtKey) (ms : List Mt) : ∀ l,
    countKey input k (removeAll input l ms) = countKey input k l - countKey input k ms := by
  induction ms with
  | nil => intro l; simp [removeAll, countKey]
  | cons m ms ih =>
    intro l
    have : removeAll input l (m :: ms) = removeAll input (removeMatch input l m) ms := rfl
    rw [this, ih, countKey_removeMatch, countKey_cons]
    omega

theorem countKey_pos {input : Str} {k : MtKey} {l : List Mt} : 0 < countKey input k l ↔ ∃ m ∈ l, m.key input = k := by
  simp [countKey, List.countP_pos_iff]

/-- A match with as many equal entries in the list to remove as in the collection is gone. -/
theorem removeAll_gone {input : Str} {l ms : List Mt} {x : Mt}
    (h : countKey input (x.key input) l ≤ countKey input (x.key input) ms) : ∀ y ∈ removeAll input l ms, y.key input ≠ x.key input := by
  intro y hy hk
  have : 0 < countKey input (x.key input) (removeAll input l ms) := countKey_pos.2 ⟨y, hy, hk⟩
  rw [countKey_removeAll] at this
  omega

/-- A match not equal to any entry of the list to remove stays. -/
theorem removeAll_stays {input : Str} {x : Mt} : ∀ {ms l : List Mt}, x ∈ l → (∀ m ∈ ms, m.key input ≠ x.key input) →
    x ∈ removeAll input l ms := by
  intro ms
  induction ms with
  | nil => intro l h _; exact h
  | cons m ms ih =>
    intro l h hno
    refine ih (l := removeMatch input l m) ?_ (fun y hy => hno y (by simp [hy]))
    have hm := hno m (by simp)
    clear ih hno
    induction l with
    | nil => simp at h
    | cons y l ihl =>
      simp only [removeMatch]
      split
      · rename_i he
        rcases List.mem_cons.1 h with rfl | h
        · exact absurd (eqv_iff.1 he) hm
        · exact h
      · rcases List.mem_cons.1 h with rfl | h
        · simp
        · exact List.mem_cons_of_mem _ (ihl h)

/-- When no two matches are equal, removal keeps exactly the matches not equal to an entry. -/
theorem mem_removeAll_nodup {input : Str} {l ms : List Mt} (hnd : (l.map (Mt.key input)).Nodup) {x : Mt} :
    x ∈ removeAll input l ms ↔ x ∈ l ∧ ∀ m ∈ ms, m.key input ≠ x.key input := by
  constructor
  · intro h
    refine ⟨removeAll_subset h, ?_⟩
    intro m hm hk
    have h1 : countKey input (x.key input) l ≤ 1 := by
      have := List.nodup_iff_count.1 hnd (x.key input)
      rw [List.count, List.countP_map] at this
      have e : (fun m => decide (Mt.key input m = Mt.key input x)) = ((fun k => k == Mt.key input x) ∘ Mt.key input) := by
        funext m; rw [Bool.eq_iff_iff]; simp
      unfold countKey; rw [e]; exact this
    have h2 : 0 < countKey input (x.key input) ms := countKey_pos.2 ⟨m, hm, hk⟩
    exact removeAll_gone (Nat.le_trans h1 h2) x h rfl
  · rintro ⟨h1, h2⟩; exact removeAll_stays h1 h2

/-! ### addition -/

theorem appendAll_eq (input : Str) (ms : List Mt) : ∀ l, ∃ added, appendAll input l ms = l ++ added ∧ added.Sublist ms := by
  induction ms with
  | nil => intro l; exact ⟨[], by simp [appendAll], .slnil⟩
  | cons m ms ih =>
    intro l
    have : appendAll input l (m :: ms) = appendAll input (if hasMatch input l m then l else l ++ [m]) ms := rfl
    rw [this]
    split
    · obtain ⟨a, h1, h2⟩ := ih l
      exact ⟨a, h1, h2.cons m⟩
    · obtain ⟨a, h1, h2⟩ := ih (l ++ [m])
      exact ⟨m :: a, by rw [h1]; simp, h2.cons₂ m⟩

theorem hasMatch_iff {input : Str} {l : List Mt} {m : Mt} : hasMatch input l m = true ↔ ∃ x ∈ l, m.key input = x.key input := by
  simp [hasMatch, eqv_iff]

/-- Everything to append is there afterwards (itself or an equal match). -/
theorem appendAll_has (input : Str) (ms : List Mt) : ∀ l, ∀ m ∈ ms, ∃ x ∈ appendAll input l ms, m.key input = x.key input := by
  induction ms with
  | nil => intro l m hm; simp at hm
  | cons y ms ih =>
    intro l m hm
    have he : appendAll input l (y :: ms) = appendAll input (if hasMatch input l y then l else l ++ [y]) ms := rfl
    rw [he]
    rcases List.mem_cons.1 hm with rfl | hm
    · split
      · rename_i h
        obtain ⟨x, hx, hk⟩ := hasMatch_iff.1 h
        obtain ⟨a, h1, _⟩ := appendAll_eq input ms l
        exact ⟨x, by rw [h1]; simp [hx], hk⟩
      · obtain ⟨a, h1, _⟩ := appendAll_eq input ms (l ++ [m])
        exact ⟨m, by rw [h1]; simp, rfl⟩
    · exact ih _ m hm

/-- When the new matches differ from the present ones and from each other, all of them are appended, in order. -/
theorem appendAll_fresh (input : Str) (ms : List Mt) : ∀ l, (∀ m ∈ ms, ∀ x ∈ l, m.key input ≠ x.key input) →
    (ms.map (Mt.key input)).Nodup → appendAll input l ms = l ++ ms := by
  induction ms with
  | nil => intro l _ _; simp [appendAll]
  | cons m ms ih =>
    intro l h hnd
    have he : appendAll input l (m :: ms) = appendAll input (if hasMatch input l m then l else l ++ [m]) ms := rfl
    have hno : hasMatch input l m = false := by
      cases hh : hasMatch input l m with
      | false => rfl
      | true => obtain ⟨x, hx, hk⟩ := hasMatch_iff.1 hh; exact absurd hk (h m (by simp) x hx)
    rw [List.map_cons, List.nodup_cons] at hnd
    rw [he, hno]
    simp only [Bool.false_eq_true, if_false]
    rw [ih (l ++ [m]) ?_ hnd.2]
    · simp
    · intro y hy x hx
      rcases List.mem_append.1 hx with hx | hx
      · exact h y (by simp [hy]) x hx
      · simp only [List.mem_singleton] at hx
        subst hx
        intro hk
        exact hnd.1 (List.mem_map.2 ⟨y, hy, hk⟩)

theorem mem_appendAll {input : Str} {ms l : List Mt} {x : Mt} (h : x ∈ appendAll input l ms) : x ∈ l ∨ x ∈ ms := by
  obtain ⟨a, h1, h2⟩ := appendAll_eq input ms l
  rw [h1] at h
  rcases List.mem_append.1 h with h | h
  · exact Or.inl h
  · exact Or.inr (h2.subset h)

theorem appendAll_keeps {input : Str} {ms l : List Mt} {x : Mt} (h : x ∈ l) : x ∈ appendAll input l ms := by
  obtain ⟨a, h1, _⟩ := appendAll_eq input ms l
  rw [h1]; simp [h]

end Guessit
