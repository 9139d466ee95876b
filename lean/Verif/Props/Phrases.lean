import Verif.Model.Phrases
import Verif.Spec.Phrases
import Verif.Props.Strings
import Verif.Props.Vocabulary

/-! # Phrases of a configuration: the ways to write an expression -/

namespace Guessit
open Spec Re

/-- The ways to write an expression, in the order in which they are tried. -/
def Phrase.spellings : Phrase → List (List Sym)
  | .nil => [[]]
  | .sym x => [[x]]
  | .seq a b => a.spellings.flatMap fun v => b.spellings.map (v ++ ·)
  | .alt a b => a.spellings ++ b.spellings
  | .opt a => a.spellings.filter (· ≠ []) ++ [[]]

/-- A way to write is there from `i`. -/
def symsAt (E : RxEnv) (s : Str) : List Sym → Nat → Bool
  | [], _ => true
  | x :: w, i => (match s[i]? with
    | some c => x.is E c
    | none => false) && symsAt E s w (i + 1)

section
variable {E : RxEnv} {s : Str}

theorem symsAt_append {v w : List Sym} : ∀ {i : Nat}, symsAt E s (v ++ w) i = (symsAt E s v i && symsAt E s w (i + v.length)) := by
  induction v with
  | nil => intro i; simp [symsAt]
  | cons x v ih =>
    intro i
    simp only [List.cons_append, symsAt, ih, List.length_cons, Bool.and_assoc]
    rw [show i + 1 + v.length = i + (v.length + 1) by omega]

theorem symsAt_iff {w : List Sym} : ∀ {i : Nat}, symsAt E s w i = true ↔ ∀ k x, w[k]? = some x → CharAt s (fun c => x.is E c = true) (i + k) := by
  induction w with
  | nil => intro i; simp [symsAt]
  | cons y w ih =>
    intro i
    rw [symsAt, Bool.and_eq_true, ih]
    constructor
    · rintro ⟨h1, h2⟩ k x hk
      cases k with
      | zero =>
        simp only [List.getElem?_cons_zero, Option.some.injEq] at hk
        subst hk
        split at h1
        · rename_i c hc; exact ⟨c, hc, h1⟩
        · cases h1
      | succ k =>
        have := h2 k x (by simpa using hk)
        rwa [show i + 1 + k = i + (k + 1) by omega] at this
    · intro h
      refine ⟨?_, fun k x hk => ?_⟩
      · obtain ⟨c, h1, h2⟩ := h 0 y rfl
        rw [show i + 0 = i by omega] at h1
        rw [h1]; exact h2
      · have := h (k + 1) x (by simpa using hk)
        rwa [show i + 1 + k = i + (k + 1) by omega]

/-- The results for the ways to write that are there. -/
def spelled (E : RxEnv) (s : Str) (L : List (List Sym)) (i : Nat) (c : Caps) : List (Nat × Caps) :=
  (L.filter fun w => symsAt E s w i).map fun w => (i + w.length, c)

theorem spelled_seq {A B : List (List Sym)} {i : Nat} {c : Caps} :
    (spelled E s A i c).flatMap (fun r => spelled E s B r.1 r.2) = spelled E s (A.flatMap fun v => B.map (v ++ ·)) i c := by
  induction A with
  | nil => rfl
  | cons v A ih =>
    simp only [spelled, List.filter_cons, List.flatMap_cons, List.filter_append, List.map_append] at ih ⊢
    have hv : (B.map (v ++ ·)).filter (fun w => symsAt E s w i) = if symsAt E s v i then (B.filter fun w => symsAt E s w (i + v.length)).map (v ++ ·) else [] := by
      rw [List.filter_map]
      by_cases h : symsAt E s v i = true
      · rw [if_pos h]; congr 1; apply List.filter_congr; intro w _; simp [symsAt_append, h]
      · rw [if_neg h]; simp only [List.map_eq_nil_iff]; rw [List.filter_eq_nil_iff]; intro w _; simp [symsAt_append, h]
    rw [hv]
    by_cases h : symsAt E s v i = true
    · rw [if_pos h, if_pos h, List.map_cons, List.flatMap_cons, ih]
      congr 1
      rw [List.map_map]
      apply List.map_congr_left
      intro w _
      simp [Nat.add_assoc]
    · rw [if_neg h, if_neg h, ih]; rfl

/-- What an expression matches from `i`: the ways to write it that are there. -/
theorem phrase_exec (p : Phrase) : ∀ (i : Nat) (c : Caps), (p.re E).exec s i c = spelled E s p.spellings i c := by
  induction p with
  | nil => intro i c; rfl
  | sym x =>
    intro i c
    simp only [Phrase.re, Re.exec, spelled, Phrase.spellings, List.filter_cons, List.filter_nil, symsAt, Bool.and_true]
    cases s[i]? with
    | none => rfl
    | some y => by_cases h : x.is E y = true <;> simp [h]
  | seq a b iha ihb =>
    intro i c
    rw [Phrase.re, Re.exec, iha, Phrase.spellings, ← spelled_seq]
    congr 1; funext r; exact ihb _ _
  | alt a b iha ihb =>
    intro i c
    rw [Phrase.re, Re.exec, iha, ihb, Phrase.spellings, spelled, spelled, spelled, List.filter_append, List.map_append]
  | opt a ih =>
    intro i c
    rw [Phrase.re, Re.opt, Re.exec]
    simp only [Option.getD_some, repExec, ih, Phrase.spellings, if_true]
    have h1 : (fun r : Nat × Caps => [(r.1, r.2)]) = fun r => [r] := rfl
    rw [h1, List.flatMap_singleton']
    simp only [spelled, List.filter_append, List.map_append, List.filter_cons, symsAt, List.filter_nil, if_true, List.map_cons, List.map_nil, List.length_nil, Nat.add_zero]
    congr 1
    rw [List.filter_map, List.filter_filter, List.filter_filter]
    congr 1
    apply List.filter_congr
    intro w _
    cases w with
    | nil => simp
    | cons x w => simp

theorem phrase_match {p : Phrase} {i j : Nat} {c : Caps} : (p.re E).matchAt s i = some (j, c) ↔
    c = [] ∧ ∃ w, (p.spellings.find? fun w => symsAt E s w i) = some w ∧ j = i + w.length := by
  rw [Re.matchAt, phrase_exec, spelled, List.head?_map, List.head?_filter, Option.map_eq_some_iff]
  constructor
  · rintro ⟨w, h1, h2⟩
    simp only [Prod.mk.injEq] at h2
    exact ⟨h2.2.symm, w, h1, h2.1.symm⟩
  · rintro ⟨rfl, w, h1, rfl⟩
    exact ⟨w, h1, rfl⟩

/-! ## When two symbols may stand for the same character -/

/-- A symbol of letters, digits, `'` and `&`. -/
def Sym.plain : Sym → Bool
  | .lit c => c!"abcdefghijklmnopqrstuvwxyz0123456789'&".contains c
  | _ => true

/-- The two may stand for the same character. -/
def Sym.meets : Sym → Sym → Bool
  | .lit a, .lit b => a == b
  | .lit a, .digit => c!"0123456789".contains a
  | .digit, .lit a => c!"0123456789".contains a
  | .lit _, .dash => false
  | .dash, .lit _ => false
  | .dash, .digit => false
  | .digit, .dash => false
  | _, _ => true

/-- It may stand for a separator. -/
def Sym.maySep : Sym → Bool
  | .lit _ => false
  | .digit => false
  | _ => true

theorem plain_cases {a : Char} (h : (Sym.lit a).plain = true) : a ∈ c!"abcdefghijklmnopqrstuvwxyz" ∨ a ∈ c!"0123456789'&" := by
  rw [Sym.plain, List.contains_iff_mem] at h
  have : ∀ a ∈ c!"abcdefghijklmnopqrstuvwxyz0123456789'&", a ∈ c!"abcdefghijklmnopqrstuvwxyz" ∨ a ∈ c!"0123456789'&" := by decide
  exact this a h

theorem sep_unlike : ∀ c ∈ seps, c.toNat < 128 ∧ (∀ l ∈ c!"abcdefghijklmnopqrstuvwxyz", c ≠ l ∧ c ≠ l.toUpper) ∧ c ∉ c!"0123456789'&" := by decide

theorem lit_not_sep (hE : Usual E) (hT : Themselves E) {a c : Char} (ha : (Sym.lit a).plain = true) (h : E.same a c = true) : c ∉ seps := by
  intro hc
  obtain ⟨h1, h2, h3⟩ := sep_unlike c hc
  rcases plain_cases ha with hl | hd
  · rcases (hE.same a hl c h1).1 h with h4 | h4
    · exact (h2 a hl).1 h4
    · exact (h2 a hl).2 h4
  · rw [(hT a hd c).1 h] at h3; exact h3 hd

theorem sign_not_digit : ∀ a ∈ c!"'&", a.toNat < 128 ∧ ¬ ('0' ≤ a ∧ a ≤ '9') := by decide
theorem digit_mem {a : Char} (ha : a ∈ c!"0123456789'&") (h : a ∉ c!"'&") : a ∈ c!"0123456789" := by
  have : ∀ a ∈ c!"0123456789'&", a ∉ c!"'&" → a ∈ c!"0123456789" := by decide
  exact this a ha h

theorem lit_digit (hE : Usual E) (hT : Themselves E) {a c : Char} (ha : (Sym.lit a).plain = true) (h : E.same a c = true) (hd : E.u.isDigit c = true) :
    c!"0123456789".contains a = true := by
  rw [List.contains_iff_mem]
  rcases plain_cases ha with hl | hs
  · rw [hE.letter a hl c h] at hd; cases hd
  · refine digit_mem hs fun h' => ?_
    obtain ⟨h1, h2⟩ := sign_not_digit a h'
    rw [(hT a hs c).1 h] at hd
    have := hE.digit a h1
    rw [if_neg h2] at this
    simp [Uni.isDigit, this] at hd

theorem dash_is {c : Char} : Sym.dash.is E c = true ↔ c ∈ seps ∧ c ≠ '/' ∧ c ≠ '\\' := by
  simp only [Sym.is, List.contains_iff_mem, C134_noSlashes, ← C134_separators]

theorem sep_isDigit (hE : Usual E) {c : Char} (hc : c ∈ seps) (h : E.u.isDigit c = true) : False := sep_not_digit hE hc h

theorem meets_of (hE : Usual E) (hT : Themselves E) {x y : Sym} (hx : x.plain = true) (hy : y.plain = true) {c : Char} (h1 : x.is E c = true) (h2 : y.is E c = true) :
    x.meets y = true := by
  cases x with
  | lit a =>
    cases y with
    | lit b =>
      simp only [Sym.meets, beq_iff_eq]
      simp only [Sym.is] at h1 h2
      rcases plain_cases hx with ha | ha <;> rcases plain_cases hy with hb | hb
      · exact hE.apart a ha b hb c h1 h2
      · have e := (hT b hb c).1 h2
        subst e
        have : ∀ d ∈ c!"0123456789'&", d.toNat < 128 ∧ ∀ l ∈ c!"abcdefghijklmnopqrstuvwxyz", d ≠ l ∧ d ≠ l.toUpper := by decide
        obtain ⟨g1, g2⟩ := this _ hb
        rcases (hE.same a ha _ g1).1 h1 with g | g
        · exact absurd g (g2 a ha).1
        · exact absurd g (g2 a ha).2
      · have e := (hT a ha c).1 h1
        subst e
        have : ∀ d ∈ c!"0123456789'&", d.toNat < 128 ∧ ∀ l ∈ c!"abcdefghijklmnopqrstuvwxyz", d ≠ l ∧ d ≠ l.toUpper := by decide
        obtain ⟨g1, g2⟩ := this _ ha
        rcases (hE.same b hb _ g1).1 h2 with g | g
        · exact absurd g (g2 b hb).1
        · exact absurd g (g2 b hb).2
      · rw [← (hT a ha c).1 h1, ← (hT b hb c).1 h2]
    | dash => exact absurd (dash_is.1 h2).1 (lit_not_sep hE hT hx h1)
    | any => rfl
    | digit => exact lit_digit hE hT hx h1 h2
  | dash =>
    cases y with
    | lit b => exact absurd (dash_is.1 h1).1 (lit_not_sep hE hT hy h2)
    | dash => rfl
    | any => rfl
    | digit => exact (sep_isDigit hE (dash_is.1 h1).1 h2).elim
  | any => cases y <;> rfl
  | digit =>
    cases y with
    | lit b => exact lit_digit hE hT hy h2 h1
    | dash => exact (sep_isDigit hE (dash_is.1 h2).1 h1).elim
    | any => rfl
    | digit => rfl

theorem maySep_of (hE : Usual E) (hT : Themselves E) {x : Sym} (hx : x.plain = true) {c : Char} (h : x.is E c = true) (hc : c ∈ seps) : x.maySep = true := by
  cases x with
  | lit a => exact absurd hc (lit_not_sep hE hT hx h)
  | dash => rfl
  | any => rfl
  | digit => exact (sep_isDigit hE hc h).elim

/-- The two may be written from the same place. -/
def meetAll : List Sym → List Sym → Bool
  | x :: v, y :: w => x.meets y && meetAll v w
  | _, _ => true

theorem meetAll_of (hE : Usual E) (hT : Themselves E) {v : List Sym} : ∀ {w : List Sym} {i : Nat}, (∀ x ∈ v, x.plain = true) → (∀ x ∈ w, x.plain = true) →
    symsAt E s v i = true → symsAt E s w i = true → meetAll v w = true := by
  induction v with
  | nil => intros; rfl
  | cons x v ih =>
    intro w i hv hw h1 h2
    cases w with
    | nil => rfl
    | cons y w =>
      simp only [symsAt, Bool.and_eq_true] at h1 h2
      rw [meetAll, Bool.and_eq_true]
      refine ⟨?_, ih (fun z hz => hv z (by simp [hz])) (fun z hz => hw z (by simp [hz])) h1.2 h2.2⟩
      cases hc : s[i]? with
      | none => rw [hc] at h1; cases h1.1
      | some c =>
        rw [hc] at h1 h2
        exact meets_of hE hT (hv x (by simp)) (hw y (by simp)) h1.1 h2.1

/-! ## Expressions whose ways of being written do not get in each other's way -/

/-- Among the ways to write that may be written from the same place, the longer ones come first. -/
def longestFirst : List (List Sym) → Bool
  | [] => true
  | v :: L => L.all (fun w => !(decide (v.length < w.length) && meetAll v w)) && longestFirst L

/-- None begins within another after a separator, and none goes on with a separator where another may end. -/
def discrete (L : List (List Sym)) : Bool :=
  (L.all fun v => (List.range v.length).all fun k => k == 0 || !((v[k - 1]?).any Sym.maySep) || L.all fun w => !meetAll (v.drop k) w) &&
  L.all fun v => L.all fun w => !(decide (v.length < w.length) && meetAll v w) || !((w[v.length]?).any Sym.maySep)

/-- The ways to write are plain and none is empty. -/
def regular (L : List (List Sym)) : Bool := L.all fun w => !w.isEmpty && w.all Sym.plain

theorem regular_plain {L : List (List Sym)} (h : regular L = true) {w : List Sym} (hw : w ∈ L) : w ≠ [] ∧ ∀ x ∈ w, x.plain = true := by
  have := List.all_eq_true.1 h w hw
  simp only [Bool.and_eq_true, Bool.not_eq_true', List.isEmpty_eq_false_iff, List.all_eq_true] at this
  exact this

theorem longest_find (hE : Usual E) (hT : Themselves E) {i : Nat} : ∀ {L : List (List Sym)} {v w : List Sym}, regular L = true → longestFirst L = true →
    L.find? (fun w => symsAt E s w i) = some v → w ∈ L → symsAt E s w i = true → w.length ≤ v.length := by
  intro L
  induction L with
  | nil => intro v w _ _ h; simp at h
  | cons u L ih =>
    intro v w hr hl h hw hs
    have hr' : regular L = true := by
      rw [regular, List.all_cons, Bool.and_eq_true] at hr; exact hr.2
    rw [longestFirst, Bool.and_eq_true] at hl
    rw [List.find?_cons] at h
    split at h
    · rename_i hu
      cases h
      rcases List.mem_cons.1 hw with rfl | hw'
      · exact Nat.le_refl _
      · have h1 := List.all_eq_true.1 hl.1 w hw'
        have hm := meetAll_of hE hT (regular_plain hr (List.mem_cons_self ..)).2 (regular_plain hr (List.mem_cons_of_mem _ hw')).2 hu hs
        rw [hm] at h1
        simp at h1
        exact h1
    · rename_i hu
      rcases List.mem_cons.1 hw with rfl | hw'
      · rw [hs] at hu; cases hu
      · exact ih hr' hl.2 h hw' hs

theorem phrase_eats {p : Phrase} (hr : regular p.spellings = true) : (p.re E).Eats := by
  intro s i j c _ h
  obtain ⟨_, w, h1, rfl⟩ := phrase_match.1 h
  have := (regular_plain hr (List.mem_of_find?_eq_some h1)).1
  have := List.length_pos_iff.2 this
  omega

theorem syms_inside {w : List Sym} (hw : w ≠ []) {i : Nat} (h : symsAt E s w i = true) : i + w.length ≤ s.length := by
  have h0 := List.length_pos_iff.2 hw
  obtain ⟨c, h1, _⟩ := symsAt_iff.1 h (w.length - 1) _ (List.getElem?_eq_getElem (by omega))
  have := (List.getElem?_eq_some_iff.1 h1).1
  omega

/-- Every hit is a way to write the expression. -/
theorem phrase_hit {p : Phrase} {h : RxHit} (hh : h ∈ (p.re E).hits s) : ∃ w ∈ p.spellings, symsAt E s w h.start = true ∧ h.stop = h.start + w.length := by
  obtain ⟨_, w, h1, h2⟩ := phrase_match.1 (hits_sound hh).1
  exact ⟨w, List.mem_of_find?_eq_some h1, by simpa using List.find?_some h1, h2⟩

/-- What is written is a hit, if nothing else is in the way. -/
theorem phrase_hits (hE : Usual E) (hT : Themselves E) {p : Phrase} (hr : regular p.spellings = true) (hl : longestFirst p.spellings = true) {w : List Sym} {i : Nat}
    (hw : w ∈ p.spellings) (hs : symsAt E s w i = true) (h1 : ∀ v ∈ p.spellings, symsAt E s v i = true → v.length ≤ w.length)
    (h2 : ∀ v ∈ p.spellings, ∀ a, a < i → symsAt E s v a = true → a + v.length ≤ i) : (⟨i, i + w.length, []⟩ : RxHit) ∈ (p.re E).hits s := by
  have hin := syms_inside (regular_plain hr hw).1 hs
  obtain ⟨v, hv⟩ : ∃ v, p.spellings.find? (fun w => symsAt E s w i) = some v := by
    have : (p.spellings.find? fun w => symsAt E s w i).isSome = true := by
      rw [List.find?_isSome]; exact ⟨w, hw, hs⟩
    exact Option.isSome_iff_exists.1 this
  have hvw : v.length = w.length := by
    have a := longest_find hE hT hr hl hv hw hs
    have b := h1 v (List.mem_of_find?_eq_some hv) (by simpa using List.find?_some hv)
    omega
  refine hits_complete (phrase_eats hr) (phrase_match.2 ⟨rfl, v, hv, by omega⟩) (by omega) ?_
  intro a b c ha hm
  obtain ⟨_, x, hx, rfl⟩ := phrase_match.1 hm
  exact h2 x (List.mem_of_find?_eq_some hx) a ha (by simpa using List.find?_some hx)

theorem symsAt_drop {w : List Sym} {a k : Nat} (h : symsAt E s w a = true) : symsAt E s (w.drop k) (a + k) = true := by
  rw [symsAt_iff] at h ⊢
  intro n x hx
  rw [List.getElem?_drop] at hx
  have := h (k + n) x hx
  rwa [show a + (k + n) = a + k + n by omega] at this

/-- When they are not in each other's way, nothing is in the way of one that stands apart. -/
theorem discrete_clear (hE : Usual E) (hT : Themselves E) {L : List (List Sym)} (hr : regular L = true) (hd : discrete L = true) {w : List Sym} {i : Nat} (hw : w ∈ L)
    (hs : symsAt E s w i = true) (hap : Standing s i (i + w.length)) : (∀ v ∈ L, symsAt E s v i = true → v.length ≤ w.length) ∧
    ∀ v ∈ L, ∀ a, a < i → symsAt E s v a = true → a + v.length ≤ i := by
  rw [discrete, Bool.and_eq_true] at hd
  constructor
  · intro v hv hsv
    by_contra hc
    have h1 := List.all_eq_true.1 (List.all_eq_true.1 hd.2 w hw) v hv
    have hm := meetAll_of hE hT (regular_plain hr hw).2 (regular_plain hr hv).2 hs hsv
    simp only [hm, Bool.and_true, Bool.or_eq_true, Bool.not_eq_true', decide_eq_false_iff_not] at h1
    rcases h1 with h1 | h1
    · omega
    · have hk : w.length < v.length := by omega
      obtain ⟨c, g1, g2⟩ := symsAt_iff.1 hsv w.length _ (List.getElem?_eq_getElem hk)
      rcases hap.2 with g | ⟨c', g3, g4⟩
      · have := (List.getElem?_eq_some_iff.1 g1).1
        omega
      · rw [g1] at g3; cases g3
        have := maySep_of hE hT ((regular_plain hr hv).2 _ (List.getElem_mem hk)) g2 g4
        rw [List.getElem?_eq_getElem hk] at h1
        simp [this] at h1
  · intro v hv a ha hsv
    by_contra hc
    have hk : i - a < v.length := by omega
    have h1 := List.all_eq_true.1 (List.all_eq_true.1 hd.1 v hv) (i - a) (List.mem_range.2 hk)
    have h0 : i - a - 1 < v.length := by omega
    rcases hap.1 with rfl | ⟨c, g3, g4⟩
    · omega
    · obtain ⟨c', g1, g2⟩ := symsAt_iff.1 hsv (i - a - 1) _ (List.getElem?_eq_getElem h0)
      rw [show a + (i - a - 1) = i - 1 by omega, g3] at g1
      cases g1
      have hms := maySep_of hE hT ((regular_plain hr hv).2 _ (List.getElem_mem h0)) g2 g4
      have hdr : symsAt E s (v.drop (i - a)) i = true := by
        have := symsAt_drop (k := i - a) hsv
        rwa [show a + (i - a) = i by omega] at this
      have hm := meetAll_of hE hT (fun x hx => (regular_plain hr hv).2 x (List.mem_of_mem_drop hx)) (regular_plain hr hw).2 hdr hs
      rw [List.getElem?_eq_getElem h0] at h1
      simp only [Option.any_some, hms, Bool.not_true, Bool.or_false, Bool.or_eq_true, beq_iff_eq, List.all_eq_true, Bool.not_eq_true'] at h1
      rcases h1 with h1 | h1
      · omega
      · rw [h1 w hw] at hm; cases hm

end
end Guessit
