import Verif.Props.Forms

/-! # Expressions with groups: what is found -/

namespace Guessit
open Spec Re

/-- The condition on what follows, of a way of `n` symbols. -/
def behindOf (n : Nat) : List (Nat × Ahead) → Option Behind
  | [] => some .anything
  | [(k, .some p)] => if k = n ∧ regular p.spellings = true then some (.oneOf (p.spellings.map (·.map Sym.code))) else none
  | [(k, .not (.lit c))] => if k = n ∧ c ∈ alphabet then some (.not c) else none
  | _ => none

/-- The parts of a way. -/
def piecesOf (e : FormEntry) (c : Caps) : List Piece :=
  e.groups.filterMap fun g => match c.lookup g.1 with
    | some (a, b) => if a < b then some ⟨g.2, (e.values.lookup g.2).getD [], a, b⟩ else none
    | none => none

/-- The way to write that a spelling is. -/
def wayOf (e : FormEntry) (w : Spelling) : Option Way := (behindOf w.syms.length w.checks).map fun x => ⟨w.syms.map Sym.code, piecesOf e w.caps, x⟩

/-- A vocabulary lists the ways to write the expressions. -/
def formsAgree (e : FormEntry) : List Str → List (List Way) → Bool
  | [], [] => true
  | t :: ts, ws :: wss => (match parseForm e.names t with
    | some p => p.spellings.map (wayOf e) == ws.map some && regular p.texts && strictlyFirst p.texts
    | none => false) && formsAgree e ts wss
  | _, _ => false

/-- A table and a vocabulary say the same. -/
def formTableAgree : List FormEntry → List (List (List Way)) → Bool
  | [], [] => true
  | e :: es, v :: vs => formsAgree e e.regexes v && formTableAgree es vs
  | _, _ => false

section
variable {E : RxEnv} {s : Str}

theorem newline_letter (hE : Usual E) {c : Char} (hc : c ∈ alphabet) : E.same c '\n' = false := by
  have := hE.same c hc '\n' (by decide)
  have hall : ∀ c ∈ alphabet, '\n' ≠ c ∧ '\n' ≠ c.toUpper := by decide
  cases h : E.same c '\n' with
  | false => rfl
  | true =>
    rw [h] at this
    have := this.1 rfl
    rcases this with g | g
    · exact absurd g (hall c hc).1
    · exact absurd g (hall c hc).2

theorem behind_iff (hE : Usual E) {n : Nat} {l : List (Nat × Ahead)} {x : Behind} (h : behindOf n l = some x) {i : Nat} (hi : i + n ≤ s.length) :
    (l.all fun x => x.2.holds E s (i + x.1)) = true ↔ x.Holds E s (i + n) := by
  unfold behindOf at h
  split at h
  · cases h; simp [Behind.Holds]
  · rename_i k p
    split at h
    · rename_i hk
      cases h
      obtain ⟨rfl, hr⟩ := hk
      simp only [List.all_cons, List.all_nil, Bool.and_true, Ahead.holds, Behind.Holds, List.any_eq_true]
      constructor
      · rintro ⟨w, h1, h2⟩
        exact ⟨_, List.mem_map_of_mem h1, (phrase_at hE (regular_plain hr h1).2).2 h2⟩
      · rintro ⟨_, h1, h2⟩
        obtain ⟨w, h3, rfl⟩ := List.mem_map.1 h1
        exact ⟨w, h3, (phrase_at hE (regular_plain hr h3).2).1 h2⟩
    · cases h
  · rename_i k c
    split at h
    · rename_i hk
      cases h
      obtain ⟨rfl, hc⟩ := hk
      simp only [List.all_cons, List.all_nil, Bool.and_true, Ahead.holds, Behind.Holds, Bool.or_eq_true, decide_eq_true_eq, CharAt, Sym.is]
      constructor
      · rintro (h | h) ⟨y, h1, h2⟩
        · rcases h with h | ⟨_, h⟩
          · rw [h, List.getElem?_eq_none (Nat.le_refl _)] at h1; cases h1
          · rw [h] at h1; cases h1
            rw [newline_letter hE hc] at h2; cases h2
        · rw [h1] at h; simp [h2] at h
      · intro h
        rcases Nat.lt_or_ge (i + k) s.length with hlt | hge
        · right
          rw [List.getElem?_eq_getElem hlt]
          simp only [Option.any_some, Bool.not_eq_true']
          cases hs : E.same c s[i + k] with
          | false => rfl
          | true => exact absurd ⟨_, List.getElem?_eq_getElem hlt, hs⟩ h
        · left; left; omega
    · cases h
  · cases h

theorem way_at (hE : Usual E) {e : FormEntry} {w : Spelling} {W : Way} (h : wayOf e w = some W) (hw : w.syms ≠ [] ∧ ∀ x ∈ w.syms, x.plain = true) {i : Nat} :
    W.At E s i ↔ w.at E s i = true := by
  rw [wayOf, Option.map_eq_some_iff] at h
  obtain ⟨x, h1, rfl⟩ := h
  rw [Way.At, Spelling.at, Bool.and_eq_true, phrase_at hE hw.2]
  refine and_congr_right fun hs => ?_
  have := syms_inside hw.1 hs
  rw [behind_iff hE h1 this]
  simp

theorem way_length {e : FormEntry} {w : Spelling} {W : Way} (h : wayOf e w = some W) : W.text.length = w.syms.length ∧ W.parts = piecesOf e w.caps := by
  rw [wayOf, Option.map_eq_some_iff] at h
  obtain ⟨x, h1, rfl⟩ := h
  simp

/-- An expression whose ways are listed. -/
structure ListsWays (e : FormEntry) (p : Form) (ws : List Way) : Prop where
  ways : p.spellings.map (wayOf e) = ws.map some
  regular : regular p.texts = true
  first : strictlyFirst p.texts = true

theorem ListsWays.to {e : FormEntry} {p : Form} {ws : List Way} (h : ListsWays e p ws) {w : Spelling} (hw : w ∈ p.spellings) : ∃ W ∈ ws, wayOf e w = some W := by
  have := List.mem_map_of_mem (f := wayOf e) hw
  rw [h.ways] at this
  obtain ⟨W, h1, h2⟩ := List.mem_map.1 this
  exact ⟨W, h1, h2.symm⟩

theorem ListsWays.back {e : FormEntry} {p : Form} {ws : List Way} (h : ListsWays e p ws) {W : Way} (hw : W ∈ ws) : ∃ w ∈ p.spellings, wayOf e w = some W := by
  have := List.mem_map_of_mem (f := some) hw
  rw [← h.ways] at this
  obtain ⟨w, h1, h2⟩ := List.mem_map.1 this
  exact ⟨w, h1, h2⟩

theorem ListsWays.plain {e : FormEntry} {p : Form} {ws : List Way} (h : ListsWays e p ws) {w : Spelling} (hw : w ∈ p.spellings) : w.syms ≠ [] ∧ ∀ x ∈ w.syms, x.plain = true :=
  regular_plain h.regular (List.mem_map_of_mem hw)

theorem shift_lookup {i n : Nat} {c : Caps} : (shiftCaps i c).lookup n = (c.lookup n).map fun x => (i + x.1, i + x.2) := by
  induction c with
  | nil => rfl
  | cons x c ih =>
    obtain ⟨m, a, b⟩ := x
    simp only [shiftCaps, List.map_cons, List.lookup_cons] at ih ⊢
    split
    · rfl
    · exact ih

/-- The children of a hit are the parts. -/
theorem form_kids {valid : Str → RxMatch Str → Bool} {e : FormEntry} {p : Form} {w : Spelling} {i j : Nat} {m : RxMatch Str} :
    m ∈ (e.pattern E valid p).kids s ⟨i, j, shiftCaps i w.caps⟩ ↔ ∃ x ∈ piecesOf e w.caps, m = x.found i := by
  simp only [RxPattern.kids, FormEntry.pattern, piecesOf, List.mem_filterMap, shift_lookup]
  constructor
  · rintro ⟨g, h1, h2⟩
    cases hl : w.caps.lookup g.1 with
    | none => rw [hl] at h2; cases h2
    | some x =>
      obtain ⟨a, b⟩ := x
      rw [hl] at h2
      simp only [Option.map_some] at h2
      by_cases hab : a < b
      · rw [if_pos (by omega)] at h2
        cases h2
        exact ⟨⟨g.2, (e.values.lookup g.2).getD [], a, b⟩, ⟨g, h1, by rw [hl]; simp [hab]⟩, rfl⟩
      · rw [if_neg (by omega)] at h2; cases h2
  · rintro ⟨x, ⟨g, h1, h2⟩, rfl⟩
    refine ⟨g, h1, ?_⟩
    cases hl : w.caps.lookup g.1 with
    | none => rw [hl] at h2; cases h2
    | some y =>
      obtain ⟨a, b⟩ := y
      rw [hl] at h2
      simp only at h2
      by_cases hab : a < b
      · rw [if_pos hab] at h2
        cases h2
        simp [hab, Piece.found]
      · rw [if_neg hab] at h2; cases h2

theorem form_accepts {valid : Str → RxMatch Str → Bool} {e : FormEntry} {p : Form} {h : RxHit} :
    (e.pattern E valid p).accepts s h = true ↔ valid s ((e.pattern E valid p).parent s h) = true := by
  have : (e.pattern E valid p).accepts s h = (((true && !true) || valid s ((e.pattern E valid p).parent s h)) && ((!true && !true) || ((e.pattern E valid p).kids s h).all fun _ => true)) := rfl
  rw [this]
  simp

/-- What an expression finds. -/
theorem form_sound (hE : Usual E) (hT : Themselves E) {valid : Str → RxMatch Str → Bool} {e : FormEntry} {p : Form} {ws : List Way} (hp : ListsWays e p ws) {m : RxMatch Str}
    (hm : m ∈ (e.pattern E valid p).found s) : ∃ w ∈ ws, ∃ i, w.LongestAt E ws s i ∧ (∃ v, valid s ⟨e.name, i, w.stop i, v⟩ = true) ∧ ∃ x ∈ w.parts, m = x.found i := by
  obtain ⟨h, h1, h2, h3⟩ := mem_found.1 hm
  obtain ⟨w, g1, g2, g3, g4⟩ := form_hit hE hT hp.regular hp.first h1
  obtain ⟨W, k1, k2⟩ := hp.to g1
  obtain ⟨l1, l2⟩ := way_length k2
  refine ⟨W, k1, h.start, ⟨(way_at hE k2 (hp.plain g1)).2 g2, fun X hX hs => ?_⟩, ?_, ?_⟩
  · obtain ⟨x, q1, q2⟩ := hp.back hX
    rw [(way_length q2).1, l1]
    exact g4 x q1 ((way_at hE q2 (hp.plain q1)).1 hs)
  · have := form_accepts.1 h2
    rw [RxPattern.parent, show h.stop = W.stop h.start by rw [Way.stop, l1, congrArg RxHit.stop g3]] at this
    exact ⟨_, this⟩
  · rw [show (e.pattern E valid p).children = true from rfl, if_pos rfl] at h3
    rw [g3] at h3
    rw [l2]
    exact form_kids.1 h3

/-- What is written is found. -/
theorem form_complete (hE : Usual E) (hT : Themselves E) {valid : Str → RxMatch Str → Bool} (hv : ∀ (s : Str) (m m' : RxMatch Str), m.start = m'.start → m.stop = m'.stop → valid s m = valid s m')
    {e : FormEntry} {p : Form} {ws : List Way} (hp : ListsWays e p ws) {w : Way} (hw : w ∈ ws) {i : Nat} (h1 : w.LongestAt E ws s i) {v : Except PyErr Str}
    (h2 : valid s ⟨e.name, i, w.stop i, v⟩ = true) (h3 : NoneAcross E ws s i) {x : Piece} (hx : x ∈ w.parts) : x.found i ∈ (e.pattern E valid p).found s := by
  obtain ⟨y, q1, q2⟩ := hp.back hw
  obtain ⟨l1, l2⟩ := way_length q2
  refine mem_found.2 ⟨⟨i, i + y.syms.length, shiftCaps i y.caps⟩, ?_, ?_, ?_⟩
  · refine form_hits hE hT hp.regular hp.first q1 ((way_at hE q2 (hp.plain q1)).1 h1.1) (fun z hz hs => ?_) fun z hz a ha hs => ?_
    · obtain ⟨Z, k1, k2⟩ := hp.to hz
      rw [← (way_length k2).1, ← l1]
      exact h1.2 Z k1 ((way_at hE k2 (hp.plain hz)).2 hs)
    · obtain ⟨Z, k1, k2⟩ := hp.to hz
      rw [← (way_length k2).1]
      exact h3 Z k1 a ha ((way_at hE k2 (hp.plain hz)).2 hs)
  · rw [form_accepts, ← h2]
    refine hv _ _ _ rfl ?_
    rw [Way.stop, l1]; rfl
  · rw [show (e.pattern E valid p).children = true from rfl, if_pos rfl]
    exact form_kids.2 ⟨x, l2 ▸ hx, rfl⟩

theorem forms_agree {e : FormEntry} {ts : List Str} : ∀ {wss : List (List Way)}, formsAgree e ts wss = true →
    (∀ t ∈ ts, ∃ p, parseForm e.names t = some p ∧ ∃ ws ∈ wss, ListsWays e p ws) ∧ ∀ ws ∈ wss, ∃ t ∈ ts, ∃ p, parseForm e.names t = some p ∧ ListsWays e p ws := by
  induction ts with
  | nil =>
    intro wss h
    cases wss with
    | nil => simp
    | cons => simp [formsAgree] at h
  | cons t ts ih =>
    intro wss h
    cases wss with
    | nil => simp [formsAgree] at h
    | cons ws wss =>
      rw [formsAgree, Bool.and_eq_true] at h
      obtain ⟨h1, h2⟩ := h
      obtain ⟨g1, g2⟩ := ih h2
      cases hp : parseForm e.names t with
      | none => rw [hp] at h1; cases h1
      | some p =>
        rw [hp] at h1
        simp only [Bool.and_eq_true, beq_iff_eq] at h1
        have hl : ListsWays e p ws := ⟨h1.1.1, h1.1.2, h1.2⟩
        constructor
        · intro t' ht'
          rcases List.mem_cons.1 ht' with rfl | ht'
          · exact ⟨p, hp, ws, List.mem_cons_self .., hl⟩
          · obtain ⟨p', k1, ws', k2, k3⟩ := g1 t' ht'
            exact ⟨p', k1, ws', List.mem_cons_of_mem _ k2, k3⟩
        · intro ws' hws'
          rcases List.mem_cons.1 hws' with rfl | hws'
          · exact ⟨t, List.mem_cons_self .., p, hp, hl⟩
          · obtain ⟨t', k1, k2⟩ := g2 ws' hws'
            exact ⟨t', List.mem_cons_of_mem _ k1, k2⟩

theorem formTable_agree {es : List FormEntry} : ∀ {vs : List (List (List Way))}, formTableAgree es vs = true →
    (∀ e ∈ es, ∃ v ∈ vs, formsAgree e e.regexes v = true) ∧ ∀ v ∈ vs, ∃ e ∈ es, formsAgree e e.regexes v = true := by
  induction es with
  | nil =>
    intro vs h
    cases vs with
    | nil => simp
    | cons => simp [formTableAgree] at h
  | cons e es ih =>
    intro vs h
    cases vs with
    | nil => simp [formTableAgree] at h
    | cons v vs =>
      rw [formTableAgree, Bool.and_eq_true] at h
      obtain ⟨g1, g2⟩ := ih h.2
      constructor
      · intro e' he'
        rcases List.mem_cons.1 he' with rfl | he'
        · exact ⟨v, List.mem_cons_self .., h.1⟩
        · obtain ⟨v', k1, k2⟩ := g1 e' he'
          exact ⟨v', List.mem_cons_of_mem _ k1, k2⟩
      · intro v' hv'
        rcases List.mem_cons.1 hv' with rfl | hv'
        · exact ⟨e, List.mem_cons_self .., h.1⟩
        · obtain ⟨e', k1, k2⟩ := g2 v' hv'
          exact ⟨e', List.mem_cons_of_mem _ k1, k2⟩

theorem mem_forms {valid : Str → RxMatch Str → Bool} {es : List FormEntry} {m : RxMatch Str} : m ∈ formsFound E valid es s ↔
    ∃ e ∈ es, ∃ t ∈ e.regexes, ∃ p, parseForm e.names t = some p ∧ m ∈ (e.pattern E valid p).found s := by
  simp only [formsFound, List.mem_flatMap]
  refine exists_congr fun e => and_congr_right fun _ => exists_congr fun t => and_congr_right fun _ => ?_
  cases parseForm e.names t with
  | none => simp
  | some p => simp

/-- Everything that is found is written. -/
theorem forms_sound (hE : Usual E) (hT : Themselves E) {valid : Str → RxMatch Str → Bool} (hv : ∀ (s : Str) (m m' : RxMatch Str), m.start = m'.start → m.stop = m'.stop → valid s m = valid s m')
    {es : List FormEntry} {vs : List (List (List Way))} (ha : formTableAgree es vs = true) {m : RxMatch Str} (hm : m ∈ formsFound E valid es s) :
    ∃ v ∈ vs, ∃ ws ∈ v, ∃ w ∈ ws, ∃ i, w.LongestAt E ws s i ∧ valid s ⟨[], i, w.stop i, .ok []⟩ = true ∧ ∃ x ∈ w.parts, m = x.found i := by
  obtain ⟨e, he, t, ht, p, hp, hm⟩ := mem_forms.1 hm
  obtain ⟨v, h1, h2⟩ := (formTable_agree ha).1 e he
  obtain ⟨p', h3, ws, h4, h5⟩ := (forms_agree h2).1 t ht
  rw [hp] at h3; cases h3
  obtain ⟨w, k1, i, k2, ⟨_, k3⟩, k4⟩ := form_sound hE hT h5 hm
  exact ⟨v, h1, ws, h4, w, k1, i, k2, by rw [← k3]; exact hv _ _ _ rfl rfl, k4⟩

/-- What is written is found, if nothing is in the way. -/
theorem forms_complete (hE : Usual E) (hT : Themselves E) {valid : Str → RxMatch Str → Bool} (hv : ∀ (s : Str) (m m' : RxMatch Str), m.start = m'.start → m.stop = m'.stop → valid s m = valid s m')
    {es : List FormEntry} {vs : List (List (List Way))} (ha : formTableAgree es vs = true) {v : List (List Way)} (h0 : v ∈ vs) {ws : List Way} (h1 : ws ∈ v) {w : Way} (hw : w ∈ ws) {i : Nat}
    (h2 : w.LongestAt E ws s i) (h3 : valid s ⟨[], i, w.stop i, .ok []⟩ = true) (h4 : NoneAcross E ws s i) {x : Piece} (hx : x ∈ w.parts) : x.found i ∈ formsFound E valid es s := by
  obtain ⟨e, he, hag⟩ := (formTable_agree ha).2 v h0
  obtain ⟨t, ht, p, hp, hl⟩ := (forms_agree hag).2 ws h1
  refine mem_forms.2 ⟨e, he, t, ht, p, hp, form_complete hE hT hv hl hw h2 (v := .ok []) ?_ h4 hx⟩
  rw [← h3]; exact hv _ _ _ rfl rfl

/-- None of these ways may begin within another: read from their texts. -/
def symOf (c : Char) : Sym := if c = ' ' then .dash else if c = '#' then .digit else if c = '*' then .any else .lit c

def apartWays (ws : List Way) : Bool := regular (ws.map fun w => w.text.map symOf) && unlapped (ws.map fun w => w.text.map symOf) && ws.all fun w => (w.text.map symOf).map Sym.code == w.text

theorem apart_ways (hE : Usual E) (hT : Themselves E) {ws : List Way} (h : apartWays ws = true) {w : Way} (hw : w ∈ ws) {i : Nat} (h1 : w.At E s i) : NoneAcross E ws s i := by
  simp only [apartWays, Bool.and_eq_true, List.all_eq_true, beq_iff_eq] at h
  obtain ⟨⟨hr, hu⟩, hc⟩ := h
  have key : ∀ x ∈ ws, ∀ k, x.At E s k → symsAt E s (x.text.map symOf) k = true := by
    intro x hx k hk
    have := hk.1
    rw [← hc x hx] at this
    exact (phrase_at hE (regular_plain hr (List.mem_map_of_mem (f := fun w : Way => w.text.map symOf) hx)).2).1 this
  intro x hx a ha hxa
  have := unlapped_clear hE hT hr hu (List.mem_map_of_mem (f := fun w : Way => w.text.map symOf) hw) (key w hw i h1) _ (List.mem_map_of_mem (f := fun w : Way => w.text.map symOf) hx) a ha (key x hx a hxa)
  simpa [Way.stop] using this

end
end Guessit
