import Verif.Proofs.Print
import Mathlib.Data.List.Forall2

/-!
# C103–C105: what the command prints
-/

namespace Guessit

open Spec

/-! ## Integers -/

theorem digitChar_dec : ∀ d, d < 10 → decDigit (digitChar d) = true ∧ (digitChar d).toNat - 48 = d ∧ (d ≠ 0 → digitChar d ≠ '0') := by
  decide

theorem natTextF_decimal (f n : Nat) (h : n < f) : natTextF f n ≠ [] ∧ (∀ c ∈ natTextF f n, decDigit c = true) ∧
    decimalNat (natTextF f n) = n ∧ (n ≠ 0 → ∀ c ∈ (natTextF f n).head?, c ≠ '0') := by
  induction f generalizing n with
  | zero => omega
  | succ f ih =>
    rw [natTextF]
    by_cases hn : n < 10
    · rw [if_pos hn]
      obtain ⟨h1, h2, h3⟩ := digitChar_dec n hn
      refine ⟨by simp, ?_, ?_, ?_⟩
      · intro c hc; simp only [List.mem_singleton] at hc; subst hc; exact h1
      · simp only [decimalNat, List.foldl_cons, List.foldl_nil]; omega
      · intro h0 c hc
        simp only [List.head?_cons, Option.mem_def, Option.some.injEq] at hc
        subst hc; exact h3 h0
    · rw [if_neg hn]
      obtain ⟨i1, i2, i3, i4⟩ := ih (n / 10) (by omega)
      obtain ⟨h1, h2, -⟩ := digitChar_dec (n % 10) (Nat.mod_lt _ (by omega))
      refine ⟨by simp, ?_, ?_, ?_⟩
      · intro c hc
        rcases List.mem_append.1 hc with hc | hc
        · exact i2 c hc
        · simp only [List.mem_singleton] at hc; subst hc; exact h1
      · unfold decimalNat at i3 ⊢
        rw [List.foldl_append, i3]
        simp only [List.foldl_cons, List.foldl_nil]; omega
      · intro _ c hc
        have : (natTextF f (n / 10) ++ [digitChar (n % 10)]).head? = (natTextF f (n / 10)).head? := by
          cases hx : natTextF f (n / 10) with
          | nil => exact absurd hx i1
          | cons a b => rfl
        rw [this] at hc
        exact i4 (by omega) c hc

theorem natText_unsigned (n : Nat) : isUnsigned (natText n) = true ∧ decimalNat (natText n) = n ∧
    ∃ c r, natText n = c :: r ∧ decDigit c = true := by
  obtain ⟨h1, h2, h3, h4⟩ := natTextF_decimal (n + 1) n (by omega)
  have ht : (natText n).takeWhile decDigit = natText n ∧ (natText n).dropWhile decDigit = [] := by
    unfold natText
    constructor
    · rw [List.takeWhile_eq_self_iff]; exact h2
    · rw [List.dropWhile_eq_nil_iff]; exact h2
  refine ⟨?_, h3, ?_⟩
  · unfold isUnsigned
    rw [ht.1, ht.2]
    by_cases h0 : n = 0
    · subst h0; rfl
    · have h4' := h4 h0
      unfold natText
      cases hx : natTextF (n + 1) n with
      | nil => exact absurd hx h1
      | cons a b =>
        rw [hx] at h4'
        have : a ≠ '0' := h4' a (by simp)
        simp [this, isFrac, isExp]
  · unfold natText
    cases hx : natTextF (n + 1) n with
    | nil => exact absurd hx h1
    | cons a b => rw [hx] at h2; exact ⟨a, b, rfl, h2 a (by simp)⟩

/-- **C103.** Integers are printed in decimal notation. -/
theorem C103_int (n : Int) : isNumber (intText n) = true ∧ decimal (intText n) = n := by
  obtain ⟨h1, h2, c, r, h3, h4⟩ := natText_unsigned n.natAbs
  unfold intText
  by_cases hn : n < 0
  · rw [if_pos hn]
    refine ⟨h1, ?_⟩
    show -(decimalNat (natText n.natAbs) : Int) = n
    rw [h2]; omega
  · rw [if_neg hn]
    have hc : c ≠ '-' := by
      rintro rfl
      exact absurd h4 (by decide)
    constructor
    · rw [h3] at h1 ⊢
      unfold isNumber
      split
      · rename_i e; cases e; exact absurd rfl hc
      · exact h1
    · unfold decimal
      split
      · rename_i e; rw [h3] at e; cases e; exact absurd rfl hc
      · rw [h2]; omega

/-! ## The encoder -/

theorem zip_cons_iff {α β : Type} {P : α × β → Prop} {a : α} {b : β} {as : List α} {bs : List β} :
    (∀ p ∈ (a :: as).zip (b :: bs), P p) ↔ P (a, b) ∧ ∀ p ∈ as.zip bs, P p := by
  simp [List.zip_cons_cons]

mutual
theorem jsonOf_sound {sh : Shown} (hf : Numeric sh) : ∀ (v : PyVal) (j : Json), jsonOf sh v = .ok j → InJson sh v j ∧ Proper j
  | .none, j, h => by rw [jsonOf] at h; cases h; exact ⟨.none, by rw [Proper] <;> simp⟩
  | .bool b, j, h => by rw [jsonOf] at h; cases h; exact ⟨.bool b, by rw [Proper] <;> simp⟩
  | .int n, j, h => by rw [jsonOf] at h; cases h; exact ⟨.int n, by rw [Proper]; exact (C103_int n).1⟩
  | .str s, j, h => by rw [jsonOf] at h; cases h; exact ⟨.str s, by rw [Proper] <;> simp⟩
  | .bytes s, j, h => by rw [jsonOf] at h; cases h; exact ⟨.bytes s, by rw [Proper] <;> simp⟩
  | .other o, j, h => by
    rw [jsonOf] at h
    cases hfo : sh.float o with
    | some t =>
      rw [hfo] at h; cases h
      exact ⟨.float o t hfo, by rw [Proper]; exact hf o t hfo⟩
    | none =>
      rw [hfo] at h; cases h
      refine ⟨?_, by rw [Proper] <;> simp⟩
      unfold encoderDefault
      cases hn : sh.name o with
      | some t => exact .named o t hfo hn
      | none => exact .object o hfo hn
  | .list xs, j, h => by
    rw [jsonOf] at h
    cases hx : jsonOfList sh xs with
    | error e => rw [hx] at h; cases h
    | ok js =>
      rw [hx] at h; cases h
      obtain ⟨h1, h2, h3⟩ := jsonOfList_sound hf xs js hx
      exact ⟨.list xs js h1 h2, by rw [Proper]; exact h3⟩
  | .dict kvs, j, h => by
    rw [jsonOf] at h
    cases hx : jsonOfItems sh kvs with
    | error e => rw [hx] at h; cases h
    | ok js =>
      rw [hx] at h; cases h
      obtain ⟨h1, h2, h3⟩ := jsonOfItems_sound hf kvs js hx
      exact ⟨.dict kvs js h1 h2, by rw [Proper]; exact h3⟩
termination_by structural v => v
theorem jsonOfList_sound {sh : Shown} (hf : Numeric sh) : ∀ (xs : List PyVal) (js : List Json), jsonOfList sh xs = .ok js →
    xs.length = js.length ∧ (∀ p ∈ xs.zip js, InJson sh p.1 p.2) ∧ ProperList js
  | [], js, h => by
    rw [jsonOfList] at h; cases h
    exact ⟨rfl, fun p hp => by simp at hp, by rw [ProperList]; trivial⟩
  | x :: xs, js, h => by
    rw [jsonOfList] at h
    cases hx : jsonOf sh x with
    | error e => rw [hx] at h; cases h
    | ok j =>
      rw [hx] at h
      simp only at h
      cases hxs : jsonOfList sh xs with
      | error e => rw [hxs] at h; cases h
      | ok js' =>
        rw [hxs] at h; cases h
        obtain ⟨i1, i2⟩ := jsonOf_sound hf x j hx
        obtain ⟨h1, h2, h3⟩ := jsonOfList_sound hf xs js' hxs
        exact ⟨by simp [h1], zip_cons_iff.2 ⟨i1, h2⟩, by rw [ProperList]; exact ⟨i2, h3⟩⟩
termination_by structural l => l
theorem jsonOfItems_sound {sh : Shown} (hf : Numeric sh) : ∀ (kvs : List (Key × PyVal)) (js : List (Str × Json)),
    jsonOfItems sh kvs = .ok js → kvs.map Prod.fst = js.map (fun e => Key.str e.1) ∧
      (∀ p ∈ (kvs.map Prod.snd).zip (js.map Prod.snd), InJson sh p.1 p.2) ∧ ProperItems js
  | [], js, h => by
    rw [jsonOfItems] at h; cases h
    exact ⟨rfl, fun p hp => by simp at hp, by rw [ProperItems]; trivial⟩
  | e :: rest, js, h => by
    rw [jsonOfItems] at h
    cases hx : jsonOfItem sh e with
    | error e => rw [hx] at h; cases h
    | ok p =>
      rw [hx] at h
      simp only at h
      cases hxs : jsonOfItems sh rest with
      | error e => rw [hxs] at h; cases h
      | ok js' =>
        rw [hxs] at h; cases h
        obtain ⟨i1, i2, i3⟩ := jsonOfItem_sound hf e p hx
        obtain ⟨h1, h2, h3⟩ := jsonOfItems_sound hf rest js' hxs
        exact ⟨by simp [h1, i1], by simp only [List.map_cons]; exact zip_cons_iff.2 ⟨i2, h2⟩, by rw [ProperItems]; exact ⟨i3, h3⟩⟩
termination_by structural l => l
theorem jsonOfItem_sound {sh : Shown} (hf : Numeric sh) : ∀ (e : Key × PyVal) (p : Str × Json), jsonOfItem sh e = .ok p →
    e.1 = Key.str p.1 ∧ InJson sh e.2 p.2 ∧ ProperEntry p
  | (.bytes b, v), p, h => by rw [jsonOfItem] at h; cases h
  | (.str k, v), p, h => by
    rw [jsonOfItem] at h
    cases hx : jsonOf sh v with
    | error e => rw [hx] at h; cases h
    | ok j =>
      rw [hx] at h; cases h
      obtain ⟨i1, i2⟩ := jsonOf_sound hf v j hx
      exact ⟨rfl, i1, by rw [ProperEntry]; exact i2⟩
termination_by structural e => e
end

mutual
theorem jsonOf_complete {sh : Shown} : ∀ (v : PyVal), (∃ j, jsonOf sh v = .ok j) ↔ TextKeys v
  | .none => by rw [jsonOf]; exact ⟨fun _ => .none, fun _ => ⟨_, rfl⟩⟩
  | .bool b => by rw [jsonOf]; exact ⟨fun _ => .bool b, fun _ => ⟨_, rfl⟩⟩
  | .int n => by rw [jsonOf]; exact ⟨fun _ => .int n, fun _ => ⟨_, rfl⟩⟩
  | .str s => by rw [jsonOf]; exact ⟨fun _ => .str s, fun _ => ⟨_, rfl⟩⟩
  | .bytes s => by rw [jsonOf]; exact ⟨fun _ => .bytes s, fun _ => ⟨_, rfl⟩⟩
  | .other o => by
    rw [jsonOf]
    refine ⟨fun _ => .other o, fun _ => ?_⟩
    split <;> exact ⟨_, rfl⟩
  | .list xs => by
    rw [jsonOf]
    have ih := jsonOfList_complete (sh := sh) xs
    constructor
    · rintro ⟨j, h⟩
      cases hx : jsonOfList sh xs with
      | error e => rw [hx] at h; cases h
      | ok js => exact .list xs (ih.1 ⟨js, hx⟩)
    · intro h
      cases h with
      | list _ h =>
        obtain ⟨js, hx⟩ := ih.2 h
        rw [hx]; exact ⟨_, rfl⟩
  | .dict kvs => by
    rw [jsonOf]
    have ih := jsonOfItems_complete (sh := sh) kvs
    constructor
    · rintro ⟨j, h⟩
      cases hx : jsonOfItems sh kvs with
      | error e => rw [hx] at h; cases h
      | ok js =>
        have := ih.1 ⟨js, hx⟩
        exact .dict kvs (fun e he => (this e he).1) (fun e he => (this e he).2)
    · intro h
      cases h with
      | dict _ h1 h2 =>
        obtain ⟨js, hx⟩ := ih.2 (fun e he => ⟨h1 e he, h2 e he⟩)
        rw [hx]; exact ⟨_, rfl⟩
termination_by structural v => v
theorem jsonOfList_complete {sh : Shown} : ∀ (xs : List PyVal), (∃ js, jsonOfList sh xs = .ok js) ↔ ∀ x ∈ xs, TextKeys x
  | [] => by rw [jsonOfList]; simp
  | x :: xs => by
    have i1 := jsonOf_complete (sh := sh) x
    have i2 := jsonOfList_complete (sh := sh) xs
    rw [List.forall_mem_cons, ← i1, ← i2, jsonOfList]
    cases jsonOf sh x with
    | error e => simp
    | ok j =>
      cases jsonOfList sh xs with
      | error e => simp
      | ok js => simp
termination_by structural l => l
theorem jsonOfItems_complete {sh : Shown} : ∀ (kvs : List (Key × PyVal)), (∃ js, jsonOfItems sh kvs = .ok js) ↔
    ∀ e ∈ kvs, (∃ k, e.1 = Key.str k) ∧ TextKeys e.2
  | [] => by rw [jsonOfItems]; simp
  | e :: rest => by
    have i1 := jsonOfItem_complete (sh := sh) e
    have i2 := jsonOfItems_complete (sh := sh) rest
    rw [List.forall_mem_cons, ← i1, ← i2, jsonOfItems]
    cases jsonOfItem sh e with
    | error e => simp
    | ok j =>
      cases jsonOfItems sh rest with
      | error e => simp
      | ok js => simp
termination_by structural l => l
theorem jsonOfItem_complete {sh : Shown} : ∀ (e : Key × PyVal), (∃ p, jsonOfItem sh e = .ok p) ↔ (∃ k, e.1 = Key.str k) ∧ TextKeys e.2
  | (.bytes b, v) => by rw [jsonOfItem]; simp
  | (.str k, v) => by
    have i := jsonOf_complete (sh := sh) v
    rw [← i, jsonOfItem]
    cases jsonOf sh v <;> simp
termination_by structural e => e
end

/-! ## C103 -/

/-- **C103.** A guess is printed as JSON iff no key in it is bytes. -/
theorem C103_prints (sh : Shown) (L : Layout) (v : PyVal) : (∃ t, jsonDumps sh L v = .ok t) ↔ TextKeys v := by
  rw [← jsonOf_complete (sh := sh) v]
  unfold jsonDumps
  cases jsonOf sh v <;> simp

/-- **C103.** The JSON printed, compact or indented, is read back by any JSON reader as the value. -/
theorem C103_reads_back {sh : Shown} (hf : Numeric sh) {L : Layout} (hL : L = compact ∨ L = indented) {v : PyVal} {t : Str}
    (h : jsonDumps sh L v = .ok t) : ReadsAs sh t v := by
  unfold jsonDumps at h
  cases hj : jsonOf sh v with
  | error e => rw [hj] at h; cases h
  | ok j =>
    rw [hj] at h; cases h
    obtain ⟨h1, h2⟩ := jsonOf_sound hf v j hj
    refine ⟨j, read_render ?_ h2 0, h1⟩
    rcases hL with rfl | rfl
    · exact compact_airy
    · exact indented_airy

theorem jsonOfList_of {sh : Shown} : ∀ (xs : List PyVal) (js : List Json), xs.length = js.length →
    (∀ p ∈ xs.zip js, jsonOf sh p.1 = .ok p.2) → jsonOfList sh xs = .ok js
  | [], [], _, _ => by rw [jsonOfList]
  | [], _ :: _, h, _ => by simp at h
  | _ :: _, [], h, _ => by simp at h
  | x :: xs, j :: js, h, hp => by
    obtain ⟨h1, h2⟩ := zip_cons_iff.1 hp
    rw [jsonOfList, h1]
    simp only
    rw [jsonOfList_of xs js (by simpa using h) h2]

theorem jsonOfItems_of {sh : Shown} : ∀ (kvs : List (Key × PyVal)) (js : List (Str × Json)),
    kvs.map Prod.fst = js.map (fun e => Key.str e.1) → (∀ p ∈ (kvs.map Prod.snd).zip (js.map Prod.snd), jsonOf sh p.1 = .ok p.2) →
    jsonOfItems sh kvs = .ok js
  | [], [], _, _ => by rw [jsonOfItems]
  | [], _ :: _, h, _ => by simp at h
  | _ :: _, [], h, _ => by simp at h
  | (k, v) :: kvs, (t, j) :: js, h, hp => by
    simp only [List.map_cons, List.cons.injEq] at h hp
    obtain ⟨h1, h2⟩ := zip_cons_iff.1 hp
    obtain ⟨rfl, h4⟩ := h
    rw [jsonOfItems, jsonOfItem, h1]
    simp only
    rw [jsonOfItems_of kvs js h4 h2]

/-- The value is encoded as it looks in JSON. -/
theorem jsonOf_of {sh : Shown} {v : PyVal} {j : Json} (h : InJson sh v j) : jsonOf sh v = .ok j := by
  induction h with
  | none => rw [jsonOf]
  | bool b => rw [jsonOf]
  | int n => rw [jsonOf]
  | str s => rw [jsonOf]
  | bytes b => rw [jsonOf]
  | float o t h => rw [jsonOf, h]
  | named o t h1 h2 => rw [jsonOf, h1]; simp only; rw [encoderDefault, h2]
  | object o h1 h2 => rw [jsonOf, h1]; simp only; rw [encoderDefault, h2]
  | list xs js h1 _ ih => rw [jsonOf, jsonOfList_of xs js h1 ih]
  | dict kvs js h1 _ ih => rw [jsonOf, jsonOfItems_of kvs js h1 ih]

/-- **C103.** A value looks one way in JSON: two readings of the text printed agree, and two values printed alike look alike. -/
theorem C103_one_reading {sh : Shown} {v : PyVal} {j j' : Json} (h : InJson sh v j) (h' : InJson sh v j') : j = j' := by
  have := (jsonOf_of h).symm.trans (jsonOf_of h')
  cases this; rfl

/-! ### One line -/

theorem oneLine_append {a b : Str} (ha : OneLine a) (hb : OneLine b) : OneLine (a ++ b) := fun c hc =>
  (List.mem_append.1 hc).elim (ha c) (hb c)

theorem oneLine_cons {x : Char} {b : Str} (ha : 32 ≤ x.toNat) (hb : OneLine b) : OneLine (x :: b) := fun c hc =>
  (List.mem_cons.1 hc).elim (fun h => h ▸ ha) (hb c)

theorem numChar_line {c : Char} (h : numChar c = true) : 32 ≤ c.toNat := by
  unfold numChar at h
  simp only [Bool.or_eq_true, decide_eq_true_eq] at h
  rcases h with ((((h | h) | h) | h) | h) | h
  · rw [decDigit_iff] at h; omega
  all_goals subst h; decide

theorem hexDigit_line : ∀ n, n < 16 → 32 ≤ (hexDigit n).toNat := by decide

theorem escape_line (c : Char) : OneLine (escapeChar c) := by
  unfold escapeChar
  repeat' split
  all_goals first
    | (intro x hx; revert x; decide)
    | skip
  · rename_i h
    refine oneLine_append (by intro x hx; revert x; decide) ?_
    refine oneLine_cons (hexDigit_line _ (by omega)) (oneLine_cons (hexDigit_line _ (by omega)) ?_)
    intro x hx; cases hx
  · intro x hx
    simp only [List.mem_singleton] at hx
    subst hx; omega

theorem quote_line (s : Str) : OneLine (quote s) := by
  refine oneLine_cons (by decide) (oneLine_append ?_ (by intro x hx; revert x; decide))
  intro c hc
  obtain ⟨x, -, hx⟩ := List.mem_flatMap.1 hc
  exact escape_line x c hx

theorem between_line {d : Nat} : OneLine (compact.between d) := by
  show OneLine c!" "
  intro x hx; revert x; decide

mutual
theorem render_line : ∀ (j : Json), Proper j → ∀ d, OneLine (render compact d j)
  | .null, _, d => by rw [render]; intro x hx; revert x; decide
  | .bool true, _, d => by rw [render]; intro x hx; revert x; decide
  | .bool false, _, d => by rw [render]; intro x hx; revert x; decide
  | .num t, h, d => by
    rw [Proper] at h
    rw [render]
    exact fun c hc => numChar_line (isNumber_chars h c hc)
  | .str s, _, d => by rw [render]; exact quote_line s
  | .arr xs, h, d => by
    rw [Proper] at h
    have ih := renderList_line xs h
    cases xs with
    | nil => rw [render]; intro x hx; revert x; decide
    | cons x xs =>
      rw [render]
      have := ih d
      rw [renderList] at this
      exact oneLine_cons (by decide) (fun c hc => this c (by simp only [compact, List.nil_append] at hc ⊢; simp [hc]))
  | .obj es, h, d => by
    rw [Proper] at h
    have ih := renderItems_line es h
    cases es with
    | nil => rw [render]; intro x hx; revert x; decide
    | cons x xs =>
      rw [render]
      have := ih d
      rw [renderItems] at this
      exact oneLine_cons (by decide) (fun c hc => this c (by simp only [compact, List.nil_append] at hc ⊢; simp [hc]))
termination_by structural j => j
theorem renderList_line : ∀ (l : List Json), ProperList l → ∀ d, OneLine (renderList compact d l)
  | [], _, d => by
    rw [renderList]
    show OneLine c!"]"
    intro x hx; revert x; decide
  | x :: xs, h, d => by
    rw [ProperList] at h
    have i1 := render_line x h.1
    have i2 := renderList_line xs h.2
    rw [renderList]
    exact oneLine_cons (by decide) (oneLine_append (oneLine_append between_line (i1 _)) (i2 _))
termination_by structural l => l
theorem renderItems_line : ∀ (l : List (Str × Json)), ProperItems l → ∀ d, OneLine (renderItems compact d l)
  | [], _, d => by
    rw [renderItems]
    show OneLine c!"}"
    intro x hx; revert x; decide
  | e :: es, h, d => by
    rw [ProperItems] at h
    have i1 := renderEntry_line e h.1
    have i2 := renderItems_line es h.2
    rw [renderItems]
    exact oneLine_cons (by decide) (oneLine_append (oneLine_append between_line (i1 _)) (i2 _))
termination_by structural l => l
theorem renderEntry_line : ∀ (e : Str × Json), ProperEntry e → ∀ d, OneLine (renderEntry compact d e)
  | (k, j), h, d => by
    rw [ProperEntry] at h
    have i := render_line j h
    rw [renderEntry]
    exact oneLine_append (oneLine_append (quote_line k) (by intro x hx; revert x; decide)) (i _)
termination_by structural e => e
end

/-- **C103.** The compact JSON is one line, whatever the texts in it. -/
theorem C103_one_line {sh : Shown} (hf : Numeric sh) {v : PyVal} {t : Str} (h : jsonDumps sh compact v = .ok t) : OneLine t := by
  unfold jsonDumps at h
  cases hj : jsonOf sh v with
  | error e => rw [hj] at h; cases h
  | ok j =>
    rw [hj] at h; cases h
    exact render_line j (jsonOf_sound hf v j hj).2 0

/-! ### What is printed for a name -/

theorem asked_iff (options : Dict) (name : Str) : truthy (options.getD (.str name)) = true ↔ Asked options name := by
  unfold Asked Dict.getD
  cases options.get? (.str name) with
  | none => simp [truthy]
  | some v => simp

theorem not_asked {options : Dict} {name : Str} (h : ¬ Asked options name) : truthy (options.getD (.str name)) = false := by
  rw [← asked_iff] at h
  simpa using h

/-- **C103.** With `--json` a name is answered by one line, which reads as the guess, and nothing else is printed. -/
theorem C103_json_mode (w : Writer) (hf : Numeric w.shown) (options : Dict) (name : Str) (guess : Dict) (hj : Asked options c!"json")
    (hs : ¬ Asked options c!"show_property") {out : List Str} (h : guessBody w options name guess = .ok out) :
    guessHead options name = [] ∧ ∃ t, out = [t] ∧ OneLine t ∧ ReadsAs w.shown t (.dict guess) := by
  have h1 := not_asked hs
  have h2 := (asked_iff _ _).2 hj
  constructor
  · unfold guessHead
    rw [h2]; simp
  · unfold guessBody at h
    rw [h1, h2] at h
    simp only [Bool.false_eq_true, if_false, if_true] at h
    cases hd : jsonDumps w.shown compact (.dict guess) with
    | error e => rw [hd] at h; cases h
    | ok t =>
      rw [hd] at h; cases h
      exact ⟨t, rfl, C103_one_line hf hd, C103_reads_back hf (.inl rfl) hd⟩

/-- **C103.** Without any of the three options: the name, then the guess in indented JSON. -/
theorem C103_plain_mode (w : Writer) (hf : Numeric w.shown) (options : Dict) (name : Str) (guess : Dict)
    (hj : ¬ Asked options c!"json") (hy : ¬ Asked options c!"yaml") (hs : ¬ Asked options c!"show_property") {out : List Str}
    (h : guessBody w options name guess = .ok out) :
    guessHead options name = [c!"For: " ++ name] ∧ ∃ t, out = [c!"GuessIt found: " ++ t] ∧ ReadsAs w.shown t (.dict guess) := by
  have h1 := not_asked hs
  have h2 := not_asked hj
  have h3 := not_asked hy
  constructor
  · unfold guessHead
    rw [h1, h2, h3]; rfl
  · unfold guessBody at h
    rw [h1, h2, h3] at h
    simp only [Bool.false_eq_true, if_false] at h
    cases hd : jsonDumps w.shown indented (.dict guess) with
    | error e => rw [hd] at h; cases h
    | ok t =>
      rw [hd] at h; cases h
      exact ⟨t, rfl, C103_reads_back hf (.inr rfl) hd⟩

/-- **C103.** The text shown of a value is that of Python's `print`. -/
theorem C103_show_text (sh : Shown) (v : PyVal) (t : Str) : pyStr sh v = t ↔ Displays sh v t := by
  constructor
  · rintro rfl
    cases v with
    | none => exact .none
    | bool b => cases b; exacts [.no, .yes]
    | int n => exact .int n _ (C103_int n).1 (C103_int n).2 rfl
    | str s => exact .str s
    | bytes b => exact .bytes b
    | list xs => exact .list xs
    | dict kvs => exact .dict kvs
    | other o =>
      cases h : sh.float o with
      | none =>
        have : pyStr sh (.other o) = sh.text o := by simp only [pyStr, h]
        rw [this]; exact .object o h
      | some t =>
        have : pyStr sh (.other o) = t := by simp only [pyStr, h]
        rw [this]; exact .float o t h
  · intro h
    cases h with
    | int n t _ _ h => exact h.symm
    | float o t h => simp only [pyStr, h]
    | object o h => simp only [pyStr, h]
    | _ => rfl

/-- **C103.** With `--show-property p` only the value of `p` is printed, an empty line when the guess has none. -/
theorem C103_show_mode (w : Writer) (options : Dict) (name p : Str) (guess : Dict) (hp : options.get? (.str c!"show_property") = some (.str p))
    (hne : p ≠ []) : guessHead options name = [] ∧
      guessBody w options name guess = .ok [match guess.get? (.str p) with | some v => pyStr w.shown v | none => []] := by
  have hg : options.getD (.str c!"show_property") = .str p := by rw [Dict.getD, hp]; rfl
  have h1 : truthy (options.getD (.str c!"show_property")) = true := by
    rw [hg]
    cases p with
    | nil => exact absurd rfl hne
    | cons a b => rfl
  constructor
  · unfold guessHead
    rw [h1]; simp
  · unfold guessBody shownProperty
    rw [h1, if_pos rfl, hg]
    simp only
    cases guess.get? (.str p) <;> rfl

theorem guessit_dict {R : Type} (S : Sys R) (env : Env) (st : Api R) (name : NameArg) (o : OptArg) (v : PyVal)
    (h : (st.guessit S env name o).2 = .value v) : ∃ d, v = .dict d := by
  unfold Api.guessit at h
  split at h
  · rename_i e _
    cases e <;> simp [wrap] at h
  · split at h
    · rename_i e _
      cases he : e.err <;> simp [wrap, he] at h
    · split at h
      · simp [wrap] at h
      · split at h
        · rename_i e _
          cases e <;> simp [wrap] at h
        · cases h; exact ⟨_, rfl⟩

/-- **C103.** With `--json`, a run that answers all its names prints one line for each, in order, which reads as its guess. -/
theorem C103_run {R : Type} (S : Sys R) (env : Env) (w : Writer) (hf : Numeric w.shown) (options : Dict) (hj : Asked options c!"json")
    (hs : ¬ Asked options c!"show_property") : ∀ (names : List Str) (st : Api R) (acts : List CliAct) (lines : List Str),
    guessAllNames S env options st (names.map .str) = (acts, none) → printGuesses w options acts = .ok lines →
    ∃ guesses : List Dict, guesses.length = names.length ∧
      acts = List.zipWith (fun n d => CliAct.guess (.str n) (.value (.dict d))) names guesses ∧
      List.Forall₂ (fun t d => OneLine t ∧ ReadsAs w.shown t (.dict d)) lines guesses
  | [], st, acts, lines, h, hp => by
    rw [List.map_nil, guessAllNames] at h
    cases h
    rw [printGuesses] at hp
    cases hp
    exact ⟨[], rfl, rfl, .nil⟩
  | n :: names, st, acts, lines, h, hp => by
    rw [List.map_cons, guessAllNames, cliName] at h
    simp only at h
    rcases hg : st.guessit S env (.str n) (.dict options) with ⟨st', out⟩
    rw [hg] at h
    cases out with
    | guessitException nm => simp at h
    | raised e => simp at h
    | value v =>
      obtain ⟨d, rfl⟩ := guessit_dict S env st (.str n) (.dict options) v (by rw [hg])
      simp only at h
      rcases hr : guessAllNames S env options st' (names.map .str) with ⟨acts', o'⟩
      rw [hr] at h
      cases h
      rw [printGuesses] at hp
      cases hb : guessBody w options n d with
      | error e => rw [hb] at hp; cases hp
      | ok body =>
        rw [hb] at hp
        simp only at hp
        cases hm : printGuesses w options acts' with
        | error e => rw [hm] at hp; cases hp
        | ok more =>
          rw [hm] at hp
          cases hp
          obtain ⟨gs, i1, i2, i3⟩ := C103_run S env w hf options hj hs names st' acts' more hr hm
          obtain ⟨h1, t, rfl, h2, h3⟩ := C103_json_mode w hf options n d hj hs hb
          refine ⟨d :: gs, by simp [i1], by rw [i2]; rfl, ?_⟩
          rw [h1]
          exact .cons ⟨h2, h3⟩ i3

/-! ### A concrete case -/

/-- Object 0 is a language, 1 a size, 2 a float. -/
def demoShown : Shown where
  float := fun o => if o = 2 then some c!"1.778" else none
  name := fun o => if o = 0 then some c!"French" else none
  text := fun o => if o = 0 then c!"fr" else c!"700MB"
  bytesText := fun _ => c!"b''"
  containerText := fun _ => c!"[]"

theorem demoShown_numeric : Numeric demoShown := by
  intro o t h
  unfold demoShown at h
  simp only at h
  split at h
  · cases h; decide
  · cases h

/-- A guess with a line break and quotes in its title. -/
def demoGuess : Dict := [(.str c!"title", .str c!"a\n\"b\""), (.str c!"year", .int 1982), (.str c!"language", .list [.other 0]),
  (.str c!"size", .other 1), (.str c!"aspect_ratio", .other 2)]

example : jsonDumps demoShown compact (.dict demoGuess) = .ok
    c!"{\"title\": \"a\\n\\\"b\\\"\", \"year\": 1982, \"language\": [\"French\"], \"size\": \"700MB\", \"aspect_ratio\": 1.778}" := by
  decide +kernel

example : jsonDumps demoShown indented (.dict [(.str c!"year", .int 1982), (.str c!"x", .list [])]) = .ok
    c!"{\n    \"year\": 1982,\n    \"x\": []\n}" := by decide +kernel

example : ReadsAs demoShown c!"{\n    \"year\": 1982,\n    \"x\": []\n}" (.dict [(.str c!"year", .int 1982), (.str c!"x", .list [])]) :=
  C103_reads_back demoShown_numeric (.inr rfl) (by decide +kernel)

/-- A reader that is no printer: escapes and white space that guessit never prints are read too, and junk is refused. -/
example : (readJson c!" [ 1 ,\"\\u0041\\/\" ] ").isSome = true ∧ (readJson c!"[1,]").isSome = false ∧
    (readJson c!"01").isSome = false ∧ (readJson c!"{\"a\" 1}").isSome = false := by decide +kernel

/-! ## C104 -/

theorem insertText_perm (x : Str) : ∀ l, List.Perm (insertText x l) (x :: l)
  | [] => .refl _
  | y :: ys => by
    rw [insertText]
    split
    · exact .refl _
    · exact ((insertText_perm x ys).cons y).trans (.swap x y ys)

theorem str_lt_trans {a b c : Str} (h1 : a < b) (h2 : b < c) : a < c := List.lt_trans h1 h2

theorem insertText_sorted (x : Str) : ∀ l : List Str, l.Pairwise (fun a b => ¬ b < a) → (insertText x l).Pairwise (fun a b => ¬ b < a)
  | [], _ => by rw [insertText]; exact List.pairwise_singleton _ _
  | y :: ys, h => by
    rw [insertText]
    obtain ⟨h1, h2⟩ := List.pairwise_cons.1 h
    split
    · rename_i hx
      refine List.pairwise_cons.2 ⟨?_, h⟩
      intro z hz hzx
      rcases List.mem_cons.1 hz with rfl | hz
      · exact List.lt_irrefl _ (str_lt_trans hx hzx)
      · exact h1 z hz (str_lt_trans hzx hx)
    · rename_i hx
      refine List.pairwise_cons.2 ⟨?_, insertText_sorted x ys h2⟩
      intro z hz
      rcases List.mem_cons.1 ((insertText_perm x ys).mem_iff.1 hz) with rfl | hz
      · exact hx
      · exact h1 z hz

theorem sortTexts_spec (l : List Str) : (sortTexts l).Perm l ∧ (sortTexts l).Pairwise (fun a b => ¬ b < a) := by
  have key : ∀ (l acc : List Str), acc.Pairwise (fun a b => ¬ b < a) →
      (l.foldl (fun acc x => insertText x acc) acc).Perm (l ++ acc) ∧
      (l.foldl (fun acc x => insertText x acc) acc).Pairwise (fun a b => ¬ b < a) := by
    intro l
    induction l with
    | nil => intro acc h; exact ⟨.refl _, h⟩
    | cons x l ih =>
      intro acc h
      obtain ⟨i1, i2⟩ := ih (insertText x acc) (insertText_sorted x acc h)
      refine ⟨?_, i2⟩
      rw [List.foldl_cons]
      exact i1.trans ((List.Perm.append_left l (insertText_perm x acc)).trans List.perm_middle)
  have := key l [] List.Pairwise.nil
  rw [List.append_nil] at this
  exact this

/-- The lines of a property: its name, and its values when they are asked for. -/
def propertyLines (sh : Shown) (values : Bool) (name : Str) : PyVal → List Str
  | .list vs => (c!"  [+] " ++ name) :: if values then vs.map (fun v => c!"    [!] " ++ pyStr sh v) else []
  | _ => [c!"  [+] " ++ name]

/-- **C104.** The plain listing has every property once, in alphabetical order, each followed by its values when they are asked
for. -/
theorem C104_plain (w : Writer) (options : Dict) (props : List (Str × PyVal)) (hn : (props.map Prod.fst).Nodup)
    (hj : ¬ Asked options c!"json") (hy : ¬ Asked options c!"yaml") : ∃ sorted : List (Str × PyVal), sorted.Perm props ∧
      sorted.Pairwise (fun a b => a.1 < b.1) ∧ propertiesBody w options props =
        .ok (c!"GuessIt properties:" :: sorted.flatMap fun e => propertyLines w.shown (truthy (options.getD (.str c!"values"))) e.1 e.2) := by
  obtain ⟨h1, h2⟩ := sortTexts_spec (props.map Prod.fst)
  have hlook : ∀ e ∈ props, List.lookup e.1 props = some e.2 := by
    intro e he
    clear h1 h2 hj hy
    induction props with
    | nil => cases he
    | cons p ps ih =>
      rw [List.map_cons, List.nodup_cons] at hn
      rcases List.mem_cons.1 he with rfl | he
      · obtain ⟨a, b⟩ := e
        rw [List.lookup_cons_self]
      · have hne : e.1 ≠ p.1 := fun h => hn.1 (h ▸ List.mem_map_of_mem he)
        rw [List.lookup_cons]
        have : (e.1 == p.1) = false := by simpa using hne
        rw [this]
        exact ih hn.2 he
  have hmem : ∀ n ∈ sortTexts (props.map Prod.fst), ∃ e ∈ props, e.1 = n := by
    intro n hn'
    obtain ⟨e, he, h⟩ := List.mem_map.1 (h1.mem_iff.1 hn')
    exact ⟨e, he, h⟩
  let S := (sortTexts (props.map Prod.fst)).map fun n => (n, (List.lookup n props).getD .none)
  have hfst : S.map Prod.fst = sortTexts (props.map Prod.fst) := by simp [S, Function.comp_def]
  refine ⟨S, ?_, ?_, ?_⟩
  · have hp : S.Perm ((props.map Prod.fst).map fun n => (n, (List.lookup n props).getD .none)) := h1.map _
    have he : ((props.map Prod.fst).map fun n => (n, (List.lookup n props).getD .none)) = props := by
      rw [List.map_map]
      conv => rhs; rw [← List.map_id props]
      apply List.map_congr_left
      intro e he
      simp only [Function.comp, hlook e he, Option.getD_some, id]
    rw [he] at hp
    exact hp
  · have hnd : (sortTexts (props.map Prod.fst)).Nodup := h1.nodup_iff.2 hn
    show (List.map _ _).Pairwise _
    rw [List.pairwise_map]
    refine (h2.and hnd).imp ?_
    intro a b hab
    simp only
    rcases Decidable.em (a < b) with h | h
    · exact h
    · exact absurd (List.le_antisymm (List.not_lt.1 hab.1) (List.not_lt.1 h)) hab.2
  · unfold propertiesBody
    simp only [not_asked hj, not_asked hy, Bool.false_eq_true, if_false]
    congr 2
    show _ = List.flatMap _ (List.map _ _)
    rw [List.flatMap_map]
    congr 1
    funext n
    generalize (List.lookup n props).getD .none = v
    cases v <;> rfl

/-- **C104.** In JSON the listing is one line, which reads as the names in their order, or as the names with their values. -/
theorem C104_json (w : Writer) (hf : Numeric w.shown) (options : Dict) (props : List (Str × PyVal)) (hj : Asked options c!"json")
    {out : List Str} (h : propertiesBody w options props = .ok out) : ∃ t, out = [t] ∧ OneLine t ∧
      (Asked options c!"values" → ReadsAs w.shown t (.dict (props.map fun e => (Key.str e.1, e.2)))) ∧
      (¬ Asked options c!"values" → ReadsAs w.shown t (.list (props.map fun e => .str e.1))) := by
  unfold propertiesBody at h
  simp only [(asked_iff _ _).2 hj, if_true] at h
  split at h
  · cases h
  · rename_i t ht
    cases h
    refine ⟨t, rfl, C103_one_line hf ht, ?_, ?_⟩
    · intro ha
      rw [if_pos ((asked_iff _ _).2 ha)] at ht
      exact C103_reads_back hf (.inl rfl) ht
    · intro ha
      rw [if_neg (by rw [not_asked ha]; simp)] at ht
      exact C103_reads_back hf (.inl rfl) ht

/-- A writer for examples. -/
def demoWriter : Writer := ⟨demoShown, fun _ _ => [], fun _ => []⟩

example : propertiesBody demoWriter [(.str c!"values", .bool true)] [(c!"year", .list [.int 1982]), (c!"part", .list [])] =
    .ok [c!"GuessIt properties:", c!"  [+] part", c!"  [+] year", c!"    [!] 1982"] := by decide +kernel

/-! ## C105 -/

/-- **C105.** With `--yaml`, when the document is the name as a simple key and the properties below it, the name becomes an
explicit key and nothing else changes. -/
theorem C105_simple (w : Writer) (options : Dict) (name key first : Str) (rest : List Str) (guess : Dict)
    (hy : Asked options c!"yaml") (hj : ¬ Asked options c!"json") (hs : ¬ Asked options c!"show_property")
    (hd : w.yamlGuess name guess = (key ++ c!":") :: (c!"  " ++ first) :: rest) :
    guessHead options name = [] ∧ guessBody w options name guess = .ok ((c!"? " ++ key) :: (c!": " ++ first) :: rest) := by
  have h1 := not_asked hs
  have h2 := not_asked hj
  have h3 := (asked_iff _ _).2 hy
  constructor
  · unfold guessHead
    rw [h3]; simp
  · unfold guessBody
    rw [h1, h2, h3, hd]
    simp only [Bool.false_eq_true, if_false, if_true, yamlLines]
    rw [show key ++ c!":" = key ++ [':'] from rfl, List.dropLast_concat]
    rfl

/-- **C105** in full is false of the code: when PyYAML itself writes the name as an explicit key (names of 128 characters or
more), the name printed has lost its last character and has one question mark too many. -/
theorem C105_counterexample_long (w : Writer) (options : Dict) (name key : Str) (last : Char) (second : Str) (rest : List Str)
    (guess : Dict) (hy : Asked options c!"yaml") (hj : ¬ Asked options c!"json") (hs : ¬ Asked options c!"show_property")
    (hd : w.yamlGuess name guess = (c!"? " ++ (key ++ [last])) :: (c!":" ++ second) :: rest) :
    guessBody w options name guess = .ok ((c!"? ? " ++ key) :: (c!":" ++ second) :: rest) := by
  have h1 := not_asked hs
  have h2 := not_asked hj
  have h3 := (asked_iff _ _).2 hy
  unfold guessBody
  rw [h1, h2, h3, hd]
  simp only [Bool.false_eq_true, if_false, if_true, yamlLines]
  rw [← List.append_assoc, List.dropLast_concat]
  rfl

example : yamlLines [c!"Foo 1982.mkv:", c!"  title: Foo", c!"  year: 1982"] = [c!"? Foo 1982.mkv", c!": title: Foo", c!"  year: 1982"] := by
  decide +kernel

end Guessit
