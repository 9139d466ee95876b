import Verif.Spec.Amounts
import Verif.Props.Quantity
import Verif.Props.GroupName
import Verif.Props.Part

/-! # C119: which sizes and bit rates are recognised -/

namespace Guessit
open Spec Re

/-! ## Magnitudes -/

/-- Where a magnitude of a pattern can end. -/
structure MagRe (E : RxEnv) (mag : Re) (P : Str → Nat → Nat → Prop) : Prop where
  mem : ∀ {s i x c c'}, (x, c') ∈ mag.exec s i c → c' = c ∧ P s i x
  head : ∀ {s i x c}, P s i x → NoDigitAt E s x → (mag.exec s i c).head? = some (x, c)

def WholeAt (E : RxEnv) (s : Str) (i x : Nat) : Prop := i < x ∧ AllOf s (Digit E) i x
def DecimalAt (E : RxEnv) (s : Str) (i x : Nat) : Prop :=
  ∃ k, i < k ∧ AllOf s (Digit E) i k ∧ s[k]? = some '.' ∧ k + 1 < x ∧ AllOf s (Digit E) (k + 1) x

theorem whole_mag (E : RxEnv) : MagRe E E.whole (WholeAt E) where
  mem := by
    intro s i x c c' h
    simp only [RxEnv.whole, Re.cat, mem_seq, mem_eps, mem_number] at h
    obtain ⟨k, c1, ⟨rfl, h1, h2⟩, rfl, rfl⟩ := h
    exact ⟨rfl, h1, h2⟩
  head := by
    rintro s i x c ⟨h1, h2⟩ hn
    exact seq_head (digits_head h1 h2 hn) eps_head

theorem dot_not_digit {E : RxEnv} (hE : Usual E) : E.u.isDigit '.' = false := by
  have := sep_not_digit hE (c := '.') (by decide)
  simpa [Digit] using this

theorem decimal_mag {E : RxEnv} (hE : Usual E) : MagRe E E.decimal (DecimalAt E) where
  mem := by
    intro s i x c c' h
    simp only [RxEnv.decimal, Re.cat, mem_seq, mem_eps, mem_number] at h
    obtain ⟨k, c1, ⟨rfl, h1, h2⟩, k2, c2, h3, k3, c3, ⟨rfl, h4, h5⟩, rfl, rfl⟩ := h
    rw [mem_lit] at h3
    obtain ⟨h3, h6, h7⟩ := h3
    subst h6 h7
    exact ⟨rfl, k, h1, h2, (get_of_drop h3).1, h4, h5⟩
  head := by
    rintro s i x c ⟨k, h1, h2, h3, h4, h5⟩ hn
    refine seq_head (digits_head h1 h2 ?_) (seq_head (chr_head h3 (by simp)) (seq_head (digits_head h4 h5 hn) eps_head))
    intro y hy
    rw [h3, Option.some.injEq] at hy
    subst hy
    simp [Digit, dot_not_digit hE]

/-! ## Units -/

/-- The words a unit pattern accepts; a word before a separator is taken whole. -/
structure UnitRe (E : RxEnv) (unit : Re) (W : List Str) : Prop where
  letters : ∀ w ∈ W, ∀ c ∈ w, c ∈ alphabet
  ne : ∀ w ∈ W, w ≠ []
  mem : ∀ {s y j c c'}, (j, c') ∈ unit.exec s y c → ∃ w ∈ W, LiteralAt E s w y ∧ j = y + w.length
  head : ∀ {s y c} {w : Str}, w ∈ W → LiteralAt E s w y → FreeAfter s (y + w.length) → ∃ c', (unit.exec s y c).head? = some (y + w.length, c')

theorem literal_two {E : RxEnv} {s : Str} {a b : Char} {i : Nat} : LiteralAt E s [a, b] i ↔
    CharAt s (fun c => E.same a c = true) i ∧ CharAt s (fun c => E.same b c = true) (i + 1) := by
  rw [LiteralAt.cons, LiteralAt.cons]
  simp [LiteralAt]

theorem mem_oneOf {E : RxEnv} {ls s : Str} {i j : Nat} {c c' : Caps} : (j, c') ∈ (E.oneOf ls).exec s i c ↔
    j = i + 1 ∧ c' = c ∧ ∃ l ∈ ls, CharAt s (fun c => E.same l c = true) i := by
  rw [RxEnv.oneOf, mem_chr]
  constructor
  · rintro ⟨⟨x, h1, h2⟩, h3, h4⟩
    obtain ⟨l, hl, hs⟩ := List.any_eq_true.1 h2
    exact ⟨h3, h4, l, hl, x, h1, hs⟩
  · rintro ⟨rfl, rfl, l, hl, x, hx, hs⟩
    exact ⟨⟨x, hx, List.any_eq_true.2 ⟨l, hl, hs⟩⟩, rfl, rfl⟩

theorem sizeUnit_re (E : RxEnv) : UnitRe E E.sizeUnit (sizeUnits.map Prod.fst) where
  letters := by decide
  ne := by decide
  mem := by
    intro s y j c c' h
    simp only [RxEnv.sizeUnit, mem_seq, mem_oneOf, mem_letter] at h
    obtain ⟨k, c1, ⟨rfl, rfl, l, hl, h1⟩, h2, rfl, rfl⟩ := h
    have hall : ∀ l ∈ c!"mgt", [l, 'b'] ∈ sizeUnits.map Prod.fst := by decide
    exact ⟨[l, 'b'], hall l hl, literal_two.2 ⟨h1, h2⟩, rfl⟩
  head := by
    intro s y c w hw hl _
    have hall : ∀ w ∈ sizeUnits.map Prod.fst, ∃ l ∈ c!"mgt", w = [l, 'b'] := by decide
    obtain ⟨l, hlm, rfl⟩ := hall w hw
    obtain ⟨⟨x, hx, h1⟩, z, hz, h2⟩ := literal_two.1 hl
    exact ⟨c, seq_head (chr_head hx (List.any_eq_true.2 ⟨l, hlm, h1⟩)) (chr_head hz h2)⟩

/-! ## The patterns -/

section
variable {E : RxEnv} {cap : Str → Str} {fl : Floats} {name : Str} {cls : QClass} {mag unit : Re} {P : Str → Nat → Nat → Prop} {W : List Str}

theorem mem_amount (hM : MagRe E mag P) (hU : UnitRe E unit W) {s : Str} {i j : Nat} {c c' : Caps}
    (h : (j, c') ∈ (amountPattern E cap fl name cls mag unit).re.exec s i c) :
    ∃ x y, P s i x ∧ MaybeSep s x y ∧ ∃ w ∈ W, LiteralAt E s w y ∧ j = y + w.length := by
  have h : (j, c') ∈ (Re.cat [mag, dashRe, unit]).exec s i c := h
  simp only [Re.cat, mem_seq, mem_eps, mem_dash] at h
  obtain ⟨x, c1, h1, y, c2, ⟨h2, rfl⟩, k, c3, h3, rfl, rfl⟩ := h
  exact ⟨x, y, (hM.mem h1).2, h2, hU.mem h3⟩

theorem unit_first (hE : Usual E) (hU : UnitRe E unit W) {s w : Str} {y : Nat} (hw : w ∈ W) (hl : LiteralAt E s w y) :
    CharAt s (fun x => x ∉ seps ∧ ¬ Digit E x) y := by
  have hne := hU.ne w hw
  obtain ⟨l, w', rfl⟩ := List.exists_cons_of_ne_nil hne
  obtain ⟨x, hx, hs⟩ := hl 0 l rfl
  have hla := hU.letters _ hw l (by simp)
  refine ⟨x, hx, fun h => ?_, letter_not_digit hE hla hs⟩
  rw [sep_not_letter hE hla h] at hs; cases hs

theorem amount_matchAt (hE : Usual E) (hM : MagRe E mag P) (hU : UnitRe E unit W) {s w : Str} {i x y : Nat} (h1 : P s i x)
    (h2 : MaybeSep s x y) (hw : w ∈ W) (hl : LiteralAt E s w y) (hf : FreeAfter s (y + w.length)) :
    ∃ c, (amountPattern E cap fl name cls mag unit).re.matchAt s i = some (y + w.length, c) := by
  have hy := unit_first hE hU hw hl
  have hx : NoDigitAt E s x := by
    intro z hz hd
    rcases h2 with rfl | ⟨rfl, h3⟩
    · obtain ⟨z', hz', _, h4⟩ := hy
      rw [hz, Option.some.injEq] at hz'; subst hz'
      exact h4 hd
    · obtain ⟨z', hz', h4, _⟩ := h3
      rw [hz, Option.some.injEq] at hz'; subst hz'
      exact sep_not_digit hE h4 hd
  obtain ⟨c', hc'⟩ := hU.head (c := []) hw hl hf
  refine ⟨c', matchAt_head (seq_head (hM.head h1 hx) (seq_head (dash_head h2 ?_) (seq_head hc' eps_head)))⟩
  rintro rfl z hz hs
  obtain ⟨z', hz', h4, _⟩ := hy
  rw [hz, Option.some.injEq] at hz'; subst hz'
  exact h4 hs

/-- Positions of a match are digits, the point, the separator or letters. -/
theorem unit_letter (hE : Usual E) (hU : UnitRe E unit W) {s w : Str} {y k : Nat} (hw : w ∈ W) (hl : LiteralAt E s w y) (h1 : y ≤ k)
    (h2 : k < y + w.length) : CharAt s (fun x => x ∉ seps ∧ ¬ Digit E x) k := by
  have hk : k - y < w.length := by omega
  obtain ⟨x, hx, hs⟩ := hl (k - y) w[k - y] (List.getElem?_eq_some_iff.2 ⟨hk, rfl⟩)
  rw [show y + (k - y) = k by omega] at hx
  have hla := hU.letters _ hw _ (List.getElem_mem hk)
  refine ⟨x, hx, fun h => ?_, letter_not_digit hE hla hs⟩
  rw [sep_not_letter hE hla h] at hs; cases hs

/-- A magnitude that begins after a separator is not the middle of an earlier match. -/
def Clear (E : RxEnv) (P : Str → Nat → Nat → Prop) : Prop := ∀ s i i' x x' y y', P s i x → P s i' x' → i' < i → i < x' → CharAt s (· ∈ seps) (i - 1) →
  MaybeSep s x y → CharAt s (fun c => c ∉ seps ∧ ¬ Digit E c) y → MaybeSep s x' y' → CharAt s (fun c => c ∉ seps ∧ ¬ Digit E c) y' → False

theorem amount_found (hE : Usual E) (hM : MagRe E mag P) (hU : UnitRe E unit W) (hP : ∀ s i x, P s i x → i < x ∧ CharAt s (Digit E) i) (hclear : Clear E P)
    (s : Str) (m : RxMatch (Quantity fl)) : m ∈ (amountPattern E cap fl name cls mag unit).found s ↔ m.name = name ∧ Standing s m.start m.stop ∧
      (∃ x y, P s m.start x ∧ MaybeSep s x y ∧ ∃ w ∈ W, LiteralAt E s w y ∧ m.stop = y + w.length) ∧
      m.value = fromString (qenv E cap fl) cls ((s.take m.stop).drop m.start) := by
  have eats : (amountPattern E cap fl name cls mag unit).re.Eats := by
    intro s i j c _ h
    obtain ⟨x, y, h1, h2, w, hw, _, rfl⟩ := mem_amount hM hU (matchAt_mem h)
    have := (hP _ _ _ h1).1
    rcases h2 with rfl | ⟨rfl, _⟩ <;> omega
  rw [mem_found]
  have hch : (amountPattern E cap fl name cls mag unit).children = false := rfl
  constructor
  · rintro ⟨⟨i, j, c⟩, hh, ha, hm⟩
    obtain ⟨h1, _⟩ := hits_sound hh
    simp only at h1
    rw [hch, if_neg (by simp), List.mem_singleton] at hm
    subst hm
    refine ⟨rfl, ?_, mem_amount hM hU (matchAt_mem h1), rfl⟩
    simp only [RxPattern.accepts, Bool.and_eq_true] at ha
    have := ha.1
    rw [hch] at this
    simp only [Bool.false_and, Bool.false_or] at this
    exact standing_iff.1 this
  · obtain ⟨n, i, j, v⟩ := m
    rintro ⟨h0, h1, ⟨x, y, h2, h3, w, hw, hl, h4⟩, h5⟩
    simp only at h0 h1 h2 h4 h5
    subst h0 h4
    obtain ⟨c, hc⟩ := amount_matchAt (cap := cap) (fl := fl) (name := n) (cls := cls) hE hM hU h2 h3 hw hl h1.2
    obtain ⟨_, z, hz, hzd⟩ := hP _ _ _ h2
    refine ⟨⟨i, y + w.length, c⟩, hits_complete eats hc ?_ ?_, ?_, ?_⟩
    · have := (List.getElem?_eq_some_iff.1 hz).1; omega
    · intro i' j' c' hlt hm
      obtain ⟨x', y', g2, g3, w', hw', hl', rfl⟩ := mem_amount hM hU (matchAt_mem hm)
      by_contra hcon
      have hsep : CharAt s (· ∈ seps) (i - 1) := by
        rcases h1.1 with h | h
        · omega
        · exact h
      by_cases hin : i < x'
      · exact hclear s i i' x x' y y' h2 g2 hlt hin hsep h3 (unit_first hE hU hw hl) g3 (unit_first hE hU hw' hl')
      · rcases g3 with rfl | ⟨rfl, g3⟩
        · obtain ⟨z', hz', _, h6⟩ := unit_letter hE hU (k := i) hw' hl' (by omega) (by omega)
          rw [hz, Option.some.injEq] at hz'; subst hz'
          exact h6 hzd
        · by_cases hx : i = x'
          · subst hx
            obtain ⟨z', hz', h6, _⟩ := g3
            rw [hz, Option.some.injEq] at hz'; subst hz'
            exact sep_not_digit hE h6 hzd
          · obtain ⟨z', hz', _, h6⟩ := unit_letter hE hU (k := i) hw' hl' (by omega) (by omega)
            rw [hz, Option.some.injEq] at hz'; subst hz'
            exact h6 hzd
    · simp only [RxPattern.accepts, hch, Bool.false_and, Bool.false_or, Bool.and_eq_true]
      refine ⟨standing_iff.2 h1, ?_⟩
      simp [amountPattern]
    · rw [hch, if_neg (by simp), List.mem_singleton, h5]; rfl

end

theorem whole_clear {E : RxEnv} (hE : Usual E) : Clear E (WholeAt E) := by
  intro s i i' x x' y y' h1 h2 hlt hin hsep _ _ _ _
  exact hsep.false (h2.2 (i - 1) (by omega) (by omega)) fun c h1 h2 => sep_not_digit hE h1 h2

theorem decimal_clear {E : RxEnv} (hE : Usual E) : Clear E (DecimalAt E) := by
  rintro s i i' x x' y y' ⟨k, h1, h2, h3, h4, h5⟩ ⟨k', g1, g2, g3, g4, g5⟩ hlt hin hsep _ _ hs' hy'
  have hnd : ∀ {a b n}, AllOf s (Digit E) a b → a ≤ n → n < b → CharAt s (· ∈ seps) n → False := by
    intro a b n h ha hb hn
    exact hn.false (h n ha hb) fun c h1 h2 => sep_not_digit hE h1 h2
  have hk' : i - 1 = k' := by
    rcases Nat.lt_trichotomy (i - 1) k' with h | h | h
    · exact absurd (hnd g2 (by omega) h hsep) not_false
    · exact h
    · exact absurd (hnd g5 (by omega) (by omega) hsep) not_false
  have hi : i = k' + 1 := by omega
  subst hi
  have dot : CharAt s (· ∈ seps) k := ⟨'.', h3, by decide⟩
  have hxk : x' = k := by
    rcases Nat.lt_trichotomy x' k with h | h | h
    · exfalso
      have hd := h2 x' (by omega) h
      rcases hs' with rfl | ⟨rfl, h6⟩
      · exact hd.false hy' fun c h1 h2 => h2.2 h1
      · exact hd.false h6 fun c h1 h2 => sep_not_digit hE h2.1 h1
    · exact h
    · exact absurd (hnd g5 (by omega) h dot) not_false
  subst hxk
  rcases hs' with rfl | ⟨rfl, h6⟩
  · exact dot.false hy' fun c h1 h2 => h2.1 h1
  · exact (h5 (x' + 1) (Nat.le_refl _) h4).false hy' fun c h1 h2 => h2.2 h1


theorem letter_nil {E : RxEnv} {l : Char} {s : Str} {i : Nat} {c : Caps} (h : ¬ CharAt s (fun c => E.same l c = true) i) : (E.letter l).exec s i c = [] := by
  by_contra hc
  obtain ⟨⟨j, c'⟩, hm⟩ := List.exists_mem_of_ne_nil _ hc
  exact h (mem_letter.1 hm).1

theorem Spec.LiteralAt.append {E : RxEnv} {s v w : Str} {i : Nat} : LiteralAt E s (v ++ w) i ↔ LiteralAt E s v i ∧ LiteralAt E s w (i + v.length) := by
  induction v generalizing i with
  | nil => simp [LiteralAt]
  | cons l v ih =>
    rw [List.cons_append, LiteralAt.cons, LiteralAt.cons, ih]
    simp only [List.length_cons, and_assoc]
    rw [show i + 1 + v.length = i + (v.length + 1) by omega]

theorem rateUnit_re {E : RxEnv} (hE : Usual E) : UnitRe E E.rateUnit (rateUnits.map Prod.fst) where
  letters := by decide
  ne := by decide
  mem := by
    intro s y j c c' h
    simp only [RxEnv.rateUnit, mem_seq, mem_oneOf, mem_letter, mem_grp, mem_alt, mem_word] at h
    obtain ⟨k, c1, ⟨rfl, rfl, l, hl, h1⟩, k2, c2, ⟨h2, rfl, rfl⟩, c3, h3, rfl⟩ := h
    have hall : ∀ l ∈ c!"kmg", l :: c!"bps" ∈ rateUnits.map Prod.fst ∧ l :: c!"bit" ∈ rateUnits.map Prod.fst ∧ l :: c!"bits" ∈ rateUnits.map Prod.fst := by decide
    obtain ⟨a1, a2, a3⟩ := hall l hl
    have mk : ∀ r, LiteralAt E s r (y + 1 + 1) → LiteralAt E s (l :: 'b' :: r) y := by
      intro r hr
      rw [LiteralAt.cons, LiteralAt.cons]
      exact ⟨h1, h2, hr⟩
    rcases h3 with ⟨h3, rfl, _⟩ | ⟨k4, c4, ⟨h3, rfl, _⟩, h4⟩
    · exact ⟨_, a1, mk _ h3, rfl⟩
    · rw [mem_optional] at h4
      · rcases h4 with h4 | ⟨rfl, _⟩
        rotate_left
        · exact ⟨_, a2, mk _ h3, rfl⟩
        · obtain ⟨h5, rfl, _⟩ := mem_letter.1 h4
          refine ⟨_, a3, mk _ ?_, rfl⟩
          have : c!"its" = c!"it" ++ c!"s" := rfl
          rw [this, LiteralAt.append]
          refine ⟨h3, ?_⟩
          rw [LiteralAt.cons]
          exact ⟨h5, by simp [LiteralAt]⟩
      · intro j c1 hj
        have := (mem_letter.1 hj).2.1; omega
  head := by
    intro s y c w hw hl hf
    have hall : ∀ w ∈ rateUnits.map Prod.fst, ∃ l ∈ c!"kmg", ∃ r ∈ [c!"ps", c!"it", c!"its"], w = l :: 'b' :: r := by decide
    obtain ⟨l, hlm, r, hr, rfl⟩ := hall w hw
    rw [LiteralAt.cons, LiteralAt.cons] at hl
    obtain ⟨⟨x, hx, h1⟩, ⟨z, hz, h2⟩, h3⟩ := hl
    have key : ∃ c', ((Re.alt (E.word c!"ps") (.seq (E.word c!"it") (.opt (E.letter 's')))).exec s (y + 1 + 1) c).head? = some (y + 1 + 1 + r.length, c') := by
      simp only [List.mem_cons, List.not_mem_nil, or_false] at hr
      have hno : LiteralAt E s c!"it" (y + 1 + 1) → (E.word c!"ps").exec s (y + 1 + 1) c = [] := by
        intro h
        rw [word_exec_nil]
        intro h'
        obtain ⟨a, ha, hs⟩ := h 0 'i' rfl
        obtain ⟨b, hb, hs'⟩ := h' 0 'p' rfl
        rw [ha, Option.some.injEq] at hb; subst hb
        exact absurd (hE.apart 'i' (by decide) 'p' (by decide) a hs hs') (by decide)
      rcases hr with rfl | rfl | rfl
      · refine ⟨c, ?_⟩
        rw [exec, List.head?_append, word_head h3]; rfl
      · refine ⟨c, ?_⟩
        rw [exec, hno h3, List.nil_append]
        refine seq_head (word_head h3) ?_
        rw [opt_nil]
        · rfl
        · apply letter_nil
          intro hs
          have e : y + (l :: 'b' :: c!"it").length = y + 1 + 1 + c!"it".length := rfl
          rw [e] at hf
          rcases hf with hf | hf
          · obtain ⟨a, ha, _⟩ := hs
            have := (List.getElem?_eq_some_iff.1 ha).1; omega
          · refine hf.false hs fun a h4 h5 => ?_
            rw [sep_not_letter hE (by decide) h4] at h5; cases h5
      · refine ⟨c, ?_⟩
        have e : c!"its" = c!"it" ++ c!"s" := rfl
        rw [e, LiteralAt.append] at h3
        obtain ⟨h3, h4⟩ := h3
        rw [exec, hno h3, List.nil_append]
        obtain ⟨a, ha, hs⟩ := h4 0 's' rfl
        exact seq_head (word_head h3) (opt_head (chr_head ha hs) (by simp))
    obtain ⟨c', hc'⟩ := key
    have e : y + (l :: 'b' :: r).length = y + 1 + 1 + r.length := by simp only [List.length_cons]; omega
    rw [e]
    exact ⟨_, seq_head (chr_head hx (List.any_eq_true.2 ⟨l, hlm, h1⟩)) (seq_head (chr_head hz h2) (grp_head hc'))⟩


/-! ## Values -/

theorem pyInt_point (u : Uni) (hu : Sane u) {a b : Str} (ha : a ≠ []) (hb : b ≠ []) (hda : ∀ c ∈ a, u.isDigit c = true)
    (hdb : ∀ c ∈ b, u.isDigit c = true) (hdot : u.digit '.' = none) : pyInt u (a ++ '.' :: b) = .error .valueError := by
  obtain ⟨x, a', rfl⟩ := List.exists_cons_of_ne_nil ha
  have hx := hda x (by simp)
  have hsp : ∀ c, u.isDigit c = true → u.space c = false := hu.digit_space
  have e1 : (x :: a' ++ '.' :: b).dropWhile u.space = x :: a' ++ '.' :: b := by
    rw [List.cons_append, List.dropWhile_cons, if_neg]
    simp [hsp x hx]
  have e2 : (x :: a' ++ '.' :: b).reverse.dropWhile u.space = (x :: a' ++ '.' :: b).reverse := by
    obtain ⟨b', y, rfl⟩ : ∃ b' y, b = b' ++ [y] := ⟨b.dropLast, b.getLast hb, (List.dropLast_append_getLast hb).symm⟩
    rw [show x :: a' ++ '.' :: (b' ++ [y]) = (x :: a' ++ '.' :: b') ++ [y] by simp, List.reverse_append, List.reverse_singleton,
      List.singleton_append, List.dropWhile_cons, if_neg]
    simp [hsp y (hdb y (by simp))]
  have hbody := intBody_stop u (x :: a') '.' b hdot (by decide) hda 0 false
  have hminus : x ≠ '-' := by rintro rfl; simp [Uni.isDigit, hu.minus] at hx
  have hplus : x ≠ '+' := by rintro rfl; simp [Uni.isDigit, hu.plus] at hx
  unfold pyInt
  simp only [e1, e2, List.reverse_reverse]
  split
  · rename_i n he
    split at he
    · rename_i s hs; rw [List.cons_append] at hs; simp only [List.cons.injEq] at hs; exact absurd hs.1 hminus
    · rename_i s hs; rw [List.cons_append] at hs; simp only [List.cons.injEq] at hs; exact absurd hs.1 hplus
    · rw [hbody] at he; cases he
  · rfl

theorem text_split {s : Str} {i x j : Nat} (h1 : i ≤ x) (h2 : x ≤ j) (h3 : j ≤ s.length) : (s.take j).drop i = (s.take x).drop i ++ (s.take j).drop x := by
  have e : s.take j = s.take x ++ (s.take j).drop x := by
    conv => lhs; rw [← List.take_append_drop x (s.take j)]
    rw [List.take_take, Nat.min_eq_left h2]
  conv => lhs; rw [e]
  rw [List.drop_append_of_le_length (by rw [List.length_take]; omega)]

theorem text_char {s : Str} {k : Nat} {c : Char} (h : s[k]? = some c) : (s.take (k + 1)).drop k = [c] := by
  have h1 : (s.take (k + 1))[k]? = some c := by rw [List.getElem?_take, if_pos (by omega)]; exact h
  rw [drop_cons h1]
  simp only [List.cons.injEq, true_and]
  apply List.drop_eq_nil_of_le
  rw [List.length_take]; omega

theorem text_mem {s : Str} {i j : Nat} {p : Char → Prop} (h : AllOf s p i j) : ∀ c ∈ (s.take j).drop i, p c := by
  intro c hc
  obtain ⟨k, hk⟩ := List.mem_iff_getElem?.1 hc
  rw [List.getElem?_drop, List.getElem?_take] at hk
  split at hk
  · obtain ⟨x, hx, hp⟩ := h (i + k) (by omega) (by omega)
    rw [hx, Option.some.injEq] at hk; subst hk; exact hp
  · cases hk

theorem text_ne {s : Str} {i j : Nat} {p : Char → Prop} (h : AllOf s p i j) (hij : i < j) : (s.take j).drop i ≠ [] := by
  intro he
  have := textOf_length (i := i) (h.le hij)
  rw [he] at this; simp at this; omega

/-- The magnitude `fromstring` reads from a text. -/
def magOf (u : Uni) (fl : Floats) (t : Str) : Mag fl := match pyInt u t with
  | .ok n => .int n
  | .error _ => .float (fl.ofText t)

theorem amount_mag {E : RxEnv} (hE : Usual E) {fl : Floats} {s : Str} {i x : Nat} {v : Mag fl} (h : Amount E fl s i x v) :
    i < x ∧ x ≤ s.length ∧ MagText E.u ((s.take x).drop i) ∧ magOf E.u fl ((s.take x).drop i) = v := by
  cases h with
  | whole n h =>
    refine ⟨h.some, h.digits.le h.some, .int _ (text_ne h.digits h.some) (text_mem h.digits), ?_⟩
    rw [magOf, number_pyInt hE h]
  | decimal k h1 h2 h3 h4 h5 =>
    have hx := h5.le h4
    have e : (s.take x).drop i = (s.take k).drop i ++ '.' :: (s.take x).drop (k + 1) := by
      rw [text_split (x := k) (by omega) (by omega) hx, text_split (i := k) (x := k + 1) (by omega) (by omega) hx, text_char h3]; rfl
    have hdot : E.u.digit '.' = none := by
      have := dot_not_digit hE
      simpa [Uni.isDigit] using this
    refine ⟨by omega, hx, ?_, ?_⟩
    · rw [e]
      exact .dec _ _ (text_ne h2 h1) (text_mem h2) (text_ne h5 h4) (text_mem h5)
    · have hp := pyInt_point E.u hE.sane (text_ne h2 h1) (text_ne h5 h4) (text_mem h2) (text_mem h5) hdot
      rw [← e] at hp
      rw [magOf, hp]; rfl

theorem fromString_parts (Q : QEnv) (hdot : Q.u.isDigit '.' = false) (cls : QClass) {m us : Str} (hm : MagText Q.u m) (hus : us ≠ [])
    (hun : ∀ c ∈ us, Q.u.isDigit c = false) {un : Str} (hp : parseUnits Q cls (some us) = .ok un) :
    fromString Q cls (m ++ us) = .ok ⟨cls, magOf Q.u Q.fl m, un⟩ := by
  rw [fromString, exec_magnitude hdot hm hus hun]
  simp only [List.lookup, Option.map, beq_iff_eq]
  simp [hp, magOf, ← List.length_append]
  cases pyInt Q.u m <;> rfl

theorem stripped {E : RxEnv} (hE : Usual E) {s w : Str} {x y : Nat} (hw : ∀ c ∈ w, c ∈ alphabet) (hne : w ≠ []) (hs : MaybeSep s x y)
    (hl : LiteralAt E s w y) : x ≤ y ∧ y + w.length ≤ s.length ∧ (∀ c ∈ (s.take (y + w.length)).drop x, E.u.isDigit c = false) ∧
      stripChars seps ((s.take (y + w.length)).drop x) = (s.take (y + w.length)).drop y := by
  have hall : AllOf s (fun c => c ∉ seps ∧ ¬ Digit E c) y (y + w.length) := by
    intro k h1 h2
    have hk : k - y < w.length := by omega
    obtain ⟨z, hz, hs⟩ := hl (k - y) w[k - y] (List.getElem?_eq_some_iff.2 ⟨hk, rfl⟩)
    rw [show y + (k - y) = k by omega] at hz
    have hla := hw _ (List.getElem_mem hk)
    refine ⟨z, hz, fun h => ?_, letter_not_digit hE hla hs⟩
    rw [sep_not_letter hE hla h] at hs; cases hs
  have hpos : 0 < w.length := List.length_pos_iff.2 hne
  have hle := hall.le (by omega)
  have hne' := text_ne hall (by omega)
  have hmem := text_mem hall
  have hfix : ∀ c, c ∈ (s.take (y + w.length)).drop y → c ∉ seps := fun c hc => (hmem c hc).1
  rcases hs with rfl | ⟨rfl, z, hz, hzs, _⟩
  · refine ⟨Nat.le_refl _, hle, fun c hc => by simpa [Digit] using (hmem c hc).2, ?_⟩
    exact strip_fix (fun c hc => hfix c (List.mem_of_head? hc)) (fun c hc => hfix c (List.mem_of_getLast? hc))
  · have e : (s.take (x + 1 + w.length)).drop x = [z] ++ (s.take (x + 1 + w.length)).drop (x + 1) := by
      rw [text_split (x := x + 1) (by omega) (by omega) hle, text_char hz]
    refine ⟨by omega, hle, ?_, ?_⟩
    · intro c hc
      rw [e, List.mem_append, List.mem_singleton] at hc
      rcases hc with rfl | hc
      · simpa [Digit] using sep_not_digit hE hzs
      · simpa [Digit] using (hmem c hc).2
    · rw [e]
      exact strip_lead (by simpa using hzs) hne' (fun c hc => hfix c (List.mem_of_head? hc)) (fun c hc => hfix c (List.mem_of_getLast? hc))

/-- How the units of a class are written, for the words of a table. -/
def Units (E : RxEnv) (cap : Str → Str) (fl : Floats) (cls : QClass) (units : List (Str × Str)) : Prop :=
  ∀ w u, (w, u) ∈ units → ∀ us t : Str, stripChars seps us = t → t.map lowLetter = w → (∀ c ∈ t, c ∈ wordLetters) → t.map upLetter = w.map upLetter →
    parseUnits (qenv E cap fl) cls (some us) = .ok u

theorem size_units {E : RxEnv} (hC : Cased E.u) {cap : Str → Str} {fl : Floats} : Units E cap fl .size sizeUnits := by
  intro w u hw us t ht _ hlet hup
  show Except.ok (E.u.upper (stripChars seps us)) = _
  rw [ht, hC.upper t hlet, hup]
  have hall : ∀ e ∈ sizeUnits, e.1.map upLetter = e.2 := by decide
  rw [hall _ hw]

theorem rate_units {E : RxEnv} {cap : Str → Str} (hc : Capitalizes cap) {fl : Floats} : Units E cap fl .bitRate rateUnits := by
  intro w u hw us t ht hlow hlet hup
  show Except.ok (replaceText c!"bit" c!"bps" (replaceText c!"bits" c!"bps" (cap (stripChars seps us)))) = _
  rw [ht]
  have hall : ∀ e ∈ rateUnits, ∃ l r, e.1 = l :: r ∧ replaceText c!"bit" c!"bps" (replaceText c!"bits" c!"bps" (upLetter l :: r)) = e.2 := by
    intro e he
    have h0 : ∀ e ∈ rateUnits, e.1 ≠ [] ∧ replaceText c!"bit" c!"bps" (replaceText c!"bits" c!"bps" (upLetter (e.1.headD 'a') :: e.1.tail)) = e.2 := by
      decide +kernel
    obtain ⟨h1, h2⟩ := h0 e he
    obtain ⟨l, r, hr⟩ := List.exists_cons_of_ne_nil h1
    exact ⟨l, r, hr, by rw [hr] at h2; exact h2⟩
  obtain ⟨l, r, hr, hrep⟩ := hall _ hw
  simp only at hr hrep
  subst hr
  cases t with
  | nil => simp at hlow
  | cons c t =>
    simp only [List.map_cons, List.cons.injEq] at hlow hup
    rw [hc c t (hlet c (by simp)) (fun x hx => hlet x (by simp [hx])), hlow.2, hup.1, hrep]

/-! ## C119 -/

theorem measured_value {E : RxEnv} (hE : Usual E) {cap : Str → Str} {fl : Floats} {cls : QClass} {units : List (Str × Str)} {s : Str} (hp : PlainCase E s) (hun : Units E cap fl cls units) (hlet : ∀ e ∈ units, e.1 ≠ [] ∧ ∀ c ∈ e.1, c ∈ alphabet) {i x y : Nat} {v : Mag fl} {w u : Str}
    (h1 : Amount E fl s i x v) (h2 : MaybeSep s x y) (hw : (w, u) ∈ units) (hl : LiteralAt E s w y) :
    fromString (qenv E cap fl) cls ((s.take (y + w.length)).drop i) = .ok ⟨cls, v, u⟩ := by
  obtain ⟨g1, g2⟩ := hlet _ hw
  obtain ⟨a1, a2, a3, a4⟩ := amount_mag hE h1
  obtain ⟨b1, b2, b3, b4⟩ := stripped hE g2 g1 h2 hl
  obtain ⟨t1, t2, t3⟩ := literal_text hp (fun c hc => letters_plain (g2 c hc)) hl
  have hpos : 0 < w.length := List.length_pos_iff.2 g1
  rw [text_split (x := x) (by omega) (by omega) b2]
  have hne : (s.take (y + w.length)).drop x ≠ [] := by
    intro he
    have := textOf_length (s := s) (i := x) b2
    rw [he] at this; simp at this; omega
  have := fromString_parts (qenv E cap fl) (dot_not_digit hE) cls a3 hne b3 (hun w u hw _ _ b4 t1 t3 t2)
  rw [this]
  show Except.ok (Quantity.mk cls (magOf E.u fl _) u) = _
  rw [a4]
  rfl

theorem amounts_exact {E : RxEnv} (hE : Usual E) {cap : Str → Str} {fl : Floats} {name : Str} {cls : QClass} {unit : Re} {units : List (Str × Str)}
    (hU : UnitRe E unit (units.map Prod.fst)) (hun : Units E cap fl cls units) {s : Str} (hp : PlainCase E s) (m : RxMatch (Quantity fl)) :
    m ∈ amountsFound E cap fl name cls unit s ↔ m.name = name ∧ Standing s m.start m.stop ∧
      ∃ v u, Measured E fl units s m.start m.stop v u ∧ m.value = .ok ⟨cls, v, u⟩ := by
  have hlet : ∀ e ∈ units, e.1 ≠ [] ∧ ∀ c ∈ e.1, c ∈ alphabet := fun e he =>
    ⟨hU.ne _ (List.mem_map_of_mem he), hU.letters _ (List.mem_map_of_mem he)⟩
  have w1 : ∀ s i x, WholeAt E s i x → i < x ∧ CharAt s (Digit E) i := fun s i x h => ⟨h.1, h.2 i (Nat.le_refl _) h.1⟩
  have w2 : ∀ s i x, DecimalAt E s i x → i < x ∧ CharAt s (Digit E) i := by
    rintro s i x ⟨k, h1, h2, _, h4, _⟩
    exact ⟨by omega, h2 i (Nat.le_refl _) h1⟩
  rw [amountsFound, List.mem_append, amount_found hE (whole_mag E) hU w1 (whole_clear hE), amount_found hE (decimal_mag hE) hU w2 (decimal_clear hE)]
  obtain ⟨n, i, j, val⟩ := m
  constructor
  · rintro (⟨h1, h2, ⟨x, y, h3, h4, w, hw, hl, h5⟩, h6⟩ | ⟨h1, h2, ⟨x, y, h3, h4, w, hw, hl, h5⟩, h6⟩)
    all_goals
      obtain ⟨⟨w', u⟩, he, rfl⟩ := List.mem_map.1 hw
      simp only at h1 h2 h3 h5 h6 hl
      subst h5
    · have ha : Amount E fl s i x (.int _) := .whole _ (number_of h3.1 h3.2)
      exact ⟨h1, h2, _, u, ⟨x, y, w', ha, h4, he, hl, rfl⟩, h6.trans (measured_value hE hp hun hlet ha h4 he hl)⟩
    · obtain ⟨k, g1, g2, g3, g4, g5⟩ := h3
      have ha : Amount E fl s i x (.float _) := .decimal k g1 g2 g3 g4 g5
      exact ⟨h1, h2, _, u, ⟨x, y, w', ha, h4, he, hl, rfl⟩, h6.trans (measured_value hE hp hun hlet ha h4 he hl)⟩
  · rintro ⟨h1, h2, v, u, ⟨x, y, w, ha, h4, he, hl, h5⟩, h6⟩
    simp only at h1 h2 h5 h6 ha
    subst h5
    have hval := measured_value hE hp hun hlet ha h4 he hl
    have hw : w ∈ units.map Prod.fst := List.mem_map_of_mem he
    cases ha with
    | whole n' hn => exact .inl ⟨h1, h2, ⟨x, y, ⟨hn.some, hn.digits⟩, h4, w, hw, hl, rfl⟩, h6.trans hval.symm⟩
    | decimal k g1 g2 g3 g4 g5 => exact .inr ⟨h1, h2, ⟨x, y, ⟨k, g1, g2, g3, g4, g5⟩, h4, w, hw, hl, rfl⟩, h6.trans hval.symm⟩

/-- C119: a size is reported exactly where a number, at most one separator and `mb`, `gb` or `tb` in any case stand between separators;
its value is the number, whole or decimal, and the unit in capitals. -/
theorem C119_size (E : RxEnv) (hE : Usual E) (hC : Cased E.u) (cap : Str → Str) (fl : Floats) (s : Str) (hs : PlainCase E s) (m : RxMatch (Quantity fl)) :
    m ∈ sizesFound E cap fl s ↔ m.name = c!"size" ∧ Standing s m.start m.stop ∧
      ∃ v u, Measured E fl sizeUnits s m.start m.stop v u ∧ m.value = .ok ⟨.size, v, u⟩ :=
  amounts_exact hE (sizeUnit_re E) (size_units hC) hs m

/-- C119: a bit rate is reported exactly where a number, at most one separator and one of the units stand between separators. -/
theorem C119_bit_rate (E : RxEnv) (hE : Usual E) (cap : Str → Str) (hc : Capitalizes cap) (fl : Floats) (s : Str) (hs : PlainCase E s)
    (m : RxMatch (Quantity fl)) : m ∈ bitRatesFound E cap fl s ↔ m.name = c!"audio_bit_rate" ∧ Standing s m.start m.stop ∧
      ∃ v u, Measured E fl rateUnits s m.start m.stop v u ∧ m.value = .ok ⟨.bitRate, v, u⟩ :=
  amounts_exact hE (rateUnit_re hE) (rate_units hc) hs m

end Guessit
