import Verif.Spec.Screen
import Verif.Props.StringsExamples

/-! # C122: screen sizes -/

namespace Guessit
open Spec Re

theorem defaultScreen_plain : PlainScreen defaultScreen where
  heights := by decide +kernel
  interlaced := by decide +kernel
  progressive := by decide +kernel
  rates := by decide +kernel
  apart := by decide +kernel

/-! ## The order of alternatives -/

theorem alts_exec {rs : List Re} {s : Str} {i : Nat} {c : Caps} : (Re.alts rs).exec s i c = rs.flatMap fun r => r.exec s i c := by
  induction rs with
  | nil => simp [Re.alts, exec]
  | cons r rs ih =>
    cases rs with
    | nil => simp [Re.alts]
    | cons r' rs =>
      show (Re.alt r (Re.alts (r' :: rs))).exec s i c = _
      rw [exec, ih]; rfl

/-- When one element at most contributes, the order does not matter. -/
theorem flatMap_perm {α β : Type} {f : α → List β} {l l' : List α} (h : l.Perm l') (hu : ∀ a ∈ l, ∀ b ∈ l, f a ≠ [] → f b ≠ [] → f a = f b) :
    l.flatMap f = l'.flatMap f := by
  induction h with
  | nil => rfl
  | cons x _ ih =>
    simp only [List.flatMap_cons]
    rw [ih (fun a ha b hb => hu a (by simp [ha]) b (by simp [hb]))]
  | swap x y l =>
    simp only [List.flatMap_cons]
    by_cases hx : f x = []
    · simp [hx]
    · by_cases hy : f y = []
      · simp [hy]
      · rw [hu x (by simp) y (by simp) hx hy]
  | trans h1 h2 ih1 ih2 =>
    rw [ih1 hu, ih2 (fun a ha b hb => hu a (h1.mem_iff.2 ha) b (h1.mem_iff.2 hb))]

/-! ## Text of digits -/

theorem digits_literal {E : RxEnv} (hd : PlainDigits E) {s t : Str} {a : Nat} (ht : ∀ c ∈ t, c ∈ c!"0123456789") : LiteralAt E s t a ↔ TextAt s t a := by
  constructor
  · intro h k l hk
    obtain ⟨c, h1, h2⟩ := h k l hk
    rw [h1, (hd l (ht l (List.mem_of_getElem? hk)) c).1 h2]
  · intro h k l hk
    exact ⟨l, h k l hk, (hd l (ht l (List.mem_of_getElem? hk)) l).2 rfl⟩

theorem textAt_prefix {s t t' : Str} {a : Nat} (h : TextAt s t a) (h' : TextAt s t' a) (hl : t.length ≤ t'.length) : t <+: t' := by
  rw [prefix_chars]
  intro k c hk
  have h1 := h k c hk
  have hk' : k < t'.length := by have := (List.getElem?_eq_some_iff.1 hk).1; omega
  have h2 := h' k t'[k] (List.getElem?_eq_getElem hk')
  rw [h1] at h2
  rw [List.getElem?_eq_getElem hk', h2]

theorem textAt_free {s : Str} {a : Nat} {l : List Str} (hf : ∀ t ∈ l, ∀ t' ∈ l, t <+: t' → t = t') {t t' : Str} (ht : t ∈ l) (ht' : t' ∈ l) (h : TextAt s t a)
    (h' : TextAt s t' a) : t = t' := by
  rcases Nat.le_total t.length t'.length with hl | hl
  · exact hf t ht t' ht' (textAt_prefix h h' hl)
  · exact (hf t' ht' t ht (textAt_prefix h' h hl)).symm

theorem textAt_append {s t t' : Str} {a : Nat} : TextAt s (t ++ t') a ↔ TextAt s t a ∧ TextAt s t' (a + t.length) := by
  constructor
  · intro h
    constructor
    · intro k l hk
      exact h k l (by rw [List.getElem?_append_left (List.getElem?_eq_some_iff.1 hk).1]; exact hk)
    · intro k l hk
      have := h (t.length + k) l (by rw [List.getElem?_append_right (by omega), show t.length + k - t.length = k by omega]; exact hk)
      rw [← this]; congr 1; omega
  · rintro ⟨h1, h2⟩ k l hk
    by_cases hkl : k < t.length
    · rw [List.getElem?_append_left hkl] at hk; exact h1 k l hk
    · rw [List.getElem?_append_right (by omega)] at hk
      have := h2 (k - t.length) l hk
      rw [← this]; congr 1; omega

theorem textAt_cons {s t : Str} {c : Char} {a : Nat} : TextAt s (c :: t) a ↔ s[a]? = some c ∧ TextAt s t (a + 1) := by
  have := @textAt_append s [c] t a
  simp only [List.singleton_append, List.length_singleton] at this
  rw [this]
  apply and_congr_left'
  constructor
  · intro h; exact h 0 c rfl
  · intro h k l hk
    cases k with
    | zero => simp at hk; subst hk; exact h
    | succ k => simp at hk

theorem textAt_nil {s : Str} {a : Nat} : TextAt s [] a := by intro k l hk; simp at hk

/-! ## Frame rates -/

theorem mem_zeros {s : Str} {i j : Nat} {c c' : Caps} : (j, c') ∈ (Re.rep (.lit '0') 1 (some 3)).exec s i c ↔ c' = c ∧
    ∃ z ∈ [c!"0", c!"00", c!"000"], TextAt s z i ∧ j = i + z.length := by
  show (j, c') ∈ (Re.rep (.chr fun c => decide (c = '0')) 1 (some 3)).exec s i c ↔ _
  rw [mem_rep_chr_bounded, allIn_iff (P := (· = '0')) (fun c => by simp)]
  apply and_congr_right'
  have key : ∀ z : Str, (∀ c ∈ z, c = '0') → (TextAt s z i ↔ AllOf s (· = '0') i (i + z.length)) := by
    intro z hz
    constructor
    · intro h k h1 h2
      have hk : k - i < z.length := by omega
      have := h (k - i) z[k - i] (List.getElem?_eq_getElem hk)
      rw [show i + (k - i) = k by omega] at this
      exact ⟨_, this, hz _ (List.getElem_mem hk)⟩
    · intro h k l hk
      obtain ⟨x, h1, rfl⟩ := h (i + k) (by omega) (by have := (List.getElem?_eq_some_iff.1 hk).1; omega)
      rw [h1, hz l (List.mem_of_getElem? hk)]
  constructor
  · rintro ⟨h1, h2, h3⟩
    obtain rfl | rfl | rfl : j = i + 1 ∨ j = i + 2 ∨ j = i + 3 := by omega
    · exact ⟨c!"0", by simp, (key _ (by decide)).2 h3, rfl⟩
    · exact ⟨c!"00", by simp, (key _ (by decide)).2 h3, rfl⟩
    · exact ⟨c!"000", by simp, (key _ (by decide)).2 h3, rfl⟩
  · rintro ⟨z, hz, h1, rfl⟩
    have hz0 : ∀ c ∈ z, c = '0' := by
      have : ∀ z ∈ [c!"0", c!"00", c!"000"], ∀ c ∈ z, c = '0' := by decide
      exact this z hz
    have hl : 1 ≤ z.length ∧ z.length ≤ 3 := by
      have : ∀ z ∈ [c!"0", c!"00", c!"000"], 1 ≤ z.length ∧ z.length ≤ 3 := by decide
      exact this z hz
    exact ⟨by omega, by omega, (key _ hz0).1 h1⟩

theorem mem_rate {E : RxEnv} (hd : PlainDigits E) {e : RateEntry} (hw : ∀ c ∈ rateWhole e, c ∈ c!"0123456789") (hp : ∀ c ∈ ratePart e, c ∈ c!"0123456789")
    {s : Str} {i j : Nat} {c c' : Caps} :
    (j, c') ∈ (e.re E).exec s i c ↔ c' = c ∧ ∃ t ∈ rateTexts e, TextAt s t i ∧ j = i + t.length := by
  cases e with
  | exact n f =>
    show (j, c') ∈ (Re.seq (E.word n) (.seq (.lit '.') (.seq (E.word f) .eps))).exec s i c ↔ _
    simp only [mem_seq, mem_word, mem_eps, Re.lit, mem_chr, rateTexts, List.mem_singleton, exists_eq_left, textAt_append, textAt_cons]
    rw [digits_literal hd (t := n) hw]
    constructor
    · rintro ⟨a, c1, ⟨h1, rfl, rfl⟩, b, c2, ⟨⟨x, h2, h3⟩, rfl, rfl⟩, d, c3, ⟨h4, rfl, rfl⟩, rfl, rfl⟩
      have : x = '.' := by simpa using h3
      subst this
      rw [digits_literal hd (t := f) hp] at h4
      exact ⟨rfl, ⟨h1, h2, h4⟩, by simp [List.length_append]; omega⟩
    · rintro ⟨rfl, ⟨h1, h2, h4⟩, rfl⟩
      exact ⟨_, _, ⟨h1, rfl, rfl⟩, _, _, ⟨⟨'.', h2, by simp⟩, rfl, rfl⟩, _, _, ⟨(digits_literal hd (t := f) hp).2 h4, rfl, rfl⟩,
        by simp [List.length_append]; omega, rfl⟩
  | round n =>
    show (j, c') ∈ (Re.seq (E.word n) (.seq (.opt (.seq (.lit '.') (.seq (.rep (.lit '0') 1 (some 3)) .eps))) .eps)).exec s i c ↔ _
    have hz : ∀ {a b : Nat} {c c1 : Caps}, (b, c1) ∈ (Re.seq (.lit '.') (.seq (.rep (.lit '0') 1 (some 3)) .eps)).exec s a c ↔
        c1 = c ∧ ∃ z ∈ [c!".0", c!".00", c!".000"], TextAt s z a ∧ b = a + z.length := by
      intro a b c c1
      simp only [mem_seq, mem_eps, Re.lit, mem_chr]
      constructor
      · rintro ⟨k, c2, ⟨⟨x, h1, h2⟩, rfl, rfl⟩, k', c3, h3, rfl, rfl⟩
        have : x = '.' := by simpa using h2
        subst this
        obtain ⟨rfl, z, hz, h4, rfl⟩ := mem_zeros.1 h3
        refine ⟨rfl, '.' :: z, ?_, textAt_cons.2 ⟨h1, h4⟩, by simp; omega⟩
        have : ∀ z ∈ [c!"0", c!"00", c!"000"], '.' :: z ∈ [c!".0", c!".00", c!".000"] := by decide
        exact this z hz
      · rintro ⟨rfl, z, hz, h1, rfl⟩
        have : ∀ z ∈ [c!".0", c!".00", c!".000"], ∃ y ∈ [c!"0", c!"00", c!"000"], z = '.' :: y := by decide
        obtain ⟨y, hy, rfl⟩ := this z hz
        obtain ⟨h1, h2⟩ := textAt_cons.1 h1
        exact ⟨_, _, ⟨⟨'.', h1, by simp⟩, rfl, rfl⟩, _, _, mem_zeros.2 ⟨rfl, y, hy, h2, rfl⟩, by simp; omega, rfl⟩
    have hne : ∀ {a : Nat} {c : Caps} (b : Nat) (c1 : Caps), (b, c1) ∈ (Re.seq (.lit '.') (.seq (.rep (.lit '0') 1 (some 3)) .eps)).exec s a c → b ≠ a := by
      intro a c b c1 h
      obtain ⟨_, z, hz, _, rfl⟩ := hz.1 h
      have : ∀ z ∈ [c!".0", c!".00", c!".000"], 0 < z.length := by decide
      have := this z hz
      omega
    simp only [mem_seq, mem_word, mem_eps, mem_optional hne, hz]
    rw [digits_literal hd (t := n) hw]
    have hlist : rateTexts (.round n) = [n ++ []] ++ [c!".0", c!".00", c!".000"].map (n ++ ·) := by simp [rateTexts]
    constructor
    · rintro ⟨a, c1, ⟨h1, rfl, rfl⟩, b, c2, h2, rfl, rfl⟩
      rcases h2 with ⟨rfl, z, hz, h3, rfl⟩ | ⟨rfl, rfl⟩
      · refine ⟨rfl, n ++ z, by rw [hlist]; simp only [List.mem_append, List.mem_map]; exact .inr ⟨z, hz, rfl⟩, textAt_append.2 ⟨h1, h3⟩, ?_⟩
        rw [List.length_append]; omega
      · exact ⟨rfl, n, by simp [rateTexts], h1, rfl⟩
    · rintro ⟨rfl, t, ht, h1, rfl⟩
      rw [hlist, List.mem_append, List.mem_map] at ht
      rcases ht with ht | ⟨z, hz, rfl⟩
      · rw [List.mem_singleton, List.append_nil] at ht
        subst ht
        exact ⟨_, _, ⟨h1, rfl, rfl⟩, _, _, .inr ⟨rfl, rfl⟩, rfl, rfl⟩
      · obtain ⟨h1, h2⟩ := textAt_append.1 h1
        exact ⟨_, _, ⟨h1, rfl, rfl⟩, _, _, .inl ⟨rfl, z, hz, h2, rfl⟩, by rw [List.length_append]; omega, rfl⟩

/-! ## Greedy -/

/-- The first way to match is the longest. -/
def Greedy (l : List (Nat × Caps)) : Prop := ∀ x, l.head? = some x → ∀ y ∈ l, y.1 ≤ x.1

theorem greedy_same {l : List (Nat × Caps)} (h : ∀ x ∈ l, ∀ y ∈ l, x.1 = y.1) : Greedy l := fun x hx y hy => Nat.le_of_eq (h y hy x (List.mem_of_head? hx))

theorem greedy_sorted {l : List (Nat × Caps)} (h : l.Pairwise fun x y => y.1 < x.1) : Greedy l := by
  intro x hx y hy
  cases l with
  | nil => cases hy
  | cons a l =>
    simp only [List.head?_cons, Option.some.injEq] at hx
    subst hx
    rcases List.mem_cons.1 hy with rfl | hy
    · exact Nat.le_refl _
    · exact Nat.le_of_lt ((List.pairwise_cons.1 h).1 y hy)

theorem greedy_flatMap {α : Type} {l : List α} {f : α → List (Nat × Caps)} {L : List (Nat × Caps)} (hL : Greedy L) (h : ∀ x ∈ l, f x ≠ [] → f x = L) :
    Greedy (l.flatMap f) := by
  induction l with
  | nil => intro x hx; cases hx
  | cons a l ih =>
    have ih := ih (fun x hx => h x (by simp [hx]))
    rw [List.flatMap_cons]
    by_cases ha : f a = []
    · rw [ha, List.nil_append]; exact ih
    · have hfa := h a (by simp) ha
      intro x hx y hy
      have hx' : (f a).head? = some x := by
        cases hf : f a with
        | nil => exact absurd hf ha
        | cons b t => rw [hf] at hx; exact hx
      rw [hfa] at hx'
      refine hL x hx' y ?_
      rcases List.mem_append.1 hy with hy | hy
      · rw [← hfa]; exact hy
      · obtain ⟨b, hb, hy⟩ := List.mem_flatMap.1 hy
        rw [← h b (by simp [hb]) (List.ne_nil_of_mem hy)]; exact hy

theorem greedy_seq {a b : Re} {s : Str} {i k : Nat} {c c1 : Caps} (hb : Greedy (b.exec s k c1))
    (hu : ∀ k' c', (k', c') ∈ a.exec s i c → b.exec s k' c' ≠ [] → k' = k ∧ c' = c1) : Greedy ((Re.seq a b).exec s i c) := by
  rw [exec]
  refine greedy_flatMap hb ?_
  rintro ⟨k', c'⟩ hx hne
  obtain ⟨rfl, rfl⟩ := hu k' c' hx hne
  rfl

theorem greedy_grp {n : Nat} {r : Re} {s : Str} {i : Nat} {c : Caps} (h : Greedy (r.exec s i c)) : Greedy ((Re.grp n r).exec s i c) := by
  rw [exec]
  intro x hx y hy
  obtain ⟨y', hy', rfl⟩ := List.mem_map.1 hy
  rw [List.head?_map] at hx
  obtain ⟨x', hx', rfl⟩ := Option.map_eq_some_iff.1 hx
  exact h x' hx' y' hy'

theorem opt_exec {r : Re} {s : Str} {i : Nat} {c : Caps} (hr : ∀ j c1, (j, c1) ∈ r.exec s i c → j ≠ i) :
    (Re.opt r).exec s i c = r.exec s i c ++ [(i, c)] := by
  simp only [Re.opt, exec, Option.getD_some, repExec, if_true, Nat.zero_sub]
  congr 1
  rw [List.filter_eq_self.2 (by rintro ⟨j, c1⟩ hx; simpa using hr j c1 hx)]
  simp

theorem greedy_opt {r : Re} {s : Str} {i : Nat} {c : Caps} (hr : ∀ j c1, (j, c1) ∈ r.exec s i c → i < j) (h : Greedy (r.exec s i c)) :
    Greedy ((Re.opt r).exec s i c) := by
  rw [opt_exec (fun j c1 hj => by have := hr j c1 hj; omega)]
  intro x hx y hy
  cases hl : r.exec s i c with
  | nil =>
    rw [hl] at hx hy
    simp only [List.nil_append, List.head?_cons, Option.some.injEq, List.mem_singleton] at hx hy
    rw [hx.symm, hy]
  | cons a l =>
    rw [hl] at hx hy
    simp only [List.cons_append, List.head?_cons, Option.some.injEq] at hx
    subst hx
    have ha : (r.exec s i c).head? = some a := by rw [hl]; rfl
    rcases List.mem_append.1 hy with hy | hy
    · exact h a ha y (by rw [hl]; exact hy)
    · rw [List.mem_singleton.1 hy]
      exact Nat.le_of_lt (hr a.1 a.2 (by rw [hl]; simp))

theorem rate_whole {e : RateEntry} {s t : Str} {a : Nat} (ht : t ∈ rateTexts e) (h : TextAt s t a) : TextAt s (rateWhole e) a := by
  cases e with
  | exact n f =>
    rw [rateTexts, List.mem_singleton] at ht
    subst ht
    exact (textAt_append.1 h).1
  | round n =>
    simp only [rateTexts, List.mem_cons, List.not_mem_nil, or_false] at ht
    rcases ht with rfl | rfl | rfl | rfl
    · exact h
    all_goals exact (textAt_append.1 h).1

theorem rate_unique {C : ScreenConfig} (hC : PlainScreen C) {e e' : RateEntry} (he : e ∈ C.rates) (he' : e' ∈ C.rates) {s : Str} {a : Nat}
    (h : TextAt s (rateWhole e) a) (h' : TextAt s (rateWhole e') a) : e = e' := by
  rcases Nat.le_total (rateWhole e).length (rateWhole e').length with hl | hl
  · exact hC.apart e he e' he' (textAt_prefix h h' hl)
  · exact (hC.apart e' he' e he (textAt_prefix h' h hl)).symm

theorem rate_exec_text {E : RxEnv} (hd : PlainDigits E) {C : ScreenConfig} (hC : PlainScreen C) {e : RateEntry} (he : e ∈ C.rates) {s : Str} {i : Nat} {c : Caps}
    (h : (e.re E).exec s i c ≠ []) : TextAt s (rateWhole e) i := by
  obtain ⟨⟨j, c'⟩, hx⟩ := List.exists_mem_of_ne_nil _ h
  obtain ⟨_, t, ht, h1, _⟩ := (mem_rate hd (hC.rates e he).2.1 (hC.rates e he).2.2).1 hx
  exact rate_whole ht h1

theorem mem_rates {E : RxEnv} (hd : PlainDigits E) {C : ScreenConfig} (hC : PlainScreen C) {s : Str} {i j : Nat} {c c' : Caps} :
    (j, c') ∈ (E.rates C).exec s i c ↔ RateAt C s i j ∧ c' = (4, (i, j)) :: c := by
  unfold RxEnv.rates
  simp only [mem_grp, mem_alts, List.mem_map]
  constructor
  · rintro ⟨c1, ⟨r, ⟨e, he, rfl⟩, h⟩, rfl⟩
    obtain ⟨rfl, h2⟩ := (mem_rate hd (hC.rates e he).2.1 (hC.rates e he).2.2).1 h
    exact ⟨⟨e, he, h2⟩, rfl⟩
  · rintro ⟨⟨e, he, h⟩, rfl⟩
    exact ⟨c, ⟨_, ⟨e, he, rfl⟩, (mem_rate hd (hC.rates e he).2.1 (hC.rates e he).2.2).2 ⟨rfl, h⟩⟩, rfl⟩

theorem rate_longer {C : ScreenConfig} (hC : PlainScreen C) {s : Str} {a b : Nat} (h : RateAt C s a b) : a < b := by
  obtain ⟨e, he, t, ht, h1, rfl⟩ := h
  have hne := (hC.rates e he).1
  cases e with
  | exact n f => rw [rateTexts, List.mem_singleton] at ht; subst ht; simp; omega
  | round n =>
    have : 0 < n.length := List.length_pos_iff.2 hne
    simp only [rateTexts, List.mem_cons, List.not_mem_nil, or_false] at ht
    rcases ht with rfl | rfl | rfl | rfl <;> simp <;> omega

theorem rate_greedy {E : RxEnv} (hd : PlainDigits E) {e : RateEntry} (hw : ∀ c ∈ rateWhole e, c ∈ c!"0123456789") (hp : ∀ c ∈ ratePart e, c ∈ c!"0123456789")
    {s : Str} {i : Nat} {c : Caps} : Greedy ((e.re E).exec s i c) := by
  cases e with
  | exact n f =>
    apply greedy_same
    rintro ⟨j, c1⟩ h1 ⟨j', c2⟩ h2
    rw [mem_rate hd hw hp] at h1 h2
    simp only [rateTexts, List.mem_singleton, exists_eq_left] at h1 h2
    rw [h1.2.2, h2.2.2]
  | round n =>
    show Greedy ((Re.seq (E.word n) (.seq (.opt (.seq (.lit '.') (.seq (.rep (.lit '0') 1 (some 3)) .eps))) .eps)).exec s i c)
    refine greedy_seq (k := i + n.length) (c1 := c) ?_ (fun k' c' h _ => by rw [mem_word] at h; exact h.2)
    have e1 : ∀ (r : Re) (i : Nat) (c : Caps), (Re.seq r .eps).exec s i c = r.exec s i c := by
      intro r i c; simp [exec]
    rw [e1]
    refine greedy_opt ?_ ?_
    · intro j c1 h
      rw [mem_seq] at h
      obtain ⟨k, c2, h1, h2⟩ := h
      rw [e1] at h2
      rw [Re.lit, mem_chr] at h1
      obtain ⟨_, z, hz, _, rfl⟩ := mem_zeros.1 h2
      omega
    · refine greedy_seq (k := i + n.length + 1) (c1 := c) ?_ (fun k' c' h _ => by rw [Re.lit, mem_chr] at h; exact h.2)
      rw [e1]
      apply greedy_sorted
      have := @repExec_chr_sorted s (fun c => decide (c = '0')) 3 1 (i + n.length + 1) c
      simpa only [Re.lit, exec, Option.getD_some] using this

theorem rates_greedy {E : RxEnv} (hd : PlainDigits E) {C : ScreenConfig} (hC : PlainScreen C) {s : Str} {i : Nat} {c : Caps} : Greedy ((E.rates C).exec s i c) := by
  unfold RxEnv.rates
  apply greedy_grp
  rw [alts_exec, List.flatMap_map]
  by_cases hex : ∃ e ∈ C.rates, (e.re E).exec s i c ≠ []
  · obtain ⟨e, he, hne⟩ := hex
    refine greedy_flatMap (rate_greedy hd (hC.rates e he).2.1 (hC.rates e he).2.2 : Greedy ((e.re E).exec s i c)) ?_
    intro e' he' hne'
    rw [rate_unique hC he' he (rate_exec_text hd hC he' hne') (rate_exec_text hd hC he hne)]
  · refine greedy_flatMap (L := []) (fun x hx => by cases hx) ?_
    intro e he hne
    exact absurd ⟨e, he, hne⟩ hex

end Guessit
