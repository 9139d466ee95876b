import Verif.Proofs.Recognise
import Mathlib.Data.Nat.Find

/-! # C115, C116, C117: weeks, bonuses, films and discs -/

namespace Guessit
open Spec Re

/-- The children of a match with one group. -/
theorem kids_one {V : Type} {P : RxPattern V} {s : Str} {i j a b : Nat} {name : Str} (hg : P.groups = [(1, name)]) (hab : a < b) :
    P.kids s ⟨i, j, [(1, (a, b))]⟩ = [{ name := name, start := a, stop := b, value := P.format name ((s.take b).drop a) }] := by
  simp [RxPattern.kids, hg, hab, List.lookup]

/-! ## C116 -/

theorem mem_bonus {E : RxEnv} {s : Str} {i j : Nat} {c : Caps} : (j, c) ∈ (bonusPattern E).re.exec s i [] ↔
    CharAt s (fun x => E.same 'x' x = true) i ∧ i + 1 < j ∧ AllOf s (Digit E) (i + 1) j ∧ c = [(1, (i + 1, j))] := by
  show (j, c) ∈ (Re.cat [E.letter 'x', .grp 1 E.digits]).exec s i [] ↔ _
  simp only [Re.cat, mem_seq, mem_letter, mem_grp, mem_eps, mem_number]
  constructor
  · rintro ⟨k, c1, ⟨h1, rfl, rfl⟩, k2, c2, ⟨c3, ⟨h2, h3, h4⟩, h5⟩, rfl, rfl⟩
    exact ⟨h1, h3, h4, by rw [h5, h2]⟩
  · rintro ⟨h1, h2, h3, rfl⟩
    exact ⟨_, _, ⟨h1, rfl, rfl⟩, j, _, ⟨_, ⟨rfl, h2, h3⟩, rfl⟩, rfl, rfl⟩

theorem bonus_eats (E : RxEnv) : (bonusPattern E).re.Eats := by
  intro s i j c _ h
  have := (mem_bonus.1 (matchAt_mem h)).2.1; omega

theorem bonus_head {E : RxEnv} {s : Str} {i j : Nat} (h1 : CharAt s (fun x => E.same 'x' x = true) i) (h2 : i + 1 < j)
    (h3 : AllOf s (Digit E) (i + 1) j) (h4 : NoDigitAt E s j) : (bonusPattern E).re.matchAt s i = some (j, [(1, (i + 1, j))]) := by
  obtain ⟨x, hx, hp⟩ := h1
  exact matchAt_head (seq_head (chr_head hx hp) (seq_head (grp_head (digits_head h2 h3 h4)) eps_head))

/-- C116: a bonus number is reported exactly where `x` and a number stand between separators. -/
theorem C116_bonus (E : RxEnv) (hE : Usual E) (s : Str) (m : RxMatch Int) : m ∈ (bonusPattern E).found s ↔
    m.name = c!"bonus" ∧ ∃ i n : Nat, m.start = i + 1 ∧ CharAt s (fun c => E.same 'x' c = true) i ∧ Number E s m.start m.stop n ∧
      Standing s i m.stop ∧ m.value = .ok n := by
  rw [mem_found]
  constructor
  · rintro ⟨⟨i, j, c⟩, hh, ha, hm⟩
    obtain ⟨h1, h2⟩ := hits_sound hh
    simp only at h1 h2
    obtain ⟨h3, h4, h5, rfl⟩ := mem_bonus.1 (matchAt_mem h1)
    have ha : sepsSurround s i j = true := by
      have : (bonusPattern E).parentValid s ((bonusPattern E).parent s ⟨i, j, [(1, (i + 1, j))]⟩) = true := by
        simp only [RxPattern.accepts, Bool.and_eq_true] at ha
        simpa [bonusPattern] using ha.1
      exact this
    have hm : m ∈ (bonusPattern E).kids s ⟨i, j, [(1, (i + 1, j))]⟩ := by simpa [bonusPattern] using hm
    rw [kids_one (name := c!"bonus") rfl h4, List.mem_singleton] at hm
    subst hm
    exact ⟨rfl, i, _, rfl, h3, number_of h4 h5, standing_iff.1 ha, pyInt_number hE h4 h5⟩
  · obtain ⟨name, a, j, v⟩ := m
    rintro ⟨h0, i, n, h1, h2, h3, h4, h5⟩
    simp only at h0 h1 h2 h3 h4 h5
    subst h0 h1 h5
    refine ⟨⟨i, j, [(1, (i + 1, j))]⟩, hits_complete (bonus_eats E) (bonus_head h2 h3.some h3.digits (standing_noDigit hE h4.2)) ?_ ?_, ?_, ?_⟩
    · have := h3.digits.le h3.some; have := h3.some; omega
    · intro i' j' c' hlt hm
      obtain ⟨g1, g2, g3, _⟩ := mem_bonus.1 (matchAt_mem hm)
      by_contra hc
      exact h2.false (g3 i (by omega) (by omega)) fun c hc hd => letter_not_digit hE (by decide) hc hd
    · simp only [RxPattern.accepts, kids_one (P := bonusPattern E) (name := c!"bonus") rfl h3.some]
      simp [bonusPattern, surrounded, RxPattern.parent, standing_iff.2 h4]
    · have : (bonusPattern E).children = true := rfl
      rw [if_pos this, kids_one (name := c!"bonus") rfl h3.some, List.mem_singleton]
      have hv := number_pyInt hE h3
      show _ = RxMatch.mk _ _ _ (pyInt E.u _)
      rw [hv]

theorem mem_film {E : RxEnv} {s : Str} {i j : Nat} {c : Caps} : (j, c) ∈ (filmPattern E).re.exec s i [] ↔
    CharAt s (fun x => E.same 'f' x = true) i ∧ i + 1 < j ∧ j ≤ i + 3 ∧ AllOf s (Digit E) (i + 1) j ∧ c = [(1, (i + 1, j))] := by
  show (j, c) ∈ (Re.cat [E.letter 'f', .grp 1 (.rep E.digit 1 (some 2))]).exec s i [] ↔ _
  simp only [Re.cat, mem_seq, mem_letter, mem_grp, mem_eps, mem_someDigits]
  constructor
  · rintro ⟨k, c1, ⟨h1, rfl, rfl⟩, k2, c2, ⟨c3, ⟨h2, h3, h4, h6⟩, h5⟩, rfl, rfl⟩
    exact ⟨h1, by omega, by omega, h6, by rw [h5, h2]⟩
  · rintro ⟨h1, h2, h3, h4, rfl⟩
    exact ⟨_, _, ⟨h1, rfl, rfl⟩, j, _, ⟨_, ⟨rfl, by omega, by omega, h4⟩, rfl⟩, rfl, rfl⟩

theorem film_eats (E : RxEnv) : (filmPattern E).re.Eats := by
  intro s i j c _ h
  have := (mem_film.1 (matchAt_mem h)).2.1; omega

theorem film_head {E : RxEnv} {s : Str} {i j : Nat} (h1 : CharAt s (fun x => E.same 'f' x = true) i) (h2 : i + 1 < j) (h2' : j ≤ i + 3)
    (h3 : AllOf s (Digit E) (i + 1) j) (h4 : NoDigitAt E s j) : (filmPattern E).re.matchAt s i = some (j, [(1, (i + 1, j))]) := by
  obtain ⟨x, hx, hp⟩ := h1
  exact matchAt_head (seq_head (chr_head hx hp) (seq_head (grp_head (someDigits_head (by omega) (by omega) h3 (.inr h4))) eps_head))

/-- C116: a film number is reported exactly where `f` and a number of one or two digits stand between separators. -/
theorem C116_film (E : RxEnv) (hE : Usual E) (s : Str) (m : RxMatch Int) : m ∈ (filmPattern E).found s ↔
    m.name = c!"film" ∧ m.stop ≤ m.start + 2 ∧ ∃ i n : Nat, m.start = i + 1 ∧ CharAt s (fun c => E.same 'f' c = true) i ∧
      Number E s m.start m.stop n ∧ Standing s i m.stop ∧ m.value = .ok n := by
  rw [mem_found]
  constructor
  · rintro ⟨⟨i, j, c⟩, hh, ha, hm⟩
    obtain ⟨h1, h2⟩ := hits_sound hh
    simp only at h1 h2
    obtain ⟨h3, h4, h6, h5, rfl⟩ := mem_film.1 (matchAt_mem h1)
    have ha : sepsSurround s i j = true := by
      have : (filmPattern E).parentValid s ((filmPattern E).parent s ⟨i, j, [(1, (i + 1, j))]⟩) = true := by
        simp only [RxPattern.accepts, Bool.and_eq_true] at ha
        simpa [filmPattern] using ha.1
      exact this
    have hm : m ∈ (filmPattern E).kids s ⟨i, j, [(1, (i + 1, j))]⟩ := by simpa [filmPattern] using hm
    rw [kids_one (name := c!"film") rfl h4, List.mem_singleton] at hm
    subst hm
    exact ⟨rfl, by simp only; omega, i, _, rfl, h3, number_of h4 h5, standing_iff.1 ha, pyInt_number hE h4 h5⟩
  · obtain ⟨name, a, j, v⟩ := m
    rintro ⟨h0, h6, i, n, h1, h2, h3, h4, h5⟩
    simp only at h0 h1 h2 h3 h4 h5 h6
    subst h0 h1 h5
    refine ⟨⟨i, j, [(1, (i + 1, j))]⟩,
      hits_complete (film_eats E) (film_head h2 h3.some (by omega) h3.digits (standing_noDigit hE h4.2)) ?_ ?_, ?_, ?_⟩
    · have := h3.digits.le h3.some; have := h3.some; omega
    · intro i' j' c' hlt hm
      obtain ⟨g1, g2, _, g3, _⟩ := mem_film.1 (matchAt_mem hm)
      by_contra hc
      exact h2.false (g3 i (by omega) (by omega)) fun c hc hd => letter_not_digit hE (by decide) hc hd
    · simp only [RxPattern.accepts, kids_one (P := filmPattern E) (name := c!"film") rfl h3.some]
      simp [filmPattern, surrounded, RxPattern.parent, standing_iff.2 h4]
    · have : (filmPattern E).children = true := rfl
      rw [if_pos this, kids_one (name := c!"film") rfl h3.some, List.mem_singleton]
      have hv := number_pyInt hE h3
      show _ = RxMatch.mk _ _ _ (pyInt E.u _)
      rw [hv]

example : ((bonusPattern asciiRx).found c!"Show-x01-Bonus x264 1x02 X7").map (fun m => (m.start, m.stop, m.value.toOption)) =
    [(6, 8, some 1), (16, 19, some 264), (26, 27, some 7)] := by decide +kernel
example : ((filmPattern asciiRx).found c!"James Bond-f21-Casino Royale f123 f7").map (fun m => (m.start, m.stop, m.value.toOption)) =
    [(12, 14, some 21), (35, 36, some 7)] := by decide +kernel

/-! ## C115 -/

theorem mem_week {E : RxEnv} {ws : List Str} {s : Str} {i j : Nat} {c : Caps} : (j, c) ∈ (weekPattern E ws).re.exec s i [] ↔
    ∃ w ∈ ws, ∃ a, LiteralAt E s w i ∧ MaybeSep s (i + w.length) a ∧ a < j ∧ j ≤ a + 2 ∧ AllOf s (Digit E) a j ∧ c = [(1, (a, j))] := by
  show (j, c) ∈ (Re.cat [E.words ws, dashRe, .grp 1 (.rep E.digit 1 (some 2))]).exec s i [] ↔ _
  simp only [Re.cat, mem_seq, mem_words, mem_dash, mem_grp, mem_eps, mem_someDigits]
  constructor
  · rintro ⟨k, c1, ⟨rfl, w, hw, h1, rfl⟩, a, c2, ⟨h2, rfl⟩, k3, c3, ⟨c4, ⟨rfl, h3, h4, h5⟩, rfl⟩, rfl, rfl⟩
    exact ⟨w, hw, a, h1, h2, by omega, h4, h5, rfl⟩
  · rintro ⟨w, hw, a, h1, h2, h3, h4, h5, rfl⟩
    exact ⟨_, _, ⟨rfl, w, hw, h1, rfl⟩, a, _, ⟨h2, rfl⟩, j, _, ⟨_, ⟨rfl, by omega, h4, h5⟩, rfl⟩, rfl, rfl⟩

theorem week_eats (E : RxEnv) (ws : List Str) : (weekPattern E ws).re.Eats := by
  intro s i j c _ h
  obtain ⟨w, _, a, _, h2, h3, _⟩ := mem_week.1 (matchAt_mem h)
  have : i + w.length ≤ a := by rcases h2 with rfl | ⟨rfl, _⟩ <;> omega
  omega

theorem maybeSep_le {s : Str} {i j : Nat} (h : MaybeSep s i j) : i ≤ j ∧ j ≤ i + 1 := by rcases h with rfl | ⟨rfl, _⟩ <;> omega

/-- A letter. -/
def IsLetter (E : RxEnv) (c : Char) : Prop := ∃ l ∈ c!"abcdefghijklmnopqrstuvwxyz", E.same l c = true

theorem IsLetter.notSep {E : RxEnv} (hE : Usual E) {c : Char} (h : IsLetter E c) : c ∉ seps := by
  obtain ⟨l, hl, hs⟩ := h
  intro hc
  rw [sep_not_letter hE hl hc] at hs; cases hs

theorem IsLetter.notDigit {E : RxEnv} (hE : Usual E) {c : Char} (h : IsLetter E c) : ¬ Digit E c := by
  obtain ⟨l, hl, hs⟩ := h
  exact letter_not_digit hE hl hs

/-- In what a week pattern matches, letters come first. -/
theorem week_letters {E : RxEnv} (hE : Usual E) {s w : Str} {i a j k : Nat} (h2 : MaybeSep s (i + w.length) a) (h3 : AllOf s (Digit E) a j)
    (hk : CharAt s (IsLetter E) k) (hlt : k < j) : k < i + w.length := by
  by_contra hc
  rcases h2 with rfl | ⟨rfl, h2⟩
  · exact hk.false (h3 k (by omega) hlt) fun c hc hd => hc.notDigit hE hd
  · by_cases h0 : k = i + w.length
    · subst h0; exact hk.false h2 fun c hc hd => hc.notSep hE hd.1
    · exact hk.false (h3 k (by omega) hlt) fun c hc hd => hc.notDigit hE hd

/-- Where the words end in two week texts that overlap. -/
theorem week_ends {E : RxEnv} (hE : Usual E) {s w w' : Str} {i i' a j a' j' : Nat} (hw : Lettered w) (hw' : Lettered w')
    (h1 : LiteralAt E s w i) (h2 : MaybeSep s (i + w.length) a) (h3 : a < j) (h4 : AllOf s (Digit E) a j)
    (g1 : LiteralAt E s w' i') (g2 : MaybeSep s (i' + w'.length) a') (g3 : a' < j') (g4 : AllOf s (Digit E) a' j')
    (hle : i' ≤ i) (hlt : i < j') : i' + w'.length = i + w.length ∧ a' = a := by
  have hpos : 0 < w.length := by have := hw.1; cases w <;> simp_all
  have e1 : i < i' + w'.length := week_letters hE g2 g4 (h1.mid hw (Nat.le_refl _) (by omega)) hlt
  have nextNot : ∀ {w : Str} {i a j : Nat}, MaybeSep s (i + w.length) a → a < j → AllOf s (Digit E) a j → CharAt s (IsLetter E) (i + w.length) → False := by
    intro w i a j h2 h3 h4 hl
    have := week_letters hE h2 h4 hl (by have := maybeSep_le h2; omega)
    omega
  have e2 : i' + w'.length = i + w.length := by
    rcases Nat.lt_trichotomy (i' + w'.length) (i + w.length) with h | h | h
    · exact absurd (h1.mid hw (by omega) h) (nextNot g2 g3 g4)
    · exact h
    · exact absurd (g1.mid hw' (by omega) h) (nextNot h2 h3 h4)
  refine ⟨e2, ?_⟩
  rw [e2] at g2
  rcases h2 with rfl | ⟨rfl, h2⟩ <;> rcases g2 with rfl | ⟨rfl, g2⟩
  · rfl
  · exact ((h4 _ (Nat.le_refl _) h3).false g2 fun c hd hc => sep_not_digit hE hc.1 hd).elim
  · exact ((g4 _ (Nat.le_refl _) g3).false h2 fun c hd hc => sep_not_digit hE hc.1 hd).elim
  · rfl

theorem week_matchAt {E : RxEnv} (hE : Usual E) {ws : List Str} (hws : ∀ w ∈ ws, Lettered w) {s w : Str} {i a j : Nat} (hw : w ∈ ws)
    (h1 : LiteralAt E s w i) (h2 : MaybeSep s (i + w.length) a) (h3 : a < j) (h3' : j ≤ a + 2) (h4 : AllOf s (Digit E) a j) (h5 : NoDigitAt E s j) :
    (weekPattern E ws).re.matchAt s i = some (j, [(1, (a, j))]) := by
  have hmem : (j, [(1, (a, j))]) ∈ (weekPattern E ws).re.exec s i [] := mem_week.2 ⟨w, hw, a, h1, h2, h3, h3', h4, rfl⟩
  -- the first result of the words and the separator is followed by all the digits
  have hpre : ∀ k c1, (k, c1) ∈ (Re.seq (E.words ws) dashRe).exec s i [] → CharAt s (Digit E) k → k = a ∧ c1 = [] := by
    intro k c1 hk hd
    rw [mem_seq] at hk
    obtain ⟨k1, c2, hk1, hk2⟩ := hk
    rw [mem_words] at hk1
    rw [mem_dash] at hk2
    obtain ⟨rfl, w', hw', g1, rfl⟩ := hk1
    obtain ⟨g2, rfl⟩ := hk2
    have hd' : AllOf s (Digit E) k (k + 1) := by intro x hx1 hx2; rwa [show x = k by omega]
    have := (week_ends hE (hws w hw) (hws w' hw') h1 h2 h3 h4 g1 g2 (Nat.lt_succ_self k) hd' (Nat.le_refl _) (by have := maybeSep_le g2; omega)).2
    exact ⟨this, rfl⟩
  have hcat : (weekPattern E ws).re.exec s i [] = ((Re.seq (E.words ws) dashRe).exec s i []).flatMap fun r =>
      (Re.seq (.grp 1 (.rep E.digit 1 (some 2))) .eps).exec s r.1 r.2 := by
    show (Re.cat [E.words ws, dashRe, .grp 1 (.rep E.digit 1 (some 2))]).exec s i [] = _
    simp only [Re.cat, exec, List.flatMap_assoc]
  refine matchAt_head ?_
  rw [hcat]
  have hin : (a, []) ∈ (Re.seq (E.words ws) dashRe).exec s i [] := by
    rw [mem_seq]; exact ⟨_, _, mem_words.2 ⟨rfl, w, hw, h1, rfl⟩, mem_dash.2 ⟨h2, rfl⟩⟩
  have hhead : ((Re.seq (.grp 1 (.rep E.digit 1 (some 2))) .eps).exec s a []).head? = some (j, [(1, (a, j))]) :=
    seq_head (grp_head (someDigits_head (by omega) h3' h4 (.inr h5))) eps_head
  generalize (Re.seq (E.words ws) dashRe).exec s i [] = l at hpre hin
  induction l with
  | nil => cases hin
  | cons x l ih =>
    rw [List.flatMap_cons]
    by_cases hx : x = (a, [])
    · subst hx; rw [List.head?_append, hhead]; rfl
    · have hnil : (Re.seq (.grp 1 (.rep E.digit 1 (some 2))) .eps).exec s x.1 x.2 = [] := by
        rw [List.eq_nil_iff_forall_not_mem]
        rintro ⟨y, cy⟩ hy
        rw [mem_seq] at hy
        obtain ⟨k, c2, hk, _⟩ := hy
        rw [mem_grp] at hk
        obtain ⟨c3, hk, _⟩ := hk
        obtain ⟨_, hk1, _, hk2⟩ := mem_someDigits.1 hk
        have := hpre x.1 x.2 (by simp) (hk2 x.1 (Nat.le_refl _) (by omega))
        exact hx (Prod.ext this.1 this.2)
      rw [hnil, List.nil_append]
      exact ih (fun k c1 hk => hpre k c1 (List.mem_cons_of_mem _ hk)) ((List.mem_cons.1 hin).resolve_left fun h => hx h.symm)

/-- C115: a week is reported exactly where a week word, one separator and a number of one or two digits between 1 and 52 are written, with a
separator after it.  Nothing is asked of what precedes the word, and the separator is not optional. -/
theorem C115_exact (E : RxEnv) (hE : Usual E) (ws : List Str) (hws : ∀ w ∈ ws, Lettered w) (s : Str) (m : RxMatch Int) :
    m ∈ (weekPattern E ws).found s ↔ m.name = c!"week" ∧ m.stop ≤ m.start + 2 ∧ FreeAfter s m.stop ∧ ∃ n : Nat, Number E s m.start m.stop n ∧
      1 ≤ n ∧ n ≤ 52 ∧ m.value = .ok n ∧
      ∃ w ∈ ws, ∃ i, LiteralAt E s w i ∧ m.start = i + w.length + 1 ∧ CharAt s (fun c => c ∈ seps ∧ c ≠ '/' ∧ c ≠ '\\') (i + w.length) := by
  have hvalid : ∀ n : Nat, validWeek (n : Int) = true ↔ 1 ≤ n ∧ n ≤ 52 := by
    intro n; unfold validWeek; simp only [Bool.and_eq_true, decide_eq_true_eq]; omega
  rw [mem_found]
  constructor
  · rintro ⟨⟨i, j, c⟩, hh, ha, hm⟩
    obtain ⟨h1, h2⟩ := hits_sound hh
    simp only at h1 h2
    obtain ⟨w, hw, a, h3, h4, h5, h6, h7, rfl⟩ := mem_week.1 (matchAt_mem h1)
    have hv := pyInt_number hE h5 h7
    have hk := kids_one (P := weekPattern E ws) (s := s) (i := i) (j := j) (name := c!"week") rfl h5
    have hm : m ∈ (weekPattern E ws).kids s ⟨i, j, [(1, (a, j))]⟩ := by simpa [weekPattern] using hm
    have ha : ((weekPattern E ws).kids s ⟨i, j, [(1, (a, j))]⟩).all ((weekPattern E ws).childValid s) = true := by
      simp only [RxPattern.accepts, Bool.and_eq_true] at ha
      simpa [weekPattern] using ha.2
    rw [hk] at hm ha
    rw [List.mem_singleton] at hm
    subst hm
    have ha : sepsSurround s a j = true ∧ validWeek (digitsValue E.u ((s.take j).drop a) : Nat) = true := by
      simpa [weekPattern, surrounded, valueIs, hv] using ha
    obtain ⟨hs, hva⟩ := ha
    rw [standing_iff] at hs
    refine ⟨rfl, h6, hs.2, _, number_of h5 h7, ((hvalid _).1 hva).1, ((hvalid _).1 hva).2, hv, w, hw, i, h3, ?_⟩
    rcases h4 with rfl | ⟨rfl, h4⟩
    · exfalso
      have hpos : 0 < w.length := by have := (hws w hw).1; cases w <;> simp_all
      rcases hs.1 with h | h
      · omega
      · exact (h3.mid (hws w hw) (k := i + w.length - 1) (by omega) (by omega)).false h fun c hl hc => IsLetter.notSep hE hl hc
    · exact ⟨rfl, h4⟩
  · obtain ⟨name, a, j, v⟩ := m
    rintro ⟨h0, h1, h2, n, hn, hlo, hhi, h3, w, hw, i, h4, h5, h6⟩
    simp only at h0 h1 h2 hn h3 h5
    subst h0 h3
    have hs : Standing s a j := by
      refine ⟨.inr ?_, h2⟩
      rw [show a - 1 = i + w.length by omega]
      obtain ⟨c, hc, hcs, _⟩ := h6
      exact ⟨c, hc, hcs⟩
    -- the first of the words that end there
    let e := i + w.length
    have hex : ∃ k, ∃ w' ∈ ws, LiteralAt E s w' k ∧ k + w'.length = e := ⟨i, w, hw, h4, rfl⟩
    classical
    obtain ⟨w0, hw0, hw1, hw2⟩ := Nat.find_spec hex
    have hmin := fun k => @Nat.find_min _ _ hex k
    generalize Nat.find hex = i0 at hw1 hw2 hmin
    have hsep : MaybeSep s (i0 + w0.length) a := by rw [hw2]; exact .inr ⟨h5, h6⟩
    have hmt := week_matchAt hE hws hw0 hw1 hsep hn.some (by omega) hn.digits (standing_noDigit hE h2)
    refine ⟨⟨i0, j, [(1, (a, j))]⟩, hits_complete (week_eats E ws) hmt ?_ ?_, ?_, ?_⟩
    · have := hn.digits.le hn.some; have := hn.some; omega
    · intro i' j' c' hlt hm
      obtain ⟨w', hw', a', g1, g2, g3, g4, g5, _⟩ := mem_week.1 (matchAt_mem hm)
      by_contra hc
      have := (week_ends hE (hws w0 hw0) (hws w' hw') hw1 hsep hn.some hn.digits g1 g2 g3 g5 (by omega) (by omega)).1
      exact hmin i' hlt ⟨w', hw', g1, by omega⟩
    · simp only [RxPattern.accepts, kids_one (P := weekPattern E ws) (name := c!"week") rfl hn.some]
      have hv := number_pyInt hE hn
      simp [weekPattern, surrounded, standing_iff.2 hs, valueIs, hv, (hvalid n).2 ⟨hlo, hhi⟩]
    · have : (weekPattern E ws).children = true := rfl
      rw [if_pos this, kids_one (name := c!"week") rfl hn.some, List.mem_singleton]
      have hv := number_pyInt hE hn
      show _ = RxMatch.mk _ _ _ (pyInt E.u _)
      rw [hv]

example : ((weekPattern asciiRx [c!"week"]).found c!"Show Week.45 week12 week 53 biweek 7").map (fun m => (m.start, m.stop, m.value.toOption)) =
    [(10, 12, some 45), (35, 36, some 7)] := by decide +kernel

end Guessit
