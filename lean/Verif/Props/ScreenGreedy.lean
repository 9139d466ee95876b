import Verif.Props.ScreenForms

/-! # C122: every form takes as much as it can, and in one way -/

namespace Guessit
open Spec Re

theorem greedy_step {a b : Re} {s : Str} {i : Nat} {c : Caps} (hb : ∀ k c1, (k, c1) ∈ a.exec s i c → Greedy (b.exec s k c1))
    (hu : ∀ k c1 k' c2, (k, c1) ∈ a.exec s i c → (k', c2) ∈ a.exec s i c → b.exec s k c1 ≠ [] → b.exec s k' c2 ≠ [] → k = k' ∧ c1 = c2) :
    Greedy ((Re.seq a b).exec s i c) := by
  by_cases hex : ∃ k c1, (k, c1) ∈ a.exec s i c ∧ b.exec s k c1 ≠ []
  · obtain ⟨k, c1, h1, h2⟩ := hex
    exact greedy_seq (hb k c1 h1) fun k' c' h3 h4 => hu k' c' k c1 h3 h1 h4 h2
  · rw [exec]
    refine greedy_flatMap (L := []) (fun x hx => by cases hx) ?_
    rintro ⟨k, c1⟩ h1 h2
    exact absurd ⟨k, c1, h1, h2⟩ hex

theorem seq_eps {r : Re} {s : Str} {i : Nat} {c : Caps} : (Re.seq r .eps).exec s i c = r.exec s i c := by simp [exec]

/-- The first way to match `ab` is a first way to match `b`. -/
theorem head_seq {a b : Re} {s : Str} {i : Nat} {c : Caps} {x : Nat × Caps} (h : ((Re.seq a b).exec s i c).head? = some x) :
    ∃ k c1, (k, c1) ∈ a.exec s i c ∧ (b.exec s k c1).head? = some x := by
  rw [exec] at h
  revert h
  induction a.exec s i c with
  | nil => intro h; cases h
  | cons y l ih =>
    intro h
    rw [List.flatMap_cons] at h
    cases hy : b.exec s y.1 y.2 with
    | nil =>
      simp only [hy, List.nil_append] at h
      obtain ⟨k, c1, h1, h2⟩ := ih h
      exact ⟨k, c1, List.mem_cons_of_mem _ h1, h2⟩
    | cons z t =>
      simp only [hy, List.cons_append, List.head?_cons] at h
      exact ⟨y.1, y.2, by simp, by rw [hy]; exact h⟩

theorem greedy_append {l m : List (Nat × Caps)} (hl : Greedy l) (hm : Greedy m) (h : ∀ x ∈ l, ∀ y ∈ m, y.1 ≤ x.1) : Greedy (l ++ m) := by
  intro x hx y hy
  cases l with
  | nil => exact hm x hx y hy
  | cons a l =>
    rcases List.mem_append.1 hy with hy | hy
    · exact hl x hx y hy
    · simp only [List.cons_append, List.head?_cons, Option.some.injEq] at hx
      subst hx
      exact h _ (by simp) y hy

theorem scanned_greedy {E : RxEnv} (hE : Usual E) (hd : PlainDigits E) {C : ScreenConfig} (hC : PlainScreen C) {hs : List Str}
    (hh : ∀ t ∈ hs, (t.length = 3 ∨ t.length = 4) ∧ ∀ c ∈ t, c ∈ c!"0123456789")
    (hf : ∀ t ∈ hs, ∀ t' ∈ hs, t <+: t' → t = t') {l : Char} (hl : l ∈ c!"abcdefghijklmnopqrstuvwxyz") (hx : l ≠ 'x') {s : Str} {i : Nat} {c : Caps} :
    Greedy ((Re.cat [E.resolution, .grp 2 (E.words hs), .grp 3 (E.letter l), .opt (E.rates C)]).exec s i c) := by
  have hh2 : ∀ t ∈ hs, ∀ c ∈ t, c ∈ c!"0123456789" := fun t ht => (hh t ht).2
  have hrates : ∀ k c1, Greedy ((Re.seq (.opt (E.rates C)) .eps).exec s k c1) := by
    intro k c1
    rw [seq_eps]
    exact greedy_opt (fun j c2 h => rate_longer hC ((mem_rates hd hC).1 h).1) (rates_greedy hd hC)
  have hscan : ∀ k c1, Greedy ((Re.seq (.grp 3 (E.letter l)) (.seq (.opt (E.rates C)) .eps)).exec s k c1) := by
    intro k c1
    refine greedy_step (fun _ _ _ => hrates _ _) ?_
    intro k1 c1 k2 c2 h1 h2 _ _
    rw [mem_scan] at h1 h2
    obtain ⟨_, rfl, rfl⟩ := h1
    obtain ⟨_, rfl, rfl⟩ := h2
    exact ⟨rfl, rfl⟩
  have hscan_ne : ∀ {k c1}, (Re.seq (.grp 3 (E.letter l)) (.seq (.opt (E.rates C)) .eps)).exec s k c1 ≠ [] → CharAt s (fun c => ¬ Digit E c ∧ ¬ Times E c) k := by
    intro k c1 h
    obtain ⟨⟨j, c2⟩, h⟩ := List.exists_mem_of_ne_nil _ h
    rw [mem_seq] at h
    obtain ⟨_, _, h, _⟩ := h
    obtain ⟨x, h1, h2⟩ := (mem_scan.1 h).1
    exact ⟨x, h1, letter_apart hE hl hx h2⟩
  have hheight : ∀ k c1, Greedy ((Re.seq (.grp 2 (E.words hs)) (.seq (.grp 3 (E.letter l)) (.seq (.opt (E.rates C)) .eps))).exec s k c1) := by
    intro k c1
    refine greedy_step (fun _ _ _ => hscan _ _) ?_
    intro k1 c1 k2 c2 h1 h2 _ _
    rw [mem_height hd hh2] at h1 h2
    obtain ⟨h1, rfl⟩ := h1
    obtain ⟨h2, rfl⟩ := h2
    obtain rfl := height_unique hf h1 h2
    exact ⟨rfl, rfl⟩
  refine greedy_step (fun _ _ _ => hheight _ _) ?_
  intro k1 c1 k2 c2 h1 h2 n1 n2
  have key : ∀ {k c1}, (Re.cat [.grp 2 (E.words hs), .grp 3 (E.letter l), .opt (E.rates C)]).exec s k c1 ≠ [] → ∃ b, HeightAt hs s k b ∧
      CharAt s (fun c => ¬ Digit E c ∧ ¬ Times E c) b := by
    intro k c1 h
    obtain ⟨⟨j, c2⟩, h⟩ := List.exists_mem_of_ne_nil _ h
    change (j, c2) ∈ (Re.seq _ _).exec s k c1 at h
    rw [mem_seq] at h
    obtain ⟨b, c3, h1, h2⟩ := h
    exact ⟨b, ((mem_height hd hh2).1 h1).1, hscan_ne (List.ne_nil_of_mem h2)⟩
  obtain ⟨b1, u1, v1⟩ := key n1
  obtain ⟨b2, u2, v2⟩ := key n2
  obtain ⟨w1, g1, rfl⟩ := mem_resolution.1 h1
  obtain ⟨w2, g2, rfl⟩ := mem_resolution.1 h2
  obtain ⟨rfl, -, rfl⟩ := start_unique hE hh hf g1 u1 v1 g2 u2 v2
  exact ⟨rfl, rfl⟩

theorem hd_apart {E : RxEnv} (hE : Usual E) {s : Str} {b d : Nat} {q : Option (Nat × Nat)} (h1 : LetterMaybe E 'p' s b d q) (h2 : LiteralAt E s c!"hd" d) :
    CharAt s (fun c => ¬ Digit E c ∧ ¬ Times E c) b ∧ ∀ d' q', LetterMaybe E 'p' s b d' q' → LiteralAt E s c!"hd" d' → d = d' ∧ q = q' := by
  have hh : ∀ {d}, LiteralAt E s c!"hd" d → CharAt s (fun c => E.same 'h' c = true) d := by
    intro d h
    obtain ⟨c, h1, h2⟩ := h 0 'h' rfl
    exact ⟨c, h1, h2⟩
  have ph : ∀ {b}, CharAt s (fun c => E.same 'h' c = true) b → CharAt s (fun c => E.same 'p' c = true) b → False :=
    fun u v => u.false v fun c x y => absurd (hE.apart 'h' (by decide) 'p' (by decide) c x y) (by decide)
  constructor
  · rcases h1 with ⟨rfl, rfl⟩ | ⟨rfl, ⟨x, g1, g2⟩, rfl⟩
    · obtain ⟨x, g1, g2⟩ := hh h2
      exact ⟨x, g1, letter_apart hE (by decide) (by decide) g2⟩
    · exact ⟨x, g1, letter_apart hE (by decide) (by decide) g2⟩
  · intro d' q' h1' h2'
    rcases h1 with ⟨rfl, rfl⟩ | ⟨rfl, g, rfl⟩ <;> rcases h1' with ⟨rfl, rfl⟩ | ⟨rfl, g', rfl⟩
    · exact ⟨rfl, rfl⟩
    · exact (ph (hh h2) g').elim
    · exact (ph (hh h2') g).elim
    · exact ⟨rfl, rfl⟩

theorem letter_greedy {E : RxEnv} {s : Str} {b : Nat} {c : Caps} :
    Greedy ((Re.seq (.opt (.grp 3 (E.letter 'p'))) (.seq (.opt (E.letter 'x')) .eps)).exec s b c) := by
  have hx : ∀ b c, Greedy ((Re.seq (.opt (E.letter 'x')) .eps).exec s b c) := by
    intro b c
    rw [seq_eps]
    refine greedy_opt (fun j c2 h => by rw [mem_letter] at h; omega) (greedy_same ?_)
    rintro ⟨j, c1⟩ h1 ⟨j', c2⟩ h2
    rw [mem_letter] at h1 h2
    simp only; omega
  have hxr : ∀ {b c x}, x ∈ (Re.seq (.opt (E.letter 'x')) .eps).exec s b c → b ≤ x.1 ∧ x.1 ≤ b + 1 := by
    rintro b c ⟨j, c1⟩ h
    rw [seq_eps, mem_letter_maybe] at h
    obtain ⟨⟨q, ⟨_, rfl⟩ | ⟨_, _, rfl⟩⟩, _⟩ := h <;> simp
  rw [exec, opt_exec (fun j c1 h => by rw [mem_scan] at h; omega), List.flatMap_append]
  refine greedy_append ?_ ?_ ?_
  · by_cases h : (Re.grp 3 (E.letter 'p')).exec s b c = []
    · rw [h]; intro x hx; cases hx
    · obtain ⟨⟨k, c1⟩, h⟩ := List.exists_mem_of_ne_nil _ h
      refine greedy_flatMap (hx k c1) ?_
      rintro ⟨k', c1'⟩ h' _
      rw [mem_scan] at h h'
      obtain ⟨_, rfl, rfl⟩ := h
      obtain ⟨_, rfl, rfl⟩ := h'
      rfl
  · simpa using hx b c
  · intro x h1 y h2
    obtain ⟨⟨k, c1⟩, h1, h3⟩ := List.mem_flatMap.1 h1
    obtain ⟨⟨k', c1'⟩, h2, h4⟩ := List.mem_flatMap.1 h2
    rw [mem_scan] at h1
    rw [List.mem_singleton, Prod.mk.injEq] at h2
    have := hxr h3; have := hxr h4
    simp only at *
    omega

theorem mem_heightPixels {E : RxEnv} {s : Str} {a j : Nat} {c c' : Caps} : (j, c') ∈ (Re.grp 2 (Re.rep E.digit 3 (some 4))).exec s a c ↔
    PixelsAt E s a j ∧ c' = (2, (a, j)) :: c := by
  rw [mem_grp]
  constructor
  · rintro ⟨c1, h, rfl⟩
    obtain ⟨rfl, h2⟩ := mem_someDigits.1 h
    exact ⟨h2, rfl⟩
  · rintro ⟨h, rfl⟩
    exact ⟨c, mem_someDigits.2 ⟨rfl, h⟩, rfl⟩

/-- Between the width and the height there is no digit. -/
theorem pixels_noDigit {E : RxEnv} (hE : Usual E) {s : Str} {x y a : Nat} (h2 : MaybeSep s x y) (h3 : CharAt s (Times E) y) (h4 : MaybeSep s (y + 1) a) :
    x < a ∧ ∀ k, x ≤ k → k < a → NoDigitAt E s k := by
  have ht := charAt_noDigit h3 fun _ => times_not_digit hE
  have hsep : ∀ {k}, CharAt s (fun c => c ∈ seps ∧ c ≠ '/' ∧ c ≠ '\\') k → NoDigitAt E s k := fun h => charAt_noDigit h fun _ h => sep_not_digit hE h.1
  constructor
  · rcases h2 with rfl | ⟨rfl, _⟩ <;> rcases h4 with rfl | ⟨rfl, _⟩ <;> omega
  · intro k k1 k2
    by_cases hy : k = y
    · subst hy; exact ht
    · rcases h2 with rfl | ⟨rfl, g⟩ <;> rcases h4 with rfl | ⟨rfl, g'⟩
      · omega
      · rw [show k = y + 1 by omega]; exact hsep g'
      · rw [show k = x by omega]; exact hsep g
      · obtain rfl | rfl : k = x ∨ k = x + 1 + 1 := by omega
        · exact hsep g
        · exact hsep g'

theorem noDigit_false {E : RxEnv} {s : Str} {k : Nat} (h : NoDigitAt E s k) (h' : CharAt s (Digit E) k) : False := by
  obtain ⟨c, h1, h2⟩ := h'
  exact h c h1 h2

theorem pixels_gap {E : RxEnv} (hE : Usual E) {s : Str} {i x y a j x' y' a' j' : Nat} (h1 : PixelsAt E s i x) (h2 : MaybeSep s x y) (h3 : CharAt s (Times E) y)
    (h4 : MaybeSep s (y + 1) a) (h5 : PixelsAt E s a j) (h1' : PixelsAt E s i x') (h2' : MaybeSep s x' y') (h3' : CharAt s (Times E) y')
    (h4' : MaybeSep s (y' + 1) a') (h5' : PixelsAt E s a' j') : x = x' ∧ a = a' := by
  obtain ⟨l, n⟩ := pixels_noDigit hE h2 h3 h4
  obtain ⟨l', n'⟩ := pixels_noDigit hE h2' h3' h4'
  have hx : x = x' := run_unique (by have := h1.1; omega) (by have := h1'.1; omega) h1.2.2 (n x (Nat.le_refl _) l) h1'.2.2 (n' x' (Nat.le_refl _) l')
  subst hx
  refine ⟨rfl, ?_⟩
  rcases Nat.lt_trichotomy a a' with h | h | h
  · exact (noDigit_false (n' a (by omega) h) (h5.2.2 a (Nat.le_refl _) (by have := h5.1; omega))).elim
  · exact h
  · exact (noDigit_false (n a' (by omega) h) (h5'.2.2 a' (Nat.le_refl _) (by have := h5'.1; omega))).elim

theorem form_greedy {E : RxEnv} (hE : Usual E) (hd : PlainDigits E) {C : ScreenConfig} (hC : PlainScreen C) {k : SizeForm} {s : Str} {i : Nat} :
    Greedy ((k.re E C).exec s i []) := by
  have hI : ∀ t ∈ C.interlaced, (t.length = 3 ∨ t.length = 4) ∧ ∀ c ∈ t, c ∈ c!"0123456789" := fun t ht => hC.heights t (by simp [ht])
  have hP : ∀ t ∈ C.progressive, (t.length = 3 ∨ t.length = 4) ∧ ∀ c ∈ t, c ∈ c!"0123456789" := fun t ht => hC.heights t (by simp [ht])
  cases k with
  | interlaced => exact scanned_greedy hE hd hC hI hC.interlaced (by decide) (by decide)
  | progressive => exact scanned_greedy hE hd hC hP hC.progressive (by decide) (by decide)
  | hd =>
    apply greedy_same
    rintro ⟨j, c⟩ h ⟨j', c'⟩ h'
    obtain ⟨p, ⟨_, a, b, d, h1, h2, _, h3, h4, rfl⟩, _⟩ := (mem_form hd hC).1 h
    obtain ⟨p', ⟨_, a', b', d', h1', h2', _, h3', h4', rfl⟩, _⟩ := (mem_form hd hC).1 h'
    obtain ⟨u, v⟩ := hd_apart hE h3 h4
    obtain ⟨rfl, rfl, -⟩ := start_unique hE hP hC.progressive h1 h2 u h1' h2' (hd_apart hE h3' h4').1
    simp only
    rw [(v d' _ h3' h4').1]
  | loose =>
    show Greedy ((Re.seq E.resolution (.seq (.grp 2 (E.words C.progressive)) (.seq (.opt (.grp 3 (E.letter 'p'))) (.seq (.opt (E.letter 'x')) .eps)))).exec s i [])
    have hheight : ∀ k c1, Greedy ((Re.seq (.grp 2 (E.words C.progressive)) (.seq (.opt (.grp 3 (E.letter 'p'))) (.seq (.opt (E.letter 'x')) .eps))).exec s k c1) := by
      intro k c1
      refine greedy_step (fun _ _ _ => letter_greedy) ?_
      intro k1 c1 k2 c2 h1 h2 _ _
      rw [mem_height hd hC.digits.2] at h1 h2
      obtain ⟨h1, rfl⟩ := h1
      obtain ⟨h2, rfl⟩ := h2
      obtain rfl := height_unique hC.progressive h1 h2
      exact ⟨rfl, rfl⟩
    have hends : ∀ {k c1 x}, x ∈ (Re.seq (.grp 2 (E.words C.progressive)) (.seq (.opt (.grp 3 (E.letter 'p'))) (.seq (.opt (E.letter 'x')) .eps))).exec s k c1 →
        k + 3 ≤ x.1 ∧ x.1 ≤ k + 6 := by
      rintro k c1 ⟨j, c2⟩ h
      simp only [mem_seq, mem_height hd hC.digits.2, mem_scan_maybe, mem_letter_maybe, mem_eps] at h
      obtain ⟨b, _, ⟨h1, _⟩, d, _, ⟨q, h2, _⟩, e, _, ⟨⟨q', h3⟩, _⟩, rfl, _⟩ := h
      have h4 := height_digits hE hP h1
      have := h4.1; have := h4.2.1
      rcases h2 with ⟨_, rfl⟩ | ⟨_, _, rfl⟩ <;> rcases h3 with ⟨_, rfl⟩ | ⟨_, _, rfl⟩ <;> constructor <;> simp only <;> omega
    have hw : ∀ {a c'}, (a, c') ∈ (Re.cat [.grp 1 (.rep E.digit 3 (some 4)), E.times]).exec s i [] →
        ∃ x, PixelsAt E s i x ∧ CharAt s (Times E) x ∧ a = x + 1 ∧ c' = [(1, (i, x))] := by
      intro a c' h
      change (a, c') ∈ (Re.seq (.grp 1 (.rep E.digit 3 (some 4))) (.seq E.times .eps)).exec s i [] at h
      simp only [mem_seq, mem_width, mem_times, mem_eps] at h
      obtain ⟨x, c1, ⟨h1, rfl⟩, y, c2, ⟨h2, rfl, rfl⟩, rfl, rfl⟩ := h
      exact ⟨x, h1, h2, rfl, rfl⟩
    rw [exec, show E.resolution = Re.opt (Re.cat [.grp 1 (.rep E.digit 3 (some 4)), E.times]) from rfl,
      opt_exec (fun j c1 h => by obtain ⟨x, h1, _, rfl, _⟩ := hw h; have := h1.1; omega), List.flatMap_append]
    refine greedy_append ?_ ?_ ?_
    · by_cases h : (Re.cat [.grp 1 (.rep E.digit 3 (some 4)), E.times]).exec s i [] = []
      · rw [h]; intro x hx; cases hx
      · obtain ⟨⟨k, c1⟩, h⟩ := List.exists_mem_of_ne_nil _ h
        refine greedy_flatMap (hheight k c1) ?_
        rintro ⟨k', c1'⟩ h' _
        obtain ⟨x, h1, h2, rfl, rfl⟩ := hw h
        obtain ⟨x', h1', h2', rfl, rfl⟩ := hw h'
        obtain rfl := width_unique hE h1 h2 h1' h2'
        rfl
    · simpa using hheight i []
    · intro x h1 y h2
      obtain ⟨⟨k, c1⟩, h1, h3⟩ := List.mem_flatMap.1 h1
      obtain ⟨⟨k', c1'⟩, h2, h4⟩ := List.mem_flatMap.1 h2
      obtain ⟨z, g1, _, rfl, rfl⟩ := hw h1
      rw [List.mem_singleton, Prod.mk.injEq] at h2
      have := hends h3; have := hends h4; have := g1.1
      simp only at *
      omega
  | pixels =>
    rintro ⟨j, c⟩ hx ⟨j', c'⟩ hy
    obtain ⟨p', ⟨_, _, x', y', a', _, h1', h2', h3', h4', h5', h6'⟩, _⟩ := (mem_form hd hC).1 hy
    change ((Re.seq (.grp 1 (.rep E.digit 3 (some 4))) (.seq dashRe (.seq E.times (.seq dashRe (.seq (.grp 2 (.rep E.digit 3 (some 4))) .eps))))).exec s i []).head?
      = some (j, c) at hx
    obtain ⟨x, c1, h1, hx⟩ := head_seq hx
    obtain ⟨y, c2, h2, hx⟩ := head_seq hx
    obtain ⟨y1, c3, h3, hx⟩ := head_seq hx
    obtain ⟨a, c4, h4, hx⟩ := head_seq hx
    rw [seq_eps] at hx
    obtain ⟨g1, rfl⟩ := mem_width.1 h1
    obtain ⟨g2, e2⟩ := mem_dash.1 h2
    obtain ⟨g3, rfl, e3⟩ := mem_times.1 h3
    obtain ⟨g4, e4⟩ := mem_dash.1 h4
    subst e2 e3 e4
    have h6 := mem_heightPixels.1 (List.mem_of_head? hx)
    obtain ⟨rfl, rfl⟩ := pixels_gap hE g1 g2 g3 g4 h6.1 h1' h2' h3' h4' h6'
    have hg : Greedy ((Re.grp 2 (Re.rep E.digit 3 (some 4))).exec s a [(1, (i, x))]) := by
      apply greedy_grp
      apply greedy_sorted
      have := @repExec_chr_sorted s (fun c => E.u.isDigit c) 4 3 a [(1, (i, x))]
      simpa only [RxEnv.digit, exec, Option.getD_some] using this
    exact hg _ hx (j', (2, (a, j')) :: [(1, (i, x))]) (mem_heightPixels.2 ⟨h6', rfl⟩)

end Guessit
