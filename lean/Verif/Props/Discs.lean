import Verif.Props.Numbered

/-! # C117: discs -/

namespace Guessit
open Spec Re

theorem cd_lettered : Lettered c!"cd" := ⟨by decide, by decide⟩
theorem of_lettered : Lettered c!"of" := ⟨by decide, by decide⟩

/-- The optional part of the pattern. -/
def ofRe (E : RxEnv) : Re := .cat [dashRe, E.word c!"of", dashRe, .grp 2 E.digits]

theorem mem_of {E : RxEnv} {s : Str} {b d : Nat} {c c' : Caps} : (d, c') ∈ (ofRe E).exec s b c ↔
    ∃ x a, MaybeSep s b x ∧ LiteralAt E s c!"of" x ∧ MaybeSep s (x + 2) a ∧ a < d ∧ AllOf s (Digit E) a d ∧ c' = (2, (a, d)) :: c := by
  unfold ofRe
  simp only [Re.cat, mem_seq, mem_dash, mem_word, mem_grp, mem_number, mem_eps]
  constructor
  · rintro ⟨x, c1, ⟨h1, rfl⟩, k, c2, ⟨h2, rfl, rfl⟩, a, c3, ⟨h3, rfl⟩, k2, c4, ⟨c5, ⟨rfl, h4, h5⟩, rfl⟩, rfl, rfl⟩
    exact ⟨x, a, h1, h2, h3, h4, h5, rfl⟩
  · rintro ⟨x, a, h1, h2, h3, h4, h5, rfl⟩
    exact ⟨x, c, ⟨h1, rfl⟩, x + 2, c, ⟨h2, rfl, rfl⟩, a, c, ⟨h3, rfl⟩, d, _, ⟨c, ⟨rfl, h4, h5⟩, rfl⟩, rfl, rfl⟩

theorem of_pos {E : RxEnv} {s : Str} {b d : Nat} {c c' : Caps} (h : (d, c') ∈ (ofRe E).exec s b c) : d ≠ b := by
  obtain ⟨x, a, h1, _, h3, h4, _⟩ := mem_of.1 h
  have := maybeSep_le h1; have := maybeSep_le h3; omega

/-- Where the word is, is settled. -/
theorem sep_word {E : RxEnv} (hE : Usual E) {s w w' : Str} (hw : Lettered w) (hw' : Lettered w') {b x x' : Nat} (h1 : MaybeSep s b x) (h2 : LiteralAt E s w x)
    (g1 : MaybeSep s b x') (g2 : LiteralAt E s w' x') : x = x' := by
  have pos : ∀ {w : Str}, Lettered w → 0 < w.length := by intro w hw; have := hw.1; cases w <;> simp_all
  have p1 := pos hw
  have p2 := pos hw'
  rcases h1 with rfl | ⟨rfl, h1⟩ <;> rcases g1 with rfl | ⟨rfl, g1⟩
  · rfl
  · exact ((h2.mid hw (Nat.le_refl _) (by omega)).false g1 fun c hl hc => IsLetter.notSep hE hl hc.1).elim
  · exact ((g2.mid hw' (Nat.le_refl _) (by omega)).false h1 fun c hl hc => IsLetter.notSep hE hl hc.1).elim
  · rfl

/-- Where the number is, is settled. -/
theorem sep_number {E : RxEnv} (hE : Usual E) {s : Str} {b a a' d d' : Nat} (h1 : MaybeSep s b a) (h2 : a < d) (h3 : AllOf s (Digit E) a d)
    (g1 : MaybeSep s b a') (g2 : a' < d') (g3 : AllOf s (Digit E) a' d') : a = a' := by
  rcases h1 with rfl | ⟨rfl, h1⟩ <;> rcases g1 with rfl | ⟨rfl, g1⟩
  · rfl
  · exact ((h3 _ (Nat.le_refl _) h2).false g1 fun c hd hc => sep_not_digit hE hc.1 hd).elim
  · exact ((g3 _ (Nat.le_refl _) g2).false h1 fun c hd hc => sep_not_digit hE hc.1 hd).elim
  · rfl

theorem dash_head {s : Str} {i j : Nat} {c : Caps} (h : MaybeSep s i j) (hn : j = i → ∀ x, s[i]? = some x → x ∉ seps) :
    (dashRe.exec s i c).head? = some (j, c) := by
  unfold dashRe
  rcases h with rfl | ⟨rfl, x, hx, hp⟩
  · rw [opt_nil]
    · rfl
    · refine chr_nil fun x hx => ?_
      have := hn rfl x hx
      cases h : sepsNoFs.contains x with
      | false => rfl
      | true => exact absurd (sepsNoFs_iff.1 h).1 this
  · exact opt_head (chr_head hx (sepsNoFs_iff.2 hp)) (by omega)

theorem word_head {E : RxEnv} {s : Str} : ∀ {w : Str} {i : Nat} {c : Caps}, LiteralAt E s w i → ((E.word w).exec s i c).head? = some (i + w.length, c)
  | [], i, c, _ => rfl
  | l :: w, i, c, h => by
    rw [Spec.LiteralAt.cons] at h
    obtain ⟨⟨x, hx, hp⟩, h2⟩ := h
    have := word_head (c := c) h2
    unfold RxEnv.word
    refine seq_head (chr_head hx hp) ?_
    rw [this]
    simp only [List.length_cons]
    congr 2
    omega

theorem charAt_noSep {s : Str} {p : Char → Prop} {i : Nat} (h : CharAt s p i) (hp : ∀ c, p c → c ∉ seps) : ∀ x, s[i]? = some x → x ∉ seps := by
  intro x hx
  obtain ⟨y, hy, hpy⟩ := h
  rw [hx] at hy; cases hy
  exact hp x hpy

theorem of_head {E : RxEnv} (hE : Usual E) {s : Str} {b x a d : Nat} {c : Caps} (h1 : MaybeSep s b x) (h2 : LiteralAt E s c!"of" x)
    (h3 : MaybeSep s (x + 2) a) (h4 : a < d) (h5 : AllOf s (Digit E) a d) (h6 : NoDigitAt E s d) :
    ((ofRe E).exec s b c).head? = some (d, (2, (a, d)) :: c) := by
  unfold ofRe
  refine seq_head (dash_head h1 ?_) (seq_head (word_head h2) (seq_head (dash_head h3 ?_) (seq_head (grp_head (digits_head h4 h5 h6)) eps_head)))
  · rintro rfl
    exact charAt_noSep (h2.mid of_lettered (Nat.le_refl _) (by simp)) fun c hc => IsLetter.notSep hE hc
  · intro ha
    subst ha
    exact charAt_noSep (h5 _ (Nat.le_refl _) h4) fun c hd hc => sep_not_digit hE hc hd

/-- The groups of a hit: the disc, and the number of discs if one is given. -/
theorem cd_matchAt {E : RxEnv} (hE : Usual E) {s : Str} {i a b : Nat} (h : DiscAt E s i a b) :
    (∀ c d, OfAt E s b c d → (cdPattern E).re.matchAt s i = some (d, [(2, (c, d)), (1, (a, b))])) ∧
    ((∀ c d, ¬ OfAt E s b c d) → (cdPattern E).re.matchAt s i = some (b, [(1, (a, b))])) := by
  have pre : ∀ {r : Re} {x}, (r.exec s b [(1, (a, b))]).head? = some x →
      ((Re.cat [E.word c!"cd", dashRe, .grp 1 E.digits, r]).exec s i []).head? = some x := by
    intro r x hx
    obtain ⟨j, cc⟩ := x
    refine seq_head (word_head h.word) (seq_head (dash_head h.sep ?_) (seq_head (grp_head (digits_head h.some h.digits h.last)) (seq_head hx eps_head)))
    intro ha
    subst ha
    exact charAt_noSep (h.digits _ (Nat.le_refl _) h.some) fun c hd hc => sep_not_digit hE hc hd
  constructor
  · rintro c d ⟨⟨x, h1, h2, h3⟩, h4, h5, h6⟩
    refine matchAt_head (pre (r := .opt (ofRe E)) (opt_head (of_head hE h1 h2 h3 h4 h5 h6) ?_))
    have := maybeSep_le h1; have := maybeSep_le h3; omega
  · intro hno
    have : (ofRe E).exec s b [(1, (a, b))] = [] := by
      rw [List.eq_nil_iff_forall_not_mem]
      rintro ⟨d, c'⟩ hm
      obtain ⟨x, c, h1, h2, h3, h4, h5, _⟩ := mem_of.1 hm
      -- take all the digits
      classical
      have hex : ∃ k, d ≤ k ∧ NoDigitAt E s k := by
        refine ⟨s.length + d, by omega, fun c hc => ?_⟩
        rw [List.getElem?_eq_none (by omega)] at hc; cases hc
      have hspec := Nat.find_spec hex
      have hmin := fun k => @Nat.find_min _ _ hex k
      generalize Nat.find hex = e at hspec hmin
      refine hno c e ⟨⟨x, h1, h2, h3⟩, by omega, ?_, hspec.2⟩
      intro k hk1 hk2
      by_cases hkd : k < d
      · exact h5 k hk1 hkd
      · have := hmin k hk2
        by_contra hc
        refine this ⟨by omega, fun y hy hd => hc ⟨y, hy, hd⟩⟩
    refine matchAt_head (pre (r := .opt (ofRe E)) ?_)
    rw [opt_nil this]; rfl

/-- All the digits from a position on. -/
theorem all_digits {E : RxEnv} {s : Str} {a j : Nat} (h1 : a < j) (h2 : AllOf s (Digit E) a j) :
    ∃ e, j ≤ e ∧ AllOf s (Digit E) a e ∧ NoDigitAt E s e := by
  classical
  have hex : ∃ k, j ≤ k ∧ NoDigitAt E s k := by
    refine ⟨s.length + j, by omega, fun c hc => ?_⟩
    rw [List.getElem?_eq_none (by omega)] at hc; cases hc
  have hspec := Nat.find_spec hex
  have hmin := fun k => @Nat.find_min _ _ hex k
  generalize Nat.find hex = e at hspec hmin
  refine ⟨e, hspec.1, ?_, hspec.2⟩
  intro k hk1 hk2
  by_cases hkd : k < j
  · exact h2 k hk1 hkd
  · have := hmin k hk2
    by_contra hc
    exact this ⟨by omega, fun y hy hd => hc ⟨y, hy, hd⟩⟩

/-- Every match of the pattern is of this form. -/
theorem cd_hit {E : RxEnv} (hE : Usual E) {s : Str} {i j : Nat} {c : Caps} (h : (cdPattern E).re.matchAt s i = some (j, c)) :
    ∃ a b, DiscAt E s i a b ∧ ((∃ x y, OfAt E s b x y ∧ j = y ∧ c = [(2, (x, y)), (1, (a, b))]) ∨
      ((∀ x y, ¬ OfAt E s b x y) ∧ j = b ∧ c = [(1, (a, b))])) := by
  have hm := matchAt_mem h
  obtain ⟨a, b0, hw, hs, hab, hd⟩ : ∃ a b0, LiteralAt E s c!"cd" i ∧ MaybeSep s (i + 2) a ∧ a < b0 ∧ AllOf s (Digit E) a b0 := by
    have : (j, c) ∈ (Re.cat [E.word c!"cd", dashRe, .grp 1 E.digits, .opt (ofRe E)]).exec s i [] := hm
    simp only [Re.cat, mem_seq, mem_dash, mem_word, mem_grp, mem_number, mem_eps] at this
    obtain ⟨k, c1, ⟨h1, rfl, rfl⟩, a, c2, ⟨h2, rfl⟩, b0, c3, ⟨c4, ⟨rfl, h3, h4⟩, rfl⟩, _⟩ := this
    exact ⟨a, b0, h1, h2, h3, h4⟩
  obtain ⟨b, hb1, hb2, hb3⟩ := all_digits hab hd
  have hdisc : DiscAt E s i a b := ⟨hw, hs, by omega, hb2, hb3⟩
  refine ⟨a, b, hdisc, ?_⟩
  obtain ⟨g1, g2⟩ := cd_matchAt hE hdisc
  by_cases hof : ∃ x y, OfAt E s b x y
  · obtain ⟨x, y, hof⟩ := hof
    have := g1 x y hof
    rw [h] at this
    cases this
    exact .inl ⟨x, _, hof, rfl, rfl⟩
  · have hno : ∀ x y, ¬ OfAt E s b x y := fun x y h => hof ⟨x, y, h⟩
    have := g2 hno
    rw [h] at this
    cases this
    exact .inr ⟨hno, rfl, rfl⟩

theorem cd_eats (E : RxEnv) (hE : Usual E) : (cdPattern E).re.Eats := by
  intro s i j c _ h
  obtain ⟨a, b, h1, h2⟩ := cd_hit hE h
  have := maybeSep_le h1.sep
  have := h1.some
  rcases h2 with ⟨x, y, h2, rfl, _⟩ | ⟨_, rfl, _⟩
  · obtain ⟨z, g1, _, g2⟩ := h2.word
    have := maybeSep_le g1; have := maybeSep_le g2; have := h2.some; omega
  · omega

/-- A disc is where no earlier match reaches. -/
theorem cd_clear {E : RxEnv} (hE : Usual E) {s : Str} {i a b : Nat} (h : DiscAt E s i a b) {i' j' : Nat} {c' : Caps} (hlt : i' < i)
    (hm : (cdPattern E).re.matchAt s i' = some (j', c')) : j' ≤ i := by
  have hc : CharAt s (fun x => E.same 'c' x = true) i := (Spec.LiteralAt.cons.1 h.word).1
  have letter : ∀ l ∈ c!"dof", ¬ CharAt s (fun x => E.same l x = true) i := by
    intro l hl hx
    have hall : ∀ l ∈ c!"dof", l ∈ c!"abcdefghijklmnopqrstuvwxyz" ∧ 'c' ≠ l := by decide
    refine hc.false hx fun c h1 h2 => (hall l hl).2 (hE.apart 'c' (by decide) l (hall l hl).1 c h1 h2)
  have hnd : ¬ CharAt s (Digit E) i := fun hx => hc.false hx fun c h1 h2 => letter_not_digit hE (by decide) h1 h2
  have hns : ¬ CharAt s (fun c => c ∈ seps ∧ c ≠ '/' ∧ c ≠ '\\') i := fun hx => hc.false hx fun c h1 h2 => by
    rw [sep_not_letter hE (by decide) h2.1] at h1; cases h1
  obtain ⟨a', b', g, g'⟩ := cd_hit hE hm
  have i1 : i ≠ i' + 1 := by
    rintro rfl
    exact letter 'd' (by decide) (Spec.LiteralAt.cons.1 (Spec.LiteralAt.cons.1 g.word).2).1
  have i2 : ¬ (i' + 2 ≤ i ∧ i < a') := by
    rintro ⟨h1, h2⟩
    rcases g.sep with h0 | ⟨h0, hsep⟩
    · omega
    · rw [show i' + 2 = i by omega] at hsep; exact hns hsep
  have i3 : ¬ (a' ≤ i ∧ i < b') := fun ⟨h1, h2⟩ => hnd (g.digits i h1 h2)
  rcases g' with ⟨x, y, g2, rfl, _⟩ | ⟨_, rfl, _⟩
  · obtain ⟨z, k1, k2, k3⟩ := g2.word
    by_contra hcon
    have j1 : ¬ (b' ≤ i ∧ i < z) := by
      rintro ⟨h1, h2⟩
      rcases k1 with h0 | ⟨h0, hsep⟩
      · omega
      · rw [show b' = i by omega] at hsep; exact hns hsep
    have j2 : i ≠ z := by
      rintro rfl; exact letter 'o' (by decide) (Spec.LiteralAt.cons.1 k2).1
    have j3 : i ≠ z + 1 := by
      rintro rfl; exact letter 'f' (by decide) (Spec.LiteralAt.cons.1 (Spec.LiteralAt.cons.1 k2).2).1
    have j4 : ¬ (z + 2 ≤ i ∧ i < x) := by
      rintro ⟨h1, h2⟩
      rcases k3 with h0 | ⟨h0, hsep⟩
      · omega
      · rw [show z + 2 = i by omega] at hsep; exact hns hsep
    have j5 : ¬ (x ≤ i ∧ i < j') := fun ⟨h1, h2⟩ => hnd (g2.digits i h1 h2)
    omega
  · omega

/-- The number of a run of digits. -/
def valueAt (E : RxEnv) (s : Str) (a b : Nat) : Nat := digitsValue E.u (textOf s a b)

theorem valueAt_iff {E : RxEnv} {s : Str} {a b n : Nat} (h : a < b) (hd : AllOf s (Digit E) a b) : Number E s a b n ↔ n = valueAt E s a b :=
  ⟨fun h => h.value, fun e => e ▸ number_of h hd⟩

theorem underHundred_iff (n : Nat) : underHundred (n : Int) = true ↔ 1 ≤ n ∧ n ≤ 99 := by
  unfold underHundred; simp only [Bool.and_eq_true, decide_eq_true_eq]; omega

/-- What the pattern reports from one match. -/
theorem cd_kids {E : RxEnv} (hE : Usual E) {s : Str} {i j a b : Nat} (h1 : a < b) (h2 : AllOf s (Digit E) a b) :
    (cdPattern E).kids s ⟨i, j, [(1, (a, b))]⟩ = [⟨c!"cd", a, b, .ok (valueAt E s a b : Nat)⟩] := by
  simp only [RxPattern.kids, cdPattern, List.filterMap_cons, List.filterMap_nil, List.lookup, BEq.beq, decide_true, decide_false, if_pos h1]
  simp [pyInt_number hE h1 h2, valueAt, textOf]

theorem cd_kids2 {E : RxEnv} (hE : Usual E) {s : Str} {i j a b x y : Nat} (h1 : a < b) (h2 : AllOf s (Digit E) a b) (h3 : x < y) (h4 : AllOf s (Digit E) x y) :
    (cdPattern E).kids s ⟨i, j, [(2, (x, y)), (1, (a, b))]⟩ =
      [⟨c!"cd", a, b, .ok (valueAt E s a b : Nat)⟩, ⟨c!"cd_count", x, y, .ok (valueAt E s x y : Nat)⟩] := by
  simp only [RxPattern.kids, cdPattern, List.filterMap_cons, List.filterMap_nil, List.lookup, BEq.beq]
  simp [h1, h3, pyInt_number hE h1 h2, pyInt_number hE h3 h4, valueAt, textOf]

theorem cd_accepts {E : RxEnv} {s : Str} {h : RxHit} : (cdPattern E).accepts s h = ((cdPattern E).kids s h).all (fun m => valueIs underHundred m) := by
  simp [RxPattern.accepts, cdPattern]

/-- C117: a disc is reported exactly where `cd` and a number from 1 to 99 are written — unless `of` and a number that is not from 1 to 99 follows —
and the number of discs is what follows `of`.  Nothing is asked of what stands before or after. -/
theorem C117_disc (E : RxEnv) (hE : Usual E) (s : Str) (m : RxMatch Int) : m ∈ (cdPattern E).found s ↔
    ∃ i a b : Nat, DiscAt E s i a b ∧ ∃ n : Nat, Number E s a b n ∧ 1 ≤ n ∧ n ≤ 99 ∧
      (((∀ x y, ¬ OfAt E s b x y) ∧ m = ⟨c!"cd", a, b, .ok n⟩) ∨
       ∃ x y k : Nat, OfAt E s b x y ∧ Number E s x y k ∧ 1 ≤ k ∧ k ≤ 99 ∧ (m = ⟨c!"cd", a, b, .ok n⟩ ∨ m = ⟨c!"cd_count", x, y, .ok k⟩)) := by
  rw [mem_found]
  have hch : (cdPattern E).children = true := rfl
  constructor
  · rintro ⟨⟨i, j, c⟩, hh, ha, hm⟩
    rw [if_pos hch] at hm
    rw [cd_accepts] at ha
    obtain ⟨h1, h2⟩ := hits_sound hh
    simp only at h1 h2
    obtain ⟨a, b, hd, ⟨x, y, hof, rfl, rfl⟩ | ⟨hno, rfl, rfl⟩⟩ := cd_hit hE h1
    · rw [cd_kids2 hE hd.some hd.digits hof.some hof.digits] at hm ha
      simp only [List.all_cons, List.all_nil, valueIs, Bool.and_true, Bool.and_eq_true, underHundred_iff] at ha
      refine ⟨i, a, b, hd, _, number_of hd.some hd.digits, ha.1.1, ha.1.2, .inr ⟨x, _, _, hof, number_of hof.some hof.digits, ha.2.1, ha.2.2, ?_⟩⟩
      simpa [valueAt] using hm
    · rw [cd_kids hE hd.some hd.digits] at hm ha
      simp only [List.all_cons, List.all_nil, valueIs, Bool.and_true, underHundred_iff] at ha
      refine ⟨i, a, _, hd, _, number_of hd.some hd.digits, ha.1, ha.2, .inl ⟨hno, ?_⟩⟩
      simpa [valueAt] using hm
  · rintro ⟨i, a, b, hd, n, hn, hlo, hhi, hcase⟩
    have hi : i ≤ s.length := by
      have := hd.digits.le hd.some; have := hd.some; have := maybeSep_le hd.sep; omega
    rw [valueAt_iff hd.some hd.digits] at hn
    subst hn
    rcases hcase with ⟨hno, rfl⟩ | ⟨x, y, k, hof, hk, hklo, hkhi, hm⟩
    · refine ⟨_, hits_complete (cd_eats E hE) ((cd_matchAt hE hd).2 hno) hi (fun _ _ _ h1 h2 => cd_clear hE hd h1 h2), ?_, ?_⟩
      · rw [cd_accepts, cd_kids hE hd.some hd.digits]
        simp [valueIs, (underHundred_iff _).2 ⟨hlo, hhi⟩]
      · rw [if_pos hch, cd_kids hE hd.some hd.digits]; simp
    · rw [valueAt_iff hof.some hof.digits] at hk
      subst hk
      refine ⟨_, hits_complete (cd_eats E hE) ((cd_matchAt hE hd).1 x y hof) hi (fun _ _ _ h1 h2 => cd_clear hE hd h1 h2), ?_, ?_⟩
      · rw [cd_accepts, cd_kids2 hE hd.some hd.digits hof.some hof.digits]
        simp [valueIs, (underHundred_iff _).2 ⟨hlo, hhi⟩, (underHundred_iff _).2 ⟨hklo, hkhi⟩]
      · rw [if_pos hch, cd_kids2 hE hd.some hd.digits hof.some hof.digits]; simpa using hm

/-! ## The other way round: `2 CDs` -/

theorem mem_cdCount {E : RxEnv} {s : Str} {a j : Nat} {c : Caps} : (j, c) ∈ (cdCountPattern E).re.exec s a [] ↔
    ∃ b x, a < b ∧ AllOf s (Digit E) a b ∧ MaybeSep s b x ∧ LiteralAt E s c!"cd" x ∧ c = [(1, (a, b))] ∧
      (j = x + 2 ∨ (j = x + 3 ∧ CharAt s (fun y => E.same 's' y = true) (x + 2))) := by
  show (j, c) ∈ (Re.cat [.grp 1 E.digits, dashRe, E.word c!"cd", .opt (E.letter 's')]).exec s a [] ↔ _
  simp only [Re.cat, mem_seq, mem_dash, mem_word, mem_grp, mem_number, mem_eps]
  constructor
  · rintro ⟨b, c1, ⟨c2, ⟨rfl, h1, h2⟩, rfl⟩, x, c3, ⟨h3, rfl⟩, k, c4, ⟨h4, rfl, rfl⟩, k2, c5, h5, rfl, rfl⟩
    rw [mem_optional (fun j c1 h => by rw [mem_letter] at h; omega), mem_letter] at h5
    rcases h5 with ⟨h5, rfl, rfl⟩ | ⟨rfl, rfl⟩
    · exact ⟨b, x, h1, h2, h3, h4, rfl, .inr ⟨rfl, h5⟩⟩
    · exact ⟨b, x, h1, h2, h3, h4, rfl, .inl rfl⟩
  · rintro ⟨b, x, h1, h2, h3, h4, rfl, h5⟩
    refine ⟨b, _, ⟨_, ⟨rfl, h1, h2⟩, rfl⟩, x, _, ⟨h3, rfl⟩, x + 2, _, ⟨h4, rfl, rfl⟩, j, _, ?_, rfl, rfl⟩
    rw [mem_optional (fun j c1 h => by rw [mem_letter] at h; omega), mem_letter]
    rcases h5 with rfl | ⟨rfl, h5⟩
    · exact .inr ⟨rfl, rfl⟩
    · exact .inl ⟨h5, rfl, rfl⟩

theorem cdCount_eats (E : RxEnv) : (cdCountPattern E).re.Eats := by
  intro s i j c _ h
  obtain ⟨b, x, h1, _, h3, _, _, h5⟩ := mem_cdCount.1 (matchAt_mem h)
  have := maybeSep_le h3; omega

/-- After the digits there is no digit. -/
theorem count_last {E : RxEnv} (hE : Usual E) {s : Str} {b x : Nat} (h1 : MaybeSep s b x) (h2 : LiteralAt E s c!"cd" x) : NoDigitAt E s b := by
  intro c hc hd
  rcases h1 with rfl | ⟨rfl, h1⟩
  · exact (h2.mid cd_lettered (Nat.le_refl _) (by simp)).false ⟨c, hc, hd⟩ fun c hl hd => IsLetter.notDigit hE hl hd
  · exact h1.false ⟨c, hc, hd⟩ fun c hs hd => sep_not_digit hE hs.1 hd

theorem cdCount_kids {E : RxEnv} (hE : Usual E) {s : Str} {i j a b : Nat} (h1 : a < b) (h2 : AllOf s (Digit E) a b) :
    (cdCountPattern E).kids s ⟨i, j, [(1, (a, b))]⟩ = [⟨c!"cd_count", a, b, .ok (valueAt E s a b : Nat)⟩] := by
  rw [kids_one (P := cdCountPattern E) (name := c!"cd_count") rfl h1]
  show [RxMatch.mk _ _ _ (pyInt E.u _)] = _
  rw [pyInt_number hE h1 h2]; rfl

theorem cdCount_accepts {E : RxEnv} {s : Str} {h : RxHit} :
    (cdCountPattern E).accepts s h = ((cdCountPattern E).kids s h).all (fun m => valueIs underHundred m) := by
  simp [RxPattern.accepts, cdCountPattern]

/-- Digits that a match takes start where a run of digits starts. -/
theorem cdCount_first {E : RxEnv} (hE : Usual E) {s : Str} : ∀ (f i : Nat), (i = 0 ∨ NoDigitAt E s (i - 1)) → ∀ h ∈ (cdCountPattern E).re.hitsFrom s f i,
    h.start = 0 ∨ NoDigitAt E s (h.start - 1)
  | 0, _, _, h, hh => by simp [Re.hitsFrom] at hh
  | f + 1, i, hi, h, hh => by
    unfold Re.hitsFrom at hh
    split at hh
    · rename_i hle
      split at hh
      · simp at hh
      · rename_i a b c hs
        obtain ⟨g1, g2, g3, g4⟩ := Re.searchFrom_some hs
        obtain ⟨e, x, h1, h2, h3, h4, _, h5⟩ := mem_cdCount.1 (matchAt_mem g1)
        rcases List.mem_cons.1 hh with rfl | hh
        · simp only
          by_cases ha : a = i
          · subst ha; exact hi
          · right
            intro y hy hd
            -- the match would start earlier
            have hmem : (b, [(1, (a - 1, e))]) ∈ (cdCountPattern E).re.exec s (a - 1) [] := by
              refine mem_cdCount.2 ⟨e, x, by omega, ?_, h3, h4, rfl, h5⟩
              intro k hk1 hk2
              by_cases hk : k = a - 1
              · subst hk; exact ⟨y, hy, hd⟩
              · exact h2 k (by omega) hk2
            obtain ⟨j', c', hm⟩ := matchAt_of_mem hmem
            rw [g4 (a - 1) (by omega) (by omega)] at hm; cases hm
        · refine cdCount_first hE f b (.inr ?_) h hh
          intro y hy hd
          rcases h5 with rfl | ⟨rfl, h5⟩
          · exact (h4.mid cd_lettered (k := x + 1) (by omega) (by simp)).false ⟨y, by simpa using hy, hd⟩ fun c hl hd => IsLetter.notDigit hE hl hd
          · exact h5.false ⟨y, by simpa using hy, hd⟩ fun c hl hd => letter_not_digit hE (by decide) hl hd
    · simp at hh

/-- C117: a number of discs is also reported exactly where a number from 1 to 99 and `cd` are written. -/
theorem C117_count (E : RxEnv) (hE : Usual E) (s : Str) (m : RxMatch Int) : m ∈ (cdCountPattern E).found s ↔
    m.name = c!"cd_count" ∧ CountedAt E s m.start m.stop ∧ ∃ n : Nat, Number E s m.start m.stop n ∧ 1 ≤ n ∧ n ≤ 99 ∧ m.value = .ok n := by
  rw [mem_found]
  have hch : (cdCountPattern E).children = true := rfl
  constructor
  · rintro ⟨⟨i, j, c⟩, hh, ha, hm⟩
    rw [if_pos hch] at hm
    rw [cdCount_accepts] at ha
    obtain ⟨h1, h2⟩ := hits_sound hh
    have hfirst := cdCount_first hE _ _ (.inl rfl) _ hh
    simp only at h1 h2 hfirst
    obtain ⟨b, x, g1, g2, g3, g4, rfl, _⟩ := mem_cdCount.1 (matchAt_mem h1)
    rw [cdCount_kids hE g1 g2] at hm ha
    rw [List.mem_singleton] at hm
    subst hm
    simp only [List.all_cons, List.all_nil, valueIs, Bool.and_true, underHundred_iff] at ha
    exact ⟨rfl, ⟨g1, g2, hfirst, x, g3, g4⟩, _, number_of g1 g2, ha.1, ha.2, rfl⟩
  · obtain ⟨name, a, b, v⟩ := m
    rintro ⟨h0, ⟨h1, h2, h3, x, h4, h5⟩, n, hn, hlo, hhi, hv⟩
    simp only at h0 h1 h2 h3 h4 hn hv
    subst h0 hv
    obtain ⟨j, c, hm⟩ := matchAt_of_mem (mem_cdCount.2 ⟨b, x, h1, h2, h4, h5, rfl, .inl rfl⟩ : (x + 2, _) ∈ (cdCountPattern E).re.exec s a [])
    have hc : c = [(1, (a, b))] := by
      obtain ⟨b', x', g1, g2, g3, g4, rfl, _⟩ := mem_cdCount.1 (matchAt_mem hm)
      have e1 := noDigit_bound (count_last hE h4 h5) (by omega) g2
      have e2 := noDigit_bound (count_last hE g3 g4) (by omega) h2
      rw [show b' = b by omega]
    subst hc
    refine ⟨_, hits_complete (cdCount_eats E) hm ?_ ?_, ?_, ?_⟩
    · have := h2.le h1; omega
    · intro i' j' c' hlt hm'
      obtain ⟨b', x', g1, g2, g3, g4, _, g5⟩ := mem_cdCount.1 (matchAt_mem hm')
      by_contra hcon
      have ha := h2 a (Nat.le_refl _) h1
      have k1 : ¬ a < b' := by
        intro hab
        rcases h3 with h | h
        · omega
        · obtain ⟨y, hy, hd⟩ := g2 (a - 1) (by omega) (by omega)
          exact h y hy hd
      have k2 : a ≠ b' := by
        rintro rfl
        obtain ⟨y, hy, hd⟩ := ha
        exact count_last hE g3 g4 y hy hd
      have := maybeSep_le g3
      have k3 : ¬ (x' ≤ a ∧ a < x' + 2) := fun ⟨h1, h2⟩ =>
        (g4.mid cd_lettered h1 (by simpa using h2)).false ha fun c hl hd => IsLetter.notDigit hE hl hd
      rcases g5 with rfl | ⟨rfl, g5⟩
      · omega
      · have : a = x' + 2 := by omega
        subst this
        exact g5.false ha fun c hl hd => letter_not_digit hE (by decide) hl hd
    · rw [cdCount_accepts, cdCount_kids hE h1 h2]
      rw [valueAt_iff h1 h2] at hn
      subst hn
      simp [valueIs, (underHundred_iff _).2 ⟨hlo, hhi⟩]
    · rw [if_pos hch, cdCount_kids hE h1 h2, List.mem_singleton]
      rw [valueAt_iff h1 h2] at hn
      subst hn; rfl

/-- C117: the property as a user would expect it (only whole words, and the disc whatever the total) is false: `cd` is read inside a word, and
`cd2of100` reports nothing. -/
theorem C117_counterexample :
    (((cdPattern asciiRx).found c!"abcd5.avi").map fun m => (m.start, m.stop, m.value.toOption)) = [(4, 5, some 5)] ∧
    (((cdPattern asciiRx).found c!"movie.cd2of100.avi").map fun m => (m.start, m.stop, m.value.toOption)) = [] := by decide +kernel

example : (((cdPattern asciiRx).found c!"Movie CD 2 of 3 - CD.1").map fun m => (m.name, m.start, m.stop, m.value.toOption)) =
    [(c!"cd", 9, 10, some 2), (c!"cd_count", 14, 15, some 3), (c!"cd", 21, 22, some 1)] := by decide +kernel
example : (((cdCountPattern asciiRx).found c!"Movie 2CDs 12 cd 100cd").map fun m => (m.start, m.stop, m.value.toOption)) =
    [(6, 7, some 2), (11, 13, some 12)] := by decide +kernel

end Guessit
