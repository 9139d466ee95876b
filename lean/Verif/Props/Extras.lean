import Verif.Model.Extras
import Verif.Spec.Extras
import Verif.Props.FormTables
import Verif.Props.Discs
import Verif.Props.ScreenGreedy

/-! # C136, C137, C138: the remaining expressions of options.json -/

namespace Guessit
open Spec Re

section
variable {E : RxEnv} {s : Str}

/-! ## `DTS` before `MA` -/

/-- The ways to write it. -/
def dtsWay : Way := ⟨c!"dts", [], .oneOf [c!" ma", c!"ma"]⟩

theorem dts_parsed : ∃ p, parseForm [] dtsText = some p ∧ ListsWays ⟨[], [], [], []⟩ p [dtsWay] ∧ (p.spellings.map (·.caps)) = [[]] := by
  have h : (match parseForm [] dtsText with
    | some p => decide (p.spellings.map (wayOf ⟨[], [], [], []⟩) = [dtsWay].map some) && regular p.texts && strictlyFirst p.texts && decide (p.spellings.map (·.caps) = [[]])
    | none => false) = true := by decide +kernel
  cases hp : parseForm [] dtsText with
  | none => rw [hp] at h; cases h
  | some p =>
    rw [hp] at h
    simp only [Bool.and_eq_true, decide_eq_true_eq] at h
    exact ⟨p, rfl, ⟨h.1.1.1, h.1.1.2, h.1.2⟩, h.2⟩

/-- `DTS` is DTS-HD exactly when `MA` follows, with or without a separator. -/
theorem C137_dts (hE : Usual E) (hT : Themselves E) {m : RxMatch Str} : m ∈ dtsFound E s ↔
    ∃ i, PhraseAt E s c!"dts" i ∧ (PhraseAt E s c!"ma" (i + 3) ∨ PhraseAt E s c!" ma" (i + 3)) ∧ m = ⟨c!"audio_codec", i, i + 3, .ok c!"DTS-HD"⟩ := by
  obtain ⟨p, hp, hl, hc⟩ := dts_parsed
  have hw : ∀ i, dtsWay.At E s i ↔ PhraseAt E s c!"dts" i ∧ (PhraseAt E s c!"ma" (i + 3) ∨ PhraseAt E s c!" ma" (i + 3)) := by
    intro i
    simp only [Way.At, dtsWay, Behind.Holds, List.mem_cons, List.not_mem_nil, or_false, exists_eq_or_imp, exists_eq_left, List.length_cons, List.length_nil]
    exact and_congr_right fun _ => or_comm
  have hacc : ∀ h, (dtsPattern E p).accepts s h = true := fun h => by
    have : (dtsPattern E p).accepts s h = ((false && !false || true) && ((!false && !false) || ((dtsPattern E p).kids s h).all fun _ => true)) := rfl
    rw [this]; rfl
  rw [dtsFound, hp]
  simp only
  rw [mem_found]
  constructor
  · rintro ⟨h, h1, _, h3⟩
    rw [show (dtsPattern E p).children = false from rfl, if_neg (by simp), List.mem_singleton] at h3
    obtain ⟨w, g1, g2, g3, _⟩ := form_hit hE hT hl.regular hl.first h1
    obtain ⟨W, k1, k2⟩ := hl.to g1
    rw [List.mem_singleton] at k1
    subst k1
    obtain ⟨a, b⟩ := (hw _).1 ((way_at hE k2 (hl.plain g1)).2 g2)
    refine ⟨h.start, a, b, ?_⟩
    rw [h3, RxPattern.parent, congrArg RxHit.stop g3, ← (way_length k2).1]
    rfl
  · rintro ⟨i, h1, h2, rfl⟩
    have hat := (hw i).2 ⟨h1, h2⟩
    obtain ⟨w, g1, g2⟩ := hl.back (W := dtsWay) (List.mem_singleton.2 rfl)
    have hone : ∀ x ∈ p.spellings, x.syms.length = w.syms.length := by
      intro x hx
      obtain ⟨X, k1, k2⟩ := hl.to hx
      rw [List.mem_singleton] at k1
      subst k1
      rw [← (way_length k2).1, (way_length g2).1]
    have hna := apart_ways hE hT (ws := [dtsWay]) (by decide) (List.mem_singleton.2 rfl) hat
    have hh := form_hits hE hT hl.regular hl.first g1 ((way_at hE g2 (hl.plain g1)).1 hat) (fun x hx _ => Nat.le_of_eq (hone x hx)) (fun x hx a ha hs => by
      obtain ⟨X, k1, k2⟩ := hl.to hx
      rw [← (way_length k2).1]
      exact hna X k1 a ha ((way_at hE k2 (hl.plain hx)).2 hs))
    refine ⟨_, hh, hacc _, ?_⟩
    rw [show (dtsPattern E p).children = false from rfl, if_neg (by simp), List.mem_singleton, RxPattern.parent, ← (way_length g2).1]
    rfl

/-! ## `iT` -/

/-- `iT` is iTunes exactly where it is written so. -/
theorem C138_it {m : RxMatch Str} : m ∈ itFound s ↔ ∃ i, s[i]? = some 'i' ∧ s[i + 1]? = some 'T' ∧ m = ⟨c!"streaming_service", i, i + 2, .ok c!"iTunes"⟩ := by
  have hpre : ∀ i, c!"iT" <+: s.drop i ↔ s[i]? = some 'i' ∧ s[i + 1]? = some 'T' := by
    intro i
    constructor
    · rintro ⟨r, hr⟩
      constructor
      · have := congrArg (·[0]?) hr
        simpa using this.symm
      · have := congrArg (·[1]?) hr
        simpa using this.symm
    · rintro ⟨h1, h2⟩
      have hlt := (List.getElem?_eq_some_iff.1 h2).1
      rw [List.drop_eq_getElem_cons (by omega), List.drop_eq_getElem_cons (by omega)]
      rw [List.getElem?_eq_getElem (by omega)] at h1 h2
      rw [Option.some.inj h1, Option.some.inj h2]
      exact ⟨_, rfl⟩
  have hfa : ∀ i, i ∈ findAll c!"iT" s ↔ s[i]? = some 'i' ∧ s[i + 1]? = some 'T' := by
    intro i
    constructor
    · intro h; exact (hpre i).1 (findAll_prefix h)
    · rintro ⟨h1, h2⟩
      refine (mem_findAll (by simp) fun a g1 g2 g3 => ?_).2 ((hpre i).2 ⟨h1, h2⟩)
      have : a + 1 = i := by simp at g2; omega
      have := ((hpre a).1 g3).2
      rw [‹a + 1 = i›, h1] at this
      simp at this
  rw [itFound, List.mem_map]
  constructor
  · rintro ⟨i, h, rfl⟩
    obtain ⟨h1, h2⟩ := (hfa i).1 h
    exact ⟨i, h1, h2, rfl⟩
  · rintro ⟨i, h1, h2, rfl⟩
    exact ⟨i, (hfa i).2 ⟨h1, h2⟩, rfl⟩

/-! ## `LAME` and a number -/

theorem phrase_literal {w : Str} (hw : ∀ l ∈ w, l ≠ ' ' ∧ l ≠ '#' ∧ l ≠ '*') {i : Nat} : PhraseAt E s w i ↔ LiteralAt E s w i := by
  refine forall_congr' fun k => forall_congr' fun l => imp_congr_right fun hk => ?_
  obtain ⟨h1, h2, h3⟩ := hw l (List.mem_of_getElem? hk)
  have : Stands E l = fun c => E.same l c = true := by funext c; simp [Stands, h1, h2, h3]
  rw [this]

theorem greedy_bind {α : Type} {l : List α} {f : α → List (Nat × Caps)} (hs : ∀ x ∈ l, Greedy (f x))
    (hd : l.Pairwise fun x y => ∀ a ∈ f y, ∀ b, (f x).head? = some b → a.1 ≤ b.1) : Greedy (l.flatMap f) := by
  induction l with
  | nil => intro x hx; cases hx
  | cons u l ih =>
    rw [List.pairwise_cons] at hd
    have ih := ih (fun x hx => hs x (List.mem_cons_of_mem _ hx)) hd.2
    rw [List.flatMap_cons]
    intro x hx y hy
    cases hf : f u with
    | nil =>
      rw [hf, List.nil_append] at hx hy
      exact ih x hx y hy
    | cons b r =>
      have hb : (f u).head? = some b := by rw [hf]; rfl
      have hxb : x = b := by rw [hf] at hx; simpa using hx.symm
      rw [hxb]
      rcases List.mem_append.1 hy with h | h
      · exact hs u (List.mem_cons_self ..) b hb y h
      · obtain ⟨v, hv, hyv⟩ := List.mem_flatMap.1 h
        exact hd.1 v hv y hyv b hb

theorem greedy_number {i : Nat} {c : Caps} : Greedy (E.digits.exec s i c) := greedy_sorted repExec_chr_sorted

theorem mem_lameTail {k j : Nat} {c c' : Caps} : (j, c') ∈ (Re.cat [dashRe, E.digits]).exec s k c ↔ c' = c ∧ ∃ m, MaybeSep s k m ∧ m < j ∧ AllOf s (Digit E) m j := by
  simp only [Re.cat, mem_seq, mem_dash, mem_number, mem_eps]
  constructor
  · rintro ⟨m, c1, ⟨h1, rfl⟩, j', c2, ⟨rfl, h3, h4⟩, rfl, rfl⟩
    exact ⟨rfl, m, h1, h3, h4⟩
  · rintro ⟨rfl, m, h1, h3, h4⟩
    exact ⟨m, _, ⟨h1, rfl⟩, j, _, ⟨rfl, h3, h4⟩, rfl, rfl⟩

theorem greedy_lameTail (hE : Usual E) {k : Nat} {c : Caps} : Greedy ((Re.cat [dashRe, E.digits]).exec s k c) := by
  have key : ∀ m c1, (Re.cat [E.digits]).exec s m c1 ≠ [] → CharAt s (Digit E) m := by
    intro m c1 h
    rw [Re.cat, Re.cat, seq_eps] at h
    obtain ⟨⟨j, c'⟩, hx⟩ := List.exists_mem_of_ne_nil _ h
    obtain ⟨_, h2, h3⟩ := mem_number.1 hx
    exact h3 m (Nat.le_refl _) h2
  rw [Re.cat]
  refine greedy_step (fun m c1 _ => ?_) fun m c1 m' c2 h1 h2 h3 h4 => ?_
  · rw [Re.cat, Re.cat, seq_eps]; exact greedy_number
  · obtain ⟨g1, rfl⟩ := mem_dash.1 h1
    obtain ⟨g2, rfl⟩ := mem_dash.1 h2
    refine ⟨?_, rfl⟩
    have k3 := key _ _ h3
    have k4 := key _ _ h4
    rcases g1 with rfl | ⟨rfl, q1⟩ <;> rcases g2 with rfl | ⟨rfl, q2⟩
    · rfl
    · exact (k3.false q2 fun x a b => sep_not_digit hE b.1 a).elim
    · exact (k4.false q1 fun x a b => sep_not_digit hE b.1 a).elim
    · rfl

theorem greedy_lame (hE : Usual E) {i : Nat} : Greedy ((lamePattern E).re.exec s i []) := by
  show Greedy ((Re.cat [E.word c!"lame", E.digits, dashRe, E.digits]).exec s i [])
  rw [Re.cat]
  refine greedy_step (fun k c1 _ => ?_) fun m c1 m' c2 h1 h2 _ _ => ?_
  · rw [Re.cat, exec]
    refine greedy_bind (fun x _ => greedy_lameTail hE) ?_
    refine List.Pairwise.imp_of_mem ?_ (repExec_chr_sorted : (E.digits.exec s k c1).Pairwise _)
    rintro ⟨x, cx⟩ ⟨y, cy⟩ hx hy hlt ⟨j, cj⟩ ha ⟨b, cb⟩ hb
    obtain ⟨rfl, x1, x2⟩ := mem_number.1 hx
    obtain ⟨rfl, y1, y2⟩ := mem_number.1 hy
    obtain ⟨rfl, m, g1, g2, g3⟩ := mem_lameTail.1 ha
    obtain ⟨rfl, m', q1, q2, q3⟩ := mem_lameTail.1 (List.mem_of_head? hb)
    have hlt : y < x := hlt
    show j ≤ b
    have hm : m = y := by
      rcases g1 with h | ⟨h, hs⟩
      · exact h
      · exact ((x2 y (by omega) hlt).false hs fun z a b => sep_not_digit hE b.1 a).elim
    subst hm
    by_cases hjx : j ≤ x
    · have : x ≤ m' := by rcases q1 with h | ⟨h, _⟩ <;> omega
      omega
    · exact greedy_lameTail hE (b, _) hb (j, _) (mem_lameTail.2 ⟨rfl, x, .inl rfl, by omega, fun z h1 h2 => g3 z (by omega) h2⟩)
  · obtain ⟨_, rfl, rfl⟩ := mem_word.1 h1
    obtain ⟨_, rfl, rfl⟩ := mem_word.1 h2
    exact ⟨rfl, rfl⟩

theorem stands_sep {c : Char} : Stands E ' ' c ↔ c ∈ seps ∧ c ≠ '/' ∧ c ≠ '\\' := by
  rw [Stands, if_pos rfl, ← C134_separators]

theorem mem_lame (hE : Usual E) {i j : Nat} {c : Caps} : (j, c) ∈ (lamePattern E).re.exec s i [] ↔ LameAt E s i j ∧ c = [] := by
  have : (lamePattern E).re = Re.cat [E.word c!"lame", E.digits, dashRe, E.digits] := rfl
  rw [this, Re.cat, mem_seq, LameAt, phrase_literal (by decide)]
  have hsep : ∀ k, CharAt s (Stands E ' ') k ↔ CharAt s (fun c => c ∈ seps ∧ c ≠ '/' ∧ c ≠ '\\') k := fun k => exists_congr fun x => and_congr_right fun _ => stands_sep
  constructor
  · rintro ⟨k, c1, h1, h2⟩
    obtain ⟨h0, rfl, rfl⟩ := mem_word.1 h1
    rw [Re.cat, mem_seq] at h2
    obtain ⟨a, c2, h2, h3⟩ := h2
    obtain ⟨rfl, h4, h5⟩ := mem_number.1 h2
    obtain ⟨rfl, m, h6, h7, h8⟩ := mem_lameTail.1 h3
    have hl : (c!"lame").length = 4 := rfl
    rw [hl] at h4 h5
    refine ⟨⟨h0, ?_⟩, rfl⟩
    rcases h6 with rfl | ⟨rfl, h6⟩
    · refine .inl ⟨by omega, fun k g1 g2 => ?_⟩
      by_cases hk : k < m
      · exact h5 k g1 hk
      · exact h8 k (by omega) g2
    · exact .inr ⟨a, by omega, h5, (hsep a).2 h6, by omega, h8⟩
  · rintro ⟨⟨h1, h2⟩, rfl⟩
    refine ⟨i + 4, [], mem_word.2 ⟨h1, rfl, rfl⟩, ?_⟩
    rw [Re.cat, mem_seq]
    rcases h2 with ⟨h2, h3⟩ | ⟨a, h2, h3, h4, h5, h6⟩
    · refine ⟨i + 5, [], mem_number.2 ⟨rfl, by omega, fun k g1 g2 => h3 k g1 (by omega)⟩, mem_lameTail.2 ⟨rfl, i + 5, .inl rfl, by omega, fun k g1 g2 => h3 k (by omega) g2⟩⟩
    · exact ⟨a, [], mem_number.2 ⟨rfl, by omega, h3⟩, mem_lameTail.2 ⟨rfl, a + 1, .inr ⟨rfl, (hsep a).1 h4⟩, by omega, h6⟩⟩

/-- `LAME` and its number: exactly what is written is found, as far as the number goes. -/
theorem C137_lame (hE : Usual E) {m : RxMatch Str} : m ∈ (lamePattern E).found s ↔
    ∃ i j, LameAt E s i j ∧ (∀ j', LameAt E s i j' → j' ≤ j) ∧ m = ⟨c!"audio_codec", i, j, .ok c!"MP3"⟩ := by
  have hacc : ∀ h, (lamePattern E).accepts s h = true := fun h => by
    have : (lamePattern E).accepts s h = ((false && !false || true) && ((!false && !false) || ((lamePattern E).kids s h).all fun _ => true)) := rfl
    rw [this]; rfl
  have hlen : ∀ {s : Str} {i j}, LameAt E s i j → i + 6 ≤ j := by
    rintro s i j ⟨_, h | ⟨a, h1, _, _, h2, _⟩⟩ <;> omega
  have hat : ∀ {i j c}, (lamePattern E).re.matchAt s i = some (j, c) ↔ c = [] ∧ LameAt E s i j ∧ ∀ j', LameAt E s i j' → j' ≤ j := by
    intro i j c
    constructor
    · intro h
      obtain ⟨h1, rfl⟩ := (mem_lame hE).1 (matchAt_mem h)
      exact ⟨rfl, h1, fun j' hj => greedy_lame hE (j, []) h (j', []) ((mem_lame hE).2 ⟨hj, rfl⟩)⟩
    · rintro ⟨rfl, h1, h2⟩
      obtain ⟨j', c', h⟩ := matchAt_of_mem ((mem_lame hE).2 ⟨h1, rfl⟩)
      obtain ⟨h3, rfl⟩ := (mem_lame hE).1 (matchAt_mem h)
      have := greedy_lame hE (j', []) h (j, []) ((mem_lame hE).2 ⟨h1, rfl⟩)
      have := h2 j' h3
      have : j' = j := by simp only at *; omega
      rw [h, this]
  rw [mem_found]
  constructor
  · rintro ⟨h, h1, _, h3⟩
    rw [show (lamePattern E).children = false from rfl, if_neg (by simp), List.mem_singleton] at h3
    obtain ⟨_, g1, g2⟩ := hat.1 (hits_sound h1).1
    exact ⟨h.start, h.stop, g1, g2, h3⟩
  · rintro ⟨i, j, h1, h2, rfl⟩
    have hl0 := (h1.1 0 'l' rfl)
    refine ⟨⟨i, j, []⟩, hits_complete ?_ (hat.2 ⟨rfl, h1, h2⟩) ?_ ?_, hacc _, ?_⟩
    · intro s i j c _ h
      have := hlen ((mem_lame hE).1 (matchAt_mem h)).1
      omega
    · obtain ⟨c, h, _⟩ := hl0
      have := (List.getElem?_eq_some_iff.1 h).1
      omega
    · intro a b c ha hm
      by_contra hc
      obtain ⟨_, ⟨g1, g2⟩, _⟩ := hat.1 hm
      have hl : CharAt s (fun c => E.same 'l' c = true) i := by simpa using (phrase_literal (by decide)).1 h1.1 0 'l' rfl
      have hdig : ∀ {k}, CharAt s (Digit E) k → k ≠ i := by
        rintro k hk rfl
        exact hk.false hl fun x p q => letter_not_digit hE (by decide) q p
      have h4 : i - a < 4 → False := by
        intro hk
        have : i - a = 1 ∨ i - a = 2 ∨ i - a = 3 := by omega
        rw [phrase_literal (by decide)] at g1
        rcases this with hk | hk | hk
        · have := g1 1 'a' rfl
          rw [show a + 1 = i by omega] at this
          exact this.false hl fun x p q => absurd (hE.apart _ (by decide) _ (by decide) x p q) (by decide)
        · have := g1 2 'm' rfl
          rw [show a + 2 = i by omega] at this
          exact this.false hl fun x p q => absurd (hE.apart _ (by decide) _ (by decide) x p q) (by decide)
        · have := g1 3 'e' rfl
          rw [show a + 3 = i by omega] at this
          exact this.false hl fun x p q => absurd (hE.apart _ (by decide) _ (by decide) x p q) (by decide)
      have h5 : a + 4 ≤ i := by
        by_contra h; exact h4 (by omega)
      rcases g2 with ⟨_, g2⟩ | ⟨k, q1, q2, q3, q4, q5⟩
      · exact hdig (g2 i h5 (by omega)) rfl
      · rcases Nat.lt_trichotomy i k with h | h | h
        · exact hdig (q2 i h5 h) rfl
        · subst h
          exact q3.false hl fun x p q => by
            have := sep_not_letter hE (l := 'l') (by decide) (stands_sep.1 p).1
            rw [this] at q; cases q
        · exact hdig (q5 i (by omega) (by omega)) rfl
    · rw [show (lamePattern E).children = false from rfl, if_neg (by simp), List.mem_singleton]; rfl

/-! ## `Repack` and `Rerip` -/

theorem mem_repack {w : Str} {i j : Nat} {c : Caps} : (j, c) ∈ (repackRe E w).exec s i [] ↔
    LiteralAt E s w i ∧ i + w.length ≤ j ∧ AllOf s (Digit E) (i + w.length) j ∧ (i + w.length ≤ s.length ∨ j = i + w.length) ∧ c = [(1, (i + w.length, j))] := by
  rw [repackRe, mem_seq]
  have hd : ∀ {k j : Nat} {c c' : Caps}, (j, c') ∈ (Re.rep E.digit 0 none).exec s k c ↔ c' = c ∧ k ≤ j ∧ AllOf s (Digit E) k j ∧ (k ≤ s.length ∨ j = k) := by
    intro k j c c'
    by_cases hk : k ≤ s.length
    · have := mem_rep_chr (p := E.u.isDigit) (m := 0) (j := j) (c := c) (c' := c') hk
      rw [allIn_iff (P := Digit E) (fun _ => Iff.rfl)] at this
      rw [show E.digit = Re.chr E.u.isDigit from rfl, this]
      simp [hk]
    · have h0 : s.length - k = 0 := by omega
      simp only [exec, Option.getD_none, h0, repExec]
      simp only [if_true, List.mem_singleton, Prod.mk.injEq]
      constructor
      · rintro ⟨rfl, rfl⟩; exact ⟨rfl, Nat.le_refl _, fun x h1 h2 => by omega, .inr rfl⟩
      · rintro ⟨rfl, _, _, h⟩
        rcases h with h | h
        · omega
        · exact ⟨h, rfl⟩
  constructor
  · rintro ⟨k, c1, h1, h2⟩
    obtain ⟨g, rfl, rfl⟩ := mem_word.1 h1
    obtain ⟨c2, h3, rfl⟩ := mem_grp.1 h2
    obtain ⟨rfl, h4, h5, h6⟩ := hd.1 h3
    exact ⟨g, h4, h5, h6, rfl⟩
  · rintro ⟨g, h4, h5, h6, rfl⟩
    exact ⟨_, _, mem_word.2 ⟨g, rfl, rfl⟩, mem_grp.2 ⟨[], hd.2 ⟨rfl, h4, h5, h6⟩, rfl⟩⟩

theorem greedy_repack {w : Str} {i : Nat} : Greedy ((repackRe E w).exec s i []) := by
  rw [repackRe]
  refine greedy_step (fun k c1 _ => ?_) fun m c1 m' c2 h1 h2 _ _ => ?_
  · have : Greedy ((Re.rep E.digit 0 none).exec s k c1) := greedy_sorted repExec_chr_sorted
    intro x hx y hy
    simp only [exec, List.head?_map, Option.map_eq_some_iff, List.mem_map] at hx hy this
    obtain ⟨x', h1, rfl⟩ := hx
    obtain ⟨y', h2, rfl⟩ := hy
    exact this x' h1 y' h2
  · obtain ⟨_, rfl, rfl⟩ := mem_word.1 h1
    obtain ⟨_, rfl, rfl⟩ := mem_word.1 h2
    exact ⟨rfl, rfl⟩

theorem literal_clash (hE : Usual E) {v w : Str} {a i : Nat} (hv : LiteralAt E s v a) (hw : LiteralAt E s w i) (k d : Nat) {x y : Char} (hk : v[k]? = some x) (hd : w[d]? = some y)
    (h : a + k = i + d) (hx : x ∈ c!"abcdefghijklmnopqrstuvwxyz") (hy : y ∈ c!"abcdefghijklmnopqrstuvwxyz") (hne : x ≠ y) : False := by
  have h1 := hv k x hk
  have h2 := hw d y hd
  rw [h] at h1
  exact h1.false h2 fun z p q => hne (hE.apart _ hx _ hy z p q)

theorem repack_hit (hE : Usual E) {w : Str} (hw : w = c!"repack" ∨ w = c!"rerip") {i j : Nat} {c : Caps} (hs : FreeAfter s j) :
    (⟨i, j, c⟩ : RxHit) ∈ (repackRe E w).hits s ↔ LiteralAt E s w i ∧ i + w.length ≤ j ∧ AllOf s (Digit E) (i + w.length) j ∧ c = [(1, (i + w.length, j))] := by
  have hpos : 1 ≤ w.length := by rcases hw with rfl | rfl <;> decide
  have hin : ∀ {i}, LiteralAt E s w i → i + w.length ≤ s.length := by
    intro i h
    obtain ⟨c, h1, _⟩ := h (w.length - 1) _ (List.getElem?_eq_getElem (by omega))
    have := (List.getElem?_eq_some_iff.1 h1).1
    omega
  constructor
  · intro h
    obtain ⟨h1, h2, h3, _, h5⟩ := mem_repack.1 (matchAt_mem (hits_sound h).1)
    exact ⟨h1, h2, h3, h5⟩
  · rintro ⟨h1, h2, h3, rfl⟩
    have hmem := mem_repack.2 ⟨h1, h2, h3, .inl (hin h1), rfl⟩
    refine hits_complete ?_ ?_ (by have := hin h1; omega) ?_
    · intro s i j c _ h
      obtain ⟨_, g, _⟩ := mem_repack.1 (matchAt_mem h)
      omega
    · obtain ⟨j', c', h⟩ := matchAt_of_mem hmem
      obtain ⟨_, g2, g3, _, rfl⟩ := mem_repack.1 (matchAt_mem h)
      have hle := greedy_repack (j', _) h (j, _) hmem
      have : j' = j := by
        rcases Nat.eq_or_lt_of_le hle with h | h
        · exact h.symm
        · have hdj := g3 j h2 h
          rcases hs with hs | hs
          · obtain ⟨x, hx, _⟩ := hdj
            have := (List.getElem?_eq_some_iff.1 hx).1
            omega
          · exact (hdj.false hs fun z a b => sep_not_digit hE b a).elim
      rw [h, this]
    · intro a b c ha hm
      by_contra hc
      obtain ⟨g1, g2, g3, _, _⟩ := mem_repack.1 (matchAt_mem hm)
      by_cases hk : a + w.length ≤ i
      · have hd := g3 i hk (by omega)
        obtain ⟨l, hl⟩ : ∃ l, l = 'r' := ⟨_, rfl⟩
        have hr : CharAt s (fun c => E.same 'r' c = true) i := by
          rcases hw with rfl | rfl <;> simpa using h1 0 'r' rfl
        exact hd.false hr fun x p q => letter_not_digit hE (by decide) q p
      · rcases hw with rfl | rfl
        · have : i = a + 1 ∨ i = a + 2 ∨ i = a + 3 ∨ i = a + 4 ∨ i = a + 5 := by simp at hk; omega
          rcases this with rfl | rfl | rfl | rfl | rfl
          · exact literal_clash hE g1 h1 1 0 rfl rfl rfl (by decide) (by decide) (by decide)
          · exact literal_clash hE g1 h1 2 0 rfl rfl rfl (by decide) (by decide) (by decide)
          · exact literal_clash hE g1 h1 3 0 rfl rfl rfl (by decide) (by decide) (by decide)
          · exact literal_clash hE g1 h1 4 0 rfl rfl rfl (by decide) (by decide) (by decide)
          · exact literal_clash hE g1 h1 5 0 rfl rfl rfl (by decide) (by decide) (by decide)
        · have : i = a + 1 ∨ i = a + 2 ∨ i = a + 3 ∨ i = a + 4 := by simp at hk; omega
          rcases this with rfl | rfl | rfl | rfl
          · exact literal_clash hE g1 h1 1 0 rfl rfl rfl (by decide) (by decide) (by decide)
          · exact literal_clash hE g1 h1 3 1 rfl rfl (by omega) (by decide) (by decide) (by decide)
          · exact literal_clash hE g1 h1 3 0 rfl rfl rfl (by decide) (by decide) (by decide)
          · exact literal_clash hE g1 h1 4 0 rfl rfl rfl (by decide) (by decide) (by decide)

/-- `Repack` and `Rerip`, apart from the rest of the text, with the digits behind them as a count. -/
theorem C136_repack (hE : Usual E) {m : RxMatch Str} {n : Option Str} : (m, n) ∈ repackFound E s ↔
    ∃ i a j, RepackAt E s i a j ∧ Standing s i j ∧ m = ⟨c!"other", i, j, .ok c!"Proper"⟩ ∧ n = if a < j then some ((s.take j).drop a) else none := by
  rw [repackFound, List.mem_flatMap]
  simp only [List.mem_map, List.mem_filter, Prod.mk.injEq]
  constructor
  · rintro ⟨w, hw, ⟨i, j, c⟩, ⟨h1, h2⟩, rfl, rfl⟩
    have hs : Standing s i j := standing_iff.1 h2
    have hw' : w = c!"repack" ∨ w = c!"rerip" := by simpa using hw
    obtain ⟨g1, g2, g3, rfl⟩ := (repack_hit hE hw' hs.2).1 h1
    refine ⟨i, i + w.length, j, ⟨?_, g2, g3⟩, hs, rfl, ?_⟩
    · rcases hw' with rfl | rfl
      · exact .inl ⟨(phrase_literal (by decide)).2 g1, rfl⟩
      · exact .inr ⟨(phrase_literal (by decide)).2 g1, rfl⟩
    · simp [List.lookup]
  · rintro ⟨i, a, j, ⟨hw, g2, g3⟩, hs, rfl, rfl⟩
    obtain ⟨w, hw', hl, rfl⟩ : ∃ w, (w = c!"repack" ∨ w = c!"rerip") ∧ LiteralAt E s w i ∧ a = i + w.length := by
      rcases hw with ⟨h, rfl⟩ | ⟨h, rfl⟩
      · exact ⟨_, .inl rfl, (phrase_literal (by decide)).1 h, rfl⟩
      · exact ⟨_, .inr rfl, (phrase_literal (by decide)).1 h, rfl⟩
    refine ⟨w, by simpa using hw', ⟨i, j, [(1, (i + w.length, j))]⟩, ⟨(repack_hit hE hw' hs.2).2 ⟨hl, g2, g3, rfl⟩, standing_iff.2 hs⟩, rfl, ?_⟩
    simp [List.lookup]

/-! ## `Complete` among words for seasons -/

theorem complete_parsed : ∃ p, parseForm completeNames (completeText [c!"seasons?", c!"series?"] [c!"The"]) = some p ∧
    p.spellings.map (fun w => (w.syms.map Sym.code, (w.caps.lookup 2).isSome || (w.caps.lookup 3).isSome)) = completePhrases ∧
    (∀ w ∈ p.spellings, w.checks = []) ∧ regular p.texts = true ∧ strictlyFirst p.texts = true := by
  have h : (match parseForm completeNames (completeText [c!"seasons?", c!"series?"] [c!"The"]) with
    | some p => decide (p.spellings.map (fun w => (w.syms.map Sym.code, (w.caps.lookup 2).isSome || (w.caps.lookup 3).isSome)) = completePhrases) &&
        p.spellings.all (fun w => decide (w.checks = [])) && regular p.texts && strictlyFirst p.texts
    | none => false) = true := by decide +kernel
  cases hp : parseForm completeNames (completeText [c!"seasons?", c!"series?"] [c!"The"]) with
  | none => rw [hp] at h; cases h
  | some p =>
    rw [hp] at h
    simp only [Bool.and_eq_true, decide_eq_true_eq, List.all_eq_true] at h
    exact ⟨p, rfl, h.1.1.1, h.1.1.2, h.1.2, h.2⟩

attribute [local irreducible] completePhrases in
/-- What is found is written so, apart from the rest, with a word for seasons, and nothing longer could be read from there. -/
theorem C136_complete (hE : Usual E) (hT : Themselves E) {m : RxMatch Str} (hm : m ∈ completeFound E s) :
    ∃ i w, (w, true) ∈ completePhrases ∧ PhraseAt E s w i ∧ Standing s i (i + w.length) ∧ (∀ x ∈ completePhrases, PhraseAt E s x.1 i → x.1.length ≤ w.length) ∧
      m = ⟨c!"other", i, i + w.length, .ok c!"Complete"⟩ := by
  obtain ⟨p, hp, h1, h2, h3, h4⟩ := complete_parsed
  unfold completeFound at hm
  simp only [hp] at hm
  simp only [List.mem_map, List.mem_filter, Bool.and_eq_true] at hm
  obtain ⟨h, ⟨g1, g2, g3⟩, rfl⟩ := hm
  obtain ⟨w, k1, k2, k3, k4⟩ := form_hit hE hT h3 h4 g1
  have hat : ∀ x ∈ p.spellings, ∀ i, x.at E s i = true ↔ PhraseAt E s (x.syms.map Sym.code) i := by
    intro x hx i
    rw [phrase_at hE (regular_plain h3 (List.mem_map_of_mem hx)).2, Spelling.at, h2 x hx]
    simp
  have hmem : ∀ x ∈ p.spellings, (x.syms.map Sym.code, (x.caps.lookup 2).isSome || (x.caps.lookup 3).isSome) ∈ completePhrases := by
    intro x hx
    have := List.mem_map_of_mem (f := fun w : Spelling => (w.syms.map Sym.code, (w.caps.lookup 2).isSome || (w.caps.lookup 3).isSome)) hx
    rwa [h1] at this
  have hstop : h.stop = h.start + (w.syms.map Sym.code).length := by rw [congrArg RxHit.stop k3, List.length_map]
  refine ⟨h.start, w.syms.map Sym.code, ?_, (hat w k1 _).1 k2, ?_, fun x hx hs => ?_, ?_⟩
  · have := hmem w k1
    have hv : ((w.caps.lookup 2).isSome || (w.caps.lookup 3).isSome) = true := by
      rw [completeValid, congrArg RxHit.caps k3, shift_lookup, shift_lookup, Option.isSome_map, Option.isSome_map] at g3
      exact g3
    rwa [hv] at this
  · rw [← hstop]; exact standing_iff.1 g2
  · rw [← h1, List.mem_map] at hx
    obtain ⟨v, hv, rfl⟩ := hx
    simpa using k4 v hv ((hat v hv _).2 hs)
  · rw [← hstop]

attribute [local irreducible] completePhrases in
/-- And it is found, if nothing that could be read earlier reaches into it. -/
theorem C136_complete_found (hE : Usual E) (hT : Themselves E) {i : Nat} {w : Str} (hw : (w, true) ∈ completePhrases) (hs : PhraseAt E s w i) (hst : Standing s i (i + w.length))
    (hl : ∀ x ∈ completePhrases, PhraseAt E s x.1 i → x.1.length ≤ w.length) (ha : ∀ x ∈ completePhrases, ∀ a < i, PhraseAt E s x.1 a → a + x.1.length ≤ i) :
    (⟨c!"other", i, i + w.length, .ok c!"Complete"⟩ : RxMatch Str) ∈ completeFound E s := by
  obtain ⟨p, hp, h1, h2, h3, h4⟩ := complete_parsed
  unfold completeFound
  simp only [hp]
  have hat : ∀ x ∈ p.spellings, ∀ i, x.at E s i = true ↔ PhraseAt E s (x.syms.map Sym.code) i := by
    intro x hx i
    rw [phrase_at hE (regular_plain h3 (List.mem_map_of_mem hx)).2, Spelling.at, h2 x hx]
    simp
  have hmem : ∀ x ∈ p.spellings, (x.syms.map Sym.code, (x.caps.lookup 2).isSome || (x.caps.lookup 3).isSome) ∈ completePhrases := by
    intro x hx
    have := List.mem_map_of_mem (f := fun w : Spelling => (w.syms.map Sym.code, (w.caps.lookup 2).isSome || (w.caps.lookup 3).isSome)) hx
    rwa [h1] at this
  have hw' := hw
  rw [← h1, List.mem_map] at hw'
  obtain ⟨v, hv, he⟩ := hw'
  obtain ⟨he1, he2⟩ := Prod.mk.injEq _ _ _ _ ▸ he
  have hlen : v.syms.length = w.length := by rw [← he1, List.length_map]
  have hh := form_hits hE hT h3 h4 hv (i := i) ((hat v hv i).2 (by rw [he1]; exact hs)) (fun x hx hx' => by
      have := hl _ (hmem x hx) ((hat x hx i).1 hx')
      simp only [List.length_map] at this
      omega) (fun x hx a hlt hx' => by
      have := ha _ (hmem x hx) a hlt ((hat x hx a).1 hx')
      simpa using this)
  simp only [List.mem_map, List.mem_filter, Bool.and_eq_true]
  refine ⟨_, ⟨hh, ?_, ?_⟩, ?_⟩
  · rw [hlen]; exact standing_iff.2 hst
  · rw [completeValid, shift_lookup, shift_lookup, Option.isSome_map, Option.isSome_map]; exact he2
  · rw [hlen]

/-! ## Such texts -/

theorem dts_example : (dtsFound asciiRx c!"x.DTS-MA.DTSMA.DTS.y").map (fun m => (m.start, m.stop)) = [(2, 5), (9, 12)] := by decide +kernel
theorem lame_example : ((lamePattern asciiRx).found c!"LAME3.92 lame320 LAME3 x").map (fun m => (m.start, m.stop)) = [(0, 8), (9, 16)] := by decide +kernel
theorem repack_example : (repackFound asciiRx c!"x.REPACK2.rerip.repack3x").map (fun m => (m.1.start, m.1.stop, m.2)) = [(2, 9, some c!"2"), (10, 15, none)] := by decide +kernel
theorem complete_example : (completeFound asciiRx c!"The.Complete.Series.Complete x Seasons-Complete").map (fun m => (m.start, m.stop)) = [(0, 19), (31, 47)] := by decide +kernel
theorem it_example : (itFound c!"iT.it.IT").map (fun m => (m.start, m.stop)) = [(0, 2)] := by decide +kernel

end
end Guessit
