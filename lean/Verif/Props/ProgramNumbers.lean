import Verif.Props.ProgramFree
import Verif.Props.ProgramQuantities

/-! # Numbers: what the declarations give, and the program (C162) -/

namespace Guessit
open Spec Re

/-- What is assumed of Python's tables and of the name for numbers. -/
structure Spec.Numbered (O : Outside) (s : Str) : Prop where
  usual : Usual O.rx
  cased : Cased O.rx.u
  plain : PlainCase O.rx s

section
variable {E : RxEnv} {s : Str}

/-! ### The texts of numbers -/

/-- The sign is no separator. -/
def Solid (E : RxEnv) (c : Char) : Prop := E.u.isDigit c = true ∨ ∃ l ∈ c!"abcdefghijklmnopqrstuvwxyz", E.same l c = true

theorem solid_plain (hE : Usual E) {c : Char} (h : Solid E c) : sepsNoGroups.contains c = false := by
  have hseps : ∀ x ∈ sepsNoGroups, x.toNat < 128 ∧ ¬ ('0' ≤ x ∧ x ≤ '9') ∧ ∀ l ∈ c!"abcdefghijklmnopqrstuvwxyz", ¬ (x = l ∨ x = l.toUpper) := by decide +kernel
  cases hc : sepsNoGroups.contains c with
  | false => rfl
  | true =>
    obtain ⟨h1, h2, h3⟩ := hseps c (by simpa using hc)
    rcases h with h | ⟨l, hl, h⟩
    · unfold Uni.isDigit at h
      rw [hE.digit c h1, if_neg h2] at h
      cases h
    · exact absurd ((hE.same l hl c h1).1 h) (h3 l hl)

theorem textOf_at {a b k : Nat} (hk : a + k < b) : (textOf s a b)[k]? = s[a + k]? := by
  unfold textOf
  rw [List.getElem?_drop, List.getElem?_take, if_pos hk]

theorem smooth_of (hE : Usual E) {a b : Nat} (hab : a < b) (h : AllOf s (Solid E) a b) : Smooth (textOf s a b) := by
  obtain ⟨x, hx, hsx⟩ := h a (Nat.le_refl _) hab
  obtain ⟨y, hy, hsy⟩ := h (b - 1) (by omega) (by omega)
  have hlen : b ≤ s.length := by
    have := (List.getElem?_eq_some_iff.1 hy).1
    omega
  refine ⟨⟨x, ?_, solid_plain hE hsx⟩, y, ?_, solid_plain hE hsy⟩
  · rw [textOf_at (by omega)]
    exact hx
  · rw [List.getLast?_eq_getElem?]
    have : (textOf s a b).length = b - a := by simp [textOf]; omega
    rw [this, textOf_at (by omega), ← hy]
    congr 1
    omega

theorem smooth_number (hE : Usual E) {a b n : Nat} (h : Number E s a b n) : Smooth (textOf s a b) :=
  smooth_of hE h.some fun k h1 h2 => (h.digits k h1 h2).imp fun _ hc => ⟨hc.1, Or.inl hc.2⟩

theorem smooth_spelled (hE : Usual E) {w : Str} {a b : Nat} (hw : Lettered w) (h : Spelled E s w a b) : Smooth (textOf s a b) := by
  obtain ⟨rfl, h⟩ := h
  have hp : 0 < w.length := List.length_pos_iff.2 hw.1
  refine smooth_of hE (by omega) fun k h1 h2 => ?_
  have hk : k - a < w.length := by omega
  obtain ⟨c, hc, hs⟩ := h (k - a) _ (List.getElem?_eq_getElem hk)
  rw [show a + (k - a) = k by omega] at hc
  exact ⟨c, hc, Or.inr ⟨_, hw.2 _ (List.getElem_mem hk), hs⟩⟩

/-- A word of letters, as a test. -/
def letteredB (w : Str) : Bool := !w.isEmpty && w.all fun c => (c!"abcdefghijklmnopqrstuvwxyz").contains c

theorem lettered_of {w : Str} (h : letteredB w = true) : Lettered w := by
  unfold letteredB at h
  rw [Bool.and_eq_true] at h
  refine ⟨fun h' => by rw [h'] at h; simp at h, fun c hc => ?_⟩
  have := List.all_eq_true.1 h.2 c hc
  simpa only [List.contains_iff_mem] using this

theorem roman_lettered : ∀ n < 99, letteredB ((roman (n + 1)).map Char.toLower) = true := by decide +kernel
theorem words_lettered : partWords.all (fun x => x.2.all letteredB) = true := by decide +kernel

theorem smooth_worded (hE : Usual E) {a b n : Nat} (h1 : 1 ≤ n) (h2 : n ≤ 99) (h : Worded E s a b n) : Smooth (textOf s a b) := by
  rcases h with h | ⟨ws, hws, w, hw, h⟩
  · obtain ⟨k, rfl⟩ : ∃ k, n = k + 1 := ⟨n - 1, by omega⟩
    exact smooth_spelled hE (lettered_of (roman_lettered k (by omega))) h
  · exact smooth_spelled hE (lettered_of (List.all_eq_true.1 (List.all_eq_true.1 words_lettered _ hws) w hw)) h

/-! ### The declarations -/

/-- What is reported and not private under one of the names is a number. -/
def Bud.Tells (Q : Str → Int → Prop) (s : Str) (b : Bud) : Prop := b.live = true → b.priv = false → ∀ n ∈ countedNames, b.name = some n →
  b.val = none ∧ Smooth (textOf s b.start b.stop) ∧ ∃ k, Q n k ∧ b.fmt (textOf s b.start b.stop) = .int k

def Family.Tells (Q : Str → Int → Prop) (s : Str) (F : Family) : Prop := ∀ b ∈ F.root :: F.kids, b.Tells Q s

theorem Family.Free.tells {Q : Str → Int → Prop} {F : Family} (h : F.Free) : F.Tells Q s :=
  fun b hb _ _ n hn hname => absurd hname (h b hb n hn)

/-- A pattern that reports children, which are numbers. -/
theorem rx_tells {Q : Str → Int → Prop} {P : RxPattern Int} {st : Style} (hc : P.children = true)
    (h : ∀ m ∈ P.found s, ∃ k, Q m.name k ∧ m.value = .ok k ∧ Smooth (textOf s m.start m.stop)) : ∀ F ∈ P.families MVal.int st s, F.Tells Q s := by
  intro F hF
  simp only [RxPattern.families, List.mem_map] at hF
  obtain ⟨⟨m, ks⟩, hx, rfl⟩ := hF
  simp only [RxPattern.foundWithin, List.mem_map, Prod.mk.injEq] at hx
  obtain ⟨hit, hh, rfl, rfl⟩ := hx
  intro b hb hl hp n hn hname
  rcases List.mem_cons.1 hb with rfl | hb
  · simp only [hc, Bool.not_true, Bool.false_or] at hl
    simp only [hl, Bool.true_or] at hp
    cases hp
  · obtain ⟨k, hk, rfl⟩ := List.mem_map.1 hb
    have hkf : k ∈ P.found s := by
      unfold RxPattern.found
      refine List.mem_flatMap.2 ⟨hit, hh, ?_⟩
      rw [if_pos hc]
      exact hk
    obtain ⟨j, hQ, hv, hsm⟩ := h k hkf
    obtain ⟨x, _, _, _, hkn, hkv⟩ := mem_kids_name hk
    have hnn := nameOf_some hname
    refine ⟨rfl, hsm, j, ?_, ?_⟩
    · subst hnn
      exact hQ
    · simp only [formatted, hkn]
      unfold textOf
      rw [← hkv, hv]

end

variable {O : Outside} {s : Str}

theorem numbers_tell (h : Spec.Numbered O s) {d : Declared} (hd : d.Numbers O) {g : Dict} {fs : List Family} (hf : d.found g s = .ok fs) :
    ∀ F ∈ fs, F.Tells (NumberWritten O.rx s) s := by
  have hdisc : ∀ m : RxMatch Int, ∀ i, DiscAt O.rx s i m.start m.stop → ∀ n : Nat, Number O.rx s m.start m.stop n → 1 ≤ n → n ≤ 99 → m.name = c!"cd" →
      NumberWritten O.rx s m.name n := fun m i hi n hn h1 h2 hm => ⟨_, _, n, rfl, Or.inr (Or.inl ⟨hm, hn, h1, h2, i, hi⟩)⟩
  rcases hd with hd | hd | hd | hd | hd <;> rw [hd] at hf <;> cases hf
  · refine rx_tells rfl fun m hm => ?_
    obtain ⟨h1, h2, h3, n, h4, h5, h6, h7, w, hw, i, h8, h9, h10⟩ := (C115_exact O.rx h.usual [c!"week"] (fun w hw => List.mem_singleton.1 hw ▸ lettered_of rfl) s m).1 hm
    rw [List.mem_singleton] at hw
    subst hw
    exact ⟨n, ⟨_, _, n, rfl, Or.inl ⟨h1, h4, h5, h6, h3, i, h8, h9, h10⟩⟩, h7, smooth_number h.usual h4⟩
  · intro F hF
    rcases List.mem_append.1 hF with hF | hF
    · refine rx_tells rfl (fun m hm => ?_) F hF
      obtain ⟨i, a, b, h1, n, h2, h3, h4, h5⟩ := (C117_disc O.rx h.usual s m).1 hm
      rcases h5 with ⟨_, rfl⟩ | ⟨x, y, k, h6, h7, h8, h9, rfl | rfl⟩
      · exact ⟨n, ⟨a, b, n, rfl, Or.inr (Or.inl ⟨rfl, h2, h3, h4, i, h1⟩)⟩, rfl, smooth_number h.usual h2⟩
      · exact ⟨n, ⟨a, b, n, rfl, Or.inr (Or.inl ⟨rfl, h2, h3, h4, i, h1⟩)⟩, rfl, smooth_number h.usual h2⟩
      · exact ⟨k, ⟨x, y, k, rfl, Or.inr (Or.inr (Or.inl ⟨rfl, h7, h8, h9, Or.inr ⟨i, a, b, h1, h6⟩⟩))⟩, rfl, smooth_number h.usual h7⟩
    · refine rx_tells rfl (fun m hm => ?_) F hF
      obtain ⟨h1, h2, n, h3, h4, h5, h6⟩ := (C117_count O.rx h.usual s m).1 hm
      exact ⟨n, ⟨_, _, n, rfl, Or.inr (Or.inr (Or.inl ⟨h1, h3, h4, h5, Or.inl h2⟩))⟩, h6, smooth_number h.usual h3⟩
  · refine rx_tells rfl fun m hm => ?_
    obtain ⟨h1, i, n, h2, h3, h4, h5, h6⟩ := (C116_bonus O.rx h.usual s m).1 hm
    exact ⟨n, ⟨_, _, n, rfl, Or.inr (Or.inr (Or.inr (Or.inl ⟨h1, h4, i, h2, h3, h5⟩)))⟩, h6, smooth_number h.usual h4⟩
  · refine rx_tells rfl fun m hm => ?_
    obtain ⟨h1, h2, i, n, h3, h4, h5, h6, h7⟩ := (C116_film O.rx h.usual s m).1 hm
    exact ⟨n, ⟨_, _, n, rfl, Or.inr (Or.inr (Or.inr (Or.inr (Or.inl ⟨h1, h5, h2, i, h3, h4, h6⟩))))⟩, h7, smooth_number h.usual h5⟩
  · refine rx_tells rfl fun m hm => ?_
    obtain ⟨h1, i, n, h2, h3, h4, h5, h6, h7⟩ := (C118_exact O.rx h.usual h.cased s h.plain m).1 hm
    refine ⟨n, ⟨_, _, n, rfl, Or.inr (Or.inr (Or.inr (Or.inr (Or.inr ⟨h1, h4, h5, ⟨i, h2, h3⟩, h7⟩))))⟩, h6, ?_⟩
    rcases h7 with ⟨h7, _⟩ | ⟨_, h7⟩
    · exact smooth_number h.usual h7
    · exact smooth_worded h.usual h4 h5 h7

/-! ### The program -/

theorem grown_counted (h : Spec.Numbered O s) {g : Dict} {gs : List Grown} (hg : grownOf O g s = .ok gs) :
    ∀ m ∈ reportedBy gs, m.priv = false → Counted countedNames (NumberWritten O.rx s) s m := by
  obtain ⟨fs, rfl, hfs⟩ := grownOf_spec hg
  intro m hm hp n hn hname
  obtain ⟨G, hG, hm⟩ := List.mem_flatMap.1 hm
  obtain ⟨x, hx, _, i, rfl⟩ := mem_growFrom hG
  obtain ⟨d, hd, _, _, l, hl, hF⟩ := hfs x hx
  have hT : x.2.Tells (NumberWritten O.rx s) s := by
    rcases all_free O d hd with hf | hf
    · exact (hf g s l hl x.2 hF).tells
    · exact numbers_tell h hf hl x.2 hF
  have key : ∀ b ∈ x.2.root :: x.2.kids, b.live = true → m.priv = b.priv → m.name = b.name → m.val = b.val → m.fmt = b.fmt →
      m.raw s = textOf s b.start b.stop → Smooth (m.raw s) ∧ ∃ k, NumberWritten O.rx s n k ∧ m.value s = .int k := by
    intro b hb hl h1 h2 h3 h4 h5
    obtain ⟨h6, h7, k, h8, h9⟩ := hT b hb hl (h1 ▸ hp) n hn (h2 ▸ hname)
    refine ⟨h5 ▸ h7, k, h8, ?_⟩
    unfold Mt.value
    rw [h3, h6, h4, h5]
    exact h9
  rcases mem_grow_live hm with ⟨rfl, hl⟩ | ⟨b, hb, _, hl, i, rfl⟩
  · exact key _ List.mem_cons_self hl rfl rfl rfl rfl rfl
  · exact key b (List.mem_cons_of_mem _ hb) hl rfl rfl rfl rfl rfl

/-- C162 for the program. -/
theorem C162_program (O : Outside) (base : RuleEnv) (hl : ∀ t, base.uni.lower t = [] ↔ t = []) (g : Dict) (s : Str) (hs : Spec.Numbered O s) (s' : Ms)
    (h : program O base g s = .ok s') : ∀ m ∈ s'.live, ∀ n ∈ countedNames, m.name = some n → ∃ k, NumberWritten O.rx s n k ∧ m.value s = .int k := by
  obtain ⟨gs, hg, h⟩ := program_starts h
  have hall := C162_engine (counted_quiet (NumberWritten O.rx s)) _ (program_natural hl hg) g (beginning g gs s) s'
    (marked_early (context := g) (by decide) rfl (grown_ids hg) fun m hm => ⟨(grown_raw hg m hm).1, (grown_raw hg m hm).2.1⟩) (fun m hm hp => grown_counted hs hg m hm (hp.resolve_right (by decide))) h
  exact fun m hm n hn hname => (hall m hm n hn hname).2

end Guessit
