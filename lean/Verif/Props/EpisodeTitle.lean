import Verif.Spec.EpisodeTitle
import Verif.Proofs.Holes
import Verif.Props.Counts
import Verif.Props.Removers

/-! # C80–C85: episode titles, bonus titles, film titles -/

namespace Guessit
open Spec

/-! ## The first free stretch -/

theorem runs_first {p : Nat → Bool} {f i : Nat} {r : Nat × Nat} {rest : List (Nat × Nat)} (h : runsFrom p f i none = r :: rest) :
    ∀ j, i ≤ j → j < r.1 → p j = false := by
  intro j h1 h2
  cases hp : p j with
  | false => rfl
  | true =>
    exfalso
    have hr := run_mem (p := p) (f := f) (i := i) (r := r) (by rw [h]; exact List.mem_cons_self ..)
    obtain ⟨q, hq, hq1, hq2⟩ := run_covers (f := f) h1 (by omega) hp
    have hs := runs_sorted p f i none (by simp)
    rw [h] at hq hs
    rcases List.mem_cons.1 hq with rfl | hq
    · omega
    · have := (List.pairwise_cons.1 hs).1 q hq
      omega

theorem coveredBy_none {l : List Mt} {i : Nat} : coveredBy l (fun _ => false) i = true ↔ ∃ m ∈ l, Covers m i := by
  rw [coveredBy_iff]
  simp

theorem runs_firstFree {s : Ms} {a b : Nat} (hab : a ≤ b) :
    match runsFrom (fun i => !coveredBy s.live (fun _ => false) i) (b - a) a none with
    | [] => ¬ ∃ x y, FirstFree s a b x y
    | r :: _ => ∀ x y, FirstFree s a b x y ↔ (x, y) = r := by
  have hfree : ∀ i, (!coveredBy s.live (fun _ => false) i) = true ↔ ∀ m ∈ s.live, ¬ Covers m i := by
    intro i
    rw [Bool.not_eq_true', ← Bool.not_eq_true, coveredBy_none]
    simp
  have hcov : ∀ i, (!coveredBy s.live (fun _ => false) i) = false ↔ ∃ m ∈ s.live, Covers m i := by
    intro i
    rw [Bool.not_eq_false', coveredBy_none]
  cases h : runsFrom (fun i => !coveredBy s.live (fun _ => false) i) (b - a) a none with
  | nil =>
    rintro ⟨x, y, hf⟩
    obtain ⟨r, hr, _⟩ := run_covers (p := fun i => !coveredBy s.live (fun _ => false) i) (f := b - a) (i := a) (j := x) hf.lower
      (by have := hf.pos; have := hf.upper; omega) ((hfree x).2 (hf.free x (Nat.le_refl _) hf.pos))
    rw [h] at hr
    simp at hr
  | cons r rest =>
    obtain ⟨h1, h2, h3, h4, h5, h6⟩ := run_mem (p := fun i => !coveredBy s.live (fun _ => false) i) (f := b - a) (i := a) (r := r)
      (by rw [h]; exact List.mem_cons_self ..)
    have h7 := runs_first h
    have e : a + (b - a) = b := by omega
    rw [e] at h3 h6
    have hr : FirstFree s a b r.1 r.2 :=
      { lower := h1, pos := h2, upper := h3, before := fun i i1 i2 => (hcov i).1 (h7 i i1 i2),
        free := fun i i1 i2 => (hfree i).1 (h4 i i1 i2), full := h6.imp id fun h => (hcov _).1 h }
    intro x y
    constructor
    · intro hf
      have hx : x = r.1 := by
        rcases Nat.lt_trichotomy x r.1 with hlt | he | hlt
        · obtain ⟨m, hm, hc⟩ := hr.before x hf.lower hlt
          exact absurd hc (hf.free x (Nat.le_refl _) hf.pos m hm)
        · exact he
        · obtain ⟨m, hm, hc⟩ := hf.before r.1 hr.lower hlt
          exact absurd hc (hr.free r.1 (Nat.le_refl _) hr.pos m hm)
      subst hx
      have hy : y = r.2 := by
        rcases Nat.lt_trichotomy y r.2 with hlt | he | hlt
        · rcases hf.full with h | ⟨m, hm, hc⟩
          · have := hr.upper; omega
          · exact absurd hc (hr.free y (by have := hf.pos; omega) hlt m hm)
        · exact he
        · rcases hr.full with h | ⟨m, hm, hc⟩
          · have := hf.upper; omega
          · exact absurd hc (hf.free r.2 (by have := hr.pos; omega) hlt m hm)
      rw [hy]
    · rintro rfl
      exact hr

theorem slice_word {input : Str} {h : Nat × Nat} (hle : h.2 ≤ input.length) :
    (!(cleanup (sliceOf input h)).isEmpty) = true ↔ HasWordIn input h.1 h.2 := by
  rw [Bool.not_eq_true', ← Bool.not_eq_true, List.isEmpty_iff, cleanup_nil]
  unfold sliceOf HasWordIn WordAt
  constructor
  · intro hn
    by_contra hcon
    apply hn
    intro c hc
    obtain ⟨k, hk⟩ := List.mem_iff_getElem?.1 hc
    rw [List.getElem?_drop, List.getElem?_take] at hk
    split at hk
    · rename_i hlt
      by_contra hcs
      exact hcon ⟨h.1 + k, by omega, hlt, c, hk, hcs⟩
    · cases hk
  · rintro ⟨i, h1, h2, c, hc, hcs⟩ hall
    apply hcs
    refine hall c (List.mem_iff_getElem?.2 ⟨i - h.1, ?_⟩)
    rw [List.getElem?_drop, List.getElem?_take, if_pos (by omega)]
    rw [show h.1 + (i - h.1) = i by omega]
    exact hc

theorem appendAll_one {input : Str} {l : List Mt} {m : Mt} (h : ∀ x ∈ l, m.key input ≠ x.key input) : appendAll input l [m] = l ++ [m] := by
  have := appendAll_fresh input [m] l (by simpa using h) (by simp)
  exact this

/-- What is appended for the first hole. -/
theorem appendFirst_free {s : Ms} (hwf : WellFormed s.input s.live) (name : Str) {a b : Nat} (hab : a ≤ min s.input.length b)
    (hnospur : 0 < a → coveredBy s.live (fun _ => false) (a - 1) = false → ¬ (a = min s.input.length b ∨ coveredBy s.live (fun _ => false) a = true)) :
    (∀ x y, FirstFree s a (min s.input.length b) x y → HasWordIn s.input x y →
      appendFirstHole s name (holeSpans s.input s.live (fun _ => false) [] a b) = .ok { s with live := s.live ++ [textMatch name [] x y] }) ∧
    ((¬ ∃ x y, FirstFree s a (min s.input.length b) x y ∧ HasWordIn s.input x y) →
      appendFirstHole s name (holeSpans s.input s.live (fun _ => false) [] a b) = .ok s) := by
  rw [holes_plain hwf _ hab, if_neg (fun h => hnospur h.1 h.2.1 h.2.2), List.nil_append]
  have key := runs_firstFree (s := s) hab
  cases hr : runsFrom (fun i => !coveredBy s.live (fun _ => false) i) (min s.input.length b - a) a none with
  | nil =>
    rw [hr] at key
    refine ⟨fun x y h => absurd ⟨x, y, h⟩ key, fun _ => rfl⟩
  | cons r rest =>
    rw [hr] at key
    have hrf := (key r.1 r.2).2 rfl
    have hle : r.2 ≤ s.input.length := by have := hrf.upper; omega
    have hw := slice_word (input := s.input) (h := r) hle
    have hlt := hrf.pos
    constructor
    · intro x y hf hword
      have := (key x y).1 hf
      subst this
      rw [appendFirstHole]
      rw [if_neg (by show ¬ y < x; have := hf.pos; omega), if_pos (by rw [Bool.and_eq_true]; exact ⟨by simpa using hlt, hw.2 hword⟩)]
      rw [appendAll_one]
      · rfl
      · intro z hz hk
        have hk1 : x = z.start := congrArg MtKey.start hk
        have := (hwf z hz).1
        exact hf.free x (Nat.le_refl _) hlt z hz ⟨by omega, by omega⟩
    · intro hno
      rw [appendFirstHole]
      rw [if_neg (by omega), if_neg ?_]
      rw [Bool.and_eq_true]
      rintro ⟨_, h⟩
      exact hno ⟨r.1, r.2, hrf, hw.1 h⟩

/-! ## The number and the part it is in -/

theorem number_some {s : Ms} (hs : Laid s) {name : Str} {m part : Mt} (hm : FirstOf s.live (fun m => m.name = some name ∧ m.priv = false) m)
    (hp : EndMark s.markers c!"path" m part) : numberAndPart s name = .ok (some (m, part)) := by
  have h1 : firstTrue ((named s.live name).filter fun m => !m.priv) = some m := by
    rw [firstTrue_eq (fun x hx => (hs.sound.wf x (mem_named.1 (List.mem_filter.1 hx).1).1).1), head_filter_iff]
    unfold named
    rw [firstOf_filter]
    refine (firstOf_congr (fun y _ => ?_) m).1 hm
    simp
  have h2 : (atMatch s.input s.markers m fun x => decide (x.name = some c!"path")).head? = some part := by
    rw [← firstTrue_eq, atMatch_first]
    · exact hp
    · intro x hx
      unfold atMatch at hx
      exact (hs.markers x (mem_atSpan.1 (List.mem_filter.1 hx).1).1).1
  unfold numberAndPart
  rw [h1]
  show (match (atMatch s.input s.markers m fun x => decide (x.name = some c!"path")).head? with
    | none => Except.error PyErr.attributeError
    | some part => Except.ok (some (m, part))) = _
  rw [h2]

theorem number_none {s : Ms} (hs : Laid s) {name : Str} (hm : ¬ ∃ m ∈ s.live, m.name = some name ∧ m.priv = false) :
    numberAndPart s name = .ok none := by
  have h1 : firstTrue ((named s.live name).filter fun m => !m.priv) = none := by
    rw [firstTrue_none (fun x hx => (hs.sound.wf x (mem_named.1 (List.mem_filter.1 hx).1).1).1)]
    intro x hx
    obtain ⟨h1, h2⟩ := List.mem_filter.1 hx
    exact hm ⟨x, (mem_named.1 h1).1, (mem_named.1 h1).2, by simpa using h2⟩
  unfold numberAndPart
  rw [h1]

/-- C84: without a bonus number, there is no bonus title. -/
theorem C84_no_number (s : Ms) (hs : Laid s) (h : ¬ ∃ m ∈ s.live, m.name = some c!"bonus" ∧ m.priv = false) : bonusTitle s = .ok s := by
  unfold bonusTitle
  rw [number_none hs h]

/-- C84: the bonus title is the first stretch after the (first) bonus number, within its element of the path and the separator
that ends it, that no match covers; it is reported iff it has a word. -/
theorem C84_bonus_title (s : Ms) (hs : Laid s) (m part : Mt) (hm : FirstOf s.live (fun m => m.name = some c!"bonus" ∧ m.priv = false) m)
    (hp : EndMark s.markers c!"path" m part) (hin : m.stop ≤ part.stop) :
    (∀ x y, FirstFree s m.stop (min s.input.length (part.stop + 1)) x y → HasWordIn s.input x y →
      bonusTitle s = .ok { s with live := s.live ++ [textMatch c!"bonus_title" [] x y] }) ∧
    ((¬ ∃ x y, FirstFree s m.stop (min s.input.length (part.stop + 1)) x y ∧ HasWordIn s.input x y) → bonusTitle s = .ok s) := by
  unfold bonusTitle
  rw [number_some hs hm hp]
  have hml := (firstOf_mem hm).1
  have hwf := hs.sound.wf m hml
  refine appendFirst_free hs.sound.wf _ (by omega) ?_
  intro h0 hc
  exfalso
  rw [coveredBy_false] at hc
  exact hc m hml rfl ⟨by omega, by omega⟩

/-- C85: without a film number, there is no film title. -/
theorem C85_no_number (s : Ms) (hs : Laid s) (h : ¬ ∃ m ∈ s.live, m.name = some c!"film" ∧ m.priv = false) : filmTitle s = .ok s := by
  unfold filmTitle
  rw [number_none hs h]

/-- A stretch before a match does not see it. -/
theorem firstFree_stop {s : Ms} {a b x y : Nat} {m : Mt} (hm : m ∈ s.live) (hpos : m.start < m.stop) (hb : m.start + 1 ≤ b) (hab : a ≤ m.start) :
    FirstFree s a m.start x y ↔ FirstFree s a (m.start + 1) x y := by
  constructor
  · intro h
    refine { h with upper := by have := h.upper; omega, full := ?_ }
    rcases h.full with rfl | h'
    · exact .inr ⟨m, hm, by omega, by omega⟩
    · exact .inr h'
  · intro h
    have hy : y ≤ m.start := by
      by_contra hcon
      have := h.upper
      have hx : x ≤ m.start := by have := h.pos; omega
      exact h.free m.start hx (by omega) m hm ⟨by omega, by omega⟩
    refine { h with upper := hy, full := ?_ }
    rcases h.full with h' | h'
    · omega
    · exact .inr h'

/-- C85: the film title is the first stretch before the (first) film number, within its element of the path, that no match
covers; it is reported iff it has a word.  What is missing: this is so when the element is the first of the path, or begins with free text
(or a match covers the separator before it); otherwise nothing is reported, see `C85_counterexample`. -/
theorem C85_film_title_partial (s : Ms) (hs : Laid s) (m part : Mt) (hm : FirstOf s.live (fun m => m.name = some c!"film" ∧ m.priv = false) m)
    (hp : EndMark s.markers c!"path" m part) (hin : part.start ≤ m.start)
    (hfirst : part.start = 0 ∨ (∀ x ∈ s.live, ¬ Covers x part.start) ∨ ∃ x ∈ s.live, Covers x (part.start - 1)) :
    (∀ x y, FirstFree s part.start m.start x y → HasWordIn s.input x y →
      filmTitle s = .ok { s with live := s.live ++ [textMatch c!"film_title" [] x y] }) ∧
    ((¬ ∃ x y, FirstFree s part.start m.start x y ∧ HasWordIn s.input x y) → filmTitle s = .ok s) := by
  unfold filmTitle
  rw [number_some hs hm hp]
  have hml := (firstOf_mem hm).1
  have hwf := hs.sound.wf m hml
  have e : min s.input.length (m.start + 1) = m.start + 1 := by omega
  have hstop : ∀ x y, FirstFree s part.start m.start x y ↔ FirstFree s part.start (min s.input.length (m.start + 1)) x y := by
    intro x y
    rw [e]
    exact firstFree_stop hml hwf.1 (Nat.le_refl _) hin
  simp only [hstop]
  refine appendFirst_free hs.sound.wf _ (by omega) ?_
  rintro h0 hc (h | h)
  · omega
  · rcases hfirst with h' | h' | h'
    · omega
    · obtain ⟨x, hx, hcx⟩ := coveredBy_none.1 h
      exact h' x hx hcx
    · rw [coveredBy_false] at hc
      obtain ⟨x, hx, hcx⟩ := h'
      exact hc x hx rfl hcx

/-- C85: in an element that is not the first of the path and begins with a match, no film title is ever reported. -/
theorem C85_lost (s : Ms) (hs : Laid s) (m part : Mt) (hm : FirstOf s.live (fun m => m.name = some c!"film" ∧ m.priv = false) m)
    (hp : EndMark s.markers c!"path" m part) (hin : part.start ≤ m.start) (h0 : 0 < part.start)
    (hb : ∀ x ∈ s.live, ¬ Covers x (part.start - 1)) (hc : ∃ x ∈ s.live, Covers x part.start) : filmTitle s = .ok s := by
  unfold filmTitle
  rw [number_some hs hm hp]
  have hwf := hs.sound.wf m (firstOf_mem hm).1
  show appendFirstHole s c!"film_title" (holeSpans s.input s.live (fun _ => false) [] part.start (m.start + 1)) = .ok s
  rw [holes_plain hs.sound.wf _ (by omega), if_pos ⟨h0, by rw [coveredBy_false]; exact fun x hx _ => hb x hx, .inr (coveredBy_none.2 hc)⟩]
  unfold appendFirstHole
  simp

/-! ## C80: the title of a series in a directory -/

theorem weakly_iff {upper : Str → Bool} {input : Str} {m : Mt} : filepartIgnored upper input m = true ↔ Weakly upper input m := by
  unfold filepartIgnored Weakly
  rw [Bool.or_eq_true, tagged_iff, isIgnored_iff]

theorem freeForTitle_iff {upper : Str → Bool} {s : Ms} {i : Nat} :
    coveredBy s.live (filepartIgnored upper s.input) i = false ↔ FreeForTitle upper s i := by
  rw [coveredBy_false]
  unfold FreeForTitle
  refine forall_congr' fun m => forall_congr' fun _ => ?_
  rw [← weakly_iff, Bool.not_eq_true]

theorem sepIn_iff {input : Str} {i : Nat} : sepIn input titleSeps i = true ↔ TitleSepAt input i := by
  unfold sepIn TitleSepAt
  rw [Option.any_eq_true]
  simp [List.contains_iff_mem]

theorem find_split {α : Type} {p : α → Bool} : ∀ {l : List α} {x : α}, l.find? p = some x →
    ∃ pre post, l = pre ++ x :: post ∧ p x = true ∧ ∀ y ∈ pre, p y = false
  | [], x, h => by simp at h
  | a :: l, x, h => by
    rw [List.find?_cons] at h
    split at h
    · rename_i hp
      cases h
      exact ⟨[], l, rfl, hp, by simp⟩
    · rename_i hp
      obtain ⟨pre, post, h1, h2, h3⟩ := find_split h
      refine ⟨a :: pre, post, by rw [h1]; rfl, h2, ?_⟩
      intro y hy
      rcases List.mem_cons.1 hy with rfl | hy
      · exact hp
      · exact h3 y hy

theorem filepartHole_some {upper : Str → Bool} {s : Ms} (hs : Laid s) {part : Mt} (hp : IsPart s part) {h : Nat × Nat}
    (hh : filepartHole upper s part = some h) : FirstText upper s part h.1 h.2 := by
  unfold filepartHole at hh
  rw [holeSpans_all hs.sound.wf] at hh
  obtain ⟨pre, post, e, hpos, hpre⟩ := find_split hh
  have hwf := hs.markers part hp.1
  obtain ⟨k1, _⟩ := holeStart_spec (l := s.live) (ignore := filepartIgnored upper s.input) part.start
  have hlen : min s.input.length part.stop = part.stop := by omega
  rw [hlen] at e
  have eend : holeStart s.live (filepartIgnored upper s.input) part.start +
      (part.stop - holeStart s.live (filepartIgnored upper s.input) part.start) = part.stop := by omega
  have hmem := allHoles_mem (coveredBy s.live (filepartIgnored upper s.input)) (sepIn s.input titleSeps) part.start
    (part.stop - holeStart s.live (filepartIgnored upper s.input) part.start) (holeStart s.live (filepartIgnored upper s.input) part.start)
    none (by simp)
  rw [eend] at hmem
  obtain ⟨m1, m2, m3, m4, _⟩ := hmem h (by rw [e]; simp)
  have hword := (slice_word (input := s.input) (h := h) (by omega)).1 hpos
  have hlt : h.1 < h.2 := by obtain ⟨i, h1, h2, _⟩ := hword; omega
  have hsorted := allHoles_sorted (coveredBy s.live (filepartIgnored upper s.input)) (sepIn s.input titleSeps) part.start
    (part.stop - holeStart s.live (filepartIgnored upper s.input) part.start) (holeStart s.live (filepartIgnored upper s.input) part.start)
    none (by simp)
  refine { lower := m1, top := by omega, word := hword, free := fun i i1 i2 => freeForTitle_iff.1 (m3 i i1 i2).1, whole := ?_, full := ?_,
           first := ?_ }
  · intro i i1 i2 hsep
    have := (m3 i (by omega) i2).2 i1
    rw [sepIn_iff.2 hsep] at this
    cases this
  · rcases m4 with m4 | m4 | m4
    · left; omega
    · right; left
      intro hf
      rw [freeForTitle_iff.2 hf] at m4
      cases m4
    · exact .inr (.inr (sepIn_iff.1 m4))
  · intro i i1 i2 hw hf
    have hnsep : sepIn s.input titleSeps i = false := by
      cases hsep : sepIn s.input titleSeps i with
      | false => rfl
      | true =>
        exfalso
        obtain ⟨c, c1, c2⟩ := sepIn_iff.1 hsep
        obtain ⟨c', c1', c2'⟩ := hw
        rw [c1] at c1'
        cases c1'
        exact c2' (titleSep_sep c2)
    obtain ⟨q, hq, q1, q2⟩ := allHoles_covers (coveredBy s.live (filepartIgnored upper s.input)) (sepIn s.input titleSeps) part.start
      (part.stop - holeStart s.live (filepartIgnored upper s.input) part.start) (holeStart s.live (filepartIgnored upper s.input) part.start)
      none i i1 (by omega) (freeForTitle_iff.2 hf) hnsep (.inl (by omega)) (by simp)
    have hq2 := (hmem q hq).2.1
    have hqw := (slice_word (input := s.input) (h := q) (by omega)).2 ⟨i, q1, q2, hw⟩
    rw [e] at hq hsorted
    rcases List.mem_append.1 hq with hq | hq
    · rw [hpre q hq] at hqw; cases hqw
    · rcases List.mem_cons.1 hq with rfl | hq
      · omega
      · have := (List.pairwise_cons.1 (List.pairwise_append.1 hsorted).2.1).1 q hq
        omega

theorem filepartHole_found {upper : Str → Bool} {s : Ms} (hs : Laid s) {part : Mt} (hp : IsPart s part) {i : Nat} (hc : Covers part i)
    (hw : WordAt s.input i) (hf : FreeForTitle upper s i) : filepartHole upper s part ≠ none := by
  unfold filepartHole
  rw [holeSpans_all hs.sound.wf]
  have hwf := hs.markers part hp.1
  obtain ⟨k1, _⟩ := holeStart_spec (l := s.live) (ignore := filepartIgnored upper s.input) part.start
  have hlen : min s.input.length part.stop = part.stop := by omega
  rw [hlen]
  have h1 := hc.1
  have h2 := hc.2
  have hnsep : sepIn s.input titleSeps i = false := by
    cases hsep : sepIn s.input titleSeps i with
    | false => rfl
    | true =>
      exfalso
      obtain ⟨c, c1, c2⟩ := sepIn_iff.1 hsep
      obtain ⟨c', c1', c2'⟩ := hw
      rw [c1] at c1'
      cases c1'
      exact c2' (titleSep_sep c2)
  obtain ⟨q, hq, q1, q2⟩ := allHoles_covers (coveredBy s.live (filepartIgnored upper s.input)) (sepIn s.input titleSeps) part.start
    (part.stop - holeStart s.live (filepartIgnored upper s.input) part.start) (holeStart s.live (filepartIgnored upper s.input) part.start)
    none i h1 (by omega) (freeForTitle_iff.2 hf) hnsep (.inl (by omega)) (by simp)
  intro hnone
  have hq2 := (allHoles_mem (coveredBy s.live (filepartIgnored upper s.input)) (sepIn s.input titleSeps) part.start
    (part.stop - holeStart s.live (filepartIgnored upper s.input) part.start) (holeStart s.live (filepartIgnored upper s.input) part.start)
    none (by simp) q hq).2.1
  have hqw := (slice_word (input := s.input) (h := q) (by omega)).2 ⟨i, q1, q2, hw⟩
  exact absurd hqw (by simpa using List.find?_eq_none.1 hnone q hq)

theorem isSome_firstIn {s : Ms} (hs : Laid s) {part : Mt} {name : Str} :
    (firstIn s part.start part.stop fun m => decide (m.name = some name)).isSome = true ↔ FoundIn s part name := by
  rw [Option.isSome_iff_exists]
  simp only [firstIn_iff hs.sound]
  constructor
  · rintro ⟨y, hy⟩
    obtain ⟨h1, h2, h3, h4⟩ := lead_mem hy
    exact ⟨y, h1, by simpa using h4, h2, h3⟩
  · rintro ⟨m, h1, h2, h3⟩
    exact lead_exists.2 ⟨m, h1, h3.1, h3.2, by simpa using h2⟩

theorem parts_reverse {s : Ms} {l : List Mt} (h : LastParts s l) : ∃ t, (named s.markers c!"path").reverse = l.reverse ++ t := by
  obtain ⟨pre, h⟩ := h
  refine ⟨pre.reverse, ?_⟩
  unfold named
  rw [h, List.reverse_append]

theorem lastPart_mem {s : Ms} {l : List Mt} (h : LastParts s l) {p : Mt} (hp : p ∈ l) : IsPart s p := by
  obtain ⟨pre, h⟩ := h
  have : p ∈ s.markers.filter fun m => decide (m.name = some c!"path") := by rw [h]; simp [hp]
  simpa [IsPart] using this

/-- A hole found in a directory is appended. -/
theorem append_hole {upper : Str → Bool} {s : Ms} (hs : Laid s) {part : Mt} {tags : List Str}
    (hnamed : ∀ m ∈ s.live, c!"weak-episode" ∈ m.tags → m.name ≠ none) {h : Nat × Nat} (hh : FirstText upper s part h.1 h.2) :
    appendNamed s.input c!"title" s.live [{ cleanHole h with tags := tags }] = s.live ++ [textMatch c!"title" tags h.1 h.2] := by
  rw [appendNamed_fresh]
  · rfl
  · intro m hm x hx hk
    rw [List.mem_singleton] at hm
    subst hm
    have hk1 : h.1 = x.start := congrArg MtKey.start hk
    have hk2 : none = x.name := congrArg MtKey.name hk
    have hwf := hs.sound.wf x hx
    obtain ⟨i, i1, i2, _⟩ := hh.word
    refine hh.free h.1 (Nat.le_refl _) (by omega) x hx ?_ ⟨by omega, by omega⟩
    rintro (hw | ⟨⟨n, _, hn⟩, _⟩)
    · exact hnamed x hx hw hk2.symm
    · rw [← hk2] at hn; cases hn
  · intro m hm
    rw [List.mem_singleton] at hm
    subst hm
    simp [cleanHole]

theorem tagged_none {s : Ms} {t : Str} (h : ∀ m ∈ s.live, t ∉ m.tags) : ¬ (s.live.any fun m => m.tagged t) = true := by
  rw [List.any_eq_true]
  rintro ⟨m, h1, h2⟩
  exact h m h1 (tagged_iff.1 h2)

/-- C80: `Series/Season 1/E01.mkv`.  The file has an episode and the directory a season: the first free text of the directory above is
appended as a title. -/
theorem C80_three_parts (upper : Str → Bool) (s : Ms) (hs : Laid s) (hnamed : ∀ m ∈ s.live, c!"weak-episode" ∈ m.tags → m.name ≠ none)
    (hno : ∀ m ∈ s.live, c!"filepart-title" ∉ m.tags) (sub dir file : Mt) (hp : LastParts s [sub, dir, file])
    (hep : FoundIn s file c!"episode") (hse : FoundIn s dir c!"season")
    (hw : ∃ i, Covers sub i ∧ WordAt s.input i ∧ FreeForTitle upper s i) :
    ∃ x y, FirstText upper s sub x y ∧ filepart3 upper s = { s with live := s.live ++ [textMatch c!"title" [] x y] } := by
  obtain ⟨t, ht⟩ := parts_reverse hp
  have hsub : IsPart s sub := lastPart_mem hp (by simp)
  unfold filepart3
  rw [if_neg (tagged_none hno), ht]
  simp only [List.reverse_cons, List.reverse_nil, List.nil_append, List.cons_append]
  rw [if_pos (by rw [Bool.and_eq_true]; exact ⟨(isSome_firstIn hs).2 hep, (isSome_firstIn hs).2 hse⟩)]
  obtain ⟨i, i1, i2, i3⟩ := hw
  cases hh : filepartHole upper s sub with
  | none => exact absurd hh (filepartHole_found hs hsub i1 i2 i3)
  | some h =>
    have := filepartHole_some hs hsub hh
    refine ⟨h.1, h.2, this, ?_⟩
    show { s with live := _ } = _
    rw [← append_hole hs hnamed this]
    rfl

/-- C80: in all other cases nothing changes. -/
theorem C80_three_parts_only (upper : Str → Bool) (s : Ms) (hs : Laid s)
    (h : (∃ m ∈ s.live, c!"filepart-title" ∈ m.tags) ∨
      ¬ ∃ sub dir file, LastParts s [sub, dir, file] ∧ FoundIn s file c!"episode" ∧ FoundIn s dir c!"season" ∧
        ∃ i, Covers sub i ∧ WordAt s.input i ∧ FreeForTitle upper s i) : filepart3 upper s = s := by
  unfold filepart3
  split
  · rfl
  · rename_i htag
    rcases h with ⟨m, h1, h2⟩ | h
    · exact absurd (List.any_eq_true.2 ⟨m, h1, tagged_iff.2 h2⟩) htag
    · split
      · rename_i file dir sub t heq
        have hp : LastParts s [sub, dir, file] := by
          refine ⟨t.reverse, ?_⟩
          have := congrArg List.reverse heq
          rw [List.reverse_reverse] at this
          unfold named at this
          rw [this]
          simp
        split
        · rename_i hc
          rw [Bool.and_eq_true] at hc
          split
          · rename_i hole hh
            exfalso
            have := filepartHole_some hs (lastPart_mem hp (by simp)) hh
            obtain ⟨i, i1, i2, i3⟩ := this.word
            refine h ⟨sub, dir, file, hp, (isSome_firstIn hs).1 hc.1, (isSome_firstIn hs).1 hc.2, i, ⟨?_, ?_⟩, i3, this.free i i1 i2⟩
            · have := this.lower; omega
            · have := this.top; omega
          · rfl
        · rfl
      · rfl

/-- C80: `Series Season 1/E01.mkv` or `Series/S01E01.mkv`.  The file has an episode, and it or the directory a season: the first free text
of the directory is appended as a title. -/
theorem C80_two_parts (upper : Str → Bool) (s : Ms) (hs : Laid s) (hnamed : ∀ m ∈ s.live, c!"weak-episode" ∈ m.tags → m.name ≠ none)
    (hno : ∀ m ∈ s.live, c!"filepart-title" ∉ m.tags) (dir file : Mt) (hp : LastParts s [dir, file])
    (hep : FoundIn s file c!"episode") (hse : FoundIn s dir c!"season" ∨ FoundIn s file c!"season")
    (hw : ∃ i, Covers dir i ∧ WordAt s.input i ∧ FreeForTitle upper s i) :
    ∃ x y, FirstText upper s dir x y ∧ filepart2 upper s = { s with live := s.live ++ [textMatch c!"title" [c!"filepart-title"] x y] } := by
  obtain ⟨t, ht⟩ := parts_reverse hp
  have hdir : IsPart s dir := lastPart_mem hp (by simp)
  unfold filepart2
  rw [if_neg (tagged_none hno), ht]
  simp only [List.reverse_cons, List.reverse_nil, List.nil_append, List.cons_append]
  rw [if_pos (by
    rw [Bool.and_eq_true, Bool.or_eq_true]
    exact ⟨(isSome_firstIn hs).2 hep, hse.imp (isSome_firstIn hs).2 (isSome_firstIn hs).2⟩)]
  obtain ⟨i, i1, i2, i3⟩ := hw
  cases hh : filepartHole upper s dir with
  | none => exact absurd hh (filepartHole_found hs hdir i1 i2 i3)
  | some h =>
    have := filepartHole_some hs hdir hh
    refine ⟨h.1, h.2, this, ?_⟩
    show { s with live := _ } = _
    rw [← append_hole hs hnamed this]

/-- C80: in all other cases nothing changes. -/
theorem C80_two_parts_only (upper : Str → Bool) (s : Ms) (hs : Laid s)
    (h : (∃ m ∈ s.live, c!"filepart-title" ∈ m.tags) ∨
      ¬ ∃ dir file, LastParts s [dir, file] ∧ FoundIn s file c!"episode" ∧ (FoundIn s dir c!"season" ∨ FoundIn s file c!"season") ∧
        ∃ i, Covers dir i ∧ WordAt s.input i ∧ FreeForTitle upper s i) : filepart2 upper s = s := by
  unfold filepart2
  split
  · rfl
  · rename_i htag
    rcases h with ⟨m, h1, h2⟩ | h
    · exact absurd (List.any_eq_true.2 ⟨m, h1, tagged_iff.2 h2⟩) htag
    · split
      · rename_i file dir t heq
        have hp : LastParts s [dir, file] := by
          refine ⟨t.reverse, ?_⟩
          have := congrArg List.reverse heq
          rw [List.reverse_reverse] at this
          unfold named at this
          rw [this]
          simp
        split
        · rename_i hc
          rw [Bool.and_eq_true, Bool.or_eq_true] at hc
          split
          · rename_i hole hh
            exfalso
            have := filepartHole_some hs (lastPart_mem hp (by simp)) hh
            obtain ⟨i, i1, i2, i3⟩ := this.word
            refine h ⟨dir, file, hp, (isSome_firstIn hs).1 hc.1, hc.2.imp (isSome_firstIn hs).1 (isSome_firstIn hs).1, i, ⟨?_, ?_⟩, i3,
              this.free i i1 i2⟩
            · have := this.lower; omega
            · have := this.top; omega
          · rfl
        · rfl
      · rfl

end Guessit
