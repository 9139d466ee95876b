import Verif.Props.Detached
import Verif.Props.StringsExamples

/-! # C133: episode details and formats -/

namespace Guessit
open Spec Re

/-- The words have no end that is also their beginning. -/
theorem details_once : ∀ w ∈ detailWords, ∀ k ∈ List.range w.length, k = 0 ∨ ∃ x ∈ List.range w.length, k + x < w.length ∧ (w[k + x]?.map Char.toLower) ≠ (w[x]?.map Char.toLower) := by
  decide +kernel
theorem details_ascii : ∀ w ∈ detailWords, w ≠ [] ∧ ∀ c ∈ w, c.toNat < 128 := by decide +kernel

/-- C133: a detail of an episode is reported exactly where its word is written, in any case — even in the middle of another word. -/
theorem C133_details (u : Uni) (low : Char → Char) (s : Str) (hl : Lowers u low s) (m : RxMatch Str) : m ∈ detailsFound u s ↔
    ∃ w ∈ [c!"Special", c!"Pilot", c!"Unaired", c!"Final"], ∃ i, Written low s w i ∧ m = ⟨c!"episode_details", i, i + w.length, .ok w⟩ := by
  rw [detailsFound, List.mem_flatMap]
  refine exists_congr fun w => and_congr_right fun hw => ?_
  have hasc := details_ascii w hw
  have hlw : u.lower w = w.map low := hl.text w fun c hc => .inr (hasc.2 c hc)
  have hls : u.lower s = s.map low := hl.text s fun c hc => .inl hc
  have hfind : ∀ i, i ∈ findAll (u.lower w) (u.lower s) ↔ Written low s w i := by
    intro i
    constructor
    · intro h
      have := findAll_prefix h
      rwa [hlw, hls, written_iff] at this
    · intro h
      rw [hlw, hls, mem_findAll (by simpa using hasc.1), written_iff]
      · exact h
      · intro i' h1 h2
        rw [written_iff]
        intro h'
        rw [List.length_map] at h2
        rcases details_once w hw (i - i') (List.mem_range.2 (by omega)) with h3 | ⟨x, h3, h4, h5⟩
        · omega
        · rw [List.mem_range] at h3
          obtain ⟨c, g1, g2⟩ := h' (i - i' + x) w[i - i' + x] (List.getElem?_eq_getElem h4)
          obtain ⟨c', g3, g4⟩ := h x w[x] (List.getElem?_eq_getElem h3)
          rw [show i' + (i - i' + x) = i + x by omega, g3] at g1
          cases g1
          rw [List.getElem?_eq_getElem h4, List.getElem?_eq_getElem h3] at h5
          apply h5
          rw [Option.map_some, Option.map_some, ← hl.ascii _ (hasc.2 _ (List.getElem_mem _)), ← hl.ascii _ (hasc.2 _ (List.getElem_mem _)), ← g2, ← g4]
  rw [mem_strings]
  constructor
  · rintro ⟨_, w', h1, h2, h3, h4, h5⟩
    obtain rfl : w' = w := by simpa [detailPattern] using h1
    obtain ⟨n, a, b, v⟩ := m
    refine ⟨a, (hfind a).1 h2, ?_⟩
    simp only at h3 h4 h5
    subst h3 h4 h5
    rfl
  · rintro ⟨i, h1, rfl⟩
    exact ⟨rfl, w, by simp [detailPattern], (hfind i).2 h1, rfl, rfl, rfl⟩

section
variable {E : RxEnv} {s : Str}

theorem format_hit {i j : Nat} {c : Caps} : (j, c) ∈ (formatPattern E).re.exec s i [] ↔ MarkAt E [c!"minisode", c!"minisodes"] s i j ∧ c = [] := by
  have hopt : ∀ k j c1, (j, c1) ∈ (E.letter 's').exec s k [] → j ≠ k := by
    intro k j c1 h
    obtain ⟨_, h, _⟩ := mem_letter.1 h
    omega
  have hsplit : LiteralAt E s c!"minisodes" i ↔ LiteralAt E s c!"minisode" i ∧ CharAt s (fun c => E.same 's' c = true) (i + 8) := by
    constructor
    · intro h
      refine ⟨fun k l hk => h k l ?_, h 8 's' rfl⟩
      have hlt : k < 8 := by
        have := (List.getElem?_eq_some_iff.1 hk).1
        simpa using this
      rw [show c!"minisodes" = c!"minisode" ++ c!"s" from rfl, List.getElem?_append_left (by simpa using hlt)]
      exact hk
    · rintro ⟨h1, h2⟩ k l hk
      rcases Nat.lt_trichotomy k 8 with h | rfl | h
      · refine h1 k l ?_
        rwa [show c!"minisodes" = c!"minisode" ++ c!"s" from rfl, List.getElem?_append_left (by simpa using h)] at hk
      · cases hk; exact h2
      · rw [List.getElem?_eq_none (by simp; omega)] at hk; cases hk
  have : (formatPattern E).re = Re.cat [E.word c!"minisode", .opt (E.letter 's')] := rfl
  rw [this]
  simp only [Re.cat, mem_seq, mem_word, mem_eps]
  constructor
  · rintro ⟨k, _, ⟨h1, rfl, rfl⟩, k', c', h2, rfl, rfl⟩
    rw [mem_optional (hopt _)] at h2
    rcases h2 with h2 | ⟨rfl, rfl⟩
    · obtain ⟨h3, rfl, rfl⟩ := mem_letter.1 h2
      exact ⟨⟨c!"minisodes", by simp, hsplit.2 ⟨h1, h3⟩, rfl⟩, rfl⟩
    · exact ⟨⟨c!"minisode", by simp, h1, rfl⟩, rfl⟩
  · rintro ⟨⟨w, h1, h2, rfl⟩, rfl⟩
    simp only [List.mem_cons, List.not_mem_nil, or_false] at h1
    rcases h1 with rfl | rfl
    · exact ⟨_, _, ⟨h2, rfl, rfl⟩, _, _, (mem_optional (hopt _)).2 (.inr ⟨rfl, rfl⟩), rfl, rfl⟩
    · obtain ⟨h3, h4⟩ := hsplit.1 h2
      exact ⟨_, _, ⟨h3, rfl, rfl⟩, _, _, (mem_optional (hopt _)).2 (.inl (mem_letter.2 ⟨h4, rfl, rfl⟩)), rfl, rfl⟩

theorem minisode_lettered : ∀ w ∈ [c!"minisode", c!"minisodes"], Lettered w := by
  have : ∀ w ∈ [c!"minisode", c!"minisodes"], w ≠ [] ∧ ∀ c ∈ w, c ∈ c!"abcdefghijklmnopqrstuvwxyz" := by decide
  exact this

/-- C133: the format is reported exactly where `Minisode` or `Minisodes` stands by itself. -/
theorem C133_format (hE : Usual E) (m : RxMatch Str) : m ∈ (formatPattern E).found s ↔
    ∃ i j, MarkAt E [c!"minisode", c!"minisodes"] s i j ∧ Standing s i j ∧ m = ⟨c!"episode_format", i, j, .ok c!"Minisode"⟩ := by
  rw [mem_found]
  have hch : (formatPattern E).children = false := rfl
  have hacc : ∀ h : RxHit, (formatPattern E).accepts s h = sepsSurround s h.start h.stop := by
    intro h; simp [RxPattern.accepts, formatPattern, surrounded, RxPattern.parent, RxPattern.kids]
  have hav := lettered_avoids hE minisode_lettered
  have heats : (formatPattern E).re.Eats := by
    intro s i j c _ h
    exact ((format_hit.1 (matchAt_mem h)).1.first hav).1
  constructor
  · rintro ⟨⟨i, j, c⟩, hh, ha, hm⟩
    simp only [hch, Bool.false_eq_true, if_false, List.mem_singleton] at hm
    rw [hacc, standing_iff] at ha
    obtain ⟨h1, _⟩ := hits_sound hh
    exact ⟨i, j, (format_hit.1 (matchAt_mem h1)).1, ha, hm⟩
  · rintro ⟨i, j, h, hs, rfl⟩
    obtain ⟨h1, h2⟩ := h.first hav
    have hlen : i < s.length := by
      obtain ⟨c, g, _⟩ := h2 i (Nat.le_refl _) h1
      exact (List.getElem?_eq_some_iff.1 g).1
    have hm : (formatPattern E).re.matchAt s i = some (j, []) := by
      obtain ⟨j', c', hm⟩ := matchAt_of_mem (format_hit.2 ⟨h, rfl⟩)
      obtain ⟨g1, rfl⟩ := format_hit.1 (matchAt_mem hm)
      have hle : ∀ {p : Nat}, MarkAt E [c!"minisode", c!"minisodes"] s i p → p = i + 8 ∨ p = i + 9 := by
        rintro p ⟨w, m1, _, rfl⟩
        simp only [List.mem_cons, List.not_mem_nil, or_false] at m1
        rcases m1 with rfl | rfl
        · exact .inl rfl
        · exact .inr rfl
      by_cases hj : j' = j
      · rw [hm, hj]
      · exfalso
        -- the shorter word would be followed by a letter that is a separator, or the plural is preferred
        rcases hle h with rfl | rfl <;> rcases hle g1 with rfl | rfl
        · exact hj rfl
        · rcases hs.2 with h3 | h3
          · obtain ⟨c, g, _⟩ := (g1.first hav).2 (i + 8) (by omega) (by omega)
            have := (List.getElem?_eq_some_iff.1 g).1
            omega
          · exact ((g1.first hav).2 (i + 8) (by omega) (by omega)).false h3 fun c a b => a (.inl b)
        · obtain ⟨w, m1, m2, m3⟩ := h
          have hw : w = c!"minisodes" := by
            simp only [List.mem_cons, List.not_mem_nil, or_false] at m1
            rcases m1 with rfl | rfl
            · simp at m3
            · rfl
          subst hw
          have hpl : ((formatPattern E).re.exec s i []).head? = some (i + 9, []) := by
            have h8 : LiteralAt E s c!"minisode" i := fun k l hk => m2 k l (by
              have hlt : k < 8 := by
                have := (List.getElem?_eq_some_iff.1 hk).1
                simpa using this
              rw [show c!"minisodes" = c!"minisode" ++ c!"s" from rfl, List.getElem?_append_left (by simpa using hlt)]
              exact hk)
            obtain ⟨c, g2, g3⟩ := m2 8 's' rfl
            exact seq_head (word_head h8) (seq_head (opt_head (chr_head g2 g3) (by simp)) eps_head)
          rw [matchAt_head hpl] at hm
          simp at hm
        · exact hj rfl
    refine ⟨⟨i, j, []⟩, hits_complete heats hm (by omega) ?_, ?_, ?_⟩
    · intro i' j' c' hlt hm'
      have hsep : CharAt s (· ∈ seps) (i - 1) := by
        rcases hs.1 with h | h
        · omega
        · exact h
      by_contra hcon
      exact (((format_hit.1 (matchAt_mem hm')).1.first hav).2 (i - 1) (by omega) (by omega)).false hsep fun c a b => a (.inl b)
    · rw [hacc, standing_iff]; exact hs
    · simp only [hch, Bool.false_eq_true, if_false, List.mem_singleton]; rfl

end

/-! ## Examples -/

example : ((formatPattern asciiRx).found c!"Show.MiniSodes.minisode xminisode").map (fun m => (m.start, m.stop, m.value.toOption)) =
    [(5, 14, some c!"Minisode"), (15, 23, some c!"Minisode")] := by decide +kernel

end Guessit
