import Verif.Proofs.Recognise

/-! # C113, C114: checksums and years -/

namespace Guessit
open Spec Re

/-! ## C113 -/

theorem hex_iff (c : Char) : hexChar c = true ↔ Hex c := by
  unfold hexChar Hex
  constructor
  · intro h
    have hlt : c.toNat < 128 := by
      simp only [Bool.or_eq_true, Bool.and_eq_true, decide_eq_true_eq] at h
      rcases h with (⟨_, h⟩ | ⟨_, h⟩) | ⟨_, h⟩ <;> (have : c.toNat ≤ _ := h; simp at this; omega)
    have hall : ∀ n < 128, (('a' ≤ Char.ofNat n && Char.ofNat n ≤ 'f') || ('A' ≤ Char.ofNat n && Char.ofNat n ≤ 'F') ||
      ('0' ≤ Char.ofNat n && Char.ofNat n ≤ '9')) = true → Char.ofNat n ∈ c!"0123456789abcdefABCDEF" := by decide +kernel
    have := hall c.toNat hlt
    rw [Char.ofNat_toNat] at this
    exact this h
  · have hall : ∀ c ∈ c!"0123456789abcdefABCDEF", (('a' ≤ c && c ≤ 'f') || ('A' ≤ c && c ≤ 'F') || ('0' ≤ c && c ≤ '9')) = true := by decide
    exact hall c

theorem mem_crc {s : Str} {i j : Nat} {c : Caps} : (j, c) ∈ crcPattern.re.exec s i [] ↔ c = [] ∧ j = i + 8 ∧ AllOf s Hex i j := by
  show (j, c) ∈ (Re.rep (.chr hexChar) 8 (some 8)).exec s i [] ↔ _
  rw [mem_rep_chr_bounded, allIn_iff hex_iff]
  constructor
  · rintro ⟨h1, h2, h3, h4⟩; exact ⟨h1, by omega, h4⟩
  · rintro ⟨h1, rfl, h4⟩; exact ⟨h1, by omega, by omega, h4⟩

theorem crc_matchAt {s : Str} {i j : Nat} {c : Caps} : crcPattern.re.matchAt s i = some (j, c) ↔ c = [] ∧ j = i + 8 ∧ AllOf s Hex i j := by
  constructor
  · intro h; exact mem_crc.1 (matchAt_mem h)
  · intro h
    refine matchAt_unique (mem_crc.2 h) fun j' c' h' => ?_
    have := mem_crc.1 h'
    exact ⟨by omega, by rw [this.1, h.1]⟩

theorem crc_eats : crcPattern.re.Eats := by
  intro s i j c _ h
  have := crc_matchAt.1 h; omega

theorem sep_not_hex {c : Char} (h : c ∈ seps) : ¬ Hex c := by
  have hall : ∀ c ∈ seps, c ∉ c!"0123456789abcdefABCDEF" := by decide
  exact hall c h

/-- C113: a checksum is reported exactly where eight hexadecimal digits stand between separators. -/
theorem C113_exact (s : Str) (m : RxMatch Str) : m ∈ crcPattern.found s ↔
    m.name = c!"crc32" ∧ m.stop = m.start + 8 ∧ AllOf s Hex m.start m.stop ∧ Standing s m.start m.stop ∧
      m.value = .ok (textOf s m.start m.stop) := by
  rw [mem_found]
  constructor
  · rintro ⟨h, hh, ha, hm⟩
    have hm : m = crcPattern.parent s h := by simpa [crcPattern] using hm
    subst hm
    obtain ⟨h1, h2⟩ := hits_sound hh
    obtain ⟨_, h3, h4⟩ := crc_matchAt.1 h1
    have ha : sepsSurround s h.start h.stop = true := by
      simpa [RxPattern.accepts, crcPattern, surrounded, RxPattern.parent, RxPattern.kids] using ha
    exact ⟨rfl, h3, h4, standing_iff.1 ha, rfl⟩
  · obtain ⟨name, i, j, v⟩ := m
    rintro ⟨h0, h1, h2, h3, h4⟩
    simp only at h0 h1 h2 h3 h4
    subst h0 h4
    refine ⟨⟨i, j, []⟩, hits_complete crc_eats (crc_matchAt.2 ⟨rfl, h1, h2⟩) ?_ ?_, ?_, ?_⟩
    · have := h2.le (by omega); omega
    · intro i' j' c' hlt hm
      obtain ⟨_, h5, h6⟩ := crc_matchAt.1 hm
      by_contra hcon
      rcases h3.1 with h | h
      · omega
      · exact h.false (h6 (i - 1) (by omega) (by omega)) fun c => sep_not_hex
    · simp only [RxPattern.accepts, crcPattern, surrounded, RxPattern.parent, RxPattern.kids, List.filterMap_nil, List.all_nil]
      simp [standing_iff.2 h3]
    · simp [crcPattern, RxPattern.parent, rawText, textOf]

/-- C113: each is reported once, in order. -/
theorem C113_once (s : Str) : (crcPattern.found s).Pairwise fun a b => a.stop ≤ b.start := by
  unfold RxPattern.found
  have h := (hits_inOrder crc_eats s).filter (crcPattern.accepts s)
  have e : ∀ l : List RxHit, l.flatMap (fun h => if crcPattern.children then crcPattern.kids s h else [crcPattern.parent s h]) =
      l.map (crcPattern.parent s) := by
    intro l; induction l with
    | nil => rfl
    | cons x l ih => rw [List.flatMap_cons, ih]; rfl
  rw [e]
  exact List.pairwise_map.2 (h.imp fun {a b} hab => hab)

example : (crcPattern.found c!"Show [ABCDEF12] 123456789 x0000ffff.mkv").map (fun m => (m.start, m.stop)) = [(6, 14)] := by decide +kernel

/-! ## C114 -/

/-- The years of the plausible range. -/
theorem mem_year {E : RxEnv} {s : Str} {i j : Nat} {c : Caps} : (j, c) ∈ (yearPattern E).re.exec s i [] ↔ c = [] ∧ j = i + 4 ∧ AllOf s (Digit E) i j := by
  show (j, c) ∈ (Re.rep (.chr E.u.isDigit) 4 (some 4)).exec s i [] ↔ _
  rw [mem_rep_chr_bounded, allIn_iff (P := Digit E) (fun _ => Iff.rfl)]
  constructor
  · rintro ⟨h1, h2, h3, h4⟩; exact ⟨h1, by omega, h4⟩
  · rintro ⟨h1, rfl, h4⟩; exact ⟨h1, by omega, by omega, h4⟩

theorem year_matchAt {E : RxEnv} {s : Str} {i j : Nat} {c : Caps} :
    (yearPattern E).re.matchAt s i = some (j, c) ↔ c = [] ∧ j = i + 4 ∧ AllOf s (Digit E) i j := by
  constructor
  · intro h; exact mem_year.1 (matchAt_mem h)
  · intro h
    refine matchAt_unique (mem_year.2 h) fun j' c' h' => ?_
    have := mem_year.1 h'
    exact ⟨by omega, by rw [this.1, h.1]⟩

theorem year_eats (E : RxEnv) : (yearPattern E).re.Eats := by
  intro s i j c _ h
  have := year_matchAt.1 h; omega

/-- C114: a year is reported exactly where a number of four digits, from 1920 to 2029, stands between separators. -/
theorem C114_exact (E : RxEnv) (hE : Usual E) (s : Str) (m : RxMatch Int) : m ∈ (yearPattern E).found s ↔
    m.name = c!"year" ∧ m.stop = m.start + 4 ∧ Standing s m.start m.stop ∧
      ∃ n : Nat, Number E s m.start m.stop n ∧ 1920 ≤ n ∧ n < 2030 ∧ m.value = .ok n := by
  have hvalid : ∀ n : Nat, validYear (n : Int) = true ↔ 1920 ≤ n ∧ n < 2030 := by
    intro n; unfold validYear; simp only [Bool.and_eq_true, decide_eq_true_eq]; omega
  rw [mem_found]
  constructor
  · rintro ⟨h, hh, ha, hm⟩
    have hm : m = (yearPattern E).parent s h := by simpa [yearPattern] using hm
    subst hm
    obtain ⟨h1, h2⟩ := hits_sound hh
    obtain ⟨_, h3, h4⟩ := year_matchAt.1 h1
    have hv := pyInt_number hE (by omega) h4
    have ha : sepsSurround s h.start h.stop = true ∧ validYear (digitsValue E.u ((s.take h.stop).drop h.start) : Nat) = true := by
      simpa [RxPattern.accepts, yearPattern, surrounded, RxPattern.parent, RxPattern.kids, valueIs, hv] using ha
    refine ⟨rfl, h3, standing_iff.1 ha.1, _, ⟨?_, h4, rfl⟩, ((hvalid _).1 ha.2).1, ((hvalid _).1 ha.2).2, hv⟩
    show h.start < h.stop
    omega
  · obtain ⟨name, i, j, v⟩ := m
    rintro ⟨h0, h1, h3, n, hn, hlo, hhi, h4⟩
    simp only at h0 h1 h3 h4 hn
    subst h0 h4
    have h2 := hn.digits
    have hv := number_pyInt hE hn
    refine ⟨⟨i, j, []⟩, hits_complete (year_eats E) (year_matchAt.2 ⟨rfl, h1, h2⟩) ?_ ?_, ?_, ?_⟩
    · have := h2.le (by omega); omega
    · intro i' j' c' hlt hm
      obtain ⟨_, h5, h6⟩ := year_matchAt.1 hm
      by_contra hcon
      rcases h3.1 with h | h
      · omega
      · exact h.false (h6 (i - 1) (by omega) (by omega)) fun c hc hd => sep_not_digit hE hc hd
    · simp only [RxPattern.accepts, yearPattern, surrounded, RxPattern.parent, RxPattern.kids, List.filterMap_nil, List.all_nil, valueIs, hv]
      simp [standing_iff.2 h3, (hvalid n).2 ⟨hlo, hhi⟩]
    · simp [yearPattern, RxPattern.parent, hv]

example : ((yearPattern asciiRx).found c!"Movie 1917.2012 (1999) 20201 s2015").map (fun m => (m.start, m.stop, m.value.toOption)) =
    [(11, 15, some 2012), (17, 21, some 1999)] := by decide +kernel

/-- C114: the formatter of years does not fail on what the pattern matches. -/
theorem C114_no_error (E : RxEnv) (hE : Usual E) (s : Str) (h : RxHit) (hh : h ∈ (yearPattern E).re.hits s) :
    ∃ n, ((yearPattern E).parent s h).value = .ok n := by
  obtain ⟨h1, h2⟩ := hits_sound hh
  obtain ⟨_, h3, h4⟩ := year_matchAt.1 h1
  exact ⟨_, pyInt_number hE (by omega) h4⟩

end Guessit
