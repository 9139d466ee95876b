import Verif.Spec.Website
import Verif.Proofs.Recognise

/-! # C124: which websites are recognised -/

namespace Guessit
open Spec Re

/-! ## Repetition of a step that moves on -/

theorem mem_repExec_steps {s : Str} {step : Nat → Caps → List (Nat × Caps)} {R : Nat → Nat → Prop}
    (hs : ∀ i c j c', (j, c') ∈ step i c ↔ R i j ∧ c' = c) (hR : ∀ i j, R i j → i < j) {f m i j : Nat} {c c' : Caps} :
    (j, c') ∈ repExec step f m i c ↔ c' = c ∧ ∃ n, m ≤ n ∧ n ≤ f ∧ Repeated R n i j := by
  induction f generalizing m i c with
  | zero =>
    simp only [repExec]
    constructor
    · intro h
      split at h
      · rw [List.mem_singleton, Prod.mk.injEq] at h
        obtain ⟨rfl, rfl⟩ := h
        exact ⟨rfl, 0, by omega, by omega, .zero⟩
      · cases h
    · rintro ⟨rfl, n, h1, h2, h3⟩
      obtain rfl : n = 0 := by omega
      cases h3
      rw [if_pos (by omega)]
      simp
  | succ f ih =>
    simp only [repExec, List.mem_append, List.mem_flatMap, List.mem_filter, decide_eq_true_eq]
    constructor
    · rintro (⟨⟨k, c1⟩, ⟨h1, h2⟩, h3⟩ | h)
      · rw [hs] at h1
        obtain ⟨h1, rfl⟩ := h1
        rw [ih] at h3
        obtain ⟨rfl, n, h4, h5, h6⟩ := h3
        exact ⟨rfl, n + 1, by omega, by omega, .succ h1 h6⟩
      · split at h
        · rw [List.mem_singleton, Prod.mk.injEq] at h
          obtain ⟨rfl, rfl⟩ := h
          exact ⟨rfl, 0, by omega, by omega, .zero⟩
        · cases h
    · rintro ⟨rfl, n, h1, h2, h3⟩
      cases h3 with
      | zero => right; rw [if_pos (by omega)]; simp
      | succ h4 h5 =>
        left
        rename_i n k
        refine ⟨(k, c'), ⟨(hs _ _ _ _).2 ⟨h4, rfl⟩, ?_⟩, ?_⟩
        · have := hR _ _ h4; simp only; omega
        · exact ih.2 ⟨rfl, n, by omega, by omega, h5⟩

theorem Spec.Repeated.grow {R : Nat → Nat → Prop} {s : Str} (hR : ∀ i j, R i j → i < j ∧ j ≤ s.length) {n i j : Nat} (h : Repeated R n i j) :
    i + n ≤ j ∧ (n = 0 ∨ j ≤ s.length) := by
  induction h with
  | zero => simp
  | succ h1 h2 ih =>
    have := hR _ _ h1
    refine ⟨by omega, .inr ?_⟩
    rcases ih.2 with h | h
    · subst h; cases h2; exact this.2
    · exact h

theorem mem_rep_steps {s : Str} {r : Re} {R : Nat → Nat → Prop} (hs : ∀ i c j c', (j, c') ∈ r.exec s i c ↔ R i j ∧ c' = c)
    (hR : ∀ i j, R i j → i < j ∧ j ≤ s.length) {m i j : Nat} {c c' : Caps} :
    (j, c') ∈ (Re.rep r m none).exec s i c ↔ (∃ n, m ≤ n ∧ Repeated R n i j) ∧ c' = c := by
  simp only [Re.exec, Option.getD_none]
  rw [mem_repExec_steps (s := s) hs (fun i j h => (hR i j h).1)]
  constructor
  · rintro ⟨h, n, h1, _, h2⟩; exact ⟨⟨n, h1, h2⟩, h⟩
  · rintro ⟨⟨n, h1, h2⟩, h⟩
    have := h2.grow hR
    exact ⟨h, n, h1, by omega, h2⟩

/-! ## The parts -/

section
variable {E : RxEnv} {s : Str}

theorem not_alnum {c : Char} : (!siteAlnum.any fun l => E.same l c) = true ↔ ¬ AlnumChar E c := by
  simp [siteAlnum, AlnumChar]

theorem label_char {c : Char} : ((siteAlnum ++ c!"-").any fun l => E.same l c) = true ↔ LabelChar E c := by
  rw [List.any_append, Bool.or_eq_true, LabelChar]
  refine or_congr ?_ (by simp)
  rw [List.any_eq_true]; rfl

theorem mem_notAlnum {i j : Nat} {c c' : Caps} : (j, c') ∈ E.notAlnum.exec s i c ↔ (CharAt s (fun x => ¬ AlnumChar E x) i ∧ j = i + 1) ∧ c' = c := by
  rw [RxEnv.notAlnum, mem_chr, and_assoc]
  refine and_congr ?_ Iff.rfl
  simp only [CharAt, not_alnum]

theorem mem_dot {i j : Nat} {c c' : Caps} : (j, c') ∈ (Re.lit '.').exec s i c ↔ (s[i]? = some '.' ∧ j = i + 1) ∧ c' = c := by
  rw [Re.lit, mem_chr, and_assoc]
  simp

theorem mem_oneOfAt {ws : List Str} {i j : Nat} {c c' : Caps} : (j, c') ∈ (E.words ws).exec s i c ↔ OneOfAt E ws s i j ∧ c' = c := by
  rw [mem_words, and_comm]
  rfl

theorem mem_wordDot {ws : List Str} (i : Nat) (c : Caps) (j : Nat) (c' : Caps) : (j, c') ∈ (E.wordDot ws).exec s i c ↔ WordDotAt E ws s i j ∧ c' = c := by
  rw [RxEnv.wordDot, mem_seq]
  simp only [mem_oneOfAt, mem_dot, WordDotAt]
  constructor
  · rintro ⟨k, c1, ⟨h1, rfl⟩, ⟨h2, h3⟩, h4⟩; exact ⟨⟨k, h1, h2, h3⟩, h4⟩
  · rintro ⟨⟨k, h1, h2, h3⟩, h4⟩; exact ⟨k, c, ⟨h1, rfl⟩, ⟨h2, h3⟩, h4⟩

theorem wordDot_grow {ws : List Str} (i j : Nat) (h : WordDotAt E ws s i j) : i < j ∧ j ≤ s.length := by
  obtain ⟨k, ⟨w, _, _, rfl⟩, h1, rfl⟩ := h
  have := (List.getElem?_eq_some_iff.1 h1).1
  omega

theorem mem_labelDot (i : Nat) (c : Caps) (j : Nat) (c' : Caps) : (j, c') ∈ E.labelDot.exec s i c ↔ LabelDotAt E s i j ∧ c' = c := by
  rw [RxEnv.labelDot, mem_seq]
  simp only [mem_dot, LabelDotAt]
  constructor
  · rintro ⟨k, c1, h1, ⟨h2, h3⟩, h4⟩
    by_cases hi : i ≤ s.length
    · rw [mem_rep_chr hi] at h1
      obtain ⟨rfl, h5, h6⟩ := h1
      exact ⟨⟨k, by omega, (allIn_iff fun c => label_char).1 h6, h2, h3⟩, h4⟩
    · simp only [Re.exec, Option.getD_none] at h1
      rw [show s.length - i = 0 by omega] at h1
      simp [repExec] at h1
  · rintro ⟨⟨k, h1, h2, h3, h4⟩, h5⟩
    have := (List.getElem?_eq_some_iff.1 h3).1
    exact ⟨k, c, (mem_rep_chr (by omega)).2 ⟨rfl, by omega, (allIn_iff fun c => label_char).2 h2⟩, ⟨h3, h4⟩, h5⟩

theorem labelDot_grow (i j : Nat) (h : LabelDotAt E s i j) : i < j ∧ j ≤ s.length := by
  obtain ⟨k, h1, _, h2, rfl⟩ := h
  have := (List.getElem?_eq_some_iff.1 h2).1
  omega

theorem oneOf_grow {ws : List Str} {i j : Nat} (hi : i ≤ s.length) (h : OneOfAt E ws s i j) : i ≤ j ∧ j ≤ s.length := by
  obtain ⟨w, _, h1, rfl⟩ := h
  refine ⟨by omega, ?_⟩
  rcases Nat.eq_zero_or_pos w.length with h | h
  · omega
  · obtain ⟨x, hx, _⟩ := h1 (w.length - 1) w[w.length - 1] (List.getElem?_eq_some_iff.2 ⟨by omega, rfl⟩)
    have := (List.getElem?_eq_some_iff.1 hx).1
    omega

end

/-! ## The three bodies -/

/-- The body of a form. -/
def RxEnv.siteBody (E : RxEnv) (C : SiteConfig) : SiteForm → Re
  | .known => E.knownSite C
  | .safe => E.safeSite C
  | .prefixed => E.prefixedSite C

section
variable {E : RxEnv} {C : SiteConfig} {s : Str}

theorem mem_body (f : SiteForm) {i j : Nat} {c c' : Caps} : (j, c') ∈ (E.siteBody C f).exec s i c ↔ SiteAt E C s i j f ∧ c' = c := by
  have hsub := fun m i j (c c' : Caps) => mem_rep_steps (s := s) (m := m) (i := i) (j := j) (c := c) (c' := c')
    (mem_wordDot (E := E) (s := s) (ws := C.subdomains)) wordDot_grow
  have hpre := fun m i j (c c' : Caps) => mem_rep_steps (s := s) (m := m) (i := i) (j := j) (c := c) (c' := c')
    (mem_wordDot (E := E) (s := s) (ws := C.prefixes)) wordDot_grow
  have hlab := fun m i j (c c' : Caps) => mem_rep_steps (s := s) (m := m) (i := i) (j := j) (c := c) (c' := c')
    (mem_labelDot (E := E) (s := s)) labelDot_grow
  cases f with
  | known =>
    simp only [RxEnv.siteBody, RxEnv.knownSite, Re.cat, mem_seq, mem_eps, hsub, hlab, mem_oneOfAt, SiteAt]
    constructor
    · rintro ⟨a, c1, ⟨⟨n, h1, h2⟩, rfl⟩, b, c2, ⟨⟨m, h3, h4⟩, rfl⟩, k, c3, ⟨h5, rfl⟩, rfl, rfl⟩
      exact ⟨⟨n, m, a, b, h1, h2, h3, h4, h5⟩, rfl⟩
    · rintro ⟨⟨n, m, a, b, h1, h2, h3, h4, h5⟩, rfl⟩
      exact ⟨a, c', ⟨⟨n, h1, h2⟩, rfl⟩, b, c', ⟨⟨m, h3, h4⟩, rfl⟩, j, c', ⟨h5, rfl⟩, rfl, rfl⟩
  | safe =>
    simp only [RxEnv.siteBody, RxEnv.safeSite, Re.cat, mem_seq, mem_eps, hsub, mem_labelDot, mem_oneOfAt, SiteAt]
    constructor
    · rintro ⟨a, c1, ⟨⟨n, h1, h2⟩, rfl⟩, b, c2, ⟨h4, rfl⟩, k, c3, ⟨h5, rfl⟩, rfl, rfl⟩
      exact ⟨⟨n, a, b, h2, h4, h5⟩, rfl⟩
    · rintro ⟨⟨n, a, b, h2, h4, h5⟩, rfl⟩
      exact ⟨a, c', ⟨⟨n, by omega, h2⟩, rfl⟩, b, c', ⟨h4, rfl⟩, j, c', ⟨h5, rfl⟩, rfl, rfl⟩
  | prefixed =>
    simp only [RxEnv.siteBody, RxEnv.prefixedSite, Re.cat, mem_seq, mem_eps, hsub, hpre, mem_labelDot, mem_oneOfAt, SiteAt]
    constructor
    · rintro ⟨a, c1, ⟨⟨n, h1, h2⟩, rfl⟩, b, c2, ⟨h4, rfl⟩, d, c3, ⟨⟨m, h5, h6⟩, rfl⟩, k, c4, ⟨h7, rfl⟩, rfl, rfl⟩
      exact ⟨⟨n, m, a, b, d, h2, h4, h5, h6, h7⟩, rfl⟩
    · rintro ⟨⟨n, m, a, b, d, h2, h4, h5, h6, h7⟩, rfl⟩
      exact ⟨a, c', ⟨⟨n, by omega, h2⟩, rfl⟩, b, c', ⟨h4, rfl⟩, d, c', ⟨⟨m, h5, h6⟩, rfl⟩, j, c', ⟨h7, rfl⟩, rfl, rfl⟩

theorem site_grow {f : SiteForm} {i j : Nat} (h : SiteAt E C s i j f) : i < j ∧ j ≤ s.length := by
  cases f with
  | known =>
    obtain ⟨n, m, a, b, h1, h2, h3, h4, h5⟩ := h
    have g1 := h2.grow wordDot_grow
    have g2 := h4.grow labelDot_grow
    have := oneOf_grow (by omega) h5
    omega
  | safe =>
    obtain ⟨n, a, b, h2, h4, h5⟩ := h
    have g1 := h2.grow wordDot_grow
    have g2 := labelDot_grow _ _ h4
    have := oneOf_grow (by omega) h5
    omega
  | prefixed =>
    obtain ⟨n, m, a, b, d, h2, h4, h5, h6, h7⟩ := h
    have g1 := h2.grow wordDot_grow
    have g2 := labelDot_grow _ _ h4
    have g3 := h6.grow wordDot_grow
    have := oneOf_grow (by omega) h7
    omega

/-- How a pattern matches from `p` to `q` with a website from `i` to `j`. -/
structure Around (E : RxEnv) (C : SiteConfig) (s : Str) (f : SiteForm) (p q i j : Nat) : Prop where
  site : SiteAt E C s i j f
  before : (CharAt s (fun c => ¬ AlnumChar E c) p ∧ i = p + 1) ∨ (p = 0 ∧ i = 0)
  after : (CharAt s (fun c => ¬ AlnumChar E c) j ∧ q = j + 1) ∨ (q = j ∧ (j = s.length ∨ (j + 1 = s.length ∧ s[j]? = some '\n')))

theorem mem_around (f : SiteForm) {p q : Nat} {c c' : Caps} : (q, c') ∈ (E.siteAround (E.siteBody C f)).exec s p c ↔
    ∃ i j, Around E C s f p q i j ∧ c' = (1, (i, j)) :: c := by
  simp only [RxEnv.siteAround, Re.cat, mem_seq, mem_eps, mem_alt, mem_notAlnum, mem_bol, mem_eol, mem_grp, mem_body]
  constructor
  · rintro ⟨i, c1, h1, j, c2, ⟨c3, ⟨h2, rfl⟩, rfl⟩, k, c4, h3, rfl, rfl⟩
    refine ⟨i, j, ⟨h2, ?_, ?_⟩, ?_⟩
    · rcases h1 with ⟨h, _⟩ | ⟨h, h', _⟩
      · exact .inl h
      · exact .inr ⟨h, by omega⟩
    · rcases h3 with ⟨h, _⟩ | ⟨h, h', _⟩
      · exact .inl h
      · exact .inr ⟨h', h⟩
    · have h4 : c3 = c := by rcases h1 with ⟨_, h⟩ | ⟨_, _, h⟩ <;> exact h
      rw [← h4]
      rcases h3 with ⟨_, h⟩ | ⟨_, _, h⟩ <;> exact h
  · rintro ⟨i, j, ⟨h1, h2, h3⟩, rfl⟩
    refine ⟨i, c, ?_, j, (1, (i, j)) :: c, ⟨c, ⟨h1, rfl⟩, rfl⟩, q, _, ?_, rfl, rfl⟩
    · rcases h2 with h | ⟨h, h'⟩
      · exact .inl ⟨h, rfl⟩
      · exact .inr ⟨h, by omega, rfl⟩
    · rcases h3 with h | ⟨h, h'⟩
      · exact .inl ⟨h, rfl⟩
      · exact .inr ⟨h', h, rfl⟩

theorem around_eats (f : SiteForm) : (E.siteAround (E.siteBody C f)).Eats := by
  intro s p q c _ h
  obtain ⟨i, j, ⟨h1, h2, h3⟩, _⟩ := (mem_around f).1 (matchAt_mem h)
  have := site_grow h1
  rcases h2 with ⟨_, h2⟩ | ⟨h2, h2'⟩ <;> rcases h3 with ⟨_, h3⟩ | ⟨h3, _⟩ <;> omega

end

theorem hitsFrom_cover {r : Re} (hr : r.Eats) {s : Str} {p q : Nat} {c : Caps} (hm : r.matchAt s p = some (q, c)) (hp : p ≤ s.length) :
    ∀ (f k : Nat), k ≤ p → s.length + 1 ≤ k + f → ∃ h ∈ r.hitsFrom s f k, h.start ≤ p ∧ (h.start = p ∨ p < h.stop)
  | 0, k, hk, hf => by omega
  | f + 1, k, hk, hf => by
    unfold Re.hitsFrom
    rw [if_pos (by omega)]
    split
    · rename_i hs
      have := Re.searchFrom_none hs p hk (by omega)
      rw [this] at hm; cases hm
    · rename_i a b cc hs
      obtain ⟨g1, g2, g3, g4⟩ := Re.searchFrom_some hs
      have ha : a ≤ p := by
        by_contra hcon
        rw [g4 p hk (by omega)] at hm; cases hm
      by_cases hb : a = p ∨ p < b
      · exact ⟨_, List.mem_cons_self, ha, hb⟩
      · have := hr s a b cc (by omega) g1
        obtain ⟨h, h1, h2⟩ := hitsFrom_cover hr hm hp f b (by omega) (by omega)
        exact ⟨h, List.mem_cons_of_mem _ h1, h2⟩

/-- Where the pattern matches, a match that starts there or runs over it is found. -/
theorem hits_cover {r : Re} (hr : r.Eats) {s : Str} {p q : Nat} {c : Caps} (hm : r.matchAt s p = some (q, c)) (hp : p ≤ s.length) :
    ∃ h ∈ r.hits s, h.start ≤ p ∧ (h.start = p ∨ p < h.stop) := hitsFrom_cover hr hm hp _ _ (by omega) (by omega)

section
variable {E : RxEnv} {C : SiteConfig} {s : Str}

theorem site_found {f : SiteForm} {m : RxMatch Str} : m ∈ (sitePattern (E.siteAround (E.siteBody C f))).found s ↔
    ∃ h ∈ (E.siteAround (E.siteBody C f)).hits s, m ∈ (sitePattern (E.siteAround (E.siteBody C f))).kids s h := by
  rw [mem_found]
  constructor
  · rintro ⟨h, h1, _, h2⟩; exact ⟨h, h1, h2⟩
  · rintro ⟨h, h1, h2⟩
    refine ⟨h, h1, ?_, h2⟩
    have : (sitePattern (E.siteAround (E.siteBody C f))).accepts s h = ((sitePattern (E.siteAround (E.siteBody C f))).kids s h).all fun _ => true := by
      simp [RxPattern.accepts, sitePattern]
    rw [this, List.all_eq_true]; simp

theorem site_kids {f : SiteForm} {h : RxHit} (hh : h ∈ (E.siteAround (E.siteBody C f)).hits s) : ∃ i j, Around E C s f h.start h.stop i j ∧
    (sitePattern (E.siteAround (E.siteBody C f))).kids s h = [{ name := c!"website", start := i, stop := j, value := .ok (textOf s i j) }] := by
  obtain ⟨h1, _⟩ := hits_sound hh
  obtain ⟨i, j, h2, h3⟩ := (mem_around f).1 (matchAt_mem h1)
  refine ⟨i, j, h2, ?_⟩
  have hij := (site_grow h2.site).1
  simp only [RxPattern.kids, sitePattern, h3, List.lookup, List.filterMap_cons, List.filterMap_nil]
  simp [hij, rawText, textOf]

theorem mem_sites {m : RxMatch Str} : m ∈ sitesFound E C s ↔ ∃ f : SiteForm, m ∈ (sitePattern (E.siteAround (E.siteBody C f))).found s := by
  simp only [sitesFound, List.mem_flatMap, List.mem_cons, List.not_mem_nil, or_false]
  constructor
  · rintro ⟨r, rfl | rfl | rfl, h⟩
    · exact ⟨.known, h⟩
    · exact ⟨.safe, h⟩
    · exact ⟨.prefixed, h⟩
  · rintro ⟨_ | _ | _, h⟩
    · exact ⟨_, .inl rfl, h⟩
    · exact ⟨_, .inr (.inl rfl), h⟩
    · exact ⟨_, .inr (.inr rfl), h⟩

/-- C124: a website that is reported is written in one of the three ways, no letter or digit stands next to it, and its value is its text. -/
theorem C124_sound (hnl : ¬ AlnumChar E '\n') {m : RxMatch Str} (h : m ∈ sitesFound E C s) :
    (∃ f, SiteAt E C s m.start m.stop f) ∧ ApartBefore E s m.start ∧ ApartAfter E s m.stop ∧ m.name = c!"website" ∧
      m.value = .ok (textOf s m.start m.stop) := by
  obtain ⟨f, hf⟩ := mem_sites.1 h
  clear h
  obtain ⟨x, h1, h2⟩ := site_found.1 hf
  clear hf
  obtain ⟨i, j, ⟨h3, h4, h5⟩, h6⟩ := site_kids h1
  rw [h6, List.mem_singleton] at h2
  subst h2
  refine ⟨⟨f, h3⟩, ?_, ?_, rfl, rfl⟩
  · rcases h4 with ⟨h, rfl⟩ | ⟨_, h⟩
    · exact .inr (by simpa using h)
    · exact .inl h
  · rcases h5 with ⟨h, _⟩ | ⟨_, h | ⟨_, h⟩⟩
    · exact .inr h
    · exact .inl h
    · exact .inr ⟨_, h, hnl⟩

/-- C124: where a website is written with no letter or digit next to it, either a website is reported that starts there (one character later if
it is the start of the name, and a hyphen), or one that starts earlier and ends there, one character before, or later. -/
theorem C124_complete {f : SiteForm} {i j : Nat} (h : SiteAt E C s i j f) (hb : ApartBefore E s i) (ha : ApartAfter E s j) :
    ∃ m ∈ sitesFound E C s, (m.start = i ∨ (i = 0 ∧ m.start = 1 ∧ CharAt s (fun c => ¬ AlnumChar E c) 0)) ∨ (m.start < i ∧ i ≤ m.stop + 1) := by
  have hg := site_grow h
  -- where the pattern starts to match
  obtain ⟨p, hp, hpi, hp0⟩ : ∃ p, ((CharAt s (fun c => ¬ AlnumChar E c) p ∧ i = p + 1) ∨ (p = 0 ∧ i = 0)) ∧ p ≤ i ∧ i ≤ p + 1 := by
    rcases hb with rfl | hb
    · exact ⟨0, .inr ⟨rfl, rfl⟩, by omega, by omega⟩
    · by_cases hi : i = 0
      · exact ⟨0, .inr ⟨rfl, hi⟩, by omega, by omega⟩
      · exact ⟨i - 1, .inl ⟨hb, by omega⟩, by omega, by omega⟩
  obtain ⟨q, hq⟩ : ∃ q, (CharAt s (fun c => ¬ AlnumChar E c) j ∧ q = j + 1) ∨ (q = j ∧ (j = s.length ∨ (j + 1 = s.length ∧ s[j]? = some '\n'))) := by
    rcases ha with h | h
    · exact ⟨j, .inr ⟨rfl, .inl h⟩⟩
    · exact ⟨j + 1, .inl ⟨h, rfl⟩⟩
  obtain ⟨q', c', hm⟩ := matchAt_of_mem ((mem_around (s := s) (c := []) f).2 ⟨i, j, ⟨h, hp, hq⟩, rfl⟩)
  obtain ⟨x, hx, hx1, hx2⟩ := hits_cover (around_eats f) hm (by omega)
  obtain ⟨a, b, h1, h2⟩ := site_kids hx
  refine ⟨{ name := c!"website", start := a, stop := b, value := .ok (textOf s a b) }, mem_sites.2 ⟨f, site_found.2 ⟨x, hx, by rw [h2]; simp⟩⟩, ?_⟩
  have hab := (site_grow h1.site).1
  simp only
  obtain ⟨_, h3, h4⟩ := h1
  by_cases hxp : x.start = p
  · rw [hxp] at h3
    rcases h3 with ⟨h3, rfl⟩ | ⟨h3, rfl⟩
    · rcases hp with ⟨_, rfl⟩ | ⟨rfl, rfl⟩
      · exact .inl (.inl rfl)
      · exact .inl (.inr ⟨rfl, rfl, h3⟩)
    · by_cases hi : i = 0
      · exact .inl (.inl hi.symm)
      · exact .inr ⟨by omega, by omega⟩
  · have hlt : x.start < p := by omega
    have hstop : p < x.stop := by rcases hx2 with h | h <;> omega
    right
    rcases h3 with ⟨_, h3⟩ | ⟨h3, h3'⟩ <;> rcases h4 with ⟨_, h4⟩ | ⟨h4, _⟩ <;> omega

end
end Guessit
