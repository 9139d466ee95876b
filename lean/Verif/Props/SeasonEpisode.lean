import Verif.Proofs.Chain
import Verif.Props.Discs
import Verif.Props.Counts

/-! # C125: S01E02 -/

namespace Guessit
open Spec Re

/-- The first way to match `ab` when only one way to match `a` goes on. -/
theorem seq_first {a b : Re} {s : Str} {i k : Nat} {c c1 : Caps} {x : Nat × Caps} (hm : (k, c1) ∈ a.exec s i c) (hx : (b.exec s k c1).head? = some x)
    (hu : ∀ k' c', (k', c') ∈ a.exec s i c → b.exec s k' c' ≠ [] → k' = k ∧ c' = c1) : ((Re.seq a b).exec s i c).head? = some x := by
  rw [exec]
  revert hm hu
  induction a.exec s i c with
  | nil => intro h; cases h
  | cons y l ih =>
    intro hm hu
    rw [List.flatMap_cons]
    cases hy : b.exec s y.1 y.2 with
    | nil =>
      rw [List.nil_append]
      refine ih ?_ fun k' c' h => hu k' c' (List.mem_cons_of_mem _ h)
      rcases List.mem_cons.1 hm with rfl | h
      · rw [hy] at hx; cases hx
      · exact h
    | cons z t =>
      obtain ⟨h1, h2⟩ := hu y.1 y.2 (by simp) (by rw [hy]; simp)
      rw [← h1, ← h2, hy] at hx
      simpa using hx

section
variable {E : RxEnv} {s : Str}

theorem mem_mark {ws : List Str} {n i j : Nat} {c c' : Caps} : (j, c') ∈ (Re.grp n (E.words ws)).exec s i c ↔ MarkAt E ws s i j ∧ c' = (n, (i, j)) :: c := by
  rw [mem_grp]
  constructor
  · rintro ⟨c1, h1, rfl⟩
    obtain ⟨rfl, h⟩ := mem_words.1 h1
    exact ⟨h, rfl⟩
  · rintro ⟨h, rfl⟩
    exact ⟨c, mem_words.2 ⟨rfl, h⟩, rfl⟩

theorem mem_run {n i j : Nat} {c c' : Caps} : (j, c') ∈ (Re.grp n E.digits).exec s i c ↔ (i < j ∧ AllOf s (Digit E) i j) ∧ c' = (n, (i, j)) :: c := by
  rw [mem_grp]
  constructor
  · rintro ⟨c1, h1, rfl⟩
    obtain ⟨rfl, h⟩ := mem_number.1 h1
    exact ⟨h, rfl⟩
  · rintro ⟨h, rfl⟩
    exact ⟨c, mem_number.2 ⟨rfl, h⟩, rfl⟩

/-- The letters of a word are none of some characters. -/
def Avoids (E : RxEnv) (ws : List Str) (P : Char → Prop) : Prop := ∀ w ∈ ws, w ≠ [] ∧ ∀ l ∈ w, ∀ c, E.same l c = true → ¬ P c

theorem Spec.MarkAt.first {ws : List Str} {P : Char → Prop} (hw : Avoids E ws P) {i j : Nat} (h : MarkAt E ws s i j) : i < j ∧ ∀ k, i ≤ k → k < j → CharAt s (fun c => ¬ P c) k := by
  obtain ⟨w, h1, h2, rfl⟩ := h
  refine ⟨by have := List.length_pos_iff.2 (hw w h1).1; omega, ?_⟩
  intro k hk1 hk2
  have hk : k - i < w.length := by omega
  obtain ⟨c, h3, h4⟩ := h2 (k - i) w[k - i] (List.getElem?_eq_some_iff.2 ⟨hk, rfl⟩)
  exact ⟨c, by rw [← h3]; congr 1; omega, (hw w h1).2 _ (List.getElem_mem hk) c h4⟩

theorem mark_unique {ws : List Str} {P : Char → Prop} (hw : Avoids E ws P) {i j j' : Nat} (h : MarkAt E ws s i j) (h' : MarkAt E ws s i j')
    (hj : CharAt s P j) (hj' : CharAt s P j') : j' = j := by
  rcases Nat.lt_trichotomy j' j with hlt | heq | hlt
  · exact ((h.first hw).2 j' (by have := (h'.first hw).1; omega) hlt |>.false hj' fun c a b => a b).elim
  · exact heq
  · exact ((h'.first hw).2 j (by have := (h.first hw).1; omega) hlt |>.false hj fun c a b => a b).elim

theorem lettered_avoids (hE : Usual E) {ws : List Str} (hw : ∀ w ∈ ws, Lettered w) : Avoids E ws fun c => c ∈ seps ∨ Digit E c := by
  intro w h
  refine ⟨(hw w h).1, fun l hl c hs => ?_⟩
  rintro (hc | hc)
  · rw [sep_not_letter hE ((hw w h).2 l hl) hc] at hs; cases hs
  · exact letter_not_digit hE ((hw w h).2 l hl) hs hc

theorem Avoids.mono {ws : List Str} {P Q : Char → Prop} (h : Avoids E ws P) (hQ : ∀ c, Q c → P c) : Avoids E ws Q :=
  fun w hw => ⟨(h w hw).1, fun l hl c hs hc => (h w hw).2 l hl c hs (hQ c hc)⟩

theorem maybeSep_char {P : Char → Prop} {i j : Nat} (h : MaybeSep s i j) (hj : CharAt s P j) : CharAt s (fun c => c ∈ seps ∨ P c) i := by
  rcases h with rfl | ⟨rfl, c, h1, h2, _⟩
  · obtain ⟨c, h1, h2⟩ := hj; exact ⟨c, h1, .inr h2⟩
  · exact ⟨c, h1, .inl h2⟩

theorem digits_char {i j : Nat} (h : i < j ∧ AllOf s (Digit E) i j) : CharAt s (Digit E) i := h.2 i (by omega) h.1

/-! ## The body shared by S01E02 and 1x02 -/

/-- `@?marker@?(\d+)` -/
def RxEnv.joinRe (E : RxEnv) (ws : List Str) : Re := .cat [dashRe, .grp 4 (E.words ws), dashRe, .grp 2 E.digits]

theorem mem_join {ws : List Str} {b j : Nat} {c c' : Caps} : (j, c') ∈ (E.joinRe ws).exec s b c ↔
    ∃ x y d, MaybeSep s b x ∧ MarkAt E ws s x y ∧ MaybeSep s y d ∧ (d < j ∧ AllOf s (Digit E) d j) ∧ c' = (2, (d, j)) :: (4, (x, y)) :: c := by
  simp only [RxEnv.joinRe, Re.cat, mem_seq, mem_dash, mem_mark, mem_run, mem_eps]
  constructor
  · rintro ⟨x, c1, ⟨h1, rfl⟩, y, c2, ⟨h2, rfl⟩, d, c3, ⟨h3, rfl⟩, k, c4, ⟨h4, rfl⟩, rfl, rfl⟩
    exact ⟨x, y, d, h1, h2, h3, h4, rfl⟩
  · rintro ⟨x, y, d, h1, h2, h3, h4, rfl⟩
    exact ⟨x, c, ⟨h1, rfl⟩, y, _, ⟨h2, rfl⟩, d, _, ⟨h3, rfl⟩, j, _, ⟨h4, rfl⟩, rfl, rfl⟩

theorem joined_head (hE : Usual E) {ws : List Str} (hw : ∀ w ∈ ws, Lettered w) {b d j : Nat} {c : Caps} (h : JoinAt E ws s b d) (hn : d < j ∧ AllOf s (Digit E) d j)
    (hj : NoDigitAt E s j) : ∃ x y, ((E.joinRe ws).exec s b c).head? = some (j, (2, (d, j)) :: (4, (x, y)) :: c) := by
  obtain ⟨x, y, h1, h2, h3⟩ := h
  have hav := lettered_avoids hE hw
  have hx : CharAt s (fun c => ¬ (c ∈ seps ∨ Digit E c)) x := (h2.first hav).2 x (by omega) (h2.first hav).1
  refine ⟨x, y, seq_head (dash_head h1 ?_) (seq_first (mem_mark.2 ⟨h2, rfl⟩) (seq_head (dash_head h3 ?_) (seq_head (grp_head (digits_head hn.1 hn.2 hj)) eps_head)) ?_)⟩
  · rintro rfl z hz hs
    obtain ⟨z', hz', h4⟩ := hx
    rw [hz, Option.some.injEq] at hz'; subst hz'
    exact h4 (.inl hs)
  · rintro rfl z hz hs
    obtain ⟨z', hz', h4⟩ := digits_char hn
    rw [hz, Option.some.injEq] at hz'; subst hz'
    exact sep_not_digit hE hs h4
  · intro k' c' g0 g2
    obtain ⟨g1, rfl⟩ := mem_mark.1 g0
    obtain ⟨⟨e, c2⟩, g2⟩ := List.exists_mem_of_ne_nil _ g2
    change (e, c2) ∈ (Re.cat [dashRe, .grp 2 E.digits]).exec s k' _ at g2
    simp only [Re.cat, mem_seq, mem_dash, mem_run, mem_eps] at g2
    obtain ⟨d', c3, ⟨g3, rfl⟩, k, c4, ⟨g4, rfl⟩, rfl, rfl⟩ := g2
    obtain rfl := mark_unique hav h2 g1 (maybeSep_char h3 (digits_char hn)) (maybeSep_char g3 (digits_char g4))
    exact ⟨rfl, rfl⟩

/-- It begins with no digit. -/
theorem join_start (hE : Usual E) {ws : List Str} (hw : ∀ w ∈ ws, Lettered w) {b d : Nat} (h : JoinAt E ws s b d) : CharAt s (fun c => ¬ Digit E c) b := by
  obtain ⟨x, y, h1, h2, _⟩ := h
  have hav := lettered_avoids hE hw
  obtain ⟨c, h3, h4⟩ := maybeSep_char h1 ((h2.first hav).2 x (by omega) (h2.first hav).1)
  refine ⟨c, h3, fun hd => ?_⟩
  rcases h4 with h4 | h4
  · exact sep_not_digit hE h4 hd
  · exact h4 (.inr hd)

/-! ## The patterns -/

theorem mem_seasonEpisode {C : EpisodeConfig} {i j : Nat} {c c' : Caps} : (j, c') ∈ (E.seasonEpisode C).exec s i c ↔
    ∃ a b x y d, SeasonEpisodeAt E C s i a b d j ∧ MaybeSep s b x ∧ MarkAt E (C.episodeMarkers ++ C.discMarkers) s x y ∧ MaybeSep s y d ∧
      c' = (2, (d, j)) :: (4, (x, y)) :: (1, (a, b)) :: (3, (i, a)) :: c := by
  change (j, c') ∈ (Re.seq (.grp 3 (E.words C.seasonMarkers)) (.seq (.grp 1 E.digits) (E.joinRe (C.episodeMarkers ++ C.discMarkers)))).exec s i c ↔ _
  simp only [mem_seq, mem_mark, mem_run, mem_join]
  constructor
  · rintro ⟨a, c1, ⟨h1, rfl⟩, b, c2, ⟨h2, rfl⟩, x, y, d, h3, h4, h5, h6, rfl⟩
    exact ⟨a, b, x, y, d, ⟨h1, h2, ⟨x, y, h3, h4, h5⟩, h6⟩, h3, h4, h5, rfl⟩
  · rintro ⟨a, b, x, y, d, ⟨h1, h2, _, h6⟩, h3, h4, h5, rfl⟩
    exact ⟨a, _, ⟨h1, rfl⟩, b, _, ⟨h2, rfl⟩, x, y, d, h3, h4, h5, h6, rfl⟩

theorem mem_crossed {C : EpisodeConfig} {i j : Nat} {c c' : Caps} : (j, c') ∈ (E.crossed C).exec s i c ↔
    ∃ b x y d, CrossedAt E C s i b d j ∧ MaybeSep s b x ∧ MarkAt E C.seasonEpMarkers s x y ∧ MaybeSep s y d ∧
      c' = (2, (d, j)) :: (4, (x, y)) :: (1, (i, b)) :: c := by
  change (j, c') ∈ (Re.seq (.grp 1 E.digits) (E.joinRe C.seasonEpMarkers)).exec s i c ↔ _
  simp only [mem_seq, mem_run, mem_join]
  constructor
  · rintro ⟨b, c2, ⟨h2, rfl⟩, x, y, d, h3, h4, h5, h6, rfl⟩
    exact ⟨b, x, y, d, ⟨h2, ⟨x, y, h3, h4, h5⟩, h6⟩, h3, h4, h5, rfl⟩
  · rintro ⟨b, x, y, d, ⟨h2, _, h6⟩, h3, h4, h5, rfl⟩
    exact ⟨b, _, ⟨h2, rfl⟩, x, y, d, h3, h4, h5, h6, rfl⟩

theorem mem_marked {ws : List Str} {g n i j : Nat} {c c' : Caps} : (j, c') ∈ (Re.cat [.grp g (E.words ws), .grp n E.digits]).exec s i c ↔
    ∃ d, MoreAt E ws s i d j ∧ c' = (n, (d, j)) :: (g, (i, d)) :: c := by
  simp only [Re.cat, mem_seq, mem_mark, mem_run, mem_eps]
  constructor
  · rintro ⟨d, c1, ⟨h1, rfl⟩, k, c2, ⟨h2, rfl⟩, rfl, rfl⟩
    exact ⟨d, ⟨h1, h2⟩, rfl⟩
  · rintro ⟨d, ⟨h1, h2⟩, rfl⟩
    exact ⟨d, _, ⟨h1, rfl⟩, j, _, ⟨h2, rfl⟩, rfl, rfl⟩

theorem marked_head {ws : List Str} (hw : Avoids E ws (Digit E)) {g n i d j : Nat} {c : Caps} (h : MoreAt E ws s i d j) (hj : NoDigitAt E s j) :
    ((Re.cat [.grp g (E.words ws), .grp n E.digits]).exec s i c).head? = some (j, (n, (d, j)) :: (g, (i, d)) :: c) := by
  refine seq_first (mem_mark.2 ⟨h.mark, rfl⟩) (seq_head (grp_head (digits_head h.number.1 h.number.2 hj)) eps_head) ?_
  intro k' c' g0 g2
  obtain ⟨g1, rfl⟩ := mem_mark.1 g0
  obtain ⟨⟨e, c2⟩, g2⟩ := List.exists_mem_of_ne_nil _ g2
  change (e, c2) ∈ (Re.cat [.grp n E.digits]).exec s k' _ at g2
  simp only [Re.cat, mem_seq, mem_run, mem_eps] at g2
  obtain ⟨k, c4, ⟨g4, rfl⟩, rfl, rfl⟩ := g2
  obtain rfl := mark_unique hw h.mark g1 (digits_char h.number) (digits_char g4)
  exact ⟨rfl, rfl⟩

theorem seasonEpisode_head (hE : Usual E) {C : EpisodeConfig} (hC : PlainEpisodes C) {i a b d j : Nat} {c : Caps} (h : SeasonEpisodeAt E C s i a b d j)
    (hj : NoDigitAt E s j) : ∃ x y, ((E.seasonEpisode C).exec s i c).head? = some (j, (2, (d, j)) :: (4, (x, y)) :: (1, (a, b)) :: (3, (i, a)) :: c) := by
  have hm1 : ∀ w ∈ C.seasonMarkers, Lettered w := fun w h => hC.markers w (by simp [h])
  have hm2 : ∀ w ∈ C.episodeMarkers ++ C.discMarkers, Lettered w := fun w h => hC.markers w (by
    rcases List.mem_append.1 h with h | h <;> simp [h])
  have hb : NoDigitAt E s b := by
    intro z hz hd
    obtain ⟨z', hz', h4⟩ := join_start hE hm2 h.join
    rw [hz, Option.some.injEq] at hz'; subst hz'
    exact h4 hd
  obtain ⟨x, y, hh⟩ := joined_head (c := (1, (a, b)) :: (3, (i, a)) :: c) hE hm2 h.join h.episode hj
  refine ⟨x, y, seq_first (mem_mark.2 ⟨h.mark, rfl⟩) (seq_head (grp_head (digits_head h.season.1 h.season.2 hb)) hh) ?_⟩
  intro k' c' g0 g2
  obtain ⟨g1, rfl⟩ := mem_mark.1 g0
  obtain ⟨⟨e, c2⟩, g2⟩ := List.exists_mem_of_ne_nil _ g2
  change (e, c2) ∈ (Re.seq (.grp 1 E.digits) (E.joinRe (C.episodeMarkers ++ C.discMarkers))).exec s k' _ at g2
  simp only [mem_seq, mem_run] at g2
  obtain ⟨k, c4, ⟨g4, rfl⟩, _⟩ := g2
  have hav := (lettered_avoids hE hm1).mono (Q := Digit E) fun c hc => .inr hc
  obtain rfl := mark_unique hav h.mark g1 (digits_char h.season) (digits_char g4)
  exact ⟨rfl, rfl⟩

theorem crossed_head (hE : Usual E) {C : EpisodeConfig} (hC : PlainEpisodes C) {i b d j : Nat} {c : Caps} (h : CrossedAt E C s i b d j)
    (hj : NoDigitAt E s j) : ∃ x y, ((E.crossed C).exec s i c).head? = some (j, (2, (d, j)) :: (4, (x, y)) :: (1, (i, b)) :: c) := by
  have hm2 : ∀ w ∈ C.seasonEpMarkers, Lettered w := fun w h => hC.markers w (by simp [h])
  have hb : NoDigitAt E s b := by
    intro z hz hd
    obtain ⟨z', hz', h4⟩ := join_start hE hm2 h.join
    rw [hz, Option.some.injEq] at hz'; subst hz'
    exact h4 hd
  obtain ⟨x, y, hh⟩ := joined_head (c := (1, (i, b)) :: c) hE hm2 h.join h.episode hj
  exact ⟨x, y, seq_head (grp_head (digits_head h.season.1 h.season.2 hb)) hh⟩

end
end Guessit
