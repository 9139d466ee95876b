import Verif.Props.SeasonsOnly

/-! # C128: episodes written as numbers of some digits -/

namespace Guessit
open Spec Re

section
variable {E : RxEnv} {C : EpisodeConfig} {s : Str}

theorem mem_few {lo hi i j : Nat} {c c' : Caps} : (j, c') ∈ (digitsRe E.u lo hi).exec s i c ↔ Few E lo hi s i j ∧ c' = c := by
  unfold digitsRe
  rw [mem_rep_chr_bounded, allIn_iff (P := Digit E) (fun _ => Iff.rfl)]
  constructor
  · rintro ⟨rfl, h1, h2, h3⟩; exact ⟨⟨h1, h2, h3⟩, rfl⟩
  · rintro ⟨⟨h1, h2, h3⟩, rfl⟩; exact ⟨rfl, h1, h2, h3⟩

theorem mem_fewGroup {n lo hi i j : Nat} {c c' : Caps} : (j, c') ∈ (Re.grp n (digitsRe E.u lo hi)).exec s i c ↔ Few E lo hi s i j ∧ c' = (n, (i, j)) :: c := by
  rw [mem_grp]
  constructor
  · rintro ⟨c1, h1, rfl⟩
    obtain ⟨h2, rfl⟩ := mem_few.1 h1
    exact ⟨h2, rfl⟩
  · rintro ⟨h, rfl⟩
    exact ⟨c, mem_few.2 ⟨h, rfl⟩, rfl⟩

theorem few_head {lo hi i j : Nat} {c : Caps} (h : Few E lo hi s i j) (hj : j = i + hi ∨ NoDigitAt E s j) :
    ((digitsRe E.u lo hi).exec s i c).head? = some (j, c) := by
  have hmem : (j, c) ∈ (digitsRe E.u lo hi).exec s i c := mem_few.2 ⟨h, rfl⟩
  have hsort : ((digitsRe E.u lo hi).exec s i c).Pairwise (fun x y => y.1 < x.1) := by
    have := @repExec_chr_sorted s E.u.isDigit hi lo i c
    simpa only [digitsRe, exec, Option.getD_some] using this
  cases hh : ((digitsRe E.u lo hi).exec s i c).head? with
  | none => rw [List.head?_eq_none_iff] at hh; rw [hh] at hmem; cases hmem
  | some x =>
    obtain ⟨k, c'⟩ := x
    obtain ⟨h1, h2⟩ := head_max hsort hh
    obtain ⟨h3, rfl⟩ := mem_few.1 h1
    have h5 := h2 _ hmem
    simp only at h5
    by_cases hk : k = j
    · rw [hk]
    · have h6 := h3.most
      rcases hj with hj | hj
      · omega
      · obtain ⟨x, hx, hp⟩ := h3.digits j (by have := h.least; omega) (by omega)
        exact absurd hp (hj x hx)

theorem Spec.Few.run {lo hi d j : Nat} (h : Few E lo hi s d j) (hlo : 0 < lo) : d < j ∧ AllOf s (Digit E) d j := ⟨by have := h.least; omega, h.digits⟩

theorem e_avoids (hE : Usual E) : Avoids E [c!"e"] fun c => c ∈ seps ∨ Digit E c := lettered_avoids hE fun w h => by
  obtain rfl : w = c!"e" := by simpa using h
  exact ⟨by decide, by decide⟩

theorem mark_e {i d : Nat} (h : MarkAt E [c!"e"] s i d) : d = i + 1 ∧ LiteralAt E s c!"e" i := by
  obtain ⟨w, h1, h2, h3⟩ := h
  obtain rfl : w = c!"e" := by simpa using h1
  exact ⟨h3, h2⟩

theorem e_char (hE : Usual E) {i : Nat} (h : LiteralAt E s c!"e" i) : CharAt s (fun c => ¬ (c ∈ seps ∨ Digit E c)) i := by
  have : MarkAt E [c!"e"] s i (i + 1) := ⟨c!"e", by simp, h, rfl⟩
  exact (this.first (e_avoids hE)).2 i (by omega) (by omega)

/-- What the first pattern matches. -/
theorem numbered_sound {k : Numbering} {i j : Nat} {c : Caps} (h : (j, c) ∈ (k.firstRe E).exec s i []) :
    ∃ season d, NumberedAt E k s i season d j ∧ c.lookup 1 = season ∧ c.lookup 2 = some (d, j) ∧ c.lookup 5 = none ∧ c.lookup 6 = none ∧ c.lookup 8 = none := by
  cases k with
  | two =>
    obtain ⟨h1, rfl⟩ := mem_fewGroup.1 h
    exact ⟨none, i, ⟨rfl, rfl, h1⟩, rfl, rfl, rfl, rfl, rfl⟩
  | long =>
    obtain ⟨h1, rfl⟩ := mem_fewGroup.1 h
    exact ⟨none, i, ⟨rfl, rfl, h1⟩, rfl, rfl, rfl, rfl, rfl⟩
  | one =>
    obtain ⟨h1, rfl⟩ := mem_fewGroup.1 h
    exact ⟨none, i, ⟨rfl, rfl, h1⟩, rfl, rfl, rfl, rfl, rfl⟩
  | marked =>
    simp only [Numbering.firstRe, Re.cat, mem_seq, mem_fewGroup, mem_eps] at h
    obtain ⟨b, c1, h1, d, c2, h2, j', c3, ⟨h3, rfl⟩, rfl, rfl⟩ := h
    obtain ⟨c4, h4, rfl⟩ := mem_grp.1 h2
    obtain ⟨h5, rfl, rfl⟩ := mem_word.1 h4
    have hmark : MarkAt E [c!"e"] s b (b + 1) := ⟨c!"e", by simp, h5, rfl⟩
    rcases mem_opt h1 with ⟨rfl, rfl⟩ | h1
    · exact ⟨none, b + 1, ⟨.inl ⟨rfl, hmark⟩, h3⟩, rfl, rfl, rfl, rfl, rfl⟩
    · obtain ⟨h6, rfl⟩ := mem_fewGroup.1 h1
      exact ⟨some (i, b), b + 1, ⟨.inr ⟨b, rfl, h6, hmark⟩, h3⟩, rfl, rfl, rfl, rfl, rfl⟩
  | duplicate =>
    simp only [Numbering.firstRe, mem_seq, mem_fewGroup] at h
    obtain ⟨d, c1, ⟨h1, rfl⟩, h2, rfl⟩ := h
    exact ⟨some (i, d), d, ⟨rfl, h1, h2⟩, rfl, rfl, rfl, rfl, rfl⟩

/-- Where it is written and no digit follows, it is what is matched. -/
theorem numbered_head (hE : Usual E) {k : Numbering} {i d j : Nat} {season : Option (Nat × Nat)} (h : NumberedAt E k s i season d j) (hj : NoDigitAt E s j) :
    ∃ c, (k.firstRe E).matchAt s i = some (j, c) ∧ c.lookup 1 = season ∧ c.lookup 2 = some (d, j) ∧ c.lookup 5 = none ∧ c.lookup 6 = none ∧ c.lookup 8 = none := by
  cases k with
  | two =>
    obtain ⟨rfl, rfl, h⟩ := h
    exact ⟨_, matchAt_head (grp_head (few_head h (.inr hj))), rfl, rfl, rfl, rfl, rfl⟩
  | long =>
    obtain ⟨rfl, rfl, h⟩ := h
    exact ⟨_, matchAt_head (grp_head (few_head h (.inr hj))), rfl, rfl, rfl, rfl, rfl⟩
  | one =>
    obtain ⟨rfl, rfl, h⟩ := h
    exact ⟨_, matchAt_head (grp_head (few_head h (.inr hj))), rfl, rfl, rfl, rfl, rfl⟩
  | duplicate =>
    obtain ⟨rfl, h1, h2⟩ := h
    have l1 := h1.least
    have l2 := h1.most
    have l3 := h2.least
    have l4 := h2.most
    have h2' : ((Re.grp 2 (digitsRe E.u 2 2)).exec s d [(1, (i, d))]).head? = some (j, [(2, (d, j)), (1, (i, d))]) := grp_head (few_head h2 (.inr hj))
    by_cases hd : d = i + 2
    · exact ⟨_, matchAt_head (seq_head (grp_head (few_head h1 (.inl hd))) h2'), rfl, rfl, rfl, rfl, rfl⟩
    · refine ⟨_, matchAt_head (seq_first (mem_fewGroup.2 ⟨h1, rfl⟩) h2' ?_), rfl, rfl, rfl, rfl, rfl⟩
      intro k' c' g0 g2
      obtain ⟨g1, rfl⟩ := mem_fewGroup.1 g0
      obtain ⟨⟨e, c2⟩, g2⟩ := List.exists_mem_of_ne_nil _ g2
      obtain ⟨g3, rfl⟩ := mem_fewGroup.1 g2
      have m1 := g1.least
      have m2 := g1.most
      have m3 := g3.least
      by_cases hk : k' = d
      · subst hk; exact ⟨rfl, rfl⟩
      · obtain ⟨x, hx, hp⟩ := g3.digits j (by omega) (by omega)
        exact absurd hp (hj x hx)
  | marked =>
    obtain ⟨hm, h2⟩ := h
    -- what follows the season
    have tail : ∀ {b : Nat} {c : Caps}, MarkAt E [c!"e"] s b d →
        ((Re.cat [.grp 4 (E.word c!"e"), .grp 2 (digitsRe E.u 1 4)]).exec s b c).head? = some (j, (2, (d, j)) :: (4, (b, d)) :: c) := by
      intro b c hb
      obtain ⟨rfl, hb'⟩ := mark_e hb
      exact seq_head (grp_head (word_head hb')) (seq_head (grp_head (few_head h2 (.inr hj))) eps_head)
    have tail_e : ∀ {b : Nat} {c : Caps}, (Re.cat [.grp 4 (E.word c!"e"), .grp 2 (digitsRe E.u 1 4)]).exec s b c ≠ [] → LiteralAt E s c!"e" b := by
      intro b c hne
      obtain ⟨⟨e, c2⟩, g2⟩ := List.exists_mem_of_ne_nil _ hne
      simp only [Re.cat, mem_seq] at g2
      obtain ⟨k, c3, g3, _⟩ := g2
      obtain ⟨c4, g4, rfl⟩ := mem_grp.1 g3
      exact (mem_word.1 g4).1
    have hopt : ∀ j c1, (j, c1) ∈ (Re.grp 1 (digitsRe E.u 1 2)).exec s i [] → j ≠ i := by
      intro j c1 hh
      obtain ⟨hh, _⟩ := mem_fewGroup.1 hh
      have := hh.least
      omega
    rcases hm with ⟨rfl, hm⟩ | ⟨b, rfl, h1, hm⟩
    · refine ⟨[(2, (d, j)), (4, (i, d))], matchAt_head (seq_first ((mem_optional hopt).2 (.inr ⟨rfl, rfl⟩)) (tail hm) ?_), rfl, rfl, rfl, rfl, rfl⟩
      intro k' c' g0 g2
      rcases mem_opt g0 with ⟨rfl, rfl⟩ | g0
      · exact ⟨rfl, rfl⟩
      · obtain ⟨g5, rfl⟩ := mem_fewGroup.1 g0
        exact ((e_char hE (mark_e hm).2).false (digits_char (g5.run (by decide))) fun c a b => a (.inr b)).elim
    · refine ⟨[(2, (d, j)), (4, (b, d)), (1, (i, b))], matchAt_head (seq_first ((mem_optional hopt).2 (.inl (mem_fewGroup.2 ⟨h1, rfl⟩))) (tail hm) ?_), rfl, rfl, rfl, rfl, rfl⟩
      intro k' c' g0 g2
      have g3 := e_char hE (tail_e g2)
      have g4 := e_char hE (mark_e hm).2
      have m1 := h1.least
      rcases mem_opt g0 with ⟨rfl, rfl⟩ | g0
      · exact (g3.false (digits_char (h1.run (by decide))) fun c a b => a (.inr b)).elim
      · obtain ⟨g5, rfl⟩ := mem_fewGroup.1 g0
        have m2 := g5.least
        rcases Nat.lt_trichotomy k' b with hlt | rfl | hlt
        · exact (g3.false (h1.digits k' (by omega) hlt) fun c a b => a (.inr b)).elim
        · exact ⟨rfl, rfl⟩
        · exact (g4.false (g5.digits b (by omega) hlt) fun c a b => a (.inr b)).elim

end
end Guessit
