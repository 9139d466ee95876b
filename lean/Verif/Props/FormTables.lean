import Verif.Props.FormFound
import Verif.Props.PhraseExamples
import Verif.Spec.FormTables

/-! # C140: sources; C136 and C139: `HDRip` and `hevc10` -/

namespace Guessit
open Spec Re

section
variable {E : RxEnv} {s : Str}

theorem sources_agree : formTableAgree sourceTable sourceWays = true := by decide +kernel
theorem hdRip_agree : formTableAgree [hdRipEntry] hdRipWays = true := by decide +kernel
theorem hevc_agree : formTableAgree [hevcEntry] hevcWays = true := by decide +kernel

theorem eitherSide_iff {V : Type} {m : RxMatch V} : eitherSide s m = true ↔ FreeBefore s m.start ∨ FreeAfter s m.stop := by
  have hb : charsBefore seps s m.start = true ↔ FreeBefore s m.start := by
    unfold charsBefore FreeBefore CharAt
    by_cases h : m.start = 0
    · simp [h]
    · rw [if_neg (by omega), any_contains]; simp only [h, false_or]
  rw [eitherSide, Bool.or_eq_true, hb, freeAfter_iff]

theorem eitherSide_congr (s : Str) (m m' : RxMatch Str) (h1 : m.start = m'.start) (h2 : m.stop = m'.stop) : eitherSide s m = eitherSide s m' := by
  simp only [eitherSide, h1, h2]

/-- What is found is a part of the longest way of its expression to write a source from where it begins, with a separator or an end on one side at least. -/
theorem C140_sound (hE : Usual E) (hT : Themselves E) {m : RxMatch Str} (hm : m ∈ sourceFound E s) :
    ∃ v ∈ sourceWays, ∃ ws ∈ v, ∃ w ∈ ws, ∃ i, w.LongestAt E ws s i ∧ (FreeBefore s i ∨ FreeAfter s (w.stop i)) ∧ ∃ x ∈ w.parts, m = x.found i := by
  obtain ⟨v, h1, ws, h2, w, h3, i, h4, h5, h6⟩ := forms_sound hE hT eitherSide_congr sources_agree hm
  exact ⟨v, h1, ws, h2, w, h3, i, h4, eitherSide_iff.1 h5, h6⟩

/-- All the parts of what is written are found, if no other way of the same expression is written across its start. -/
theorem C140_found (hE : Usual E) (hT : Themselves E) {v : List (List Way)} (h0 : v ∈ sourceWays) {ws : List Way} (h1 : ws ∈ v) {w : Way} (hw : w ∈ ws) {i : Nat}
    (h2 : w.LongestAt E ws s i) (h3 : FreeBefore s i ∨ FreeAfter s (w.stop i)) (h4 : NoneAcross E ws s i) : ∀ x ∈ w.parts, x.found i ∈ sourceFound E s :=
  fun _ hx => forms_complete hE hT eitherSide_congr sources_agree h0 h1 hw h2 (eitherSide_iff.2 h3) h4 hx

/-- Nothing is ever written across the start but for `PPV`, `PDTV` and `DVD`. -/
theorem C140_across (hE : Usual E) (hT : Themselves E) {v : List (List Way)} (h0 : v ∈ sourceWays) {ws : List Way} (h1 : ws ∈ v)
    (hx : ∀ w ∈ ws, w.text ∉ [c!"ppv", c!"pdtv", c!"dvd"]) {w : Way} (hw : w ∈ ws) {i : Nat} (h2 : w.At E s i) : NoneAcross E ws s i := by
  have hall : (sourceWays.all fun v => v.all fun ws => apartWays ws || ws.any fun w => [c!"ppv", c!"pdtv", c!"dvd"].contains w.text) = true := by decide +kernel
  have := List.all_eq_true.1 (List.all_eq_true.1 hall v h0) ws h1
  rw [Bool.or_eq_true] at this
  rcases this with h | h
  · exact apart_ways hE hT h hw h2
  · obtain ⟨w', g1, g2⟩ := List.any_eq_true.1 h
    exact absurd (List.contains_iff_mem.1 g2) (hx w' g1)

/-- The same expression, ignoring `PPV`, `PDTV` and `DVD`: exactly what is written is found. -/
theorem C140_exact (hE : Usual E) (hT : Themselves E) {v : List (List Way)} (h0 : v ∈ sourceWays) {ws : List Way} (h1 : ws ∈ v)
    (hx : ∀ w ∈ ws, w.text ∉ [c!"ppv", c!"pdtv", c!"dvd"]) {w : Way} (hw : w ∈ ws) {i : Nat} (h2 : w.LongestAt E ws s i) (h3 : FreeBefore s i ∨ FreeAfter s (w.stop i)) :
    ∀ x ∈ w.parts, x.found i ∈ sourceFound E s := C140_found hE hT h0 h1 hw h2 h3 (C140_across hE hT h0 h1 hx hw h2.1)

/-- `HDRip`: the parts are found exactly when it is written and stands apart. -/
theorem C136_hdrip (hE : Usual E) (hT : Themselves E) {m : RxMatch Str} : m ∈ hdRipFound E s ↔
    ∃ i, PhraseAt E s c!"hdrip" i ∧ Standing s i (i + 5) ∧ (m = ⟨c!"other", i, i + 2, .ok c!"HD"⟩ ∨ m = ⟨c!"another", i + 2, i + 5, .ok c!"Rip"⟩) := by
  constructor
  · intro hm
    obtain ⟨v, h1, ws, h2, w, h3, i, h4, h5, h6⟩ := forms_sound hE hT (valid := surrounded) (fun s m m' a b => by simp only [surrounded, a, b]) hdRip_agree hm
    simp only [hdRipWays, List.mem_singleton] at h1; subst h1
    simp only [List.mem_singleton] at h2; subst h2
    simp only [List.mem_singleton] at h3; subst h3
    refine ⟨i, h4.1.1, standing_iff.1 h5, ?_⟩
    obtain ⟨x, hx, rfl⟩ := h6
    simp only [List.mem_cons, List.not_mem_nil, or_false] at hx
    rcases hx with rfl | rfl
    · exact .inl rfl
    · exact .inr rfl
  · rintro ⟨i, h1, h2, h3⟩
    have hw : (⟨c!"hdrip", [⟨c!"other", c!"HD", 0, 2⟩, ⟨c!"another", c!"Rip", 2, 5⟩], .anything⟩ : Way).At E s i := ⟨h1, trivial⟩
    have key := fun (x : Piece) hx => forms_complete hE hT (valid := surrounded) (fun s m m' a b => by simp only [surrounded, a, b]) hdRip_agree (v := [[⟨c!"hdrip", [⟨c!"other", c!"HD", 0, 2⟩, ⟨c!"another", c!"Rip", 2, 5⟩], .anything⟩]])
      (by decide) (List.mem_singleton.2 rfl) (List.mem_singleton.2 rfl) ⟨hw, fun x hx _ => by rw [List.mem_singleton] at hx; rw [hx]⟩ (standing_iff.2 h2)
      (apart_ways hE hT (by decide) (List.mem_singleton.2 rfl) hw) (x := x) hx
    rcases h3 with rfl | rfl
    · exact key ⟨c!"other", c!"HD", 0, 2⟩ (by decide)
    · exact key ⟨c!"another", c!"Rip", 2, 5⟩ (by decide)

/-- `hevc10`: the codec and the depth are found exactly when it is written, anywhere. -/
theorem C139_hevc10 (hE : Usual E) (hT : Themselves E) {m : RxMatch Str} : m ∈ hevcFound E s ↔
    ∃ i, PhraseAt E s c!"hevc10" i ∧ (m = ⟨c!"video_codec", i, i + 4, .ok c!"H.265"⟩ ∨ m = ⟨c!"color_depth", i + 4, i + 6, .ok c!"10-bit"⟩) := by
  constructor
  · intro hm
    obtain ⟨v, h1, ws, h2, w, h3, i, h4, h5, h6⟩ := forms_sound hE hT (valid := fun _ _ => true) (fun _ _ _ _ _ => rfl) hevc_agree hm
    simp only [hevcWays, List.mem_singleton] at h1; subst h1
    simp only [List.mem_singleton] at h2; subst h2
    simp only [List.mem_singleton] at h3; subst h3
    refine ⟨i, h4.1.1, ?_⟩
    obtain ⟨x, hx, rfl⟩ := h6
    simp only [List.mem_cons, List.not_mem_nil, or_false] at hx
    rcases hx with rfl | rfl
    · exact .inl rfl
    · exact .inr rfl
  · rintro ⟨i, h1, h3⟩
    have hw : (⟨c!"hevc10", [⟨c!"video_codec", c!"H.265", 0, 4⟩, ⟨c!"color_depth", c!"10-bit", 4, 6⟩], .anything⟩ : Way).At E s i := ⟨h1, trivial⟩
    have key := fun (x : Piece) hx => forms_complete hE hT (valid := fun _ _ => true) (fun _ _ _ _ _ => rfl) hevc_agree (v := [[⟨c!"hevc10", [⟨c!"video_codec", c!"H.265", 0, 4⟩, ⟨c!"color_depth", c!"10-bit", 4, 6⟩], .anything⟩]])
      (by decide) (List.mem_singleton.2 rfl) (List.mem_singleton.2 rfl) ⟨hw, fun x hx _ => by rw [List.mem_singleton] at hx; rw [hx]⟩ rfl
      (apart_ways hE hT (by decide) (List.mem_singleton.2 rfl) hw) (x := x) hx
    rcases h3 with rfl | rfl
    · exact key ⟨c!"video_codec", c!"H.265", 0, 4⟩ (by decide)
    · exact key ⟨c!"color_depth", c!"10-bit", 4, 6⟩ (by decide)

end

/-! ## Instances -/

/-- What is shown of a find. -/
def shownPiece (m : RxMatch Str) : Str × Nat × Nat × Option Str := (m.name, m.start, m.stop, m.value.toOption)

example : (sourceFound asciiRx c!"Movie.DVDRip.WEBCap.BR-Scr.DVD-Real.TV-Dub").map shownPiece =
    [(c!"source", 36, 39, some c!"TV"), (c!"source", 6, 9, some c!"DVD"), (c!"other", 9, 12, some c!"Rip"), (c!"source", 27, 30, some c!"DVD"),
     (c!"source", 6, 10, some c!"DVD"), (c!"source", 13, 19, some c!"Web"), (c!"another", 16, 19, some c!"Rip"), (c!"source", 13, 16, some c!"Web"),
     (c!"source", 20, 23, some c!"Blu-ray"), (c!"another", 20, 22, some c!"Reencoded")] := by decide +kernel

example : (hdRipFound asciiRx c!"Movie.HDRip.xhdrip").map shownPiece = [(c!"other", 6, 8, some c!"HD"), (c!"another", 8, 11, some c!"Rip")] := by decide +kernel
example : (hevcFound asciiRx c!"Movie.xHevc10y").map shownPiece = [(c!"video_codec", 7, 11, some c!"H.265"), (c!"color_depth", 11, 13, some c!"10-bit")] := by decide +kernel

/-- The exceptions are needed: of the second `DVD` of `DVDVD` nothing is found. -/
theorem C140_exception : ∃ s, ∃ v ∈ sourceWays, ∃ ws ∈ v, ∃ w ∈ ws, ∃ i, w.LongestAt asciiRx ws s i ∧ FreeAfter s (w.stop i) ∧ ∃ x ∈ w.parts, x.found i ∉ sourceFound asciiRx s := by
  have hp : (⟨c!"dvd", [⟨c!"source", c!"DVD", 0, 3⟩], .anything⟩ : Way).At asciiRx c!"DVDVD" 2 :=
    ⟨(phrase_at asciiRx_usual (w := [.lit 'd', .lit 'v', .lit 'd']) (by decide)).2 (by decide), trivial⟩
  refine ⟨c!"DVDVD", _, List.mem_of_getElem? (i := 14) rfl, _, List.mem_of_getElem? (i := 0) rfl, ⟨c!"dvd", [⟨c!"source", c!"DVD", 0, 3⟩], .anything⟩, List.mem_of_getElem? (i := 2) rfl, 2, ⟨hp, ?_⟩,
    .inl (by decide), ⟨c!"source", c!"DVD", 0, 3⟩, by decide, fun h => ?_⟩
  · intro x hx hs
    simp only [List.mem_cons, List.not_mem_nil, or_false] at hx
    rcases hx with rfl | rfl | rfl
    · obtain ⟨c, h1, _⟩ := hs.1 6 'p' rfl; simp at h1
    · obtain ⟨c, h1, _⟩ := hs.1 5 'p' rfl; simp at h1
    · exact Nat.le_refl _
  · have := List.mem_map_of_mem (f := shownPiece) h
    revert this
    decide +kernel

end Guessit
