import Verif.Props.UltraHd
import Verif.Props.SubtitlesExamples

/-! # Examples for C94 -/

namespace Guessit
open Spec

def valMt (id a b : Nat) (name v : Str) (tags : List Str := []) : Mt := { wordMt id a b tags name with val := some (.str v) }

/-- `UHD HDR BD/x BD y UHD/BD 4k/BD`: in the name of the first directory, there is an Ultra HD just before the Blu-ray; in the second one, text
before the Ultra HD; in the third one, 2160p. -/
def uhdState : Ms where
  input := c!"UHD HDR BD/x BD y UHD/BD 4k/BD"
  live := [valMt 1 0 3 c!"other" c!"Ultra HD", valMt 2 4 7 c!"other" c!"HDR10" [c!"uhdbluray-neighbor"], valMt 3 8 10 c!"source" c!"Blu-ray",
    valMt 4 13 15 c!"source" c!"Blu-ray", valMt 5 18 21 c!"other" c!"Ultra HD", valMt 6 22 24 c!"source" c!"Blu-ray",
    valMt 7 25 27 c!"screen_size" c!"2160p", valMt 8 28 30 c!"source" c!"Blu-ray"]
  markers := marksOf [] c!"([{" c!")]}" c!"UHD HDR BD/x BD y UHD/BD 4k/BD"

example : (ultraHdBluray uhdState).live.map (fun m => (m.start, m.priv, m.value uhdState.input)) =
    [(0, true, .str c!"Ultra HD"), (4, false, .str c!"HDR10"), (13, false, .str c!"Blu-ray"), (18, false, .str c!"Ultra HD"),
      (25, false, .str c!"2160p"), (28, false, .str c!"Blu-ray"), (8, false, .str c!"Ultra HD Blu-ray"), (22, false, .str c!"Ultra HD Blu-ray")] := by
  decide +kernel

theorem uhdState_sound : Sound uhdState := sound_of (by decide) (by decide)

/-- The hypotheses of `C94_merged` are met. -/
example : Laid uhdState ∧
    (∀ part, IsPart uhdState part → ∀ x ∈ uhdState.live, ∀ y ∈ uhdState.live, IsBluray uhdState.input x → IsBluray uhdState.input y →
      Overlaps part x → Overlaps part y → x = y) ∧
    (∀ p q x, IsPart uhdState p → IsPart uhdState q → x ∈ uhdState.live → IsUltra uhdState.input x → Overlaps p x → Overlaps q x → p = q) := by
  have hm : uhdState.markers = [mark c!"path" 0 10, mark c!"path" 11 21, mark c!"path" 22 27, mark c!"path" 28 30] := by rfl
  have hp : ∀ p, IsPart uhdState p → p = mark c!"path" 0 10 ∨ p = mark c!"path" 11 21 ∨ p = mark c!"path" 22 27 ∨ p = mark c!"path" 28 30 := by
    intro p hp
    have := hp.1
    rw [hm] at this
    simpa using this
  have a1 : ∀ i ∈ [(0, 10), (11, 21), (22, 27), (28, 30)], ∀ x ∈ uhdState.live, ∀ y ∈ uhdState.live, x.name = some c!"source" → y.name = some c!"source" →
      x.start < i.2 ∧ i.1 < x.stop → y.start < i.2 ∧ i.1 < y.stop → x.id = y.id := by decide
  have a2 : ∀ i ∈ [(0, 10), (11, 21), (22, 27), (28, 30)], ∀ j ∈ [(0, 10), (11, 21), (22, 27), (28, 30)], ∀ x ∈ uhdState.live,
      x.start < i.2 ∧ i.1 < x.stop → x.start < j.2 ∧ j.1 < x.stop → i = j := by decide
  have hi : ∀ p, IsPart uhdState p → (p.start, p.stop) ∈ [(0, 10), (11, 21), (22, 27), (28, 30)] ∧ p = mark c!"path" p.start p.stop := by
    intro p h
    rcases hp p h with rfl | rfl | rfl | rfl <;> exact ⟨by decide, rfl⟩
  have hid : (uhdState.live.map Mt.id).Nodup := by decide
  refine ⟨(C23_state_laid [] c!"([{" c!")]}" (by decide) uhdState uhdState_sound rfl).1, ?_, ?_⟩
  · intro part h x hx y hy bx by' ox oy
    exact eq_of_nodup_map hid hx hy (a1 _ (hi part h).1 x hx y hy bx.2.1 by'.2.1 ox oy)
  · intro p q x h h' hx _ ox oy
    have := a2 _ (hi p h).1 _ (hi q h').1 x hx ox oy
    rw [(hi p h).2, (hi q h').2]
    rw [Prod.mk.injEq] at this
    rw [this.1, this.2]

/-- One Blu-ray is an Ultra HD one, another is not. -/
example : UltraBluray uhdState (mark c!"path" 0 10) (valMt 3 8 10 c!"source" c!"Blu-ray") := by
  have hm : uhdState.markers = [mark c!"path" 0 10, mark c!"path" 11 21, mark c!"path" 22 27, mark c!"path" 28 30] := by rfl
  refine ⟨⟨by rw [hm]; simp, rfl⟩, by simp [uhdState], ⟨rfl, rfl, by decide⟩, by unfold Overlaps; decide, ?_⟩
  exact (ultraOf_iff uhdState_sound).1.1 (by decide +kernel)
example : ¬ ∃ part, UltraBluray uhdState part (valMt 8 28 30 c!"source" c!"Blu-ray") := by
  have hm : uhdState.markers = [mark c!"path" 0 10, mark c!"path" 11 21, mark c!"path" 22 27, mark c!"path" 28 30] := by rfl
  rintro ⟨part, ⟨hp, _⟩, _, _, ho, hc⟩
  rw [hm] at hp
  simp only [List.mem_cons, List.not_mem_nil, or_false] at hp
  unfold Overlaps at ho
  rcases hp with rfl | rfl | rfl | rfl
  · exact absurd ho (by decide)
  · exact absurd ho (by decide)
  · exact absurd ho (by decide)
  · exact absurd ((ultraOf_iff uhdState_sound).1.2 hc) (by decide +kernel)

/-- `BD UHD BD`, in one element. -/
def twoBlurays : Ms where
  input := c!"BD UHD BD"
  live := [valMt 1 0 2 c!"source" c!"Blu-ray", valMt 2 3 6 c!"other" c!"Ultra HD", valMt 3 7 9 c!"source" c!"Blu-ray"]
  markers := marksOf [] c!"([{" c!")]}" c!"BD UHD BD"

theorem twoBlurays_sound : Sound twoBlurays := sound_of (by decide) (by decide)

/-- C94, counterexample: with two Blu-rays in an element the condition is not enough.  The Ultra HD between them is merged in the first one;
the second one, just after it, is left as it was. -/
theorem C94_counterexample : Laid twoBlurays ∧ ∃ part x, UltraBluray twoBlurays part x ∧ x ∈ (ultraHdBluray twoBlurays).live ∧
    (ultraHdBluray twoBlurays).live.map (fun m => (m.start, m.value twoBlurays.input)) =
      [(3, .str c!"Ultra HD"), (7, .str c!"Blu-ray"), (0, .str c!"Ultra HD Blu-ray")] := by
  refine ⟨(C23_state_laid [] c!"([{" c!")]}" (by decide) twoBlurays twoBlurays_sound rfl).1, mark c!"path" 0 9, valMt 3 7 9 c!"source" c!"Blu-ray", ?_, ?_, ?_⟩
  · have hm : twoBlurays.markers = [mark c!"path" 0 9] := by rfl
    refine ⟨⟨by rw [hm]; simp, rfl⟩, by simp [twoBlurays], ⟨rfl, rfl, by decide⟩, by unfold Overlaps; decide, ?_⟩
    exact (ultraOf_iff twoBlurays_sound).1.1 (by decide +kernel)
  · exact List.mem_of_getElem? (i := 1) (by rfl)
  · decide +kernel

end Guessit
