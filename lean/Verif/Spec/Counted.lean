import Verif.Spec.Recognise

/-! # Numbers written in the name: weeks, parts, discs, bonuses and films (C162) -/

namespace Guessit.Spec

/-- Under the name `n` the number `k` is written somewhere in `s`, as that property is written. -/
def NumberWritten (E : RxEnv) (s : Str) (n : Str) (k : Int) : Prop := ∃ a b j : Nat, k = j ∧
  ((n = c!"week" ∧ Number E s a b j ∧ 1 ≤ j ∧ j ≤ 52 ∧ FreeAfter s b ∧
      ∃ i, LiteralAt E s c!"week" i ∧ a = i + 5 ∧ CharAt s (fun c => c ∈ seps ∧ c ≠ '/' ∧ c ≠ '\\') (i + 4)) ∨
   (n = c!"cd" ∧ Number E s a b j ∧ 1 ≤ j ∧ j ≤ 99 ∧ ∃ i, DiscAt E s i a b) ∨
   (n = c!"cd_count" ∧ Number E s a b j ∧ 1 ≤ j ∧ j ≤ 99 ∧ (CountedAt E s a b ∨ ∃ i x y, DiscAt E s i x y ∧ OfAt E s y a b)) ∨
   (n = c!"bonus" ∧ Number E s a b j ∧ ∃ i, a = i + 1 ∧ CharAt s (fun c => E.same 'x' c = true) i ∧ Standing s i b) ∨
   (n = c!"film" ∧ Number E s a b j ∧ b ≤ a + 2 ∧ ∃ i, a = i + 1 ∧ CharAt s (fun c => E.same 'f' c = true) i ∧ Standing s i b) ∨
   (n = c!"part" ∧ 1 ≤ j ∧ j ≤ 99 ∧ (∃ i, PartAt E s i a ∧ Standing s i b) ∧
      ((Number E s a b j ∧ b ≤ a + 4) ∨ (FreeBefore s a ∧ Worded E s a b j))))

end Guessit.Spec
