import Verif.Spec.Recognise
import Verif.Model.Website

/-! # Websites (C124) -/

namespace Guessit.Spec

/-- `R` holds `n` times in a row, from `i` to `j`. -/
inductive Repeated (R : Nat → Nat → Prop) : Nat → Nat → Nat → Prop
  | zero {i} : Repeated R 0 i i
  | succ {n i k j} : R i k → Repeated R n k j → Repeated R (n + 1) i j

/-- A letter from `a` to `z` or a digit from `0` to `9`, in any case. -/
def AlnumChar (E : RxEnv) (c : Char) : Prop := ∃ l ∈ c!"abcdefghijklmnopqrstuvwxyz0123456789", E.same l c = true

/-- One of them or a hyphen. -/
def LabelChar (E : RxEnv) (c : Char) : Prop := AlnumChar E c ∨ E.same '-' c = true

/-- One of some words, from `i` to `j`. -/
def OneOfAt (E : RxEnv) (ws : List Str) (s : Str) (i j : Nat) : Prop := ∃ w ∈ ws, LiteralAt E s w i ∧ j = i + w.length

/-- One of some words and a dot, from `i` to `j`. -/
def WordDotAt (E : RxEnv) (ws : List Str) (s : Str) (i j : Nat) : Prop := ∃ k, OneOfAt E ws s i k ∧ s[k]? = some '.' ∧ j = k + 1

/-- A label and a dot, from `i` to `j`. -/
def LabelDotAt (E : RxEnv) (s : Str) (i j : Nat) : Prop := ∃ k, i < k ∧ AllOf s (LabelChar E) i k ∧ s[k]? = some '.' ∧ j = k + 1

/-- The three ways to write a website. -/
inductive SiteForm where
  | known | safe | prefixed
  deriving DecidableEq

/-- A website is written from `i` to `j`: `www.some.site.tv`, `site.com` (or `www.site.com`), `site.co.uk` (or `www.site.co.uk`). -/
def SiteAt (E : RxEnv) (C : SiteConfig) (s : Str) (i j : Nat) : SiteForm → Prop
  | .known => ∃ n m a b, 1 ≤ n ∧ Repeated (WordDotAt E C.subdomains s) n i a ∧ 1 ≤ m ∧ Repeated (LabelDotAt E s) m a b ∧ OneOfAt E C.tlds s b j
  | .safe => ∃ n a b, Repeated (WordDotAt E C.subdomains s) n i a ∧ LabelDotAt E s a b ∧ OneOfAt E C.safeTlds s b j
  | .prefixed => ∃ n m a b d, Repeated (WordDotAt E C.subdomains s) n i a ∧ LabelDotAt E s a b ∧ 1 ≤ m ∧ Repeated (WordDotAt E C.prefixes s) m b d ∧
      OneOfAt E C.tlds s d j

/-- No letter or digit stands just before `i`. -/
def ApartBefore (E : RxEnv) (s : Str) (i : Nat) : Prop := i = 0 ∨ CharAt s (fun c => ¬ AlnumChar E c) (i - 1)
/-- No letter or digit stands at `j`. -/
def ApartAfter (E : RxEnv) (s : Str) (j : Nat) : Prop := j = s.length ∨ CharAt s (fun c => ¬ AlnumChar E c) j

end Guessit.Spec
