import Verif.Props.Website

/-! # C124: the extensions that are read, and examples -/

namespace Guessit
open Spec Re

theorem splitLines_newline (t : Str) : ∃ ls, splitLines (t ++ c!"\n") = ls ++ [[]] := by
  induction t with
  | nil => exact ⟨[[]], rfl⟩
  | cons c t ih =>
    obtain ⟨ls, h⟩ := ih
    rw [List.cons_append, splitLines]
    split
    · exact ⟨[] :: ls, by rw [h]; rfl⟩
    · rw [h]
      cases ls with
      | nil => exact absurd h (by
          clear h
          intro h
          have hlen : ∀ t : Str, 2 ≤ (splitLines (t ++ c!"\n")).length := by
            intro t
            induction t with
            | nil => decide
            | cons c t ih =>
              rw [List.cons_append, splitLines]
              split
              · simp only [List.length_cons]; omega
              · split
                · simp_all
                · simp_all
          have := hlen t
          rw [h] at this
          simp at this)
      | cons w ws => exact ⟨(c :: w) :: ws, rfl⟩

theorem splitLines_first (a b : Str) (ha : '\n' ∉ a) : splitLines (a ++ '\n' :: b) = a :: splitLines b := by
  induction a with
  | nil => simp [splitLines]
  | cons c a ih =>
    simp only [List.mem_cons, not_or] at ha
    rw [List.cons_append, splitLines, if_neg (Ne.symm ha.1), ih ha.2]

theorem strip_nil (u : Uni) : u.strip [] = [] := rfl

/-- C124: whatever the file of extensions holds, when it is a first line without `--` and more lines, each of them ended as the lines of a
text file are, the empty text is one of the extensions. -/
theorem C124_counterexample_empty (u : Uni) (first rest : Str) (h1 : '\n' ∉ first) (h2 : hasDashes first = false) :
    [] ∈ readTlds u (first ++ '\n' :: (rest ++ c!"\n")) := by
  rw [readTlds, splitLines_first _ _ h1]
  obtain ⟨ls, h⟩ := splitLines_newline rest
  rw [h, List.filter_cons_of_pos (by simp [h2]), List.map_cons, List.drop_one, List.tail_cons]
  rw [List.filter_append, List.map_append, List.mem_append]
  right
  simp [hasDashes, strip_nil]

/-- ASCII tables where upper-case letters match too. -/
def anyCase : RxEnv where
  u := asciiUni
  same := fun l c => l.toLower = c.toLower

theorem anyCase_newline : ¬ AlnumChar anyCase '\n' := by
  rintro ⟨l, hl, h⟩
  revert h
  revert l
  decide

/-- The websites that are reported, with the text of each. -/
def sites (s : Str) : List (Nat × Nat × Str) := (sitesFound anyCase defaultSites s).map fun m => (m.start, m.stop, textOf s m.start m.stop)

/-- `www` in front and an extension, a safe extension, a safe prefix. -/
example : sites c!"[www.My-Site.tv] Movie" = [(1, 15, c!"www.My-Site.tv")] := by decide +kernel
example : sites c!"Movie.Site.com - 2010" = [(6, 14, c!"Site.com")] := by decide +kernel
example : sites c!"a [site.co.uk]" = [(3, 13, c!"site.co.uk")] := by decide +kernel
example : sites c!"The.Big.Movie.2010" = [] := by decide +kernel

/-- C124: of two websites with one character between them, the second is not reported. -/
theorem C124_counterexample_second : sites c!"a.com b.com" = [(0, 5, c!"a.com")] ∧
    SiteAt anyCase defaultSites c!"a.com b.com" 6 11 .safe ∧ ApartBefore anyCase c!"a.com b.com" 6 ∧ ApartAfter anyCase c!"a.com b.com" 11 := by
  refine ⟨by decide +kernel, ⟨0, 6, 8, .zero, ⟨7, by omega, ?_, rfl, rfl⟩, c!"com", by decide, ?_, rfl⟩, .inr ⟨' ', rfl, ?_⟩, .inl rfl⟩
  · intro k h1 h2
    obtain rfl : k = 6 := by omega
    exact ⟨'b', rfl, .inl ⟨'b', by decide, by decide⟩⟩
  · intro k l h
    match k with
    | 0 => cases h; exact ⟨'c', rfl, by decide⟩
    | 1 => cases h; exact ⟨'o', rfl, by decide⟩
    | 2 => cases h; exact ⟨'m', rfl, by decide⟩
    | k + 3 => cases h
  · rintro ⟨l, hl, h⟩
    revert h
    revert l
    decide

/-- C124: with the default configuration, the empty extension makes a website of `www.`, a word and a dot. -/
theorem C124_counterexample_bare : sites c!"www.foo. bar" = [(0, 8, c!"www.foo.")] ∧ sites c!"foo.co. bar" = [(0, 7, c!"foo.co.")] := by decide +kernel

/-- The hypotheses of `C124_complete` hold of the first of two websites. -/
example : SiteAt anyCase defaultSites c!"x site.org" 2 10 .safe ∧ ApartBefore anyCase c!"x site.org" 2 ∧ ApartAfter anyCase c!"x site.org" 10 := by
  refine ⟨⟨0, 2, 7, .zero, ⟨6, by omega, ?_, rfl, rfl⟩, c!"org", by decide, ?_, rfl⟩, .inr ⟨' ', rfl, ?_⟩, .inl rfl⟩
  · intro k h1 h2
    have : k = 2 ∨ k = 3 ∨ k = 4 ∨ k = 5 := by omega
    rcases this with rfl | rfl | rfl | rfl
    · exact ⟨'s', rfl, .inl ⟨'s', by decide, by decide⟩⟩
    · exact ⟨'i', rfl, .inl ⟨'i', by decide, by decide⟩⟩
    · exact ⟨'t', rfl, .inl ⟨'t', by decide, by decide⟩⟩
    · exact ⟨'e', rfl, .inl ⟨'e', by decide, by decide⟩⟩
  · intro k l h
    match k with
    | 0 => cases h; exact ⟨'o', rfl, by decide⟩
    | 1 => cases h; exact ⟨'r', rfl, by decide⟩
    | 2 => cases h; exact ⟨'g', rfl, by decide⟩
    | k + 3 => cases h
  · rintro ⟨l, hl, h⟩
    revert h
    revert l
    decide

end Guessit
