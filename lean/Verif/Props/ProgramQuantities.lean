import Verif.Props.ProgramObjects
import Verif.Props.Amounts

/-! # Sizes and bit rates through the rules (C161) -/

namespace Guessit
open Spec

/-- The names of quantities. -/
def amountNames : List Str := [c!"size", c!"audio_bit_rate", c!"video_bit_rate"]

theorem amount_names : ∀ n ∈ amountNames, n ∈ objectNames := by decide

theorem Avoids_made {N : List Str} {P : Str → MVal → Prop} (hN : ∀ n ∈ N, n ∈ objectNames) {O : Outside} {d : Declared} (ha : d.Avoids) {g : Dict} {s : Str} {fs : List Family}
    (h : d.found g s = .ok fs) : ∀ F ∈ fs, F.Made N P := fun F hF => (ha g s fs h F hF).made hN

/-- A family without children, whose formatter gives one object. -/
theorem plain_made {V : Type} {P : Str → MVal → Prop} {found : List (RxMatch V)} {give : V → MVal} {st : Style} {n : Str} (hne : n ≠ [])
    (h : ∀ m ∈ found, m.name = n ∧ ∃ v, m.value = .ok v ∧ P n (give v)) : ∀ F ∈ plainFamilies give st found, F.Made amountNames P := by
  intro F hF
  obtain ⟨m, hm, rfl⟩ := List.mem_map.1 hF
  obtain ⟨h1, v, h2, h3⟩ := h m hm
  intro b hb x hx hname
  rw [List.mem_singleton] at hb
  subst hb
  have hn : nameOf m.name = some n := by
    rw [h1]
    cases n with
    | nil => exact absurd rfl hne
    | cons a b => rfl
  simp only [hn] at hname
  cases hname
  exact ⟨give v, h3, Or.inl ⟨rfl, fun t => by simp only [h2]⟩⟩

/-- A family without children, of another name. -/
theorem single_other {N : List Str} {P : Str → MVal → Prop} {b : Bud} {solver : Option Trade} {n : Str} (hb : b.name = some n) (hn : n ∉ N) :
    Family.Made N P { root := b, solver := solver } := by
  intro x hx m hm hname
  rw [List.mem_singleton] at hx
  subst hx
  rw [hb] at hname
  cases hname
  exact absurd hm hn

theorem dates_other {O : Outside} {P : Str → MVal → Prop} {g : Dict} {s : Str} {fs : List Family} (h : dateFamilies O g s = .ok fs) :
    ∀ F ∈ fs, F.Made amountNames P := by
  unfold dateFamilies at h
  split at h
  · cases h
  · cases h
    simp
  · cases h
    intro F hF
    split at hF
    · rw [List.mem_singleton] at hF
      subst hF
      exact single_other rfl (by decide)
    · cases hF

theorem countries_other {O : Outside} {P : Str → MVal → Prop} {g : Dict} {s : Str} : ∀ F ∈ countryFamilies O g s, F.Made amountNames P := by
  intro F hF
  obtain ⟨_, _, rfl⟩ := List.mem_map.1 hF
  exact single_other rfl (by decide)

theorem languages_other {O : Outside} {P : Str → MVal → Prop} {g : Dict} {s : Str} : ∀ F ∈ languageFamilies O g s, F.Made amountNames P := by
  intro F hF
  obtain ⟨m, hm, rfl⟩ := List.mem_map.1 hF
  rcases C56_names _ _ _ _ _ _ _ _ _ _ _ hm with hn | ⟨hn, _⟩
  · exact single_other (n := c!"language") (by simp only [hn]) (by decide)
  · exact single_other (n := c!"subtitle_language") (by simp only [hn]) (by decide)

/-- What is assumed of Python's tables and of the name for sizes and bit rates. -/
structure Spec.Amounts (O : Outside) (s : Str) : Prop where
  usual : Usual O.rx
  cased : Cased O.rx.u
  cap : Capitalizes O.cap
  plain : PlainCase O.rx s

theorem sizes_made {O : Outside} {s : Str} (h : Spec.Amounts O s) : ∀ F ∈ sizeFamilies O s, F.Made amountNames (AmountOf O s) := by
  refine plain_made (n := c!"size") (by decide) fun m hm => ?_
  obtain ⟨h1, h2, v, u, h3, h4⟩ := (C119_size O.rx h.usual h.cased O.cap O.fl s h.plain m).1 hm
  exact ⟨h1, _, h4, Or.inl ⟨rfl, _, ⟨_, _, _, _, h2, h3, rfl⟩, rfl⟩⟩

theorem bits_made {O : Outside} {s : Str} (h : Spec.Amounts O s) : ∀ F ∈ bitFamilies O s, F.Made amountNames (AmountOf O s) := by
  refine plain_made (n := c!"audio_bit_rate") (by decide) fun m hm => ?_
  obtain ⟨h1, h2, v, u, h3, h4⟩ := (C119_bit_rate O.rx h.usual O.cap h.cap O.fl s h.plain m).1 hm
  exact ⟨h1, _, h4, Or.inr ⟨Or.inl rfl, _, ⟨_, _, _, _, h2, h3, rfl⟩, rfl⟩⟩

theorem all_measured (O : Outside) {d : Declared} (hd : d ∈ allDeclared O) {g : Dict} {s : Str} (hs : Spec.Amounts O s)
    {fs : List Family} (h : d.found g s = .ok fs) : ∀ F ∈ fs, F.Made amountNames (AmountOf O s) := by
  rcases all_avoid O d hd with ha | hf | hf | hf | hf | hf
  · exact fun F hF => (ha g s fs h F hF).made amount_names
  · rw [hf] at h
    exact dates_other h
  · rw [hf] at h
    cases h
    exact languages_other
  · rw [hf] at h
    cases h
    exact countries_other
  · rw [hf] at h
    cases h
    exact sizes_made hs
  · rw [hf] at h
    cases h
    exact bits_made hs

theorem amount_moves {O : Outside} {s : Str} : ObjectMoves amountNames (AmountOf O s) where
  names := amount_names
  subtitle := fun h => absurd h (by decide)
  rate := fun _ => ⟨by decide, fun c h => by
    rcases h with ⟨h, _⟩ | ⟨_, h⟩
    · exact absurd h (by decide)
    · exact Or.inr ⟨Or.inr rfl, h⟩⟩
  text := fun n t h => by
    rcases h with ⟨_, q, _, h⟩ | ⟨_, q, _, h⟩ <;> cases h

/-- C161 for the program. -/
theorem C161_program (O : Outside) (base : RuleEnv) (hl : ∀ t, base.uni.lower t = [] ↔ t = [])
    (g : Dict) (s : Str) (hs : Spec.Amounts O s) (s' : Ms) (h : program O base g s = .ok s') :
    ∀ m ∈ s'.live, ∀ n ∈ amountNames, m.name = some n → AmountOf O s n (m.value s) := by
  obtain ⟨gs, hg, h⟩ := program_starts h
  have hall := C160_engine _ (program_natural hl hg) amount_moves g (beginning g gs s) s'
    (fun p hp => ((marksOf_marked (by decide) (by decide) rfl : Marked (beginning g gs s)).wf p hp).2)
    (grown_made (P := AmountOf O s) (fun d hd fs h => all_measured O hd hs h) hg) h
  intro m hm n hn hname
  rcases hall m hm n hn hname with hp | ⟨w, t, _, hp, _⟩
  · exact hp
  · rcases hp with ⟨_, q, _, h⟩ | ⟨_, q, _, h⟩ <;> cases h

end Guessit
