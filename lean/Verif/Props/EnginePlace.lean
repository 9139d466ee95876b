import Verif.Props.EngineEcho
import Verif.Props.Enlarge
import Verif.Props.SceneGroup
import Verif.Props.EngineLast

/-! # Where the matches of the engine are -/

namespace Guessit
open Spec

/-! ### Holes -/

theorem allHoles_le {covered sep : Nat → Bool} {start : Nat} : ∀ (f i : Nat) (o : Option Nat), ∀ h ∈ allHoles covered sep start f i o, h.2 ≤ i + f := by
  intro f
  induction f with
  | zero =>
    intro i o h hh
    cases o with
    | none => simp [allHoles] at hh
    | some a => simp only [allHoles, List.mem_singleton] at hh; subst hh; exact Nat.le_refl _
  | succ f ih =>
    intro i o h hh
    cases o with
    | none =>
      rw [allHoles] at hh
      split at hh
      · have := ih _ _ h hh; omega
      · have := ih _ _ h hh; omega
    | some a =>
      rw [allHoles] at hh
      split at hh
      · rcases List.mem_cons.1 hh with rfl | hh
        · show i ≤ i + (f + 1); omega
        · have := ih _ _ h hh; omega
      · have := ih _ _ h hh; omega

theorem holes_le {input : Str} {l : List Mt} {ignore : Mt → Bool} {sp : Str} {a b : Nat} {h : Nat × Nat} (hh : h ∈ holeSpans input l ignore sp a b) :
    h.2 ≤ maxEnd input l ∧ h.2 ≤ b := by
  unfold holeSpans at hh
  dsimp only at hh
  rcases List.mem_append.1 hh with hh | hh
  · have hm := holeLoop_all (fun i => (atIndex l i).any fun m => !ignore m) (fun i => (input[i]?).any sp.contains) a
      (min (maxEnd input l) b - holeStart l ignore a) (holeStart l ignore a) none
    have h2 := allHoles_le _ _ _ h (hm ▸ List.mem_append_left _ hh)
    by_cases hc : holeStart l ignore a ≤ min (maxEnd input l) b
    · omega
    · have : min (maxEnd input l) b - holeStart l ignore a = 0 := by omega
      rw [this, holeLoop] at hh
      simp at hh
  · split at hh
    · rw [List.mem_singleton] at hh
      subst hh
      dsimp only
      omega
    · simp at hh

theorem maxEnd_of {input : Str} {l : List Mt} (h : Stretched input l) : maxEnd input l = input.length := by
  have h1 := (maxEnd_ge input l).1
  have key : ∀ (l : List Mt) n, (∀ m ∈ l, m.stop ≤ n) → l.foldl (fun n m => max n m.stop) n = n := by
    intro l
    induction l with
    | nil => intro n _; rfl
    | cons m ms ih =>
      intro n hl
      rw [List.foldl_cons, Nat.max_eq_left (hl m (List.mem_cons_self ..))]
      exact ih n fun x hx => hl x (List.mem_cons_of_mem _ hx)
  exact key l _ fun m hm => (h m hm).1

theorem slice_pos {input : Str} {h : Nat × Nat} {c : Char} (hc : c ∈ sliceOf input h) : h.1 < h.2 := by
  by_contra hcon
  have : sliceOf input h = [] := by
    unfold sliceOf
    rw [List.drop_eq_nil_iff, List.length_take]
    omega
  rw [this] at hc
  simp at hc

/-- A hole that has a character, in a state whose matches are stretches of the input. -/
theorem hole_placed {input : Str} {l : List Mt} (hl : Stretched input l) {ignore : Mt → Bool} {sp : Str} {a b : Nat} {h : Nat × Nat}
    (hh : h ∈ holeSpans input l ignore sp a b) (hne : sliceOf input h ≠ []) : h.1 < h.2 ∧ h.2 ≤ input.length := by
  obtain ⟨c, hc⟩ := List.exists_mem_of_ne_nil _ hne
  refine ⟨slice_pos hc, ?_⟩
  have := (holes_le hh).1
  rwa [maxEnd_of hl] at this

/-! ### What a rule may do with spans -/

/-- A non-empty stretch of the input, whose text stops in the input. -/
def Placed (input : Str) (m : Mt) : Prop := m.start < m.stop ∧ m.stop ≤ input.length ∧ m.rawB ≤ input.length

theorem Placed.new {input : Str} {m : Mt} (h : m.start < m.stop ∧ m.stop ≤ input.length) (hr : m.rawStop = none := by rfl) : Placed input m :=
  ⟨h.1, h.2, by unfold Mt.rawB; rw [hr]; exact h.2⟩

/-- All matches are stretches of the input, and their texts stop in the input. -/
def Held (input : Str) (l : List Mt) : Prop := Stretched input l ∧ ∀ m ∈ l, m.rawB ≤ input.length

/-- The same match at the same place. -/
structure SameAt (x m : Mt) : Prop where
  start : m.start = x.start
  stop : m.stop = x.stop
  name : m.name = x.name
  iname : m.iname = x.iname
  weak : Weak m → Weak x
  priv : x.priv = true → m.priv = true
  raw : m.rawB ≤ x.rawB

theorem SameAt.refl (m : Mt) : SameAt m m := ⟨rfl, rfl, rfl, rfl, id, id, Nat.le_refl _⟩

theorem SameAt.trans {a b c : Mt} (h1 : SameAt a b) (h2 : SameAt b c) : SameAt a c :=
  ⟨h2.start.trans h1.start, h2.stop.trans h1.stop, h2.name.trans h1.name, h2.iname.trans h1.iname, fun h => h1.weak (h2.weak h), fun h => h2.priv (h1.priv h), h2.raw.trans h1.raw⟩

/-- What is left of a state: matches at their place, and new matches that are non-empty stretches of the input. -/
theorem held_of {input : Str} {l l' : List Mt} (hl : Held input l) (h : ∀ m ∈ l', (∃ x ∈ l, SameAt x m) ∨ Placed input m) :
    Held input l' := by
  refine ⟨fun m hm => ?_, fun m hm => ?_⟩
  · rcases h m hm with ⟨x, hx, hs⟩ | h
    · refine ⟨by rw [hs.stop]; exact (hl.1 x hx).1, ?_⟩
      rcases (hl.1 x hx).2 with h | ⟨h1, h2, h3, h4⟩
      · left; rw [hs.start, hs.stop]; exact h
      · exact Or.inr ⟨hs.priv h1, by rw [hs.name]; exact h2, fun hw => h3 (hs.weak hw), by rw [hs.iname, hs.name, h4]⟩
    · exact ⟨h.2.1, Or.inl h.1⟩
  · rcases h m hm with ⟨x, hx, hs⟩ | h
    · exact hs.raw.trans (hl.2 x hx)
    · exact h.2.2

theorem placed_of {input : Str} {l : List Mt} (hl : Held input l) {x m : Mt} (hx : x ∈ l) (h1 : x.name ≠ some c!"episodeSeparator")
    (h2 : x.name ≠ some c!"seasonSeparator") (hs : m.start = x.start) (ht : m.stop = x.stop) 
    (hr : m.rawStop = x.rawStop ∨ m.rawStop = none := by first | exact Or.inl rfl | exact Or.inr rfl) : Placed input m := by
  refine ⟨by rw [hs, ht]; exact hl.1.named hx h1 h2, by rw [ht]; exact (hl.1 x hx).1, ?_⟩
  unfold Mt.rawB
  rcases hr with hr | hr
  · rw [hr, ht]; exact hl.2 x hx
  · rw [hr, ht]; exact (hl.1 x hx).1

/-- As `placed_of`, for a match whose name is known. -/
theorem placed_named {input : Str} {l : List Mt} (hl : Held input l) {x m : Mt} {n : Str} (hx : x ∈ l) (hn : x.name = some n)
    (hs : m.start = x.start) (ht : m.stop = x.stop)
    (h1 : n ≠ c!"episodeSeparator" ∧ n ≠ c!"seasonSeparator" := by decide)
    (hr : m.rawStop = x.rawStop ∨ m.rawStop = none := by first | exact Or.inl rfl | exact Or.inr rfl) : Placed input m :=
  placed_of hl hx (by rw [hn]; simpa using h1.1) (by rw [hn]; simpa using h1.2) hs ht hr

theorem held_sub {input : Str} {l l' : List Mt} (hl : Held input l) (h : ∀ m ∈ l', m ∈ l) : Held input l' :=
  ⟨fun m hm => hl.1 m (h m hm), fun m hm => hl.2 m (h m hm)⟩

end Guessit
