import Verif.Spec.Solver
import Verif.Props.Validators

/-!
# The loop over conflicts
-/

namespace Guessit
open Spec

theorem wants_itself {f : Option Solver} {a b : Mt} (h : asked f a b = .itself) : Wants f a b a := by
  cases f with
  | none => cases h
  | some g => exact ⟨g, rfl, .inl ⟨h, rfl⟩⟩

theorem wants_other {f : Option Solver} {a b : Mt} (h : asked f a b = .other) : Wants f a b b := by
  cases f with
  | none => cases h
  | some g => exact ⟨g, rfl, .inr ⟨h, rfl⟩⟩

theorem abstains_iff {f : Option Solver} {a b : Mt} : Abstains f a b ↔ asked f a b = .dflt := by
  unfold Abstains asked
  cases f with
  | none => simp
  | some g => simp

theorem wants_iff {f : Option Solver} {a b x : Mt} : Wants f a b x ↔
    (asked f a b = .itself ∧ x = a) ∨ (asked f a b = .other ∧ x = b) := by
  unfold Wants asked
  cases f with
  | none => simp
  | some g => simp

theorem loser_iff {K : Kin} {solverOf : Mt → Option Solver} {m c x : Mt} :
    loser K solverOf m c = some x ↔ Judged K solverOf c m x := by
  constructor
  · intro h
    unfold loser at h
    cases h1 : asked (solverOf c) c m <;> rw [h1] at h <;> dsimp only at h
    · cases h; exact .first (wants_itself h1)
    · cases h; exact .first (wants_other h1)
    · cases h
    · cases h2 : asked (solverOf m) m c <;> rw [h2] at h <;> dsimp only at h
      · cases h; exact .second (abstains_iff.2 h1) (wants_itself h2)
      · cases h; exact .second (abstains_iff.2 h1) (wants_other h2)
      · cases h
      · unfold defaultSolver at h
        split at h
        · rename_i h3
          split at h3
          · cases h3
          · split at h3
            · cases h; exact .shorterSecond (abstains_iff.2 h1) (abstains_iff.2 h2) (by assumption)
            · cases h3
        · rename_i h3
          split at h3
          · cases h; exact .shorterFirst (abstains_iff.2 h1) (abstains_iff.2 h2) (by assumption)
          · split at h3 <;> cases h3
        · cases h
  · intro h
    unfold loser
    cases h with
    | first h =>
      rcases wants_iff.1 h with ⟨h, rfl⟩ | ⟨h, rfl⟩ <;> rw [h]
    | second h1 h =>
      rw [abstains_iff.1 h1]
      rcases wants_iff.1 h with ⟨h, rfl⟩ | ⟨h, rfl⟩ <;> rw [h]
    | shorterFirst h1 h2 h =>
      rw [abstains_iff.1 h1, abstains_iff.1 h2]
      unfold defaultSolver
      simp [h]
    | shorterSecond h1 h2 h =>
      rw [abstains_iff.1 h1, abstains_iff.1 h2]
      unfold defaultSolver
      have : ¬ (K.initiator c).len < (K.initiator m).len := by omega
      simp [h, this]

theorem judged_mem {K : Kin} {solverOf : Mt → Option Solver} {a b x : Mt} (h : Judged K solverOf a b x) : x = a ∨ x = b := by
  cases h with
  | first h => rcases wants_iff.1 h with ⟨_, rfl⟩ | ⟨_, rfl⟩ <;> simp
  | second _ h => rcases wants_iff.1 h with ⟨_, rfl⟩ | ⟨_, rfl⟩ <;> simp
  | shorterFirst => simp
  | shorterSecond => simp

theorem mem_fights {s : Ms} (h : Sound s) {p : Mt × Mt} : p ∈ fights s ↔ Clash s p.1 p.2 := by
  unfold fights
  simp only [List.mem_flatMap, mem_sortBy, List.mem_filter, List.mem_map, Bool.not_eq_true']
  constructor
  · rintro ⟨m, ⟨h1, h2⟩, c, ⟨h3, h4⟩, rfl⟩
    obtain ⟨h5, h6, h7⟩ := (mem_conflicting h h1).1 h3
    have := h.pos m h1
    have := h.pos c h5
    unfold Overlaps at h7
    exact ⟨h1, h5, h2, h4, Ne.symm h6, max m.start c.start, by dsimp only; omega, by dsimp only; omega, by dsimp only; omega,
      by dsimp only; omega⟩
  · rintro ⟨h1, h2, h3, h4, h5, i, h6⟩
    refine ⟨p.1, ⟨h1, h3⟩, p.2, ⟨(mem_conflicting h h1).2 ⟨h2, Ne.symm h5, ?_⟩, h4⟩, rfl⟩
    unfold Overlaps
    omega

theorem isIn_iff {s : Ms} (h : Sound s) {l : List Mt} (hl : ∀ y ∈ l, y ∈ s.live) {x : Mt} (hx : x ∈ s.live) :
    isIn s.input x l = true ↔ x ∈ l := by
  unfold isIn
  rw [List.any_eq_true]
  constructor
  · rintro ⟨y, hy, hk⟩
    rwa [key_inj h (hl y hy) hx (eqv_iff.1 hk)]
  · intro hm
    exact ⟨x, hm, eqv_iff.2 rfl⟩

/-- The winner of a fight. -/
def winner (p : Mt × Mt) (x : Mt) : Mt → Prop := fun y => (x = p.1 ∧ y = p.2) ∨ (x = p.2 ∧ y = p.1)

/-- One turn: either nothing changes, because no one has to go or one of the two is dropped already, or the loser is dropped. -/
theorem fight_cases {s : Ms} (h : Sound s) {K : Kin} {solverOf : Mt → Option Solver} {acc : List Mt} (ha : ∀ y ∈ acc, y ∈ s.live)
    {p : Mt × Mt} (hp : p ∈ fights s) :
    (fight s.input K solverOf acc p = acc ∧ (loser K solverOf p.1 p.2 = none ∨ p.1 ∈ acc ∨ p.2 ∈ acc)) ∨
    ∃ x y, fight s.input K solverOf acc p = acc ++ [x] ∧ loser K solverOf p.1 p.2 = some x ∧ winner p x y ∧ x ∉ acc ∧ y ∉ acc := by
  have hc := (mem_fights h).1 hp
  unfold fight
  cases hl : loser K solverOf p.1 p.2 with
  | none => exact .inl ⟨rfl, .inl rfl⟩
  | some x =>
    dsimp only
    have hx := judged_mem (loser_iff.1 hl)
    have hx' : x ∈ s.live := by rcases hx with rfl | rfl; exacts [hc.right, hc.left]
    by_cases h1 : isIn s.input x acc = true
    · rw [if_pos h1]
      have := (isIn_iff h ha hx').1 h1
      refine .inl ⟨rfl, .inr ?_⟩
      rcases hx with rfl | rfl
      · exact .inr this
      · exact .inl this
    · rw [if_neg h1]
      have hn1 : x ∉ acc := fun hm => h1 ((isIn_iff h ha hx').2 hm)
      rcases hx with rfl | rfl
      · have he : Mt.eqv s.input p.2 p.1 = false := by
          cases he : Mt.eqv s.input p.2 p.1 with
          | false => rfl
          | true => exact absurd (key_inj h hc.left hc.right (eqv_iff.1 he)) (Ne.symm hc.differ)
        rw [he]
        simp only [Bool.false_eq_true, if_false]
        by_cases h2 : isIn s.input p.1 acc = true
        · rw [if_pos h2]
          exact .inl ⟨rfl, .inr (.inl ((isIn_iff h ha hc.left).1 h2))⟩
        · rw [if_neg h2]
          exact .inr ⟨p.2, p.1, rfl, rfl, .inr ⟨rfl, rfl⟩, hn1, fun hm => h2 ((isIn_iff h ha hc.left).2 hm)⟩
      · have he : Mt.eqv s.input p.1 p.1 = true := eqv_iff.2 rfl
        rw [he, if_pos rfl]
        by_cases h2 : isIn s.input p.2 acc = true
        · rw [if_pos h2]
          exact .inl ⟨rfl, .inr (.inr ((isIn_iff h ha hc.right).1 h2))⟩
        · rw [if_neg h2]
          exact .inr ⟨p.1, p.2, rfl, rfl, .inl ⟨rfl, rfl⟩, hn1, fun hm => h2 ((isIn_iff h ha hc.right).2 hm)⟩

/-- An invariant of the turns is one of the loop. -/
theorem fold_inv {s : Ms} (h : Sound s) {K : Kin} {solverOf : Mt → Option Solver} {P : List Mt → Prop}
    (step : ∀ acc p x y, P acc → p ∈ fights s → loser K solverOf p.1 p.2 = some x → winner p x y → x ∉ acc → y ∉ acc →
      P (acc ++ [x])) : ∀ (ps : List (Mt × Mt)) (acc : List Mt), (∀ p ∈ ps, p ∈ fights s) → (∀ y ∈ acc, y ∈ s.live) → P acc →
      P (ps.foldl (fight s.input K solverOf) acc) ∧ (∀ y ∈ ps.foldl (fight s.input K solverOf) acc, y ∈ s.live) ∧
      (∀ y ∈ acc, y ∈ ps.foldl (fight s.input K solverOf) acc)
  | [], acc, _, ha, hP => ⟨hP, ha, fun _ h => h⟩
  | p :: ps, acc, hps, ha, hP => by
    rw [List.foldl_cons]
    have hps' : ∀ p ∈ ps, p ∈ fights s := fun q hq => hps q (List.mem_cons_of_mem _ hq)
    rcases fight_cases h (K := K) (solverOf := solverOf) ha (hps p List.mem_cons_self) with ⟨h1, _⟩ | ⟨x, y, h1, h2, h3, h4, h5⟩
    · rw [h1]
      exact fold_inv h step ps acc hps' ha hP
    · rw [h1]
      have hc := (mem_fights h).1 (hps p List.mem_cons_self)
      have hx : x ∈ s.live := by
        rcases h3 with ⟨rfl, _⟩ | ⟨rfl, _⟩
        exacts [hc.left, hc.right]
      obtain ⟨g1, g2, g3⟩ := fold_inv h step ps (acc ++ [x]) hps' (by
        intro z hz
        rcases List.mem_append.1 hz with hz | hz
        · exact ha z hz
        · rw [List.mem_singleton.1 hz]; exact hx) (step acc p x y hP (hps p List.mem_cons_self) h2 h3 h4 h5)
      exact ⟨g1, g2, fun z hz => g3 z (List.mem_append_left _ hz)⟩

theorem fold_live {s : Ms} (h : Sound s) {K : Kin} {solverOf : Mt → Option Solver} {ps : List (Mt × Mt)} {acc : List Mt}
    (hps : ∀ p ∈ ps, p ∈ fights s) (ha : ∀ y ∈ acc, y ∈ s.live) :
    (∀ y ∈ ps.foldl (fight s.input K solverOf) acc, y ∈ s.live) ∧ (∀ y ∈ acc, y ∈ ps.foldl (fight s.input K solverOf) acc) :=
  (fold_inv h (P := fun _ => True) (fun _ _ _ _ _ _ _ _ _ _ => trivial) ps acc hps ha trivial).2

/-- Two matches that are left have no quarrel. -/
theorem fold_settled {s : Ms} (h : Sound s) {K : Kin} {solverOf : Mt → Option Solver} {ps : List (Mt × Mt)}
    (hps : ∀ p ∈ ps, p ∈ fights s) {p : Mt × Mt} (hp : p ∈ ps) (h1 : p.1 ∉ ps.foldl (fight s.input K solverOf) [])
    (h2 : p.2 ∉ ps.foldl (fight s.input K solverOf) []) : loser K solverOf p.1 p.2 = none := by
  obtain ⟨A, B, rfl⟩ := List.append_of_mem hp
  rw [List.foldl_append, List.foldl_cons] at h1 h2
  have hA : ∀ q ∈ A, q ∈ fights s := fun q hq => hps q (List.mem_append_left _ hq)
  have hB : ∀ q ∈ B, q ∈ fights s := fun q hq => hps q (List.mem_append_right _ (List.mem_cons_of_mem _ hq))
  have l1 := (fold_live h (K := K) (solverOf := solverOf) hA (acc := []) (by simp)).1
  generalize A.foldl (fight s.input K solverOf) [] = acc at h1 h2 l1
  have hc := (mem_fights h).1 (hps p hp)
  rcases fight_cases h (K := K) (solverOf := solverOf) l1 (hps p hp) with ⟨g1, g2⟩ | ⟨x, y, g1, g2, g3, g4, g5⟩
  · rw [g1] at h1 h2
    have l2 := (fold_live h (K := K) (solverOf := solverOf) hB l1).2
    rcases g2 with g2 | g2 | g2
    · exact g2
    · exact absurd (l2 _ g2) h1
    · exact absurd (l2 _ g2) h2
  · rw [g1] at h1 h2
    have hx : x ∈ s.live := by
      rcases g3 with ⟨rfl, _⟩ | ⟨rfl, _⟩
      exacts [hc.left, hc.right]
    have l2 := (fold_live h (K := K) (solverOf := solverOf) hB (acc := acc ++ [x]) (by
      intro z hz
      rcases List.mem_append.1 hz with hz | hz
      · exact l1 z hz
      · rw [List.mem_singleton.1 hz]; exact hx)).2 x (by simp)
    rcases g3 with ⟨rfl, _⟩ | ⟨rfl, _⟩
    · exact absurd l2 h1
    · exact absurd l2 h2

end Guessit
