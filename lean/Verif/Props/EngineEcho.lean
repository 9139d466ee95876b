import Verif.Props.EngineLast
import Verif.Props.Strip

/-! # What `EquivalentHoles` keeps -/

namespace Guessit
open Spec

section
variable {u : Uni} {t : CaseTables} {input : Str} {P : Mt → Prop}

theorem equivalentStep_keeps (hP : ∀ m v n t, P m → P { m with val := v, name := n, tags := t }) {name : Str} {hole m hole' m' : Mt} {b : Bool}
    (h : equivalentStep u t input name hole m = .ok (hole', m', b)) (h1 : P hole) (h2 : P m) : P hole' ∧ P m' := by
  have triv : (Except.ok (hole, m, false) : Except PyErr _) = .ok (hole', m', b) → P hole' ∧ P m' := by intro h; cases h; exact ⟨h1, h2⟩
  unfold equivalentStep at h
  split at h
  · split at h
    · split at h
      · split at h
        · exact triv h
        · split at h
          · cases h
          · simp only [Except.ok.injEq, Prod.mk.injEq] at h
            obtain ⟨rfl, rfl, rfl⟩ := h
            constructor
            · split
              · exact hP _ _ _ _ (hP _ _ _ _ h1)
              · exact hP _ _ _ _ h1
            · split
              · exact hP _ _ _ _ h2
              · exact h2
      · exact triv h
    · exact triv h
  · exact triv h

theorem equivalentLoop_keeps (hP : ∀ m v n t, P m → P { m with val := v, name := n, tags := t }) {name : Str} : ∀ {l l' : List Mt} {hole hole' : Mt} {b : Bool},
    equivalentLoop u t input name hole l = .ok (hole', l', b) → P hole → (∀ m ∈ l, P m) → P hole' ∧ ∀ m ∈ l', P m := by
  intro l
  induction l with
  | nil => intro l' hole hole' b h h1 h2; cases h; exact ⟨h1, h2⟩
  | cons m l ih =>
    intro l' hole hole' b h h1 h2
    rw [equivalentLoop] at h
    split at h
    · cases h
    · rename_i a c d ha
      split at h
      · cases h
      · rename_i x y z hx
        simp only [Except.ok.injEq, Prod.mk.injEq] at h
        obtain ⟨rfl, rfl, rfl⟩ := h
        obtain ⟨k1, k2⟩ := equivalentStep_keeps hP ha h1 (h2 m (by simp))
        obtain ⟨k3, k4⟩ := ih hx k1 fun m hm => h2 m (by simp [hm])
        refine ⟨k3, fun m hm => ?_⟩
        rcases List.mem_cons.1 hm with rfl | hm
        · exact k2
        · exact k4 m hm

theorem equivalentHolesFor_keeps (hP : ∀ m v n t, P m → P { m with val := v, name := n, tags := t }) {name : Str} : ∀ {hs l left l' new : List Mt},
    equivalentHolesFor u t input name hs l = .ok (left, l', new) → (∀ m ∈ hs, P m) → (∀ m ∈ l, P m) →
      (∀ m ∈ left, P m) ∧ (∀ m ∈ l', P m) ∧ ∀ m ∈ new, P m := by
  intro hs
  induction hs with
  | nil => intro l left l' new h h1 h2; cases h; exact ⟨h1, h2, h1⟩
  | cons x hs ih =>
    intro l left l' new h h1 h2
    rw [equivalentHolesFor] at h
    split at h
    · cases h
    · rename_i a c d ha
      split at h
      · cases h
      · rename_i p q r hx
        obtain ⟨k1, k2⟩ := equivalentLoop_keeps hP ha (h1 x (by simp)) h2
        obtain ⟨k3, k4, k5⟩ := ih hx (fun m hm => h1 m (by simp [hm])) k2
        split at h
        · simp only [Except.ok.injEq, Prod.mk.injEq] at h
          obtain ⟨rfl, rfl, rfl⟩ := h
          exact ⟨k3, k4, fun m hm => by rcases List.mem_cons.1 hm with rfl | hm; exacts [k1, k5 m hm]⟩
        · simp only [Except.ok.injEq, Prod.mk.injEq] at h
          obtain ⟨rfl, rfl, rfl⟩ := h
          exact ⟨fun m hm => by rcases List.mem_cons.1 hm with rfl | hm; exacts [k1, k3 m hm], k4, k5⟩

theorem equivalentNames_keeps (hP : ∀ m v n t, P m → P { m with val := v, name := n, tags := t }) : ∀ {names : List Str} {hs l l' new : List Mt},
    equivalentNames u t input names hs l = .ok (l', new) → (∀ m ∈ hs, P m) → (∀ m ∈ l, P m) → (∀ m ∈ l', P m) ∧ ∀ m ∈ new, P m := by
  intro names
  induction names with
  | nil => intro hs l l' new h h1 h2; cases h; exact ⟨h2, by simp⟩
  | cons n names ih =>
    intro hs l l' new h h1 h2
    rw [equivalentNames] at h
    split at h
    · cases h
    · rename_i a c d ha
      split at h
      · cases h
      · rename_i p q hx
        simp only [Except.ok.injEq, Prod.mk.injEq] at h
        obtain ⟨rfl, rfl⟩ := h
        obtain ⟨k1, k2, k3⟩ := equivalentHolesFor_keeps hP ha h1 h2
        obtain ⟨k4, k5⟩ := ih hx k1 k2
        exact ⟨k4, fun m hm => (List.mem_append.1 hm).elim (k3 m) (k5 m)⟩

theorem equivalentParts_keeps (hP : ∀ m v n t, P m → P { m with val := v, name := n, tags := t }) : ∀ {parts l l' new : List Mt},
    equivalentParts u t input parts l = .ok (l', new) → (∀ part ∈ parts, ∀ l, ∀ m ∈ holesOf input l part.start part.stop (fun raw => .str (cleanup raw)), P m) →
      (∀ m ∈ l, P m) → (∀ m ∈ l', P m) ∧ ∀ m ∈ new, P m := by
  intro parts
  induction parts with
  | nil => intro l l' new h h1 h2; cases h; exact ⟨h2, by simp⟩
  | cons part parts ih =>
    intro l l' new h h1 h2
    rw [equivalentParts] at h
    split at h
    · cases h
    · rename_i c d ha
      split at h
      · cases h
      · rename_i p q hx
        simp only [Except.ok.injEq, Prod.mk.injEq] at h
        obtain ⟨rfl, rfl⟩ := h
        obtain ⟨k1, k2⟩ := equivalentNames_keeps hP ha (h1 part (by simp) l) h2
        obtain ⟨k4, k5⟩ := ih hx (fun part hp => h1 part (by simp [hp])) k1
        exact ⟨k4, fun m hm => (List.mem_append.1 hm).elim (k2 m) (k5 m)⟩

end

/-- What holds of every match and of every hole of a path part, whatever the value, the name and the tags, holds of every match left. -/
theorem equivalentHoles_keeps {u : Uni} {t : CaseTables} {P : Mt → Prop} (hP : ∀ m v n t, P m → P { m with val := v, name := n, tags := t }) {s s' : Ms}
    (h : equivalentHoles u t s = .ok s')
    (h1 : ∀ part ∈ s.markers, ∀ l, ∀ m ∈ holesOf s.input l part.start part.stop (fun raw => .str (cleanup raw)), P m) (h2 : ∀ m ∈ s.live, P m) :
    ∀ m ∈ s'.live, P m := by
  unfold equivalentHoles at h
  dsimp only at h
  split at h
  · cases h
  · rename_i l new hx
    cases h
    obtain ⟨k1, k2⟩ := equivalentParts_keeps hP hx (fun part hp => h1 part (mem_named.1 ((sortBy_perm _ _).mem_iff.1 hp)).1) h2
    intro m hm
    rcases mem_appendAll hm with hm | hm
    · exact k1 m hm
    · exact k2 m hm

end Guessit
