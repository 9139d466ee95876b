import Verif.Model.Processors
import Verif.Spec.Rules
import Verif.Proofs.Matches
import Mathlib.Data.List.Nodup

/-! # C36: equivalent holes -/

namespace Guessit
open Spec

/-- C36: the preferred spelling is one of the two; choosing can only fail on an empty text, and never between a text and
itself. -/
theorem C36_preferred (t : CaseTables) (a b : Str) :
    (∀ r, preferredString t a b = .ok r → r = a ∨ r = b) ∧
    (a = b ∨ (a ≠ [] ∧ b ≠ []) → ∃ r, preferredString t a b = .ok r) ∧
    (∀ e, preferredString t a b = .error e → e = .indexError) ∧
    (t.istitle a = true → t.istitle b = false → preferredString t a b = .ok a) ∧
    (t.isupper a = false → t.isupper b = true → preferredString t a b = .ok a) := by
  unfold preferredString
  refine ⟨?_, ?_, ?_, ?_, ?_⟩
  · intro r h
    dsimp only at h
    repeat' split at h
    all_goals first
      | (cases h; first | exact Or.inl rfl | exact Or.inr rfl)
      | simp at h
  · intro hh
    dsimp only
    by_cases he : a = b
    · rw [if_pos he]; exact ⟨_, rfl⟩
    · rcases hh with hh | ⟨ha, hb⟩
      · exact absurd hh he
      · cases a with
        | nil => exact absurd rfl ha
        | cons x a => cases b with
          | nil => exact absurd rfl hb
          | cons y b =>
            repeat' split
            all_goals first
              | exact ⟨_, rfl⟩
              | (rename_i h; repeat' split at h
                 all_goals first | (simp at h; done) | simp_all)
  · intro e h
    dsimp only at h
    split at h
    · simp at h
    · split at h
      · simp at h
      · split at h
        · simp at h
        · split at h
          · rename_i h'
            cases h
            repeat' split at h'
            all_goals first | (cases h'; rfl) | simp at h'
          · simp at h
          · split at h <;> simp at h
  · intro h1 h2
    by_cases he : a = b
    · subst he; rw [h1] at h2; exact absurd h2 (by simp)
    · rw [if_neg he, if_pos (by simp [h1, h2])]
  · intro h1 h2
    by_cases he : a = b
    · subst he; rw [h1] at h2; exact absurd h2 (by simp)
    · rw [if_neg he]
      split
      · rfl
      · rw [if_pos (by simp [h1, h2])]

/-! ### holes -/

theorem runsFrom_spec (p : Nat → Bool) : ∀ f i o, (∀ a, o = some a → a ≤ i ∧ ∀ j, a ≤ j → j < i → p j = true) →
    (∀ a, o = some a → a < i) →
    ∀ r ∈ runsFrom p f i o, (o.getD i) ≤ r.1 ∧ r.1 < r.2 ∧ r.2 ≤ i + f ∧ ∀ j, r.1 ≤ j → j < r.2 → p j = true := by
  intro f
  induction f with
  | zero =>
    intro i o h1 h2 r hr
    cases o with
    | none => simp [runsFrom] at hr
    | some a =>
      simp only [runsFrom, List.mem_singleton] at hr
      subst hr
      exact ⟨Nat.le_refl _, h2 a rfl, by simp, (h1 a rfl).2⟩
  | succ f ih =>
    intro i o h1 h2 r hr
    simp only [runsFrom] at hr
    cases hp : p i <;> cases o with
    | none =>
      rw [hp] at hr
      simp only at hr
      first
        | (have := ih (i + 1) none (by simp) (by simp) r hr
           exact ⟨by simp only [Option.getD_none] at *; omega, this.2.1, by omega, this.2.2.2⟩)
        | (have := ih (i + 1) (some i) (by
              rintro a ⟨⟩; refine ⟨by omega, fun j hj1 hj2 => ?_⟩
              have : j = i := by omega
              subst this; exact hp) (by rintro a ⟨⟩; omega) r hr
           exact ⟨by simp only [Option.getD_none, Option.getD_some] at *; omega, this.2.1, by omega, this.2.2.2⟩)
    | some a =>
      rw [hp] at hr
      simp only at hr
      first
        | (rcases List.mem_cons.1 hr with rfl | hr
           · exact ⟨Nat.le_refl _, h2 a rfl, by simp, (h1 a rfl).2⟩
           · have := ih (i + 1) none (by simp) (by simp) r hr
             have h3 := h1 a rfl
             exact ⟨by simp only [Option.getD_none, Option.getD_some] at *; omega, this.2.1, by omega, this.2.2.2⟩)
        | (have := ih (i + 1) (some a) (by
              rintro b ⟨⟩
              have h3 := h1 a rfl
              refine ⟨by omega, fun j hj1 hj2 => ?_⟩
              by_cases hji : j = i
              · rw [hji]; exact hp
              · exact h3.2 j hj1 (by omega)) (by rintro b ⟨⟩; have := h1 a rfl; omega) r hr
           exact ⟨by simp only [Option.getD_some] at *; omega, this.2.1, by omega, this.2.2.2⟩)

theorem holesOf_spec {input : Str} {l : List Mt} {a b : Nat} {fmt : Str → MVal} {h : Mt} (hh : h ∈ holesOf input l a b fmt) :
    a ≤ h.start ∧ h.start < h.stop ∧ h.stop ≤ b ∧ (∀ j, h.start ≤ j → j < h.stop → atIndex l j = []) ∧
    h = { id := 0, start := h.start, stop := h.stop, name := none, fmt := fmt } := by
  obtain ⟨r, hr, rfl⟩ := List.mem_map.1 hh
  have := runsFrom_spec _ _ _ none (by simp) (by simp) r hr
  simp only [Option.getD_none, List.isEmpty_iff] at this
  refine ⟨this.1, this.2.1, ?_, this.2.2.2, rfl⟩
  show r.2 ≤ b
  omega

/-! ### the loops -/

section
variable (u : Uni) (t : CaseTables) (input : Str) (orig : List Mt)

def HoleP (h : Mt) : Prop := ∃ w, h.value input = .str w ∧ Spelling input cleanup orig w ∧
  u.lower w = u.lower (cleanup ((input.take h.stop).drop h.start)) ∧ h.rawStart = none ∧ h.rawStop = none

def SpellOK (live : List Mt) : Prop := ∀ m ∈ live, ∀ v, m.value input = .str v → Spelling input cleanup orig v

abbrev Upd : Mt → Mt → Prop := Respelled input u.lower cleanup orig

variable {u t input orig}

theorem Upd.trans {a b c : Mt} (h1 : Upd u input orig a b) (h2 : Upd u input orig b c) : Upd u input orig a c := by
  rcases h1 with rfl | ⟨v, w, hv, rfl, hw, hl, hs⟩
  · exact h2
  · rcases h2 with rfl | ⟨v', w', hv', rfl, hw', hl', hs'⟩
    · exact Or.inr ⟨v, w, hv, rfl, hw, hl, hs⟩
    · refine Or.inr ⟨v, w', hv, rfl, hw', ?_, hs'⟩
      rw [hw] at hv'; cases hv'
      exact hl'.trans hl

theorem Upd.spell {a b : Mt} (h : Upd u input orig a b) (ha : ∀ v, a.value input = .str v → Spelling input cleanup orig v) :
    ∀ v, b.value input = .str v → Spelling input cleanup orig v := by
  rcases h with rfl | ⟨v, w, hv, rfl, hw, hl, hs⟩
  · exact ha
  · intro v' hv'; rw [hw] at hv'; cases hv'; exact hs

theorem Upd.same {a b : Mt} (h : Upd u input orig a b) : b.start = a.start ∧ b.stop = a.stop ∧ b.name = a.name ∧ b.id = a.id := by
  rcases h with rfl | ⟨v, w, hv, rfl, hw, hl, hs⟩ <;> simp

/-- A hole taken for `name`. -/
def TakenP (u : Uni) (input : Str) (name : Str) (live : List Mt) (h : Mt) : Prop :=
  h.name = some name ∧ h.tags = [c!"equivalent"] ∧
    ∃ m ∈ live, m.name = some name ∧ ∃ v w, m.value input = .str v ∧ h.value input = .str w ∧ u.lower w = u.lower v

theorem equivalentStep_ok (hl : ∀ s, u.lower s = [] ↔ s = []) {name : Str} {hole m hole' m' : Mt} {b : Bool}
    (hh : HoleP u input orig hole) (hm : ∀ v, m.value input = .str v → Spelling input cleanup orig v)
    (h : equivalentStep u t input name hole m = .ok (hole', m', b)) :
    hole'.start = hole.start ∧ hole'.stop = hole.stop ∧ HoleP u input orig hole' ∧ Upd u input orig m m' ∧
    (∃ w w', hole.value input = .str w ∧ hole'.value input = .str w' ∧ u.lower w' = u.lower w) ∧
    (b = false → hole' = hole) ∧ (b = true → TakenP u input name [m] hole') := by
  obtain ⟨w, hw, hsp, hlw, hr1, hr2⟩ := hh
  have triv : (hole, m, false) = (hole', m', b) → hole'.start = hole.start ∧ hole'.stop = hole.stop ∧ HoleP u input orig hole' ∧ Upd u input orig m m' ∧
    (∃ w w', hole.value input = .str w ∧ hole'.value input = .str w' ∧ u.lower w' = u.lower w) ∧
    (b = false → hole' = hole) ∧ (b = true → TakenP u input name [m] hole') := by
    intro h; cases h
    exact ⟨rfl, rfl, ⟨w, hw, hsp, hlw, hr1, hr2⟩, Or.inl rfl, ⟨w, w, hw, hw, rfl⟩, fun _ => rfl, by simp⟩
  unfold equivalentStep at h
  by_cases hn : m.name = some name
  · rw [if_pos hn] at h
    cases hv : m.value input with
    | int n => simp only [Mt.strValue, hv] at h; exact triv (Except.ok.inj h)
    | obj n => simp only [Mt.strValue, hv] at h; exact triv (Except.ok.inj h)
    | str v =>
      simp only [Mt.strValue, hv, hw] at h
      by_cases he : u.lower w = u.lower v
      · rw [if_pos he] at h
        by_cases hi : m.tags.contains c!"equivalent-ignore" = true
        · rw [if_pos hi] at h; exact triv (Except.ok.inj h)
        · rw [if_neg hi] at h
          cases hp : preferredString t w v with
          | error e => rw [hp] at h; simp at h
          | ok new =>
            rw [hp] at h
            simp only [Except.ok.injEq, Prod.mk.injEq] at h
            obtain ⟨rfl, rfl, rfl⟩ := h
            have hnew : new = w ∨ new = v := (C36_preferred t w v).1 new hp
            have hlnew : u.lower new = u.lower w := by rcases hnew with rfl | rfl; exacts [rfl, he.symm]
            have hspnew : Spelling input cleanup orig new := by
              rcases hnew with rfl | rfl; exacts [hsp, hm _ hv]
            have hne : ∀ x, new ≠ x → u.lower x = u.lower new → new ≠ [] := by
              intro x h1 h2 h3
              rw [h3] at h1 h2
              have := (hl []).2 rfl
              rw [this] at h2
              exact h1 ((hl x).1 h2).symm
            have hhv : ({ (if w ≠ new then { hole with val := some (.str new) } else hole) with
                name := some name, tags := [c!"equivalent"] } : Mt).value input = .str new := by
              by_cases hwn : w ≠ new
              · rw [if_pos hwn]
                have : new ≠ [] := hne w (Ne.symm hwn) hlnew.symm
                simp [Mt.value, MVal.truthy, this]
              · rw [if_neg hwn]
                have : w = new := Classical.not_not.1 hwn
                rw [← this]; exact hw
            have hst : ({ (if w ≠ new then { hole with val := some (.str new) } else hole) with
                name := some name, tags := [c!"equivalent"] } : Mt).start = hole.start ∧
                ({ (if w ≠ new then { hole with val := some (.str new) } else hole) with
                name := some name, tags := [c!"equivalent"] } : Mt).stop = hole.stop := by
              by_cases hwn : w ≠ new
              · rw [if_pos hwn]; exact ⟨rfl, rfl⟩
              · rw [if_neg hwn]; exact ⟨rfl, rfl⟩
            refine ⟨hst.1, hst.2, ⟨new, hhv, hspnew, ?_⟩, ?_, ⟨w, new, hw, hhv, hlnew⟩, by simp, ?_⟩
            · refine ⟨by rw [hst.1, hst.2, hlnew]; exact hlw, ?_⟩
              by_cases hwn : w ≠ new
              · rw [if_pos hwn]; exact ⟨hr1, hr2⟩
              · rw [if_neg hwn]; exact ⟨hr1, hr2⟩
            · by_cases hvn : v ≠ new
              · rw [if_pos hvn]
                have hne' : new ≠ [] := hne v (Ne.symm hvn) (he.symm.trans hlnew.symm)
                refine Or.inr ⟨v, new, hv, rfl, by simp [Mt.value, MVal.truthy, hne'], hlnew.trans he, hspnew⟩
              · rw [if_neg hvn]; exact Or.inl rfl
            · intro _
              exact ⟨rfl, rfl, m, by simp, hn, v, new, hv, hhv, hlnew.trans he⟩
      · rw [if_neg he] at h; exact triv (Except.ok.inj h)
  · rw [if_neg hn] at h; exact triv (Except.ok.inj h)

theorem TakenP.mono {name : Str} {l l' : List Mt} {h : Mt} (ht : TakenP u input name l h) (hs : ∀ m ∈ l, m ∈ l') :
    TakenP u input name l' h := by
  obtain ⟨a, b, m, hm, c⟩ := ht
  exact ⟨a, b, m, hs m hm, c⟩

theorem equivalentLoop_ok (hl : ∀ s, u.lower s = [] ↔ s = []) {name : Str} : ∀ {live : List Mt} {hole hole' : Mt} {live' : List Mt} {b : Bool},
    HoleP u input orig hole → SpellOK input orig live →
    equivalentLoop u t input name hole live = .ok (hole', live', b) →
    hole'.start = hole.start ∧ hole'.stop = hole.stop ∧ HoleP u input orig hole' ∧ List.Forall₂ (Upd u input orig) live live' ∧
    (∃ w w', hole.value input = .str w ∧ hole'.value input = .str w' ∧ u.lower w' = u.lower w) ∧
    (b = false → hole' = hole) ∧ (b = true → TakenP u input name live hole') := by
  intro live
  induction live with
  | nil =>
    intro hole hole' live' b hh _ h
    simp only [equivalentLoop, Except.ok.injEq, Prod.mk.injEq] at h
    obtain ⟨rfl, rfl, rfl⟩ := h
    obtain ⟨w, hw, h2⟩ := hh
    exact ⟨rfl, rfl, ⟨w, hw, h2⟩, .nil, ⟨w, w, hw, hw, rfl⟩, fun _ => rfl, by simp⟩
  | cons m ms ih =>
    intro hole hole' live' b hh hs h
    simp only [equivalentLoop] at h
    cases h1 : equivalentStep u t input name hole m with
    | error e => rw [h1] at h; simp at h
    | ok r =>
      obtain ⟨hole1, m1, b1⟩ := r
      rw [h1] at h
      simp only at h
      cases h2 : equivalentLoop u t input name hole1 ms with
      | error e => rw [h2] at h; simp at h
      | ok r =>
        obtain ⟨hole2, ms2, b2⟩ := r
        rw [h2] at h
        simp only [Except.ok.injEq, Prod.mk.injEq] at h
        obtain ⟨rfl, rfl, rfl⟩ := h
        obtain ⟨a1, a2, a3, a4, ⟨w, w1, hw, hw1, hl1⟩, a5, a6⟩ := equivalentStep_ok hl hh (hs m (by simp)) h1
        obtain ⟨c1, c2, c3, c4, ⟨w1', w2, hw1', hw2, hl2⟩, c5, c6⟩ := ih a3 (fun x hx => hs x (by simp [hx])) h2
        rw [hw1] at hw1'; cases hw1'
        refine ⟨c1.trans a1, c2.trans a2, c3, .cons a4 c4, ⟨w, w2, hw, hw2, hl2.trans hl1⟩, ?_, ?_⟩
        · intro hb
          rw [Bool.or_eq_false_iff] at hb
          rw [c5 hb.2, a5 hb.1]
        · intro hb
          cases hb2 : b2 with
          | true => exact (c6 hb2).mono (by simp_all)
          | false =>
            rw [hb2, Bool.or_false] at hb
            rw [c5 hb2]
            exact (a6 hb).mono (by simp)

theorem forall2_trans {l1 l2 l3 : List Mt} (h1 : List.Forall₂ (Upd u input orig) l1 l2) (h2 : List.Forall₂ (Upd u input orig) l2 l3) :
    List.Forall₂ (Upd u input orig) l1 l3 := by
  induction h1 generalizing l3 with
  | nil => cases h2; exact .nil
  | cons a _ ih => cases h2 with
    | cons b hb => exact .cons (a.trans b) (ih hb)

theorem forall2_refl (l : List Mt) : List.Forall₂ (Upd u input orig) l l := by
  induction l with
  | nil => exact .nil
  | cons x l ih => exact .cons (Or.inl rfl) ih

theorem forall2_spell {l1 l2 : List Mt} (h : List.Forall₂ (Upd u input orig) l1 l2) (hs : SpellOK input orig l1) : SpellOK input orig l2 := by
  induction h with
  | nil => intro m hm; simp at hm
  | cons a _ ih =>
    intro m hm
    rcases List.mem_cons.1 hm with rfl | hm
    · exact a.spell (hs _ (by simp))
    · exact ih (fun x hx => hs x (by simp [hx])) m hm

theorem forall2_mem {l1 l2 : List Mt} (h : List.Forall₂ (Upd u input orig) l1 l2) {y : Mt} (hy : y ∈ l2) :
    ∃ x ∈ l1, Upd u input orig x y := by
  induction h with
  | nil => simp at hy
  | cons a _ ih =>
    rcases List.mem_cons.1 hy with rfl | hy
    · exact ⟨_, by simp, a⟩
    · obtain ⟨x, hx, hu⟩ := ih hy; exact ⟨x, by simp [hx], hu⟩

/-- A taken hole is also good with respect to the state before. -/
theorem TakenP.back {name : Str} {l1 l2 : List Mt} {h : Mt} (hf : List.Forall₂ (Upd u input orig) l1 l2)
    (ht : TakenP u input name l2 h) : TakenP u input name l1 h := by
  obtain ⟨a, b, m, hm, hn, v, w, hv, hw, hlw⟩ := ht
  obtain ⟨x, hx, hu⟩ := forall2_mem hf hm
  have hname := hu.same.2.2.1
  rcases hu with rfl | ⟨v', w', hv', rfl, hw', hl', hs'⟩
  · exact ⟨a, b, m, hx, hn, v, w, hv, hw, hlw⟩
  · rw [hw'] at hv; cases hv
    exact ⟨a, b, x, hx, hname ▸ hn, v', w, hv', hw, hlw.trans hl'⟩

def NewP (u : Uni) (input : Str) (orig live holes : List Mt) (x : Mt) : Prop :=
  ∃ name, TakenP u input name live x ∧ HoleP u input orig x ∧ ∃ h ∈ holes, x.start = h.start ∧ x.stop = h.stop

theorem equivalentHolesFor_ok (hl : ∀ s, u.lower s = [] ↔ s = []) {name : Str} : ∀ {holes live left live' new : List Mt},
    (∀ h ∈ holes, HoleP u input orig h) → SpellOK input orig live →
    equivalentHolesFor u t input name holes live = .ok (left, live', new) →
    List.Forall₂ (Upd u input orig) live live' ∧ left.Sublist holes ∧ ∀ x ∈ new, NewP u input orig live holes x := by
  intro holes
  induction holes with
  | nil =>
    intro live left live' new _ _ h
    simp only [equivalentHolesFor, Except.ok.injEq, Prod.mk.injEq] at h
    obtain ⟨rfl, rfl, rfl⟩ := h
    exact ⟨forall2_refl _, .slnil, by simp⟩
  | cons hole holes ih =>
    intro live left live' new hh hs h
    simp only [equivalentHolesFor] at h
    cases h1 : equivalentLoop u t input name hole live with
    | error e => rw [h1] at h; simp at h
    | ok r =>
      obtain ⟨hole1, live1, b⟩ := r
      rw [h1] at h
      simp only at h
      cases h2 : equivalentHolesFor u t input name holes live1 with
      | error e => rw [h2] at h; simp at h
      | ok r =>
        obtain ⟨left2, live2, new2⟩ := r
        rw [h2] at h
        simp only at h
        obtain ⟨a1, a2, a3, a4, _, a5, a6⟩ := equivalentLoop_ok hl (hh hole (by simp)) hs h1
        obtain ⟨c1, c2, c3⟩ := ih (fun x hx => hh x (by simp [hx])) (forall2_spell a4 hs) h2
        have hnew2 : ∀ x ∈ new2, NewP u input orig live (hole :: holes) x := by
          intro x hx
          obtain ⟨n, p1, p2, y, hy, p3⟩ := c3 x hx
          exact ⟨n, p1.back a4, p2, y, by simp [hy], p3⟩
        cases b with
        | true =>
          simp only [if_true, Except.ok.injEq, Prod.mk.injEq] at h
          obtain ⟨rfl, rfl, rfl⟩ := h
          refine ⟨forall2_trans a4 c1, c2.cons _, ?_⟩
          intro x hx
          rcases List.mem_cons.1 hx with rfl | hx
          · exact ⟨name, a6 rfl, a3, hole, by simp, a1, a2⟩
          · exact hnew2 x hx
        | false =>
          simp only [Bool.false_eq_true, if_false, Except.ok.injEq, Prod.mk.injEq] at h
          obtain ⟨rfl, rfl, rfl⟩ := h
          rw [a5 rfl]
          exact ⟨forall2_trans a4 c1, c2.cons₂ _, hnew2⟩

theorem equivalentNames_ok (hl : ∀ s, u.lower s = [] ↔ s = []) : ∀ {names : List Str} {holes live live' new : List Mt},
    (∀ h ∈ holes, HoleP u input orig h) → SpellOK input orig live →
    equivalentNames u t input names holes live = .ok (live', new) →
    List.Forall₂ (Upd u input orig) live live' ∧ ∀ x ∈ new, NewP u input orig live holes x := by
  intro names
  induction names with
  | nil =>
    intro holes live live' new _ _ h
    simp only [equivalentNames, Except.ok.injEq, Prod.mk.injEq] at h
    obtain ⟨rfl, rfl⟩ := h
    exact ⟨forall2_refl _, by simp⟩
  | cons name names ih =>
    intro holes live live' new hh hs h
    simp only [equivalentNames] at h
    cases h1 : equivalentHolesFor u t input name holes live with
    | error e => rw [h1] at h; simp at h
    | ok r =>
      obtain ⟨left, live1, new1⟩ := r
      rw [h1] at h
      simp only at h
      cases h2 : equivalentNames u t input names left live1 with
      | error e => rw [h2] at h; simp at h
      | ok r =>
        obtain ⟨live2, new2⟩ := r
        rw [h2] at h
        simp only [Except.ok.injEq, Prod.mk.injEq] at h
        obtain ⟨rfl, rfl⟩ := h
        obtain ⟨a1, a2, a3⟩ := equivalentHolesFor_ok hl hh hs h1
        obtain ⟨c1, c2⟩ := ih (fun x hx => hh x (a2.subset hx)) (forall2_spell a1 hs) h2
        refine ⟨forall2_trans a1 c1, ?_⟩
        intro x hx
        rcases List.mem_append.1 hx with hx | hx
        · exact a3 x hx
        · obtain ⟨n, p1, p2, y, hy, p3⟩ := c2 x hx
          exact ⟨n, p1.back a1, p2, y, a2.subset hy, p3⟩

theorem forall2_atIndex {l1 l2 : List Mt} (h : List.Forall₂ (Upd u input orig) l1 l2) (i : Nat) :
    atIndex l2 i = [] ↔ atIndex l1 i = [] := by
  induction h with
  | nil => simp [atIndex]
  | cons a _ ih =>
    unfold atIndex at *
    obtain ⟨h1, h2, _⟩ := a.same
    rw [List.filter_cons, List.filter_cons, h1, h2]
    split
    · simp
    · exact ih

/-- What is known of an added match. -/
def AddedP (u : Uni) (input : Str) (orig parts : List Mt) (x : Mt) : Prop :=
  ∃ name, TakenP u input name orig x ∧ HoleP u input orig x ∧
    ∃ part ∈ parts, part.start ≤ x.start ∧ x.start < x.stop ∧ x.stop ≤ part.stop ∧
      ∀ j, x.start ≤ j → j < x.stop → ∀ m ∈ orig, ¬ (m.start ≤ j ∧ j < m.stop)

theorem equivalentParts_ok (hl : ∀ s, u.lower s = [] ↔ s = []) : ∀ {parts : List Mt} {live live' new : List Mt},
    List.Forall₂ (Upd u input orig) orig live → SpellOK input orig live →
    equivalentParts u t input parts live = .ok (live', new) →
    List.Forall₂ (Upd u input orig) orig live' ∧ ∀ x ∈ new, AddedP u input orig parts x := by
  intro parts
  induction parts with
  | nil =>
    intro live live' new h0 _ h
    simp only [equivalentParts, Except.ok.injEq, Prod.mk.injEq] at h
    obtain ⟨rfl, rfl⟩ := h
    exact ⟨h0, by simp⟩
  | cons part parts ih =>
    intro live live' new h0 hs h
    simp only [equivalentParts] at h
    cases h1 : equivalentNames u t input (namesOf live) (holesOf input live part.start part.stop fun raw => .str (cleanup raw)) live with
    | error e => rw [h1] at h; simp at h
    | ok r =>
      obtain ⟨live1, new1⟩ := r
      rw [h1] at h
      simp only at h
      cases h2 : equivalentParts u t input parts live1 with
      | error e => rw [h2] at h; simp at h
      | ok r =>
        obtain ⟨live2, new2⟩ := r
        rw [h2] at h
        simp only [Except.ok.injEq, Prod.mk.injEq] at h
        obtain ⟨rfl, rfl⟩ := h
        have hholes : ∀ x ∈ holesOf input live part.start part.stop (fun raw => .str (cleanup raw)), HoleP u input orig x := by
          intro x hx
          obtain ⟨_, _, _, _, e⟩ := holesOf_spec hx
          rw [e]
          exact ⟨_, rfl, Or.inr ⟨_, _, rfl⟩, rfl, rfl, rfl⟩
        obtain ⟨a1, a2⟩ := equivalentNames_ok hl hholes hs h1
        obtain ⟨c1, c2⟩ := ih (forall2_trans h0 a1) (forall2_spell a1 hs) h2
        refine ⟨c1, ?_⟩
        intro x hx
        rcases List.mem_append.1 hx with hx | hx
        · obtain ⟨n, p1, p2, y, hy, p3, p4⟩ := a2 x hx
          obtain ⟨q1, q2, q3, q4, _⟩ := holesOf_spec hy
          refine ⟨n, p1.back h0, p2, part, by simp, by omega, by omega, by omega, ?_⟩
          intro j hj1 hj2 m hm hc
          have := (forall2_atIndex h0 j).1 (q4 j (by omega) (by omega))
          rw [List.eq_nil_iff_forall_not_mem] at this
          exact this m (by simp [atIndex, hm, hc])
        · obtain ⟨n, p1, p2, y, hy, p3⟩ := c2 x hx
          exact ⟨n, p1, p2, y, by simp [hy], p3⟩

end

/-- C36 (`EquivalentHoles`): every match stays, in place, with its name, span and tags; only a text value may change, and
only to another spelling of itself that occurs in the input or in a match.  Each added match lies in a path part, in a
stretch no match covered, is named after a match found, and its value equals that match's value and its own text up to
case.  (`lower` may be any function that keeps only the empty text empty.) -/
theorem C36_holes (u : Uni) (t : CaseTables) (hl : ∀ s, u.lower s = [] ↔ s = []) (s s' : Ms)
    (h : equivalentHoles u t s = .ok s') :
    ∃ live1 added, s' = { s with live := live1 ++ added } ∧
      List.Forall₂ (Respelled s.input u.lower cleanup s.live) s.live live1 ∧
      ∀ x ∈ added, x.tags = [c!"equivalent"] ∧ (x.rawStart = none ∧ x.rawStop = none) ∧
        (∃ m ∈ s.live, x.name = m.name ∧ ∃ v w, m.value s.input = .str v ∧ x.value s.input = .str w ∧ u.lower w = u.lower v ∧
          Spelling s.input cleanup s.live w ∧ u.lower w = u.lower (cleanup ((s.input.take x.stop).drop x.start))) ∧
        (∃ part ∈ s.markers, part.name = some c!"path" ∧ part.start ≤ x.start ∧ x.start < x.stop ∧ x.stop ≤ part.stop) ∧
        ∀ m ∈ s.live, m.start < m.stop → ¬ Overlaps m x := by
  unfold equivalentHoles at h
  cases h1 : equivalentParts u t s.input (markerSorted s.input s.live (named s.markers c!"path") (markerPredicate s.input)) s.live with
  | error e => simp only [h1] at h; simp at h
  | ok r =>
    obtain ⟨live1, new⟩ := r
    simp only [h1, Except.ok.injEq] at h
    obtain ⟨a1, a2⟩ := equivalentParts_ok (orig := s.live) hl (forall2_refl _) (fun m hm v hv => Or.inl ⟨m, hm, hv⟩) h1
    obtain ⟨added, e1, e2⟩ := appendAll_eq s.input new live1
    refine ⟨live1, added, by rw [← h, e1], a1, ?_⟩
    intro x hx
    obtain ⟨n, ⟨t1, t2, m, hm, hn, v, w, hv, hw, hlw⟩, ⟨w', hw', hsp, hlw', hr⟩, part, hp, q1, q2, q3, q4⟩ := a2 x (e2.subset hx)
    rw [hw] at hw'; cases hw'
    refine ⟨t2, hr, ⟨m, hm, t1.trans hn.symm, v, w, hv, hw, hlw, hsp, hlw'⟩, ?_, ?_⟩
    · have := mem_named.1 ((sortBy_perm _ _).mem_iff.1 hp)
      exact ⟨part, this.1, this.2, q1, q2, q3⟩
    · rintro y hy hyy ⟨o1, o2⟩
      by_cases hc : y.start ≤ x.start
      · exact q4 x.start (Nat.le_refl _) q2 y hy ⟨hc, o1⟩
      · exact q4 y.start (by omega) (by omega) y hy ⟨Nat.le_refl _, hyy⟩

/-! ### every equivalent hole is taken -/

section
variable {u : Uni} {t : CaseTables} {input : Str} {orig : List Mt}

/-- A hole and a match of that name agree up to case. -/
def Matchable (u : Uni) (input : Str) (name : Str) (live : List Mt) (hole : Mt) : Prop :=
  ∃ m ∈ live, m.name = some name ∧ c!"equivalent-ignore" ∉ m.tags ∧
    ∃ v w, m.value input = .str v ∧ hole.value input = .str w ∧ u.lower w = u.lower v

theorem Matchable.upd {name : Str} {l1 l2 : List Mt} {h : Mt} (hf : List.Forall₂ (Upd u input orig) l1 l2)
    (hm : Matchable u input name l1 h) : Matchable u input name l2 h := by
  obtain ⟨m, hm, rest⟩ := hm
  induction hf with
  | nil => simp at hm
  | @cons a b l1 l2 hab _ ih =>
    rcases List.mem_cons.1 hm with rfl | hm
    · obtain ⟨hn, ht, v, w, hv, hw, hlw⟩ := rest
      rcases hab with rfl | ⟨v', w', hv', rfl, hw', hl', hs'⟩
      · exact ⟨_, by simp, hn, ht, v, w, hv, hw, hlw⟩
      · rw [hv] at hv'; cases hv'
        exact ⟨{ m with val := some (.str w') }, List.mem_cons_self, hn, ht, w', w, hw', hw, hlw.trans hl'.symm⟩
    · obtain ⟨x, hx, r⟩ := ih hm
      exact ⟨x, by simp [hx], r⟩

theorem equivalentStep_complete {name : Str} {hole m hole' m' : Mt} {b : Bool}
    (h : equivalentStep u t input name hole m = .ok (hole', m', b)) (hm : Matchable u input name [m] hole) : b = true := by
  obtain ⟨x, hx, hn, ht, v, w, hv, hw, hlw⟩ := hm
  simp only [List.mem_singleton] at hx
  subst hx
  unfold equivalentStep at h
  have ht' : x.tags.contains c!"equivalent-ignore" = false := by simpa using ht
  simp only [hn, if_true, Mt.strValue, hv, hw, hlw, ht', Bool.false_eq_true, if_false] at h
  cases hp : preferredString t w v with
  | error e => rw [hp] at h; simp at h
  | ok new => rw [hp] at h; simp only [Except.ok.injEq, Prod.mk.injEq] at h; exact h.2.2.symm

theorem equivalentLoop_complete (hl : ∀ s, u.lower s = [] ↔ s = []) {name : Str} : ∀ {live : List Mt} {hole hole' : Mt} {live' : List Mt} {b : Bool},
    HoleP u input orig hole → SpellOK input orig live →
    equivalentLoop u t input name hole live = .ok (hole', live', b) → Matchable u input name live hole → b = true := by
  intro live
  induction live with
  | nil => rintro hole hole' live' b _ _ _ ⟨m, hm, _⟩; simp at hm
  | cons m ms ih =>
    intro hole hole' live' b hh hs h hma
    simp only [equivalentLoop] at h
    cases h1 : equivalentStep u t input name hole m with
    | error e => rw [h1] at h; simp at h
    | ok r =>
      obtain ⟨hole1, m1, b1⟩ := r
      rw [h1] at h
      simp only at h
      cases h2 : equivalentLoop u t input name hole1 ms with
      | error e => rw [h2] at h; simp at h
      | ok r =>
        obtain ⟨hole2, ms2, b2⟩ := r
        rw [h2] at h
        simp only [Except.ok.injEq, Prod.mk.injEq] at h
        obtain ⟨rfl, rfl, rfl⟩ := h
        obtain ⟨a1, a2, a3, a4, ⟨w, w1, hw, hw1, hl1⟩, a5, a6⟩ := equivalentStep_ok hl hh (hs m (by simp)) h1
        obtain ⟨x, hx, hn, ht, v, w', hv, hw', hlw⟩ := hma
        rw [hw] at hw'; cases hw'
        rcases List.mem_cons.1 hx with rfl | hx
        · rw [equivalentStep_complete h1 ⟨x, by simp, hn, ht, v, w, hv, hw, hlw⟩]; rfl
        · rw [ih a3 (fun y hy => hs y (by simp [hy])) h2 ⟨x, hx, hn, ht, v, w1, hv, hw1, hl1.trans hlw⟩, Bool.or_true]

theorem equivalentHolesFor_complete (hl : ∀ s, u.lower s = [] ↔ s = []) {name : Str} : ∀ {holes live left live' new : List Mt},
    (∀ h ∈ holes, HoleP u input orig h) → SpellOK input orig live →
    equivalentHolesFor u t input name holes live = .ok (left, live', new) →
    ∀ h ∈ holes, (h ∈ left ∧ ¬ Matchable u input name live h) ∨ ∃ x ∈ new, x.start = h.start ∧ x.stop = h.stop := by
  intro holes
  induction holes with
  | nil => intro live left live' new _ _ _ h hh; simp at hh
  | cons hole holes ih =>
    intro live left live' new hh hs h
    simp only [equivalentHolesFor] at h
    cases h1 : equivalentLoop u t input name hole live with
    | error e => rw [h1] at h; simp at h
    | ok r =>
      obtain ⟨hole1, live1, b⟩ := r
      rw [h1] at h
      simp only at h
      cases h2 : equivalentHolesFor u t input name holes live1 with
      | error e => rw [h2] at h; simp at h
      | ok r =>
        obtain ⟨left2, live2, new2⟩ := r
        rw [h2] at h
        simp only at h
        obtain ⟨a1, a2, a3, a4, _, a5, a6⟩ := equivalentLoop_ok hl (hh hole (by simp)) hs h1
        have c := ih (fun x hx => hh x (by simp [hx])) (forall2_spell a4 hs) h2
        intro y hy
        cases b with
        | true =>
          simp only [if_true, Except.ok.injEq, Prod.mk.injEq] at h
          obtain ⟨rfl, rfl, rfl⟩ := h
          rcases List.mem_cons.1 hy with rfl | hy
          · exact Or.inr ⟨hole1, by simp, a1, a2⟩
          · rcases c y hy with ⟨h3, h4⟩ | ⟨x, hx, h3⟩
            · exact Or.inl ⟨h3, fun hm => h4 (hm.upd a4)⟩
            · exact Or.inr ⟨x, by simp [hx], h3⟩
        | false =>
          simp only [Bool.false_eq_true, if_false, Except.ok.injEq, Prod.mk.injEq] at h
          obtain ⟨rfl, rfl, rfl⟩ := h
          rcases List.mem_cons.1 hy with rfl | hy
          · refine Or.inl ⟨by rw [a5 rfl]; simp, fun hm => ?_⟩
            have := equivalentLoop_complete hl (hh y (by simp)) hs h1 hm
            simp at this
          · rcases c y hy with ⟨h3, h4⟩ | ⟨x, hx, h3⟩
            · exact Or.inl ⟨by simp [h3], fun hm => h4 (hm.upd a4)⟩
            · exact Or.inr ⟨x, hx, h3⟩

theorem equivalentNames_complete (hl : ∀ s, u.lower s = [] ↔ s = []) : ∀ {names : List Str} {holes live live' new : List Mt},
    (∀ h ∈ holes, HoleP u input orig h) → SpellOK input orig live →
    equivalentNames u t input names holes live = .ok (live', new) →
    ∀ h ∈ holes, ∀ name ∈ names, Matchable u input name live h → ∃ x ∈ new, x.start = h.start ∧ x.stop = h.stop := by
  intro names
  induction names with
  | nil => intro holes live live' new _ _ _ h _ n hn; simp at hn
  | cons name names ih =>
    intro holes live live' new hh hs h
    simp only [equivalentNames] at h
    cases h1 : equivalentHolesFor u t input name holes live with
    | error e => rw [h1] at h; simp at h
    | ok r =>
      obtain ⟨left, live1, new1⟩ := r
      rw [h1] at h
      simp only at h
      cases h2 : equivalentNames u t input names left live1 with
      | error e => rw [h2] at h; simp at h
      | ok r =>
        obtain ⟨live2, new2⟩ := r
        rw [h2] at h
        simp only [Except.ok.injEq, Prod.mk.injEq] at h
        obtain ⟨rfl, rfl⟩ := h
        obtain ⟨a1, a2, _⟩ := equivalentHolesFor_ok hl hh hs h1
        intro y hy n hn hm
        rcases equivalentHolesFor_complete hl hh hs h1 y hy with ⟨b1, b2⟩ | ⟨x, hx, b⟩
        · rcases List.mem_cons.1 hn with rfl | hn
          · exact absurd hm b2
          · obtain ⟨x, hx, b⟩ := ih (fun z hz => hh z (a2.subset hz)) (forall2_spell a1 hs) h2 y b1 n hn (hm.upd a1)
            exact ⟨x, by simp [hx], b⟩
        · exact ⟨x, by simp [hx], b⟩

theorem mem_namesOf {l : List Mt} {m : Mt} {n : Str} (hm : m ∈ l) (hn : m.name = some n) : n ∈ namesOf l := by
  unfold namesOf
  have gen : ∀ (xs acc : List Str), (n ∈ acc ∨ n ∈ xs) → n ∈ xs.foldl (fun acc n => if acc.contains n then acc else acc ++ [n]) acc := by
    intro xs
    induction xs with
    | nil => intro acc h; simpa using h
    | cons x xs ih =>
      intro acc h
      apply ih
      rcases h with h | h
      · left; dsimp only; split <;> simp [h]
      · rcases List.mem_cons.1 h with rfl | h
        · left
          dsimp only
          split
          · rename_i hc; simpa using hc
          · simp
        · exact Or.inr h
  exact gen _ _ (Or.inr (List.mem_filterMap.2 ⟨m, hm, hn⟩))

theorem holesOf_congr {l1 l2 : List Mt} (h : List.Forall₂ (Upd u input orig) l1 l2) (a b : Nat) (fmt : Str → MVal) :
    holesOf input l2 a b fmt = holesOf input l1 a b fmt := by
  have e1 : maxEnd input l2 = maxEnd input l1 := by
    unfold maxEnd
    generalize input.length = n
    induction h generalizing n with
    | nil => rfl
    | cons hab _ ih => simp only [List.foldl_cons, hab.same.2.1]; exact ih _
  have e2 : (fun i => (atIndex l2 i).isEmpty) = fun i => (atIndex l1 i).isEmpty := by
    funext i
    rw [Bool.eq_iff_iff, List.isEmpty_iff, List.isEmpty_iff]
    exact forall2_atIndex h i
  unfold holesOf
  rw [e1, e2]

theorem equivalentParts_complete (hl : ∀ s, u.lower s = [] ↔ s = []) : ∀ {parts : List Mt} {live live' new : List Mt},
    List.Forall₂ (Upd u input orig) orig live → SpellOK input orig live →
    equivalentParts u t input parts live = .ok (live', new) →
    ∀ part ∈ parts, ∀ h ∈ holesOf input orig part.start part.stop (fun raw => .str (cleanup raw)), ∀ name,
      Matchable u input name orig h → ∃ x ∈ new, x.start = h.start ∧ x.stop = h.stop := by
  intro parts
  induction parts with
  | nil => intro live live' new _ _ _ part hp; simp at hp
  | cons part parts ih =>
    intro live live' new h0 hs h
    simp only [equivalentParts] at h
    cases h1 : equivalentNames u t input (namesOf live) (holesOf input live part.start part.stop fun raw => .str (cleanup raw)) live with
    | error e => rw [h1] at h; simp at h
    | ok r =>
      obtain ⟨live1, new1⟩ := r
      rw [h1] at h
      simp only at h
      cases h2 : equivalentParts u t input parts live1 with
      | error e => rw [h2] at h; simp at h
      | ok r =>
        obtain ⟨live2, new2⟩ := r
        rw [h2] at h
        simp only [Except.ok.injEq, Prod.mk.injEq] at h
        obtain ⟨rfl, rfl⟩ := h
        have hholes : ∀ x ∈ holesOf input live part.start part.stop (fun raw => .str (cleanup raw)), HoleP u input orig x := by
          intro x hx
          obtain ⟨_, _, _, _, e⟩ := holesOf_spec hx
          rw [e]
          exact ⟨_, rfl, Or.inr ⟨_, _, rfl⟩, rfl, rfl, rfl⟩
        obtain ⟨a1, _⟩ := equivalentNames_ok hl hholes hs h1
        intro q hq y hy n hm
        rcases List.mem_cons.1 hq with rfl | hq
        · have hm' := hm.upd h0
          obtain ⟨m, hmm, hn, _⟩ := hm'
          obtain ⟨x, hx, hxx⟩ := equivalentNames_complete hl hholes hs h1 y (by rw [holesOf_congr h0]; exact hy) n
            (mem_namesOf hmm hn) (hm.upd h0)
          exact ⟨x, by simp [hx], hxx⟩
        · obtain ⟨x, hx, hxx⟩ := ih (forall2_trans h0 a1) (forall2_spell a1 hs) h2 q hq y hy n hm
          exact ⟨x, by simp [hx], hxx⟩

end

/-- C36 (`EquivalentHoles`): every hole of a path part whose cleaned-up text equals, up to case, the text value of some named
match (one not tagged `equivalent-ignore`) is reported. -/
theorem C36_complete (u : Uni) (t : CaseTables) (hl : ∀ s, u.lower s = [] ↔ s = []) (s s' : Ms)
    (h : equivalentHoles u t s = .ok s') (part : Mt) (hp : part ∈ s.markers) (hpn : part.name = some c!"path")
    (hole : Mt) (hh : hole ∈ holesOf s.input s.live part.start part.stop (fun raw => .str (cleanup raw)))
    (m : Mt) (hm : m ∈ s.live) (name v : Str) (hn : m.name = some name) (ht : c!"equivalent-ignore" ∉ m.tags)
    (hv : m.value s.input = .str v)
    (heq : u.lower (cleanup ((s.input.take hole.stop).drop hole.start)) = u.lower v) :
    ∃ x ∈ s'.live, x.start = hole.start ∧ x.stop = hole.stop := by
  unfold equivalentHoles at h
  cases h1 : equivalentParts u t s.input (markerSorted s.input s.live (named s.markers c!"path") (markerPredicate s.input)) s.live with
  | error e => simp only [h1] at h; simp at h
  | ok r =>
    obtain ⟨live1, new⟩ := r
    simp only [h1, Except.ok.injEq] at h
    obtain ⟨_, _, _, _, e⟩ := holesOf_spec hh
    obtain ⟨x, hx, hxx⟩ := equivalentParts_complete (orig := s.live) hl (forall2_refl _) (fun m hm v hv => Or.inl ⟨m, hm, hv⟩) h1 part
      ((sortBy_perm _ _).mem_iff.2 (mem_named.2 ⟨hp, hpn⟩)) hole hh name
      ⟨m, hm, hn, ht, v, _, hv, by rw [e]; rfl, heq⟩
    obtain ⟨y, hy, hk⟩ := appendAll_has s.input new live1 x hx
    refine ⟨y, by rw [← h]; exact hy, ?_, ?_⟩
    · rw [← hxx.1]; exact (congrArg MtKey.start hk).symm
    · rw [← hxx.2]; exact (congrArg MtKey.stop hk).symm

/-- A simple table of case: `isupper` and `istitle` on the first letter only. -/
def asciiCase : CaseTables := ⟨fun s => s.head?.any Char.isUpper, fun s => s.all Char.isUpper⟩

/-- `show` is found as a title and `SHOW` in a hole: the hole becomes a title too. -/
def equivExample : Ms :=
  ⟨c!"Show/SHOW", [{ id := 0, start := 0, stop := 4, name := some c!"title" }],
    [{ id := 1, start := 0, stop := 4, name := some c!"path" }, { id := 2, start := 5, stop := 9, name := some c!"path" }]⟩

example : ∃ u : Uni, (∀ s, u.lower s = [] ↔ s = []) ∧
    (equivalentHoles u asciiCase equivExample).map (fun s => s.live.map fun m => (m.start, m.name, m.value s.input)) =
      .ok [(0, some c!"title", .str c!"Show"), (5, some c!"title", .str c!"Show")] := by
  refine ⟨⟨fun _ => none, fun _ => false, List.map Char.toLower, id⟩, by simp, by rfl⟩

end Guessit
