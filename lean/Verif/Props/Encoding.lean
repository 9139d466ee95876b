import Verif.Spec.Encoding
import Verif.Proofs.Dict
import Verif.Proofs.NoExit

/-! # C52: byte strings in options are decoded, everywhere and nothing else changes -/

namespace Guessit

open Spec

theorem fixKey_str {k k' : Key} (h : fixKey k = .ok k') : ∃ s, k' = .str s := by
  cases k with
  | str s => simp [fixKey] at h; exact ⟨s, h.symm⟩
  | bytes b =>
    simp only [fixKey] at h
    split at h
    · cases h
    · injection h with h; exact ⟨_, h.symm⟩

theorem fixPair_ok {k : Key} {v : PyVal} {k' : Key} {v' : PyVal} (h : fixPair (k, v) = .ok (k', v')) :
    fixKey k = .ok k' ∧ fixEncoding v = .ok v' := by
  simp only [fixPair] at h
  split at h
  · cases h
  · split at h
    · cases h
    · injection h with h; injection h with h1 h2; subst h1 h2; exact ⟨by assumption, by assumption⟩

theorem Dict.mem_set {d : Dict} {k : Key} {v : PyVal} {e : Key × PyVal} (h : e ∈ d.set k v) : e = (k, v) ∨ e ∈ d := by
  induction d with
  | nil => simp [Dict.set] at h; exact Or.inl h
  | cons e' d ih =>
    obtain ⟨k', v'⟩ := e'
    simp only [Dict.set] at h
    split at h
    · rcases List.mem_cons.1 h with h | h
      · exact Or.inl h
      · exact Or.inr (by simp [h])
    · rcases List.mem_cons.1 h with h | h
      · exact Or.inr (by simp [h])
      · rcases ih h with h | h
        · exact Or.inl h
        · exact Or.inr (by simp [h])

theorem fixDict_inv (d : List (Key × PyVal)) (ih : ∀ e ∈ d, ∀ w, fixEncoding e.2 = .ok w → Textual w) :
    ∀ acc e, Dict.WF acc → (∀ p ∈ acc, ∃ s, p.1 = .str s) → (∀ p ∈ acc, Textual p.2) → fixDict acc d = .ok e →
      Dict.WF e ∧ (∀ p ∈ e, ∃ s, p.1 = .str s) ∧ (∀ p ∈ e, Textual p.2) := by
  induction d with
  | nil => intro acc e h1 h2 h3 h; simp only [fixDict] at h; injection h with h; subst h; exact ⟨h1, h2, h3⟩
  | cons p d ihd =>
    intro acc e h1 h2 h3 h
    obtain ⟨k, v⟩ := p
    simp only [fixDict] at h
    split at h
    · cases h
    · rename_i k' v' hp
      obtain ⟨hk, hv⟩ := fixPair_ok hp
      refine ihd (fun e he => ih e (List.mem_cons_of_mem _ he)) _ _ (Dict.set_wf h1 _ _) ?_ ?_ h
      · intro p hp
        rcases Dict.mem_set hp with rfl | hp
        · exact fixKey_str hk
        · exact h2 p hp
      · intro p hp
        rcases Dict.mem_set hp with rfl | hp
        · exact ih (k, v) (by simp) _ hv
        · exact h3 p hp

theorem forall₂_right {α β : Type} {R : α → β → Prop} {xs : List α} {ys : List β} (h : List.Forall₂ R xs ys) {y : β}
    (hy : y ∈ ys) : ∃ x ∈ xs, R x y := by
  induction h with
  | nil => simp at hy
  | cons h _ ih =>
    rcases List.mem_cons.1 hy with rfl | hy
    · exact ⟨_, by simp, h⟩
    · obtain ⟨x, hx, hr⟩ := ih hy; exact ⟨x, by simp [hx], hr⟩

theorem fixList_get {xs ys : List PyVal} (h : fixList xs = .ok ys) :
    List.Forall₂ (fun x y => fixEncoding x = .ok y) xs ys := by
  induction xs generalizing ys with
  | nil => simp only [fixList] at h; injection h with h; subst h; exact .nil
  | cons x xs ih =>
    simp only [fixList] at h
    split at h
    · cases h
    · split at h
      · cases h
      · injection h with h; subst h; exact .cons (by assumption) (ih (by assumption))

theorem fixList_of_get {xs ys : List PyVal} (h : List.Forall₂ (fun x y => fixEncoding x = .ok y) xs ys) :
    fixList xs = .ok ys := by
  induction h with
  | nil => rfl
  | cons h _ ih => simp only [fixList, h, ih]

/-- C52: after decoding, no byte string is left in the options, at any depth, and every dictionary is well formed. -/
theorem C52_no_bytes : ∀ v w : PyVal, fixEncoding v = .ok w → Textual w := by
  apply PyVal.ind
  · intro v hs w h
    cases v <;> simp only [fixEncoding] at h <;> simp only [Spec.Scalar] at hs
    case bytes =>
      split at h
      · cases h
      · injection h with h; subst h; exact .str _
    all_goals (injection h with h; subst h; constructor)
  · intro xs ih w h
    simp only [fixEncoding] at h
    split at h
    · cases h
    · rename_i ys hy
      injection h with h; subst h
      refine .list _ fun y hmem => ?_
      obtain ⟨x, hx, hxy⟩ := forall₂_right (fixList_get hy) hmem
      exact ih x hx y hxy
  · intro d ih w h
    simp only [fixEncoding] at h
    split at h
    · cases h
    · rename_i e he
      injection h with h; subst h
      obtain ⟨h1, h2, h3⟩ := fixDict_inv d ih [] e (by simp [Dict.WF]) (by simp) (by simp) he
      exact .dict _ h1 h2 h3

theorem Dict.set_append {d : Dict} {k : Key} {v : PyVal} (h : k ∉ d.map Prod.fst) : d.set k v = d ++ [(k, v)] := by
  induction d with
  | nil => rfl
  | cons e d ih =>
    obtain ⟨k', v'⟩ := e
    simp only [List.map_cons, List.mem_cons, not_or] at h
    simp only [Dict.set, if_neg (fun h' => h.1 (Eq.symm h')), List.cons_append, ih h.2]

/-- C52: a value without byte strings is passed through unchanged. -/
theorem C52_text_unchanged : ∀ v : PyVal, Textual v → fixEncoding v = .ok v := by
  apply PyVal.ind
  · intro v hs h
    cases v <;> simp only [fixEncoding] <;> simp only [Spec.Scalar] at hs
    cases h
  · intro xs ih h
    cases h with | list _ h =>
    have : fixList xs = .ok xs := by
      refine fixList_of_get ?_
      induction xs with
      | nil => exact .nil
      | cons x xs ihx =>
        exact .cons (ih x (by simp) (h x (by simp))) (ihx (fun y hy => ih y (by simp [hy])) (fun y hy => h y (by simp [hy])))
    simp only [fixEncoding, this]
  · intro d ih h
    cases h with | dict _ hwf hk hv =>
    have : ∀ acc, Dict.WF (acc ++ d) → fixDict acc d = .ok (acc ++ d) := by
      clear hwf
      induction d with
      | nil => intro acc _; simp [fixDict]
      | cons e d ihd =>
        intro acc hwf
        obtain ⟨k, v⟩ := e
        obtain ⟨s, hs⟩ := hk (k, v) (by simp)
        simp only at hs
        subst hs
        have h1 : fixPair (.str s, v) = .ok (.str s, v) := by
          simp only [fixPair, fixKey, ih (.str s, v) (by simp) (hv _ (by simp))]
        simp only [fixDict, h1]
        have hn : (Key.str s) ∉ acc.map Prod.fst := by
          unfold Dict.WF at hwf
          rw [List.map_append, List.nodup_append] at hwf
          intro hm
          exact hwf.2.2 _ hm _ (by simp) rfl
        rw [Dict.set_append hn, ihd (fun e he => ih e (by simp [he])) (fun e he => hk e (by simp [he]))
          (fun e he => hv e (by simp [he])) _ (by simpa using hwf)]
        simp
    simp only [fixEncoding, this [] (by simpa using hwf), List.nil_append]

/-- C52: decoding twice is decoding once. -/
theorem C52_idempotent (v w : PyVal) (h : fixEncoding v = .ok w) : fixEncoding w = .ok w :=
  C52_text_unchanged w (C52_no_bytes v w h)

theorem fixDict_notin {d : List (Key × PyVal)} {acc e : Dict} {k : Key} (h : fixDict acc d = .ok e)
    (hno : ∀ p ∈ d, fixKey p.1 ≠ .ok k) : e.get? k = acc.get? k := by
  induction d generalizing acc with
  | nil => simp only [fixDict] at h; injection h with h; subst h; rfl
  | cons p d ih =>
    obtain ⟨k', v'⟩ := p
    simp only [fixDict] at h
    split at h
    · cases h
    · rename_i k₁ v₁ hp
      rw [ih h (fun p hp => hno p (by simp [hp])), Dict.get?_set, if_neg]
      rintro rfl
      exact hno (k', v') (by simp) (fixPair_ok hp).1

/-- C52: what the decoded options say about a name is the decoding of the last entry with that name (written as text or as
bytes), and nothing if there is no such entry. -/
theorem C52_lookup (d : Dict) (e : Dict) (k : Key) (h : fixDict [] d = .ok e) :
    (∀ pre k₀ v₀ post, d = pre ++ (k₀, v₀) :: post → fixKey k₀ = .ok k → (∀ p ∈ post, fixKey p.1 ≠ .ok k) →
      ∃ w, fixEncoding v₀ = .ok w ∧ e.get? k = some w) ∧
    ((∀ p ∈ d, fixKey p.1 ≠ .ok k) → e.get? k = none) := by
  refine ⟨?_, fun hno => by rw [fixDict_notin h hno]; rfl⟩
  intro pre k₀ v₀ post hd hk hpost
  rw [hd] at h
  clear hd
  generalize ([] : Dict) = acc at h
  induction pre generalizing acc with
  | nil =>
    simp only [List.nil_append, fixDict] at h
    split at h
    · cases h
    · rename_i k₁ v₁ hp
      obtain ⟨h1, h2⟩ := fixPair_ok hp
      rw [hk] at h1; injection h1 with h1; subst h1
      exact ⟨v₁, h2, by rw [fixDict_notin h hpost, Dict.get?_set, if_pos rfl]⟩
  | cons p pre ih =>
    simp only [List.cons_append, fixDict] at h
    split at h
    · cases h
    · exact ih _ h

/-- C52: decoding fails only because of a byte string that is not ASCII. -/
theorem C52_only_unicode_error : ∀ (v : PyVal) (err : PyErr), fixEncoding v = .error err → err = .unicodeError := by
  have hk : ∀ (k : Key) err, fixKey k = .error err → err = .unicodeError := by
    intro k err h
    cases k with
    | str s => simp [fixKey] at h
    | bytes b =>
      simp only [fixKey, asciiDecode] at h
      split at h
      · split at * <;> simp_all
      · cases h
  apply PyVal.ind
  · intro v hs err h
    cases v <;> simp only [fixEncoding] at h <;> (try cases h)
    · simp only [asciiDecode] at h
      split at h
      · split at * <;> simp_all
      · cases h
    · simp [Spec.Scalar] at hs
    · simp [Spec.Scalar] at hs
  · intro xs ih err h
    have : ∀ err, fixList xs = .error err → err = .unicodeError := by
      clear h err
      induction xs with
      | nil => intro err h; simp [fixList] at h
      | cons x xs ihx =>
        intro err h
        simp only [fixList] at h
        split at h
        · injection h with h; subst h; exact ih x (by simp) _ (by assumption)
        · split at h
          · injection h with h; subst h; exact ihx (fun y hy => ih y (by simp [hy])) _ (by assumption)
          · cases h
    simp only [fixEncoding] at h
    split at h
    · injection h with h; subst h; exact this _ (by assumption)
    · cases h
  · intro d ih err h
    have : ∀ acc err, fixDict acc d = .error err → err = .unicodeError := by
      clear h err
      induction d with
      | nil => intro acc err h; simp [fixDict] at h
      | cons e d ihd =>
        intro acc err h
        obtain ⟨k, v⟩ := e
        simp only [fixDict] at h
        split at h
        · rename_i hp
          injection h with h; subst h
          simp only [fixPair] at hp
          split at hp
          · injection hp with hp; subst hp; exact hk _ _ (by assumption)
          · split at hp
            · injection hp with hp; subst hp; exact ih (k, v) (by simp) _ (by assumption)
            · cases hp
        · exact ihd (fun e he => ih e (by simp [he])) _ _ h
    simp only [fixEncoding] at h
    split at h
    · injection h with h; subst h; exact this _ _ (by assumption)
    · cases h

/-- Concrete case: nested bytes are decoded, and `b'name'` given after `'name'` wins. -/
example : fixEncoding (.dict [(.str c!"name", .int 1), (.bytes [110, 97, 109, 101], .list [.bytes [97], .int 2])]) =
    .ok (.dict [(.str c!"name", .list [.str c!"a", .int 2])]) := rfl

end Guessit
