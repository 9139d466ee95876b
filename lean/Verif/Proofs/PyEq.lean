import Verif.Spec.Options
import Verif.Proofs.Dict
import Mathlib.Data.List.Perm.Subperm

/-! `==` is an equivalence on real Python values. -/

namespace Guessit
open Spec

/-- Induction on Python values: scalars, lists of smaller values, dictionaries of smaller values. -/
theorem PyVal.ind {P : PyVal → Prop} (scalar : ∀ v, Scalar v → P v)
    (list : ∀ xs, (∀ x ∈ xs, P x) → P (.list xs))
    (dict : ∀ d : Dict, (∀ e ∈ d, P e.2) → P (.dict d)) : ∀ v, P v := by
  intro v
  refine PyVal.rec (motive_1 := P) (motive_2 := fun xs => ∀ x ∈ xs, P x)
    (motive_3 := fun d => ∀ e ∈ d, P e.2) (motive_4 := fun e => P e.2)
    ?_ ?_ ?_ ?_ ?_ ?_ ?_ ?_ ?_ ?_ ?_ ?_ ?_ v
  · exact scalar _ trivial
  · intro b; exact scalar _ trivial
  · intro b; exact scalar _ trivial
  · intro b; exact scalar _ trivial
  · intro b; exact scalar _ trivial
  · intro b; exact scalar _ trivial
  · intro xs h; exact list xs h
  · intro d h; exact dict d h
  · simp
  · intro x xs hx hxs y hy
    rcases List.mem_cons.1 hy with rfl | hy
    · exact hx
    · exact hxs y hy
  · simp
  · intro x xs hx hxs y hy
    rcases List.mem_cons.1 hy with rfl | hy
    · exact hx
    · exact hxs y hy
  · intro k v h; exact h

theorem realList_iff {xs : List PyVal} : RealList xs ↔ ∀ x ∈ xs, Real x := by
  induction xs with
  | nil => simp [RealList]
  | cons x xs ih => simp [RealList, ih]

theorem realDict_iff {d : Dict} : RealDict d ↔ ∀ e ∈ d, Real e.2 := by
  induction d with
  | nil => simp [RealDict]
  | cons e d ih => obtain ⟨k, v⟩ := e; simp [RealDict, RealPair, ih]

theorem pyEqDict_iff {xs ys : Dict} :
    pyEqDict xs ys = true ↔ ∀ e ∈ xs, ∃ w, Dict.get? ys e.1 = some w ∧ pyEq e.2 w = true := by
  induction xs with
  | nil => simp [pyEqDict]
  | cons e xs ih =>
    obtain ⟨k, v⟩ := e
    simp only [pyEqDict, Bool.and_eq_true, ih, List.mem_cons, forall_eq_or_imp, Dict.get?]
    constructor
    · rintro ⟨h1, h2⟩
      refine ⟨?_, h2⟩
      split at h1
      · rename_i w hw; exact ⟨w, hw, h1⟩
      · cases h1
    · rintro ⟨⟨w, hw, h1⟩, h2⟩
      refine ⟨?_, h2⟩
      rw [hw]; exact h1

theorem pyEq_dict {xs ys : Dict} : pyEq (.dict xs) (.dict ys) = true ↔
    xs.length = ys.length ∧ ∀ e ∈ xs, ∃ w, Dict.get? ys e.1 = some w ∧ pyEq e.2 w = true := by
  simp [pyEq, pyEqDict_iff]

theorem pyEq_refl : ∀ v, Real v → pyEq v v = true := by
  apply PyVal.ind
  · intro v hs _; cases v <;> simp_all [pyEq, PyVal.num?, Scalar]
  · intro xs ih hr
    simp only [Real, realList_iff] at hr
    simp only [pyEq]
    induction xs with
    | nil => simp [pyEqList]
    | cons x xs ihx =>
      simp only [pyEqList, Bool.and_eq_true]
      exact ⟨ih x (by simp) (hr x (by simp)), ihx (fun y hy => ih y (by simp [hy])) (fun y hy => hr y (by simp [hy]))⟩
  · intro d ih hr
    simp only [Real, realDict_iff] at hr
    rw [pyEq_dict]
    refine ⟨rfl, fun e he => ⟨e.2, Dict.get?_of_mem hr.1 he, ih e he (hr.2 e he)⟩⟩

/-- Dictionaries with equal sizes, distinct keys and an inclusion of keys have the same keys. -/
theorem keys_perm {xs ys : Dict} (hx : (xs.map Prod.fst).Nodup)
    (hl : xs.length = ys.length) (hsub : ∀ e ∈ xs, ∃ w, Dict.get? ys e.1 = some w) :
    ∀ k, k ∈ ys.map Prod.fst → k ∈ xs.map Prod.fst := by
  have hs : xs.map Prod.fst ⊆ ys.map Prod.fst := by
    intro k hk
    obtain ⟨e, he, rfl⟩ := List.mem_map.1 hk
    obtain ⟨w, hw⟩ := hsub e he
    exact Dict.get?_isSome_iff.1 (by rw [hw]; rfl)
  have hp : (xs.map Prod.fst).Perm (ys.map Prod.fst) :=
    (List.subperm_of_subset hx hs).perm_of_length_le (by simp [hl])
  intro k hk
  exact hp.mem_iff.2 hk

theorem pyEqList_length : ∀ {xs ys : List PyVal}, pyEqList xs ys = true → xs.length = ys.length
  | [], [], _ => rfl
  | [], _ :: _, h => by simp [pyEqList] at h
  | _ :: _, [], h => by simp [pyEqList] at h
  | x :: xs, y :: ys, h => by
    simp only [pyEqList, Bool.and_eq_true] at h
    simp [pyEqList_length h.2]

theorem pyEq_symm : ∀ a, Real a → ∀ b, Real b → pyEq a b = true → pyEq b a = true := by
  apply PyVal.ind
  · intro v hs _ b _ h
    cases v <;> cases b <;> simp_all [pyEq, PyVal.num?, Scalar]
  · intro xs ih hr b hb h
    cases b with
    | list ys =>
      simp only [Real, realList_iff] at hr hb
      simp only [pyEq] at h ⊢
      induction xs generalizing ys with
      | nil => cases ys <;> simp_all [pyEqList]
      | cons x xs ihx =>
        cases ys with
        | nil => simp [pyEqList] at h
        | cons y ys =>
          simp only [pyEqList, Bool.and_eq_true] at h ⊢
          refine ⟨ih x (by simp) (hr x (by simp)) y (hb y (by simp)) h.1, ?_⟩
          exact ihx (fun z hz => ih z (by simp [hz])) _ h.2 (fun z hz => hr z (by simp [hz]))
            (fun z hz => hb z (by simp [hz]))
    | _ => simp [pyEq, PyVal.num?] at h
  · intro d ih hr b hb h
    cases b with
    | dict ys =>
      simp only [Real, realDict_iff] at hr hb
      rw [pyEq_dict] at h ⊢
      refine ⟨h.1.symm, ?_⟩
      intro e he
      have hk := keys_perm hr.1 h.1 (fun e he => (h.2 e he).imp fun _ h => h.1) e.1 (List.mem_map.2 ⟨e, he, rfl⟩)
      obtain ⟨e', he', hee⟩ := List.mem_map.1 hk
      obtain ⟨w, hw, heq⟩ := h.2 e' he'
      rw [hee, Dict.get?_of_mem hb.1 (show (e.1, e.2) ∈ ys from he)] at hw
      cases hw
      refine ⟨e'.2, ?_, ih e' he' (hr.2 e' he') _ (hb.2 e he) heq⟩
      rw [← hee]; exact Dict.get?_of_mem hr.1 he'
    | _ => simp [pyEq, PyVal.num?] at h

theorem pyEq_trans : ∀ a b c, pyEq a b = true → pyEq b c = true → pyEq a c = true := by
  intro a
  revert a
  apply PyVal.ind
  · intro v hs b c h1 h2
    cases v <;> simp only [Scalar] at hs <;> cases b <;> simp only [pyEq, PyVal.num?, Bool.false_eq_true] at h1 <;>
      cases c <;> simp_all [pyEq, PyVal.num?]
  · intro xs ih b c h1 h2
    cases b with
    | list ys =>
      cases c with
      | list zs =>
        simp only [pyEq] at h1 h2 ⊢
        induction xs generalizing ys zs with
        | nil => cases ys <;> cases zs <;> simp_all [pyEqList]
        | cons x xs ihx =>
          cases ys with
          | nil => simp [pyEqList] at h1
          | cons y ys =>
            cases zs with
            | nil => simp [pyEqList] at h2
            | cons z zs =>
              simp only [pyEqList, Bool.and_eq_true] at h1 h2 ⊢
              exact ⟨ih x (by simp) y z h1.1 h2.1, ihx (fun z hz => ih z (by simp [hz])) _ h1.2 _ h2.2⟩
      | _ => simp [pyEq] at h2
    | _ => simp [pyEq, PyVal.num?] at h1
  · intro d ih b c h1 h2
    cases b with
    | dict ys =>
      cases c with
      | dict zs =>
        rw [pyEq_dict] at h1 h2 ⊢
        refine ⟨h1.1.trans h2.1, ?_⟩
        intro e he
        obtain ⟨w, hw, e1⟩ := h1.2 e he
        obtain ⟨u, hu, e2⟩ := h2.2 _ (Dict.mem_of_get? hw)
        exact ⟨u, hu, ih e he _ _ e1 e2⟩
      | _ => simp [pyEq] at h2
    | _ => simp [pyEq, PyVal.num?] at h1

end Guessit
