import Verif.Spec.Output
import Verif.Proofs.PyEq

namespace Guessit
open Spec

/-! ### Sorting -/

theorem insertBySpan_perm (m : OutMatch) (xs : List OutMatch) : (insertBySpan m xs).Perm (m :: xs) := by
  induction xs with
  | nil => exact List.Perm.refl _
  | cons x xs ih =>
    simp only [insertBySpan]
    split
    · exact List.Perm.refl _
    · exact (List.Perm.cons x ih).trans (List.Perm.swap m x xs)

theorem insertBySpan_ordered (m : OutMatch) (xs : List OutMatch) (h : xs.Pairwise Before) :
    (insertBySpan m xs).Pairwise Before := by
  induction xs with
  | nil => simp [insertBySpan]
  | cons x xs ih =>
    simp only [insertBySpan]
    obtain ⟨hx, hxs⟩ := List.pairwise_cons.1 h
    split
    · rename_i hlt
      refine List.pairwise_cons.2 ⟨?_, h⟩
      intro y hy
      rcases List.mem_cons.1 hy with rfl | hy
      · unfold Before; omega
      · have := hx y hy; unfold Before at *; omega
    · rename_i hlt
      refine List.pairwise_cons.2 ⟨?_, ih hxs⟩
      intro y hy
      rcases List.mem_cons.1 ((insertBySpan_perm m xs).mem_iff.1 hy) with rfl | hy
      · unfold Before; omega
      · exact hx y hy

theorem insertBySpan_filter (m : OutMatch) (xs : List OutMatch) (h : xs.Pairwise Before) (s e : Nat) :
    (insertBySpan m xs).filter (fun m => m.start == s && m.stop == e) =
      xs.filter (fun m => m.start == s && m.stop == e) ++ [m].filter (fun m => m.start == s && m.stop == e) := by
  induction xs with
  | nil => simp [insertBySpan]
  | cons x xs ih =>
    obtain ⟨hx, hxs⟩ := List.pairwise_cons.1 h
    simp only [insertBySpan]
    split
    · rename_i hlt
      by_cases hm : (m.start == s && m.stop == e) = true
      · have hnone : (x :: xs).filter (fun m => m.start == s && m.stop == e) = [] := by
          rw [List.filter_eq_nil_iff]
          intro y hy hye
          simp only [Bool.and_eq_true, beq_iff_eq] at hm hye
          rcases List.mem_cons.1 hy with rfl | hy
          · omega
          · have := hx y hy; unfold Before at this; omega
        rw [hnone, List.filter_cons, hnone]; simp only [hm, if_true, List.filter_cons, List.filter_nil, List.nil_append]
      · rw [List.filter_cons]; simp only [hm, List.filter_cons, List.filter_nil]; simp
    · rw [List.filter_cons, ih hxs, List.filter_cons (xs := xs)]
      split <;> simp

theorem sortBySpan_stable (ms : List OutMatch) : StableSorted ms (sortBySpan ms) := by
  have gen : ∀ ms acc done, StableSorted done acc → StableSorted (done ++ ms) (ms.foldl (fun acc m => insertBySpan m acc) acc) := by
    intro ms
    induction ms with
    | nil => intro acc done h; simpa using h
    | cons m ms ih =>
      intro acc done h
      simp only [List.foldl_cons]
      have := ih (insertBySpan m acc) (done ++ [m]) ⟨?_, ?_, ?_⟩
      · simpa using this
      · exact (insertBySpan_perm m acc).trans ((List.Perm.cons m h.perm).trans (List.perm_append_singleton m done).symm)
      · exact insertBySpan_ordered m acc h.ordered
      · intro s e
        rw [insertBySpan_filter m acc h.ordered, h.stable, List.filter_append]
  exact gen ms [] [] ⟨List.Perm.refl _, List.Pairwise.nil, fun _ _ => rfl⟩

/-! ### The dictionary -/

/-- Adding one more value to the distinct values seen so far. -/
def snoc (d : List PyVal) (v : PyVal) : List PyVal := if d.any (fun w => pyEq w v) then d else d ++ [v]

theorem distinct_snoc (vs : List PyVal) (v : PyVal) : distinct (vs ++ [v]) = snoc (distinct vs) v := by
  induction vs with
  | nil => simp [distinct, snoc]
  | cons w vs ih =>
    simp only [List.cons_append, distinct, ih, snoc]
    by_cases hw : pyEq w v = true
    · simp only [List.any_cons, hw, Bool.true_or, if_true]
      congr 1
      split
      · rfl
      · rw [List.filter_append]; simp [hw]
    · have hw' : pyEq w v = false := by simpa using hw
      simp only [List.any_cons, hw', Bool.false_or]
      have hany : ((distinct vs).filter (fun x => !pyEq w x)).any (fun x => pyEq x v) =
          (distinct vs).any (fun x => pyEq x v) := by
        rw [Bool.eq_iff_iff]
        simp only [List.any_eq_true, List.mem_filter, Bool.not_eq_true']
        constructor
        · rintro ⟨x, ⟨h1, _⟩, h2⟩; exact ⟨x, h1, h2⟩
        · rintro ⟨x, h1, h2⟩
          refine ⟨x, ⟨h1, ?_⟩, h2⟩
          cases hwx : pyEq w x
          · rfl
          · rw [pyEq_trans w x v hwx h2] at hw'; cases hw'
      rw [hany]
      split
      · rfl
      · rw [List.filter_append]; simp [hw']

/-- How the loop stores the distinct values `d` seen so far. -/
def stored (single enforce : Bool) (d : List PyVal) : Option PyVal :=
  match d with
  | [] => none
  | v :: rest =>
    match single, enforce with
    | true, false => some v
    | true, true => some (.list [v])
    | false, true => some (.list (v :: rest))
    | false, false => if rest.isEmpty then some v else some (.list (v :: rest))

theorem shape_eq (single enforce : Bool) (vs : List PyVal) : shape single enforce vs = stored single enforce (distinct vs) := rfl

/-- A value that rebulk's `to_dict` treats as a single value. -/
def Plain (v : PyVal) : Prop := Real v ∧ ∀ l, v ≠ .list l

theorem distinct_sub {vs : List PyVal} : ∀ x ∈ distinct vs, x ∈ vs := by
  induction vs with
  | nil => simp [distinct]
  | cons v vs ih =>
    intro x hx
    simp only [distinct, List.mem_cons] at hx
    rcases hx with rfl | hx
    · simp
    · exact List.mem_cons_of_mem _ (ih x (List.mem_of_mem_filter hx))

theorem any_comm {l : List PyVal} {v : PyVal} (hl : ∀ x ∈ l, Real x) (hv : Real v) :
    pyIn v l = l.any (fun w => pyEq w v) := by
  unfold pyIn
  rw [Bool.eq_iff_iff]
  simp only [List.any_eq_true]
  constructor
  · rintro ⟨x, h1, h2⟩; exact ⟨x, h1, pyEq_symm _ hv _ (hl x h1) h2⟩
  · rintro ⟨x, h1, h2⟩; exact ⟨x, h1, pyEq_symm _ (hl x h1) _ hv h2⟩

theorem addValue_stored (single enforce : Bool) (d : Dict) (m : OutMatch) (seen : List PyVal)
    (hseen : ∀ x ∈ seen, Plain x) (hm : Plain m.value)
    (h : d.get? (.str m.name) = stored single enforce seen) :
    (addValue single enforce d m).get? (.str m.name) = stored single enforce (snoc seen m.value) := by
  unfold addValue
  simp only
  cases seen with
  | nil =>
    rw [h]
    simp only [stored, snoc, List.any_nil, Bool.false_eq_true, if_false, List.nil_append]
    cases single <;> cases enforce <;> simp only <;>
      (try (have hv := hm.2; cases hmv : m.value <;> simp_all [List.isEmpty]))
    all_goals simp [List.isEmpty]
  | cons v rest =>
    have hv := hseen v (by simp)
    have hrest : ∀ x ∈ v :: rest, Real x := fun x hx => (hseen x hx).1
    have hin := any_comm hrest hm.1
    have hsn : snoc (v :: rest) m.value = if pyIn m.value (v :: rest) then v :: rest else v :: (rest ++ [m.value]) := by
      unfold snoc; rw [hin]; rfl
    rw [h]
    cases single with
    | true =>
      have : ∃ rest', snoc (v :: rest) m.value = v :: rest' := by
        rw [hsn]; split <;> exact ⟨_, rfl⟩
      obtain ⟨rest', hr⟩ := this
      rw [hr]
      cases enforce <;> simp [stored, h]
    | false =>
      cases enforce with
      | true =>
        simp only [stored, Bool.false_eq_true, if_false]
        rw [hsn]
        split
        · simpa [stored] using h
        · simp [stored]
      | false =>
        cases rest with
        | nil =>
          simp only [stored, List.isEmpty_nil, if_true, Bool.false_eq_true, if_false]
          rw [hsn]
          have hsingle : pyIn m.value [v] = pyEq v m.value := by
            rw [any_comm (by simpa using hv.1) hm.1]; simp
          rw [hsingle]
          have hnl := hv.2
          cases hvv : v with
          | list l => exact absurd hvv (hnl l)
          | _ =>
            all_goals
              simp only
              rw [← hvv]
              split
              · simpa [stored] using h
              · simp [stored]
        | cons w rest =>
          simp only [stored, List.isEmpty_cons, Bool.false_eq_true, if_false]
          rw [hsn]
          split
          · simpa [stored] using h
          · simp [stored]

theorem addValue_other (single enforce : Bool) (d : Dict) (m : OutMatch) (k : Key) (hk : k ≠ .str m.name) :
    (addValue single enforce d m).get? k = d.get? k := by
  unfold addValue
  simp only
  repeat' split
  all_goals simp [hk]

theorem foldl_addValue (single enforce : Bool) (ms : List OutMatch) (hms : ∀ m ∈ ms, Plain m.value) (p : Str) :
    ∀ (d : Dict) (vs : List PyVal), (∀ x ∈ vs, Plain x) → d.get? (.str p) = stored single enforce (distinct vs) →
    (ms.foldl (addValue single enforce) d).get? (.str p) =
      stored single enforce (distinct (vs ++ (ms.filter (fun m => decide (m.name = p))).map OutMatch.value)) := by
  induction ms with
  | nil => intro d vs _ h; simpa using h
  | cons m ms ih =>
    intro d vs hvs h
    simp only [List.foldl_cons]
    by_cases hp : m.name = p
    · subst hp
      have h1 := addValue_stored single enforce d m (distinct vs) (fun x hx => hvs x (distinct_sub x hx))
        (hms m (by simp)) h
      rw [← distinct_snoc] at h1
      have := ih (fun m hm => hms m (by simp [hm])) _ (vs ++ [m.value]) (by
        intro x hx
        rcases List.mem_append.1 hx with hx | hx
        · exact hvs x hx
        · simp at hx; subst hx; exact hms m (by simp)) h1
      rw [this]; simp
    · have h1 := addValue_other single enforce d m (.str p) (by simpa using fun h => hp h.symm)
      have := ih (fun m hm => hms m (by simp [hm])) (addValue single enforce d m) vs hvs (by rw [h1]; exact h)
      rw [this]; simp [hp]

theorem addValue_keys (single enforce : Bool) (d : Dict) (m : OutMatch) (h : ∀ k ∈ d.map Prod.fst, ∃ s, k = .str s) :
    ∀ k ∈ (addValue single enforce d m).map Prod.fst, ∃ s, k = .str s := by
  intro k hk
  by_cases hkm : k = .str m.name
  · exact ⟨_, hkm⟩
  · apply h
    rw [← Dict.get?_isSome_iff] at hk ⊢
    rwa [addValue_other _ _ _ _ _ hkm] at hk

/-! ### Encoding -/

theorem ofNat_inj {a b : Char} (ha : a.toNat < 128) (hb : b.toNat < 128)
    (h : UInt8.ofNat a.toNat = UInt8.ofNat b.toNat) : a = b := by
  have h1 := congrArg UInt8.toNat h
  simp only [UInt8.toNat_ofNat'] at h1
  apply Char.toNat_inj.1
  omega

theorem encode_inj {s t : Str} (hs : s.all (fun c => c.toNat < 128) = true) (ht : t.all (fun c => c.toNat < 128) = true)
    (h : s.map (fun c => UInt8.ofNat c.toNat) = t.map (fun c => UInt8.ofNat c.toNat)) : s = t := by
  induction s generalizing t with
  | nil => cases t <;> simp_all
  | cons c s ih =>
    cases t with
    | nil => simp at h
    | cons c' t =>
      simp only [List.map_cons, List.cons.injEq] at h
      simp only [List.all_cons, Bool.and_eq_true, decide_eq_true_eq] at hs ht
      rw [ofNat_inj hs.1 ht.1 h.1, ih hs.2 ht.2 h.2]

/-- Values found on text: no bytes, and ASCII when textual. -/
def AsciiPlain (v : PyVal) : Prop :=
  match v with
  | .str s => s.all (fun c => c.toNat < 128) = true
  | .bytes _ => False
  | .list _ => False
  | _ => True

theorem pyEq_encoded {a b : PyVal} (ha : AsciiPlain a) (hb : AsciiPlain b) :
    pyEq (encoded a) (encoded b) = pyEq a b := by
  cases a <;> cases b <;> simp only [AsciiPlain] at ha hb <;> simp only [encoded, pyEq, PyVal.num?]
  rename_i s t
  have : (s.map (fun c => UInt8.ofNat c.toNat) = t.map (fun c => UInt8.ofNat c.toNat)) ↔ s = t :=
    ⟨encode_inj ha hb, fun h => by rw [h]⟩
  simp only [this]

end Guessit
