import Verif.Model.Forms
import Verif.Spec.Forms
import Verif.Props.PhraseFound

/-! # Expressions with groups: the ways to write them -/

namespace Guessit
open Spec Re

/-- A condition on what follows. -/
inductive Ahead where
  | some (p : Phrase)
  | not (x : Sym)
  deriving DecidableEq

/-- Whether it holds. -/
def Ahead.holds (E : RxEnv) (s : Str) (i : Nat) : Ahead → Bool
  | .some p => p.spellings.any fun w => symsAt E s w i
  | .not x => (decide (i = s.length ∨ (i + 1 = s.length ∧ s[i]? = Option.some '\n'))) || (s[i]?).any fun c => !x.is E c

/-- A way to write an expression: its symbols, its groups and its conditions, counted from its start. -/
structure Spelling where
  syms : List Sym
  caps : Caps
  checks : List (Nat × Ahead)
  deriving DecidableEq

def shiftCaps (i : Nat) (c : Caps) : Caps := c.map fun x => (x.1, (i + x.2.1, i + x.2.2))

def Spelling.append (v w : Spelling) : Spelling :=
  ⟨v.syms ++ w.syms, shiftCaps v.syms.length w.caps ++ v.caps, v.checks ++ w.checks.map fun x => (v.syms.length + x.1, x.2)⟩

/-- It is there from `i`. -/
def Spelling.at (E : RxEnv) (s : Str) (w : Spelling) (i : Nat) : Bool := symsAt E s w.syms i && w.checks.all fun x => x.2.holds E s (i + x.1)

/-- The ways to write an expression, in the order in which they are tried. -/
def Form.spellings : Form → List Spelling
  | .nil => [⟨[], [], []⟩]
  | .sym x => [⟨[x], [], []⟩]
  | .seq a b => a.spellings.flatMap fun v => b.spellings.map v.append
  | .alt a b => a.spellings ++ b.spellings
  | .opt a => a.spellings.filter (·.syms ≠ []) ++ [⟨[], [], []⟩]
  | .grp n a => a.spellings.map fun w => { w with caps := (n, (0, w.syms.length)) :: w.caps }
  | .ahead p => [⟨[], [], [(0, .some p)]⟩]
  | .unless x => [⟨[], [], [(0, .not x)]⟩]

section
variable {E : RxEnv} {s : Str}

/-- The results for the ways to write that are there. -/
def formed (E : RxEnv) (s : Str) (L : List Spelling) (i : Nat) (c : Caps) : List (Nat × Caps) :=
  (L.filter fun w => w.at E s i).map fun w => (i + w.syms.length, shiftCaps i w.caps ++ c)

theorem at_append {v w : Spelling} {i : Nat} : (v.append w).at E s i = (v.at E s i && w.at E s (i + v.syms.length)) := by
  simp only [Spelling.at, Spelling.append, symsAt_append, List.all_append, List.all_map, Function.comp_def]
  have : (w.checks.all fun x => x.2.holds E s (i + (v.syms.length + x.1))) = w.checks.all fun x => x.2.holds E s (i + v.syms.length + x.1) := by
    congr 1; funext x; rw [Nat.add_assoc]
  rw [this]
  cases symsAt E s v.syms i <;> cases v.checks.all (fun x => x.2.holds E s (i + x.1)) <;> simp

theorem shift_shift {i k : Nat} {c : Caps} : shiftCaps i (shiftCaps k c) = shiftCaps (i + k) c := by
  simp [shiftCaps, Function.comp_def, Nat.add_assoc]

theorem formed_seq {A B : List Spelling} {i : Nat} {c : Caps} :
    (formed E s A i c).flatMap (fun r => formed E s B r.1 r.2) = formed E s (A.flatMap fun v => B.map v.append) i c := by
  induction A with
  | nil => rfl
  | cons v A ih =>
    simp only [formed, List.filter_cons, List.flatMap_cons, List.filter_append, List.map_append] at ih ⊢
    have hv : (B.map v.append).filter (fun w => w.at E s i) = if v.at E s i then (B.filter fun w => w.at E s (i + v.syms.length)).map v.append else [] := by
      rw [List.filter_map]
      by_cases h : v.at E s i = true
      · rw [if_pos h]; congr 1; apply List.filter_congr; intro w _; simp [at_append, h]
      · rw [if_neg h]; simp only [List.map_eq_nil_iff]; rw [List.filter_eq_nil_iff]; intro w _; simp [at_append, h]
    rw [hv]
    by_cases h : v.at E s i = true
    · rw [if_pos h, if_pos h, List.map_cons, List.flatMap_cons, ih]
      congr 1
      rw [List.map_map]
      apply List.map_congr_left
      intro w _
      have : shiftCaps i (v.append w).caps = shiftCaps (i + v.syms.length) w.caps ++ shiftCaps i v.caps := by
        rw [← shift_shift]; simp [Spelling.append, shiftCaps]
      rw [Function.comp, this]
      simp [Spelling.append, Nat.add_assoc]
    · rw [if_neg h, if_neg h, ih]; rfl

/-- What an expression matches from `i`: the ways to write it that are there. -/
theorem form_exec (p : Form) : ∀ (i : Nat) (c : Caps), (p.re E).exec s i c = formed E s p.spellings i c := by
  induction p with
  | nil => intro i c; simp [Form.re, Re.exec, formed, Form.spellings, Spelling.at, symsAt, shiftCaps]
  | sym x =>
    intro i c
    simp only [Form.re, Re.exec, formed, Form.spellings, List.filter_cons, List.filter_nil, Spelling.at, symsAt, Bool.and_true, List.all_nil]
    cases s[i]? with
    | none => rfl
    | some y => by_cases h : x.is E y = true <;> simp [h, shiftCaps]
  | seq a b iha ihb =>
    intro i c
    rw [Form.re, Re.exec, iha, Form.spellings, ← formed_seq]
    congr 1; funext r; exact ihb _ _
  | alt a b iha ihb =>
    intro i c
    rw [Form.re, Re.exec, iha, ihb, Form.spellings, formed, formed, formed, List.filter_append, List.map_append]
  | opt a ih =>
    intro i c
    rw [Form.re, Re.opt, Re.exec]
    simp only [Option.getD_some, repExec, ih, Form.spellings, if_true]
    have h1 : (fun r : Nat × Caps => [(r.1, r.2)]) = fun r => [r] := rfl
    rw [h1, List.flatMap_singleton']
    have h0 : Spelling.at E s ⟨[], [], []⟩ i = true := by simp [Spelling.at, symsAt]
    simp only [formed, List.filter_append, List.map_append, List.filter_cons, h0, List.filter_nil, if_true, List.map_cons, List.map_nil, List.length_nil, Nat.add_zero]
    congr 1
    rw [List.filter_map, List.filter_filter, List.filter_filter]
    congr 1
    apply List.filter_congr
    intro w _
    cases hw : w.syms with
    | nil => simp [hw]
    | cons x v => simp [hw]
  | grp n a ih =>
    intro i c
    simp only [Form.re, Re.exec, ih, Form.spellings, formed, List.filter_map, List.map_map]
    have : ((fun w => Spelling.at E s w i) ∘ fun w : Spelling => ({ w with caps := (n, (0, w.syms.length)) :: w.caps } : Spelling)) = fun w => w.at E s i := by
      funext w; simp [Spelling.at]
    rw [this]
    apply List.map_congr_left
    intro w _
    simp [shiftCaps]
  | ahead p =>
    intro i c
    simp only [Form.re, Re.exec, phrase_exec, spelled, Form.spellings, formed, List.filter_cons, List.filter_nil, Spelling.at, symsAt, List.all_cons, List.all_nil, Bool.and_true, Bool.true_and, Ahead.holds, Nat.add_zero]
    cases hL : p.spellings.filter (fun w => symsAt E s w i) with
    | nil =>
      have : (p.spellings.any fun w => symsAt E s w i) = false := by
        rw [List.any_eq_false]; intro w hw; rw [List.filter_eq_nil_iff] at hL; exact hL w hw
      simp [this]
    | cons w L =>
      have : (p.spellings.any fun w => symsAt E s w i) = true := by
        have hw : w ∈ p.spellings.filter (fun w => symsAt E s w i) := by rw [hL]; exact List.mem_cons_self ..
        rw [List.mem_filter] at hw
        exact List.any_eq_true.2 ⟨w, hw⟩
      simp [this, shiftCaps]
  | «unless» x =>
    intro i c
    simp only [Form.re, Re.exec, Form.spellings, formed, List.filter_cons, List.filter_nil, Spelling.at, symsAt, List.all_cons, List.all_nil, Bool.and_true, Bool.true_and, Ahead.holds, Nat.add_zero]
    by_cases h : i = s.length ∨ (i + 1 = s.length ∧ s[i]? = some '\n')
    · simp [h, shiftCaps]
    · simp only [h, decide_false, Bool.false_or, if_false, List.nil_append]
      cases s[i]? with
      | none => simp
      | some y => by_cases hy : x.is E y = true <;> simp [hy, shiftCaps]

theorem form_match {p : Form} {i j : Nat} {c : Caps} : (p.re E).matchAt s i = some (j, c) ↔
    ∃ w, (p.spellings.find? fun w => w.at E s i) = some w ∧ j = i + w.syms.length ∧ c = shiftCaps i w.caps := by
  rw [Re.matchAt, form_exec, formed, List.head?_map, List.head?_filter, Option.map_eq_some_iff]
  refine exists_congr fun w => and_congr_right fun _ => ?_
  simp only [Prod.mk.injEq, List.append_nil]
  exact ⟨fun h => ⟨h.1.symm, h.2.symm⟩, fun h => ⟨h.1.symm, h.2.symm⟩⟩

/-- Among the ways to write that may be written from the same place, the longer ones come first. -/
def strictlyFirst : List (List Sym) → Bool
  | [] => true
  | v :: L => L.all (fun w => !(decide (v.length ≤ w.length) && meetAll v w)) && strictlyFirst L

/-- The symbols of the ways to write. -/
def Form.texts (p : Form) : List (List Sym) := p.spellings.map (·.syms)

theorem at_syms {w : Spelling} {i : Nat} (h : w.at E s i = true) : symsAt E s w.syms i = true := by
  rw [Spelling.at, Bool.and_eq_true] at h; exact h.1

theorem strict_find (hE : Usual E) (hT : Themselves E) {i : Nat} : ∀ {L : List Spelling} {v w : Spelling}, regular (L.map (·.syms)) = true → strictlyFirst (L.map (·.syms)) = true →
    L.find? (fun w => w.at E s i) = some v → w ∈ L → w.at E s i = true → w = v ∨ w.syms.length < v.syms.length := by
  intro L
  induction L with
  | nil => intro v w _ _ h; simp at h
  | cons u L ih =>
    intro v w hr hl h hw hs
    have hr' : regular (L.map (·.syms)) = true := by
      rw [regular, List.map_cons, List.all_cons, Bool.and_eq_true] at hr; exact hr.2
    rw [List.map_cons, strictlyFirst, Bool.and_eq_true] at hl
    rw [List.find?_cons] at h
    split at h
    · rename_i hu
      cases h
      rcases List.mem_cons.1 hw with rfl | hw'
      · exact .inl rfl
      · have h1 := List.all_eq_true.1 hl.1 w.syms (List.mem_map_of_mem hw')
        have hm := meetAll_of hE hT (regular_plain hr (by simp)).2 (regular_plain hr (List.mem_map_of_mem (f := (·.syms)) (List.mem_cons_of_mem _ hw'))).2 (at_syms hu) (at_syms hs)
        rw [hm] at h1
        simp at h1
        exact .inr h1
    · rename_i hu
      rcases List.mem_cons.1 hw with rfl | hw'
      · rw [hs] at hu; cases hu
      · exact ih hr' hl.2 h hw' hs

theorem formRe_eats {p : Form} (hr : regular p.texts = true) : (p.re E).Eats := by
  intro s i j c _ h
  obtain ⟨w, h1, rfl, _⟩ := form_match.1 h
  have := (regular_plain hr (List.mem_map_of_mem (List.mem_of_find?_eq_some h1))).1
  have := List.length_pos_iff.2 this
  omega

/-- Every hit is the longest way to write the expression from there. -/
theorem form_hit (hE : Usual E) (hT : Themselves E) {p : Form} (hr : regular p.texts = true) (hl : strictlyFirst p.texts = true) {h : RxHit} (hh : h ∈ (p.re E).hits s) :
    ∃ w ∈ p.spellings, w.at E s h.start = true ∧ h = ⟨h.start, h.start + w.syms.length, shiftCaps h.start w.caps⟩ ∧
      ∀ v ∈ p.spellings, v.at E s h.start = true → v.syms.length ≤ w.syms.length := by
  obtain ⟨w, h1, h2, h3⟩ := form_match.1 (hits_sound hh).1
  refine ⟨w, List.mem_of_find?_eq_some h1, by simpa using List.find?_some h1, ?_, fun v hv hs => ?_⟩
  · rw [← h2, ← h3]
  · rcases strict_find hE hT hr hl h1 hv hs with rfl | h
    · exact Nat.le_refl _
    · omega

/-- What is written is a hit, if nothing else is in the way. -/
theorem form_hits (hE : Usual E) (hT : Themselves E) {p : Form} (hr : regular p.texts = true) (hl : strictlyFirst p.texts = true) {w : Spelling} {i : Nat}
    (hw : w ∈ p.spellings) (hs : w.at E s i = true) (h1 : ∀ v ∈ p.spellings, v.at E s i = true → v.syms.length ≤ w.syms.length)
    (h2 : ∀ v ∈ p.spellings, ∀ a, a < i → v.at E s a = true → a + v.syms.length ≤ i) :
    (⟨i, i + w.syms.length, shiftCaps i w.caps⟩ : RxHit) ∈ (p.re E).hits s := by
  have hin := syms_inside (regular_plain hr (List.mem_map_of_mem hw)).1 (at_syms hs)
  obtain ⟨v, hv⟩ : ∃ v, p.spellings.find? (fun w => w.at E s i) = some v := by
    have : (p.spellings.find? fun w => w.at E s i).isSome = true := by
      rw [List.find?_isSome]; exact ⟨w, hw, hs⟩
    exact Option.isSome_iff_exists.1 this
  have hvw : w = v := by
    rcases strict_find hE hT hr hl hv hw hs with h | h
    · exact h
    · have b := h1 v (List.mem_of_find?_eq_some hv) (by simpa using List.find?_some hv)
      omega
  subst hvw
  refine hits_complete (formRe_eats hr) (form_match.2 ⟨w, hv, rfl, rfl⟩) (by omega) ?_
  intro a b c ha hm
  obtain ⟨x, hx, rfl, _⟩ := form_match.1 hm
  exact h2 x (List.mem_of_find?_eq_some hx) a ha (by simpa using List.find?_some hx)

/-- None of the ways to write may begin within another. -/
def unlapped (L : List (List Sym)) : Bool := L.all fun v => (List.range v.length).all fun k => k == 0 || L.all fun w => !meetAll (v.drop k) w

theorem unlapped_clear (hE : Usual E) (hT : Themselves E) {L : List (List Sym)} (hr : regular L = true) (hd : unlapped L = true) {w : List Sym} {i : Nat} (hw : w ∈ L)
    (hs : symsAt E s w i = true) : ∀ v ∈ L, ∀ a, a < i → symsAt E s v a = true → a + v.length ≤ i := by
  intro v hv a ha hsv
  by_contra hc
  have hk : i - a < v.length := by omega
  have h1 := List.all_eq_true.1 (List.all_eq_true.1 hd v hv) (i - a) (List.mem_range.2 hk)
  have hdr : symsAt E s (v.drop (i - a)) i = true := by
    have := symsAt_drop (k := i - a) hsv
    rwa [show a + (i - a) = i by omega] at this
  have hm := meetAll_of hE hT (fun x hx => (regular_plain hr hv).2 x (List.mem_of_mem_drop hx)) (regular_plain hr hw).2 hdr hs
  simp only [Bool.or_eq_true, beq_iff_eq, List.all_eq_true, Bool.not_eq_true'] at h1
  rcases h1 with h1 | h1
  · omega
  · rw [h1 w hw] at hm; cases hm

end
end Guessit
