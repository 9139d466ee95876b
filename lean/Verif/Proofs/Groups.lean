import Verif.Spec.Markers
import Verif.Model.Markers
import Mathlib.Data.List.Basic

namespace Guessit
open Spec

theorem Balanced.append {op cl : Char → Prop} {v w : Str} (hv : Balanced op cl v) (hw : Balanced op cl w) :
    Balanced op cl (v ++ w) := by
  induction hv with
  | nil => simpa using hw
  | char c v h1 h2 _ ih => exact Balanced.char c _ h1 h2 ih
  | group o c v v' h1 h2 h3 _ _ ih2 =>
    have : o :: (v ++ c :: v') ++ w = o :: (v ++ c :: (v' ++ w)) := by simp
    rw [this]
    exact Balanced.group o c v _ h1 h2 h3 ih2

section
variable (starting ending : Str)

local notation "Op" => (fun c => c ∈ starting)
local notation "Cl" => (fun c => c ∈ ending)

variable (hdis : ∀ c ∈ starting, c ∉ ending)

include hdis in
/-- Running over well-balanced text leaves the stack as it was. -/
theorem groupsFrom_balanced {w : Str} (hw : Balanced Op Cl w) : ∀ (stack : List Nat) (i : Nat) (rest : Str),
    ∃ out, groupsFrom starting ending stack i (w ++ rest) = out ++ groupsFrom starting ending stack (i + w.length) rest := by
  induction hw with
  | nil => intro stack i rest; exact ⟨[], by simp⟩
  | char c w h1 h2 _ ih =>
    intro stack i rest
    obtain ⟨out, ho⟩ := ih stack (i + 1) rest
    refine ⟨out, ?_⟩
    simp only [List.cons_append, groupsFrom]
    rw [if_neg (by simpa using h2), if_neg (by simpa using h1), ho]
    congr 2
    simp; omega
  | group o c w w' h1 h2 _ _ ih1 ih2 =>
    intro stack i rest
    obtain ⟨out1, ho1⟩ := ih1 (i :: stack) (i + 1) (c :: (w' ++ rest))
    obtain ⟨out2, ho2⟩ := ih2 stack (i + 1 + w.length + 1) rest
    refine ⟨out1 ++ (i, i + 1 + w.length + 1) :: out2, ?_⟩
    have e : o :: (w ++ c :: w') ++ rest = o :: (w ++ (c :: (w' ++ rest))) := by simp
    rw [e]
    rw [groupsFrom]
    try simp only
    rw [if_neg (by simpa using hdis o h1), if_pos (by simpa using h1), ho1]
    rw [groupsFrom]
    try simp only
    rw [if_pos (by simpa using h2), if_neg (by simpa using fun h => hdis c h h2)]
    simp only [ho2]
    simp only [List.append_assoc, List.cons_append]
    congr 4
    simp; omega

include hdis in
theorem markGroups_complete (s : Str) (a b : Nat) (h : IsGroup Op Cl s a b) : (a, b) ∈ markGroups starting ending s := by
  obtain ⟨pre, o, w, c, post, rfl, rfl, rfl, ho, hc, hw⟩ := h
  unfold markGroups
  have gen : ∀ (pre : Str) (stack : List Nat) (i : Nat),
      (i + pre.length, i + pre.length + w.length + 2) ∈ groupsFrom starting ending stack i (pre ++ (o :: (w ++ c :: post))) := by
    intro pre
    induction pre with
    | nil =>
      intro stack i
      simp only [List.nil_append, List.length_nil, Nat.add_zero]
      rw [groupsFrom]
      try simp only
      rw [if_neg (by simpa using hdis o ho), if_pos (by simpa using ho)]
      obtain ⟨out, hout⟩ := groupsFrom_balanced starting ending hdis hw (i :: stack) (i + 1) (c :: post)
      rw [hout, groupsFrom]
      try simp only
      rw [if_pos (by simpa using hc), if_neg (by simpa using fun h => hdis c h hc)]
      rw [List.mem_append]
      right
      have : i + w.length + 2 = i + 1 + w.length + 1 := by omega
      rw [this]
      simp
    | cons x pre ih =>
      intro stack i
      have e1 : i + (x :: pre).length = i + 1 + pre.length := by simp; omega
      rw [e1, List.cons_append, groupsFrom]
      try simp only
      split
      · split
        · exact ih _ _
        · exact List.mem_cons_of_mem _ (ih _ _)
      · exact ih _ _
  simpa using gen pre [] 0

/-- What the stack means after the prefix `p`. -/
def StackOk : Str → List Nat → Prop
  | _, [] => True
  | p, c :: st => ∃ q o w, p = q ++ (o :: w) ∧ q.length = c ∧ o ∈ starting ∧ Balanced Op Cl w ∧ StackOk q st

theorem StackOk.extend {p : Str} {st : List Nat} (h : StackOk starting ending p st) {w : Str} (hw : Balanced Op Cl w) :
    StackOk starting ending (p ++ w) st := by
  cases st with
  | nil => trivial
  | cons c st =>
    obtain ⟨q, o, v, h1, h2, h3, h4, h5⟩ := h
    exact ⟨q, o, v ++ w, by rw [h1]; simp, h2, h3, Balanced.append h4 hw, h5⟩

include hdis in
theorem groupsFrom_sound (s rest p : Str) (st : List Nat) (hs : s = p ++ rest) (hst : StackOk starting ending p st) :
    ∀ x ∈ groupsFrom starting ending st p.length rest, IsGroup Op Cl s x.1 x.2 := by
  induction rest generalizing p st with
  | nil => intro x hx; simp [groupsFrom] at hx
  | cons c rest ih =>
    intro x hx
    have hs' : s = (p ++ [c]) ++ rest := by simp [hs]
    have hlen : (p ++ [c]).length = p.length + 1 := by simp
    rw [groupsFrom] at hx
    try simp only at hx
    split at hx
    · rename_i hc
      have hc : c ∈ ending := by simpa using hc
      have hno : ¬ starting.contains c = true := by simpa using fun h => hdis c h hc
      split at hx
      · rw [← hlen] at hx
        exact ih (p ++ [c]) [] hs' trivial x hx
      · rename_i a st' hst'
        rw [if_neg hno] at hst'
        subst hst'
        obtain ⟨q, o, w, h1, h2, h3, h4, h5⟩ := hst
        rcases List.mem_cons.1 hx with rfl | hx
        · refine ⟨q, o, w, c, rest, ?_, h2, ?_, h3, hc, h4⟩
          · rw [hs, h1]; simp
          · rw [h1, ← h2]; simp; omega
        · rw [← hlen] at hx
          refine ih (p ++ [c]) st' hs' ?_ x hx
          have : p ++ [c] = q ++ (o :: (w ++ c :: [])) := by rw [h1]; simp
          rw [this]
          exact h5.extend starting ending (Balanced.group o c w [] h3 hc h4 Balanced.nil)
    · rename_i hc
      have hc : c ∉ ending := by simpa using hc
      rw [← hlen] at hx
      split at hx
      · rename_i ho
        refine ih (p ++ [c]) _ hs' ?_ x hx
        exact ⟨p, c, [], rfl, rfl, by simpa using ho, Balanced.nil, hst⟩
      · rename_i ho
        refine ih (p ++ [c]) _ hs' ?_ x hx
        exact hst.extend starting ending (Balanced.char c [] (by simpa using ho) hc Balanced.nil)

include hdis in
theorem markGroups_sound (s : Str) : ∀ x ∈ markGroups starting ending s, IsGroup Op Cl s x.1 x.2 :=
  groupsFrom_sound starting ending hdis s s [] [] rfl trivial

theorem groupsFrom_order (rest : Str) (st : List Nat) (i : Nat) (hst : st.Pairwise (· > ·)) (hlt : ∀ c ∈ st, c < i) :
    (groupsFrom starting ending st i rest).Pairwise (fun x y => x.2 < y.2 ∧ (y.1 < x.1 ∨ x.2 ≤ y.1)) ∧
    ∀ x ∈ groupsFrom starting ending st i rest, x.1 < x.2 ∧ i < x.2 ∧ x.2 ≤ i + rest.length ∧ (x.1 ∈ st ∨ i ≤ x.1) := by
  induction rest generalizing st i with
  | nil => simp [groupsFrom]
  | cons c rest ih =>
    simp only [groupsFrom]
    have hst2 : (if starting.contains c then i :: st else st).Pairwise (· > ·) := by
      split
      · exact List.pairwise_cons.2 ⟨fun x hx => hlt x hx, hst⟩
      · exact hst
    have hlt2 : ∀ x ∈ (if starting.contains c then i :: st else st), x < i + 1 ∧ (x ∈ st ∨ i ≤ x) := by
      intro x hx
      split at hx
      · rcases List.mem_cons.1 hx with rfl | hx
        · omega
        · exact ⟨by have := hlt x hx; omega, Or.inl hx⟩
      · exact ⟨by have := hlt x hx; omega, Or.inl hx⟩
    generalize (if starting.contains c then i :: st else st) = st2 at hst2 hlt2
    split
    · cases st2 with
      | nil =>
        obtain ⟨h1, h2⟩ := ih [] (i + 1) List.Pairwise.nil (by simp)
        refine ⟨h1, fun x hx => ?_⟩
        obtain ⟨g1, g2, g3, g4⟩ := h2 x hx
        simp only [List.length_cons]
        refine ⟨g1, by omega, by omega, Or.inr ?_⟩
        rcases g4 with g | g
        · cases g
        · omega
      | cons a st' =>
        obtain ⟨ha, hst'⟩ := List.pairwise_cons.1 hst2
        obtain ⟨h1, h2⟩ := ih st' (i + 1) hst' (fun x hx => (hlt2 x (by simp [hx])).1)
        have hai := hlt2 a (by simp)
        constructor
        · refine List.pairwise_cons.2 ⟨?_, h1⟩
          intro y hy
          obtain ⟨g1, g2, g3, g4⟩ := h2 y hy
          refine ⟨g2, ?_⟩
          rcases g4 with g | g
          · left; exact ha _ g
          · right; exact g
        · intro x hx
          simp only [List.length_cons]
          rcases List.mem_cons.1 hx with rfl | hx
          · exact ⟨hai.1, by simp, by simp, hai.2⟩
          · obtain ⟨g1, g2, g3, g4⟩ := h2 x hx
            refine ⟨g1, by omega, by omega, ?_⟩
            rcases g4 with g | g
            · exact (hlt2 _ (by simp [g])).2
            · right; omega
    · obtain ⟨h1, h2⟩ := ih st2 (i + 1) hst2 (fun x hx => (hlt2 x hx).1)
      refine ⟨h1, fun x hx => ?_⟩
      obtain ⟨g1, g2, g3, g4⟩ := h2 x hx
      simp only [List.length_cons]
      refine ⟨g1, by omega, by omega, ?_⟩
      rcases g4 with g | g
      · exact (hlt2 _ g).2
      · right; omega

end

end Guessit
