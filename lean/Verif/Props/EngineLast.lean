import Verif.Props.EngineType
import Verif.Props.Completion

/-! # The order of the last rules -/

namespace Guessit
open Spec

/-! ### Rules of one priority that wait for nothing run in the order of registration -/

theorem extendSafe_sub : ∀ (src acc : List (Decl Cls)), ∃ rest, extendSafe acc src = acc ++ rest ∧ rest.Sublist src := by
  intro src
  induction src with
  | nil => intro acc; exact ⟨[], by simp [extendSafe], List.Sublist.refl _⟩
  | cons r src ih =>
    intro acc
    rw [extendSafe, List.foldl_cons]
    split
    · obtain ⟨rest, h1, h2⟩ := ih acc
      exact ⟨rest, h1, h2.cons _⟩
    · obtain ⟨rest, h1, h2⟩ := ih (acc ++ [r])
      exact ⟨r :: rest, by rw [extendSafe] at h1; rw [h1]; simp, h2.cons₂ _⟩

theorem effective_sub (context : Dict) : (effectiveRules guessitPlugs context).Sublist allRules := by
  have key : ∀ (ps : List (Plug Cls)) (acc : List (Decl Cls)), ∃ rest,
      ps.foldl (fun acc p => if p.off context then acc else extendSafe acc p.rules) acc = acc ++ rest ∧ rest.Sublist (ps.flatMap Plug.rules) := by
    intro ps
    induction ps with
    | nil => intro acc; exact ⟨[], by simp, List.Sublist.refl _⟩
    | cons p ps ih =>
      intro acc
      rw [List.foldl_cons, List.flatMap_cons]
      split
      · obtain ⟨r, h1, h2⟩ := ih acc
        exact ⟨r, h1, h2.trans (List.sublist_append_right _ _)⟩
      · obtain ⟨r1, h1, h2⟩ := extendSafe_sub p.rules acc
        obtain ⟨r2, h3, h4⟩ := ih (extendSafe acc p.rules)
        exact ⟨r1 ++ r2, by rw [h3, h1]; simp, h2.append h4⟩
  obtain ⟨rest, h1, h2⟩ := key guessitPlugs []
  rw [List.nil_append] at h1
  unfold effectiveRules allRules
  rw [h1]
  exact h2

theorem runsBefore_sub {l all : List (Decl Cls)} (h : l.Sublist all) (hn : all.Nodup) {a b : Decl Cls} (ha : a ∈ l) (hb : b ∈ l)
    {xs ys : List (Decl Cls)} (e : all = xs ++ a :: ys) (hy : b ∈ ys) : RunsBefore l a b := by
  subst e
  rw [List.nodup_append] at hn
  obtain ⟨l1, l2, rfl, h1, h2⟩ := List.sublist_append_iff.1 h
  have hax : a ∉ l1 := fun hh => hn.2.2 a (h1.subset hh) a (by simp) rfl
  have hbx : b ∉ l1 := fun hh => hn.2.2 b (h1.subset hh) b (by simp [hy]) rfl
  have hay := (List.nodup_cons.1 hn.2.1).1
  have ha2 : a ∈ l2 := (List.mem_append.1 ha).resolve_left hax
  have hb2 : b ∈ l2 := (List.mem_append.1 hb).resolve_left hbx
  cases h2 with
  | cons _ h => exact absurd (h.subset ha2) hay
  | @cons_cons l3 _ _ h =>
    have hb3 : b ∈ l3 := by
      rcases List.mem_cons.1 hb2 with rfl | h5
      · exact absurd hy hay
      · exact h5
    obtain ⟨us, vs, rfl⟩ := List.append_of_mem hb3
    exact ⟨l1, us, vs, rfl⟩

/-- `a` is registered before `b`. -/
def comesFirst (a b : Decl Cls) : Bool := ((allRules.dropWhile fun x => decide (x ≠ a)).drop 1).contains b

theorem comesFirst_split {a b : Decl Cls} (h : comesFirst a b = true) : ∃ xs ys, allRules = xs ++ a :: ys ∧ b ∈ ys := by
  unfold comesFirst at h
  have key : ∀ l : List (Decl Cls), ((l.dropWhile fun x => decide (x ≠ a)).drop 1).contains b = true → ∃ xs ys, l = xs ++ a :: ys ∧ b ∈ ys := by
    intro l
    induction l with
    | nil => intro h'; simp at h'
    | cons x l ih =>
      intro h'
      rw [List.dropWhile_cons] at h'
      split at h'
      · obtain ⟨xs, ys, h1, h2⟩ := ih h'
        exact ⟨x :: xs, ys, by rw [h1]; rfl, h2⟩
      · rename_i hx
        have : x = a := by simpa using hx
        subst this
        exact ⟨[], l, rfl, by simpa using h'⟩
  exact key _ h

/-- A rule that waits for nothing runs before those of the same priority that were registered after it. -/
theorem earlier_runs {context : Dict} {a b : Decl Cls} (ha : a ∈ effectiveRules guessitPlugs context) (hb : b ∈ effectiveRules guessitPlugs context)
    (hp : a.priority = b.priority) (hd : a.deps = []) (hc : comesFirst a b = true) :
    RunsBefore (schedule id (effectiveRules guessitPlugs context)).1 a b := by
  have hs : Shuffles (id : List (Decl Cls) → List (Decl Cls)) := fun l => List.Perm.refl l
  obtain ⟨xs, ys, e, hy⟩ := comesFirst_split hc
  refine C108_ties hs _ (effectiveRules_nodup guessitPlugs context) a b (hs.mem.2 hb) ha hp ?_ (Or.inr ?_)
  · intro d _ _ hdd
    have := hdd.1
    rw [hd] at this
    simp at this
  · have hn : allRules.Nodup := by decide +kernel
    exact runsBefore_sub (effective_sub context) hn ha hb e hy

/-- What may run after a rule of the last stage. -/
def mayFollow (d : Decl Cls) (y : Decl Cls) : Bool :=
  decide (y.priority = postProcess) && decide (y ≠ d) && !(decide (y.deps = []) && comesFirst y d)

theorem followers {context : Dict} {d : Decl Cls} (h : d ∈ rulesRun id context) (hp : d.priority = postProcess) :
    ∃ xs ys, rulesRun id context = xs ++ d :: ys ∧ (∀ x ∈ xs, x ∈ rulesRun id context ∧ x ≠ d) ∧
      (∀ y ∈ ys, y ∈ rulesRun id context) ∧ ∀ y ∈ ys, y ∈ allRules.filter (mayFollow d) := by
  obtain ⟨xs, ys, e, hxs, hys, hlow, hd, hord⟩ := run_split h
  have hn := (C108_guessit (shuffle := id) (fun l => List.Perm.refl l) context).2.2.1
  have hnd : (rulesRun id context).Nodup := List.Nodup.filter _ hn
  rw [e, List.nodup_append] at hnd
  refine ⟨xs, ys, e, fun x hx => ⟨hxs x hx, fun hh => hnd.2.2 x hx d (by simp) hh⟩, hys, ?_⟩
  intro y hy
  have hye := (mem_rulesRun.1 (hys y hy)).1
  have hya := mem_allRules hye
  refine List.mem_filter.2 ⟨hya, ?_⟩
  have h1 : y.priority = postProcess := by
    have : ∀ d ∈ allRules, postProcess ≤ d.priority := by decide +kernel
    have := this y hya
    have := hlow y hy
    omega
  have h2 : y ≠ d := fun hh => hd (hh ▸ hy)
  have h3 : (decide (y.deps = []) && comesFirst y d) = false := by
    rw [Bool.eq_false_iff]
    intro hh
    rw [Bool.and_eq_true, decide_eq_true_eq] at hh
    exact hord y hy (earlier_runs hye (mem_rulesRun.1 h).1 (h1.trans hp.symm) hh.1 hh.2)
  unfold mayFollow
  rw [h3]
  simp [h1, h2]

end Guessit
