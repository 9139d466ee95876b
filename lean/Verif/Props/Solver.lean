import Verif.Proofs.Solver
import Verif.Proofs.Episodes
import Mathlib.Logic.Relation

/-!
# C106: conflicts between overlapping matches
-/

namespace Guessit
open Spec

/-- The matches dropped by the loop. -/
theorem solve_drops {s : Ms} (h : Sound s) (K : Kin) (solverOf : Mt → Option Solver) :
    Drops s (solveConflicts K solverOf s) fun x => x ∈ (fights s).foldl (fight s.input K solverOf) [] :=
  drops_mem h (fun y hy => (fold_live h (fun _ hp => hp) (acc := []) (by simp)).1 y hy) fun _ _ => Iff.rfl

/-- **C106.** Conflict solving only drops matches; one that is private, or that no reported match overlaps, stays. -/
theorem C106_frame {s : Ms} (h : Sound s) (K : Kin) (solverOf : Mt → Option Solver) :
    (solveConflicts K solverOf s).input = s.input ∧ (solveConflicts K solverOf s).markers = s.markers ∧
    (solveConflicts K solverOf s).live.Sublist s.live ∧
    ∀ x ∈ s.live, (x.priv = true ∨ ∀ y, ¬ Clash s x y) → x ∈ (solveConflicts K solverOf s).live := by
  have hd := solve_drops h K solverOf
  refine ⟨hd.input, hd.markers, hd.order, fun x hx hq => (hd.bad x hx).2 fun hm => ?_⟩
  have := (fold_inv h (K := K) (solverOf := solverOf) (P := fun acc => ∀ z ∈ acc, ∃ y, Clash s z y) (by
    intro acc p z y hP hp _ hw _ _ w hw'
    have hc := (mem_fights h).1 hp
    rcases List.mem_append.1 hw' with h1 | h1
    · exact hP w h1
    · rw [List.mem_singleton.1 h1]
      obtain ⟨c1, c2, c3, c4, c5, i, c6, c7, c8, c9⟩ := hc
      rcases hw with ⟨rfl, rfl⟩ | ⟨rfl, rfl⟩
      · exact ⟨p.2, c1, c2, c3, c4, c5, i, c6, c7, c8, c9⟩
      · exact ⟨p.1, c2, c1, c4, c3, Ne.symm c5, i, c8, c9, c6, c7⟩) (fights s) [] (fun _ hp => hp) (by simp) (by simp)).1 x hm
  obtain ⟨y, hy⟩ := this
  rcases hq with hq | hq
  · rw [hy.leftPublic] at hq; cases hq
  · exact hq y hy

/-- **C106.** Of two reported matches that overlap, both stay only if no one wants either to go. -/
theorem C106_settled {s : Ms} (h : Sound s) (K : Kin) (solverOf : Mt → Option Solver) {x y : Mt} (hc : Clash s x y)
    (hx : x ∈ (solveConflicts K solverOf s).live) (hy : y ∈ (solveConflicts K solverOf s).live) (z : Mt) :
    ¬ Judged K solverOf x y z ∧ ¬ Judged K solverOf y x z := by
  have hd := solve_drops h K solverOf
  have h1 := (hd.bad x hc.left).1 hx
  have h2 := (hd.bad y hc.right).1 hy
  obtain ⟨c1, c2, c3, c4, c5, i, c6, c7, c8, c9⟩ := hc
  constructor
  · intro hj
    have := fold_settled h (K := K) (solverOf := solverOf) (fun _ hp => hp) (p := (y, x))
      ((mem_fights h).2 ⟨c2, c1, c4, c3, Ne.symm c5, i, c8, c9, c6, c7⟩) h2 h1
    rw [loser_iff.2 hj] at this
    cases this
  · intro hj
    have := fold_settled h (K := K) (solverOf := solverOf) (fun _ hp => hp) (p := (x, y))
      ((mem_fights h).2 ⟨c1, c2, c3, c4, c5, i, c6, c7, c8, c9⟩) h1 h2
    rw [loser_iff.2 hj] at this
    cases this

/-- Each match dropped yields to one that is not dropped yet. -/
theorem dropped_order {s : Ms} (h : Sound s) (K : Kin) (solverOf : Mt → Option Solver) :
    ∀ pre x post, (fights s).foldl (fight s.input K solverOf) [] = pre ++ x :: post →
      ∃ y, Clash s x y ∧ Yields K solverOf x y ∧ y ∉ pre ++ [x] := by
  refine (fold_inv h (K := K) (solverOf := solverOf)
    (P := fun acc => ∀ pre x post, acc = pre ++ x :: post → ∃ y, Clash s x y ∧ Yields K solverOf x y ∧ y ∉ pre ++ [x]) ?_
    (fights s) [] (fun _ hp => hp) (by simp) (by simp)).1
  intro acc p x y hP hp hl hw hx hy pre z post he
  have hc := (mem_fights h).1 hp
  rcases List.eq_nil_or_concat post with rfl | ⟨post', w, rfl⟩
  · obtain ⟨h1, h2⟩ := List.append_inj' he rfl
    cases h2
    subst h1
    obtain ⟨c1, c2, c3, c4, c5, i, c6, c7, c8, c9⟩ := hc
    have hj := loser_iff.1 hl
    rcases hw with ⟨rfl, rfl⟩ | ⟨rfl, rfl⟩
    · refine ⟨p.2, ⟨c1, c2, c3, c4, c5, i, c6, c7, c8, c9⟩, .inr hj, ?_⟩
      simp only [List.mem_append, List.mem_singleton, not_or]
      exact ⟨hy, Ne.symm c5⟩
    · refine ⟨p.1, ⟨c2, c1, c4, c3, Ne.symm c5, i, c8, c9, c6, c7⟩, .inl hj, ?_⟩
      simp only [List.mem_append, List.mem_singleton, not_or]
      exact ⟨hy, c5⟩
  · have he' : acc ++ [x] = (pre ++ z :: post') ++ [w] := by rw [he]; simp
    obtain ⟨h1, h2⟩ := List.append_inj' he' rfl
    exact hP pre z post' h1

/-- **C106.** No match is dropped without a reason: it yields to a match it overlaps, which stays or yields to another one, and
so on up to a match that stays. -/
theorem C106_reason {s : Ms} (h : Sound s) (K : Kin) (solverOf : Mt → Option Solver) {x : Mt} (hx : x ∈ s.live)
    (hg : x ∉ (solveConflicts K solverOf s).live) :
    ∃ z ∈ (solveConflicts K solverOf s).live, Relation.TransGen (fun a b => Clash s a b ∧ Yields K solverOf a b) x z := by
  have hd := solve_drops h K solverOf
  have ho := dropped_order h K solverOf
  generalize (fights s).foldl (fight s.input K solverOf) [] = R at hd ho
  have hm : x ∈ R := by
    by_contra hn
    exact hg ((hd.bad x hx).2 hn)
  have key : ∀ n pre x post, post.length ≤ n → R = pre ++ x :: post →
      ∃ z ∈ (solveConflicts K solverOf s).live, Relation.TransGen (fun a b => Clash s a b ∧ Yields K solverOf a b) x z := by
    intro n
    induction n with
    | zero =>
      intro pre x post hn he
      obtain ⟨y, h1, h2, h3⟩ := ho pre x post he
      have : post = [] := List.length_eq_zero_iff.1 (by omega)
      subst this
      exact ⟨y, (hd.bad y h1.right).2 (by rw [he]; exact h3), .single ⟨h1, h2⟩⟩
    | succ n ih =>
      intro pre x post hn he
      obtain ⟨y, h1, h2, h3⟩ := ho pre x post he
      by_cases hy : y ∈ R
      · have : y ∈ post := by
          rw [he] at hy
          simp only [List.mem_append, List.mem_singleton, List.mem_cons, not_or] at hy h3
          tauto
        obtain ⟨a, b, rfl⟩ := List.append_of_mem this
        obtain ⟨z, hz, hz'⟩ := ih (pre ++ x :: a) y b (by simp only [List.length_append, List.length_cons] at hn; omega) (by rw [he]; simp)
        exact ⟨z, hz, .head ⟨h1, h2⟩ hz'⟩
      · exact ⟨y, (hd.bad y h1.right).2 hy, .single ⟨h1, h2⟩⟩
  obtain ⟨pre, post, he⟩ := List.append_of_mem hm
  exact key _ pre x post (Nat.le_refl _) he

theorem byLen_strictWeak : StrictWeak byLen where
  asymm := by intro a b h; simp only [byLen, decide_eq_true_eq, decide_eq_false_iff_not] at *; omega
  trans := by intro a b c h1 h2; simp only [byLen, decide_eq_false_iff_not] at *; omega

/-- Every solver is missing and every match stands for itself. -/
def Spec.Plainly (s : Ms) (K : Kin) (solverOf : Mt → Option Solver) : Prop :=
  ∀ m ∈ s.live, solverOf m = none ∧ (K.initiator m).len = m.len

theorem loser_plain {s : Ms} {K : Kin} {solverOf : Mt → Option Solver} (hp : Plainly s K solverOf) {m c : Mt} (hm : m ∈ s.live)
    (hc : c ∈ s.live) : loser K solverOf m c = if c.len < m.len then some c else if m.len < c.len then some m else none := by
  unfold loser asked defaultSolver
  rw [(hp m hm).1, (hp c hc).1, (hp m hm).2, (hp c hc).2]
  dsimp only
  split
  · rename_i h1
    by_cases h2 : c.len < m.len
    · simp [h2] at h1
    · by_cases h3 : m.len < c.len
      · simp [h2, h3]
      · simp [h2, h3] at h1
  · rename_i h1
    by_cases h2 : c.len < m.len
    · simp [h2]
    · by_cases h3 : m.len < c.len <;> simp [h2, h3] at h1
  · rename_i h1 h2
    by_cases h2' : c.len < m.len
    · simp [h2'] at h2
    · by_cases h3 : m.len < c.len
      · simp [h2', h3] at h1
      · simp [h2', h3]

/-- **C106.** Without solvers, exactly the matches overlapped by a longer one are dropped, in whatever order they were found. -/
theorem C106_longest {s : Ms} (h : Sound s) {K : Kin} {solverOf : Mt → Option Solver} (hp : Plainly s K solverOf) :
    Drops s (solveConflicts K solverOf s) fun x => ∃ y, Clash s x y ∧ x.len < y.len := by
  have hd := solve_drops h K solverOf
  refine ⟨hd.input, hd.markers, hd.order, fun x hx => (hd.bad x hx).trans (not_congr ⟨fun hm => ?_, ?_⟩)⟩
  · obtain ⟨pre, post, he⟩ := List.append_of_mem hm
    obtain ⟨y, h1, h2, -⟩ := dropped_order h K solverOf pre x post he
    refine ⟨y, h1, ?_⟩
    rcases h2 with h2 | h2
    · have := loser_iff.2 h2
      rw [loser_plain hp h1.right h1.left] at this
      split at this
      · assumption
      · split at this
        · cases this; exact absurd rfl h1.differ
        · cases this
    · have := loser_iff.2 h2
      rw [loser_plain hp h1.left h1.right] at this
      split at this
      · cases this; exact absurd rfl h1.differ
      · split at this
        · assumption
        · cases this
  · rintro ⟨y, hc, hlt⟩
    have hpub : x ∈ sortBy byLen (s.live.filter fun m => !m.priv) := by
      rw [mem_sortBy, List.mem_filter, hc.leftPublic]; exact ⟨hx, rfl⟩
    have hs := sortBy_sorted byLen_strictWeak (s.live.filter fun m => !m.priv)
    have hf : fights s = (sortBy byLen (s.live.filter fun m => !m.priv)).flatMap fun m =>
      (sortBy byLen ((conflicting s.input s.live m).filter fun c => !c.priv)).map fun c => (m, c) := rfl
    obtain ⟨P, Q, he⟩ := List.append_of_mem hpub
    rw [he] at hf hs
    have hy : (x, y) ∈ fights s := (mem_fights h).2 hc
    have hsub : ∃ A B, fights s = A ++ (x, y) :: B ∧ ∀ p ∈ A, p.1.len ≤ x.len := by
      have hc' := hc
      obtain ⟨c1, c2, c3, c4, c5, i, c6, c7, c8, c9⟩ := hc'
      have hy' : y ∈ sortBy byLen ((conflicting s.input s.live x).filter fun c => !c.priv) := by
        rw [mem_sortBy, List.mem_filter, c4]
        exact ⟨(mem_conflicting h hx).2 ⟨c2, Ne.symm c5, by unfold Overlaps; omega⟩, rfl⟩
      obtain ⟨U, V, hu⟩ := List.append_of_mem hy'
      rw [List.flatMap_append, List.flatMap_cons, hu, List.map_append, List.map_cons] at hf
      refine ⟨(P.flatMap fun m => (sortBy byLen ((conflicting s.input s.live m).filter fun c => !c.priv)).map fun c => (m, c)) ++
        U.map fun c => (x, c), V.map (fun c => (x, c)) ++ Q.flatMap fun m =>
          (sortBy byLen ((conflicting s.input s.live m).filter fun c => !c.priv)).map fun c => (m, c), by rw [hf]; simp, ?_⟩
      intro p hpm
      rcases List.mem_append.1 hpm with hpm | hpm
      · obtain ⟨m, hm, hm'⟩ := List.mem_flatMap.1 hpm
        obtain ⟨c, -, rfl⟩ := List.mem_map.1 hm'
        have := (List.pairwise_append.1 hs).2.2 m hm x List.mem_cons_self
        simp only [byLen, decide_eq_false_iff_not] at this
        show m.len ≤ x.len
        omega
      · obtain ⟨c, -, rfl⟩ := List.mem_map.1 hpm
        exact (Nat.le_refl _)
    obtain ⟨A, B, hAB, hA⟩ := hsub
    have hmem : ∀ p ∈ A ++ (x, y) :: B, p ∈ fights s := fun p hp => by rw [hAB]; exact hp
    rw [hAB, List.foldl_append, List.foldl_cons]
    have hA' : ∀ q ∈ A, q ∈ fights s := fun q hq => hmem q (List.mem_append_left _ hq)
    have hB' : ∀ q ∈ B, q ∈ fights s := fun q hq => hmem q (List.mem_append_right _ (List.mem_cons_of_mem _ hq))
    have l1 := (fold_live h (K := K) (solverOf := solverOf) hA' (acc := []) (by simp)).1
    have hsmall : ∀ z ∈ A.foldl (fight s.input K solverOf) [], z.len ≤ x.len := by
      have gen : ∀ (ps : List (Mt × Mt)) (acc : List Mt), (∀ p ∈ ps, p ∈ fights s ∧ p.1.len ≤ x.len) → (∀ z ∈ acc, z ∈ s.live) →
          (∀ z ∈ acc, z.len ≤ x.len) → ∀ z ∈ ps.foldl (fight s.input K solverOf) acc, z.len ≤ x.len := by
        intro ps
        induction ps with
        | nil => intro acc _ _ ha; exact ha
        | cons p ps ih =>
          intro acc hps hal ha
          rw [List.foldl_cons]
          have hc1 := (mem_fights h).1 (hps p List.mem_cons_self).1
          rcases fight_cases h (K := K) (solverOf := solverOf) hal (hps p List.mem_cons_self).1 with
            ⟨g1, _⟩ | ⟨w, v, g1, g2, g3, g4, g5⟩
          · rw [g1]; exact ih acc (fun q hq => hps q (List.mem_cons_of_mem _ hq)) hal ha
          · rw [g1]
            have hw : w ∈ s.live ∧ w.len ≤ p.1.len := by
              rw [loser_plain hp hc1.left hc1.right] at g2
              split at g2
              · cases g2; exact ⟨hc1.right, by omega⟩
              · split at g2
                · cases g2; exact ⟨hc1.left, (Nat.le_refl _)⟩
                · cases g2
            have := (hps p List.mem_cons_self).2
            refine ih _ (fun q hq => hps q (List.mem_cons_of_mem _ hq)) ?_ ?_ <;>
            · intro z hz
              rcases List.mem_append.1 hz with hz | hz
              · first | exact hal z hz | exact ha z hz
              · rw [List.mem_singleton.1 hz]
                first | exact hw.1 | (have := hw.2; omega)
      exact gen A [] (fun p hpm => ⟨hA' p hpm, hA p hpm⟩) (by simp) (by simp)
    generalize A.foldl (fight s.input K solverOf) [] = acc at l1 hsmall
    rcases fight_cases h (K := K) (solverOf := solverOf) l1 hy with ⟨g1, g2⟩ | ⟨w, v, g1, g2, g3, g4, g5⟩
    · rw [g1]
      rcases g2 with g2 | g2 | g2
      · rw [loser_plain hp hc.left hc.right, if_neg (by omega), if_pos hlt] at g2
        cases g2
      · exact (fold_live h (K := K) (solverOf := solverOf) hB' l1).2 x g2
      · have := hsmall y g2; omega
    · rw [g1]
      rw [loser_plain hp hc.left hc.right, if_neg (by omega), if_pos hlt] at g2
      cases g2
      refine (fold_live h (K := K) (solverOf := solverOf) hB' (acc := acc ++ [x]) ?_).2 x (by simp)
      intro z hz
      rcases List.mem_append.1 hz with hz | hz
      · exact l1 z hz
      · rw [List.mem_singleton.1 hz]; exact hx

/-- `x` and `y` overlap each other and no other reported match. -/
def Spec.Alone (s : Ms) (x y : Mt) : Prop := ∀ z, (Clash s x z → z = y) ∧ (Clash s y z → z = x)

theorem Spec.Clash.symm {s : Ms} {x y : Mt} (h : Clash s x y) : Clash s y x := by
  obtain ⟨c1, c2, c3, c4, c5, i, c6, c7, c8, c9⟩ := h
  exact ⟨c2, c1, c4, c3, Ne.symm c5, i, c8, c9, c6, c7⟩

theorem sorted_pair {s : Ms} (h : Sound s) {x y : Mt} (hc : Clash s x y) (hs : Sooner s y x) :
    ∃ P Q, sortBy byLen (s.live.filter fun m => !m.priv) = P ++ y :: Q ∧ x ∉ P ∧ y ∉ P := by
  classical
  have hf := filter_sortBy byLen_strictWeak (fun m => decide (m = x) || decide (m = y)) (s.live.filter fun m => !m.priv)
  have hn : s.live.Nodup := List.Nodup.of_map _ h.distinct
  have hpair : sortBy byLen ((s.live.filter fun m => !m.priv).filter fun m => decide (m = x) || decide (m = y)) = [y, x] := by
    have hcases : ((s.live.filter fun m => !m.priv).filter fun m => decide (m = x) || decide (m = y)) = [y, x] ∨
        (((s.live.filter fun m => !m.priv).filter fun m => decide (m = x) || decide (m = y)) = [x, y] ∧ ¬ [y, x].Sublist s.live) := by
      rw [List.filter_filter]
      have hkeep : ∀ q : Mt → Bool, q x = true → q y = true → (∀ z, q z = true → z = x ∨ z = y) → ∀ l : List Mt, l.Nodup → x ∈ l → y ∈ l →
          l.filter q = [y, x] ∨ (l.filter q = [x, y] ∧ ¬ [y, x].Sublist l) := by
        intro q hqx hqy hq l hl hx hy
        have hone : ∀ (l : List Mt), l.Nodup → ∀ a b, (∀ z, q z = true → z = a ∨ z = b) → a ∉ l → b ∈ l → q b = true → l.filter q = [b] := by
          intro l
          induction l with
          | nil => intro _ a b _ _ hb; cases hb
          | cons z l ih =>
            intro hl a b hq ha hb hqb
            rw [List.nodup_cons] at hl
            by_cases hzb : z = b
            · subst hzb
              rw [List.filter_cons_of_pos hqb, List.filter_eq_nil_iff.2]
              intro w hw hqw
              rcases hq w hqw with rfl | rfl
              · exact ha (List.mem_cons_of_mem _ hw)
              · exact hl.1 hw
            · have hqz : ¬ q z = true := by
                intro hqz
                rcases hq z hqz with rfl | rfl
                · exact ha List.mem_cons_self
                · exact hzb rfl
              rw [List.filter_cons_of_neg hqz]
              refine ih hl.2 a b hq (fun hm => ha (List.mem_cons_of_mem _ hm)) ?_ hqb
              rcases List.mem_cons.1 hb with hb | hb
              · exact absurd hb.symm hzb
              · exact hb
        induction l with
        | nil => cases hx
        | cons z l ih =>
          rw [List.nodup_cons] at hl
          by_cases hzx : z = x
          · subst hzx
            right
            have hyl : y ∈ l := (List.mem_cons.1 hy).resolve_left (Ne.symm hc.differ)
            rw [List.filter_cons_of_pos hqx, hone l hl.2 z y hq hl.1 hyl hqy]
            refine ⟨rfl, fun hsub => ?_⟩
            cases hsub with
            | cons _ h1 => exact hl.1 (h1.subset (by simp))
            | cons_cons _ h1 => exact hc.differ rfl
          · by_cases hzy : z = y
            · subst hzy
              left
              have hxl : x ∈ l := (List.mem_cons.1 hx).resolve_left hc.differ
              rw [List.filter_cons_of_pos hqy, hone l hl.2 z x (fun w hw => (hq w hw).symm) hl.1 hxl hqx]
            · have hqz : ¬ q z = true := by
                intro hqz
                rcases hq z hqz with rfl | rfl
                · exact hzx rfl
                · exact hzy rfl
              rw [List.filter_cons_of_neg hqz]
              rcases ih hl.2 ((List.mem_cons.1 hx).resolve_left (Ne.symm hzx)) ((List.mem_cons.1 hy).resolve_left (Ne.symm hzy)) with h1 | ⟨h1, h2⟩
              · exact .inl h1
              · refine .inr ⟨h1, fun hsub => h2 ?_⟩
                cases hsub with
                | cons _ h1 => exact h1
                | cons_cons _ h1 => exact absurd rfl hzy
      refine hkeep _ ?_ ?_ ?_ s.live hn hc.left hc.right
      · simp [hc.leftPublic]
      · simp [hc.rightPublic]
      · intro z hz
        simp only [Bool.and_eq_true, Bool.or_eq_true, decide_eq_true_eq] at hz
        exact hz.1
    rcases hcases with h1 | ⟨h1, h2⟩
    · rw [h1]
      have : byLen x y = false := by
        simp only [byLen, decide_eq_false_iff_not]
        rcases hs with hs | ⟨hs, _⟩ <;> omega
      simp [sortBy, insertBy, this]
    · rw [h1]
      have : byLen y x = true := by
        simp only [byLen, decide_eq_true_eq]
        rcases hs with hs | ⟨_, hs⟩
        · exact hs
        · exact absurd hs h2
      simp [sortBy, insertBy, this]
  rw [hpair] at hf
  obtain ⟨P, Q, h1, h2, -, -⟩ := List.filter_eq_cons_iff.1 hf
  refine ⟨P, Q, h1, fun hm => h2 x hm (by simp), fun hm => h2 y hm (by simp)⟩

/-- **C106.** For two matches that overlap each other only, the one whose turn comes first (the shorter, or the first found) is
judged with the solver of the *other* asked first; the other way round only when that settles nothing. -/
theorem C106_pair {s : Ms} (h : Sound s) (K : Kin) (solverOf : Mt → Option Solver) {x y z : Mt} (hc : Clash s x y)
    (ha : Alone s x y) (hs : Sooner s y x) (hz : z = x ∨ z = y) :
    z ∉ (solveConflicts K solverOf s).live ↔
      Judged K solverOf x y z ∨ ((∀ w, ¬ Judged K solverOf x y w) ∧ Judged K solverOf y x z) := by
  have hd := solve_drops h K solverOf
  have hzl : z ∈ s.live := by rcases hz with rfl | rfl; exacts [hc.left, hc.right]
  rw [hd.bad z hzl, Classical.not_not]
  -- the fights in order
  obtain ⟨P, Q, hPQ, hxP, hyP⟩ := sorted_pair h hc hs
  have hyx : (y, x) ∈ fights s := (mem_fights h).2 hc.symm
  have hsplit : ∃ A B, fights s = A ++ (y, x) :: B ∧ ∀ p ∈ A, p.1 ≠ x ∧ p.1 ≠ y := by
    have hf : fights s = (sortBy byLen (s.live.filter fun m => !m.priv)).flatMap fun m =>
      (sortBy byLen ((conflicting s.input s.live m).filter fun c => !c.priv)).map fun c => (m, c) := rfl
    rw [hPQ, List.flatMap_append, List.flatMap_cons] at hf
    have hin : ∀ c, c ∈ sortBy byLen ((conflicting s.input s.live y).filter fun c => !c.priv) → (y, c) ∈ fights s := by
      intro c hcm
      rw [hf]
      exact List.mem_append_right _ (List.mem_append_left _ (List.mem_map.2 ⟨c, hcm, rfl⟩))
    have hx' : x ∈ sortBy byLen ((conflicting s.input s.live y).filter fun c => !c.priv) := by
      obtain ⟨c1, c2, c3, c4, c5, i, c6, c7, c8, c9⟩ := hc
      rw [mem_sortBy, List.mem_filter, c3]
      exact ⟨(mem_conflicting h c2).2 ⟨c1, c5, by unfold Overlaps; omega⟩, rfl⟩
    generalize sortBy byLen ((conflicting s.input s.live y).filter fun c => !c.priv) = C at hf hin hx'
    cases C with
    | nil => cases hx'
    | cons c C =>
      have : c = x := (ha c).2 ((mem_fights h).1 (hin c List.mem_cons_self))
      subst this
      rw [List.map_cons, List.cons_append] at hf
      refine ⟨_, _, hf, ?_⟩
      intro p hp
      obtain ⟨m, hm, hm'⟩ := List.mem_flatMap.1 hp
      obtain ⟨d, -, rfl⟩ := List.mem_map.1 hm'
      exact ⟨fun he => hxP (by rw [← (show m = c from he)]; exact hm), fun he => hyP (by rw [← (show m = y from he)]; exact hm)⟩
  obtain ⟨A, B, hAB, hA⟩ := hsplit
  have hmem : ∀ p ∈ A ++ (y, x) :: B, p ∈ fights s := fun p hp => by rw [hAB]; exact hp
  have hA' : ∀ q ∈ A, q ∈ fights s := fun q hq => hmem q (List.mem_append_left _ hq)
  have hB' : ∀ q ∈ B, q ∈ fights s := fun q hq => hmem q (List.mem_append_right _ (List.mem_cons_of_mem _ hq))
  -- any fight with one of the two is between the two
  have hfight : ∀ p ∈ fights s, (p.1 = x ∨ p.1 = y ∨ p.2 = x ∨ p.2 = y) → (p = (x, y) ∨ p = (y, x)) := by
    intro p hp hq
    have hcp := (mem_fights h).1 hp
    obtain ⟨a, b⟩ := p
    rcases hq with hq | hq | hq | hq <;> (dsimp only at hq hcp; subst hq)
    · exact .inl (by rw [(ha b).1 hcp])
    · exact .inr (by rw [(ha b).2 hcp])
    · exact .inr (by rw [(ha a).1 hcp.symm])
    · exact .inl (by rw [(ha a).2 hcp.symm])
  have hnone : ∀ w, (w = x ∨ w = y) → w ∉ A.foldl (fight s.input K solverOf) [] := by
    have gen : ∀ (ps : List (Mt × Mt)) (acc : List Mt), (∀ p ∈ ps, p ∈ fights s ∧ p.1 ≠ x ∧ p.1 ≠ y) → (∀ z ∈ acc, z ∈ s.live) →
        (∀ w, (w = x ∨ w = y) → w ∉ acc) → ∀ w, (w = x ∨ w = y) → w ∉ ps.foldl (fight s.input K solverOf) acc := by
      intro ps
      induction ps with
      | nil => intro acc _ _ hacc; exact hacc
      | cons p ps ih =>
        intro acc hps hal hacc
        rw [List.foldl_cons]
        obtain ⟨hp, hp1, hp2⟩ := hps p List.mem_cons_self
        rcases fight_cases h (K := K) (solverOf := solverOf) hal hp with ⟨g1, _⟩ | ⟨w, v, g1, g2, g3, g4, g5⟩
        · rw [g1]; exact ih acc (fun q hq => hps q (List.mem_cons_of_mem _ hq)) hal hacc
        · rw [g1]
          have hw : w ≠ x ∧ w ≠ y := by
            have hnot : ¬ (p = (x, y) ∨ p = (y, x)) := by
              rintro (rfl | rfl)
              · exact hp1 rfl
              · exact hp2 rfl
            rcases g3 with ⟨rfl, _⟩ | ⟨rfl, _⟩
            · exact ⟨hp1, hp2⟩
            · exact ⟨fun he => hnot (hfight p hp (.inr (.inr (.inl he)))), fun he => hnot (hfight p hp (.inr (.inr (.inr he))))⟩
          have hc1 := (mem_fights h).1 hp
          refine ih _ (fun q hq => hps q (List.mem_cons_of_mem _ hq)) ?_ ?_
          · intro z hz
            rcases List.mem_append.1 hz with hz | hz
            · exact hal z hz
            · rw [List.mem_singleton.1 hz]
              rcases g3 with ⟨rfl, _⟩ | ⟨rfl, _⟩
              exacts [hc1.left, hc1.right]
          · intro u hu hm
            rcases List.mem_append.1 hm with hm | hm
            · exact hacc u hu hm
            · rw [List.mem_singleton.1 hm] at hu
              rcases hu with rfl | rfl
              · exact hw.1 rfl
              · exact hw.2 rfl
    exact gen A [] (fun p hp => ⟨hA' p hp, hA p hp⟩) (by simp) (by simp)
  -- once one of the two is dropped, the other stays
  have hstay : ∀ w v, ((w = x ∧ v = y) ∨ (w = y ∧ v = x)) → ∀ (ps : List (Mt × Mt)) (acc : List Mt), (∀ p ∈ ps, p ∈ fights s) →
      (∀ z ∈ acc, z ∈ s.live) → w ∈ acc → v ∉ acc → v ∉ ps.foldl (fight s.input K solverOf) acc := by
    intro w v hwv ps acc hps hal hw hv
    have := (fold_inv h (K := K) (solverOf := solverOf) (P := fun acc => w ∈ acc ∧ v ∉ acc) (by
      rintro acc p a b ⟨hP1, hP2⟩ hp hl hwin ha1 hb1
      refine ⟨List.mem_append_left _ hP1, fun hm => ?_⟩
      rcases List.mem_append.1 hm with hm | hm
      · exact hP2 hm
      · have hva : v = a := List.mem_singleton.1 hm
        subst hva
        have hpp : p = (x, y) ∨ p = (y, x) := by
          apply hfight p hp
          rcases hwin with ⟨e, _⟩ | ⟨e, _⟩ <;> rcases hwv with ⟨_, e'⟩ | ⟨_, e'⟩ <;> simp_all
        have hne := hc.differ
        rcases hpp with rfl | rfl <;> rcases hwin with ⟨e1, e2⟩ | ⟨e1, e2⟩ <;> rcases hwv with ⟨e3, e4⟩ | ⟨e3, e4⟩ <;>
          simp_all) ps acc hps hal ⟨hw, hv⟩).1
    exact this.2
  have l1 := (fold_live h (K := K) (solverOf := solverOf) hA' (acc := []) (by simp)).1
  constructor
  · intro hm
    obtain ⟨pre, post, he⟩ := List.append_of_mem hm
    cases hl : loser K solverOf y x with
    | none =>
      right
      refine ⟨fun w hw => (by rw [loser_iff.2 hw] at hl; cases hl), ?_⟩
      obtain ⟨u, h1, h2, -⟩ := dropped_order h K solverOf pre z post he
      rcases hz with rfl | rfl
      · have : u = y := (ha u).1 h1
        subst this
        rcases h2 with h2 | h2
        · rw [loser_iff.2 h2] at hl; cases hl
        · exact h2
      · have : u = x := (ha u).2 h1
        subst this
        rcases h2 with h2 | h2
        · exact h2
        · rw [loser_iff.2 h2] at hl; cases hl
    | some w =>
      left
      have hw := judged_mem (loser_iff.1 hl)
      by_cases hzw : z = w
      · rw [hzw]; exact loser_iff.1 hl
      · exfalso
        rw [hAB, List.foldl_append, List.foldl_cons] at hm
        generalize A.foldl (fight s.input K solverOf) [] = acc at hm hnone l1
        rcases fight_cases h (K := K) (solverOf := solverOf) l1 hyx with ⟨_, g2⟩ | ⟨w', v, g1, g2, g3, g4, g5⟩
        · rcases g2 with g2 | g2 | g2
          · rw [hl] at g2; cases g2
          · exact hnone y (.inr rfl) g2
          · exact hnone x (.inl rfl) g2
        · rw [hl] at g2; cases g2
          rw [g1] at hm
          have hzv : z ∉ acc ++ [w] := by
            intro hm'
            rcases List.mem_append.1 hm' with hm' | hm'
            · exact hnone z hz hm'
            · exact hzw (List.mem_singleton.1 hm')
          refine hstay w z ?_ B (acc ++ [w]) hB' ?_ (by simp) hzv hm
          · rcases hz with rfl | rfl <;> rcases hw with rfl | rfl <;> simp_all
          · intro u hu
            rcases List.mem_append.1 hu with hu | hu
            · exact l1 u hu
            · rw [List.mem_singleton.1 hu]
              rcases hw with rfl | rfl
              exacts [hc.left, hc.right]
  · rintro (hj | ⟨hn, hj⟩)
    · have hl := loser_iff.2 hj
      rw [hAB, List.foldl_append, List.foldl_cons]
      generalize A.foldl (fight s.input K solverOf) [] = acc at hnone l1
      rcases fight_cases h (K := K) (solverOf := solverOf) l1 hyx with ⟨_, g2⟩ | ⟨w', v, g1, g2, g3, g4, g5⟩
      · rcases g2 with g2 | g2 | g2
        · rw [hl] at g2; cases g2
        · exact absurd g2 (hnone y (.inr rfl))
        · exact absurd g2 (hnone x (.inl rfl))
      · rw [hl] at g2; cases g2
        rw [g1]
        refine (fold_live h (K := K) (solverOf := solverOf) hB' (acc := acc ++ [z]) ?_).2 z (by simp)
        intro u hu
        rcases List.mem_append.1 hu with hu | hu
        · exact l1 u hu
        · rw [List.mem_singleton.1 hu]; exact hzl
    · by_contra hm
      have hother : ∃ u, ((z = x ∧ u = y) ∨ (z = y ∧ u = x)) := by
        rcases hz with rfl | rfl
        exacts [⟨y, .inl ⟨rfl, rfl⟩⟩, ⟨x, .inr ⟨rfl, rfl⟩⟩]
      obtain ⟨u, hu⟩ := hother
      have hu_in : u ∈ (fights s).foldl (fight s.input K solverOf) [] := by
        by_contra hmu
        have := fold_settled h (K := K) (solverOf := solverOf) (fun _ hp => hp) (p := (x, y)) ((mem_fights h).2 hc)
          (by rcases hu with ⟨rfl, rfl⟩ | ⟨rfl, rfl⟩ <;> assumption) (by rcases hu with ⟨rfl, rfl⟩ | ⟨rfl, rfl⟩ <;> assumption)
        rw [loser_iff.2 hj] at this; cases this
      obtain ⟨pre, post, he⟩ := List.append_of_mem hu_in
      obtain ⟨v, h1, h2, -⟩ := dropped_order h K solverOf pre u post he
      have huz : Judged K solverOf y x u := by
        rcases hu with ⟨rfl, rfl⟩ | ⟨rfl, rfl⟩
        · have : v = z := (ha v).2 h1
          subst this
          rcases h2 with h2 | h2
          · exact h2
          · exact absurd h2 (hn _)
        · have : v = z := (ha v).1 h1
          subst this
          rcases h2 with h2 | h2
          · exact absurd h2 (hn _)
          · exact h2
      have := (loser_iff.2 huz).symm.trans (loser_iff.2 hj)
      cases this
      rcases hu with ⟨rfl, rfl⟩ | ⟨rfl, rfl⟩ <;> exact hc.differ rfl

/-! ### Concrete cases -/

/-- `.1080p.x264`-like: three overlapping matches of lengths 2, 3 and 4. -/
def stairs : Ms where
  input := c!"abcdefghi"
  live := [{ id := 1, start := 0, stop := 2, name := some c!"a" }, { id := 2, start := 1, stop := 4, name := some c!"b" },
    { id := 3, start := 3, stop := 7, name := some c!"c" }]
  markers := []

/-- Every match is its own initiator. -/
def selfKin : Kin := { initiator := id, children := fun _ => [], pattern := fun _ => 0, ancestors := fun _ => [] }

theorem stairs_sound : Sound stairs where
  wf := by intro m hm; simp only [stairs, List.mem_cons, List.not_mem_nil, or_false] at hm; rcases hm with rfl | rfl | rfl <;> decide
  distinct := by decide

example : Plainly stairs selfKin fun _ => none := fun _ _ => ⟨rfl, rfl⟩

/-- **C106.** A match can be dropped because of one that does not stay: here the first match overlaps no match that is left. -/
theorem C106_counterexample_cascade : ∃ x ∈ stairs.live, x ∉ (solveConflicts selfKin (fun _ => none) stairs).live ∧
    ∀ y ∈ (solveConflicts selfKin (fun _ => none) stairs).live, ¬ Clash stairs x y := by
  have hd := C106_longest stairs_sound (K := selfKin) (solverOf := fun _ => none) fun _ _ => ⟨rfl, rfl⟩
  have hc : ∀ x y : Mt, x ∈ stairs.live → y ∈ stairs.live → x.id ≠ y.id → x.start < y.stop → y.start < x.stop → Clash stairs x y := by
    intro x y hx hy h1 h2 h3
    have h4 := stairs_sound.pos x hx
    have h5 := stairs_sound.pos y hy
    refine ⟨hx, hy, ?_, ?_, fun he => h1 (by rw [he]), max x.start y.start, by omega, by omega, by omega, by omega⟩
    · simp only [stairs, List.mem_cons, List.not_mem_nil, or_false] at hx; rcases hx with rfl | rfl | rfl <;> rfl
    · simp only [stairs, List.mem_cons, List.not_mem_nil, or_false] at hy; rcases hy with rfl | rfl | rfl <;> rfl
  refine ⟨{ id := 1, start := 0, stop := 2, name := some c!"a" }, by simp [stairs], ?_, ?_⟩
  · intro hm
    refine (hd.bad _ (by simp [stairs])).1 hm ⟨{ id := 2, start := 1, stop := 4, name := some c!"b" }, ?_, by decide⟩
    exact hc _ _ (by simp [stairs]) (by simp [stairs]) (by decide) (by decide) (by decide)
  · intro y hy hcl
    have hyl := hd.order.subset hy
    have hbad := (hd.bad y hyl).1 hy
    obtain ⟨_, _, _, _, hne, i, h1, h2, h3, h4⟩ := hcl
    have hyl' := hyl
    simp only [stairs, List.mem_cons, List.not_mem_nil, or_false] at hyl'
    rcases hyl' with rfl | rfl | rfl
    · exact hne rfl
    · exact hbad ⟨{ id := 3, start := 3, stop := 7, name := some c!"c" },
        hc _ _ hyl (by simp [stairs]) (by decide) (by decide) (by decide), by decide⟩
    · dsimp only at h1 h2 h3 h4; omega

end Guessit
