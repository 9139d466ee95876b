import Verif.Model.Title
import Verif.Spec.Title
import Verif.Proofs.Removers
import Verif.Props.Text

/-! # Lemmas about titles -/

namespace Guessit
open Spec

/-! ## Runs -/

theorem runsFrom_mem (p : Nat → Bool) : ∀ f i o r, (∀ a, o = some a → a < i ∧ ∀ j, a ≤ j → j < i → p j = true) →
    r ∈ runsFrom p f i o → (o = some r.1 ∨ (i ≤ r.1 ∧ (r.1 = i ∧ o = none ∨ p (r.1 - 1) = false))) ∧ r.1 < r.2 ∧ i ≤ r.2 ∧ r.2 ≤ i + f ∧
      (∀ j, r.1 ≤ j → j < r.2 → p j = true) ∧ (r.2 = i + f ∨ p r.2 = false) := by
  intro f
  induction f with
  | zero =>
    intro i o r ho hr
    cases o with
    | none => simp [runsFrom] at hr
    | some a =>
      simp only [runsFrom, List.mem_singleton] at hr
      subst hr
      obtain ⟨h1, h2⟩ := ho a rfl
      exact ⟨.inl rfl, h1, Nat.le_refl _, by simp, h2, .inl (by simp)⟩
  | succ f ih =>
    intro i o r ho hr
    unfold runsFrom at hr
    cases hp : p i with
    | true =>
      cases o with
      | none =>
        simp only [hp] at hr
        obtain ⟨h1, h2, h3, h4, h5, h6⟩ := ih (i + 1) (some i) r (by
          intro a ha; cases ha; refine ⟨by omega, fun j h1 h2 => ?_⟩; have : j = i := by omega
          rw [this]; exact hp) hr
        refine ⟨.inr ?_, h2, by omega, by omega, h5, by rcases h6 with h | h <;> [left; right] <;> first | omega | exact h⟩
        rcases h1 with h1 | ⟨h1, h1'⟩
        · cases h1; exact ⟨Nat.le_refl _, .inl ⟨rfl, rfl⟩⟩
        · refine ⟨by omega, ?_⟩
          rcases h1' with ⟨_, h⟩ | h
          · cases h
          · exact .inr h
      | some a =>
        simp only [hp] at hr
        obtain ⟨hoa, hob⟩ := ho a rfl
        obtain ⟨h1, h2, h3, h4, h5, h6⟩ := ih (i + 1) (some a) r (by
          intro b hb; cases hb; refine ⟨by omega, fun j h1 h2 => ?_⟩
          by_cases hj : j = i
          · rw [hj]; exact hp
          · exact hob j h1 (by omega)) hr
        refine ⟨?_, h2, by omega, by omega, h5, by rcases h6 with h | h <;> [left; right] <;> first | omega | exact h⟩
        rcases h1 with h1 | ⟨h1, h1'⟩
        · exact .inl h1
        · refine .inr ⟨by omega, ?_⟩
          rcases h1' with ⟨_, h⟩ | h
          · cases h
          · exact .inr h
    | false =>
      have key : ∀ r, r ∈ runsFrom p f (i + 1) none → (i ≤ r.1 ∧ p (r.1 - 1) = false) ∧ r.1 < r.2 ∧ i ≤ r.2 ∧ r.2 ≤ i + (f + 1) ∧
          (∀ j, r.1 ≤ j → j < r.2 → p j = true) ∧ (r.2 = i + (f + 1) ∨ p r.2 = false) := by
        intro r hr
        obtain ⟨h1, h2, h3, h4, h5, h6⟩ := ih (i + 1) none r (by simp) hr
        refine ⟨?_, h2, by omega, by omega, h5, by rcases h6 with h | h <;> [left; right] <;> first | omega | exact h⟩
        rcases h1 with h1 | ⟨h1, h1'⟩
        · cases h1
        · refine ⟨by omega, ?_⟩
          rcases h1' with ⟨h, _⟩ | h
          · rw [h]; exact hp
          · exact h
      cases o with
      | none =>
        simp only [hp] at hr
        obtain ⟨⟨h1, h1'⟩, h⟩ := key r hr
        exact ⟨.inr ⟨h1, .inr h1'⟩, h⟩
      | some a =>
        simp only [hp] at hr
        rcases List.mem_cons.1 hr with rfl | hr
        · obtain ⟨hoa, hob⟩ := ho a rfl
          exact ⟨.inl rfl, hoa, Nat.le_refl _, by omega, hob, .inr hp⟩
        · obtain ⟨⟨h1, h1'⟩, h⟩ := key r hr
          exact ⟨.inr ⟨h1, .inr h1'⟩, h⟩

/-- The members of a list of maximal runs. -/
theorem run_mem {p : Nat → Bool} {f i : Nat} {r : Nat × Nat} (h : r ∈ runsFrom p f i none) :
    i ≤ r.1 ∧ r.1 < r.2 ∧ r.2 ≤ i + f ∧ (∀ j, r.1 ≤ j → j < r.2 → p j = true) ∧ (r.1 = i ∨ p (r.1 - 1) = false) ∧
      (r.2 = i + f ∨ p r.2 = false) := by
  obtain ⟨h1, h2, h3, h4, h5, h6⟩ := runsFrom_mem p f i none r (by simp) h
  rcases h1 with h1 | ⟨h1, h1'⟩
  · cases h1
  · exact ⟨h1, h2, h4, h5, h1'.imp And.left id, h6⟩

theorem run_covers {p : Nat → Bool} {f i j : Nat} (h1 : i ≤ j) (h2 : j < i + f) (hp : p j = true) :
    ∃ r ∈ runsFrom p f i none, r.1 ≤ j ∧ j < r.2 := (runsFrom_covers p f i none (by simp)).1 j h1 h2 hp

/-- Runs come from left to right and do not touch. -/
theorem runs_sorted (p : Nat → Bool) : ∀ f i o, (∀ a, o = some a → a < i ∧ ∀ j, a ≤ j → j < i → p j = true) →
    (runsFrom p f i o).Pairwise fun a b => a.2 < b.1 := by
  intro f
  induction f with
  | zero => intro i o _; unfold runsFrom; cases o <;> simp
  | succ f ih =>
    intro i o ho
    unfold runsFrom
    cases hp : p i with
    | true =>
      cases o with
      | none =>
        refine ih (i + 1) (some i) ?_
        intro a ha; cases ha; refine ⟨by omega, fun j h1 h2 => ?_⟩; have : j = i := by omega
        rw [this]; exact hp
      | some a =>
        obtain ⟨hoa, hob⟩ := ho a rfl
        refine ih (i + 1) (some a) ?_
        intro b hb; cases hb; refine ⟨by omega, fun j h1 h2 => ?_⟩
        by_cases hj : j = i
        · rw [hj]; exact hp
        · exact hob j h1 (by omega)
    | false =>
      cases o with
      | none => exact ih (i + 1) none (by simp)
      | some a =>
        refine List.pairwise_cons.2 ⟨?_, ih (i + 1) none (by simp)⟩
        intro r hr
        have := (run_mem hr).1
        simp only
        omega

/-! ## Crops -/

/-- The position is in one of the pieces. -/
def InPieces (l : List (Nat × Nat)) (j : Nat) : Prop := ∃ p ∈ l, p.1 ≤ j ∧ j < p.2

theorem cropPiece_mem (c p : Nat × Nat) (hc : c.1 ≤ c.2) (j : Nat) :
    (InPieces (cropPiece c p).1 j ∨ InPieces (cropPiece c p).2 j) ↔ (p.1 ≤ j ∧ j < p.2) ∧ ¬ (c.1 ≤ j ∧ j < c.2) := by
  unfold cropPiece InPieces
  obtain ⟨c1, c2⟩ := c
  obtain ⟨p1, p2⟩ := p
  simp only at hc ⊢
  split
  · simp; omega
  · split
    · split <;> split <;> simp <;> omega
    · split
      · simp; omega
      · split
        · simp; omega
        · simp; omega

theorem cropStep_mem (l : List (Nat × Nat)) (c : Nat × Nat) (hc : c.1 ≤ c.2) (j : Nat) :
    InPieces (cropStep l c) j ↔ InPieces l j ∧ ¬ (c.1 ≤ j ∧ j < c.2) := by
  unfold cropStep
  constructor
  · rintro ⟨q, hq, hj⟩
    rcases List.mem_append.1 hq with h | h
    · obtain ⟨p, hp, hq'⟩ := List.mem_flatMap.1 h
      obtain ⟨h1, h2⟩ := (cropPiece_mem c p hc j).1 (.inl ⟨q, hq', hj⟩)
      exact ⟨⟨p, hp, h1⟩, h2⟩
    · obtain ⟨p, hp, hq'⟩ := List.mem_flatMap.1 h
      obtain ⟨h1, h2⟩ := (cropPiece_mem c p hc j).1 (.inr ⟨q, hq', hj⟩)
      exact ⟨⟨p, hp, h1⟩, h2⟩
  · rintro ⟨⟨p, hp, hj⟩, hcj⟩
    rcases (cropPiece_mem c p hc j).2 ⟨hj, hcj⟩ with ⟨q, hq, h⟩ | ⟨q, hq, h⟩
    · exact ⟨q, List.mem_append.2 (.inl (List.mem_flatMap.2 ⟨p, hp, hq⟩)), h⟩
    · exact ⟨q, List.mem_append.2 (.inr (List.mem_flatMap.2 ⟨p, hp, hq⟩)), h⟩

theorem crop_mem (crops : List (Nat × Nat)) (hcs : ∀ c ∈ crops, c.1 ≤ c.2) (h : Nat × Nat) (j : Nat) :
    InPieces (cropAll crops h) j ↔ (h.1 ≤ j ∧ j < h.2) ∧ ∀ c ∈ crops, ¬ (c.1 ≤ j ∧ j < c.2) := by
  unfold cropAll
  have key : ∀ (crops : List (Nat × Nat)), (∀ c ∈ crops, c.1 ≤ c.2) → ∀ l, InPieces (crops.foldl cropStep l) j ↔
      InPieces l j ∧ ∀ c ∈ crops, ¬ (c.1 ≤ j ∧ j < c.2) := by
    intro crops
    induction crops with
    | nil => intro _ l; simp
    | cons c cs ih =>
      intro hc l
      rw [List.foldl_cons, ih (fun c hc' => hc c (List.mem_cons_of_mem _ hc')), cropStep_mem _ _ (hc c (List.mem_cons_self ..)),
        List.forall_mem_cons]
      exact and_assoc
  rw [key crops hcs]
  simp [InPieces]

theorem cropPiece_pos {c p q : Nat × Nat} (hc : c.1 ≤ c.2) (hp : p.1 < p.2) (h : q ∈ (cropPiece c p).1 ∨ q ∈ (cropPiece c p).2) :
    q.1 < q.2 ∧ p.1 ≤ q.1 ∧ q.2 ≤ p.2 := by
  unfold cropPiece at h
  obtain ⟨c1, c2⟩ := c
  obtain ⟨p1, p2⟩ := p
  obtain ⟨q1, q2⟩ := q
  simp only at h hp hc ⊢
  split at h
  · simp at h
  · split at h
    · rcases h with h | h
      · split at h <;> simp at h <;> omega
      · split at h <;> simp at h <;> omega
    · split at h
      · simp at h; omega
      · split at h
        · simp at h; omega
        · simp at h; omega

theorem crop_pos {crops : List (Nat × Nat)} (hcs : ∀ c ∈ crops, c.1 ≤ c.2) {h q : Nat × Nat} (hh : h.1 < h.2) (hq : q ∈ cropAll crops h) :
    q.1 < q.2 ∧ h.1 ≤ q.1 ∧ q.2 ≤ h.2 := by
  unfold cropAll at hq
  have key : ∀ (crops : List (Nat × Nat)), (∀ c ∈ crops, c.1 ≤ c.2) → ∀ l, (∀ q ∈ l, q.1 < q.2 ∧ h.1 ≤ q.1 ∧ q.2 ≤ h.2) →
      ∀ q ∈ crops.foldl cropStep l, q.1 < q.2 ∧ h.1 ≤ q.1 ∧ q.2 ≤ h.2 := by
    intro crops
    induction crops with
    | nil => intro _ l hl; simpa using hl
    | cons c cs ih =>
      intro hc l hl
      rw [List.foldl_cons]
      refine ih (fun c hc' => hc c (List.mem_cons_of_mem _ hc')) _ ?_
      intro q hq
      unfold cropStep at hq
      rcases List.mem_append.1 hq with h' | h'
      · obtain ⟨p, hp, hq'⟩ := List.mem_flatMap.1 h'
        obtain ⟨h1, h2, h3⟩ := hl p hp
        obtain ⟨k1, k2, k3⟩ := cropPiece_pos (hc c (List.mem_cons_self ..)) h1 (.inl hq')
        omega
      · obtain ⟨p, hp, hq'⟩ := List.mem_flatMap.1 h'
        obtain ⟨h1, h2, h3⟩ := hl p hp
        obtain ⟨k1, k2, k3⟩ := cropPiece_pos (hc c (List.mem_cons_self ..)) h1 (.inr hq')
        omega
  exact key crops hcs [h] (by intro q hq; rw [List.mem_singleton] at hq; subst hq; omega) q hq

theorem skim_sublist (bad : Mt → Bool) : ∀ l, (skim bad l).Sublist l
  | [] => .slnil
  | [g] => by unfold skim; split <;> simp
  | g :: h :: rest => by
    unfold skim
    split
    · exact .cons _ ((skim_sublist bad rest).cons_cons h)
    · exact (skim_sublist bad (h :: rest)).cons_cons g

theorem skim_keeps (bad : Mt → Bool) : ∀ l g, g ∈ l → bad g = false → g ∈ skim bad l
  | [], g, h, _ => by simp at h
  | [x], g, h, hb => by
    rw [List.mem_singleton] at h; subst h
    simp [skim, hb]
  | x :: y :: rest, g, h, hb => by
    unfold skim
    split
    · rename_i hx
      rcases List.mem_cons.1 h with rfl | h
      · rw [hx] at hb; cases hb
      · rcases List.mem_cons.1 h with rfl | h
        · exact List.mem_cons_self ..
        · exact List.mem_cons_of_mem _ (skim_keeps bad rest g h hb)
    · rcases List.mem_cons.1 h with rfl | h
      · exact List.mem_cons_self ..
      · exact List.mem_cons_of_mem _ (skim_keeps bad (y :: rest) g h hb)

/-- A single bad element is removed. -/
theorem skim_drops (bad : Mt → Bool) : ∀ l, l.Nodup → (∀ g ∈ l, ∀ h ∈ l, bad g = true → bad h = true → g = h) → ∀ g ∈ skim bad l, bad g = false
  | [], _, _, g, h => by simp [skim] at h
  | [x], _, _, g, h => by
    unfold skim at h
    split at h
    · simp at h
    · rename_i hx
      rw [List.mem_singleton] at h; subst h
      simpa using hx
  | x :: y :: rest, hnd, hone, g, h => by
    unfold skim at h
    split at h
    · rename_i hx
      have : g ∈ y :: rest := by
        rcases List.mem_cons.1 h with rfl | h
        · exact List.mem_cons_self ..
        · exact List.mem_cons_of_mem _ ((skim_sublist bad rest).subset h)
      cases hg : bad g with
      | false => rfl
      | true =>
        have := hone x (List.mem_cons_self ..) g (List.mem_cons_of_mem _ this) hx hg
        subst this
        exact absurd ‹x ∈ y :: rest› (List.nodup_cons.1 hnd).1
    · rename_i hx
      rcases List.mem_cons.1 h with rfl | h
      · simpa using hx
      · exact skim_drops bad (y :: rest) (List.nodup_cons.1 hnd).2
          (fun a ha b hb => hone a (List.mem_cons_of_mem _ ha) b (List.mem_cons_of_mem _ hb)) g h

/-! ## Values -/

theorem wordChars_nil {s : Str} : wordChars s = [] ↔ ∀ c ∈ s, c ∈ seps := by
  unfold wordChars
  rw [List.filter_eq_nil_iff]
  simp

theorem cleanup_nil {s : Str} : cleanup s = [] ↔ ∀ c ∈ s, c ∈ seps := by
  rw [← wordChars_nil, ← C20_word_characters]
  constructor
  · intro h; rw [h]; rfl
  · intro h
    by_contra hne
    have hrest : wordChars s = [] := by rw [← C20_word_characters]; exact h
    have hd : dots s = [] := by
      rw [List.eq_nil_iff_forall_not_mem]
      intro c hc
      obtain ⟨i, j, _, hi, _⟩ := mem_dots hc
      obtain ⟨c', x, _, _, _, hx, hxs, _⟩ := hi
      exact hxs (wordChars_nil.1 hrest x (List.mem_of_getElem? hx))
    have hall : ∀ c ∈ restored s, c ∈ seps := by
      refine wordChars_nil.1 ?_
      have := filter_forall2 (restored_forall2 s)
      exact this.trans hrest
    have : stripChars (seps.filter fun c => !(dots s).contains c) (restored s) = [] := by
      rw [hd]
      have e : (seps.filter fun c => !([] : Str).contains c) = seps := by simp
      rw [e]
      exact (strip_nil_iff (restored s)).2 hall
    apply hne
    unfold cleanup
    rw [this]
    rfl

theorem reorderWith_ne {lower : Str → Str} {t a : Str} {ss : List Str} {r : Str} (h : reorderWith lower t a ss = some r) : r ≠ [] := by
  induction ss with
  | nil => simp [reorderWith] at h
  | cons sep rest ih =>
    simp only [reorderWith] at h
    split at h
    · cases h; simp
    · exact ih h

theorem fmt_nil {e : TitleEnv} (he : e.lower [] = []) {s : Str} : e.fmt s = [] ↔ ∀ c ∈ s, c ∈ seps := by
  rw [← cleanup_nil]
  unfold TitleEnv.fmt
  constructor
  · intro h
    unfold reorderTitle at h
    split at h
    · rename_i t heq
      exact absurd h (reorderWith_ne heq)
    · simpa [reorderTitle] using h
  · intro h
    rw [h]
    simp [reorderTitle, reorderWith, he, pySlice]

theorem fmt_slice {e : TitleEnv} (he : e.lower [] = []) {input : Str} {h : Nat × Nat} :
    (e.fmt (sliceOf input h)).isEmpty = false ↔ ∃ i, h.1 ≤ i ∧ i < h.2 ∧ WordAt input i := by
  rw [← Bool.not_eq_true, List.isEmpty_iff, fmt_nil he]
  unfold sliceOf WordAt
  constructor
  · intro hn
    by_contra hc
    refine hn fun c hc' => ?_
    obtain ⟨i, h1, h2, h3⟩ := slice_mem.1 hc'
    by_contra hs
    exact hc ⟨i, h1, h2, c, h3, hs⟩
  · rintro ⟨i, h1, h2, c, h3, hs⟩ hn
    exact hs (hn c (slice_mem.2 ⟨i, h1, h2, h3⟩))

/-! ## Chains -/

theorem mem_atIndex {l : List Mt} {i : Nat} {m : Mt} : m ∈ atIndex l i ↔ m ∈ l ∧ Covers m i := by
  simp [atIndex, Covers]

theorem sepAt_iff {input : Str} {i : Nat} : (input[i]?).any isSep = true ↔ ∃ c, input[i]? = some c ∧ c ∈ seps := by
  rw [Option.any_eq_true]
  simp only [isSep_iff]

theorem chainBefore_some {input : Str} {l : List Mt} {p : Mt → Bool} : ∀ {n : Nat} {m : Mt}, chainBefore input l p n = some m →
    m ∈ l ∧ p m = true ∧ ∃ i, i < n ∧ Covers m i ∧ ∀ j, i < j → j < n → ∃ c, input[j]? = some c ∧ c ∈ seps
  | 0, m, h => by simp [chainBefore] at h
  | n + 1, m, h => by
    unfold chainBefore at h
    split at h
    · rename_i x xs heq
      cases h
      have hx : m ∈ (atIndex l n).filter p := by rw [heq]; exact List.mem_cons_self ..
      obtain ⟨h1, h2⟩ := List.mem_filter.1 hx
      obtain ⟨h3, h4⟩ := mem_atIndex.1 h1
      exact ⟨h3, h2, n, by omega, h4, fun j h5 h6 => by omega⟩
    · split at h
      · rename_i hs
        obtain ⟨h1, h2, i, h3, h4, h5⟩ := chainBefore_some h
        refine ⟨h1, h2, i, by omega, h4, fun j h6 h7 => ?_⟩
        by_cases hj : j = n
        · rw [hj]; exact sepAt_iff.1 hs
        · exact h5 j h6 (by omega)
      · cases h

theorem chainAfter_some {input : Str} {l : List Mt} {p : Mt → Bool} : ∀ {f n : Nat} {m : Mt}, chainAfter input l p f n = some m →
    m ∈ l ∧ p m = true ∧ ∃ i, n ≤ i ∧ i < n + f ∧ Covers m i ∧ ∀ j, n ≤ j → j < i → ∃ c, input[j]? = some c ∧ c ∈ seps
  | 0, n, m, h => by simp [chainAfter] at h
  | f + 1, n, m, h => by
    unfold chainAfter at h
    split at h
    · rename_i x xs heq
      cases h
      have hx : m ∈ (atIndex l n).filter p := by rw [heq]; exact List.mem_cons_self ..
      obtain ⟨h1, h2⟩ := List.mem_filter.1 hx
      obtain ⟨h3, h4⟩ := mem_atIndex.1 h1
      exact ⟨h3, h2, n, Nat.le_refl _, by omega, h4, fun j h5 h6 => by omega⟩
    · split at h
      · rename_i hs
        obtain ⟨h1, h2, i, h3, h3', h4, h5⟩ := chainAfter_some h
        refine ⟨h1, h2, i, by omega, by omega, h4, fun j h6 h7 => ?_⟩
        by_cases hj : j = n
        · rw [hj]; exact sepAt_iff.1 hs
        · exact h5 j (by omega) h7
      · cases h

/-! ## Shrinking a hole -/

theorem isIgnored_iff {upper : Str → Bool} {input : Str} {m : Mt} : isIgnored upper input m = true ↔ Ignorable upper input m := by
  unfold isIgnored Ignorable
  rw [Bool.and_eq_true, isOneOf_iff, and_comm, Bool.not_eq_true', ← Bool.not_eq_true, Bool.and_eq_true, decide_eq_true_eq]

/-- What the loops guarantee about the hole: it has lost only separators and characters of ignored matches. -/
structure Shrunk (s : Ms) (ig : List Mt) (h : Nat × Nat) (st : HoleState) : Prop where
  left : h.1 ≤ st.hole.1
  right : st.hole.2 ≤ h.2
  kept : ∀ m ∈ st.kept, m ∈ ig
  out : ∀ m ∈ st.kept, st.hole.2 ≤ m.start ∨ m.stop ≤ st.hole.1
  lost : ∀ j, h.1 ≤ j → j < h.2 → ¬ (st.hole.1 ≤ j ∧ j < st.hole.2) →
    (∃ c, s.input[j]? = some c ∧ c ∈ seps) ∨ ∃ m ∈ st.kept, Covers m j

theorem eqv_span {input : Str} {a b : Mt} (h : Mt.eqv input a b = true) : a.start = b.start ∧ a.stop = b.stop := by
  have := eqv_iff.1 h
  have h1 := congrArg MtKey.start this
  have h2 := congrArg MtKey.stop this
  exact ⟨h1, h2⟩

theorem shrunk_trail {r : TitleRule} {s : Ms} {part : Mt} {ig : List Mt} {h : Nat × Nat} {st : HoleState} {m : Mt}
    (hmax : h.2 ≤ maxEnd s.input s.live) (hs : Shrunk s ig h st) (hm : m ∈ ig) : Shrunk s ig h (trailStep r s part st m) := by
  unfold trailStep
  split
  · rename_i hc
    obtain ⟨hc, _⟩ := Bool.and_eq_true_iff.1 hc
    obtain ⟨x, hx⟩ := Option.isSome_iff_exists.1 hc
    obtain ⟨h1, h2, i, h3, h4, h5⟩ := chainBefore_some hx
    obtain ⟨e1, e2⟩ := eqv_span h2
    have h6 := h4.1
    have h7 := h4.2
    refine ⟨hs.left, ?_, ?_, ?_, ?_⟩
    · have := hs.right
      simp only
      omega
    · intro y hy
      rcases List.mem_append.1 hy with hy | hy
      · exact hs.kept y hy
      · rw [List.mem_singleton] at hy; rw [hy]; exact hm
    · intro y hy
      simp only
      rcases List.mem_append.1 hy with hy | hy
      · have := hs.out y hy; omega
      · rw [List.mem_singleton] at hy; rw [hy]; exact .inl (Nat.le_refl _)
    · intro j h8 h9 h10
      simp only at h10
      by_cases hold : st.hole.1 ≤ j ∧ j < st.hole.2
      · by_cases hji : j ≤ i
        · exact .inr ⟨m, by simp, by omega, by omega⟩
        · exact .inl (h5 j (by omega) (by omega))
      · rcases hs.lost j h8 h9 hold with h | ⟨y, hy, h⟩
        · exact .inl h
        · exact .inr ⟨y, by simp [hy], h⟩
  · exact hs


theorem shrunk_lead {r : TitleRule} {s : Ms} {part : Mt} {ig : List Mt} {h : Nat × Nat} {st : HoleState} {m : Mt}
    (hs : Shrunk s ig h st) (hm : m ∈ ig) : Shrunk s ig h (leadStep r s part st m) := by
  unfold leadStep
  split
  · rename_i hc
    obtain ⟨hc, _⟩ := Bool.and_eq_true_iff.1 hc
    obtain ⟨_, hc⟩ := Bool.and_eq_true_iff.1 hc
    obtain ⟨x, hx⟩ := Option.isSome_iff_exists.1 hc
    obtain ⟨h1, h2, i, h3, _, h4, h5⟩ := chainAfter_some hx
    obtain ⟨e1, e2⟩ := eqv_span h2
    have h6 := h4.1
    have h7 := h4.2
    refine ⟨?_, hs.right, ?_, ?_, ?_⟩
    · have := hs.left
      simp only
      omega
    · intro y hy
      rcases List.mem_append.1 hy with hy | hy
      · exact hs.kept y hy
      · rw [List.mem_singleton] at hy; rw [hy]; exact hm
    · intro y hy
      simp only
      rcases List.mem_append.1 hy with hy | hy
      · have := hs.out y hy; omega
      · rw [List.mem_singleton] at hy; rw [hy]; exact .inr (Nat.le_refl _)
    · intro j h8 h9 h10
      simp only at h10
      by_cases hold : st.hole.1 ≤ j ∧ j < st.hole.2
      · by_cases hji : i ≤ j
        · exact .inr ⟨m, by simp, by omega, by omega⟩
        · exact .inl (h5 j (by omega) (by omega))
      · rcases hs.lost j h8 h9 hold with h | ⟨y, hy, h⟩
        · exact .inl h
        · exact .inr ⟨y, by simp [hy], h⟩
  · exact hs

theorem shrunk_foldl {s : Ms} {ig : List Mt} {h : Nat × Nat} {f : HoleState → Mt → HoleState}
    (hf : ∀ st m, m ∈ ig → Shrunk s ig h st → Shrunk s ig h (f st m)) : ∀ (l : List Mt), (∀ m ∈ l, m ∈ ig) → ∀ st, Shrunk s ig h st →
    Shrunk s ig h (l.foldl f st) := by
  intro l
  induction l with
  | nil => intro _ st hs; exact hs
  | cons m ms ih =>
    intro hl st hs
    exact ih (fun x hx => hl x (List.mem_cons_of_mem _ hx)) _ (hf st m (hl m (List.mem_cons_self ..)) hs)

theorem shrunk {r : TitleRule} {s : Ms} {part : Mt} {h : Nat × Nat} (hmax : h.2 ≤ maxEnd s.input s.live) :
    Shrunk s (ignoredInHole r s h) h (shrinkHole r s part h) := by
  unfold shrinkHole
  refine shrunk_foldl (fun st m hm hs => shrunk_lead hs hm) _ (fun m hm => hm) _ ?_
  refine shrunk_foldl (fun st m hm hs => shrunk_trail hmax hs hm) _ (fun m hm => List.mem_reverse.1 hm) _ ?_
  exact ⟨Nat.le_refl _, Nat.le_refl _, by simp, by simp, fun j h1 h2 h3 => absurd ⟨h1, h2⟩ h3⟩

/-! ## Splitting a hole -/

theorem notTitleSep_iff {input : Str} {i : Nat} : notTitleSep input i = false ↔ ∃ c, input[i]? = some c ∧ c ∈ titleSeps := by
  unfold notTitleSep
  rw [Bool.not_eq_false', Option.any_eq_true]
  simp only [List.contains_iff_mem]

theorem titleSep_sep {c : Char} (h : c ∈ titleSeps) : c ∈ seps := by
  revert c; decide

/-- A word position of the hole is in a piece; a piece has a word position; pieces are sorted runs. -/
theorem split_mem {e : TitleEnv} (he : e.lower [] = []) {r : TitleRule} (hr : r.fmt = e.fmt) {input : Str} {h p : Nat × Nat}
    (hp : p ∈ splitHole r input h) : h.1 ≤ p.1 ∧ p.1 < p.2 ∧ p.2 ≤ h.2 ∧ (∀ j, p.1 ≤ j → j < p.2 → notTitleSep input j = true) ∧
      (∃ i, p.1 ≤ i ∧ i < p.2 ∧ WordAt input i) := by
  unfold splitHole at hp
  obtain ⟨h1, h2⟩ := List.mem_filter.1 hp
  obtain ⟨k1, k2, k3, k4, _⟩ := run_mem h1
  rw [hr, Bool.not_eq_true'] at h2
  exact ⟨k1, k2, by omega, k4, (fmt_slice he).1 h2⟩

theorem split_covers {e : TitleEnv} (he : e.lower [] = []) {r : TitleRule} (hr : r.fmt = e.fmt) {input : Str} {h : Nat × Nat} {j : Nat}
    (h1 : h.1 ≤ j) (h2 : j < h.2) (hw : WordAt input j) : ∃ p ∈ splitHole r input h, p.1 ≤ j ∧ j < p.2 := by
  obtain ⟨c, hc, hcs⟩ := hw
  have hns : notTitleSep input j = true := by
    rw [← Bool.not_eq_false]
    intro h
    obtain ⟨c', hc', hs⟩ := notTitleSep_iff.1 h
    rw [hc] at hc'; cases hc'
    exact hcs (titleSep_sep hs)
  obtain ⟨p, hp, k1, k2⟩ := run_covers (p := notTitleSep input) (f := h.2 - h.1) (i := h.1) h1 (by omega) hns
  refine ⟨p, ?_, k1, k2⟩
  unfold splitHole
  refine List.mem_filter.2 ⟨hp, ?_⟩
  rw [hr, Bool.not_eq_true']
  exact (fmt_slice he).2 ⟨j, k1, k2, c, hc, hcs⟩

theorem split_sorted (r : TitleRule) (input : Str) (h : Nat × Nat) : (splitHole r input h).Pairwise fun a b => a.2 < b.1 :=
  List.Pairwise.filter _ (runs_sorted _ _ _ _ (by simp))

/-- What `joinTitles` gives: stretches from the start of a piece to the end of a piece, covering all pieces, sorted. -/
theorem join_mem {input : Str} : ∀ (ps : List (Nat × Nat)) (cur : Nat × Nat), cur.1 < cur.2 → (∀ p ∈ ps, p.1 < p.2) →
    (cur :: ps).Pairwise (fun a b => a.2 < b.1) →
    ∀ t ∈ joinTitles input cur ps, t.1 < t.2 ∧ cur.1 ≤ t.1 ∧ (∃ p ∈ cur :: ps, p.1 = t.1 ∧ p.2 ≤ t.2) ∧
      (∃ q ∈ cur :: ps, q.2 = t.2 ∧ t.1 ≤ q.1) ∧
      (∀ j, t.1 ≤ j → j < t.2 → InPieces (cur :: ps) j ∨
        (input[j]? = some '-' ∧ t.1 < j ∧ j + 1 < t.2 ∧ WordAt input (j - 1) ∧ WordAt input (j + 1))) := by
  intro ps
  induction ps with
  | nil =>
    intro cur hc _ _ t ht
    simp only [joinTitles, List.mem_singleton] at ht
    subst ht
    exact ⟨hc, Nat.le_refl _, ⟨t, by simp, rfl, Nat.le_refl _⟩, ⟨t, by simp, rfl, Nat.le_refl _⟩,
      fun j h1 h2 => .inl ⟨t, by simp, h1, h2⟩⟩
  | cons n rest ih =>
    intro cur hc hps hsort t ht
    obtain ⟨hs1, hs2⟩ := List.pairwise_cons.1 hsort
    have hn : n.1 < n.2 := hps n (List.mem_cons_self ..)
    have hcn : cur.2 < n.1 := hs1 n (List.mem_cons_self ..)
    obtain ⟨hs3, hs4⟩ := List.pairwise_cons.1 hs2
    unfold joinTitles at ht
    split at ht
    · rename_i hd
      have hsort' : ((cur.1, n.2) :: rest).Pairwise (fun a b => a.2 < b.1) := List.pairwise_cons.2 ⟨fun q hq => hs3 q hq, hs4⟩
      obtain ⟨k1, k2, ⟨p, hp, k3, k3'⟩, ⟨q, hq, k4, k4'⟩, k5⟩ :=
        ih (cur.1, n.2) (by simp only; omega) (fun p hp => hps p (List.mem_cons_of_mem _ hp)) hsort' t ht
      refine ⟨k1, k2, ?_, ?_, ?_⟩
      · rcases List.mem_cons.1 hp with rfl | hp
        · exact ⟨cur, by simp, k3, by simp only at k3'; omega⟩
        · exact ⟨p, by simp [hp], k3, k3'⟩
      · rcases List.mem_cons.1 hq with rfl | hq
        · exact ⟨n, by simp, k4, by simp only at k4'; omega⟩
        · exact ⟨q, by simp [hq], k4, k4'⟩
      · intro j h1 h2
        rcases k5 j h1 h2 with ⟨p', hp', h3, h4⟩ | h3
        · rcases List.mem_cons.1 hp' with rfl | hp'
          · simp only at h3 h4
            by_cases hj1 : j < cur.2
            · exact .inl ⟨cur, by simp, h3, hj1⟩
            · by_cases hj2 : n.1 ≤ j
              · exact .inl ⟨n, by simp, hj2, h4⟩
              · right
                unfold dashed at hd
                simp only [Bool.and_eq_true, decide_eq_true_eq] at hd
                obtain ⟨⟨d1, d2⟩, d3⟩ := hd
                obtain ⟨c2, d4, d5⟩ := (Option.any_eq_true _ _).1 d2
                obtain ⟨c3, d6, d7⟩ := (Option.any_eq_true _ _).1 d3
                have hlen := congrArg List.length d1
                have hget : input[cur.2]? = some '-' ∧ n.1 = cur.2 + 1 := by
                  have hin : n.1 ≤ input.length := by
                    unfold sliceOf at d6
                    by_contra hcon
                    have : ((input.take n.2).drop n.1) = [] := List.drop_eq_nil_of_le (by rw [List.length_take]; omega)
                    rw [this] at d6
                    cases d6
                  unfold sliceOf at hlen d1
                  rw [List.length_drop, List.length_take] at hlen
                  simp only [List.length_singleton] at hlen
                  refine ⟨?_, by omega⟩
                  have h0 : ((input.take n.1).drop cur.2)[0]? = some '-' := by rw [d1]; rfl
                  rw [List.getElem?_drop, List.getElem?_take] at h0
                  split at h0
                  · simpa using h0
                  · cases h0
                obtain ⟨g1, g2⟩ := hget
                have hj : j = cur.2 := by omega
                subst hj
                have k3'' := k3'
                refine ⟨g1, ?_, ?_, ?_, ?_⟩
                · have : t.1 ≤ cur.1 := by
                    rcases List.mem_cons.1 hp with rfl | hp
                    · exact Nat.le_of_eq k3.symm
                    · have := hs3 p hp; omega
                  omega
                · rcases List.mem_cons.1 hp with rfl | hp
                  · simp only at k3'; omega
                  · have := hs3 p hp; omega
                · unfold sliceOf at d4
                  refine ⟨c2, ?_, by rw [Bool.not_eq_true', ← Bool.not_eq_true, isSep_iff] at d5; exact d5⟩
                  rw [List.getLast?_eq_getElem?] at d4
                  rw [List.getElem?_drop, List.getElem?_take] at d4
                  split at d4
                  · have hlt : cur.2 < input.length := (List.getElem?_eq_some_iff.1 g1).1
                    rw [List.length_drop, List.length_take] at d4
                    have : cur.1 + (min cur.2 input.length - cur.1 - 1) = cur.2 - 1 := by omega
                    rw [this] at d4
                    exact d4
                  · cases d4
                · unfold sliceOf at d6
                  refine ⟨c3, ?_, by rw [Bool.not_eq_true', ← Bool.not_eq_true, isSep_iff] at d7; exact d7⟩
                  rw [List.head?_drop, List.getElem?_take_of_lt hn] at d6
                  rw [← g2]; exact d6
          · exact .inl ⟨p', by simp [hp'], h3, h4⟩
        · exact .inr h3
    · rcases List.mem_cons.1 ht with rfl | ht
      · exact ⟨hc, Nat.le_refl _, ⟨t, by simp, rfl, Nat.le_refl _⟩, ⟨t, by simp, rfl, Nat.le_refl _⟩,
          fun j h1 h2 => .inl ⟨t, by simp, h1, h2⟩⟩
      · obtain ⟨k1, k2, ⟨p, hp, k3⟩, ⟨q, hq, k4⟩, k5⟩ := ih n hn (fun p hp => hps p (List.mem_cons_of_mem _ hp)) hs2 t ht
        refine ⟨k1, by omega, ⟨p, List.mem_cons_of_mem _ hp, k3⟩, ⟨q, List.mem_cons_of_mem _ hq, k4⟩, ?_⟩
        intro j h1 h2
        rcases k5 j h1 h2 with ⟨p', hp', h3⟩ | h3
        · exact .inl ⟨p', List.mem_cons_of_mem _ hp', h3⟩
        · exact .inr h3

theorem join_covers {input : Str} {j : Nat} : ∀ (ps : List (Nat × Nat)) (cur : Nat × Nat), (cur :: ps).Pairwise (fun a b => a.2 < b.1) →
    (∀ p ∈ cur :: ps, p.1 < p.2) → InPieces (cur :: ps) j → InPieces (joinTitles input cur ps) j := by
  intro ps
  induction ps with
  | nil => intro cur _ _ h; exact h
  | cons n rest ih =>
    intro cur hsort hpos h
    obtain ⟨hs1, hs2⟩ := List.pairwise_cons.1 hsort
    have hcn : cur.2 < n.1 := hs1 n (List.mem_cons_self ..)
    obtain ⟨hs3, hs4⟩ := List.pairwise_cons.1 hs2
    have hp1 := hpos cur (by simp)
    have hp2 := hpos n (by simp)
    unfold joinTitles
    split
    · refine ih (cur.1, n.2) (List.pairwise_cons.2 ⟨fun q hq => hs3 q hq, hs4⟩) ?_ ?_
      · intro p hp
        rcases List.mem_cons.1 hp with rfl | hp
        · simp only; omega
        · exact hpos p (by simp [hp])
      · obtain ⟨p, hp, h1, h2⟩ := h
        rcases List.mem_cons.1 hp with rfl | hp
        · exact ⟨(p.1, n.2), by simp, h1, by simp only; omega⟩
        · rcases List.mem_cons.1 hp with rfl | hp
          · exact ⟨(cur.1, p.2), by simp, by simp only; omega, h2⟩
          · exact ⟨p, by simp [hp], h1, h2⟩
    · obtain ⟨p, hp, h1, h2⟩ := h
      rcases List.mem_cons.1 hp with rfl | hp
      · exact ⟨p, by simp, h1, h2⟩
      · obtain ⟨q, hq, h3⟩ := ih n hs2 (fun p hp => hpos p (by simp [hp])) ⟨p, hp, h1, h2⟩
        exact ⟨q, List.mem_cons_of_mem _ hq, h3⟩

theorem join_head {input : Str} : ∀ (ps : List (Nat × Nat)) (cur : Nat × Nat), ∃ t ts, joinTitles input cur ps = t :: ts ∧ t.1 = cur.1 := by
  intro ps
  induction ps with
  | nil => intro cur; exact ⟨cur, [], rfl, rfl⟩
  | cons n rest ih =>
    intro cur
    unfold joinTitles
    split
    · obtain ⟨t, ts, h1, h2⟩ := ih (cur.1, n.2)
      exact ⟨t, ts, h1, h2⟩
    · exact ⟨cur, _, rfl, rfl⟩


/-! ## The pieces of a part -/

theorem spansPart_part {s : Ms} {g : Mt} (h : spansPart s g = true) : ∃ p, IsPart s p ∧ p.start = g.start ∧ p.stop = g.stop := by
  unfold spansPart at h
  split at h
  · rename_i p hp
    obtain ⟨h1, h2⟩ := Bool.and_eq_true_iff.1 h
    obtain ⟨hm, hn⟩ := List.mem_filter.1 (firstTrue_mem hp)
    exact ⟨p, ⟨(mem_atSpan.1 hm).1, of_decide_eq_true hn⟩, of_decide_eq_true h1, of_decide_eq_true h2⟩
  · cases h

theorem cropGroups_mem {s : Ms} {c : Nat × Nat} (h : c ∈ cropGroups s) : ∃ g, InGroups s g ∧ c = (g.start, g.stop) := by
  unfold cropGroups at h
  obtain ⟨g, hg, rfl⟩ := List.mem_map.1 h
  exact ⟨g, mem_named.1 ((skim_sublist _ _).subset hg), rfl⟩

theorem cropGroups_has {s : Ms} {g : Mt} (h : InGroups s g) (hb : spansPart s g = false) : (g.start, g.stop) ∈ cropGroups s :=
  List.mem_map.2 ⟨g, skim_keeps _ _ g (mem_named.2 h) hb, rfl⟩

theorem cropGroups_le {s : Ms} (hs : Laid s) : ∀ c ∈ cropGroups s, c.1 ≤ c.2 := by
  intro c hc
  obtain ⟨g, hg, rfl⟩ := cropGroups_mem hc
  exact Nat.le_of_lt (hs.markers g hg.1).1

theorem maxEnd_eq {input : Str} {l : List Mt} (h : WellFormed input l) : maxEnd input l = input.length := by
  unfold maxEnd
  have key : ∀ (l : List Mt) n, (∀ m ∈ l, m.stop ≤ n) → l.foldl (fun n m => max n m.stop) n = n := by
    intro l
    induction l with
    | nil => intro n _; rfl
    | cons m ms ih =>
      intro n hl
      have := hl m (List.mem_cons_self ..)
      rw [List.foldl_cons, Nat.max_eq_left this]
      exact ih n fun x hx => hl x (List.mem_cons_of_mem _ hx)
  exact key l _ fun m hm => (h m hm).2

/-- The holes of a part once the groups are cropped. -/
def pieces (r : TitleRule) (s : Ms) (extra : Mt → Bool) (part : Mt) : List (Nat × Nat) := holesProcess s (titleHoles r s extra part)

theorem piece_mem {r : TitleRule} {s : Ms} (hs : Laid s) {extra : Mt → Bool} {part : Mt} {h : Nat × Nat} (hh : h ∈ pieces r s extra part) :
    part.start ≤ h.1 ∧ h.1 < h.2 ∧ h.2 ≤ s.input.length ∧ h.2 ≤ part.stop + 1 ∧
    ∀ j, h.1 ≤ j → j < h.2 → (∀ m ∈ s.live, Covers m j → Ignorable r.upper s.input m ∨ extra m = true) ∧
      ∀ g, InGroups s g → Covers g j → ∃ p, IsPart s p ∧ p.start = g.start ∧ p.stop = g.stop := by
  unfold pieces holesProcess at hh
  obtain ⟨q, hq, hh⟩ := List.mem_flatMap.1 hh
  unfold titleHoles at hq
  obtain ⟨hq, _⟩ := List.mem_filter.1 hq
  obtain ⟨k1, k2, k3, k4, _⟩ := run_mem hq
  rw [maxEnd_eq hs.sound.wf] at k3
  obtain ⟨c1, c2, c3⟩ := crop_pos (cropGroups_le hs) k2 hh
  refine ⟨by omega, c1, by omega, by omega, ?_⟩
  intro j h1 h2
  obtain ⟨_, hcrop⟩ := (crop_mem _ (cropGroups_le hs) q j).1 ⟨h, hh, h1, h2⟩
  refine ⟨?_, ?_⟩
  · intro m hm hc
    have := k4 j (by omega) (by omega)
    have := List.all_eq_true.1 this m (mem_atIndex.2 ⟨hm, hc⟩)
    rcases Bool.or_eq_true_iff.1 this with h | h
    · exact .inl (isIgnored_iff.1 h)
    · exact .inr h
  · intro g hg hc
    cases hb : spansPart s g with
    | true => exact spansPart_part hb
    | false => exact absurd hc (hcrop _ (cropGroups_has hg hb))

theorem piece_reaches {e : TitleEnv} (he : e.lower [] = []) {r : TitleRule} (hr : r.fmt = e.fmt) {s : Ms} (hs : Laid s) {extra : Mt → Bool}
    {part : Mt} {j : Nat} (h1 : part.start ≤ j) (h2 : j < part.stop + 1) (hw : WordAt s.input j) (hf : ∀ m ∈ s.live, ¬ Covers m j)
    (hcr : ∀ c ∈ cropGroups s, ¬ (c.1 ≤ j ∧ j < c.2)) : ∃ h ∈ pieces r s extra part, h.1 ≤ j ∧ j < h.2 := by
  have hlen : j < s.input.length := by
    obtain ⟨c, hc, _⟩ := hw
    exact (List.getElem?_eq_some_iff.1 hc).1
  have hp : ((atIndex s.live j).all fun m => isIgnored r.upper s.input m || extra m) = true := by
    rw [List.all_eq_true]
    intro m hm
    obtain ⟨a, b⟩ := mem_atIndex.1 hm
    exact absurd b (hf m a)
  obtain ⟨q, hq, k1, k2⟩ := run_covers (p := fun i => (atIndex s.live i).all fun m => isIgnored r.upper s.input m || extra m)
    (f := min (maxEnd s.input s.live) (part.stop + 1) - part.start) h1 (by rw [maxEnd_eq hs.sound.wf]; omega) hp
  obtain ⟨h, hh, hj⟩ := (crop_mem _ (cropGroups_le hs) q j).2 ⟨⟨k1, k2⟩, hcr⟩
  refine ⟨h, ?_, hj⟩
  unfold pieces holesProcess
  refine List.mem_flatMap.2 ⟨q, ?_, hh⟩
  unfold titleHoles
  refine List.mem_filter.2 ⟨hq, ?_⟩
  rw [hr, Bool.not_eq_true']
  exact (fmt_slice he).2 ⟨j, k1, k2, hw⟩

theorem piece_covers {e : TitleEnv} (he : e.lower [] = []) {r : TitleRule} (hr : r.fmt = e.fmt) {s : Ms} (hs : Laid s) {extra : Mt → Bool}
    {part : Mt} {j : Nat} (h1 : part.start ≤ j) (h2 : j < part.stop + 1) (hw : WordAt s.input j) (hf : FreeAt s j) :
    ∃ h ∈ pieces r s extra part, h.1 ≤ j ∧ j < h.2 :=
  piece_reaches he hr hs h1 h2 hw hf.1 fun c hc => by
    obtain ⟨g, hg, rfl⟩ := cropGroups_mem hc
    exact hf.2 g hg


/-- Positions of a part in a row that could be in a hole are in the same piece. -/
theorem piece_grow {r : TitleRule} {s : Ms} (hs : Laid s) {extra : Mt → Bool} {part : Mt} {h : Nat × Nat} (hh : h ∈ pieces r s extra part)
    {i j : Nat} (hi : h.1 ≤ i ∧ i < h.2) (hj : part.start ≤ j ∧ j < part.stop + 1)
    (hfree : ∀ k, min i j ≤ k → k ≤ max i j → k ≠ i →
      (((atIndex s.live k).all fun m => isIgnored r.upper s.input m || extra m) = true ∧ ∀ c ∈ cropGroups s, ¬ (c.1 ≤ k ∧ k < c.2)) ∧
        k < s.input.length) : h.1 ≤ j ∧ j < h.2 := by
  unfold pieces holesProcess at hh
  obtain ⟨q, hq, hh⟩ := List.mem_flatMap.1 hh
  unfold titleHoles at hq
  obtain ⟨hq, _⟩ := List.mem_filter.1 hq
  obtain ⟨k1, k2, k3, k4, k5, k6⟩ := run_mem hq
  rw [maxEnd_eq hs.sound.wf] at k3 k6
  -- the piece is maximal among positions of `q` outside the groups
  have hmax : ∀ (crops : List (Nat × Nat)), (∀ c ∈ crops, c.1 < c.2) → ∀ l, (∀ p ∈ l, p.1 < p.2 ∧ (p.1 = q.1 ∨ ∃ g ∈ cropGroups s, g.1 ≤ p.1 - 1 ∧ p.1 - 1 < g.2) ∧
      (p.2 = q.2 ∨ ∃ g ∈ cropGroups s, g.1 ≤ p.2 ∧ p.2 < g.2)) → (∀ c ∈ crops, c ∈ cropGroups s) →
      ∀ p ∈ crops.foldl cropStep l, p.1 < p.2 ∧ (p.1 = q.1 ∨ ∃ g ∈ cropGroups s, g.1 ≤ p.1 - 1 ∧ p.1 - 1 < g.2) ∧
      (p.2 = q.2 ∨ ∃ g ∈ cropGroups s, g.1 ≤ p.2 ∧ p.2 < g.2) := by
    intro crops
    induction crops with
    | nil => intro _ l hl _; simpa using hl
    | cons c cs ih =>
      intro hpos l hl hg
      rw [List.foldl_cons]
      refine ih (fun c hc => hpos c (List.mem_cons_of_mem _ hc)) _ ?_ (fun c hc => hg c (List.mem_cons_of_mem _ hc))
      have hgg := hg c (List.mem_cons_self ..)
      have hcp := hpos c (List.mem_cons_self ..)
      intro p hp
      have hp' : ∃ p0 ∈ l, p ∈ (cropPiece c p0).1 ∨ p ∈ (cropPiece c p0).2 := by
        unfold cropStep at hp
        rcases List.mem_append.1 hp with h' | h'
        · obtain ⟨p0, h1, h2⟩ := List.mem_flatMap.1 h'; exact ⟨p0, h1, .inl h2⟩
        · obtain ⟨p0, h1, h2⟩ := List.mem_flatMap.1 h'; exact ⟨p0, h1, .inr h2⟩
      obtain ⟨p0, h1, h2⟩ := hp'
      obtain ⟨l0, l1, l2⟩ := hl p0 h1
      obtain ⟨u1, u2, u3⟩ := cropPiece_pos (Nat.le_of_lt hcp) l0 h2
      have hends : (p.1 = p0.1 ∨ p.1 = c.2) ∧ (p.2 = p0.2 ∨ p.2 = c.1) := by
        unfold cropPiece at h2
        obtain ⟨c1, c2⟩ := c
        obtain ⟨p1, p2⟩ := p0
        obtain ⟨q1, q2⟩ := p
        simp only at h2 ⊢
        split at h2
        · simp at h2
        · split at h2
          · rcases h2 with h2 | h2
            · split at h2 <;> simp at h2; omega
            · split at h2 <;> simp at h2 <;> omega
          · split at h2
            · simp at h2; omega
            · split at h2
              · simp at h2; omega
              · simp at h2; omega
      refine ⟨u1, ?_, ?_⟩
      · rcases hends.1 with h | h
        · rw [h]; exact l1
        · right; exact ⟨c, hgg, by omega, by omega⟩
      · rcases hends.2 with h | h
        · rw [h]; exact l2
        · right; exact ⟨c, hgg, by omega, by omega⟩
  obtain ⟨m1, m2, m3⟩ := hmax (cropGroups s) (by
      intro c hc; obtain ⟨g, hg, rfl⟩ := cropGroups_mem hc; exact (hs.markers g hg.1).1) [q] (by
      intro p hp; rw [List.mem_singleton] at hp; subst hp; exact ⟨k2, .inl rfl, .inl rfl⟩) (fun c hc => hc) h hh
  obtain ⟨_, c2, c3⟩ := crop_pos (cropGroups_le hs) k2 hh
  constructor
  · by_contra hcon
    rcases m2 with hm | ⟨g, hg, hc⟩
    · rcases k5 with hk | hk
      · omega
      · have hf := (hfree (q.1 - 1) (by omega) (by omega) (by omega)).1
        rw [hf.1] at hk
        cases hk
    · have hf := (hfree (h.1 - 1) (by omega) (by omega) (by omega)).1
      exact hf.2 g hg hc
  · by_contra hcon
    rcases m3 with hm | ⟨g, hg, hc⟩
    · rcases k6 with hk | hk
      · have := (hfree j (by omega) (by omega) (by omega)).2
        omega
      · have hf := (hfree q.2 (by omega) (by omega) (by omega)).1
        rw [hf.1] at hk
        cases hk
    · have hf := (hfree h.2 (by omega) (by omega) (by omega)).1
      exact hf.2 g hg hc


/-- Free positions in a row are in the same piece. -/
theorem piece_whole {r : TitleRule} {s : Ms} (hs : Laid s) {extra : Mt → Bool} {part : Mt} {h : Nat × Nat} (hh : h ∈ pieces r s extra part)
    {i j : Nat} (hi : h.1 ≤ i ∧ i < h.2) (hj : part.start ≤ j ∧ j < part.stop)
    (hfree : ∀ k, min i j ≤ k → k ≤ max i j → k ≠ i → FreeAt s k ∧ k < s.input.length) : h.1 ≤ j ∧ j < h.2 := by
  refine piece_grow hs hh hi ⟨hj.1, by omega⟩ ?_
  intro k h1 h2 h3
  obtain ⟨hf, hl⟩ := hfree k h1 h2 h3
  refine ⟨⟨?_, ?_⟩, hl⟩
  · rw [List.all_eq_true]
    intro m hm
    obtain ⟨a, b⟩ := mem_atIndex.1 hm
    exact absurd b (hf.1 m a)
  · intro c hc
    obtain ⟨g, hg, rfl⟩ := cropGroups_mem hc
    exact hf.2 g hg

/-! ## Searching -/

theorem firstFound_some {α β : Type} {f : α → Except PyErr (Option β)} : ∀ {l : List α} {y : β}, firstFound f l = .ok (some y) →
    ∃ pre x post, l = pre ++ x :: post ∧ f x = .ok (some y) ∧ ∀ z ∈ pre, f z = .ok none
  | [], y, h => by simp [firstFound] at h
  | x :: xs, y, h => by
    unfold firstFound at h
    cases hx : f x with
    | error e => rw [hx] at h; cases h
    | ok o =>
      rw [hx] at h
      cases o with
      | some v =>
        simp only [Except.ok.injEq, Option.some.injEq] at h
        subst h
        exact ⟨[], x, xs, rfl, hx, by simp⟩
      | none =>
        obtain ⟨pre, z, post, h1, h2, h3⟩ := firstFound_some h
        refine ⟨x :: pre, z, post, by rw [h1]; rfl, h2, ?_⟩
        intro w hw
        rcases List.mem_cons.1 hw with rfl | hw
        · exact hx
        · exact h3 w hw

theorem firstFound_none {α β : Type} {f : α → Except PyErr (Option β)} : ∀ {l : List α}, firstFound f l = .ok none → ∀ x ∈ l, f x = .ok none
  | [], _ => by simp
  | x :: xs, h => by
    unfold firstFound at h
    cases hx : f x with
    | error e => rw [hx] at h; cases h
    | ok o =>
      rw [hx] at h
      cases o with
      | some v => cases h
      | none =>
        intro w hw
        rcases List.mem_cons.1 hw with rfl | hw
        · exact hx
        · exact firstFound_none h w hw

theorem firstFound_error {α β : Type} {f : α → Except PyErr (Option β)} : ∀ {l : List α} {e : PyErr}, firstFound f l = .error e →
    ∃ x ∈ l, f x = .error e
  | [], e, h => by simp [firstFound] at h
  | x :: xs, e, h => by
    unfold firstFound at h
    cases hx : f x with
    | error e' => rw [hx] at h; cases h; exact ⟨x, List.mem_cons_self .., hx⟩
    | ok o =>
      rw [hx] at h
      cases o with
      | some v => cases h
      | none =>
        obtain ⟨w, hw, hw'⟩ := firstFound_error h
        exact ⟨w, List.mem_cons_of_mem _ hw, hw'⟩

/-! ## A hole -/

/-- The result of a successful `checkHole`. -/
theorem checkHole_some {r : TitleRule} {type : Option Str} {s : Ms} {part : Mt} {h : Nat × Nat} {ts rm : List Mt}
    (hc : checkHole r type s part h = .ok (some (ts, rm))) :
    h.1 < h.2 ∧ r.holeFilter s h = true ∧ (shrinkHole r s part h).hole.1 < (shrinkHole r s part h).hole.2 ∧
      (r.fmt (sliceOf s.input (shrinkHole r s part h).hole)).isEmpty = false ∧
      ts = titlesOf r s.input (shrinkHole r s part h).hole ∧ rm = removedIn r type s h (shrinkHole r s part h) := by
  unfold checkHole at hc
  split at hc
  · cases hc
  · rename_i h1
    rw [Bool.or_eq_true, not_or, decide_eq_true_eq, Bool.not_eq_true', Bool.not_eq_false] at h1
    simp only at hc
    split at hc
    · cases hc
    · split at hc
      · cases hc
      · rename_i h2 h3
        rw [Bool.or_eq_true, not_or, decide_eq_true_eq, Bool.not_eq_true] at h3
        cases hc
        exact ⟨by omega, h1.2, by omega, h3.2, rfl, rfl⟩

/-- A free word position makes the hole a title. -/
theorem checkHole_free {e : TitleEnv} (he : e.lower [] = []) {r : TitleRule} (hr : r.fmt = e.fmt) {type : Option Str} {s : Ms} {part : Mt}
    {h : Nat × Nat} (hmax : h.2 ≤ maxEnd s.input s.live) (hfil : r.holeFilter s h = true) {j : Nat} (h1 : h.1 ≤ j) (h2 : j < h.2)
    (hw : WordAt s.input j) (hf : ∀ m ∈ s.live, ¬ Covers m j) :
    (shrinkHole r s part h).hole.1 ≤ j ∧ j < (shrinkHole r s part h).hole.2 ∧
    checkHole r type s part h = .ok (some (titlesOf r s.input (shrinkHole r s part h).hole, removedIn r type s h (shrinkHole r s part h))) := by
  have hsh := shrunk (r := r) (part := part) hmax
  have hin : (shrinkHole r s part h).hole.1 ≤ j ∧ j < (shrinkHole r s part h).hole.2 := by
    by_contra hcon
    rcases hsh.lost j h1 h2 hcon with ⟨c, hc, hcs⟩ | ⟨m, hm, hc⟩
    · obtain ⟨c', hc', hcs'⟩ := hw
      rw [hc] at hc'; cases hc'
      exact hcs' hcs
    · have := hsh.kept m hm
      unfold ignoredInHole at this
      exact hf m (mem_rangeOf.1 this).1 hc
  refine ⟨hin.1, hin.2, ?_⟩
  unfold checkHole
  rw [if_neg (by rw [hfil, Bool.or_eq_true, not_or, decide_eq_true_eq]; refine ⟨by omega, by simp⟩)]
  simp only
  rw [if_neg (by omega), if_neg]
  rw [Bool.or_eq_true, not_or, decide_eq_true_eq, Bool.not_eq_true, hr]
  exact ⟨by omega, (fmt_slice he).2 ⟨j, hin.1, hin.2, hw⟩⟩

/-- The titles made out of a hole with `alternative_match_name`. -/
theorem titles_mem {e : TitleEnv} (he : e.lower [] = []) {r : TitleRule} (hr : r.fmt = e.fmt) {alt : Str} (ha : r.altName = some alt)
    {input : Str} {h : Nat × Nat} {t : Mt} (ht : t ∈ titlesOf r input h) :
    (∃ n, (n = r.name ∨ n = alt) ∧ t = titleMt r n (t.start, t.stop)) ∧ h.1 ≤ t.start ∧ t.start < t.stop ∧ t.stop ≤ h.2 ∧
      notTitleSep input (t.stop - 1) = true ∧ (∃ i, Covers t i ∧ WordAt input i) ∧
      ∀ j, Covers t j → (∃ c, input[j]? = some c ∧ c ∈ titleSeps) →
        input[j]? = some '-' ∧ t.start < j ∧ j + 1 < t.stop ∧ WordAt input (j - 1) ∧ WordAt input (j + 1) := by
  unfold titlesOf at ht
  rw [ha] at ht
  simp only at ht
  cases hsp : splitHole r input h with
  | nil => rw [hsp] at ht; simp at ht
  | cons p ps =>
    rw [hsp] at ht
    simp only at ht
    have hall : ∀ q ∈ p :: ps, h.1 ≤ q.1 ∧ q.1 < q.2 ∧ q.2 ≤ h.2 ∧ (∀ j, q.1 ≤ j → j < q.2 → notTitleSep input j = true) ∧
        (∃ i, q.1 ≤ i ∧ i < q.2 ∧ WordAt input i) := fun q hq => split_mem he hr (by rw [hsp]; exact hq)
    have hsort : (p :: ps).Pairwise fun a b => a.2 < b.1 := by rw [← hsp]; exact split_sorted r input h
    obtain ⟨t0, ts, hj, _⟩ := join_head (input := input) ps p
    have hj' := hj
    rw [hj] at ht
    have hq : ∃ q ∈ joinTitles input p ps, ∃ n, (n = r.name ∨ n = alt) ∧ t = titleMt r n q := by
      rcases List.mem_cons.1 ht with rfl | ht
      · exact ⟨t0, by rw [hj']; exact List.mem_cons_self .., r.name, .inl rfl, rfl⟩
      · obtain ⟨q, hq, rfl⟩ := List.mem_map.1 ht
        exact ⟨q, by rw [hj']; exact List.mem_cons_of_mem _ hq, alt, .inr rfl, rfl⟩
    obtain ⟨q, hq, n, hn, rfl⟩ := hq
    obtain ⟨k1, k2, ⟨a, ha1, ha2, ha3⟩, ⟨b, hb1, hb2, hb3⟩, k5⟩ :=
      join_mem ps p (hall p (List.mem_cons_self ..)).2.1 (fun q hq => (hall q (List.mem_cons_of_mem _ hq)).2.1) hsort q hq
    refine ⟨⟨n, hn, rfl⟩, ?_, k1, ?_, ?_, ?_, ?_⟩
    · show h.1 ≤ q.1
      have := (hall a ha1).1; omega
    · show q.2 ≤ h.2
      have := (hall b hb1).2.2.1; omega
    · show notTitleSep input (q.2 - 1) = true
      obtain ⟨_, u2, _, u4, _⟩ := hall b hb1
      exact u4 (q.2 - 1) (by omega) (by omega)
    · obtain ⟨_, _, _, _, i, u1, u2, u3⟩ := hall a ha1
      exact ⟨i, ⟨by show q.1 ≤ i; omega, by show i < q.2; omega⟩, u3⟩
    · intro j hc hs
      rcases k5 j hc.1 hc.2 with ⟨a', ha', u1, u2⟩ | h'
      · have := (hall a' ha').2.2.2.1 j u1 u2
        rw [notTitleSep_iff.2 hs] at this
        cases this
      · exact h'

theorem titles_cover {e : TitleEnv} (he : e.lower [] = []) {r : TitleRule} (hr : r.fmt = e.fmt) {alt : Str} (ha : r.altName = some alt)
    {input : Str} {h : Nat × Nat} {j : Nat} (h1 : h.1 ≤ j) (h2 : j < h.2) (hw : WordAt input j) :
    (∃ t ∈ titlesOf r input h, Covers t j) ∧ ∃ t ts, titlesOf r input h = t :: ts ∧ t.name = some r.name ∧ t.start ≤ j ∧
      ∀ x ∈ titlesOf r input h, t.start ≤ x.start := by
  unfold titlesOf
  rw [ha]
  simp only
  obtain ⟨q, hq, hq1, hq2⟩ := split_covers he hr h1 h2 hw
  cases hsp : splitHole r input h with
  | nil => rw [hsp] at hq; simp at hq
  | cons p ps =>
    simp only
    have hpos : ∀ q ∈ p :: ps, q.1 < q.2 := fun q hq => (split_mem he hr (by rw [hsp]; exact hq)).2.1
    have hsort : (p :: ps).Pairwise fun a b => a.2 < b.1 := by rw [← hsp]; exact split_sorted r input h
    have hcov := join_covers (input := input) ps p hsort hpos ⟨q, by rw [← hsp]; exact hq, hq1, hq2⟩
    obtain ⟨t0, ts, hj, ht0⟩ := join_head (input := input) ps p
    have hle : ∀ x ∈ joinTitles input p ps, t0.1 ≤ x.1 := by
      intro x hx
      have := (join_mem ps p (hpos p (List.mem_cons_self ..)) (fun q hq => hpos q (List.mem_cons_of_mem _ hq)) hsort x hx).2.1
      omega
    rw [hj] at hcov hle
    rw [hj]
    simp only
    obtain ⟨x, hx, hx1, hx2⟩ := hcov
    refine ⟨?_, _, _, rfl, rfl, ?_, ?_⟩
    · rcases List.mem_cons.1 hx with rfl | hx
      · exact ⟨_, List.mem_cons_self .., hx1, hx2⟩
      · exact ⟨titleMt r alt x, List.mem_cons_of_mem _ (List.mem_map.2 ⟨x, hx, rfl⟩), hx1, hx2⟩
    · show t0.1 ≤ j
      have := hle x hx; omega
    · intro y hy
      rcases List.mem_cons.1 hy with rfl | hy
      · exact Nat.le_refl _
      · obtain ⟨z, hz, rfl⟩ := List.mem_map.1 hy
        exact hle z (List.mem_cons_of_mem _ hz)


theorem appendAll_distinct {input : Str} : ∀ (ms l : List Mt), (l.map (Mt.key input)).Nodup → ((appendAll input l ms).map (Mt.key input)).Nodup := by
  intro ms
  induction ms with
  | nil => intro l h; exact h
  | cons m ms ih =>
    intro l h
    show ((appendAll input (if hasMatch input l m then l else l ++ [m]) ms).map (Mt.key input)).Nodup
    refine ih _ ?_
    split
    · exact h
    · rename_i hn
      rw [List.map_append, List.map_singleton]
      refine List.nodup_append.2 ⟨h, by simp, ?_⟩
      intro a ha b hb hab
      rw [List.mem_singleton] at hb
      obtain ⟨x, hx, rfl⟩ := List.mem_map.1 ha
      exact hn (hasMatch_iff.2 ⟨x, hx, by rw [← hb, hab]⟩)

/-! ## The order of the pieces -/

/-- The list is sorted, and all its elements but the last end at or before `n`. -/
def SortedUpTo (n : Nat) : List (Nat × Nat) → Prop
  | [] => True
  | [p] => p.1 < p.2
  | p :: q :: rest => p.1 < p.2 ∧ p.2 ≤ n ∧ p.2 ≤ q.1 ∧ SortedUpTo n (q :: rest)

theorem sortedUpTo_mono {n m : Nat} (h : n ≤ m) : ∀ l, SortedUpTo n l → SortedUpTo m l
  | [], _ => trivial
  | [p], hp => hp
  | p :: q :: rest, ⟨h1, h2, h3, h4⟩ => ⟨h1, by omega, h3, sortedUpTo_mono h (q :: rest) h4⟩

/-- Cropping the pieces `l` (all but the last end before the end of the crop) by a non-empty crop. -/
theorem cropPiece_short {c p : Nat × Nat} (hc : c.1 < c.2) (hp : p.1 < p.2) (h : p.2 ≤ c.2) : (cropPiece c p).2 = [] ∧
    ((cropPiece c p).1 = [] ∨ ∃ b, (cropPiece c p).1 = [(p.1, b)] ∧ p.1 < b ∧ b ≤ p.2) := by
  unfold cropPiece
  obtain ⟨c1, c2⟩ := c
  obtain ⟨p1, p2⟩ := p
  simp only at hc hp h ⊢
  split
  · simp
  · split
    · split
      · split
        · omega
        · exact ⟨rfl, .inr ⟨c1, rfl, by omega, by omega⟩⟩
      · omega
    · split
      · omega
      · split
        · exact ⟨rfl, .inr ⟨c1, rfl, by omega, by omega⟩⟩
        · exact ⟨rfl, .inr ⟨p2, rfl, hp, Nat.le_refl _⟩⟩

theorem cropPiece_cases (c p : Nat × Nat) (hc : c.1 < c.2) (hp : p.1 < p.2) :
    ((cropPiece c p).1 = [] ∧ (cropPiece c p).2 = []) ∨
    (∃ a b, (cropPiece c p).1 = [(a, b)] ∧ (cropPiece c p).2 = [] ∧ p.1 ≤ a ∧ a < b ∧ b ≤ p.2) ∨
    (∃ a b, (cropPiece c p).1 = [] ∧ (cropPiece c p).2 = [(a, b)] ∧ p.1 ≤ a ∧ a < b ∧ b ≤ p.2) ∨
    (∃ a b a' b', (cropPiece c p).1 = [(a, b)] ∧ (cropPiece c p).2 = [(a', b')] ∧ p.1 ≤ a ∧ a < b ∧ b ≤ c.2 ∧ b ≤ a' ∧ a' < b' ∧ b' ≤ p.2) := by
  unfold cropPiece
  obtain ⟨c1, c2⟩ := c
  obtain ⟨p1, p2⟩ := p
  simp only at hp hc ⊢
  split
  · exact .inl ⟨rfl, rfl⟩
  · split
    · split
      · split
        · exact .inr (.inr (.inr ⟨p1, c1, c2, p2, rfl, rfl, by omega, by omega, by omega, by omega, by omega, by omega⟩))
        · exact .inr (.inl ⟨p1, c1, rfl, rfl, by omega, by omega, by omega⟩)
      · split
        · exact .inr (.inr (.inl ⟨c2, p2, rfl, rfl, by omega, by omega, by omega⟩))
        · exact .inl ⟨rfl, rfl⟩
    · split
      · exact .inr (.inl ⟨c2, p2, rfl, rfl, by omega, by omega, by omega⟩)
      · split
        · exact .inr (.inl ⟨p1, c1, rfl, rfl, by omega, by omega, by omega⟩)
        · exact .inr (.inl ⟨p1, p2, rfl, rfl, by omega, by omega, by omega⟩)

theorem cropStep_sorted {n : Nat} {c : Nat × Nat} (hc : c.1 < c.2) (hn : n ≤ c.2) : ∀ l, SortedUpTo n l →
    SortedUpTo c.2 (cropStep l c) ∧ ∀ q ∈ cropStep l c, ∃ p ∈ l.head?, p.1 ≤ q.1
  | [], _ => by simp [cropStep, SortedUpTo]
  | [p], hp => by
    unfold cropStep
    simp only [List.flatMap_cons, List.flatMap_nil, List.append_nil, List.head?_cons]
    rcases cropPiece_cases c p hc hp with ⟨h1, h2⟩ | ⟨a, b, h1, h2, h3, h4, h5⟩ | ⟨a, b, h1, h2, h3, h4, h5⟩ |
      ⟨a, b, a', b', h1, h2, h3, h4, h5, h6, h7, h8⟩ <;> rw [h1, h2]
    · exact ⟨trivial, by simp⟩
    · exact ⟨h4, by simp; omega⟩
    · exact ⟨h4, by simp; omega⟩
    · exact ⟨⟨h4, h5, h6, h7⟩, by simp; omega⟩
  | p :: x :: rest, ⟨h1, h2, h3, h4⟩ => by
    obtain ⟨i1, i2⟩ := cropStep_sorted hc hn (x :: rest) h4
    obtain ⟨k1, k2⟩ := cropPiece_short hc h1 (by omega : p.2 ≤ c.2)
    have hstep : cropStep (p :: x :: rest) c = (cropPiece c p).1 ++ cropStep (x :: rest) c := by
      unfold cropStep
      rw [List.flatMap_cons, List.flatMap_cons (f := fun p => (cropPiece c p).2), k1]
      simp
    have hx : ∀ q ∈ cropStep (x :: rest) c, x.1 ≤ q.1 := by
      intro q hq
      obtain ⟨y, hy, hyq⟩ := i2 q hq
      simp only [List.head?_cons, Option.mem_def, Option.some.injEq] at hy
      rw [hy]; exact hyq
    rw [hstep]
    rcases k2 with k2 | ⟨b, k2, k3, k4⟩
    · rw [k2, List.nil_append]
      refine ⟨i1, fun q hq => ⟨p, by simp, ?_⟩⟩
      have := hx q hq; omega
    · rw [k2]
      refine ⟨?_, ?_⟩
      · cases hcs : cropStep (x :: rest) c with
        | nil => exact k3
        | cons q qs =>
          rw [hcs] at i1
          refine ⟨k3, by show b ≤ c.2; omega, ?_, i1⟩
          have := hx q (by rw [hcs]; simp)
          show b ≤ q.1
          omega
      · intro q hq
        refine ⟨p, by simp, ?_⟩
        rcases List.mem_append.1 hq with hq | hq
        · rw [List.mem_singleton] at hq; rw [hq]; exact Nat.le_refl _
        · have := hx q hq; omega

theorem cropAll_sorted {crops : List (Nat × Nat)} (hpos : ∀ c ∈ crops, c.1 < c.2) (hsort : crops.Pairwise fun a b => a.2 ≤ b.2) {h : Nat × Nat}
    (hh : h.1 < h.2) : ∃ n, SortedUpTo n (cropAll crops h) := by
  unfold cropAll
  have key : ∀ (crops : List (Nat × Nat)) n l, (∀ c ∈ crops, c.1 < c.2) → crops.Pairwise (fun a b => a.2 ≤ b.2) → (∀ c ∈ crops, n ≤ c.2) →
      SortedUpTo n l → ∃ n, SortedUpTo n (crops.foldl cropStep l) := by
    intro crops
    induction crops with
    | nil => intro n l _ _ _ hl; exact ⟨n, hl⟩
    | cons c cs ih =>
      intro n l h1 h2 h3 hl
      obtain ⟨h4, h5⟩ := List.pairwise_cons.1 h2
      exact ih c.2 _ (fun c hc => h1 c (List.mem_cons_of_mem _ hc)) h5 h4
        (cropStep_sorted (h1 c (List.mem_cons_self ..)) (h3 c (List.mem_cons_self ..)) l hl).1
  exact key crops 0 [h] hpos hsort (fun _ _ => Nat.zero_le _) hh

theorem sortedUpTo_pairwise {n : Nat} : ∀ {l : List (Nat × Nat)}, SortedUpTo n l → l.Pairwise fun a b => a.2 ≤ b.1
  | [], _ => .nil
  | [p], _ => by simp
  | p :: q :: rest, ⟨h1, h2, h3, h4⟩ => by
    have ih := sortedUpTo_pairwise h4
    refine List.pairwise_cons.2 ⟨?_, ih⟩
    intro x hx
    rcases List.mem_cons.1 hx with rfl | hx
    · exact h3
    · have := (List.pairwise_cons.1 ih).1 x hx
      have hq : q.1 < q.2 := by
        cases rest with
        | nil => exact h4
        | cons y ys => exact h4.1
      omega

theorem titles_tail {r : TitleRule} {alt : Str} (ha : r.altName = some alt) {input : Str} {h : Nat × Nat} {t : Mt} {ts : List Mt}
    (heq : titlesOf r input h = t :: ts) : ∀ x ∈ ts, x.name = some alt := by
  unfold titlesOf at heq
  rw [ha] at heq
  simp only at heq
  split at heq
  · cases heq
  · split at heq
    · cases heq
    · simp only [List.cons.injEq] at heq
      obtain ⟨_, rfl⟩ := heq
      intro x hx
      obtain ⟨y, _, rfl⟩ := List.mem_map.1 hx
      rfl

end Guessit
