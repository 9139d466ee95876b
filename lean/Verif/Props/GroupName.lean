import Verif.Spec.ReleaseGroup
import Verif.Model.ReleaseGroup
import Verif.Proofs.Regex
import Verif.Proofs.Text
import Verif.Props.Quantity
import Verif.Props.Numeral
import Verif.Props.Language

/-! # C86: the name of a release group -/

namespace Guessit
open Spec

/-! ## The pattern of credits -/

theorem searchFrom_sound {r : Re} {s : Str} {i n a b : Nat} {c : Caps} (h : r.searchFrom s i n = some (a, b, c)) :
    i ≤ a ∧ a ≤ i + n ∧ (b, c) ∈ r.exec s a [] := by
  induction n generalizing i with
  | zero =>
    unfold Re.searchFrom at h
    split at h
    · rename_i j c' hm
      cases h
      exact ⟨Nat.le_refl _, by omega, Re.matchAt_mem hm⟩
    · cases h
  | succ n ih =>
    unfold Re.searchFrom at h
    split at h
    · rename_i j c' hm
      cases h
      exact ⟨Nat.le_refl _, by omega, Re.matchAt_mem hm⟩
    · obtain ⟨h1, h2, h3⟩ := ih h
      exact ⟨by omega, by omega, h3⟩

/-- What a match of the pattern is. -/
theorem credit_sound {u : Uni} {s : Str} {i b : Nat} {c : Caps} (hi : i ≤ s.length) (h : (b, c) ∈ (creditRe u).exec s i []) :
    ∃ k p q, i < k ∧ k < p ∧ p < q ∧ b = q + 1 ∧ q < s.length ∧ c = [(2, (p, q)), (1, (i, k))] ∧ s[k]? = some ')' ∧
      s[p - 1]? = some '[' ∧ s[q]? = some ']' ∧ (p = k + 2 ∨ p = k + 3) := by
  unfold creditRe at h
  simp only [Re.cat, Re.opt, Re.lit, Re.mem_seq, Re.mem_grp, Re.mem_chr, Re.mem_eps, Re.mem_rep_chr_bounded] at h
  obtain ⟨k, c1, ⟨c2, h1, rfl⟩, h⟩ := h
  rw [Re.mem_rep_chr hi] at h1
  obtain ⟨rfl, hk, _⟩ := h1
  obtain ⟨k1, c3, ⟨⟨x, hx, hxe⟩, rfl, rfl⟩, k2, c4, ⟨rfl, hk2, hk3, _⟩, k3, c5, ⟨⟨y, hy, hye⟩, rfl, rfl⟩, q, c6, ⟨c7, h2, rfl⟩, q1, c8,
    ⟨⟨z, hz, hze⟩, rfl, rfl⟩, rfl, rfl⟩ := h
  have hyl := (List.getElem?_eq_some_iff.1 hy).1
  rw [Re.mem_rep_chr (by omega)] at h2
  obtain ⟨rfl, hq, _⟩ := h2
  have hzl := (List.getElem?_eq_some_iff.1 hz).1
  refine ⟨k, k2 + 1, q, by omega, by omega, by omega, rfl, hzl, rfl, ?_, ?_, ?_, by omega⟩
  · rw [hx, of_decide_eq_true hxe]
  · rw [Nat.add_sub_cancel, hy, of_decide_eq_true hye]
  · rw [hz, of_decide_eq_true hze]

theorem slice_append {s : Str} {a b c : Nat} (h1 : a ≤ b) (h2 : b ≤ c) : (s.take b).drop a ++ (s.take c).drop b = (s.take c).drop a := by
  have e : s.take b = (s.take c).take b := by rw [List.take_take, Nat.min_eq_left h2]
  rw [e]
  generalize s.take c = t
  rw [List.drop_take]
  conv_lhs => rw [show t.drop b = (t.drop a).drop (b - a) by rw [List.drop_drop]; congr 1; omega]
  exact List.take_append_drop _ _

theorem slice_sublist {s : Str} {a b k p q : Nat} (h1 : a ≤ k) (h2 : k ≤ p) (h3 : p ≤ q) (h4 : q ≤ b) :
    ((s.take k).drop a ++ (s.take q).drop p).Sublist ((s.take b).drop a) := by
  rw [← slice_append (s := s) (a := a) (b := k) (c := b) h1 (by omega), ← slice_append (s := s) (a := k) (b := p) (c := b) h2 (by omega),
    ← slice_append (s := s) (a := p) (b := q) (c := b) h3 h4]
  refine List.Sublist.append (List.Sublist.refl _) ?_
  exact (List.sublist_append_left _ _).trans (List.sublist_append_right _ _)

theorem wordChars_append (a b : Str) : wordChars (a ++ b) = wordChars a ++ wordChars b := by unfold wordChars; exact List.filter_append ..

theorem wordChars_sublist {a b : Str} (h : a.Sublist b) : (wordChars a).Sublist (wordChars b) := h.filter _

theorem subFrom_words (u : Uni) (s : Str) : ∀ fuel i, i ≤ s.length →
    (wordChars ((creditRe u).subFrom s (fun c => capText s c 1 ++ c!" " ++ capText s c 2) fuel i)).Sublist (wordChars (s.drop i)) := by
  intro fuel
  induction fuel with
  | zero => intro i _; exact List.Sublist.refl _
  | succ fuel ih =>
    intro i hi
    rw [Re.subFrom]
    split
    · exact List.Sublist.refl _
    · rename_i a b c h
      obtain ⟨h1, h2, h3⟩ := searchFrom_sound h
      obtain ⟨k, p, q, g1, g2, g3, rfl, g5, rfl, -⟩ := credit_sound (by omega) h3
      have e : s.drop i = (s.take a).drop i ++ ((s.take (q + 1)).drop a ++ s.drop (q + 1)) := by
        have e1 : s.drop a = (s.take (q + 1)).drop a ++ s.drop (q + 1) := by
          have := slice_append (s := s) (a := a) (b := q + 1) (c := s.length) (by omega) (by omega)
          simpa using this.symm
        rw [← e1]
        have := slice_append (s := s) (a := i) (b := a) (c := s.length) (by omega) (by omega)
        simpa using this.symm
      rw [e, List.append_assoc]
      simp only [wordChars_append]
      refine List.Sublist.append (List.Sublist.refl _) (List.Sublist.append ?_ (ih _ (by omega)))
      have hsub := wordChars_sublist (slice_sublist (s := s) (a := a) (b := q + 1) (k := k) (p := p) (q := q) (by omega) (by omega) (by omega) (by omega))
      show ((wordChars ((s.take k).drop a) ++ wordChars c!" ") ++ wordChars ((s.take q).drop p)).Sublist _
      have e2 : wordChars c!" " = [] := by decide
      rw [e2, List.append_nil]
      rw [wordChars_append] at hsub
      exact hsub

theorem stripChars_sublist (chars s : Str) : (stripChars chars s).Sublist s := by
  unfold stripChars
  refine ((List.dropWhile_sublist _).reverse).trans ?_
  rw [List.reverse_reverse]
  exact List.dropWhile_sublist _

theorem uniStrip_sublist (u : Uni) (s : Str) : (u.strip s).Sublist s := by
  unfold Uni.strip
  refine ((List.dropWhile_sublist _).reverse).trans ?_
  rw [List.reverse_reverse]
  exact List.dropWhile_sublist _

theorem dropForbidden_sublist (e : GroupEnv) (s f : Str) : (dropForbidden e s f).Sublist s := by
  have key : ∀ t : Str, (if opensWith e.u f t then stripChars (groupSeps e.ignored) (t.drop f.length) else t).Sublist t := by
    intro t
    split
    · exact (stripChars_sublist _ _).trans (List.drop_sublist _ _)
    · exact List.Sublist.refl _
  have key' : ∀ t : Str, (if closesWith e.u f t then stripChars (groupSeps e.ignored) (t.take f.length) else t).Sublist t := by
    intro t
    split
    · exact (stripChars_sublist _ _).trans (List.take_sublist _ _)
    · exact List.Sublist.refl _
  exact (key' _).trans (key s)

theorem foldForbidden_sublist (e : GroupEnv) : ∀ (fs : List Str) (s : Str), (fs.foldl (dropForbidden e) s).Sublist s := by
  intro fs
  induction fs with
  | nil => intro s; exact List.Sublist.refl _
  | cons f fs ih => intro s; exact (ih _).trans (dropForbidden_sublist e s f)

theorem stripGroup_sublist (ignored s : Str) : (stripGroup ignored s).Sublist s := by
  unfold stripGroup
  simp only
  split
  · exact (stripChars_sublist _ _).trans (stripChars_sublist _ _)
  · exact stripChars_sublist _ _

/-- C86: the name of a release group is made of the text it was found in: its word characters are word characters of the text,
in the same order. -/
theorem C86_nothing_invented (e : GroupEnv) (s : Str) : (wordChars (cleanGroup e s)).Sublist (wordChars s) := by
  unfold cleanGroup joinCredit
  refine (subFrom_words e.u _ _ 0 (Nat.zero_le _)).trans ?_
  rw [List.drop_zero]
  exact wordChars_sublist ((uniStrip_sublist _ _).trans ((foldForbidden_sublist e _ _).trans (stripGroup_sublist _ _)))

/-! ## Plain names -/

theorem pySlice_one {s : Str} {n : Nat} : pySlice s n (n + 1) = (s[n]?).toList := by
  unfold pySlice pyBound
  rw [if_neg (by omega), if_neg (by omega)]
  have e1 : ((n : Int) + 1).toNat = n + 1 := by omega
  rw [e1]
  simp only [Int.toNat_natCast]
  apply List.ext_getElem?
  intro i
  rw [List.getElem?_drop, List.getElem?_take]
  cases i with
  | zero =>
    cases h : s[n]? with
    | none =>
      have := List.getElem?_eq_none_iff.1 h
      simp
      intro h2
      omega
    | some c =>
      have := (List.getElem?_eq_some_iff.1 h).1
      rw [Nat.min_eq_left (by omega), Nat.min_eq_left (by omega)]
      simp [h]
  | succ i =>
    rw [if_neg]
    · cases s[n]? <;> simp
    · have : n + 1 ≤ s.length ∨ s.length < n + 1 := by omega
      rcases this with h | h
      · rw [Nat.min_eq_left (by omega), Nat.min_eq_left (by omega)]; omega
      · rw [Nat.min_eq_right (by omega), Nat.min_eq_right (by omega)]; omega

theorem opensWith_iff {u : Uni} {f t : Str} : opensWith u f t = true ↔ OpensWord u.lower f t := by
  unfold opensWith OpensWord
  rw [pySlice_one, Bool.and_eq_true, List.isPrefixOf_iff_prefix]
  refine and_congr Iff.rfl ?_
  cases t[f.length]? with
  | none => simp
  | some c => simp [isSep]

theorem pySlice_back {s : Str} {n : Nat} (hn : 0 < n) :
    pySlice s (-(n : Int) - 1) (-(n : Int)) = if n < s.length then (s[s.length - n - 1]?).toList else [] := by
  unfold pySlice pyBound
  rw [if_pos (by omega), if_pos (by omega)]
  by_cases h : n < s.length
  · rw [if_pos h]
    have e1 : ((s.length : Int) + (-(n : Int) - 1)).toNat = s.length - n - 1 := by omega
    have e2 : ((s.length : Int) + -(n : Int)).toNat = s.length - n - 1 + 1 := by omega
    rw [e1, e2]
    have hl : s.length - n - 1 < s.length := by omega
    generalize s.length - n - 1 = k at hl
    rw [List.drop_take, List.getElem?_eq_getElem hl, show k + 1 - k = 1 by omega]
    rw [List.drop_eq_getElem_cons hl]
    rfl
  · rw [if_neg h]
    have e2 : ((s.length : Int) + -(n : Int)).toNat = 0 := by omega
    rw [e2]
    simp

theorem closesWith_iff {u : Uni} {f t : Str} (hf : f ≠ []) : closesWith u f t = true ↔ ClosesWord u.lower f t := by
  unfold closesWith ClosesWord
  rw [pySlice_back (List.length_pos_iff.2 hf), Bool.and_eq_true, List.isSuffixOf_iff_suffix]
  refine and_congr Iff.rfl ?_
  split
  · rename_i h
    cases t[t.length - f.length - 1]? with
    | none => simp
    | some c => simp [isSep, h]
  · rename_i h
    simp [h]

theorem dropForbidden_keep {e : GroupEnv} {f t : Str} (hf : f ≠ []) (h1 : ¬ OpensWord e.u.lower f t) (h2 : ¬ ClosesWord e.u.lower f t) :
    dropForbidden e t f = t := by
  unfold dropForbidden
  rw [← opensWith_iff] at h1
  rw [← closesWith_iff hf] at h2
  simp only [Bool.not_eq_true] at h1 h2
  rw [h1]
  simp only [Bool.false_eq_true, if_false]
  rw [h2]
  simp

theorem foldForbidden_keep {e : GroupEnv} {t : Str} : ∀ fs : List Str, (∀ f ∈ fs, f ≠ []) → Unadorned e.u.lower fs t →
    fs.foldl (dropForbidden e) t = t := by
  intro fs
  induction fs with
  | nil => intro _ _; rfl
  | cons f fs ih =>
    intro h1 h2
    rw [List.foldl_cons, dropForbidden_keep (h1 f (by simp)) (h2 f (by simp)).1 (h2 f (by simp)).2]
    exact ih (fun g hg => h1 g (by simp [hg])) (fun g hg => h2 g (by simp [hg]))

theorem searchFrom_none {r : Re} {s : Str} (h : ∀ i, i ≤ s.length → r.exec s i [] = []) : ∀ n i, i + n ≤ s.length → r.searchFrom s i n = none := by
  intro n
  induction n with
  | zero => intro i hi; unfold Re.searchFrom Re.matchAt; rw [h i (by omega)]; rfl
  | succ n ih =>
    intro i hi
    unfold Re.searchFrom Re.matchAt
    rw [h i (by omega)]
    exact ih _ (by omega)

theorem joinCredit_keep' {u : Uni} {s : Str} (h : ')' ∉ s.dropLast) : joinCredit u s = s := by
  unfold joinCredit
  rw [Re.subFrom, searchFrom_none _ _ _ (by omega)]
  · exact List.drop_zero
  · intro i hi
    rw [List.eq_nil_iff_forall_not_mem]
    rintro ⟨b, c⟩ hm
    obtain ⟨k, p, q, _, h1, h2, _, h3, _, hk, _⟩ := credit_sound hi hm
    refine h (List.mem_iff_getElem?.2 ⟨k, ?_⟩)
    rw [List.getElem?_dropLast, if_pos (by omega)]
    exact hk

theorem joinCredit_keep {u : Uni} {s : Str} (h : ')' ∉ s) : joinCredit u s = s := joinCredit_keep' fun h' => h ((List.dropLast_sublist _).mem h')

theorem stripGroup_plain {ignored s : Str} (h : ∀ c ∈ s, c ∉ ignored) : stripGroup ignored s = stripChars seps s := by
  have e1 : stripChars ignored (stripChars (groupSeps ignored) s) = stripChars (groupSeps ignored) s := by
    refine strip_fix ?_ ?_
    · intro c hc; exact h c (strip_mem (List.mem_of_mem_head? hc))
    · intro c hc; exact h c (strip_mem (List.mem_of_getLast? hc))
  have e2 : stripChars (groupSeps ignored) s = stripChars seps s := by
    unfold stripChars
    have key : ∀ t : Str, (∀ c ∈ t, c ∉ ignored) → t.dropWhile (groupSeps ignored).contains = t.dropWhile seps.contains := by
      intro t
      induction t with
      | nil => intro _; rfl
      | cons c t ih =>
        intro ht
        have hc : (groupSeps ignored).contains c = seps.contains c := by
          have : c ∉ ignored := ht c (by simp)
          unfold groupSeps
          rw [Bool.eq_iff_iff, List.contains_iff_mem, List.contains_iff_mem, List.mem_filter]
          simp [this]
        rw [List.dropWhile_cons, List.dropWhile_cons, hc, ih (fun c hc => ht c (by simp [hc]))]
    rw [key s h, key _ (fun c hc => h c ((List.dropWhile_sublist _).mem (List.mem_reverse.1 hc)))]
  unfold stripGroup
  simp only
  rw [e1, e2, ite_self]

/-- C86: a name that has no bracket and neither begins nor ends with a forbidden word is reported as it is, without the
separators around it, then without the white space around it. -/
theorem C86_plain_name (e : GroupEnv) (hf : ∀ f ∈ e.forbidden, f ≠ []) (hi : ')' ∈ e.ignored) (s : Str) (hb : ∀ c ∈ s, c ∉ e.ignored)
    (hu : Unadorned e.u.lower e.forbidden (stripChars seps s)) : cleanGroup e s = e.u.strip (stripChars seps s) := by
  unfold cleanGroup
  rw [stripGroup_plain hb, foldForbidden_keep _ hf hu]
  refine joinCredit_keep ?_
  intro h
  exact hb _ (strip_mem ((uniStrip_sublist _ _).mem h)) hi

/-- C86: a name in brackets keeps its brackets. -/
theorem C86_wrapped (e : GroupEnv) (hf : ∀ f ∈ e.forbidden, f ≠ []) (a b : Char) (name : Str) (ha : a ∈ e.ignored) (hb : b ∈ e.ignored)
    (hspace : e.u.space a = false ∧ e.u.space b = false) (hn : ')' ∉ a :: name) (hu : Unadorned e.u.lower e.forbidden (a :: name ++ [b])) :
    cleanGroup e (a :: name ++ [b]) = a :: name ++ [b] := by
  have hlast : ∀ c, (a :: name ++ [b]).getLast? = some c → c = b := by
    intro c hc
    rw [List.getLast?_append_of_ne_nil _ (by simp)] at hc
    simpa using hc.symm
  have hhead : ∀ c, (a :: name ++ [b]).head? = some c → c = a := by
    intro c hc
    simpa using hc.symm
  have h1 : stripChars (groupSeps e.ignored) (a :: name ++ [b]) = a :: name ++ [b] := by
    have hg : ∀ c, c ∈ groupSeps e.ignored → c ∉ e.ignored := by
      intro c hc
      unfold groupSeps at hc
      rw [List.mem_filter] at hc
      simpa using hc.2
    refine strip_fix ?_ ?_
    · intro c hc h; rw [hhead c hc] at h; exact hg _ h ha
    · intro c hc h; rw [hlast c hc] at h; exact hg _ h hb
  have h2 : stripGroup e.ignored (a :: name ++ [b]) = a :: name ++ [b] := by
    have e1 : (a :: name ++ [b]).getLast? = some b := by rw [List.getLast?_append_of_ne_nil _ (by simp)]; rfl
    have e2 : (a :: name ++ [b]).head? = some a := rfl
    unfold stripGroup
    simp only
    rw [h1, e1, e2]
    simp [ha, hb]
  unfold cleanGroup
  rw [h2, foldForbidden_keep _ hf hu, strip_id (fun c hc => by rw [hhead c hc]; exact hspace.1) (fun c hc => by rw [hlast c hc]; exact hspace.2)]
  refine joinCredit_keep' ?_
  rw [List.dropLast_concat]
  exact hn

theorem mem_groupSeps {ignored : Str} {c : Char} : c ∈ groupSeps ignored ↔ c ∈ seps ∧ c ∉ ignored := by
  unfold groupSeps
  rw [List.mem_filter]
  simp

theorem strip_lead {chars sep name : Str} (h : ∀ c ∈ sep, c ∈ chars) (hne : name ≠ []) (h1 : ∀ c, name.head? = some c → c ∉ chars)
    (h2 : ∀ c, name.getLast? = some c → c ∉ chars) : stripChars chars (sep ++ name) = name := by
  induction sep with
  | nil => exact strip_fix h1 h2
  | cons c sep ih =>
    have := ih fun c hc => h c (by simp [hc])
    unfold stripChars at this ⊢
    rw [List.cons_append, List.dropWhile_cons, if_pos (by simpa using h c (by simp))]
    exact this

theorem dropWhile_lead {p : Char → Bool} {pre name : Str} (h : ∀ c ∈ pre, p c = true) (hne : name ≠ []) (h1 : ∀ c, name.head? = some c → p c = false) :
    (pre ++ name).dropWhile p = name := by
  induction pre with
  | nil =>
    cases name with
    | nil => exact absurd rfl hne
    | cons c t => rw [List.nil_append, List.dropWhile_cons, if_neg (by rw [h1 c rfl]; decide)]
  | cons c pre ih =>
    rw [List.cons_append, List.dropWhile_cons, if_pos (h c (by simp))]
    exact ih fun c hc => h c (by simp [hc])

theorem strip_around {chars pre name post : Str} (h : ∀ c ∈ pre, c ∈ chars) (h' : ∀ c ∈ post, c ∈ chars) (hne : name ≠ [])
    (h1 : ∀ c, name.head? = some c → c ∉ chars) (h2 : ∀ c, name.getLast? = some c → c ∉ chars) :
    stripChars chars (pre ++ (name ++ post)) = name := by
  unfold stripChars
  rw [dropWhile_lead (by simpa using h) (by simp [hne]), List.reverse_append, dropWhile_lead, List.reverse_reverse]
  · intro c hc
    rw [List.mem_reverse] at hc
    simpa using h' c hc
  · simpa using hne
  · intro c hc
    rw [List.head?_reverse] at hc
    simpa using h2 c hc
  · intro c hc
    have : name.head? = some c := by
      cases name with
      | nil => exact absurd rfl hne
      | cons d t => exact hc
    simpa using h1 c this

/-- C86: brackets at one end only are dropped. -/
theorem C86_one_side (e : GroupEnv) (hf : ∀ f ∈ e.forbidden, f ≠ []) (hi : ')' ∈ e.ignored) (pre name post : Str) (hpre : ∀ c ∈ pre, c ∈ e.ignored)
    (hpost : ∀ c ∈ post, c ∈ e.ignored) (hone : pre = [] ∨ post = []) (hb : ∀ c ∈ name, c ∉ e.ignored) (hne : name ≠ [])
    (ht : Trimmed (fun c => c ∈ seps) name) (hu : Unadorned e.u.lower e.forbidden name) :
    cleanGroup e (pre ++ (name ++ post)) = e.u.strip name := by
  have hh : ∀ c, name.head? = some c → c ∉ e.ignored := fun c hc => hb c (List.mem_of_mem_head? hc)
  have hl : ∀ c, name.getLast? = some c → c ∉ e.ignored := fun c hc => hb c (List.mem_of_getLast? hc)
  have hhead : ∀ c, (pre ++ (name ++ post)).head? = some c → c ∉ groupSeps e.ignored := by
    intro c hc hg
    rw [mem_groupSeps] at hg
    cases pre with
    | nil =>
      cases name with
      | nil => exact hne rfl
      | cons d t => exact ht.1 c hc hg.1
    | cons d t =>
      simp only [List.cons_append, List.head?_cons, Option.some.injEq] at hc
      exact hg.2 (hc ▸ hpre d (by simp))
  have hlast : ∀ c, (pre ++ (name ++ post)).getLast? = some c → c ∉ groupSeps e.ignored := by
    intro c hc hg
    rw [mem_groupSeps] at hg
    rw [List.getLast?_append_of_ne_nil _ (by simp [hne])] at hc
    by_cases hp : post = []
    · rw [hp, List.append_nil] at hc
      exact ht.2 c hc hg.1
    · rw [List.getLast?_append_of_ne_nil _ hp] at hc
      exact hg.2 (hpost c (List.mem_of_getLast? hc))
  have hs : stripGroup e.ignored (pre ++ (name ++ post)) = name := by
    unfold stripGroup
    dsimp only
    rw [strip_fix hhead hlast, strip_around hpre hpost hne hh hl, if_pos]
    rw [Bool.and_eq_true]
    constructor
    · rw [Bool.not_eq_true', Bool.and_eq_false_iff]
      rcases hone with rfl | rfl
      · right
        cases name with
        | nil => exact absurd rfl hne
        | cons d t => simpa using hb d (by simp)
      · left
        rw [List.append_nil, List.getLast?_append_of_ne_nil _ hne]
        cases hg : name.getLast? with
        | none => rfl
        | some c => simpa using hl c hg
    · rw [Bool.not_eq_true', List.any_eq_false]
      intro c hc
      simpa using hb c hc
  unfold cleanGroup
  rw [hs, foldForbidden_keep _ hf hu]
  exact joinCredit_keep fun h => hb _ ((uniStrip_sublist _ _).mem h) hi

/-- C86: a forbidden word in front of the name is dropped. -/
theorem C86_forbidden_prefix (e : GroupEnv) (hf : ∀ f ∈ e.forbidden, f ≠ []) (hi : ')' ∈ e.ignored) (f w sep name : Str) (hfe : f ∈ e.forbidden)
    (hw : f <+: e.u.lower (w ++ sep ++ name)) (hlen : w.length = f.length) (hsep : sep ≠ [] ∧ ∀ c ∈ sep, c ∈ seps)
    (hb : ∀ c ∈ w ++ sep ++ name, c ∉ e.ignored) (hedge : Trimmed (· ∈ seps) (w ++ name)) (hn : Trimmed (· ∈ seps) name) (hne : name ≠ [])
    (hother : ∀ g ∈ e.forbidden, g ≠ f → ¬ OpensWord e.u.lower g (w ++ sep ++ name) ∧ ¬ ClosesWord e.u.lower g (w ++ sep ++ name))
    (hu : Unadorned e.u.lower e.forbidden name) (hspace : Trimmed (e.u.space · = true) name) :
    cleanGroup e (w ++ sep ++ name) = name := by
  have hwne : w ≠ [] := by
    intro h; apply hf f hfe; rw [← List.length_eq_zero_iff, ← hlen, h]; rfl
  have hstrip : stripChars seps (w ++ sep ++ name) = w ++ sep ++ name := by
    refine strip_fix ?_ ?_
    · intro c hc
      obtain ⟨x, w', rfl⟩ := List.exists_cons_of_ne_nil hwne
      exact hedge.1 c hc
    · intro c hc
      refine hn.2 c ?_
      rwa [List.getLast?_append_of_ne_nil _ hne] at hc
  have hfold : e.forbidden.foldl (dropForbidden e) (w ++ sep ++ name) = name := by
    obtain ⟨pre, post, heq, hpre⟩ := List.eq_append_cons_of_mem hfe
    rw [heq, List.foldl_append, List.foldl_cons, foldForbidden_keep pre]
    · have hstep : dropForbidden e (w ++ sep ++ name) f = name := by
        have ho : opensWith e.u f (w ++ sep ++ name) = true := by
          rw [opensWith_iff]
          refine ⟨hw, ?_⟩
          intro c hc
          obtain ⟨x, sep', rfl⟩ := List.exists_cons_of_ne_nil hsep.1
          rw [← hlen, List.append_assoc, List.getElem?_append_right (Nat.le_refl _), Nat.sub_self] at hc
          cases hc
          exact hsep.2 _ (by simp)
        have hg : stripChars (groupSeps e.ignored) ((w ++ sep ++ name).drop f.length) = name := by
          rw [← hlen, List.append_assoc, List.drop_left]
          exact strip_lead (fun c hc => mem_groupSeps.2 ⟨hsep.2 c hc, hb c (by simp [hc])⟩) hne
            (fun c hc h => hn.1 c hc (mem_groupSeps.1 h).1) (fun c hc h => hn.2 c hc (mem_groupSeps.1 h).1)
        unfold dropForbidden
        rw [ho]
        simp only [if_true]
        rw [hg]
        have := (hu f hfe).2
        rw [← closesWith_iff (hf f hfe), Bool.not_eq_true] at this
        rw [this]
        simp
      rw [hstep]
      refine foldForbidden_keep post (fun g hg => hf g ?_) (fun g hg => hu g ?_) <;> rw [heq] <;> simp [hg]
    · intro g hg; apply hf; rw [heq]; simp [hg]
    · intro g hg
      refine hother g (by rw [heq]; simp [hg]) ?_
      rintro rfl; exact hpre hg
  unfold cleanGroup
  rw [stripGroup_plain hb, hstrip, hfold, strip_id (fun c hc => by simpa using hspace.1 c hc) (fun c hc => by simpa using hspace.2 c hc)]
  · exact joinCredit_keep fun h => hb _ (by simp [h]) hi
/-! ## Credits -/

theorem getElem?_unique {x : Char} {l r : Str} (hl : x ∉ l) (hr : x ∉ r) {k : Nat} (h : (l ++ x :: r)[k]? = some x) : k = l.length := by
  rcases Nat.lt_trichotomy k l.length with hk | hk | hk
  · rw [List.getElem?_append_left hk] at h
    exact absurd (List.mem_of_getElem? h) hl
  · exact hk
  · rw [List.getElem?_append_right (by omega), show k - l.length = (k - l.length - 1) + 1 by omega, List.getElem?_cons_succ] at h
    exact absurd (List.mem_of_getElem? h) hr

theorem head_all {α : Type} {l : List α} {x : α} (h : ∀ y ∈ l, y = x) (hx : x ∈ l) : l.head? = some x := by
  cases l with
  | nil => cases hx
  | cons a l => rw [h a (by simp)]; rfl

theorem allIn_slice {p : Char → Bool} {a t r : Str} (h : ∀ c ∈ t, p c = true) : Re.AllIn (a ++ t ++ r) p a.length (a.length + t.length) := by
  intro k h1 h2
  have hk : k - a.length < t.length := by omega
  refine ⟨t[k - a.length], ?_, h _ (List.getElem_mem _)⟩
  rw [List.append_assoc, List.getElem?_append_right h1, List.getElem?_append_left hk, List.getElem?_eq_getElem hk]

theorem slice_mid {a t r : Str} : ((a ++ t ++ r).take (a.length + t.length)).drop a.length = t := by
  rw [List.take_append_of_le_length (by simp), List.take_of_length_le (by simp), List.drop_left]

/-- C86: a name with credits, "Individual) [Group]", becomes "Individual Group". -/
theorem C86_credit (e : GroupEnv) (hf : ∀ f ∈ e.forbidden, f ≠ []) (hi : ∀ c, c ∈ e.ignored ↔ c ∈ brackets) (x gap y : Str) (hx : x ≠ []) (hy : y ≠ [])
    (hgap : gap = [] ∨ ∃ w, gap = [w] ∧ e.u.space w = true ∧ w ∉ brackets) (hplain : ∀ c ∈ x ++ y, c ∉ brackets ∧ c ≠ '\n')
    (hedge : ∀ c, x.head? = some c → c ∉ seps ∧ e.u.space c = false) (hspace : e.u.space ']' = false)
    (hu : Unadorned e.u.lower e.forbidden (x ++ c!")" ++ gap ++ c!"[" ++ y ++ c!"]")) :
    cleanGroup e (x ++ c!")" ++ gap ++ c!"[" ++ y ++ c!"]") = x ++ c!" " ++ y := by
  have hgb : ∀ c ∈ gap, c ∉ brackets := by
    rcases hgap with rfl | ⟨w, rfl, _, hw⟩
    · simp
    · intro c hc; rw [List.mem_singleton.1 hc]; exact hw
  have hpb : ∀ c, c ∈ x ∨ c ∈ y → c ∉ brackets := fun c h => (hplain c (List.mem_append.2 h)).1
  have hgl : gap.length ≤ 1 := by rcases hgap with rfl | ⟨w, rfl, _, _⟩ <;> simp
  obtain ⟨s, hs⟩ : ∃ s, s = x ++ c!")" ++ gap ++ c!"[" ++ y ++ c!"]" := ⟨_, rfl⟩
  rw [← hs] at hu ⊢
  have hhead : ∀ c, s.head? = some c → x.head? = some c := by
    intro c hc
    obtain ⟨a, x', rfl⟩ := List.exists_cons_of_ne_nil hx
    rw [hs] at hc
    exact hc
  have hlast : ∀ c, s.getLast? = some c → c = ']' := by
    intro c hc
    rw [hs, List.getLast?_append_of_ne_nil _ (by simp)] at hc
    simpa using hc.symm
  have hlast' : s.getLast? = some ']' := by rw [hs, List.getLast?_append_of_ne_nil _ (by simp)]; rfl
  have hlen : s.length = x.length + 1 + gap.length + 1 + y.length + 1 := by rw [hs]; simp; omega
  -- stripping
  have h1 : stripChars (groupSeps e.ignored) s = s := by
    refine strip_fix ?_ ?_
    · intro c hc h
      exact (hedge c (hhead c hc)).1 (mem_groupSeps.1 h).1
    · intro c hc h
      rw [hlast c hc] at h
      exact (mem_groupSeps.1 h).2 ((hi _).2 (by decide))
  have h2 : stripGroup e.ignored s = s := by
    have hin : (stripChars e.ignored s).any e.ignored.contains = true := by
      rw [List.any_eq_true]
      refine ⟨')', ?_, by simpa using (hi _).2 (by decide)⟩
      obtain ⟨a, x', rfl⟩ := List.exists_cons_of_ne_nil hx
      have ha : a ∉ e.ignored := by
        rw [hi]; exact (hplain a (by simp)).1
      unfold stripChars
      have hd : s.dropWhile e.ignored.contains = s := dropWhile_id (by
        intro c hc
        rw [hs] at hc
        have : a = c := by simpa using hc
        rw [← this]
        simpa using ha)
      rw [hd]
      have hmem : y.getLast hy ∈ y := List.getLast_mem hy
      have hyl : y.getLast hy ∉ e.ignored := by rw [hi]; exact (hplain _ (by simp)).1
      have hrev : s.reverse = ']' :: y.getLast hy :: ((a :: x') ++ c!")" ++ gap ++ c!"[" ++ y.dropLast).reverse := by
        conv_lhs => rw [hs, ← List.dropLast_concat_getLast hy]
        simp
      rw [hrev, List.dropWhile_cons, if_pos (by simpa using (hi ']').2 (by decide)), List.dropWhile_cons, if_neg (by simpa using hyl)]
      simp
    unfold stripGroup
    simp only
    rw [h1, hin]
    simp
  have h3 : e.u.strip s = s := strip_id (fun c hc => (hedge c (hhead c hc)).2) (fun c hc => by rw [hlast c hc]; exact hspace)
  -- the match of the pattern
  have hall : ∀ t ∈ (creditRe e.u).exec s 0 [], t = (s.length, [(2, (x.length + 1 + gap.length + 1, s.length - 1)), (1, (0, x.length))]) := by
    rintro ⟨b, c⟩ hm
    obtain ⟨k, p, q, g1, g2, g3, rfl, g5, rfl, gk, gp, gq, _⟩ := credit_sound (Nat.zero_le _) hm
    have hk : k = x.length := by
      refine getElem?_unique (x := ')') (l := x) (r := gap ++ c!"[" ++ y ++ c!"]") ?_ ?_ ?_
      · intro h; exact hpb ')' (by simp [h]) (by decide)
      · intro h
        simp only [List.mem_append, List.mem_singleton] at h
        rcases h with ((h | h) | h) | h
        · exact hgb _ h (by decide)
        · exact absurd h (by decide)
        · exact hpb ')' (by simp [h]) (by decide)
        · exact absurd h (by decide)
      · rw [← gk, hs]; simp
    have hp : p - 1 = x.length + 1 + gap.length := by
      have := getElem?_unique (x := '[') (l := x ++ c!")" ++ gap) (r := y ++ c!"]") (k := p - 1) ?_ ?_ ?_
      · rw [this]; simp; omega
      · intro h
        simp only [List.mem_append, List.mem_singleton] at h
        rcases h with (h | h) | h
        · exact hpb '[' (by simp [h]) (by decide)
        · exact absurd h (by decide)
        · exact hgb _ h (by decide)
      · intro h
        simp only [List.mem_append, List.mem_singleton] at h
        rcases h with h | h
        · exact hpb '[' (by simp [h]) (by decide)
        · exact absurd h (by decide)
      · rw [← gp, hs]; simp
    have hq : q = s.length - 1 := by
      have := getElem?_unique (x := ']') (l := x ++ c!")" ++ gap ++ c!"[" ++ y) (r := []) (k := q) ?_ (by simp) ?_
      · rw [this, hlen]; simp; omega
      · intro h
        simp only [List.mem_append, List.mem_singleton] at h
        rcases h with (((h | h) | h) | h) | h
        · exact hpb ']' (by simp [h]) (by decide)
        · exact absurd h (by decide)
        · exact hgb _ h (by decide)
        · exact absurd h (by decide)
        · exact hpb ']' (by simp [h]) (by decide)
      · rw [← gq, hs]
    have hp' : p = x.length + 1 + gap.length + 1 := by omega
    rw [hk, hp', hq]
    rw [show s.length - 1 + 1 = s.length by omega]
  have hmem : (s.length, [(2, (x.length + 1 + gap.length + 1, s.length - 1)), (1, (0, x.length))]) ∈ (creditRe e.u).exec s 0 [] := by
    unfold creditRe
    simp only [Re.cat, Re.opt, Re.lit, Re.mem_seq, Re.mem_grp, Re.mem_chr, Re.mem_eps, Re.mem_rep_chr_bounded]
    have hxl : 0 < x.length := List.length_pos_iff.2 hx
    have hyl : 0 < y.length := List.length_pos_iff.2 hy
    refine ⟨x.length, _, ⟨[], ?_, rfl⟩, x.length + 1, _, ⟨⟨')', ?_, by simp⟩, rfl, rfl⟩, x.length + 1 + gap.length, _, ⟨rfl, by omega, by omega, ?_⟩,
      x.length + 1 + gap.length + 1, _, ⟨⟨'[', ?_, by simp⟩, rfl, rfl⟩, s.length - 1, _, ⟨_, ?_, rfl⟩, s.length, _, ⟨⟨']', ?_, by simp⟩, by omega, rfl⟩, rfl, rfl⟩
    · rw [Re.mem_rep_chr (Nat.zero_le _)]
      refine ⟨rfl, by omega, ?_⟩
      have := allIn_slice (p := fun c => decide (c ≠ '\n')) (a := []) (t := x) (r := c!")" ++ gap ++ c!"[" ++ y ++ c!"]")
        (fun c hc => by simpa using (hplain c (by simp [hc])).2)
      simpa [hs] using this
    · rw [hs]; simp
    · have := allIn_slice (p := e.u.space) (a := x ++ c!")") (t := gap) (r := c!"[" ++ y ++ c!"]") (by
        rcases hgap with rfl | ⟨w, rfl, hw, _⟩
        · simp
        · intro c hc; rw [List.mem_singleton.1 hc]; exact hw)
      simpa [hs] using this
    · rw [hs]
      have : (x ++ c!")" ++ gap ++ c!"[" ++ y ++ c!"]") = (x ++ c!")" ++ gap) ++ '[' :: (y ++ c!"]") := by simp
      rw [this, List.getElem?_append_right (by simp; omega)]
      have : x.length + 1 + gap.length - (x ++ c!")" ++ gap).length = 0 := by simp; omega
      rw [this]; rfl
    · rw [Re.mem_rep_chr (by omega)]
      refine ⟨rfl, by omega, ?_⟩
      have := allIn_slice (p := fun c => decide (c ≠ '\n')) (a := x ++ c!")" ++ gap ++ c!"[") (t := y) (r := c!"]")
        (fun c hc => by simpa using (hplain c (by simp [hc])).2)
      have e1 : (x ++ c!")" ++ gap ++ c!"[").length = x.length + 1 + gap.length + 1 := by simp; omega
      rw [e1] at this
      rw [show s.length - 1 = x.length + 1 + gap.length + 1 + y.length by omega, hs]
      exact this
    · rw [hs]
      rw [List.getElem?_append_right (by simp; omega)]
      have : (x ++ c!")" ++ gap ++ c!"[" ++ y ++ c!"]").length - 1 - (x ++ c!")" ++ gap ++ c!"[" ++ y).length = 0 := by simp; omega
      rw [this]; rfl
  have hmatch : (creditRe e.u).searchFrom s 0 (s.length - 0) = some (0, s.length, [(2, (x.length + 1 + gap.length + 1, s.length - 1)), (1, (0, x.length))]) := by
    have : (creditRe e.u).matchAt s 0 = some (s.length, [(2, (x.length + 1 + gap.length + 1, s.length - 1)), (1, (0, x.length))]) := head_all hall hmem
    unfold Re.searchFrom
    rw [this]
  have hend : ∀ fuel, (creditRe e.u).subFrom s (fun c => capText s c 1 ++ c!" " ++ capText s c 2) fuel s.length = [] := by
    intro fuel
    have := subFrom_words e.u s fuel s.length (Nat.le_refl _)
    cases fuel with
    | zero => rw [Re.subFrom]; simp
    | succ n =>
      rw [Re.subFrom]
      split
      · simp
      · rename_i a b c h
        obtain ⟨h1, h2, h3⟩ := searchFrom_sound h
        obtain ⟨_, _, _, _, _, _, _, _, _⟩ := credit_sound (by omega) h3
        omega
  unfold cleanGroup joinCredit
  rw [h2, foldForbidden_keep _ hf hu, h3, Re.subFrom, hmatch]
  simp only
  rw [hend]
  have c1 : capText s [(2, (x.length + 1 + gap.length + 1, s.length - 1)), (1, (0, x.length))] 1 = x := by
    show (s.take x.length).drop 0 = x
    rw [hs]
    simp
  have c2 : capText s [(2, (x.length + 1 + gap.length + 1, s.length - 1)), (1, (0, x.length))] 2 = y := by
    show (s.take (s.length - 1)).drop (x.length + 1 + gap.length + 1) = y
    have := slice_mid (a := x ++ c!")" ++ gap ++ c!"[") (t := y) (r := c!"]")
    have e1 : (x ++ c!")" ++ gap ++ c!"[").length = x.length + 1 + gap.length + 1 := by simp; omega
    rw [e1] at this
    rw [show s.length - 1 = x.length + 1 + gap.length + 1 + y.length by omega, hs]
    exact this
  rw [c1, c2]
  simp

/-! ## Examples -/

/-- The configuration of guessit (options.json:538-548). -/
def stdGroup : GroupEnv where
  u := asciiUni
  forbidden := [c!"bonus", c!"by", c!"for", c!"par", c!"pour", c!"rip"]
  ignored := brackets
  intLike := fun t => !t.isEmpty && t.all Char.isDigit

example : cleanGroup stdGroup c!"-CS." = c!"CS" ∧ cleanGroup stdGroup c!"[ABC]" = c!"[ABC]" ∧ cleanGroup stdGroup c!"ABC]" = c!"ABC" ∧
    cleanGroup stdGroup c!"-by-ABC" = c!"ABC" ∧ cleanGroup stdGroup c!"Individual) [Group]" = c!"Individual Group" := by decide +kernel

instance (P : Char → Prop) [DecidablePred P] (o : Option Char) : Decidable (∀ c, o = some c → P c) := match o with
  | none => .isTrue fun _ h => nomatch h
  | some x => if h : P x then .isTrue fun c e => by cases e; exact h else .isFalse fun f => h (f x rfl)

instance (lower : Str → Str) (f t : Str) : Decidable (OpensWord lower f t) := by unfold OpensWord; infer_instance

instance (lower : Str → Str) (f t : Str) : Decidable (ClosesWord lower f t) := by
  unfold ClosesWord
  by_cases h : f.length < t.length
  · exact decidable_of_iff (f <:+ lower t ∧ ∀ c, t[t.length - f.length - 1]? = some c → c ∈ seps)
      (and_congr Iff.rfl ⟨fun g c _ => g c, fun g c => g c h⟩)
  · exact decidable_of_iff (f <:+ lower t) ⟨fun g => ⟨g, fun _ h' => absurd h' h⟩, fun g => g.1⟩

instance (lower : Str → Str) (fs : List Str) (t : Str) : Decidable (Unadorned lower fs t) := by unfold Unadorned; infer_instance
instance (P : Char → Prop) [DecidablePred P] (t : Str) : Decidable (Trimmed P t) := by unfold Trimmed; infer_instance

example : cleanGroup stdGroup c!"-CS" = c!"CS" :=
  C86_plain_name stdGroup (by decide) (by decide) c!"-CS" (by decide) (by decide +kernel)
example : cleanGroup stdGroup c!"by-CS" = c!"CS" :=
  C86_forbidden_prefix stdGroup (by decide) (by decide) c!"by" c!"by" c!"-" c!"CS" (by decide) (by decide) (by decide) (by decide) (by decide)
    (by decide) (by decide) (by decide) (by decide +kernel) (by decide +kernel) (by decide)
example : cleanGroup stdGroup c!"[CS]" = c!"[CS]" :=
  C86_wrapped stdGroup (by decide) '[' ']' c!"CS" (by decide) (by decide) (by decide) (by decide) (by decide +kernel)
example : cleanGroup stdGroup c!"CS]" = c!"CS" :=
  C86_one_side stdGroup (by decide) (by decide) [] c!"CS" c!"]" (by decide) (by decide) (.inl rfl) (by decide) (by decide) (by decide) (by decide +kernel)
example : cleanGroup stdGroup c!"Ann) [CS]" = c!"Ann CS" :=
  C86_credit stdGroup (by decide) (fun _ => Iff.rfl) c!"Ann" c!" " c!"CS" (by decide) (by decide) (.inr ⟨' ', rfl, by decide, by decide⟩)
    (by decide) (by decide) (by decide) (by decide +kernel)

/-- C86: a forbidden word at the end of the name does not go away: the name is cut to the length of that word. -/
theorem C86_suffix_counterexample : ClosesWord stdGroup.u.lower c!"rip" c!"Group.rip" ∧ cleanGroup stdGroup c!"Group.rip" = c!"Gro" := by
  decide +kernel

/-- C86: a separator may be left at the edge of the name, next to a bracket that is dropped. -/
theorem C86_edge_counterexample : cleanGroup stdGroup c!"abc-)" = c!"abc-" := by decide +kernel

end Guessit
