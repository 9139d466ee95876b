import Verif.Proofs.Numeral
import Mathlib.Data.List.Nodup
import Mathlib.Data.List.TakeWhile

/-!
# Properties C25, C26: numerals
-/

namespace Guessit
open Spec Re

/-! ## C25 -/

theorem roman_eq (n : Nat) : roman n = List.replicate (n / 1000) 'M' ++ (romanDigit 'C' 'D' 'M' (n / 100 % 10) ++
    (romanDigit 'X' 'L' 'C' (n / 10 % 10) ++ (romanDigit 'I' 'V' 'X' (n % 10)))) := by
  unfold roman; simp

theorem digits_sum (n : Nat) : n = n / 1000 * 1000 + n / 100 % 10 * 100 + n / 10 % 10 * 10 + n % 10 := by
  have h1 : n / 100 / 10 = n / 1000 := by rw [Nat.div_div_eq_div_mul]
  have h2 : n / 10 / 10 = n / 100 := by rw [Nat.div_div_eq_div_mul]
  omega

theorem parseRoman_search {v : Str} {r} (h : romanRe.search v = some r) : parseRoman v = .ok (romanLoop romanMap 0 v) := by
  unfold parseRoman; rw [h]

theorem roman_text {n : Nat} (h1 : 1 ≤ n) (h2 : n < 5000) (tail : Str) (ht : tail = [] ∨ tail = ['\n']) : RomanText (roman n ++ tail) :=
  ⟨n / 1000, n / 100 % 10, n / 10 % 10, n % 10, tail, by omega, by omega, by omega, by omega, ht, by rw [roman_eq]; simp, by have := digits_sum n; omega⟩

/-- C25: every canonical Roman numeral from 1 to 4999 is read exactly. -/
theorem C25_reads (n : Nat) (h1 : 1 ≤ n) (h2 : n < 5000) : parseRoman (roman n) = .ok n := by
  have ht := roman_text h1 h2 [] (Or.inl rfl)
  rw [List.append_nil] at ht
  obtain ⟨r, hr⟩ := roman_search_iff.2 ht
  rw [parseRoman_search hr]
  have := romanLoop_value (a := n / 1000) (b := n / 100 % 10) (c := n / 10 % 10) (d := n % 10) (tail := [])
    (by omega) (by omega) (by omega) (Or.inl rfl)
  rw [List.append_nil] at this
  have e : romanLoop romanMap 0 (roman n) = n := by
    rw [roman_eq, this]; exact (digits_sum n).symm
  rw [e]

theorem parseRoman_ok {v : Str} {n : Nat} (h : parseRoman v = .ok n) :
    1 ≤ n ∧ n < 5000 ∧ ∃ tail, (tail = [] ∨ tail = ['\n']) ∧ v = roman n ++ tail := by
  unfold parseRoman at h
  split at h
  · cases h
  rename_i r hr
  obtain ⟨a, b, c, d, tail, ha, hb, hc, hd, ht, hs, hpos⟩ := roman_search_iff.1 ⟨r, hr⟩
  have hv := romanLoop_value (a := a) hb hc hd ht
  rw [hs] at h
  simp only [Except.ok.injEq] at h
  rw [hv] at h
  subst h
  refine ⟨by omega, by omega, tail, ht, ?_⟩
  rw [hs, roman_eq]
  have e1 : (a * 1000 + b * 100 + c * 10 + d) / 1000 = a := by omega
  have e2 : (a * 1000 + b * 100 + c * 10 + d) / 100 % 10 = b := by omega
  have e3 : (a * 1000 + b * 100 + c * 10 + d) / 10 % 10 = c := by omega
  have e4 : (a * 1000 + b * 100 + c * 10 + d) % 10 = d := by omega
  rw [e1, e2, e3, e4]
  simp

/-- C25: nothing else is accepted, up to one trailing newline (which `$` allows and which no word of a split text has). -/
theorem C25_only (v : Str) (n : Nat) (h : parseRoman v = .ok n) :
    1 ≤ n ∧ n < 5000 ∧ (v = roman n ∨ v = roman n ++ ['\n']) := by
  obtain ⟨h1, h2, tail, ht, hv⟩ := parseRoman_ok h
  refine ⟨h1, h2, ?_⟩
  rcases ht with rfl | rfl
  · left; simpa using hv
  · right; exact hv

/-- C25: for texts without newlines, being accepted with value `n` and being the numeral of `n` are the same. -/
theorem C25_iff (v : Str) (hv : '\n' ∉ v) (n : Nat) : parseRoman v = .ok n ↔ 1 ≤ n ∧ n < 5000 ∧ v = roman n := by
  constructor
  · intro h
    obtain ⟨h1, h2, h3 | h3⟩ := C25_only v n h
    · exact ⟨h1, h2, h3⟩
    · exact absurd (by rw [h3]; simp) hv
  · rintro ⟨h1, h2, rfl⟩; exact C25_reads n h1 h2

/-- C25: the only failure is `ValueError`. -/
theorem C25_error (v : Str) (e : PyErr) (h : parseRoman v = .error e) : e = .valueError := by
  unfold parseRoman at h; split at h <;> simp_all

example : roman 1994 = c!"MCMXCIV" ∧ roman 4999 = c!"MMMMCMXCIX" ∧ roman 1 = c!"I" := by decide
example : parseRoman c!"MCMXCIV" = .ok 1994 := C25_reads 1994 (by decide) (by decide)

/-! ## C26 -/

theorem splitFrom_eq (u : Uni) (s cur : Str) :
    splitFrom u cur s = ((s.splitOnP u.space).modifyHead (fun w => cur.reverse ++ w)).filter (fun w => !w.isEmpty) := by
  induction s generalizing cur with
  | nil =>
    simp only [splitFrom, List.splitOnP_nil, List.modifyHead_cons, List.append_nil]
    cases cur <;> simp
  | cons c s ih =>
    simp only [splitFrom]
    rw [List.splitOnP_cons]
    have hnil : splitFrom u [] s = (s.splitOnP u.space).filter (fun w => !w.isEmpty) := by
      rw [ih]
      congr 1
      cases s.splitOnP u.space <;> simp
    by_cases hc : u.space c = true
    · simp only [hc, if_true, List.modifyHead_cons, List.append_nil]
      rw [hnil]
      cases cur with
      | nil => simp
      | cons x cur => simp
    · simp only [hc, Bool.false_eq_true, if_false]
      rw [ih]
      congr 1
      cases s.splitOnP u.space <;> simp

theorem splitWords_eq (u : Uni) (s : Str) : splitWords u s = wordsOf u s := by
  unfold splitWords wordsOf
  rw [splitFrom_eq]
  congr 1
  cases s.splitOnP u.space <;> simp

theorem wordsOf_single {u : Uni} {s : Str} (hne : s ≠ []) (h : ∀ c ∈ s, u.space c = false) : wordsOf u s = [s] := by
  unfold wordsOf
  rw [List.splitOnP_eq_singleton (fun x hx => by simp [h x hx])]
  cases s <;> simp_all

theorem wordsOf_newline {u : Uni} {s : Str} (hne : s ≠ []) (h : ∀ c ∈ s, u.space c = false) (hn : u.space '\n' = true) :
    wordsOf u (s ++ ['\n']) = [s] := by
  unfold wordsOf
  rw [List.splitOnP_append_cons_of_forall_mem (fun x hx => by simp [h x hx]) '\n' hn []]
  cases s <;> simp_all

theorem firstOk_some {f : Str → Except PyErr Nat} {V : Str → Nat → Prop} {ws : List Str}
    (hV : ∀ w ∈ ws, ∀ n, f w = .ok n ↔ V w n) (n : Nat) : firstOk f ws = some n ↔ FirstValue V ws n := by
  induction ws with
  | nil =>
    simp only [firstOk, reduceCtorEq, false_iff]
    rintro ⟨pre, w, post, h, _⟩
    simp at h
  | cons w ws ih =>
    have ih' := ih (fun x hx => hV x (by simp [hx]))
    simp only [firstOk]
    cases hf : f w with
    | ok m =>
      have hm := (hV w (by simp) m).1 hf
      simp only [Option.some.injEq]
      constructor
      · rintro rfl; exact ⟨[], w, ws, rfl, hm, by simp⟩
      · rintro ⟨pre, w', post, h, h2, h3⟩
        cases pre with
        | nil =>
          simp only [List.nil_append, List.cons.injEq] at h
          obtain ⟨rfl, rfl⟩ := h
          have := (hV w (by simp) n).2 h2
          rw [hf] at this; simpa using this
        | cons x pre =>
          simp only [List.cons_append, List.cons.injEq] at h
          obtain ⟨rfl, rfl⟩ := h
          exact absurd hm (h3 w (by simp) m)
    | error e =>
      have hno : ∀ m, ¬ V w m := fun m hm => by rw [(hV w (by simp) m).2 hm] at hf; cases hf
      simp only
      rw [ih']
      constructor
      · rintro ⟨pre, w', post, rfl, h2, h3⟩
        refine ⟨w :: pre, w', post, rfl, h2, ?_⟩
        intro x hx
        rcases List.mem_cons.1 hx with rfl | hx
        · exact hno
        · exact h3 x hx
      · rintro ⟨pre, w', post, h, h2, h3⟩
        cases pre with
        | nil =>
          simp only [List.nil_append, List.cons.injEq] at h
          obtain ⟨rfl, rfl⟩ := h
          exact absurd h2 (hno n)
        | cons x pre =>
          simp only [List.cons_append, List.cons.injEq] at h
          obtain ⟨rfl, rfl⟩ := h
          exact ⟨pre, w', post, rfl, h2, fun y hy => h3 y (by simp [hy])⟩

theorem firstOk_none {f : Str → Except PyErr Nat} {ws : List Str} (h : firstOk f ws = none) : ∀ w ∈ ws, ∀ n, f w ≠ .ok n := by
  induction ws with
  | nil => simp
  | cons w ws ih =>
    simp only [firstOk] at h
    cases hf : f w with
    | ok m => rw [hf] at h; simp at h
    | error e =>
      rw [hf] at h
      intro x hx n hxn
      rcases List.mem_cons.1 hx with rfl | hx
      · rw [hf] at hxn; cases hxn
      · exact ih h x hx n hxn

theorem indexOf_some {xs : List Str} (hnd : xs.Nodup) {x : Str} {n : Nat} : indexOf? xs x = some n ↔ xs[n]? = some x := by
  unfold indexOf?
  rw [List.findIdx?_eq_some_iff_getElem]
  constructor
  · rintro ⟨h, h1, _⟩
    have : xs[n] = x := by simpa using h1
    rw [List.getElem?_eq_getElem h, this]
  · intro h
    obtain ⟨hn, hx⟩ := List.getElem?_eq_some_iff.1 h
    refine ⟨hn, by simp [hx], ?_⟩
    intro j hj
    have : xs[j] ≠ x := by
      intro he
      have := (List.Nodup.getElem_inj_iff hnd).1 (he.trans hx.symm)
      omega
    simpa using this

theorem indexOf_none {xs : List Str} {x : Str} : indexOf? xs x = none ↔ x ∉ xs := by
  unfold indexOf?
  rw [List.findIdx?_eq_none_iff]
  constructor
  · intro h hx; have := h x hx; simp at this
  · intro h y hy; simp; rintro rfl; exact h hy

/-- The rank of a word in the first list that contains it. -/
def RankNumber (w : Str) (n : Nat) : Prop :=
  englishWords[n]? = some w ∨ (w ∉ englishWords ∧ (frenchWords[n]? = some w ∨
    (w ∉ frenchWords ∧ frenchAltWords[n]? = some w)))

instance (w : Str) (n : Nat) : Decidable (RankNumber w n) := by unfold RankNumber; infer_instance

theorem rank_iff (w : Str) (n : Nat) : RankNumber w n ↔ WordNumber w n := by
  constructor
  · have hall : ∀ l ∈ [englishWords, frenchWords, frenchAltWords], ∀ n < 21, ∀ w ∈ l[n]?, ∃ e ∈ wordTable, e.1 = n ∧ w ∈ e.2 := by
      decide
    have hlen : ∀ l ∈ [englishWords, frenchWords, frenchAltWords], l.length = 21 := by decide
    have key : ∀ l ∈ [englishWords, frenchWords, frenchAltWords], l[n]? = some w → WordNumber w n := by
      intro l hl h
      have hn := (List.getElem?_eq_some_iff.1 h).1
      rw [hlen l hl] at hn
      obtain ⟨⟨m, ws⟩, h1, h2, h3⟩ := hall l hl n hn w h
      simp only at h2; subst h2
      exact ⟨ws, h1, h3⟩
    rintro (h | ⟨_, h | ⟨_, h⟩⟩)
    · exact key _ (by simp) h
    · exact key _ (by simp) h
    · exact key _ (by simp) h
  · have hall : ∀ e ∈ wordTable, ∀ w ∈ e.2, RankNumber w e.1 := by decide
    rintro ⟨ws, h1, h2⟩
    exact hall (n, ws) h1 w h2

theorem parseWord_iff (u : Uni) (w : Str) (n : Nat) : parseWord u w = .ok n ↔ IsWord u w n := by
  unfold IsWord
  rw [← rank_iff]
  unfold parseWord RankNumber
  have n1 : englishWords.Nodup := by decide
  have n2 : frenchWords.Nodup := by decide
  have n3 : frenchAltWords.Nodup := by decide
  simp only [parseWordIn]
  cases h1 : indexOf? englishWords (u.lower w) with
  | some m =>
    have hm := (indexOf_some n1).1 h1
    have hin : u.lower w ∈ englishWords := List.mem_of_getElem? hm
    simp only [Except.ok.injEq]
    constructor
    · rintro rfl; exact Or.inl hm
    · rintro (h | ⟨h, _⟩)
      · have := (indexOf_some n1).2 h; rw [h1] at this; simpa using this
      · exact absurd hin h
  | none =>
    have hnot := indexOf_none.1 h1
    have hne : englishWords[n]? ≠ some (u.lower w) := fun h => hnot (List.mem_of_getElem? h)
    simp only [hne, false_or, hnot, not_false_eq_true, true_and]
    cases h2 : indexOf? frenchWords (u.lower w) with
    | some m =>
      have hm := (indexOf_some n2).1 h2
      have hin : u.lower w ∈ frenchWords := List.mem_of_getElem? hm
      simp only [Except.ok.injEq]
      constructor
      · rintro rfl; exact Or.inl hm
      · rintro (h | ⟨h, _⟩)
        · have := (indexOf_some n2).2 h; rw [h2] at this; simpa using this
        · exact absurd hin h
    | none =>
      have hnot := indexOf_none.1 h2
      have hne : frenchWords[n]? ≠ some (u.lower w) := fun h => hnot (List.mem_of_getElem? h)
      simp only [hne, false_or, hnot, not_false_eq_true, true_and]
      cases h3 : indexOf? frenchAltWords (u.lower w) with
      | some m =>
        have hm := (indexOf_some n3).1 h3
        simp only [Except.ok.injEq]
        constructor
        · rintro rfl; exact hm
        · intro h; have := (indexOf_some n3).2 h; rw [h3] at this; simpa using this
      | none =>
        have hnot := indexOf_none.1 h3
        simp only [reduceCtorEq, false_iff]
        exact fun h => hnot (List.mem_of_getElem? h)

theorem roman_chars {n : Nat} : ∀ c ∈ roman n, c ∈ c!"MCDLXVI" := by
  have hd : ∀ (o f t : Char) (d : Nat), ∀ c ∈ romanDigit o f t d, c = o ∨ c = f ∨ c = t := by
    intro o f t d c hc
    match d with
    | 0 => simp [romanDigit] at hc
    | 1 => simp [romanDigit] at hc; exact Or.inl hc
    | 2 => simp [romanDigit] at hc; exact Or.inl hc
    | 3 => simp [romanDigit] at hc; exact Or.inl hc
    | 4 => simp [romanDigit] at hc; rcases hc with h | h <;> simp [h]
    | 5 => simp [romanDigit] at hc; exact Or.inr (Or.inl hc)
    | 6 => simp [romanDigit] at hc; rcases hc with h | h <;> simp [h]
    | 7 => simp [romanDigit] at hc; rcases hc with h | h <;> simp [h]
    | 8 => simp [romanDigit] at hc; rcases hc with h | h <;> simp [h]
    | 9 => simp [romanDigit] at hc; rcases hc with h | h <;> simp [h]
    | n + 10 => simp [romanDigit] at hc
  intro c hc
  unfold roman at hc
  simp only [List.mem_append] at hc
  rcases hc with ((hc | hc) | hc) | hc
  · rw [List.eq_of_mem_replicate hc]; decide
  · rcases hd _ _ _ _ c hc with rfl | rfl | rfl <;> decide
  · rcases hd _ _ _ _ c hc with rfl | rfl | rfl <;> decide
  · rcases hd _ _ _ _ c hc with rfl | rfl | rfl <;> decide

theorem roman_ne_nil {n : Nat} (h1 : 1 ≤ n) (h2 : n < 5000) : roman n ≠ [] := by
  intro h
  have := C25_reads n h1 h2
  rw [h] at this
  revert this
  have : parseRoman [] = .error .valueError := by rfl
  rw [this]; simp

/-- Without digits in the text, the integer branch fails. -/
theorem pyInt_no_digit (u : Uni) (v : Str) (h : ∀ c ∈ v, u.isDigit c = false) : pyInt u v = .error .valueError := by
  have hb : ∀ s : Str, (∀ c ∈ s, u.isDigit c = false) → intBody u 0 false s = none := by
    intro s hs
    cases s with
    | nil => rfl
    | cons c s =>
      have := hs c (by simp)
      unfold Uni.isDigit at this
      simp only [intBody]
      cases hd : u.digit c with
      | none => simp
      | some d => rw [hd] at this; simp at this
  have hsub : ∀ c ∈ ((v.dropWhile u.space).reverse.dropWhile u.space).reverse, u.isDigit c = false := by
    intro c hc
    rw [List.mem_reverse] at hc
    have h2 := (List.dropWhile_sublist _).subset hc
    rw [List.mem_reverse] at h2
    exact h c ((List.dropWhile_sublist _).subset h2)
  unfold pyInt
  generalize ((v.dropWhile u.space).reverse.dropWhile u.space).reverse = t at hsub ⊢
  simp only
  split
  · rename_i he
    split at he
    · rw [hb _ (fun c hc => hsub c (by simp [hc]))] at he; cases he
    · rw [hb _ (fun c hc => hsub c (by simp [hc]))] at he; cases he
    · rw [hb _ hsub] at he; cases he
  · rfl

theorem intBody_digits (u : Uni) (ds : Str) (h : ∀ c ∈ ds, u.isDigit c = true) (acc : Nat) (hne : ds ≠ [] ) (p : Bool) :
    intBody u acc p ds = some (ds.foldl (fun n c => n * 10 + (u.digit c).getD 0) acc) := by
  have gen : ∀ (ds : Str) (acc : Nat), (∀ c ∈ ds, u.isDigit c = true) →
      intBody u acc true ds = some (ds.foldl (fun n c => n * 10 + (u.digit c).getD 0) acc) := by
    intro ds
    induction ds with
    | nil => intro acc _; rfl
    | cons c ds ih =>
      intro acc hc
      have hd := hc c (by simp)
      unfold Uni.isDigit at hd
      obtain ⟨d, hd⟩ := Option.isSome_iff_exists.1 hd
      simp only [intBody, hd, List.foldl_cons, Option.getD_some]
      exact ih _ (fun x hx => hc x (by simp [hx]))
  cases ds with
  | nil => exact absurd rfl hne
  | cons c ds =>
    have hd := h c (by simp)
    unfold Uni.isDigit at hd
    obtain ⟨d, hd⟩ := Option.isSome_iff_exists.1 hd
    simp only [intBody, hd, List.foldl_cons, Option.getD_some]
    exact gen ds _ (fun x hx => h x (by simp [hx]))

theorem pyInt_digits (u : Uni) (hu : Sane u) (ds : Str) (hne : ds ≠ []) (h : ∀ c ∈ ds, u.isDigit c = true) :
    pyInt u ds = .ok (digitsValue u ds) := by
  have hsp : ∀ c ∈ ds, u.space c = false := fun c hc => hu.digit_space c (h c hc)
  have e1 : ds.dropWhile u.space = ds := by
    cases ds with
    | nil => rfl
    | cons c ds => rw [List.dropWhile_cons, if_neg]; simp [hsp c (by simp)]
  have e2 : ds.reverse.dropWhile u.space = ds.reverse := by
    cases hr : ds.reverse with
    | nil => rfl
    | cons c r =>
      rw [List.dropWhile_cons, if_neg]
      have : c ∈ ds := by rw [← List.mem_reverse, hr]; simp
      simp [hsp c this]
  have hb := intBody_digits u ds h 0 hne false
  unfold pyInt
  simp only [e1, e2, List.reverse_reverse]
  split
  · rename_i n he
    split at he
    · rename_i s
      have := h '-' (by simp)
      simp [Uni.isDigit, hu.minus] at this
    · rename_i s
      have := h '+' (by simp)
      simp [Uni.isDigit, hu.plus] at this
    · rw [hb] at he
      simp at he
      rw [← he]; rfl
  · rename_i he
    split at he
    · rename_i s
      have := h '-' (by simp)
      simp [Uni.isDigit, hu.minus] at this
    · rename_i s
      have := h '+' (by simp)
      simp [Uni.isDigit, hu.plus] at this
    · rw [hb] at he; simp at he

theorem cleanRe_no_digit (u : Uni) (v : Str) (h : ∀ c ∈ v, u.isDigit c = false) : (cleanRe u).matchAt v 0 = none := by
  rw [matchAt_none]
  rw [List.eq_nil_iff_forall_not_mem]
  rintro ⟨j, c⟩ hm
  unfold cleanRe at hm
  simp only [Re.cat, mem_seq, mem_grp] at hm
  obtain ⟨k, c1, h1, k2, c2, ⟨c3, h3, _⟩, _⟩ := hm
  rw [mem_rep_chr (Nat.zero_le _)] at h1
  have hk : k ≤ v.length := by
    by_cases h0 : 0 < k
    · exact h1.2.2.le h0
    · omega
  rw [mem_rep_chr hk] at h3
  obtain ⟨x, hx, hp⟩ := h3.2.2 k (Nat.le_refl _) (by omega)
  rw [h x (List.mem_of_getElem? hx)] at hp
  cases hp

theorem cleanRe_digits (u : Uni) (pre ds post : Str) (hpre : ∀ c ∈ pre, u.isDigit c = false) (hne : ds ≠ [])
    (hds : ∀ c ∈ ds, u.isDigit c = true) (hpost : ∀ c, post.head? = some c → u.isDigit c = false) :
    ∃ e, (cleanRe u).matchAt (pre ++ ds ++ post) 0 = some (e, [(1, (pre.length, pre.length + ds.length))]) := by
  generalize hv : pre ++ ds ++ post = v
  have hlen : v.length = pre.length + ds.length + post.length := by rw [← hv]; simp; omega
  have hdpos := List.length_pos_iff.2 hne
  have h1 : ((Re.rep (.chr fun c => !u.isDigit c) 0 none).exec v 0 []).head? = some (pre.length, []) := by
    apply rep_chr_head (Nat.zero_le _) (by omega)
    · intro k _ hk
      refine ⟨pre[k], by rw [← hv, List.append_assoc, List.getElem?_append_left hk, List.getElem?_eq_getElem hk], ?_⟩
      simp [hpre _ (List.getElem_mem hk)]
    · intro x hx
      rw [← hv, List.append_assoc, List.getElem?_append_right (Nat.le_refl _), Nat.sub_self,
        List.getElem?_append_left hdpos] at hx
      simp [hds x (List.mem_of_getElem? hx)]
  have h2 : ((Re.rep (.chr u.isDigit) 1 none).exec v pre.length []).head? = some (pre.length + ds.length, []) := by
    apply rep_chr_head (by omega) (by omega)
    · intro k hk1 hk2
      have hk : k - pre.length < ds.length := by omega
      refine ⟨ds[k - pre.length], ?_, hds _ (List.getElem_mem hk)⟩
      rw [← hv, List.append_assoc, List.getElem?_append_right hk1, List.getElem?_append_left hk, List.getElem?_eq_getElem hk]
    · intro x hx
      rw [← hv, List.getElem?_append_right (by simp)] at hx
      apply hpost
      rw [List.head?_eq_getElem?, ← hx]; congr 1; simp
  have h2' : ((Re.grp 1 (.rep (.chr u.isDigit) 1 none)).exec v pre.length []).head? =
      some (pre.length + ds.length, [(1, (pre.length, pre.length + ds.length))]) := by
    simp only [Re.exec, List.head?_map] at h2 ⊢
    rw [h2]; rfl
  have h3 : ∃ e, ((Re.rep (.chr fun c => !u.isDigit c) 0 none).exec v (pre.length + ds.length)
      [(1, (pre.length, pre.length + ds.length))]).head? = some (e, [(1, (pre.length, pre.length + ds.length))]) := by
    cases hh : ((Re.rep (.chr fun c => !u.isDigit c) 0 none).exec v (pre.length + ds.length)
      [(1, (pre.length, pre.length + ds.length))]).head? with
    | none =>
      rw [List.head?_eq_none_iff] at hh
      have : (pre.length + ds.length, [(1, (pre.length, pre.length + ds.length))]) ∈
          (Re.rep (.chr fun c => !u.isDigit c) 0 none).exec v (pre.length + ds.length) [(1, (pre.length, pre.length + ds.length))] :=
        (mem_rep_chr (by omega)).2 ⟨rfl, by omega, fun k h1 h2 => absurd h2 (by omega)⟩
      rw [hh] at this; cases this
    | some x =>
      obtain ⟨e, c⟩ := x
      have := (mem_rep_chr (by omega)).1 (List.mem_of_mem_head? hh)
      rw [this.1]; exact ⟨e, rfl⟩
  obtain ⟨e, h3⟩ := h3
  refine ⟨e, ?_⟩
  unfold Re.matchAt cleanRe
  simp only [Re.cat]
  rw [Re.exec]
  apply head_flatMap h1
  rw [Re.exec]
  apply head_flatMap h2'
  rw [Re.exec]
  apply head_flatMap h3
  rfl

/-- The first digit run of a text that has digits. -/
theorem first_digits (u : Uni) (v : Str) (h : ∃ c ∈ v, u.isDigit c = true) :
    ∃ pre ds post, v = pre ++ ds ++ post ∧ (∀ c ∈ pre, u.isDigit c = false) ∧ ds ≠ [] ∧
      (∀ c ∈ ds, u.isDigit c = true) ∧ ∀ c, post.head? = some c → u.isDigit c = false := by
  induction v with
  | nil => obtain ⟨c, hc, _⟩ := h; cases hc
  | cons x v ih =>
    by_cases hx : u.isDigit x = true
    · refine ⟨[], (x :: v).takeWhile u.isDigit, (x :: v).dropWhile u.isDigit, ?_, by simp, ?_, ?_, ?_⟩
      · rw [List.nil_append, List.takeWhile_append_dropWhile]
      · simp [hx]
      · intro c hc; exact (List.mem_takeWhile_imp hc)
      · intro c hc
        have : ∀ l : Str, (l.dropWhile u.isDigit).head? = some c → u.isDigit c = false := by
          intro l
          induction l with
          | nil => intro h; simp at h
          | cons y l ih2 =>
            intro h
            rw [List.dropWhile_cons] at h
            split at h
            · exact ih2 h
            · rename_i hy
              simp only [List.head?_cons, Option.some.injEq] at h
              subst h; simpa using hy
        exact this _ hc
    · have : ∃ c ∈ v, u.isDigit c = true := by
        obtain ⟨c, hc, hd⟩ := h
        rcases List.mem_cons.1 hc with rfl | hc
        · exact absurd hd hx
        · exact ⟨c, hc, hd⟩
      obtain ⟨pre, ds, post, rfl, h1, h2, h3, h4⟩ := ih this
      refine ⟨x :: pre, ds, post, rfl, ?_, h2, h3, h4⟩
      intro c hc
      rcases List.mem_cons.1 hc with rfl | hc
      · simpa using hx
      · exact h1 c hc

theorem numeralInt_digits (u : Uni) (hu : Sane u) (pre ds post : Str) (hpre : ∀ c ∈ pre, u.isDigit c = false) (hne : ds ≠ [])
    (hds : ∀ c ∈ ds, u.isDigit c = true) (hpost : ∀ c, post.head? = some c → u.isDigit c = false) :
    numeralInt u true (pre ++ ds ++ post) = some (digitsValue u ds : Int) := by
  obtain ⟨e, he⟩ := cleanRe_digits u pre ds post hpre hne hds hpost
  unfold numeralInt
  simp only [if_true, he, List.lookup, beq_self_eq_true]
  have : numeralInt.Re.sub (pre ++ ds ++ post) pre.length (pre.length + ds.length) = ds := by
    unfold numeralInt.Re.sub
    rw [← List.length_append, List.take_left']
    · simp
    · rfl
  rw [this, pyInt_digits u hu ds hne hds]

theorem numeralInt_none (u : Uni) (v : Str) (h : ∀ c ∈ v, u.isDigit c = false) : numeralInt u true v = none := by
  unfold numeralInt
  simp only [if_true, cleanRe_no_digit u v h, pyInt_no_digit u v h]

theorem isRoman_iff (u : Uni) (w : Str) (hw : '\n' ∉ u.upper w) (n : Nat) : parseRoman (u.upper w) = .ok n ↔ IsRoman u w n :=
  C25_iff _ hw n

/-- C26: `parse_numeral` with its default flags returns exactly the documented reading of the text, and raises `ValueError`
exactly when there is none.  `hnl`: upper-casing a word creates no newline. -/
theorem C26_reading (u : Uni) (hu : Sane u) (value : Str) (hnl : ∀ w ∈ wordsOf u value, '\n' ∉ u.upper w) (n : Int) :
    parseNumeral u value true true true true = .ok n ↔ Reading u value n := by
  by_cases hdig : ∃ c ∈ value, u.isDigit c = true
  · obtain ⟨pre, ds, post, hv, h1, h2, h3, h4⟩ := first_digits u value hdig
    have hint := numeralInt_digits u hu pre ds post h1 h2 h3 h4
    rw [← hv] at hint
    have hres : parseNumeral u value true true true true = .ok (digitsValue u ds) := by
      unfold parseNumeral; simp only [if_true, hint]
    rw [hres]
    simp only [Except.ok.injEq]
    constructor
    · rintro rfl; exact Reading.digits pre ds post hv h1 h2 h3 h4
    · intro h
      cases h with
      | digits pre' ds' post' hv' g1 g2 g3 g4 =>
        have := numeralInt_digits u hu pre' ds' post' g1 g2 g3 g4
        rw [← hv', hint] at this
        simpa using this
      | roman m hno _ =>
        obtain ⟨c, hc, hd⟩ := hdig; rw [hno c hc] at hd; cases hd
      | word m hno _ _ =>
        obtain ⟨c, hc, hd⟩ := hdig; rw [hno c hc] at hd; cases hd
  · have hno : ∀ c ∈ value, u.isDigit c = false := by
      intro c hc
      cases h : u.isDigit c
      · rfl
      · exact absurd ⟨c, hc, h⟩ hdig
    have hint := numeralInt_none u value hno
    have hrom : ∀ m, firstOk (fun w => parseRoman (u.upper w)) (splitWords u value) = some m ↔
        FirstValue (IsRoman u) (wordsOf u value) m := by
      intro m
      rw [splitWords_eq]
      exact firstOk_some (fun w hw n => isRoman_iff u w (hnl w hw) n) m
    have hword : ∀ m, firstOk (parseWord u) (splitWords u value) = some m ↔ FirstValue (IsWord u) (wordsOf u value) m := by
      intro m
      rw [splitWords_eq]
      exact firstOk_some (fun w _ n => parseWord_iff u w n) m
    have nodigits : ∀ m, Reading u value m → (∃ k : Nat, m = k ∧ FirstValue (IsRoman u) (wordsOf u value) k) ∨
        ((∀ w ∈ wordsOf u value, ∀ m, ¬ IsRoman u w m) ∧ ∃ k : Nat, m = k ∧ FirstValue (IsWord u) (wordsOf u value) k) := by
      intro m h
      cases h with
      | digits pre' ds' post' hv' g1 g2 g3 g4 =>
        obtain ⟨x, r, hx⟩ := List.exists_cons_of_ne_nil g2
        have : u.isDigit x = false := hno x (by rw [hv', hx]; simp)
        rw [g3 x (by rw [hx]; simp)] at this; cases this
      | roman k _ h => exact Or.inl ⟨k, rfl, h⟩
      | word k _ h1 h2 => exact Or.inr ⟨h1, k, rfl, h2⟩
    unfold parseNumeral
    simp only [if_true, hint]
    cases hf : firstOk (fun w => parseRoman (u.upper w)) (splitWords u value) with
    | some m =>
      have hm := (hrom m).1 hf
      have : numeralRoman u true value = some (m : Int) := by unfold numeralRoman; simp only [if_true, hf]
      simp only [this, Except.ok.injEq]
      constructor
      · rintro rfl; exact Reading.roman m hno hm
      · intro h
        rcases nodigits n h with ⟨k, rfl, hk⟩ | ⟨hnone, _⟩
        · have := (hrom k).2 hk
          rw [hf] at this
          exact congrArg _ (Option.some.inj this)
        · obtain ⟨pre, w, post, hw, hv, _⟩ := hm
          exact absurd hv (hnone w (by rw [hw]; simp) m)
    | none =>
      have hnone : ∀ w ∈ wordsOf u value, ∀ m, ¬ IsRoman u w m := by
        intro w hw m hm
        refine firstOk_none hf w (by rw [splitWords_eq]; exact hw) m ?_
        exact (isRoman_iff u w (hnl w hw) m).2 hm
      -- the direct attempt cannot succeed either
      have hdir : ∀ m, parseRoman value ≠ .ok m := by
        intro m hm
        obtain ⟨h1, h2, hv⟩ := C25_only value m hm
        have hsp : ∀ c ∈ roman m, u.space c = false := fun c hc => hu.signs c (roman_chars c hc)
        have hup : u.upper (roman m) = roman m := hu.upper_signs _ roman_chars
        have hws : wordsOf u value = [roman m] := by
          rcases hv with rfl | rfl
          · exact wordsOf_single (roman_ne_nil h1 h2) hsp
          · exact wordsOf_newline (roman_ne_nil h1 h2) hsp hu.newline
        exact hnone (roman m) (by rw [hws]; simp) m ⟨h1, h2, hup⟩
      have hr : numeralRoman u true value = none := by
        unfold numeralRoman
        simp only [if_true, hf]
        cases hp : parseRoman value with
        | ok m => exact absurd hp (hdir m)
        | error e => rfl
      simp only [hr]
      cases hg : firstOk (parseWord u) (splitWords u value) with
      | some m =>
        have hm := (hword m).1 hg
        have : numeralWord u true value = some (m : Int) := by unfold numeralWord; simp only [if_true, hg]
        simp only [this, Except.ok.injEq]
        constructor
        · rintro rfl; exact Reading.word m hno hnone hm
        · intro h
          rcases nodigits n h with ⟨k, rfl, hk⟩ | ⟨_, k, rfl, hk⟩
          · obtain ⟨pre, w, post, hw, hv, _⟩ := hk
            exact absurd hv (hnone w (by rw [hw]; simp) k)
          · have := (hword k).2 hk
            rw [hg] at this
            exact congrArg _ (Option.some.inj this)
      | none =>
        have hnw : ∀ w ∈ wordsOf u value, ∀ m, ¬ IsWord u w m := by
          intro w hw m hm
          exact firstOk_none hg w (by rw [splitWords_eq]; exact hw) m ((parseWord_iff u w m).2 hm)
        have hdirw : ∀ m, parseWord u value ≠ .ok m := by
          intro m hm
          have hm := (parseWord_iff u value m).1 hm
          obtain ⟨ws, hws, hin⟩ := hm
          have hsp : ∀ c ∈ value, u.space c = false := by
            intro c hc
            cases h : u.space c
            · rfl
            · obtain ⟨d, hd, hds⟩ := hu.lower_space value ⟨c, hc, h⟩
              rw [hu.words_space _ hws _ hin d hd] at hds; cases hds
          have hne : value ≠ [] := by
            rintro rfl
            rw [hu.lower_nil] at hin
            have : ∀ e ∈ wordTable, [] ∉ e.2 := by decide
            exact this _ hws hin
          exact hnw value (by rw [wordsOf_single hne hsp]; simp) m ⟨ws, hws, hin⟩
        have hw : numeralWord u true value = none := by
          unfold numeralWord
          simp only [if_true, hg]
          cases hp : parseWord u value with
          | ok m => exact absurd hp (hdirw m)
          | error e => rfl
        simp only [hw, reduceCtorEq, false_iff]
        intro h
        rcases nodigits n h with ⟨k, rfl, hk⟩ | ⟨_, k, rfl, hk⟩
        · obtain ⟨pre, w, post, hw, hv, _⟩ := hk
          exact hnone w (by rw [hw]; simp) k hv
        · obtain ⟨pre, w, post, hw, hv, _⟩ := hk
          exact hnw w (by rw [hw]; simp) k hv

/-- C26: number words are read as the number they name, in any case. -/
theorem C26_words (u : Uni) (e : Nat × List Str) (he : e ∈ wordTable) (w : Str) (hw : u.lower w ∈ e.2) :
    parseWord u w = .ok e.1 := (parseWord_iff u w e.1).2 ⟨e.2, he, hw⟩

/-- C26: without cleaning, a sign before the digits is honoured. -/
theorem C26_signed (u : Uni) (hu : Sane u) (hs : u.space '-' = false ∧ u.space '+' = false) (ds : Str) (hne : ds ≠ [])
    (h : ∀ c ∈ ds, u.isDigit c = true) (r w : Bool) :
    parseNumeral u ('-' :: ds) true r w false = .ok (-(digitsValue u ds : Int)) ∧
    parseNumeral u ('+' :: ds) true r w false = .ok (digitsValue u ds : Int) := by
  have hstrip : ∀ c : Char, u.space c = false → (((c :: ds).dropWhile u.space).reverse.dropWhile u.space).reverse = c :: ds := by
    intro c hc
    have e1 : (c :: ds).dropWhile u.space = c :: ds := by rw [List.dropWhile_cons, hc]; rfl
    rw [e1]
    have e2 : (c :: ds).reverse.dropWhile u.space = (c :: ds).reverse := by
      cases hr : (c :: ds).reverse with
      | nil => rfl
      | cons x r =>
        have hx : x ∈ c :: ds := by rw [← List.mem_reverse, hr]; simp
        have : u.space x = false := by
          rcases List.mem_cons.1 hx with rfl | hx
          · exact hc
          · exact hu.digit_space x (h x hx)
        rw [List.dropWhile_cons, this]; rfl
    rw [e2, List.reverse_reverse]
  have hb := intBody_digits u ds h 0 hne false
  unfold parseNumeral numeralInt pyInt
  simp only [if_true, Bool.false_eq_true, if_false, hstrip '-' hs.1, hstrip '+' hs.2, hb, Option.map_some]
  exact ⟨rfl, rfl⟩

/-- C26: the only exception is `ValueError`, whatever the flags. -/
theorem C26_error (u : Uni) (value : Str) (i r w c : Bool) (e : PyErr) (h : parseNumeral u value i r w c = .error e) :
    e = .valueError := by
  unfold parseNumeral at h
  split at h
  · cases h
  split at h
  · cases h
  split at h <;> simp_all

/-- C26: a disabled form is never used: without `int_enabled` and `word_enabled` only Roman numerals are read. -/
theorem C26_flags (u : Uni) (value : Str) (n : Int) (h : parseNumeral u value false true false false = .ok n) :
    ∃ k : Nat, n = k ∧ 1 ≤ k ∧ k < 5000 ∧ (value = roman k ∨ value = roman k ++ ['\n']) := by
  unfold parseNumeral at h
  simp only [Bool.false_eq_true, if_false, if_true] at h
  unfold numeralRoman at h
  simp only [Bool.false_eq_true, if_false] at h
  cases hp : parseRoman value with
  | error e => rw [hp] at h; simp at h
  | ok m =>
    rw [hp] at h
    simp only [Except.ok.injEq] at h
    exact ⟨m, h.symm, C25_only value m hp⟩

/-- ASCII tables, extended with `é`, as an instance of the hypotheses. -/
def asciiUni : Uni where
  digit := fun c => if '0' ≤ c ∧ c ≤ '9' then some (c.toNat - 48) else none
  space := fun c => c = ' ' ∨ c = '\n' ∨ c = '\t'
  lower := fun s => s.map fun c => if 'A' ≤ c ∧ c ≤ 'Z' then Char.ofNat (c.toNat + 32) else c
  upper := fun s => s.map fun c => if 'a' ≤ c ∧ c ≤ 'z' then Char.ofNat (c.toNat - 32) else c

theorem asciiUni_sane : Sane asciiUni where
  digit_space := by
    intro c h
    simp only [asciiUni] at h ⊢
    split at h
    · rename_i hc
      have h1 : '0'.toNat ≤ c.toNat := hc.1
      simp only [decide_eq_false_iff_not, not_or]
      refine ⟨?_, ?_, ?_⟩ <;> rintro rfl <;> revert h1 <;> decide
    · cases h
  minus := by decide
  plus := by decide
  newline := by decide
  signs := by decide
  upper_signs := by
    intro w hw
    simp only [asciiUni]
    conv_rhs => rw [← List.map_id w]
    apply List.map_congr_left
    intro c hc
    have := hw c hc
    have hall : ∀ c ∈ c!"MCDLXVI", (if 'a' ≤ c ∧ c ≤ 'z' then Char.ofNat (c.toNat - 32) else c) = c := by decide
    exact hall c this
  lower_space := by
    rintro w ⟨c, hc, hs⟩
    refine ⟨c, ?_, hs⟩
    simp only [asciiUni, List.mem_map]
    refine ⟨c, hc, ?_⟩
    simp only [asciiUni, decide_eq_true_eq] at hs
    rcases hs with rfl | rfl | rfl <;> decide
  lower_nil := rfl
  words_space := by decide

example : Reading asciiUni c!"season iv of two" 4 ∧ Reading asciiUni c!"part two" 2 ∧ Reading asciiUni c!"x12b3" 12 := by
  refine ⟨?_, ?_, ?_⟩
  · exact (C26_reading asciiUni asciiUni_sane _ (by decide) 4).1 (by rfl)
  · exact (C26_reading asciiUni asciiUni_sane _ (by decide) 2).1 (by rfl)
  · exact (C26_reading asciiUni asciiUni_sane _ (by decide) 12).1 (by rfl)

end Guessit
