import Verif.Proofs.Quantity
import Verif.Proofs.Text

/-!
# Properties C29, C30: quantities
-/

namespace Guessit
open Spec Re

/-! ## C29 -/

/-- C29: equality of quantities and texts is symmetric. -/
theorem C29_symm (fl : Floats) (hf : LawfulFloats fl) (a b : QObj fl) : a.eq b = b.eq a := by
  obtain ⟨α, val, emb, hi, h1, h2⟩ := hf.numeric
  have hsym : ∀ x y, fl.eq x y = fl.eq y x := by
    intro x y
    rw [Bool.eq_iff_iff, h1, h1]; exact ⟨Eq.symm, Eq.symm⟩
  have hmag : ∀ x y : Mag fl, x.eq y = y.eq x := by
    intro x y
    cases x <;> cases y <;> simp only [Mag.eq]
    · rw [decide_eq_decide]; exact ⟨Eq.symm, Eq.symm⟩
    · exact hsym _ _
  cases a <;> cases b <;> simp only [QObj.eq]
  · rw [decide_eq_decide]; exact ⟨Eq.symm, Eq.symm⟩
  · rename_i p q
    rw [hmag]
    have e1 : decide (p.cls = q.cls) = decide (q.cls = p.cls) := by rw [decide_eq_decide]; exact ⟨Eq.symm, Eq.symm⟩
    have e2 : decide (p.units = q.units) = decide (q.units = p.units) := by rw [decide_eq_decide]; exact ⟨Eq.symm, Eq.symm⟩
    rw [e1, e2]

theorem mag_eq_iff {fl : Floats} {α : Type} {val : fl.F → α} {emb : Int → α} (hi : Function.Injective emb)
    (h1 : ∀ x y, fl.eq x y = true ↔ val x = val y) (h2 : ∀ x n, fl.eqInt x n = true ↔ val x = emb n) (x y : Mag fl) :
    x.eq y = true ↔ (match x with | .int n => emb n | .float v => val v) = (match y with | .int n => emb n | .float v => val v) := by
  cases x <;> cases y <;> simp only [Mag.eq, decide_eq_true_eq]
  · exact ⟨fun h => by rw [h], fun h => hi h⟩
  · rw [h2]; exact ⟨Eq.symm, Eq.symm⟩
  · exact h2 _ _
  · exact h1 _ _

/-- C29: equality of quantities is transitive. -/
theorem C29_trans (fl : Floats) (hf : LawfulFloats fl) (a b c : Quantity fl) (hab : (QObj.qty a).eq (.qty b) = true)
    (hbc : (QObj.qty b).eq (.qty c) = true) : (QObj.qty a).eq (.qty c) = true := by
  obtain ⟨α, val, emb, hi, h1, h2⟩ := hf.numeric
  simp only [QObj.eq, Bool.and_eq_true, decide_eq_true_eq, mag_eq_iff hi h1 h2] at hab hbc ⊢
  exact ⟨⟨hab.1.1.trans hbc.1.1, hab.1.2.trans hbc.1.2⟩, hab.2.trans hbc.2⟩

/-- C29: a quantity equal to a text hashes like the text. -/
theorem C29_hash_text (fl : Floats) (hashStr : Str → Int) (q : Quantity fl) (s : Str) (h : (QObj.qty q).eq (.str s) = true) :
    (QObj.qty q).hash hashStr = (QObj.str s : QObj fl).hash hashStr := by
  simp only [QObj.eq, decide_eq_true_eq] at h
  simp only [QObj.hash, h]

/-- C29: two equal quantities hash alike when both magnitudes are integers or both are decimals. -/
theorem C29_hash_partial (fl : Floats) (hf : LawfulFloats fl) (hashStr : Str → Int) (a b : Quantity fl)
    (hk : SameKind a.magnitude b.magnitude) (h : (QObj.qty a).eq (.qty b) = true) :
    (QObj.qty a).hash hashStr = (QObj.qty b).hash hashStr := by
  simp only [QObj.eq, Bool.and_eq_true, decide_eq_true_eq] at h
  obtain ⟨⟨h1, h2⟩, h3⟩ := h
  have : a.text = b.text := by
    unfold Quantity.text
    rw [h3]
    congr 1
    cases ha : a.magnitude <;> cases hb : b.magnitude <;> rw [ha, hb] at h2 hk
    · simp only [Mag.eq, decide_eq_true_eq] at h2; rw [h2]
    · exact hk.elim
    · exact hk.elim
    · exact (hf.text _ _).1 h2
  simp only [QObj.hash, this]

/-- Floats where the only number is one: enough for the examples below. -/
def oneFloats : Floats where
  F := Unit
  ofText := fun _ => ()
  toText := fun _ => c!"1.0"
  eq := fun _ _ => true
  eqInt := fun _ n => n = 1

theorem oneFloats_lawful : LawfulFloats oneFloats where
  numeric := ⟨Int, fun _ => 1, id, fun _ _ h => h, by simp [oneFloats], by intro x n; simp [oneFloats, eq_comm]⟩
  text := by simp [oneFloats]

def oneEnv : QEnv where
  u := asciiUni
  cap := fun s => match s with | [] => [] | c :: s => asciiUpper c :: s.map asciiLower
  fl := oneFloats

/-- C29 fails in general: `Size('1GB') == Size('1.0GB')`, but they print, and hence hash, differently; and only the first is
equal to the text `1GB`. -/
theorem C29_counterexample_int_float : ∃ a b : Quantity oneFloats, fromString oneEnv .size c!"1GB" = .ok a ∧
    fromString oneEnv .size c!"1.0GB" = .ok b ∧ (QObj.qty a).eq (.qty b) = true ∧ a.text = c!"1GB" ∧ b.text = c!"1.0GB" ∧
    (∀ hashStr : Str → Int, hashStr c!"1GB" ≠ hashStr c!"1.0GB" → (QObj.qty a).hash hashStr ≠ (QObj.qty b).hash hashStr) ∧
    (QObj.qty a).eq (.str c!"1GB") = true ∧ (QObj.qty b).eq (.str c!"1GB") = false :=
  ⟨⟨.size, .int 1, c!"GB"⟩, ⟨.size, .float (), c!"GB"⟩, rfl, rfl, rfl, rfl, rfl, fun _ h => h, rfl, rfl⟩

/-! ## C30 -/

theorem strip_fix {chars s : Str} (h1 : ∀ c, s.head? = some c → c ∉ chars) (h2 : ∀ c, s.getLast? = some c → c ∉ chars) :
    stripChars chars s = s := by
  unfold stripChars
  have e1 : s.dropWhile chars.contains = s := by
    cases s with
    | nil => rfl
    | cons c s => rw [List.dropWhile_cons, if_neg]; simpa using h1 c rfl
  have e2 : s.reverse.dropWhile chars.contains = s.reverse := by
    cases hr : s.reverse with
    | nil => rfl
    | cons c r =>
      rw [List.dropWhile_cons, if_neg]
      have : s.getLast? = some c := by rw [List.getLast?_eq_head?_reverse, hr]; rfl
      simpa using h2 c this
  rw [e1, e2, List.reverse_reverse]

theorem ascii_cases {P : Char → Prop} (h : ∀ n, n < 128 → P (Char.ofNat n)) (c : Char) (hc : c.toNat < 128) : P c := by
  have := h c.toNat hc
  rwa [Char.ofNat_toNat] at this

theorem upper_facts (c : Char) (hc : c.toNat < 128) : (asciiUpper c).toNat < 128 ∧ asciiUpper (asciiUpper c) = asciiUpper c ∧
    (asciiUpper c ∈ seps ↔ c ∈ seps) ∧ (('0' ≤ asciiUpper c ∧ asciiUpper c ≤ '9') ↔ ('0' ≤ c ∧ c ≤ '9')) ∧ asciiUpper c ≠ 'b' :=
  ascii_cases (P := fun c => (asciiUpper c).toNat < 128 ∧ asciiUpper (asciiUpper c) = asciiUpper c ∧
    (asciiUpper c ∈ seps ↔ c ∈ seps) ∧ (('0' ≤ asciiUpper c ∧ asciiUpper c ≤ '9') ↔ ('0' ≤ c ∧ c ≤ '9')) ∧ asciiUpper c ≠ 'b')
    (by decide) c hc

theorem lower_facts (c : Char) (hc : c.toNat < 128) : (asciiLower c).toNat < 128 ∧ asciiLower (asciiLower c) = asciiLower c ∧
    (asciiLower c ∈ seps ↔ c ∈ seps) ∧ (('0' ≤ asciiLower c ∧ asciiLower c ≤ '9') ↔ ('0' ≤ c ∧ c ≤ '9')) :=
  ascii_cases (P := fun c => (asciiLower c).toNat < 128 ∧ asciiLower (asciiLower c) = asciiLower c ∧
    (asciiLower c ∈ seps ↔ c ∈ seps) ∧ (('0' ≤ asciiLower c ∧ asciiLower c ≤ '9') ↔ ('0' ≤ c ∧ c ≤ '9')))
    (by decide) c hc

/-! `str.replace` -/

theorem replace_mem {old new : Str} {k : Nat} {s : Str} {c : Char} (h : c ∈ replaceTextFrom old new k s) : c ∈ s ∨ c ∈ new := by
  induction s generalizing k with
  | nil => simp [replaceTextFrom] at h
  | cons x s ih =>
    cases k with
    | zero =>
      simp only [replaceTextFrom] at h
      split at h
      · rcases List.mem_append.1 h with h | h
        · exact Or.inr h
        · rcases ih h with h | h
          · exact Or.inl (by simp [h])
          · exact Or.inr h
      · rcases List.mem_cons.1 h with rfl | h
        · exact Or.inl (by simp)
        · rcases ih h with h | h
          · exact Or.inl (by simp [h])
          · exact Or.inr h
    | succ k =>
      simp only [replaceTextFrom] at h
      rcases ih h with h | h
      · exact Or.inl (by simp [h])
      · exact Or.inr h

theorem replace_last {old new : Str} (hnew : new ≠ []) {k : Nat} {s : Str} {c : Char}
    (h : (replaceTextFrom old new k s).getLast? = some c) : s.getLast? = some c ∨ new.getLast? = some c := by
  induction s generalizing k with
  | nil => simp [replaceTextFrom] at h
  | cons x s ih =>
    have up : s.getLast? = some c → (x :: s).getLast? = some c := by
      intro h; cases s with
      | nil => simp at h
      | cons y s => simpa [List.getLast?_cons_cons] using h
    cases k with
    | zero =>
      simp only [replaceTextFrom] at h
      split at h
      · rw [List.getLast?_append] at h
        cases hr : (replaceTextFrom old new (old.length - 1) s).getLast? with
        | none => rw [hr] at h; exact Or.inr (by simpa using h)
        | some y =>
          rw [hr] at h
          simp only [Option.some_or, Option.some.injEq] at h
          subst h
          rcases ih hr with h | h
          · exact Or.inl (up h)
          · exact Or.inr h
      · cases hr : replaceTextFrom old new 0 s with
        | nil =>
          rw [hr] at h
          simp only [List.getLast?_singleton, Option.some.injEq] at h
          subst h
          cases s with
          | nil => exact Or.inl rfl
          | cons y s =>
            exfalso
            simp only [replaceTextFrom] at hr
            split at hr
            · simp [hnew] at hr
            · simp at hr
        | cons y r =>
          rw [hr, List.getLast?_cons_cons, ← hr] at h
          rcases ih h with h | h
          · exact Or.inl (up h)
          · exact Or.inr h
    | succ k =>
      simp only [replaceTextFrom] at h
      rcases ih h with h | h
      · exact Or.inl (up h)
      · exact Or.inr h

/-- No occurrence of `sub` in `s`. -/
def NoSub (sub s : Str) : Prop := ∀ t, t <:+ s → ¬ sub <+: t

theorem replace_none {old new s : Str} (h : NoSub old s) : replaceTextFrom old new 0 s = s := by
  induction s with
  | nil => rfl
  | cons c s ih =>
    simp only [replaceTextFrom]
    rw [if_neg, ih (fun t ht => h t (ht.trans (List.suffix_cons _ _)))]
    rw [List.isPrefixOf_iff_prefix]
    exact h _ List.suffix_rfl

theorem replace_head_ne {s t : Str} {x : Char} (hx : x ≠ 'b') (h : replaceTextFrom c!"bit" c!"bps" 0 s = x :: t) :
    ∃ s', s = x :: s' ∧ t = replaceTextFrom c!"bit" c!"bps" 0 s' := by
  cases s with
  | nil => simp [replaceTextFrom] at h
  | cons c s =>
    simp only [replaceTextFrom] at h
    split at h
    · simp only [List.cons_append, List.cons.injEq] at h
      exact absurd h.1.symm hx
    · simp only [List.cons.injEq] at h
      exact ⟨s, by rw [h.1], h.2.symm⟩

theorem bit_cons_prefix {c : Char} {s : Str} : c!"bit" <+: c :: s ↔ c = 'b' ∧ ∃ s', s = 'i' :: 't' :: s' := by
  rw [List.cons_prefix_cons]
  constructor
  · rintro ⟨h1, t, ht⟩; exact ⟨h1.symm, t, by simpa using ht.symm⟩
  · rintro ⟨rfl, s', rfl⟩; exact ⟨rfl, s', rfl⟩

theorem replace_noSub (k : Nat) (s : Str) : NoSub c!"bit" (replaceTextFrom c!"bit" c!"bps" k s) := by
  have nil : NoSub c!"bit" [] := by
    intro t ht hp
    rw [List.suffix_nil.1 ht] at hp
    simp at hp
  have cons : ∀ {c : Char} {t : Str}, NoSub c!"bit" t → ¬ c!"bit" <+: c :: t → NoSub c!"bit" (c :: t) := by
    intro c t h1 h2 r hr
    rcases List.suffix_cons_iff.1 hr with rfl | hr
    · exact h2
    · exact h1 r hr
  induction s generalizing k with
  | nil => simpa [replaceTextFrom] using nil
  | cons c s ih =>
    cases k with
    | zero =>
      simp only [replaceTextFrom]
      split
      · refine cons (cons (cons (ih _) ?_) ?_) ?_ <;> rw [bit_cons_prefix] <;> simp
      · rename_i hno
        rw [List.isPrefixOf_iff_prefix, bit_cons_prefix] at hno
        refine cons (ih _) ?_
        rw [bit_cons_prefix]
        rintro ⟨rfl, s', hs'⟩
        obtain ⟨s1, rfl, h1⟩ := replace_head_ne (by decide) hs'
        obtain ⟨s2, rfl, h2⟩ := replace_head_ne (by decide) h1.symm
        exact hno ⟨rfl, s2, rfl⟩
    | succ k => simpa [replaceTextFrom] using ih k

theorem noSub_bits {s : Str} (h : NoSub c!"bit" s) : NoSub c!"bits" s := by
  intro t ht hp
  refine h t ht (List.IsPrefix.trans ?_ hp)
  exact ⟨c!"s", rfl⟩

/-- Units as printed: reading them again gives the same units. -/
def StableUnits (env : QEnv) (cls : QClass) (us : Str) : Prop :=
  us ≠ [] ∧ (∀ c ∈ us, env.u.isDigit c = false) ∧ parseUnits env cls (some us) = .ok us

theorem isDigit_ascii {env : QEnv} (ht : AsciiTables env) {c : Char} (hc : c.toNat < 128) :
    env.u.isDigit c = true ↔ '0' ≤ c ∧ c ≤ '9' := by
  unfold Uni.isDigit
  rw [ht.digit c hc]
  split <;> simp_all

theorem units_stable {env : QEnv} (ht : AsciiTables env) {cls : QClass} {v us : Str} (hv : Ascii v)
    (hd : ∀ c ∈ v, env.u.isDigit c = false) (h : parseUnits env cls (some v) = .ok us) (hne : us ≠ []) : StableUnits env cls us := by
  have hstrip : ∀ c ∈ stripChars seps v, c ∈ v := fun c hc => strip_mem hc
  have hasc : Ascii (stripChars seps v) := fun c hc => hv c (hstrip c hc)
  cases cls with
  | frameRate =>
    simp only [parseUnits, Except.ok.injEq] at h
    subst h
    refine ⟨by simp, ?_, rfl⟩
    intro c hc
    cases hcd : env.u.isDigit c with
    | false => rfl
    | true =>
      exfalso
      have h128 : ∀ c ∈ c!"fps", c.toNat < 128 ∧ ¬ ('0' ≤ c ∧ c ≤ '9') := by decide
      obtain ⟨h1, h2⟩ := h128 c hc
      exact h2 ((isDigit_ascii ht h1).1 hcd)
  | size =>
    simp only [parseUnits, Except.ok.injEq] at h
    rw [ht.upper _ hasc] at h
    subst h
    have hup : Ascii ((stripChars seps v).map asciiUpper) := by
      intro c hc
      obtain ⟨x, hx, rfl⟩ := List.mem_map.1 hc
      exact (upper_facts x (hasc x hx)).1
    refine ⟨hne, ?_, ?_⟩
    · intro c hc
      obtain ⟨x, hx, rfl⟩ := List.mem_map.1 hc
      have h1 := hd x (hstrip x hx)
      obtain ⟨f1, _, _, f4, _⟩ := upper_facts x (hasc x hx)
      rw [Bool.eq_false_iff] at h1 ⊢
      intro h2
      exact h1 ((isDigit_ascii ht (hasc x hx)).2 (f4.1 ((isDigit_ascii ht f1).1 h2)))
    · simp only [parseUnits, Except.ok.injEq]
      rw [strip_fix, ht.upper _ hup, List.map_map]
      · apply List.map_congr_left
        intro c hc
        exact (upper_facts c (hasc c hc)).2.1
      · intro c hc
        rw [List.head?_map] at hc
        obtain ⟨x, hx, rfl⟩ := Option.map_eq_some_iff.1 hc
        have := strip_head hx
        rw [(upper_facts x (hasc x (List.mem_of_mem_head? hx))).2.2.1]; exact this
      · intro c hc
        rw [List.getLast?_map] at hc
        obtain ⟨x, hx, rfl⟩ := Option.map_eq_some_iff.1 hc
        have := strip_getLast hx
        rw [(upper_facts x (hasc x (List.mem_of_getLast? hx))).2.2.1]; exact this
  | bitRate =>
    simp only [parseUnits, Except.ok.injEq] at h
    cases hw : stripChars seps v with
    | nil =>
      rw [hw, ht.cap_nil] at h
      exact absurd h.symm hne
    | cons c r =>
      rw [hw] at h hasc hstrip
      rw [ht.cap c r hasc] at h
      have hc := hasc c (by simp)
      have hcb := (upper_facts c hc).2.2.2.2
      have hcs : c ∉ seps := strip_head (s := v) (by rw [hw]; rfl)
      have keep : ∀ (old : Str) (t : Str), old.head? = some 'b' →
          replaceText old c!"bps" (asciiUpper c :: t) = asciiUpper c :: replaceText old c!"bps" t := by
        intro old t ho
        unfold replaceText
        simp only [replaceTextFrom]
        rw [if_neg]
        rw [List.isPrefixOf_iff_prefix]
        cases old with
        | nil => simp at ho
        | cons y old =>
          simp only [List.head?_cons, Option.some.injEq] at ho
          subst ho
          rw [List.cons_prefix_cons]
          rintro ⟨h1, _⟩; exact hcb h1.symm
      rw [keep _ _ rfl, keep _ _ rfl] at h
      generalize hR : replaceText c!"bit" c!"bps" (replaceText c!"bits" c!"bps" (r.map asciiLower)) = R at h
      subst h
      have hmemR : ∀ x ∈ R, (∃ y ∈ r, x = asciiLower y) ∨ x ∈ c!"bps" := by
        intro x hx
        rw [← hR] at hx
        rcases replace_mem hx with hx | hx
        · rcases replace_mem hx with hx | hx
          · obtain ⟨y, hy, rfl⟩ := List.mem_map.1 hx
            exact Or.inl ⟨y, hy, rfl⟩
          · exact Or.inr hx
        · exact Or.inr hx
      have bps : ∀ x ∈ c!"bps", x.toNat < 128 ∧ asciiLower x = x ∧ x ∉ seps ∧ ¬ ('0' ≤ x ∧ x ≤ '9') := by decide
      have hR128 : ∀ x ∈ R, x.toNat < 128 ∧ asciiLower x = x := by
        intro x hx
        rcases hmemR x hx with ⟨y, hy, rfl⟩ | hx
        · have f := lower_facts y (hasc y (by simp [hy])); exact ⟨f.1, f.2.1⟩
        · exact ⟨(bps x hx).1, (bps x hx).2.1⟩
      have hascR : Ascii (asciiUpper c :: R) := by
        intro x hx
        rcases List.mem_cons.1 hx with rfl | hx
        · exact (upper_facts c hc).1
        · exact (hR128 x hx).1
      refine ⟨by simp, ?_, ?_⟩
      · intro x hx
        rw [Bool.eq_false_iff]
        intro hxd
        have hxd := (isDigit_ascii ht (hascR x hx)).1 hxd
        have nod : ∀ y, y ∈ c :: r → ¬ ('0' ≤ y ∧ y ≤ '9') := by
          intro y hy hyd
          have := hd y (hstrip y hy)
          rw [(isDigit_ascii ht (hasc y hy)).2 hyd] at this; cases this
        rcases List.mem_cons.1 hx with rfl | hx
        · exact nod c (by simp) ((upper_facts c hc).2.2.2.1.1 hxd)
        · rcases hmemR x hx with ⟨y, hy, rfl⟩ | hx
          · exact nod y (by simp [hy]) ((lower_facts y (hasc y (by simp [hy]))).2.2.2.1 hxd)
          · exact (bps x hx).2.2.2 hxd
      · have hNo : NoSub c!"bit" (asciiUpper c :: R) := by
          intro t htt
          rcases List.suffix_cons_iff.1 htt with rfl | htt
          · rw [bit_cons_prefix]; rintro ⟨h1, _⟩; exact hcb h1
          · rw [← hR] at htt; exact replace_noSub 0 _ t htt
        simp only [parseUnits, Except.ok.injEq]
        rw [strip_fix, ht.cap _ _ hascR, (upper_facts c hc).2.1]
        · have hmap : R.map asciiLower = R := by
            conv_rhs => rw [← List.map_id R]
            apply List.map_congr_left
            intro x hx; exact (hR128 x hx).2
          rw [hmap]
          unfold replaceText
          rw [replace_none (noSub_bits hNo), replace_none hNo]
        · intro x hx
          simp only [List.head?_cons, Option.some.injEq] at hx
          subst hx
          rw [(upper_facts c hc).2.2.1]; exact hcs
        · intro x hx
          have hlast : ∀ y, (c :: r).getLast? = some y → y ∉ seps := by
            intro y hy; exact strip_getLast (s := v) (by rw [hw]; exact hy)
          cases hRc : R with
          | nil =>
            rw [hRc] at hx
            simp only [List.getLast?_singleton, Option.some.injEq] at hx
            subst hx
            rw [(upper_facts c hc).2.2.1]; exact hcs
          | cons z R' =>
            rw [hRc, List.getLast?_cons_cons, ← hRc, ← hR] at hx
            rcases replace_last (by simp) hx with hx | hx
            · rcases replace_last (by simp) hx with hx | hx
              · rw [List.getLast?_map] at hx
                obtain ⟨y, hy, rfl⟩ := Option.map_eq_some_iff.1 hx
                have hyr : y ∈ r := List.mem_of_getLast? hy
                rw [(lower_facts y (hasc y (by simp [hyr]))).2.2.1]
                apply hlast
                cases r with
                | nil => simp at hy
                | cons z r => rw [List.getLast?_cons_cons]; exact hy
              · exact (bps x (List.mem_of_getLast? hx)).2.2.1
            · exact (bps x (List.mem_of_getLast? hx)).2.2.1

theorem fromString_text {env : QEnv} (ht : AsciiTables env) {cls : QClass} {m us : Str} (hm : MagText env.u m)
    (hus : StableUnits env cls us) :
    fromString env cls (m ++ us) = .ok ⟨cls, (match pyInt env.u m with | .ok n => .int n | .error _ => .float (env.fl.ofText m)), us⟩ := by
  have hdot : env.u.isDigit '.' = false := by
    rw [Bool.eq_false_iff]
    intro h
    exact absurd ((isDigit_ascii ht (by decide)).1 h) (by decide)
  unfold fromString
  rw [exec_magnitude hdot hm hus.1 hus.2.1]
  have e1 : (List.take m.length (m ++ us)).drop 0 = m := by simp
  have e2 : (List.take (m.length + us.length) (m ++ us)).drop m.length = us := by
    rw [← List.length_append, List.take_length]; simp
  simp only [List.lookup, Option.map_some, beq_self_eq_true, show (1 == 2) = false from rfl, e1, e2, Option.getD_some, hus.2.2]
  cases pyInt env.u m <;> rfl

/-- A decimal number in plain notation: digits, a point, digits. -/
def PlainDecimal (t : Str) : Prop := ∃ a b, t = a ++ '.' :: b ∧ a ≠ [] ∧ b ≠ [] ∧
  (∀ c ∈ a, '0' ≤ c ∧ c ≤ '9') ∧ (∀ c ∈ b, '0' ≤ c ∧ c ≤ '9')

theorem ascii_digit_lt {c : Char} (h : '0' ≤ c ∧ c ≤ '9') : c.toNat < 128 := by
  have : c.toNat ≤ '9'.toNat := h.2
  have : '9'.toNat = 57 := rfl
  omega

theorem intBody_stop (u : Uni) (ds : Str) (x : Char) (rest : Str) (hx : u.digit x = none) (hx' : x ≠ '_')
    (h : ∀ c ∈ ds, u.isDigit c = true) (acc : Nat) (p : Bool) : intBody u acc p (ds ++ x :: rest) = none := by
  induction ds generalizing acc p with
  | nil => simp [intBody, hx, hx']
  | cons c ds ih =>
    have hc := h c (by simp)
    unfold Uni.isDigit at hc
    obtain ⟨d, hd⟩ := Option.isSome_iff_exists.1 hc
    simp only [List.cons_append, intBody, hd]
    exact ih (fun y hy => h y (by simp [hy])) _ _

theorem pyInt_decimal {env : QEnv} (ht : AsciiTables env) {t : Str} (h : PlainDecimal t) : pyInt env.u t = .error .valueError := by
  obtain ⟨a, b, rfl, ha, hb, hda, hdb⟩ := h
  obtain ⟨x, a', rfl⟩ := List.exists_cons_of_ne_nil ha
  have hdig : ∀ c, '0' ≤ c ∧ c ≤ '9' → env.u.isDigit c = true := fun c hc => (isDigit_ascii ht (ascii_digit_lt hc)).2 hc
  have hx := hda x (by simp)
  have e1 : (x :: a' ++ '.' :: b).dropWhile env.u.space = x :: a' ++ '.' :: b := by
    rw [List.cons_append, List.dropWhile_cons, if_neg]
    simp [ht.space x hx]
  have e2 : (x :: a' ++ '.' :: b).reverse.dropWhile env.u.space = (x :: a' ++ '.' :: b).reverse := by
    cases hr : (x :: a' ++ '.' :: b).reverse with
    | nil => rfl
    | cons c r =>
      rw [List.dropWhile_cons, if_neg]
      have hlast : (x :: a' ++ '.' :: b).getLast? = some c := by rw [List.getLast?_eq_head?_reverse, hr]; rfl
      have : c ∈ b := by
        cases b with
        | nil => exact absurd rfl hb
        | cons y b' =>
          rw [List.getLast?_append] at hlast
          rw [List.getLast?_cons_cons] at hlast
          have : (y :: b').getLast? = some c := by
            cases hl : (y :: b').getLast? with
            | none => simp at hl
            | some z => rw [hl] at hlast; simpa using hlast
          exact List.mem_of_getLast? this
      simp [ht.space c (hdb c this)]
  have hdot : env.u.digit '.' = none := by rw [ht.digit _ (by decide)]; decide
  have hbody := intBody_stop env.u (x :: a') '.' b hdot (by decide) (fun c hc => hdig c (hda c hc)) 0 false
  have hminus : x ≠ '-' := by rintro rfl; revert hx; decide
  have hplus : x ≠ '+' := by rintro rfl; revert hx; decide
  unfold pyInt
  simp only [e1, e2, List.reverse_reverse]
  split
  · rename_i n he
    split at he
    · rename_i s hs; rw [List.cons_append] at hs; simp only [List.cons.injEq] at hs; exact absurd hs.1 hminus
    · rename_i s hs; rw [List.cons_append] at hs; simp only [List.cons.injEq] at hs; exact absurd hs.1 hplus
    · rw [hbody] at he; cases he
  · rfl

/-- C30: printing a quantity parsed from ASCII text and parsing it again gives the same quantity, for every class, provided
it has units and, when the magnitude is a float, the float prints in plain notation and reads back. -/
theorem C30_round_trip (env : QEnv) (ht : AsciiTables env) (cls : QClass) (s : Str) (hs : Ascii s) (q : Quantity env.fl)
    (h : fromString env cls s = .ok q) (hu : q.units ≠ [])
    (hf : ∀ x, q.magnitude = .float x → PlainDecimal (env.fl.toText x) ∧ env.fl.ofText (env.fl.toText x) = x) :
    fromString env cls q.text = .ok q := by
  unfold fromString at h
  cases hm : (quantityRe env.u).matchAt s 0 with
  | none => rw [hm] at h; cases h
  | some r =>
    obtain ⟨e, caps⟩ := r
    rw [hm] at h
    simp only at h
    obtain ⟨a, hmag, h1, h2⟩ := match_magnitude hm
    have htext : ∀ a b, Ascii (textOf s a b) := fun a b c hc => hs c (List.mem_of_mem_take (List.mem_of_mem_drop hc))
    have hunits : StableUnits env cls q.units := by
      rcases h2 with h2 | ⟨b, h2, _, _, h3⟩
      · rw [h2] at h
        simp only [Option.map_none] at h
        cases cls <;> simp only [parseUnits] at h
        · cases h
        · cases h
        · simp only [Except.ok.injEq] at h
          rw [← h]
          exact units_stable ht (v := []) (by intro c hc; cases hc) (by intro c hc; cases hc) rfl (by simp)
      · rw [h2] at h
        simp only [Option.map_some] at h
        split at h
        · rename_i us hus
          simp only [Except.ok.injEq] at h
          subst h
          exact units_stable ht (htext a b) h3 hus hu
        · cases h
    have hq : q.cls = cls := by
      split at h
      · simp only [Except.ok.injEq] at h; rw [← h]
      · cases h
    have hqm : q.magnitude = (match pyInt env.u (textOf s 0 a) with | .ok n => .int n | .error _ => .float (env.fl.ofText (textOf s 0 a))) := by
      rw [h1] at h
      split at h
      · simp only [Except.ok.injEq, Option.map_some, Option.getD_some] at h; rw [← h]; rfl
      · cases h
    have hsign : env.u.digit '-' = none ∧ env.u.digit '+' = none := by
      rw [ht.digit _ (by decide), ht.digit _ (by decide)]; decide
    obtain ⟨qc, qm, qu⟩ := q
    simp only at hq hqm hunits hf
    subst hq
    unfold Quantity.text
    simp only
    have hspace : ∀ ds : Str, Ascii ds → (∀ c ∈ ds, env.u.isDigit c = true) → ∀ c ∈ ds, env.u.space c = false :=
      fun ds h1 h2 c hc => ht.space c ((isDigit_ascii ht (h1 c hc)).1 (h2 c hc))
    have intCase : ∀ n : Nat, qm = .int n → fromString env qc (qm.text ++ qu) = .ok ⟨qc, qm, qu⟩ := by
      intro n hn
      subst hn
      obtain ⟨g1, g2, g3, g4⟩ := natTextF_spec ht (n + 1) n (by omega)
      have e : (Mag.int (n : Int) : Mag env.fl).text = natTextF (n + 1) n := by
        simp [Mag.text, intText, natText]
      rw [e, fromString_text ht (MagText.int _ g1 g2) hunits, pyInt_of_digits _ g1 g2 (hspace _ g3 g2) hsign, g4]
    cases hmag' : pyInt env.u (textOf s 0 a) with
    | ok n =>
      rw [hmag'] at hqm
      have hn : ∃ k : Nat, n = k := by
        generalize htx : textOf s 0 a = tx at hmag hmag'
        cases hmag with
        | int _ hne hd =>
          rw [pyInt_of_digits _ hne hd (hspace _ (by rw [← htx]; exact htext 0 a) hd) hsign] at hmag'
          simp only [Except.ok.injEq] at hmag'
          exact ⟨_, hmag'.symm⟩
        | dec ds fs g1 g2 g3 g4 =>
          have hA : Ascii (ds ++ '.' :: fs) := by rw [← htx]; exact htext 0 a
          have : PlainDecimal (ds ++ '.' :: fs) := ⟨ds, fs, rfl, g1, g3,
            fun c hc => (isDigit_ascii ht (hA c (by simp [hc]))).1 (g2 c hc),
            fun c hc => (isDigit_ascii ht (hA c (by simp [hc]))).1 (g4 c hc)⟩
          rw [pyInt_decimal ht this] at hmag'; cases hmag'
      obtain ⟨k, rfl⟩ := hn
      exact intCase k hqm
    | error er =>
      rw [hmag'] at hqm
      simp only at hqm
      obtain ⟨hpd, hrt⟩ := hf _ hqm
      have hmt : MagText env.u (env.fl.toText (env.fl.ofText (textOf s 0 a))) := by
        obtain ⟨x, y, hxy, k1, k2, k3, k4⟩ := hpd
        rw [hxy]
        exact MagText.dec x y k1 (fun c hc => (isDigit_ascii ht (ascii_digit_lt (k3 c hc))).2 (k3 c hc)) k2
          (fun c hc => (isDigit_ascii ht (ascii_digit_lt (k4 c hc))).2 (k4 c hc))
      subst hqm
      show fromString env qc (env.fl.toText _ ++ qu) = _
      rw [fromString_text ht hmt hunits, pyInt_decimal ht hpd]
      simp only [hrt]

theorem oneEnv_tables : AsciiTables oneEnv where
  digit := by intro c _; rfl
  space := by
    intro c h
    have h0 : '0'.toNat ≤ c.toNat := h.1
    simp only [oneEnv, asciiUni, decide_eq_false_iff_not, not_or]
    refine ⟨?_, ?_, ?_⟩ <;> rintro rfl <;> revert h0 <;> decide
  upper := by intro s _; rfl
  cap := by intro c s _; rfl
  cap_nil := rfl

example : fromString oneEnv .bitRate c!"320 KBits" = .ok ⟨.bitRate, .int 320, c!"Kbps"⟩ ∧
    fromString oneEnv .bitRate c!"320Kbps" = .ok ⟨.bitRate, .int 320, c!"Kbps"⟩ :=
  ⟨rfl, C30_round_trip oneEnv oneEnv_tables .bitRate c!"320 KBits" (by unfold Ascii; decide) ⟨.bitRate, .int 320, c!"Kbps"⟩ rfl (by simp)
    (by intro x h; cases h)⟩

/-- C30: the condition on units is needed: with nothing but separators after the number the printed text has no units and
cannot be parsed again. -/
theorem C30_counterexample_no_units : ∃ q, fromString oneEnv .size c!"5 -" = .ok q ∧ q.text = c!"5" ∧
    fromString oneEnv .size q.text = .error .attributeError :=
  ⟨⟨.size, .int 5, []⟩, rfl, rfl, rfl⟩

/-- A run of digits is determined by the text it starts. -/
theorem digit_prefix_unique {p : Char → Bool} : ∀ {a b x y : Str}, a ++ x = b ++ y → (∀ c ∈ a, p c = true) → (∀ c ∈ b, p c = true) →
    (∀ c, x.head? = some c → p c = false) → (∀ c, y.head? = some c → p c = false) → a = b ∧ x = y
  | [], [], _, _, h, _, _, _, _ => ⟨rfl, h⟩
  | [], b :: bs, x, y, h, _, hb, hx, _ => by
      simp only [List.nil_append, List.cons_append] at h
      have := hx b (by rw [h]; rfl)
      rw [hb b (by simp)] at this; cases this
  | a :: as, [], x, y, h, ha, _, _, hy => by
      simp only [List.nil_append, List.cons_append] at h
      have := hy a (by rw [← h]; rfl)
      rw [ha a (by simp)] at this; cases this
  | a :: as, b :: bs, x, y, h, ha, hb, hx, hy => by
      simp only [List.cons_append, List.cons.injEq] at h
      obtain ⟨h1, h2⟩ := digit_prefix_unique h.2 (fun c hc => ha c (by simp [hc])) (fun c hc => hb c (by simp [hc])) hx hy
      exact ⟨by rw [h.1, h1], h2⟩

/-- C29: printing loses nothing: two quantities with whole magnitudes (of any sign) and units that do not start with a digit
print alike only if both the magnitudes and the units are the same. -/
theorem C29_text_faithful (fl : Floats) (a b : Quantity fl) (m n : Int) (ha : a.magnitude = .int m) (hb : b.magnitude = .int n)
    (hua : ∀ c, a.units.head? = some c → ¬ ('0' ≤ c ∧ c ≤ '9')) (hub : ∀ c, b.units.head? = some c → ¬ ('0' ≤ c ∧ c ≤ '9'))
    (h : a.text = b.text) : m = n ∧ a.units = b.units := by
  have hdig : ∀ c, asciiUni.isDigit c = true ↔ ('0' ≤ c ∧ c ≤ '9') := by
    intro c; unfold Uni.isDigit asciiUni; simp only; split <;> simp_all
  have hdig' : ∀ c, ¬ ('0' ≤ c ∧ c ≤ '9') → asciiUni.isDigit c = false := by
    intro c hc; rw [← hdig] at hc; simpa using hc
  have spec : ∀ k : Nat, natText k ≠ [] ∧ (∀ c ∈ natText k, asciiUni.isDigit c = true) ∧ digitsValue asciiUni (natText k) = k := by
    intro k
    obtain ⟨h1, h2, _, h4⟩ := natTextF_spec oneEnv_tables (k + 1) k (by omega)
    exact ⟨h1, h2, h4⟩
  have main : ∀ k l : Nat, natText k ++ a.units = natText l ++ b.units → k = l ∧ a.units = b.units := by
    intro k l h
    obtain ⟨h1, h2⟩ := digit_prefix_unique h (spec k).2.1 (spec l).2.1 (fun c hc => hdig' c (hua c hc)) (fun c hc => hdig' c (hub c hc))
    refine ⟨?_, h2⟩
    rw [← (spec k).2.2, h1, (spec l).2.2]
  have sign : ∀ k l : Nat, natText k ++ a.units ≠ '-' :: natText l ++ b.units ∧ '-' :: natText k ++ a.units ≠ natText l ++ b.units := by
    intro k l
    constructor
    · intro h
      cases hk : natText k with
      | nil => exact (spec k).1 hk
      | cons c r =>
        rw [hk] at h
        simp only [List.cons_append, List.cons.injEq] at h
        have := (spec k).2.1 c (by rw [hk]; simp)
        rw [h.1] at this; revert this; decide
    · intro h
      cases hk : natText l with
      | nil => exact (spec l).1 hk
      | cons c r =>
        rw [hk] at h
        simp only [List.cons_append, List.cons.injEq] at h
        have := (spec l).2.1 c (by rw [hk]; simp)
        rw [← h.1] at this; revert this; decide
  unfold Quantity.text at h
  rw [ha, hb] at h
  simp only [Mag.text, intText] at h
  split at h <;> split at h
  · simp only [List.cons_append, List.cons.injEq, true_and] at h
    obtain ⟨h1, h2⟩ := main _ _ h
    exact ⟨by omega, h2⟩
  · exact absurd h (sign _ _).2
  · exact absurd h (sign _ _).1
  · obtain ⟨h1, h2⟩ := main _ _ h
    exact ⟨by omega, h2⟩

example : (⟨.size, .int (-5), c!"MB"⟩ : Quantity oneFloats).text = c!"-5MB" := rfl

end Guessit
